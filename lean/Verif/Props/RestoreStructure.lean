import Verif.Props.Partitioned

/-! C19: restoring into another number of arrays. -/

namespace Verif.Ckpt

open Verif Spec

/-- A checkpoint is never restored into more or fewer arrays than were saved, whatever was read from the files.  The model
compares the numbers of arrays, the code the structures of the trees. -/
theorem C19_structure {α : Type*} (zero : α) (P : Nat) (hP : 0 < P) (ns mb : Option Nat)
    (leaves : List (Leaf α)) (hok : ∀ a ∈ leaves, LeafOk P a) (views : Nat → List (Leaf α))
    (hv : ∀ p < P, List.Forall₂ SameArray leaves (views p)) :
    ∃ out n infos, saveProcess P 0 ns mb (views 0) = .ok out ∧ out.index = some (n, infos) ∧
      ∀ (targets : List (List JaxIndex)) (chunks : List (Chunk α)), targets.length ≠ leaves.length →
        restoreBuffers zero targets infos chunks = .error .valueError := by
  obtain ⟨maps, infos, cs, hR, hsave⟩ := run_ok P ns mb leaves hok views hv
  refine ⟨_, _, infos, hsave 0 hP, rfl, fun targets chunks ht => ?_⟩
  have hlen : infos.length = leaves.length := by
    have := congrArg List.length hR.shapes
    simpa using this
  unfold restoreBuffers
  rw [if_neg (by rw [hlen]; exact ht)]

/-- Two arrays were saved: restoring only the first, or three, is refused. -/
example : ∃ o0 n infos, saveProcess 2 0 (some 3) (some 8) (exViews 0) = .ok o0 ∧ o0.index = some (n, infos) ∧ infos.length = 2 ∧
    (restoreBuffers 0 [[[(none, none), (none, none)]]] infos []).map (fun _ => ()) = .error .valueError ∧
    (restoreBuffers 0 [[[(none, none), (none, none)]], [[]], [[]]] infos []).map (fun _ => ()) = .error .valueError :=
  ⟨_, _, _, rfl, rfl, rfl, rfl, rfl⟩

end Verif.Ckpt
