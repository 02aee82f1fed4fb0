import Verif.Props.DataShare

/-! C96: which function of TFDS makes the builder. -/

namespace Verif.DataShare

open Verif

theorem contains_iff (s t : Key) : contains s t = true ↔ s <:+: t := by
  induction t with
  | nil => simp [contains]
  | cons c t ih => rw [contains, Bool.or_eq_true, ih, List.isPrefixOf_iff_prefix, List.infix_cons_iff]

/-- A name with `from_directory:` anywhere is read from the directory of the data, any other is built by its name and prepared with the
directory of manual downloads. -/
theorem C96_directory {B : Type} (tfds : Tfds B) (a : BuilderArgs) :
    ("from_directory:".toList <:+: a.name → newBuilder tfds a = tfds.fromDirectory a.dataDir) ∧
    (¬ "from_directory:".toList <:+: a.name →
      (∀ e, tfds.build a.name a.dataDir a.tryGcs = .error e → newBuilder tfds a = .error e) ∧
      ∀ b, tfds.build a.name a.dataDir a.tryGcs = .ok b → newBuilder tfds a = tfds.prepare b a.manualDir) := by
  unfold newBuilder
  refine ⟨fun h => by rw [if_pos ((contains_iff _ _).2 h)], fun h => ?_⟩
  rw [if_neg (fun hc => h ((contains_iff _ _).1 hc))]
  exact ⟨fun e he => by rw [he]; rfl, fun b hb => by rw [hb]; rfl⟩

example : "from_directory:".toList <:+: "my_from_directory:x".toList ∧ ¬ "from_directory:".toList <:+: "cifar10".toList := by
  decide +kernel

end Verif.DataShare
