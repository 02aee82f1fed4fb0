import Verif.Model.RemovePool
import Verif.Props.RestorePool

/-!
C112: removing checkpoints.
-/

namespace Verif.RemovePool

variable {F : Type} [DecidableEq F]

/-- The pool can be in this state while `remove_checkpoints` runs. -/
def Reachable (matchFn : F → Bool) (threads : Nat) (filepaths files : List F) (s : Pool F) : Prop :=
  Relation.ReflTransGen (Step matchFn) (Pool.start threads filepaths files) s

/-- The paths still to be processed. -/
def pending (s : Pool F) : List F := s.threads.flatten ++ s.queue.flatten

theorem mem_removeFile (files : List F) (f g : F) : g ∈ removeFile files f ↔ g ∈ files ∧ g ≠ f := by
  unfold removeFile
  simp

theorem start_pending (threads : Nat) (filepaths files : List F) : pending (Pool.start threads filepaths files) = filepaths := by
  unfold pending Pool.start
  have h1 : (List.replicate threads ([] : List F)).flatten = [] := by simp
  simp only [h1, List.nil_append]
  cases filepaths with
  | nil => simp [RestorePool.getTasks]
  | cons f fs => exact RestorePool.getTasks_flatten _ (RestorePool.defaultChunksize_pos _ _ (by simp)) _

/-- What a step does with the paths still to be processed. -/
theorem count_take (th : List (List F)) (i : Nat) (b : List F) (q : List (List F)) (h : th[i]? = some []) (f : F) :
    ((th.set i b).flatten ++ q.flatten).count f = (th.flatten ++ (b :: q).flatten).count f := by
  have := (RestorePool.flatten_set th i [] b h).count_eq f
  simp only [List.count_append, List.flatten_cons, List.nil_append] at *
  omega

theorem count_rest (th : List (List F)) (i : Nat) (g : F) (rest : List F) (q : List (List F)) (h : th[i]? = some (g :: rest)) (f : F) :
    ((th.set i rest).flatten ++ q.flatten).count f + [g].count f = (th.flatten ++ q.flatten).count f := by
  have := (RestorePool.flatten_set th i (g :: rest) rest h).count_eq f
  have e : (g :: rest).count f = [g].count f + rest.count f := by
    rw [← List.count_append]
    rfl
  simp only [List.count_append, e] at *
  omega

theorem count_drop (th : List (List F)) (i : Nat) (a : List F) (q : List (List F)) (h : th[i]? = some a) (f : F) :
    ((th.set i []).flatten ++ q.flatten).count f ≤ (th.flatten ++ q.flatten).count f := by
  have := (RestorePool.flatten_set th i a [] h).count_eq f
  simp only [List.count_append, List.nil_append] at *
  omega

theorem finished_count (s : Pool F) (b : Bool) (h : Returns s b) (f : F) : (pending s).count f = 0 := by
  obtain ⟨h1, h2, _⟩ := h
  unfold pending
  rw [h1, List.flatten_eq_nil_iff.2 h2]
  rfl

theorem pending_mem (matchFn : F → Bool) (threads : Nat) (filepaths files : List F) (s : Pool F) (h : Reachable matchFn threads filepaths files s) :
    ∀ f ∈ pending s, f ∈ filepaths := by
  intro f
  rw [← List.count_pos_iff]
  induction h with
  | refl => rw [start_pending, List.count_pos_iff]; exact id
  | tail _ hs ih =>
    unfold pending at *
    cases hs with
    | take i b q th fs e hi => rw [count_take th i b q hi f]; exact ih
    | keep i g rest q th fs e hi hm =>
      have := count_rest th i g rest q hi f
      intro h; apply ih; simp only at h ⊢; omega
    | remove i g rest q th fs e hi hm hf =>
      have := count_rest th i g rest q hi f
      intro h; apply ih; simp only at h ⊢; omega
    | fail i g rest q th fs e hi hm hf =>
      have := count_drop th i _ q hi f
      intro h; apply ih; simp only at h ⊢; omega

theorem head_pending (th : List (List F)) (i : Nat) (g : F) (rest : List F) (q : List (List F)) (h : th[i]? = some (g :: rest)) :
    g ∈ th.flatten ++ q.flatten := by
  apply List.mem_append_left
  rw [List.mem_flatten]
  exact ⟨g :: rest, List.mem_of_getElem? h, by simp⟩

/-- Nothing else is removed, at any time and whatever the threads do: every file that is gone was given and matches; no file is created. -/
theorem C112_safe (matchFn : F → Bool) (threads : Nat) (filepaths files : List F) (s : Pool F) (h : Reachable matchFn threads filepaths files s) (f : F) :
    (f ∈ s.files → f ∈ files) ∧ (f ∈ files → f ∉ s.files → f ∈ filepaths ∧ matchFn f = true) := by
  induction h with
  | refl => exact ⟨id, fun h1 h2 => absurd h1 h2⟩
  | tail hr hs ih =>
    have hp := pending_mem matchFn threads filepaths files _ hr
    cases hs with
    | take i b q th fs e hi => exact ih
    | keep i g rest q th fs e hi hm => exact ih
    | remove i g rest q th fs e hi hm hf =>
      simp only [mem_removeFile]
      refine ⟨fun h => ih.1 h.1, ?_⟩
      intro h1 h2
      by_cases hfg : f = g
      · subst hfg
        exact ⟨hp _ (head_pending th i f rest q hi), hm⟩
      · exact ih.2 h1 fun h3 => h2 ⟨h3, hfg⟩
    | fail i g rest q th fs e hi hm hf => exact ih

/-- Exactly the given paths that match are removed, without error, if they exist and each is given once: whatever the threads do. -/
theorem C112_removes (matchFn : F → Bool) (threads : Nat) (filepaths files : List F)
    (hex : ∀ f ∈ filepaths, matchFn f = true → f ∈ files ∧ filepaths.count f = 1) (s : Pool F) (h : Reachable matchFn threads filepaths files s)
    (raises : Bool) (hret : Returns s raises) :
    raises = false ∧ ∀ f, f ∈ s.files ↔ f ∈ files ∧ ¬ (f ∈ filepaths ∧ matchFn f = true) := by
  have inv : s.errors = [] ∧ ∀ f, matchFn f = true → f ∈ filepaths → (f ∈ s.files ∧ (pending s).count f = 1) ∨ (f ∉ s.files ∧ (pending s).count f = 0) := by
    clear hret
    induction h with
    | refl =>
      refine ⟨rfl, ?_⟩
      intro f hm hf
      rw [start_pending]
      exact .inl (hex f hf hm)
    | tail hr hs ih =>
      have hp := pending_mem matchFn threads filepaths files _ hr
      obtain ⟨ie, ih⟩ := ih
      unfold pending at *
      cases hs with
      | take i b q th fs e hi =>
        refine ⟨ie, ?_⟩
        intro f hm hf
        rw [count_take th i b q hi f]
        exact ih f hm hf
      | keep i g rest q th fs e hi hm =>
        refine ⟨ie, ?_⟩
        intro f hm' hf
        have := count_rest th i g rest q hi f
        have hne : g ≠ f := by
          rintro rfl
          rw [hm] at hm'
          cases hm'
        rw [List.count_singleton, if_neg (by simpa using hne)] at this
        have := ih f hm' hf
        simp only at this ⊢
        rw [show ((th.set i rest).flatten ++ q.flatten).count f = (th.flatten ++ q.flatten).count f by omega]
        exact this
      | remove i g rest q th fs e hi hm hin =>
        refine ⟨ie, ?_⟩
        intro f hm' hf
        have hc := count_rest th i g rest q hi f
        have hi' := ih f hm' hf
        simp only [mem_removeFile] at hi' ⊢
        by_cases hfg : f = g
        · subst hfg
          rw [List.count_singleton, if_pos (by simp)] at hc
          refine .inr ⟨fun h => h.2 rfl, ?_⟩
          rcases hi' with h1 | h1
          · omega
          · omega
        · rw [List.count_singleton, if_neg (by simpa using Ne.symm hfg)] at hc
          rw [show ((th.set i rest).flatten ++ q.flatten).count f = (th.flatten ++ q.flatten).count f by omega]
          rcases hi' with h1 | h1
          · exact .inl ⟨⟨h1.1, hfg⟩, h1.2⟩
          · exact .inr ⟨fun h => h1.1 h.1, h1.2⟩
      | fail i g rest q th fs e hi hm hno =>
        exfalso
        have hg := head_pending th i g rest q hi
        have hi' := ih g hm (hp g hg)
        rw [← List.count_pos_iff] at hg
        rcases hi' with h1 | h1
        · exact hno h1.1
        · have h2 := h1.2
          simp only at h2
          omega
  refine ⟨?_, ?_⟩
  · rw [hret.2.2, inv.1]
    rfl
  · intro f
    have hs := C112_safe matchFn threads filepaths files s h f
    constructor
    · intro hf
      refine ⟨hs.1 hf, ?_⟩
      rintro ⟨h1, h2⟩
      have h0 := finished_count s raises hret f
      rcases inv.2 f h2 h1 with h3 | h3
      · omega
      · exact h3.1 hf
    · rintro ⟨h1, h2⟩
      by_contra h3
      exact h2 (hs.2 h1 h3)

/-- It raises if a matching path does not exist or is given twice: whatever the threads do. -/
theorem C112_raises (matchFn : F → Bool) (threads : Nat) (filepaths files : List F) (f : F) (hm : matchFn f = true)
    (hf : f ∈ filepaths ∧ f ∉ files ∨ 2 ≤ filepaths.count f) (s : Pool F) (h : Reachable matchFn threads filepaths files s)
    (raises : Bool) (hret : Returns s raises) : raises = true := by
  have inv : s.errors ≠ [] ∨ (f ∈ s.files ∧ 2 ≤ (pending s).count f) ∨ (f ∉ s.files ∧ 1 ≤ (pending s).count f) := by
    clear hret
    induction h with
    | refl =>
      rw [start_pending]
      right
      by_cases hin : f ∈ files
      · rcases hf with h1 | h1
        · exact absurd hin h1.2
        · exact .inl ⟨hin, h1⟩
      · refine .inr ⟨hin, ?_⟩
        rcases hf with h1 | h1
        · exact List.count_pos_iff.2 h1.1
        · omega
    | tail _ hs ih =>
      unfold pending at *
      cases hs with
      | take i b q th fs e hi =>
        rw [count_take th i b q hi f]
        exact ih
      | keep i g rest q th fs e hi hmg =>
        have hc := count_rest th i g rest q hi f
        have hne : g ≠ f := by
          rintro rfl
          rw [hm] at hmg
          cases hmg
        rw [List.count_singleton, if_neg (by simpa using hne)] at hc
        simp only at ih ⊢
        rw [show ((th.set i rest).flatten ++ q.flatten).count f = (th.flatten ++ q.flatten).count f by omega]
        exact ih
      | remove i g rest q th fs e hi hmg hin =>
        have hc := count_rest th i g rest q hi f
        simp only [mem_removeFile] at ih ⊢
        rcases ih with h1 | h1 | h1
        · exact .inl h1
        · by_cases hfg : f = g
          · subst hfg
            rw [List.count_singleton, if_pos (by simp)] at hc
            exact .inr (.inr ⟨fun h => h.2 rfl, by omega⟩)
          · rw [List.count_singleton, if_neg (by simpa using Ne.symm hfg)] at hc
            exact .inr (.inl ⟨⟨h1.1, hfg⟩, by omega⟩)
        · by_cases hfg : f = g
          · subst hfg
            exact absurd hin h1.1
          · rw [List.count_singleton, if_neg (by simpa using Ne.symm hfg)] at hc
            exact .inr (.inr ⟨fun h => h1.1 h.1, by omega⟩)
      | fail i g rest q th fs e hi hmg hno => exact .inl (by simp)
  have h0 := finished_count s raises hret f
  rcases inv with h1 | h1 | h1
  · rw [hret.2.2]
    cases he : s.errors with
    | nil => exact absurd he h1
    | cons => rfl
  · omega
  · omega

/-- It always returns: while something is left to do a thread can go on, and there are at most two steps per path. -/
theorem C112_returns (matchFn : F → Bool) (threads : Nat) (ht : 0 < threads) (filepaths files : List F) :
    (∀ s, Reachable matchFn threads filepaths files s → (∃ b, Returns s b) ∨ ∃ s', Step matchFn s s') ∧
    ∀ (run : Nat → Pool F) (n : Nat), run 0 = Pool.start threads filepaths files → (∀ i < n, Step matchFn (run i) (run (i + 1))) →
      n ≤ 2 * filepaths.length := by
  constructor
  · intro s hs
    have hl : s.threads.length = threads := by
      induction hs with
      | refl => simp [Pool.start]
      | tail _ hs ih => cases hs <;> simpa using ih
    obtain ⟨q, th, fs, e⟩ := s
    simp only at hl
    by_cases hall : ∀ t ∈ th, t = []
    · cases q with
      | nil => exact .inl ⟨_, rfl, hall, rfl⟩
      | cons b q =>
        have h0 : 0 < th.length := by omega
        exact .inr ⟨_, .take 0 b q th fs e (by rw [List.getElem?_eq_getElem h0, hall _ (List.getElem_mem h0)])⟩
    · right
      push Not at hall
      obtain ⟨t, h1, h2⟩ := hall
      obtain ⟨i, hi, rfl⟩ := List.getElem_of_mem h1
      cases h3 : th[i] with
      | nil => exact absurd h3 h2
      | cons f rest =>
        have h4 : th[i]? = some (f :: rest) := by rw [List.getElem?_eq_getElem hi, h3]
        cases hm : matchFn f with
        | false => exact ⟨_, .keep i f rest q th fs e h4 hm⟩
        | true =>
          by_cases hin : f ∈ fs
          · exact ⟨_, .remove i f rest q th fs e h4 hm hin⟩
          · exact ⟨_, .fail i f rest q th fs e h4 hm hin⟩
  · intro run n h0 hstep
    have hlen := congrArg List.length (start_pending threads filepaths files)
    have key : ∀ i ≤ n, i + (run i).queue.length + (pending (run i)).length ≤ (run 0).queue.length + filepaths.length := by
      intro i hi
      induction i with
      | zero => rw [h0, hlen]; omega
      | succ i ih =>
        have := ih (by omega)
        have hs := hstep i (by omega)
        revert this
        unfold pending
        generalize run i = a at hs
        generalize run (i + 1) = b at hs
        intro this
        cases hs with
        | take j b q th fs e hj =>
          have := (RestorePool.flatten_set th j [] b hj).length_eq
          simp only [List.length_append, List.flatten_cons, List.length_cons, List.length_nil] at *
          omega
        | keep j f rest q th fs e hj =>
          have := (RestorePool.flatten_set th j (f :: rest) rest hj).length_eq
          simp only [List.length_append, List.length_cons] at *
          omega
        | remove j f rest q th fs e hj =>
          have := (RestorePool.flatten_set th j (f :: rest) rest hj).length_eq
          simp only [List.length_append, List.length_cons] at *
          omega
        | fail j f rest q th fs e hj =>
          have := (RestorePool.flatten_set th j (f :: rest) [] hj).length_eq
          simp only [List.length_append, List.length_cons, List.length_nil] at *
          omega
    have hk := key n le_rfl
    have hle : (run 0).queue.length ≤ filepaths.length := by
      rw [h0]
      unfold Pool.start
      simp only
      generalize hc : RestorePool.defaultChunksize filepaths.length threads = c
      have h1 := RestorePool.getTasks_piece c filepaths
      have h2 : ((RestorePool.getTasks c filepaths).flatten).length ≤ filepaths.length := by
        unfold pending Pool.start at hlen
        simp only [hc] at hlen
        rw [← hlen, List.length_append]
        omega
      rw [List.length_flatten] at h2
      have h3 := List.length_le_sum_of_one_le ((RestorePool.getTasks c filepaths).map List.length) (by
        intro x hx
        obtain ⟨t, ht, rfl⟩ := List.mem_map.1 hx
        exact List.length_pos_iff.2 (h1 t ht).1)
      simp only [List.length_map] at h3
      omega
    omega

/-- A path that does not exist can keep others from being removed: with one thread and five paths there are tasks of two, and the path after the missing
one stays although it matches and exists. -/
theorem C112_error_counterexample :
    ∃ s : Pool Nat, Reachable (fun _ => true) 1 [0, 1, 2, 3, 4] [1, 2, 3, 4] s ∧ Returns s true ∧ s.files = [1] := by
  refine ⟨⟨[], [[]], [1], [0]⟩, ?_, ⟨rfl, by simp, rfl⟩, rfl⟩
  unfold Reachable
  have hs : Pool.start 1 [0, 1, 2, 3, 4] [1, 2, 3, 4] = (⟨[[0, 1], [2, 3], [4]], [[]], [1, 2, 3, 4], []⟩ : Pool Nat) := by
    unfold Pool.start RestorePool.defaultChunksize
    simp [RestorePool.getTasks]
  rw [hs]
  refine .head (.take 0 [0, 1] _ _ _ _ rfl) ?_
  refine .head (.fail 0 0 [1] _ _ _ _ rfl rfl (by decide)) ?_
  refine .head (.take 0 [2, 3] _ _ _ _ rfl) ?_
  refine .head (.remove 0 2 [3] _ _ _ _ rfl rfl (by decide)) ?_
  refine .head (.remove 0 3 [] _ _ _ _ rfl rfl (by decide)) ?_
  refine .head (.take 0 [4] _ _ _ _ rfl) ?_
  refine .head (.remove 0 4 [] _ _ _ _ rfl rfl (by decide)) ?_
  exact .refl

/-- The hypotheses of `C112_removes` and of `C112_raises`. -/
example : (∀ f ∈ [3, 1, 2], (fun n => decide (n < 3)) f = true → f ∈ [0, 1, 2, 3] ∧ [3, 1, 2].count f = 1) ∧
    (7 ∈ [7, 1] ∧ 7 ∉ [1, 2] ∨ 2 ≤ [7, 1].count 7) ∧ ([7, 7] : List Nat).count 7 = 2 := by decide

end Verif.RemovePool
