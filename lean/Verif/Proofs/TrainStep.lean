import Verif.Model.TrainStep
import Verif.Proofs.ExceptLemmas
import Verif.Proofs.PyDict
import Mathlib.Data.List.Flatten
import Mathlib.Data.List.Pairwise

/-! Lemmas about the derivation of random keys. -/

namespace Verif.TrainStep

open Verif

/-- Neither key is derived from the other one. -/
def Incomp (a b : Key) : Prop := ¬ a <+: b ∧ ¬ b <+: a

theorem Incomp.symm {a b : Key} (h : Incomp a b) : Incomp b a := ⟨h.2, h.1⟩

instance : Std.Symm Incomp := ⟨fun _ _ h => h.symm⟩

theorem Incomp.ne {a b : Key} (h : Incomp a b) : a ≠ b := by
  rintro rfl
  exact h.1 (List.prefix_refl a)

theorem Incomp.ext {a b x : Key} (h : Incomp a b) (hx : b <+: x) : Incomp a x := by
  refine ⟨fun h' => ?_, fun h' => h.2 (hx.trans h')⟩
  rcases List.prefix_or_prefix_of_prefix h' hx with h1 | h1
  · exact h.1 h1
  · exact h.2 h1

theorem Incomp.ext₂ {a b x y : Key} (h : Incomp a b) (hx : a <+: x) (hy : b <+: y) : Incomp x y :=
  ((h.ext hy).symm.ext hx).symm

theorem prefix_child (k : Key) (i : Nat) : k <+: child k i := List.prefix_append _ _

theorem child_ne (k : Key) (i : Nat) : k ≠ child k i := by
  intro h
  have := congrArg List.length h
  simp [child] at this

theorem child_incomp (k : Key) {i j : Nat} (h : i ≠ j) : Incomp (child k i) (child k j) := by
  have key : ∀ a b : Nat, child k a <+: child k b → a = b := by
    intro a b hp
    have := hp.eq_of_length (by simp [child])
    simpa [child] using this
  exact ⟨fun hp => h (key _ _ hp), fun hp => h (key _ _ hp).symm⟩

/-- From the keys `A`, the keys `U` are used and the keys `A'` are kept: no two of them are derived from one another, the
used ones are new, and all are derived from `A`. -/
def Sound (A U A' : List Key) : Prop :=
  (U ++ A').Pairwise Incomp ∧ (∀ u ∈ U, ∃ a ∈ A, a <+: u ∧ a ≠ u) ∧ (∀ x ∈ A', ∃ a ∈ A, a <+: x)

theorem Sound.refl {A : List Key} (h : A.Pairwise Incomp) : Sound A [] A :=
  ⟨h, by simp, fun x hx => ⟨x, hx, List.prefix_refl x⟩⟩

theorem Sound.keep {A U A' : List Key} (h : Sound A U A') : A'.Pairwise Incomp :=
  (List.pairwise_append.1 h.1).2.1

theorem strict_trans {a b x : Key} (hab : a <+: b) (hbx : b <+: x) (hne : b ≠ x) : a ≠ x := by
  rintro rfl
  exact hne (hbx.eq_of_length (le_antisymm hbx.length_le hab.length_le))

theorem Sound.trans {A U A₁ V A₂ : List Key} (h : Sound A U A₁) (h' : Sound A₁ V A₂) :
    Sound A (U ++ V) A₂ := by
  refine ⟨?_, ?_, ?_⟩
  · rw [List.append_assoc, List.pairwise_append]
    refine ⟨(List.pairwise_append.1 h.1).1, h'.1, fun u hu x hx => ?_⟩
    have : ∃ a ∈ A₁, a <+: x := by
      rcases List.mem_append.1 hx with hx | hx
      · obtain ⟨a, ha, hp, _⟩ := h'.2.1 x hx
        exact ⟨a, ha, hp⟩
      · exact h'.2.2 x hx
    obtain ⟨a, ha, hp⟩ := this
    exact ((List.pairwise_append.1 h.1).2.2 u hu a ha).ext hp
  · intro u hu
    rcases List.mem_append.1 hu with hu | hu
    · exact h.2.1 u hu
    · obtain ⟨b, hb, hp, hne⟩ := h'.2.1 u hu
      obtain ⟨a, ha, hp'⟩ := h.2.2 b hb
      exact ⟨a, ha, hp'.trans hp, strict_trans hp' hp hne⟩
  · intro x hx
    obtain ⟨b, hb, hp⟩ := h'.2.2 x hx
    obtain ⟨a, ha, hp'⟩ := h.2.2 b hb
    exact ⟨a, ha, hp'.trans hp⟩

theorem Sound.perm {A A₁ U A' A₁' : List Key} (h : Sound A U A') (hA : A.Perm A₁) (hA' : A'.Perm A₁') :
    Sound A₁ U A₁' := by
  refine ⟨?_, ?_, ?_⟩
  · exact (((List.Perm.refl U).append hA').pairwise_iff (fun h => h.symm)).1 h.1
  · intro u hu
    obtain ⟨a, ha, h1⟩ := h.2.1 u hu
    exact ⟨a, hA.mem_iff.1 ha, h1⟩
  · intro x hx
    obtain ⟨a, ha, h1⟩ := h.2.2 x (hA'.mem_iff.2 hx)
    exact ⟨a, hA.mem_iff.1 ha, h1⟩

theorem flatMap_child_pairwise {A : List Key} (h : A.Pairwise Incomp) (n : Nat) :
    ((List.range n).flatMap fun i => A.map (child · i)).Pairwise Incomp := by
  rw [List.pairwise_flatMap]
  refine ⟨fun i _ => ?_, ?_⟩
  · rw [List.pairwise_map]
    exact h.imp fun hab => hab.ext₂ (prefix_child _ _) (prefix_child _ _)
  · refine List.nodup_range.imp ?_
    intro i j hij x hx y hy
    obtain ⟨a, ha, rfl⟩ := List.mem_map.1 hx
    obtain ⟨b, hb, rfl⟩ := List.mem_map.1 hy
    by_cases hab : a = b
    · subst hab
      exact child_incomp a hij
    · exact (h.forall ha hb hab).ext₂ (prefix_child _ _) (prefix_child _ _)

/-- Using the slices before `n` and keeping slice `n`. -/
theorem sound_slices {A : List Key} (h : A.Pairwise Incomp) (n : Nat) :
    Sound A ((List.range n).flatMap fun i => A.map (child · i)) (A.map (child · n)) := by
  refine ⟨?_, ?_, ?_⟩
  · have := flatMap_child_pairwise h (n + 1)
    rw [List.range_succ, List.flatMap_append] at this
    simpa using this
  · intro u hu
    obtain ⟨i, _, hu⟩ := List.mem_flatMap.1 hu
    obtain ⟨a, ha, rfl⟩ := List.mem_map.1 hu
    exact ⟨a, ha, prefix_child _ _, child_ne _ _⟩
  · intro x hx
    obtain ⟨a, ha, rfl⟩ := List.mem_map.1 hx
    exact ⟨a, ha, prefix_child _ _⟩

/-- One more key, of which slice 0 is used before everything else and slice 1 is kept. -/
theorem Sound.cons {A U A' : List Key} (k : Key) (hk : ∀ a ∈ A, Incomp k a) (h : Sound A U A') :
    Sound (k :: A) (child k 0 :: U) (A' ++ [child k 1]) := by
  have hx : ∀ x ∈ U ++ A', ∃ a ∈ A, a <+: x := by
    intro x hx
    rcases List.mem_append.1 hx with hx | hx
    · obtain ⟨a, ha, hp, _⟩ := h.2.1 x hx
      exact ⟨a, ha, hp⟩
    · exact h.2.2 x hx
  have hinc : ∀ i, ∀ x ∈ U ++ A', Incomp (child k i) x := by
    intro i x hx'
    obtain ⟨a, ha, hp⟩ := hx x hx'
    exact (hk a ha).ext₂ (prefix_child _ _) hp
  refine ⟨?_, ?_, ?_⟩
  · rw [List.cons_append, ← List.append_assoc, List.pairwise_cons, List.pairwise_append]
    refine ⟨?_, h.1, by simp, ?_⟩
    · intro x hx'
      rcases List.mem_append.1 hx' with hx' | hx'
      · exact hinc 0 x hx'
      · rw [List.mem_singleton.1 hx']
        exact child_incomp k (by decide)
    · intro x hx' y hy
      rw [List.mem_singleton.1 hy]
      exact (hinc 1 x hx').symm
  · intro u hu
    rcases List.mem_cons.1 hu with rfl | hu
    · exact ⟨k, by simp, prefix_child _ _, child_ne _ _⟩
    · obtain ⟨a, ha, h1⟩ := h.2.1 u hu
      exact ⟨a, by simp [ha], h1⟩
  · intro x hx'
    rcases List.mem_append.1 hx' with hx' | hx'
    · obtain ⟨a, ha, h1⟩ := h.2.2 x hx'
      exact ⟨a, by simp [ha], h1⟩
    · rw [List.mem_singleton.1 hx']
      exact ⟨k, by simp, prefix_child _ _⟩

/-- The keys in a dictionary. -/
def vals (r : Rngs) : List Key := r.map Prod.snd

/-- The keys in a log. -/
def used (log : Log) : List Key := log.flatMap vals

theorem used_append (a b : Log) : used (a ++ b) = used a ++ used b := List.flatMap_append

theorem vals_slice (r : Rngs) (i : Nat) : vals (slice r i) = (vals r).map (child · i) := by
  simp [vals, slice]

theorem keys_slice (r : Rngs) (i : Nat) : PyDict.keys (slice r i) = PyDict.keys r := by
  simp [PyDict.keys, slice]

/-- The relation between keys and log before and after a part of the program. -/
def Ok (a b : Rngs × Log) : Prop :=
  (vals a.1).Pairwise Incomp → ∃ U : Log, b.2 = a.2 ++ U ∧ Sound (vals a.1) (used U) (vals b.1) ∧
    PyDict.keys b.1 = PyDict.keys a.1 ∧ ∀ r ∈ U, PyDict.keys r = PyDict.keys a.1

theorem Ok.trans {a b c : Rngs × Log} (h : Ok a b) (h' : Ok b c) : Ok a c := by
  intro ha
  obtain ⟨U, h1, h2, h3, h4⟩ := h ha
  obtain ⟨V, g1, g2, g3, g4⟩ := h' h2.keep
  refine ⟨U ++ V, by rw [g1, h1, List.append_assoc], by rw [used_append]; exact h2.trans g2, g3.trans h3, ?_⟩
  intro r hr
  rcases List.mem_append.1 hr with hr | hr
  · exact h4 r hr
  · exact (g4 r hr).trans h3

section
variable {P O I L Y R G M : Type} [AddCommGroup G] [Module ℝ G] [AddCommGroup M] [Module ℝ M]

omit [Module ℝ G] [Module ℝ M] in
theorem foldlM_rel {Q : R → R → Prop} (htr : ∀ a b c, Q a b → Q b c → Q a c) (fn : Trainer.GradFn P I L R G M)
    (params : P) (hfn : ∀ i l r g r' m, fn params i l r = .ok (g, r', m) → Q r r') (images : List (List I))
    (labels : List (List L)) (l : List Nat) (r0 : R) (st st' : G × R × M) (h0 : Q r0 st.2.1)
    (h : l.foldlM (Trainer.accumFn fn params images labels) st = .ok st') : Q r0 st'.2.1 := by
  induction l generalizing st with
  | nil =>
    cases h
    exact h0
  | cons i l ih =>
    rw [List.foldlM_cons] at h
    obtain ⟨s1, h1, h2⟩ := ebind h
    refine ih s1 ?_ h2
    unfold Trainer.accumFn at h1
    obtain ⟨⟨g, r', m⟩, h3, h4⟩ := ebind h1
    cases h4
    exact htr _ _ _ h0 (hfn _ _ _ _ _ _ h3)

/-- Gradient accumulation keeps a transitive relation between the generators. -/
theorem accumulate_rel {Q : R → R → Prop} (htr : ∀ a b c, Q a b → Q b c → Q a c) (devices : Nat)
    (fn : Trainer.GradFn P I L R G M) (microsteps : Option Int) (params : P)
    (hfn : ∀ i l r g r' m, fn params i l r = .ok (g, r', m) → Q r r') (images : List I) (labels : List L)
    (r r' : R) (g : G) (m : M)
    (h : Trainer.accumulate devices fn microsteps params images labels r = .ok (g, r', m)) : Q r r' := by
  unfold Trainer.accumulate at h
  split at h
  · exact hfn _ _ _ _ _ _ h
  · simp only at h
    split at h
    · cases h
    · obtain ⟨x1, _, h⟩ := ebind h
      obtain ⟨x2, _, h⟩ := ebind h
      obtain ⟨⟨g0, r0, m0⟩, hf, h⟩ := ebind h
      obtain ⟨⟨g1, r1, m1⟩, hl, h⟩ := ebind h
      cases h
      exact foldlM_rel htr fn params hfn _ _ _ r _ _ (hfn _ _ _ _ _ _ hf) hl
end

end Verif.TrainStep
