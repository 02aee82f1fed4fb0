import Verif.Model.Sorting
import Mathlib.Data.Fintype.Card
import Mathlib.Data.Fintype.EquivFin
import Mathlib.Order.Interval.Finset.Fin

/-! Helper lemmas about the sorting primitives. -/

namespace Verif

variable {n : Nat} {κ : Type*} [LinearOrder κ]

/-- Strict version: `i` comes strictly before `j`. -/
def lexLT (key : Fin n → κ) (i j : Fin n) : Prop :=
  key i < key j ∨ (key i = key j ∧ i < j)

instance (key : Fin n → κ) : DecidableRel (lexLT key) := fun i j => by
  unfold lexLT; infer_instance

instance (key : Fin n → κ) : Std.Total (lexLE key) := ⟨fun i j => by
  unfold lexLE
  rcases lt_trichotomy (key i) (key j) with h | h | h
  · exact Or.inl (Or.inl h)
  · rcases le_total i j with h' | h'
    · exact Or.inl (Or.inr ⟨h, h'⟩)
    · exact Or.inr (Or.inr ⟨h.symm, h'⟩)
  · exact Or.inr (Or.inl h)⟩

instance (key : Fin n → κ) : IsTrans (Fin n) (lexLE key) := ⟨fun i j k h1 h2 => by
  unfold lexLE at *
  rcases h1 with h1 | ⟨h1, h1'⟩ <;> rcases h2 with h2 | ⟨h2, h2'⟩
  · exact Or.inl (h1.trans h2)
  · exact Or.inl (h2 ▸ h1)
  · exact Or.inl (h1 ▸ h2)
  · exact Or.inr ⟨h1.trans h2, h1'.trans h2'⟩⟩

theorem lexLE_ne_lt {key : Fin n → κ} {i j : Fin n} (h : lexLE key i j) (hne : i ≠ j) :
    lexLT key i j := by
  rcases h with h | ⟨h, h'⟩
  · exact Or.inl h
  · exact Or.inr ⟨h, lt_of_le_of_ne h' hne⟩

theorem lexLT_irrefl (key : Fin n → κ) (i : Fin n) : ¬ lexLT key i i := by
  rintro (h | ⟨_, h⟩)
  · exact lt_irrefl _ h
  · exact lt_irrefl _ h

theorem lexLT_asymm {key : Fin n → κ} {i j : Fin n} (h : lexLT key i j) : ¬ lexLT key j i := by
  rintro (h' | ⟨h1, h2⟩)
  · rcases h with h | ⟨h, _⟩
    · exact lt_asymm h h'
    · exact absurd h' (by simp [h])
  · rcases h with h | ⟨_, h⟩
    · exact absurd h (by simp [h1])
    · exact lt_asymm h h2

theorem lexLT_total (key : Fin n → κ) {i j : Fin n} (h : i ≠ j) :
    lexLT key i j ∨ lexLT key j i := by
  rcases (inferInstance : Std.Total (lexLE key)).total i j with h' | h'
  · exact Or.inl (lexLE_ne_lt h' h)
  · exact Or.inr (lexLE_ne_lt h' (Ne.symm h))

theorem sortedIdx_perm (key : Fin n → κ) : (sortedIdx key).Perm (List.finRange n) :=
  List.perm_insertionSort _ _

theorem sortedIdx_nodup (key : Fin n → κ) : (sortedIdx key).Nodup :=
  (sortedIdx_perm key).nodup_iff.2 (List.nodup_finRange n)

theorem sortedIdx_pairwise (key : Fin n → κ) : (sortedIdx key).Pairwise (lexLT key) := by
  have h1 : (sortedIdx key).Pairwise (lexLE key) := List.pairwise_insertionSort _ _
  have h2 : (sortedIdx key).Pairwise (· ≠ ·) := sortedIdx_nodup key
  exact (h1.and h2).imp fun h => lexLE_ne_lt h.1 h.2

/-- In a list sorted by a strict order, an element's position is the number of smaller ones. -/
theorem countP_of_pairwise {α : Type*} (r : α → α → Prop) [DecidableRel r]
    (irr : ∀ a, ¬ r a a) (asymm : ∀ a b, r a b → ¬ r b a) :
    ∀ (l : List α), l.Pairwise r → ∀ (i : Nat) (h : i < l.length),
      l.countP (fun b => decide (r b l[i])) = i := by
  intro l
  induction l with
  | nil => intro _ i h; simp at h
  | cons a l ih =>
    intro hp i h
    rw [List.pairwise_cons] at hp
    cases i with
    | zero =>
      simp only [List.getElem_cons_zero, List.countP_cons, irr, decide_false, Bool.false_eq_true,
        if_false, Nat.add_zero, List.countP_eq_zero]
      intro b hb
      simpa using asymm _ _ (hp.1 b hb)
    | succ i =>
      simp only [List.length_cons, Nat.add_lt_add_iff_right] at h
      have hr : r a l[i] := hp.1 _ (List.getElem_mem h)
      simp only [List.getElem_cons_succ, List.countP_cons, hr, decide_true, if_true, ih hp.2 i h]

theorem countP_finRange (p : Fin n → Prop) [DecidablePred p] :
    (List.finRange n).countP (fun b => decide (p b)) = (Finset.univ.filter p).card := by
  rw [Finset.card_def, Finset.filter_val, List.countP_eq_length_filter]
  rfl

/-- Position of an element in the sorted index list. -/
theorem sortedIdx_rank (key : Fin n → κ) (i : Nat) (h : i < (sortedIdx key).length) :
    (Finset.univ.filter (fun b => lexLT key b (sortedIdx key)[i])).card = i := by
  rw [← countP_finRange, ← (sortedIdx_perm key).countP_eq]
  exact countP_of_pairwise _ (lexLT_irrefl key) (fun _ _ h => lexLT_asymm h) _
    (sortedIdx_pairwise key) i h

/-- Number of indices sorted strictly before `a`. -/
def rankIn (key : Fin n → κ) (a : Fin n) : Nat :=
  (Finset.univ.filter (fun b => lexLT key b a)).card

theorem argsort_rank (key : Fin n → κ) (i : Fin n) : rankIn key (argsort key i) = i := by
  unfold rankIn argsort
  rw [List.get_eq_getElem]
  exact sortedIdx_rank key _ _

theorem lexLT_trans {key : Fin n → κ} {i j k : Fin n} (h1 : lexLT key i j) (h2 : lexLT key j k) :
    lexLT key i k := by
  unfold lexLT at *
  rcases h1 with h1 | ⟨h1, h1'⟩ <;> rcases h2 with h2 | ⟨h2, h2'⟩
  · exact Or.inl (h1.trans h2)
  · exact Or.inl (h2 ▸ h1)
  · exact Or.inl (h1 ▸ h2)
  · exact Or.inr ⟨h1.trans h2, h1'.trans h2'⟩

theorem rankIn_lt_of_lexLT {key : Fin n → κ} {a b : Fin n} (h : lexLT key a b) :
    rankIn key a < rankIn key b := by
  apply Finset.card_lt_card
  rw [Finset.ssubset_iff_of_subset]
  · exact ⟨a, by simpa using h, by simpa using lexLT_irrefl key a⟩
  · intro c hc
    simp only [Finset.mem_filter, Finset.mem_univ, true_and] at hc ⊢
    exact lexLT_trans hc h

theorem rankIn_lt_iff {key : Fin n → κ} {a b : Fin n} :
    rankIn key a < rankIn key b ↔ lexLT key a b := by
  refine ⟨fun h => ?_, rankIn_lt_of_lexLT⟩
  by_contra hn
  by_cases hab : a = b
  · subst hab; exact lt_irrefl _ h
  · rcases lexLT_total key hab with h' | h'
    · exact hn h'
    · exact absurd (rankIn_lt_of_lexLT h') (by omega)

theorem rankIn_injective (key : Fin n → κ) : Function.Injective (rankIn key) := by
  intro a b h
  by_contra hne
  rcases lexLT_total key hne with h' | h' <;> have := rankIn_lt_of_lexLT h' <;> omega

theorem rankIn_lt (key : Fin n → κ) (a : Fin n) : rankIn key a < n := by
  have : rankIn key a < (Finset.univ : Finset (Fin n)).card := by
    apply Finset.card_lt_card
    rw [Finset.ssubset_iff_of_subset (Finset.filter_subset _ _)]
    exact ⟨a, Finset.mem_univ _, by simpa using lexLT_irrefl key a⟩
  simpa using this

theorem argsort_rankIn (key : Fin n → κ) (a : Fin n) :
    argsort key ⟨rankIn key a, rankIn_lt key a⟩ = a :=
  rankIn_injective key (by rw [argsort_rank])

theorem argsort_injective (key : Fin n → κ) : Function.Injective (argsort key) := by
  intro i j h
  have := congrArg (rankIn key) h
  rw [argsort_rank, argsort_rank] at this
  exact Fin.ext this

theorem argsort_lt_iff (key : Fin n → κ) (i j : Fin n) :
    i < j ↔ lexLT key (argsort key i) (argsort key j) := by
  rw [← rankIn_lt_iff, argsort_rank, argsort_rank, Fin.lt_def]

theorem argsort_surjective (key : Fin n → κ) : Function.Surjective (argsort key) :=
  fun a => ⟨_, argsort_rankIn key a⟩

/-- Ranks of the values of an injective self-map of `Fin n` are the values themselves. -/
theorem rankIn_of_injective (σ : Fin n → Fin n) (hσ : Function.Injective σ) (a : Fin n) :
    rankIn σ a = σ a := by
  have hb : Function.Bijective σ := Finite.injective_iff_bijective.1 hσ
  have h1 : (Finset.univ.filter (fun b => lexLT σ b a)) =
      Finset.univ.filter (fun b => σ b < σ a) := by
    ext b
    simp only [Finset.mem_filter, Finset.mem_univ, true_and]
    unfold lexLT
    constructor
    · rintro (h | ⟨h, h'⟩)
      · exact h
      · exact absurd (hσ h) (ne_of_lt h')
    · exact Or.inl
  unfold rankIn
  rw [h1]
  have h2 : ((Finset.univ.filter (fun b => σ b < σ a)).image σ) = Finset.Iio (σ a) := by
    ext c
    simp only [Finset.mem_image, Finset.mem_filter, Finset.mem_univ, true_and, Finset.mem_Iio]
    constructor
    · rintro ⟨b, hb, rfl⟩; exact hb
    · intro hc
      obtain ⟨b, rfl⟩ := hb.2 c
      exact ⟨b, hc, rfl⟩
  rw [← Finset.card_image_of_injective _ hσ, h2, Fin.card_Iio]

/-- `argsort` of a permutation is its inverse (right inverse). -/
theorem perm_argsort_perm (σ : Fin n → Fin n) (hσ : Function.Injective σ) (i : Fin n) :
    σ (argsort σ i) = i := by
  have h := argsort_rank σ i
  rw [rankIn_of_injective σ hσ] at h
  exact Fin.ext h

/-- `argsort` of a permutation is its inverse (left inverse). -/
theorem argsort_perm_perm (σ : Fin n → Fin n) (hσ : Function.Injective σ) (i : Fin n) :
    argsort σ (σ i) = i :=
  hσ (perm_argsort_perm σ hσ _)

end Verif
