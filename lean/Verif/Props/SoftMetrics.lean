import Verif.Model.SoftMetrics
import Verif.Props.SoftMoe
import Mathlib.Analysis.SpecialFunctions.Log.Basic

/-!
C90: metrics of the soft router.
-/

namespace Verif.Soft

open Finset

variable {β ι κ : Type} [Fintype β] [Fintype ι] [DecidableEq ι] [Fintype κ]

/-- Cosine similarity of two vectors, with `eps` added to the squares of the norms. -/
noncomputable def similarity (eps : ℝ) (u v : κ → ℝ) : ℝ :=
  (∑ k, u k * v k) / (Real.sqrt ((∑ k, u k ^ 2) + eps) * Real.sqrt ((∑ k, v k ^ 2) + eps))

/-- The similarities of the pairs of different vectors of the same batch. -/
def pairSimilarities (eps : ℝ) (x : β → ι → κ → ℝ) : Set ℝ :=
  {s | ∃ b i j, i ≠ j ∧ s = similarity eps (x b i) (x b j)}

/-- The mean of the similarities of the pairs of different vectors of the same batch. -/
noncomputable def pairMean (eps : ℝ) (x : β → ι → κ → ℝ) : ℝ :=
  (∑ b, ∑ i, ∑ j ∈ univ.erase i, similarity eps (x b i) (x b j)) / (Fintype.card β * Fintype.card ι * (Fintype.card ι - 1))

theorem cosinePsim_eq (eps : ℝ) (x : β → ι → κ → ℝ) (b : β) (i j : ι) :
    cosinePsim eps x b i j = similarity eps (x b i) (x b j) := by
  unfold cosinePsim similarity
  simp only
  rw [sum_div]
  refine sum_congr rfl fun k _ => ?_
  rw [div_mul_eq_div_div]
  ring

theorem sumSq_pos (eps : ℝ) (he : 0 < eps) (u : κ → ℝ) : 0 < (∑ k, u k ^ 2) + eps := by
  have : 0 ≤ ∑ k, u k ^ 2 := sum_nonneg fun k _ => sq_nonneg _
  linarith

/-- C90: similarities are symmetric, of absolute value less than one, the similarity of a vector with itself is
`s / (s + eps)`, and vectors without negative entries have no negative similarities. -/
theorem C90_similarity (eps : ℝ) (he : 0 < eps) (x : β → ι → κ → ℝ) (b : β) (i j : ι) :
    cosinePsim eps x b i j = cosinePsim eps x b j i ∧ |cosinePsim eps x b i j| < 1 ∧
    cosinePsim eps x b i i = (∑ k, x b i k ^ 2) / ((∑ k, x b i k ^ 2) + eps) ∧
    ((∀ k, 0 ≤ x b i k) → (∀ k, 0 ≤ x b j k) → 0 ≤ cosinePsim eps x b i j) := by
  simp only [cosinePsim_eq]
  have hi := sumSq_pos eps he (x b i)
  have hj := sumSq_pos eps he (x b j)
  refine ⟨?_, ?_, ?_, ?_⟩
  · unfold similarity
    rw [mul_comm (Real.sqrt _)]
    congr 1
    exact sum_congr rfl fun k _ => mul_comm _ _
  · unfold similarity
    have hd : 0 < Real.sqrt ((∑ k, x b i k ^ 2) + eps) * Real.sqrt ((∑ k, x b j k ^ 2) + eps) :=
      mul_pos (Real.sqrt_pos.2 hi) (Real.sqrt_pos.2 hj)
    rw [abs_div, abs_of_pos hd, div_lt_one hd, ← Real.sqrt_mul hi.le]
    apply Real.lt_sqrt_of_sq_lt
    rw [sq_abs]
    have h1 := sum_mul_sq_le_sq_mul_sq univ (x b i) (x b j)
    have h2 : 0 ≤ ∑ k, x b i k ^ 2 := sum_nonneg fun k _ => sq_nonneg _
    have h3 : 0 ≤ ∑ k, x b j k ^ 2 := sum_nonneg fun k _ => sq_nonneg _
    have h4 := mul_nonneg he.le h2
    have h5 := mul_nonneg he.le h3
    have h6 := mul_pos he he
    calc _ ≤ _ := h1
      _ < ((∑ k, x b i k ^ 2) + eps) * ((∑ k, x b j k ^ 2) + eps) := by ring_nf at *; linarith
  · unfold similarity
    rw [Real.mul_self_sqrt hi.le]
    congr 1
    exact sum_congr rfl fun k _ => (sq _).symm
  · intro h1 h2
    unfold similarity
    exact div_nonneg (sum_nonneg fun k _ => mul_nonneg (h1 k) (h2 k)) (mul_nonneg (Real.sqrt_nonneg _) (Real.sqrt_nonneg _))

/-- The masked array: `sim` outside of the diagonal; on the diagonal the maximum of zero and of those. -/
theorem masked_spec [Nonempty β] [Nontrivial ι] (sim : β → ι → ι → ℝ) :
    ∃ M, (∀ b i j, masked sim b i j = if i = j then M else sim b i j) ∧ 0 ≤ M ∧ (∀ b i j, i ≠ j → sim b i j ≤ M) ∧
      (M = 0 ∨ ∃ b i j, i ≠ j ∧ M = sim b i j) := by
  obtain ⟨b0⟩ := ‹Nonempty β›
  obtain ⟨i0, _, _⟩ := exists_pair_ne ι
  haveI : Nonempty (β × ι × ι) := ⟨(b0, i0, i0)⟩
  have hle : ∀ b i j, (1 - eye i j) * sim b i j ≤ ⨆ q : β × ι × ι, (1 - eye q.2.1 q.2.2) * sim q.1 q.2.1 q.2.2 :=
    fun b i j => le_ciSup (f := fun q : β × ι × ι => (1 - eye q.2.1 q.2.2) * sim q.1 q.2.1 q.2.2)
      (Set.finite_range _).bddAbove (b, i, j)
  refine ⟨⨆ q : β × ι × ι, (1 - eye q.2.1 q.2.2) * sim q.1 q.2.1 q.2.2, ?_, ?_, ?_, ?_⟩
  · intro b i j
    unfold masked
    simp only [eye]
    split <;> simp
  · simpa [eye] using hle b0 i0 i0
  · intro b i j hij
    simpa [eye, hij] using hle b i j
  · obtain ⟨⟨b, i, j⟩, h⟩ := exists_eq_ciSup_of_finite (f := fun q : β × ι × ι => (1 - eye q.2.1 q.2.2) * sim q.1 q.2.1 q.2.2)
    by_cases hij : i = j
    · left
      rw [← h]
      simp [eye, hij]
    · right
      refine ⟨b, i, j, hij, ?_⟩
      rw [← h]
      simp [eye, hij]

/-- C90: the reported minimum is the minimum over the pairs of different vectors. -/
theorem C90_min [Nonempty β] [Nontrivial ι] (eps : ℝ) (x : β → ι → κ → ℝ) :
    IsLeast (pairSimilarities eps x) (similarityMin eps x) := by
  obtain ⟨M, h1, h2, h3, h4⟩ := masked_spec (cosinePsim eps x)
  obtain ⟨b0⟩ := ‹Nonempty β›
  obtain ⟨i0, j0, hij0⟩ := exists_pair_ne ι
  haveI : Nonempty (β × ι × ι) := ⟨(b0, i0, i0)⟩
  have hle : ∀ b i j, similarityMin eps x ≤ masked (cosinePsim eps x) b i j := fun b i j =>
    ciInf_le (f := fun q : β × ι × ι => masked (cosinePsim eps x) q.1 q.2.1 q.2.2) (Set.finite_range _).bddBelow (b, i, j)
  constructor
  · obtain ⟨⟨b, i, j⟩, h⟩ := exists_eq_ciInf_of_finite (f := fun q : β × ι × ι => masked (cosinePsim eps x) q.1 q.2.1 q.2.2)
    have h' : masked (cosinePsim eps x) b i j = similarityMin eps x := h
    rw [h1] at h'
    by_cases hij : i = j
    · rw [if_pos hij] at h'
      have h5 := hle b0 i0 j0
      rw [h1, if_neg hij0] at h5
      have h6 := h3 b0 i0 j0 hij0
      refine ⟨b0, i0, j0, hij0, ?_⟩
      rw [← cosinePsim_eq]
      linarith
    · rw [if_neg hij] at h'
      exact ⟨b, i, j, hij, by rw [← h', cosinePsim_eq]⟩
  · rintro s ⟨b, i, j, hij, rfl⟩
    have := hle b i j
    rwa [h1, if_neg hij, cosinePsim_eq] at this

/-- C90: the reported maximum is the maximum of zero and the pairs of different vectors: it is the maximum over the pairs
when some pair has a similarity of at least zero, and zero otherwise. -/
theorem C90_max [Nonempty β] [Nontrivial ι] (eps : ℝ) (x : β → ι → κ → ℝ) :
    ((∃ s ∈ pairSimilarities eps x, 0 ≤ s) → IsGreatest (pairSimilarities eps x) (similarityMax eps x)) ∧
    ((∀ s ∈ pairSimilarities eps x, s < 0) → similarityMax eps x = 0) := by
  obtain ⟨M, h1, h2, h3, h4⟩ := masked_spec (cosinePsim eps x)
  obtain ⟨b0⟩ := ‹Nonempty β›
  obtain ⟨i0, j0, hij0⟩ := exists_pair_ne ι
  haveI : Nonempty (β × ι × ι) := ⟨(b0, i0, i0)⟩
  have hM : similarityMax eps x = M := by
    apply le_antisymm
    · refine ciSup_le fun q => ?_
      rw [h1]
      split
      · exact le_rfl
      · rename_i h
        exact h3 _ _ _ h
    · have : masked (cosinePsim eps x) b0 i0 i0 ≤ similarityMax eps x :=
        le_ciSup (f := fun q : β × ι × ι => masked (cosinePsim eps x) q.1 q.2.1 q.2.2) (Set.finite_range _).bddAbove (b0, i0, i0)
      rwa [h1, if_pos rfl] at this
  rw [hM]
  constructor
  · rintro ⟨s, ⟨b, i, j, hij, rfl⟩, hs⟩
    constructor
    · rcases h4 with h4 | ⟨b', i', j', hij', h4⟩
      · refine ⟨b, i, j, hij, ?_⟩
        have := h3 b i j hij
        rw [cosinePsim_eq] at this
        linarith
      · exact ⟨b', i', j', hij', by rw [h4, cosinePsim_eq]⟩
    · rintro s ⟨b', i', j', hij', rfl⟩
      rw [← cosinePsim_eq]
      exact h3 _ _ _ hij'
  · intro h
    rcases h4 with h4 | ⟨b', i', j', hij', h4⟩
    · exact h4
    · have := h _ ⟨b', i', j', hij', rfl⟩
      rw [← cosinePsim_eq, ← h4] at this
      linarith

/-- C90: the reported mean is that of the pairs of different vectors, less what the similarities of the vectors with
themselves differ from one. -/
theorem C90_mean (eps : ℝ) (he : 0 < eps) (x : β → ι → κ → ℝ) :
    similarityMean eps x = pairMean eps x -
      (∑ b, ∑ i, eps / ((∑ k, x b i k ^ 2) + eps)) / (Fintype.card β * Fintype.card ι * (Fintype.card ι - 1)) := by
  unfold similarityMean pairMean
  rw [← sub_div]
  congr 1
  have h1 : ∀ b i, ∑ j, cosinePsim eps x b i j =
      (∑ j ∈ univ.erase i, similarity eps (x b i) (x b j)) + (1 - eps / ((∑ k, x b i k ^ 2) + eps)) := by
    intro b i
    rw [← add_sum_erase univ _ (mem_univ i), (C90_similarity eps he x b i i).2.2.1, add_comm]
    congr 1
    · exact sum_congr rfl fun j _ => cosinePsim_eq eps x b i j
    · have := (sumSq_pos eps he (x b i)).ne'
      rw [eq_sub_iff_add_eq, ← add_div, div_self this]
  simp only [h1, sum_add_distrib, sum_sub_distrib, sum_const, card_univ, nsmul_eq_mul, mul_one]
  ring

/-- C90: for vectors of probabilities the reported minimum and maximum are those of the pairs of different vectors, in
`[0, 1)`, and the reported mean is too small by at most `eps` times the length over the number of vectors less one. -/
theorem C90_probabilities [Nonempty β] [Nontrivial ι] (eps : ℝ) (he : 0 < eps) (x : β → ι → κ → ℝ)
    (h0 : ∀ b i k, 0 ≤ x b i k) (h1 : ∀ b i, ∑ k, x b i k = 1) :
    IsLeast (pairSimilarities eps x) (similarityMin eps x) ∧ IsGreatest (pairSimilarities eps x) (similarityMax eps x) ∧
    0 ≤ similarityMin eps x ∧ similarityMax eps x < 1 ∧ similarityMean eps x ≤ pairMean eps x ∧
    pairMean eps x ≤ similarityMean eps x + eps * Fintype.card κ / (Fintype.card ι - 1) := by
  have hnn : ∀ s ∈ pairSimilarities eps x, 0 ≤ s ∧ s < 1 := by
    rintro s ⟨b, i, j, _, rfl⟩
    have := C90_similarity eps he x b i j
    rw [cosinePsim_eq] at this
    exact ⟨this.2.2.2 (h0 b i) (h0 b j), (abs_lt.1 this.2.1).2⟩
  have hmin := C90_min eps x
  have hmax := (C90_max eps x).1 ⟨_, hmin.1, (hnn _ hmin.1).1⟩
  have hB : (0 : ℝ) < Fintype.card β := by exact_mod_cast Fintype.card_pos
  have hI : (1 : ℝ) < Fintype.card ι := by exact_mod_cast Fintype.one_lt_card
  have hI1 : (0 : ℝ) < (Fintype.card ι : ℝ) - 1 := by linarith
  have hD : (0 : ℝ) < Fintype.card β * Fintype.card ι * (Fintype.card ι - 1) := by positivity
  refine ⟨hmin, hmax, (hnn _ hmin.1).1, (hnn _ hmax.1).2, ?_, ?_⟩
  · rw [C90_mean eps he, sub_le_self_iff]
    exact div_nonneg (sum_nonneg fun b _ => sum_nonneg fun i _ => div_nonneg he.le (sumSq_pos eps he _).le) hD.le
  · rw [C90_mean eps he, sub_add_eq_add_sub, add_sub_assoc, le_add_iff_nonneg_right, sub_nonneg]
    have hterm : ∀ b i, eps / ((∑ k, x b i k ^ 2) + eps) ≤ eps * Fintype.card κ := by
      intro b i
      have h2 := sq_sum_le_card_mul_sum_sq (s := (univ : Finset κ)) (f := x b i)
      rw [h1, card_univ, one_pow] at h2
      rw [div_le_iff₀ (sumSq_pos eps he _)]
      have h3 : (0 : ℝ) ≤ Fintype.card κ := by positivity
      have h4 : eps * 1 ≤ eps * (Fintype.card κ * ∑ k, x b i k ^ 2) := mul_le_mul_of_nonneg_left h2 he.le
      have h5 : 0 ≤ eps * Fintype.card κ * eps := by positivity
      calc eps = eps * 1 := (mul_one _).symm
        _ ≤ eps * (Fintype.card κ * ∑ k, x b i k ^ 2) := h4
        _ ≤ eps * Fintype.card κ * ((∑ k, x b i k ^ 2) + eps) := by rw [mul_add]; linarith [mul_assoc eps (Fintype.card κ : ℝ) (∑ k, x b i k ^ 2)]
    have hsum : ∑ b : β, ∑ i : ι, eps / ((∑ k, x b i k ^ 2) + eps) ≤ Fintype.card β * Fintype.card ι * (eps * Fintype.card κ) := by
      calc _ ≤ ∑ b : β, ∑ i : ι, eps * (Fintype.card κ : ℝ) := sum_le_sum fun b _ => sum_le_sum fun i _ => hterm b i
        _ = _ := by simp only [sum_const, card_univ, nsmul_eq_mul]; ring
    rw [div_le_div_iff₀ hD hI1]
    calc _ ≤ Fintype.card β * Fintype.card ι * (eps * Fintype.card κ) * ((Fintype.card ι : ℝ) - 1) :=
          mul_le_mul_of_nonneg_right hsum hI1.le
      _ = _ := by ring

/-- C90: for vectors of probabilities, the mean of the smallest entries is at most, and that of the largest entries at
least, one over their length. -/
theorem C90_min_max_mean [Nonempty ι] [Nonempty κ] (w : ι → κ → ℝ) (h1 : ∀ i, ∑ k, w i k = 1) :
    minMean w ≤ 1 / Fintype.card κ ∧ 1 / Fintype.card κ ≤ maxMean w := by
  have hI : (0 : ℝ) < Fintype.card ι := by exact_mod_cast Fintype.card_pos
  have hK : (0 : ℝ) < Fintype.card κ := by exact_mod_cast Fintype.card_pos
  have hmin : ∀ i, ⨅ k, w i k ≤ 1 / Fintype.card κ := by
    intro i
    rw [le_div_iff₀ hK]
    have : ∑ _k : κ, (⨅ k, w i k) ≤ ∑ k, w i k := sum_le_sum fun k _ => ciInf_le (Set.finite_range _).bddBelow k
    rw [h1, sum_const, card_univ, nsmul_eq_mul] at this
    linarith
  have hmax : ∀ i, 1 / Fintype.card κ ≤ ⨆ k, w i k := by
    intro i
    rw [div_le_iff₀ hK]
    have : ∑ k, w i k ≤ ∑ _k : κ, (⨆ k, w i k) := sum_le_sum fun k _ => le_ciSup (Set.finite_range _).bddAbove k
    rw [h1, sum_const, card_univ, nsmul_eq_mul] at this
    linarith
  unfold minMean maxMean
  constructor
  · rw [div_le_iff₀ hI]
    calc _ ≤ ∑ _i : ι, (1 / Fintype.card κ : ℝ) := sum_le_sum fun i _ => hmin i
      _ = _ := by rw [sum_const, card_univ, nsmul_eq_mul]; ring
  · rw [le_div_iff₀ hI]
    calc _ = ∑ _i : ι, (1 / Fintype.card κ : ℝ) := by rw [sum_const, card_univ, nsmul_eq_mul]; ring
      _ ≤ _ := sum_le_sum fun i _ => hmax i

variable {G m n p : Nat}

/-- C90: the combine weights of the items and the dispatch weights of the slots of the router are such vectors. -/
theorem C90_weights (hm : 0 < m) (hn : 0 < n) (hp : 0 < p) (l : Fin G → Fin m → Fin n → Fin p → ℝ) :
    (∀ g s q, 0 ≤ combineVectors l g s q) ∧ (∀ g s, ∑ q, combineVectors l g s q = 1) ∧
    (∀ g q s, 0 ≤ dispatchVectors l g q s) ∧ (∀ g q, ∑ s, dispatchVectors l g q s = 1) := by
  refine ⟨fun g s q => ((C15_weights (l g)).1 s q.1 q.2).2.le, ?_, fun g q s => ((C15_weights (l g)).1 s q.1 q.2).1.le,
    fun g q => (C15_weights (l g)).2.1 hm q.1 q.2⟩
  intro g s
  have := (C15_weights (l g)).2.2 hn hp s
  unfold combineVectors
  rw [Fintype.sum_prod_type]
  exact this

/-- C90: the reported maximum of the similarities of `mu` is zero for two opposite vectors, whose similarity is
negative. -/
theorem C90_mu_max_counterexample (eps : ℝ) (he : 0 < eps) :
    ∃ mu : Unit → Fin 2 → Fin 1 → ℝ, similarityMax eps mu = 0 ∧ ∀ s ∈ pairSimilarities eps mu, s < 0 := by
  refine ⟨fun _ i _ => if i = 0 then 1 else -1, ?_⟩
  have h : ∀ s ∈ pairSimilarities eps (fun (_ : Unit) (i : Fin 2) (_ : Fin 1) => if i = 0 then (1 : ℝ) else -1), s < 0 := by
    rintro s ⟨b, i, j, hij, rfl⟩
    unfold similarity
    have hd := mul_pos (Real.sqrt_pos.2 (sumSq_pos eps he (fun (_ : Fin 1) => if i = 0 then (1 : ℝ) else -1)))
      (Real.sqrt_pos.2 (sumSq_pos eps he (fun (_ : Fin 1) => if j = 0 then (1 : ℝ) else -1)))
    apply div_neg_of_neg_of_pos _ hd
    fin_cases i <;> fin_cases j <;> simp at hij ⊢
  exact ⟨(C90_max eps _).2 h, h⟩

/-- C90: the reported mean can be negative although all similarities are positive: two items, two experts with one slot. -/
theorem C90_mean_counterexample (eps : ℝ) (he : 0 < eps) :
    ∃ l : Fin 1 → Fin 2 → Fin 2 → Fin 1 → ℝ, similarityMean eps (combineVectors l) < 0 ∧
      ∀ s ∈ pairSimilarities eps (combineVectors l), 0 < s := by
  obtain ⟨E, hE0, hE⟩ : ∃ E : ℝ, 0 < E ∧ 2 / E < eps := by
    refine ⟨4 / eps, by positivity, ?_⟩
    rw [div_div_eq_mul_div, div_lt_iff₀ (by norm_num)]
    linarith
  let l : Fin 1 → Fin 2 → Fin 2 → Fin 1 → ℝ := fun _ s e _ => if s = e then Real.log E else 0
  have hv : ∀ g s e k, combineVectors l g s (e, k) = if s = e then E / (E + 1) else 1 / (E + 1) := by
    intro g s e k
    unfold combineVectors combineWeights softmax
    simp only [l, Fintype.sum_prod_type, Fin.sum_univ_two, Fintype.sum_unique]
    fin_cases s <;> fin_cases e <;> simp [Real.exp_log hE0, add_comm]
  have hS : ∀ g s, ∑ q, combineVectors l g s q ^ 2 = (E / (E + 1)) ^ 2 + (1 / (E + 1)) ^ 2 := by
    intro g s
    simp only [Fintype.sum_prod_type, Fin.sum_univ_two, Fintype.sum_unique, hv]
    fin_cases s <;> simp [add_comm]
  have hD : 0 < (E / (E + 1)) ^ 2 + (1 / (E + 1)) ^ 2 + eps := by positivity
  have hsim : ∀ g s s', s ≠ s' → similarity eps (combineVectors l g s) (combineVectors l g s') =
      2 * (E / (E + 1) * (1 / (E + 1))) / ((E / (E + 1)) ^ 2 + (1 / (E + 1)) ^ 2 + eps) := by
    intro g s s' hs
    unfold similarity
    rw [hS, hS, Real.mul_self_sqrt hD.le]
    congr 1
    simp only [Fintype.sum_prod_type, Fin.sum_univ_two, Fintype.sum_unique, hv]
    fin_cases s <;> fin_cases s' <;> simp at hs ⊢ <;> ring
  refine ⟨l, ?_, ?_⟩
  · rw [C90_mean eps he]
    have h1 : pairMean eps (combineVectors l) =
        2 * (E / (E + 1) * (1 / (E + 1))) / ((E / (E + 1)) ^ 2 + (1 / (E + 1)) ^ 2 + eps) := by
      unfold pairMean
      rw [Finset.sum_congr rfl fun g _ => Finset.sum_congr rfl fun s _ => Finset.sum_congr rfl fun s' hs' =>
        hsim g s s' (Finset.ne_of_mem_erase hs').symm]
      simp only [sum_const, Finset.card_erase_of_mem (mem_univ _), card_univ, Fintype.card_fin, nsmul_eq_mul]
      norm_num
    rw [h1]
    simp only [hS, sum_const, card_univ, Fintype.card_fin, nsmul_eq_mul]
    norm_num only [Nat.cast_one, Nat.cast_ofNat, one_mul, mul_one]
    rw [mul_div_cancel_left₀ _ (two_ne_zero), ← sub_div]
    apply div_neg_of_neg_of_pos _ hD
    have h2 : 2 * (E / (E + 1) * (1 / (E + 1))) ≤ 2 / E := by
      rw [div_mul_div_comm, mul_one, mul_div_assoc', div_le_div_iff₀ (by positivity) hE0]
      nlinarith [mul_pos hE0 hE0]
    linarith
  · rintro s ⟨g, i, j, hij, rfl⟩
    rw [hsim g i j hij]
    positivity

example : Nontrivial (Fin 4) ∧ Nontrivial (Fin 2 × Fin 3) ∧ Nonempty (Fin 1) := ⟨inferInstance, inferInstance, inferInstance⟩

-- Non-vacuity of the vectors of probabilities.
example : (∀ (b : Fin 1) (i : Fin 2) (k : Fin 2), 0 ≤ (fun _ _ _ => 1 / 2 : Fin 1 → Fin 2 → Fin 2 → ℝ) b i k) ∧
    ∀ (b : Fin 1) (i : Fin 2), ∑ k, (fun _ _ _ => 1 / 2 : Fin 1 → Fin 2 → Fin 2 → ℝ) b i k = 1 := by
  constructor
  · intro _ _ _; norm_num
  · intro _ _; norm_num

end Verif.Soft
