import Verif.Model.EnsembleEval
import Verif.Spec.EnsembleEval
import Verif.Proofs.ExceptLemmas
import Mathlib.Algebra.BigOperators.Field
import Mathlib.Algebra.Order.BigOperators.Group.List

namespace Verif.EnsembleEval

open Verif EnsembleEvalSpec

variable {C : Nat}

theorem take_drop_eq {α : Type} (E n : Nat) (rows : List α) :
    (rows.drop n).take E = (List.range E).filterMap fun e => rows[n + e]? := by
  induction E generalizing n with
  | zero => simp
  | succ E ih =>
    rw [List.range_succ_eq_map, List.filterMap_cons, List.filterMap_map]
    by_cases h : n < rows.length
    · rw [List.drop_eq_getElem_cons h, List.take_succ_cons, ih]
      simp only [Nat.add_zero, List.getElem?_eq_getElem h, Function.comp_def]
      congr 2
      funext e
      congr 1
      omega
    · rw [List.drop_eq_nil_of_le (by omega)]
      have : ∀ e, rows[n + e]? = none := fun e => by rw [List.getElem?_eq_none_iff]; omega
      have h0 : rows[n]? = none := this 0
      simp [this, h0]

theorem members_eq {α : Type} (E : Nat) (rows : List α) (b : Nat) : members E rows b = (rows.drop (b * E)).take E :=
  (take_drop_eq E (b * E) rows).symm

theorem members_length {α : Type} (E : Nat) (rows : List α) (B b : Nat) (h : rows.length = B * E) (hb : b < B) :
    (members E rows b).length = E := by
  rw [members_eq, List.length_take, List.length_drop, h]
  have : (b + 1) * E ≤ B * E := Nat.mul_le_mul_right E hb
  rw [Nat.add_mul, Nat.one_mul] at this
  omega

theorem members_map {α β : Type} (f : α → β) (E : Nat) (rows : List α) (b : Nat) :
    members E (rows.map f) b = (members E rows b).map f := by
  rw [members_eq, members_eq, List.map_take, List.map_drop]

theorem members_zipWith {α β γ : Type} (f : α → β → γ) (E : Nat) (x : List α) (y : List β) (b : Nat) :
    members E (List.zipWith f x y) b = List.zipWith f (members E x b) (members E y b) := by
  rw [members_eq, members_eq, members_eq, List.drop_zipWith, List.take_zipWith]

theorem repeat_length (labels : List (Row C)) (E : Nat) : (repeatRows labels E).length = labels.length * E := by
  induction labels with
  | nil => simp [repeatRows]
  | cons a l ih =>
    simp only [repeatRows, List.flatMap_cons, List.length_append, List.length_replicate, List.length_cons] at *
    rw [ih, Nat.add_mul, Nat.one_mul, Nat.add_comm]

theorem members_repeat (labels : List (Row C)) (E b : Nat) (hb : b < labels.length) :
    members E (repeatRows labels E) b = List.replicate E labels[b] := by
  rw [members_eq]
  induction labels generalizing b with
  | nil => simp at hb
  | cons a l ih =>
    cases b with
    | zero =>
      simp only [repeatRows, List.flatMap_cons, Nat.zero_mul, List.drop_zero, List.getElem_cons_zero]
      rw [List.take_append_of_le_length (by simp), List.take_of_length_le (by simp)]
    | succ b =>
      have := ih b (by simpa using hb)
      simp only [repeatRows, List.flatMap_cons, List.getElem_cons_succ] at this ⊢
      rw [← this]
      congr 1
      rw [List.drop_append, List.drop_eq_nil_of_le (by rw [List.length_replicate, Nat.add_mul]; omega), List.nil_append,
        List.length_replicate]
      congr 1
      rw [Nat.add_mul]
      omega

theorem zipWith_replicate {α β γ : Type} (f : α → β → γ) (l : List α) (n : Nat) (y : β) (h : l.length = n) :
    List.zipWith f l (List.replicate n y) = l.map (f · y) := by
  induction l generalizing n with
  | nil => simp
  | cons a l ih =>
    cases n with
    | zero => simp at h
    | succ n => rw [List.replicate_succ, List.zipWith_cons_cons, List.map_cons, ih n (by simpa using h)]

/-- The value of `_ensemble_log_mean`. -/
theorem logMean_ok (rows : List (Row C)) (E B : Nat) (f : Row C → Row C) (hE : E ≠ 0) (h : rows.length = B * E) :
    logMean rows E f = .ok ((List.range B).map fun b c =>
      Real.log (((members E rows b).map fun m => Real.exp (f m c)).sum) - Real.log E) := by
  unfold logMean reshape
  rw [if_neg hE, h, if_neg (by simp), Nat.mul_div_cancel _ (Nat.pos_of_ne_zero hE)]
  change Except.ok _ = Except.ok _
  congr 1
  rw [List.map_map, List.map_map]
  apply List.map_congr_left
  intro b _
  funext c
  simp only [Function.comp_def, members_eq, List.map_map]

theorem logMean_error (rows : List (Row C)) (E : Nat) (f : Row C → Row C) (hE : E ≠ 0) (h : ¬ E ∣ rows.length) :
    logMean rows E f = .error .typeError := by
  unfold logMean reshape
  rw [if_neg hE, if_pos (by rw [Ne, ← Nat.dvd_iff_mod_eq_zero]; exact h)]
  rfl

theorem sum_exp_pos (l : List ℝ) (h : l ≠ []) : 0 < (l.map Real.exp).sum := by
  cases l with
  | nil => exact absurd rfl h
  | cons a l =>
    rw [List.map_cons, List.sum_cons]
    have : 0 ≤ (l.map Real.exp).sum := List.sum_nonneg (by
      intro x hx
      obtain ⟨y, _, rfl⟩ := List.mem_map.1 hx
      exact (Real.exp_pos y).le)
    have := Real.exp_pos a
    linarith

theorem exp_log_mean (l : List ℝ) (h : l ≠ []) :
    Real.exp (Real.log ((l.map Real.exp).sum) - Real.log l.length) = mean (l.map Real.exp) := by
  have h1 : (0 : ℝ) < l.length := by exact_mod_cast List.length_pos_iff.2 h
  rw [Real.exp_sub, Real.exp_log (sum_exp_pos l h), Real.exp_log h1, mean, List.length_map]

/-- The mean of logarithms is at most the logarithm of the mean. -/
theorem mean_le_log_mean (l : List ℝ) (h : l ≠ []) :
    mean l ≤ Real.log ((l.map Real.exp).sum) - Real.log l.length := by
  set A := Real.log ((l.map Real.exp).sum) - Real.log l.length with hA
  have h1 : (0 : ℝ) < l.length := by exact_mod_cast List.length_pos_iff.2 h
  have hexp : Real.exp A * l.length = (l.map Real.exp).sum := by
    rw [hA, exp_log_mean l h, mean, List.length_map, div_mul_cancel₀ _ h1.ne']
  have key : ∀ l : List ℝ, l.sum + (1 - A) * l.length ≤ (l.map Real.exp).sum * Real.exp (-A) := by
    intro l
    induction l with
    | nil => simp
    | cons a l ih =>
      simp only [List.sum_cons, List.map_cons, List.length_cons, Nat.cast_add, Nat.cast_one]
      have h2 : Real.exp a * Real.exp (-A) = Real.exp (a - A) := by rw [← Real.exp_add, sub_eq_add_neg]
      have h3 := Real.add_one_le_exp (a - A)
      rw [add_mul, h2]
      linarith
  have h2 := key l
  rw [← hexp] at h2
  have h3 : Real.exp A * l.length * Real.exp (-A) = l.length := by
    rw [mul_right_comm, ← Real.exp_add, add_neg_cancel, Real.exp_zero, one_mul]
  rw [h3] at h2
  rw [mean, div_le_iff₀ h1]
  linarith

theorem exp_logSoftmax (x : Row C) (c : Fin C) : Real.exp (logSoftmax x c) = softmaxProb x c := by
  have h : 0 < ∑ j, Real.exp (x j) := Finset.sum_pos (fun j _ => Real.exp_pos _) ⟨c, Finset.mem_univ c⟩
  rw [logSoftmax, Real.exp_sub, Real.exp_log h, softmaxProb]

theorem exp_logSigmoid (x : Row C) (c : Fin C) : Real.exp (logSigmoid x c) = sigmoidProb x c := by
  have h : 0 < 1 + Real.exp (-(x c)) := by have := Real.exp_pos (-(x c)); linarith
  rw [logSigmoid, Real.exp_neg, Real.exp_log h, sigmoidProb, one_div]

theorem sigmoidProb_neg (x : Row C) (c : Fin C) : sigmoidProb (-x) c = 1 - sigmoidProb x c := by
  have h := Real.exp_pos (x c)
  have h' : 1 + Real.exp (x c) ≠ 0 := by linarith
  have h'' : 1 + (Real.exp (x c))⁻¹ ≠ 0 := by positivity
  simp only [sigmoidProb, Pi.neg_apply, neg_neg, Real.exp_neg]
  field_simp
  ring

theorem softmaxProb_sum (hC : 0 < C) (x : Row C) : ∑ c, softmaxProb x c = 1 := by
  have h : 0 < ∑ j, Real.exp (x j) := Finset.sum_pos (fun j _ => Real.exp_pos _) ⟨⟨0, hC⟩, Finset.mem_univ _⟩
  simp only [softmaxProb]
  rw [← Finset.sum_div, div_self h.ne']

theorem sum_map_sum {α : Type} (l : List α) (f : α → Fin C → ℝ) :
    ∑ c, (l.map fun m => f m c).sum = (l.map fun m => ∑ c, f m c).sum := by
  induction l with
  | nil => simp
  | cons a l ih => simp only [List.map_cons, List.sum_cons, Finset.sum_add_distrib, ih]

theorem multiplyNoNan_eq (x y : ℝ) : multiplyNoNan x y = x * y := by
  unfold multiplyNoNan
  by_cases h : x = 0 <;> simp [h]

theorem argmax_loop (row : Row C) (l : List (Fin C)) (b : Fin C) :
    ∃ r, l.foldl (fun best c => match best with
        | none => some c
        | some b => if row b < row c then some c else some b) (some b) = some r ∧
      (r = b ∧ (∀ c ∈ l, row c ≤ row b) ∨
        row b < row r ∧ ∃ l1 l2, l = l1 ++ r :: l2 ∧ (∀ c ∈ l1, row c < row r) ∧ ∀ c ∈ l2, row c ≤ row r) := by
  induction l generalizing b with
  | nil => exact ⟨b, rfl, .inl ⟨rfl, by simp⟩⟩
  | cons a l ih =>
    rw [List.foldl_cons]
    simp only
    by_cases h : row b < row a
    · rw [if_pos h]
      obtain ⟨r, h1, h2⟩ := ih a
      refine ⟨r, h1, .inr ?_⟩
      rcases h2 with ⟨rfl, h2⟩ | ⟨h2, l1, l2, rfl, h3, h4⟩
      · exact ⟨h, [], l, rfl, by simp, h2⟩
      · refine ⟨h.trans h2, a :: l1, l2, rfl, ?_, h4⟩
        intro c hc
        rcases List.mem_cons.1 hc with rfl | hc
        · exact h2
        · exact h3 c hc
    · rw [if_neg h]
      obtain ⟨r, h1, h2⟩ := ih b
      refine ⟨r, h1, ?_⟩
      rcases h2 with ⟨rfl, h2⟩ | ⟨h2, l1, l2, rfl, h3, h4⟩
      · refine .inl ⟨rfl, ?_⟩
        intro c hc
        rcases List.mem_cons.1 hc with rfl | hc
        · exact not_lt.1 h
        · exact h2 c hc
      · refine .inr ⟨h2, a :: l1, l2, rfl, ?_, h4⟩
        intro c hc
        rcases List.mem_cons.1 hc with rfl | hc
        · exact (not_lt.1 h).trans_lt h2
        · exact h3 c hc

theorem argmax_spec (hC : 0 < C) (row : Row C) :
    ∃ r, argmax row = some r ∧ (∀ c, row c ≤ row r) ∧ ∀ c, c < r → row c < row r := by
  obtain ⟨n, rfl⟩ : ∃ n, C = n + 1 := ⟨C - 1, by omega⟩
  unfold argmax
  have hfr : List.finRange (n + 1) = 0 :: (List.finRange n).map Fin.succ := List.finRange_succ
  rw [hfr, List.foldl_cons]
  obtain ⟨r, h1, h2⟩ := argmax_loop row ((List.finRange n).map Fin.succ) 0
  refine ⟨r, h1, ?_⟩
  have hmem : ∀ c : Fin (n + 1), c = 0 ∨ c ∈ (List.finRange n).map Fin.succ := by
    intro c
    have := List.mem_finRange c
    rw [hfr] at this
    exact List.mem_cons.1 this
  rcases h2 with ⟨rfl, h2⟩ | ⟨h2, l1, l2, h3, h4, h5⟩
  · constructor
    · intro c
      rcases hmem c with rfl | h
      · exact le_refl _
      · exact h2 c h
    · intro c hc
      exact absurd hc (by simp)
  · have hsorted : ((List.finRange n).map Fin.succ).Pairwise (· < ·) := by
      rw [List.pairwise_map]
      exact (List.pairwise_lt_finRange n).imp (by intro a b h; exact Fin.succ_lt_succ_iff.2 h)
    rw [h3] at hsorted hmem
    constructor
    · intro c
      rcases hmem c with rfl | h
      · exact h2.le
      · rcases List.mem_append.1 h with h | h
        · exact (h4 c h).le
        · rcases List.mem_cons.1 h with rfl | h
          · exact le_refl _
          · exact h5 c h
    · intro c hc
      rcases hmem c with rfl | h
      · exact h2
      · rcases List.mem_append.1 h with h | h
        · exact h4 c h
        · rcases List.mem_cons.1 h with rfl | h
          · exact absurd hc (lt_irrefl _)
          · have := (List.pairwise_cons.1 (List.pairwise_append.1 hsorted).2.1).1 c h
            exact absurd hc (not_lt.2 this.le)

theorem mapM_ok {α β : Type} (f : α → Except PyErr β) (g : α → β) (l : List α) (h : ∀ a ∈ l, f a = .ok (g a)) :
    l.mapM f = .ok (l.map g) := by
  induction l with
  | nil => rfl
  | cons a l ih =>
    rw [List.mapM_cons, h a (by simp), ih fun b hb => h b (by simp [hb])]
    rfl

end Verif.EnsembleEval
