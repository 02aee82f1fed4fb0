import Verif.Proofs.Mixup
import Verif.Proofs.PyDict
import Mathlib.Tactic.NormNum
import Mathlib.Algebra.Order.BigOperators.Group.Finset
import Mathlib.Algebra.BigOperators.Group.Finset.Sigma

/-!
C49: mixup is a convex combination of examples of the same device, with the same weights for images and labels.
-/

namespace Verif.Mixup

open Verif Verif.MixSpec NdArray

/-- C49: `mixup` replaces every array with an array of the same shape, whose values are combinations of the values at
positions shifted along the chosen axis.  The weights are non-negative, sum to one and are largest for the original
position.  The same weights are used for every array. -/
theorem C49_mixup (sample : List Nat → NdArray ℝ) (arrays : List (NdArray ℝ)) (c : ℝ) (as bs : List Nat) (size axis : Nat)
    (hc : 0 < c) (hS : IsDirichlet (sample (as ++ [size])) as size) (hsize : 0 < size)
    (hab : List.Forall₂ (fun x y => x = 1 ∨ x = y) as bs) (hax : axis < bs.length)
    (hx : ∀ x ∈ arrays, ∃ rest, x.shape = bs ++ rest) :
    ∃ (w : List Nat → Nat → ℝ) (f : NdArray ℝ → NdArray ℝ),
      mixup sample arrays c (as ++ [size]) axis = .ok (arrays.map f) ∧ (∀ b, Valid bs b → IsWeights (w b) size) ∧
      ∀ x ∈ arrays, (f x).shape = x.shape ∧ ∀ rest, x.shape = bs ++ rest → ∀ b r, Valid bs b → Valid rest r →
        (f x).get (b ++ r) = ∑ i ∈ Finset.range size,
          w b i * x.get (b.set axis ((b.getD axis 0 + i) % bs.getD axis 0) ++ r) := by
  obtain ⟨f, hf, hfg⟩ := mixup_ok (sample := sample) hc hS.1 hsize hab hax hx
  exact ⟨fun b => weight (sample (as ++ [size])) size (broadcastIndex as b), f, hf,
    fun b hb => weight_isWeights hS (broadcastIndex_valid hab hb), hfg⟩

/-- C49: mixing a batch of `D * b` examples on `D` devices.  Every example becomes a combination of examples in its own
block of `b` examples, with non-negative weights that sum to one and are largest for the example itself; images and labels
use the same weights.  With granularity `batch` all the examples use the same weights, and with granularity `device` the
examples of a device do. -/
theorem C49_batch (sample : List Nat → NdArray ℝ) (D b size : Nat) (c : ℝ) (g : Granularity) (images labels : NdArray ℝ)
    (ri rl : List Nat) (hg : g ≠ .other) (hc : 0 < c) (hsize : 0 < size) (hD : 0 < D) (hb : 0 < b)
    (hi : images.shape = D * b :: ri) (hl : labels.shape = D * b :: rl) (hri : ri.prod ≠ 0) (hrl : rl.prod ≠ 0)
    (hS : ∀ batch, IsDirichlet (sample (batch ++ [size])) batch size) :
    ∃ (w : Nat → Nat → ℝ) (im lb : NdArray ℝ), mixBatch sample D c g size images labels = .ok (im, lb) ∧
      im.shape = images.shape ∧ lb.shape = labels.shape ∧
      (∀ e < D * b, IsWeights (w e) size) ∧
      (g = .batch → ∀ e e', w e = w e') ∧
      (g = .device → ∀ e e', e / b = e' / b → w e = w e') ∧
      (∀ e r, e < D * b → Valid ri r → im.get (e :: r) = ∑ i ∈ Finset.range size,
        w e i * images.get ((e / b * b + (e % b + i) % b) :: r)) ∧
      (∀ e r, e < D * b → Valid rl r → lb.get (e :: r) = ∑ i ∈ Finset.range size,
        w e i * labels.get ((e / b * b + (e % b + i) % b) :: r)) := by
  obtain ⟨im, lb, h, his, hls, hig, hlg⟩ := mixBatch_ok (sample := sample) (g := g) hg hc hsize hD hb hi hl hri hrl (hS _).1
  refine ⟨fun e => weight (sample (weightBatch g D b ++ [size])) size (broadcastIndex (weightBatch g D b) [e / b, e % b]),
    im, lb, h, his, hls, ?_, ?_, ?_, hig, hlg⟩
  · intro e he
    apply weight_isWeights (hS _)
    refine broadcastIndex_valid (bs := [D, b]) ?_ ?_
    · cases g <;> simp [weightBatch]
    · exact List.Forall₂.cons ((Nat.div_lt_iff_lt_mul hb).2 he) (List.Forall₂.cons (Nat.mod_lt _ hb) List.Forall₂.nil)
  · intro hgb e e'
    subst hgb
    rfl
  · intro hgd e e' hee
    subst hgd
    simp only [weightBatch, broadcastIndex]
    simp [hee]

/-- Weights that sum to one keep a common value. -/
theorem C49_keeps_common_values {w : Nat → ℝ} {size : Nat} (hw : IsWeights w size) (f : Nat → ℝ) (lo hi : ℝ)
    (h : ∀ i < size, lo ≤ f i ∧ f i ≤ hi) :
    lo ≤ ∑ i ∈ Finset.range size, w i * f i ∧ ∑ i ∈ Finset.range size, w i * f i ≤ hi := by
  constructor
  · calc lo = ∑ i ∈ Finset.range size, w i * lo := by rw [← Finset.sum_mul, hw.sum, one_mul]
      _ ≤ _ := Finset.sum_le_sum fun i hi' => mul_le_mul_of_nonneg_left (h i (Finset.mem_range.1 hi')).1 (hw.nonneg i)
  · calc _ ≤ ∑ i ∈ Finset.range size, w i * hi :=
          Finset.sum_le_sum fun i hi' => mul_le_mul_of_nonneg_left (h i (Finset.mem_range.1 hi')).2 (hw.nonneg i)
      _ = hi := by rw [← Finset.sum_mul, hw.sum, one_mul]

/-- C49: if every label is a probability distribution over `n` classes, so is every mixed label. -/
theorem C49_labels (sample : List Nat → NdArray ℝ) (D b size n : Nat) (c : ℝ) (g : Granularity) (images labels im lb : NdArray ℝ)
    (ri : List Nat) (hg : g ≠ .other) (hc : 0 < c) (hsize : 0 < size) (hD : 0 < D) (hb : 0 < b) (hn : 0 < n)
    (hi : images.shape = D * b :: ri) (hl : labels.shape = [D * b, n]) (hri : ri.prod ≠ 0)
    (hS : ∀ batch, IsDirichlet (sample (batch ++ [size])) batch size)
    (hprob : ∀ e < D * b, (∀ k < n, 0 ≤ labels.get [e, k]) ∧ ∑ k ∈ Finset.range n, labels.get [e, k] = 1)
    (h : mixBatch sample D c g size images labels = .ok (im, lb)) :
    ∀ e < D * b, (∀ k < n, 0 ≤ lb.get [e, k]) ∧ ∑ k ∈ Finset.range n, lb.get [e, k] = 1 := by
  obtain ⟨w, im', lb', h', _, _, hw, _, _, _, hlg⟩ := C49_batch sample D b size c g images labels ri [n] hg hc hsize hD hb hi
    hl hri (by simp; omega) hS
  rw [h] at h'
  obtain ⟨rfl, rfl⟩ := Prod.mk.injEq .. ▸ Except.ok.inj h'
  intro e he
  have hsrc : ∀ i, e / b * b + (e % b + i) % b < D * b := fun i =>
    calc e / b * b + (e % b + i) % b < e / b * b + b := by have := Nat.mod_lt (e % b + i) hb; omega
      _ = (e / b + 1) * b := by ring
      _ ≤ D * b := Nat.mul_le_mul_right _ ((Nat.div_lt_iff_lt_mul hb).2 he)
  have hv : ∀ k < n, Valid [n] [k] := fun k hk => List.Forall₂.cons hk List.Forall₂.nil
  constructor
  · intro k hk
    rw [hlg e [k] he (hv k hk)]
    exact Finset.sum_nonneg fun i _ => mul_nonneg ((hw e he).nonneg i) ((hprob _ (hsrc i)).1 k hk)
  · rw [Finset.sum_congr rfl fun k hk => hlg e [k] he (hv k (Finset.mem_range.1 hk)), Finset.sum_comm]
    rw [Finset.sum_congr rfl fun i _ => show _ = w e i by rw [← Finset.mul_sum, (hprob _ (hsrc i)).2, mul_one]]
    exact (hw e he).sum

/-- C49: with granularity `batch` or `device`, the sum over the examples of every entry is the same as without mixing. -/
theorem C49_batch_sum (sample : List Nat → NdArray ℝ) (D b size : Nat) (c : ℝ) (g : Granularity) (images labels im lb : NdArray ℝ)
    (ri rl : List Nat) (hg : g = .batch ∨ g = .device) (hc : 0 < c) (hsize : 0 < size) (hD : 0 < D) (hb : 0 < b)
    (hi : images.shape = D * b :: ri) (hl : labels.shape = D * b :: rl) (hri : ri.prod ≠ 0) (hrl : rl.prod ≠ 0)
    (hS : ∀ batch, IsDirichlet (sample (batch ++ [size])) batch size)
    (h : mixBatch sample D c g size images labels = .ok (im, lb)) :
    (∀ r, Valid ri r → ∑ e ∈ Finset.range (D * b), im.get (e :: r) = ∑ e ∈ Finset.range (D * b), images.get (e :: r)) ∧
    (∀ r, Valid rl r → ∑ e ∈ Finset.range (D * b), lb.get (e :: r) = ∑ e ∈ Finset.range (D * b), labels.get (e :: r)) := by
  have hg' : g ≠ .other := by rcases hg with rfl | rfl <;> simp
  obtain ⟨w, im', lb', h', _, _, hw, hwb, hwd, hig, hlg⟩ := C49_batch sample D b size c g images labels ri rl hg' hc hsize hD
    hb hi hl hri hrl hS
  rw [h] at h'
  obtain ⟨rfl, rfl⟩ := Prod.mk.injEq .. ▸ Except.ok.inj h'
  have hconst : ∀ e e', e / b = e' / b → w e = w e' := by
    rcases hg with hg | hg
    · exact fun e e' _ => hwb hg e e'
    · exact hwd hg
  have key : ∀ (f F : Nat → ℝ), (∀ e < D * b, F e = ∑ i ∈ Finset.range size, w e i * f (e / b * b + (e % b + i) % b)) →
      ∑ e ∈ Finset.range (D * b), F e = ∑ e ∈ Finset.range (D * b), f e := by
    intro f F hF
    rw [sum_devices, sum_devices]
    apply Finset.sum_congr rfl
    intro d hd
    have hd := Finset.mem_range.1 hd
    have hlt : ∀ j < b, d * b + j < D * b := fun j hj =>
      calc d * b + j < d * b + b := by omega
        _ = (d + 1) * b := by ring
        _ ≤ D * b := Nat.mul_le_mul_right _ hd
    have hdiv : ∀ j < b, (d * b + j) / b = d := fun j hj => by
      rw [mul_comm, Nat.mul_add_div hb, Nat.div_eq_of_lt hj, Nat.add_zero]
    have hmod : ∀ j < b, (d * b + j) % b = j := fun j hj => by
      rw [mul_comm, Nat.mul_add_mod, Nat.mod_eq_of_lt hj]
    have step : ∀ j ∈ Finset.range b, F (d * b + j) =
        ∑ i ∈ Finset.range size, w (d * b) i * f (d * b + (j + i) % b) := by
      intro j hj
      have hj := Finset.mem_range.1 hj
      rw [hF _ (hlt j hj), hdiv j hj, hmod j hj,
        hconst (d * b + j) (d * b) (by rw [hdiv j hj, Nat.mul_div_cancel _ hb])]
    rw [Finset.sum_congr rfl step, Finset.sum_comm]
    calc _ = ∑ i ∈ Finset.range size, w (d * b) i * ∑ j ∈ Finset.range b, f (d * b + j) :=
          Finset.sum_congr rfl fun i _ => by rw [← Finset.mul_sum, sum_rotate b i hb fun j => f (d * b + j)]
      _ = _ := by
          rw [← Finset.sum_mul, (hw (d * b) (by have := hlt 0 hb; simpa using this)).sum, one_mul]
  exact ⟨fun r hr => key (fun e => images.get (e :: r)) (fun e => im.get (e :: r)) fun e he => hig e r he hr,
    fun r hr => key (fun e => labels.get (e :: r)) (fun e => lb.get (e :: r)) fun e he => hlg e r he hr⟩

/-- C49: mixup is refused for a shape with fewer than two axes, for an axis outside the batch axes, for a concentration
that is not positive, and for an unknown granularity. -/
theorem C49_rejects (sample : List Nat → NdArray ℝ) (x : NdArray ℝ) (c : ℝ) (shape : List Nat) (axis : Int)
    (h : shape.length < 2 ∨ axis < 0 ∨ (shape.length : Int) - 1 ≤ axis ∨ c ≤ 0) :
    mixup sample [x] c shape axis = .error .valueError := by
  unfold mixup
  by_cases h1 : shape.length < 2
  · rw [if_pos h1]
    rfl
  · rw [if_neg h1]
    cases hb : broadcastShapes (x.shape.take (shape.length - 1)) shape.dropLast with
    | error e =>
      have he : e = .valueError := by
        unfold broadcastShapes at hb
        split at hb
        · cases hb
        · cases hb; rfl
      subst he
      have : ([x].forM fun x_1 => do
          let _ ← broadcastShapes (x_1.shape.take (shape.length - 1)) shape.dropLast
          if x_1.shape.take (shape.length - 1) ≠ ((([x].head?.map NdArray.shape).getD []).take (shape.length - 1)) then
            throw PyErr.valueError : Except PyErr Unit) = .error .valueError := by
        change ((broadcastShapes (x.shape.take (shape.length - 1)) shape.dropLast >>= _) >>= _) = _
        rw [hb]
        rfl
      simp only [this]
      rfl
    | ok s =>
      have : ([x].forM fun x_1 => do
          let _ ← broadcastShapes (x_1.shape.take (shape.length - 1)) shape.dropLast
          if x_1.shape.take (shape.length - 1) ≠ ((([x].head?.map NdArray.shape).getD []).take (shape.length - 1)) then
            throw PyErr.valueError : Except PyErr Unit) = .ok () := by
        change ((broadcastShapes (x.shape.take (shape.length - 1)) shape.dropLast >>= _) >>= _) = _
        rw [hb]
        change ((if _ then _ else _ : Except PyErr Unit) >>= _) = _
        rw [if_neg (by simp)]
        rfl
      simp only [this]
      change (if _ then _ else _ : Except PyErr (List (NdArray ℝ))) = _
      by_cases h2 : 0 ≤ axis ∧ axis < ((shape.length - 1 : Nat) : Int)
      · rw [if_neg (not_not.2 h2)]
        change (if _ then _ else _ : Except PyErr (List (NdArray ℝ))) = _
        have : c ≤ 0 := by
          rcases h with h | h | h | h
          · exact absurd h h1
          · omega
          · omega
          · exact h
        rw [if_pos this]
        rfl
      · rw [if_pos h2]
        rfl

/-- C49: an unknown granularity is refused. -/
theorem C49_unknown_granularity (sample : List Nat → NdArray ℝ) (D size : Nat) (c : ℝ) (images labels : NdArray ℝ) (out)
    : mixBatch sample D c .other size images labels ≠ .ok out := by
  unfold mixBatch
  cases jreshape images (some D :: none :: images.shape.tail.map some) with
  | error e => intro h; cases h
  | ok i =>
    cases jreshape labels (some D :: none :: labels.shape.tail.map some) with
    | error e => intro h; cases h
    | ok l => intro h; cases h

/-- C49: without a concentration the train step is not changed. -/
theorem C49_disabled {R S O : Type} (split : R → R × R) (sample : R → List Nat → NdArray ℝ) (D : Nat) (g : Granularity)
    (size : Nat) (trainStep : PyDict (List Char) R → S → NdArray ℝ → NdArray ℝ → Except PyErr (PyDict (List Char) R × S × O)) :
    wrapMixup split sample D none g size trainStep = trainStep ∧
    wrapMixup split sample D (some 0) g size trainStep = trainStep := by
  constructor
  · rfl
  · simp [wrapMixup]

/-- C49: the wrapped step asks for a generator with the name `mixup`. -/
theorem C49_needs_generator {R S O : Type} (split : R → R × R) (sample : R → List Nat → NdArray ℝ) (D : Nat) (c : ℝ)
    (g : Granularity) (size : Nat)
    (trainStep : PyDict (List Char) R → S → NdArray ℝ → NdArray ℝ → Except PyErr (PyDict (List Char) R × S × O))
    (rngs : PyDict (List Char) R) (state : S) (images labels : NdArray ℝ) (hc : c ≠ 0)
    (h : PyDict.get? rngs "mixup".toList = none) :
    wrapMixup split sample D (some c) g size trainStep rngs state images labels = .error .valueError := by
  unfold wrapMixup
  simp only [if_neg hc, h]

/-- C49: when the wrapped step returns, the inner step was called with the mixed batch and without the mixup generator, and
the returned generators are those of the inner step with the next mixup generator; the generator used for the weights is
the other half of the split, so it is not used twice. -/
theorem C49_generators {R S O : Type} (split : R → R × R) (sample : R → List Nat → NdArray ℝ) (D : Nat) (c : ℝ)
    (g : Granularity) (size : Nat)
    (trainStep : PyDict (List Char) R → S → NdArray ℝ → NdArray ℝ → Except PyErr (PyDict (List Char) R × S × O))
    (rngs rngs' : PyDict (List Char) R) (state state' : S) (out : O) (images labels : NdArray ℝ) (hc : c ≠ 0)
    (h : wrapMixup split sample D (some c) g size trainStep rngs state images labels = .ok (rngs', state', out)) :
    ∃ rng inner innerOut im lb, PyDict.get? rngs "mixup".toList = some rng ∧
      mixBatch (sample (split rng).1) D c g size images labels = .ok (im, lb) ∧
      trainStep inner state im lb = .ok (innerOut, state', out) ∧
      PyDict.get? inner "mixup".toList = none ∧
      (∀ k, k ≠ "mixup".toList → PyDict.get? inner k = PyDict.get? rngs k) ∧
      PyDict.get? rngs' "mixup".toList = some (split rng).2 ∧
      (∀ k, k ≠ "mixup".toList → PyDict.get? rngs' k = PyDict.get? innerOut k) := by
  unfold wrapMixup at h
  simp only [if_neg hc] at h
  cases hr : PyDict.get? rngs "mixup".toList with
  | none => rw [hr] at h; cases h
  | some rng =>
    rw [hr] at h
    change (mixBatch _ _ _ _ _ _ _ >>= _) = _ at h
    obtain ⟨⟨im, lb⟩, hm, h⟩ := ebind h
    obtain ⟨⟨r1, s1, o1⟩, ht, h⟩ := ebind h
    cases h
    have hfilter : ∀ (d : PyDict (List Char) R) (k : List Char), PyDict.get?
        (d.filter fun e => decide (e.1 ≠ "mixup".toList)) k = if k = "mixup".toList then none else PyDict.get? d k := by
      intro d k
      induction d with
      | nil => simp [PyDict.get?]
      | cons e d ih =>
        by_cases he : e.1 = "mixup".toList
        · rw [List.filter_cons_of_neg (by simp [he]), ih]
          by_cases hk : k = "mixup".toList
          · simp [hk]
          · have : ¬ e.1 = k := fun h => hk (h ▸ he)
            simp only [if_neg hk]
            change _ = if e.1 = k then _ else _
            rw [if_neg this]
        · rw [List.filter_cons_of_pos (by simpa using he)]
          change (if e.1 = k then _ else _) = if _ then _ else (if e.1 = k then _ else _)
          by_cases hek : e.1 = k
          · rw [if_pos hek, if_pos hek, if_neg (fun h => he (hek.trans h))]
          · rw [if_neg hek, if_neg hek]
            exact ih
    refine ⟨rng, _, r1, im, lb, rfl, hm, ht, ?_, ?_, ?_, ?_⟩
    · rw [hfilter, if_pos rfl]
    · intro k hk
      rw [hfilter, if_neg hk]
    · rw [PyDict.get?_set, if_pos rfl]
    · intro k hk
      rw [PyDict.get?_set, if_neg (Ne.symm hk)]

/-- A Dirichlet sample that always puts all the weight on one entry. -/
def oneHot (shape : List Nat) : NdArray ℝ := ⟨shape, fun idx => if idx.getLastD 0 = 1 then 1 else 0⟩

/-- The hypotheses of `C49_batch` can be met: four images on two devices. -/
example : ∃ (w : Nat → Nat → ℝ) (im lb : NdArray ℝ), mixBatch oneHot 2 (1 / 5) .device 2 ⟨[4, 3], fun idx => idx.headD 0⟩ ⟨[4, 2], fun _ => 1 / 2⟩
    = .ok (im, lb) ∧ im.shape = [4, 3] ∧ (∀ e < 4, IsWeights (w e) 2) := by
  have hS : ∀ batch, IsDirichlet (oneHot (batch ++ [2])) batch 2 := by
    intro batch
    refine ⟨rfl, ?_⟩
    intro b _
    constructor
    · intro i _
      simp only [oneHot]
      split <;> norm_num
    · simp [oneHot]
  obtain ⟨w, im, lb, h, his, _, hw, _⟩ := C49_batch oneHot 2 2 2 (1 / 5) .device ⟨[4, 3], fun idx => idx.headD 0⟩
    ⟨[4, 2], fun _ => 1 / 2⟩ [3] [2] (by simp) (by norm_num) (by omega) (by omega) (by omega) rfl rfl (by simp) (by simp) hS
  exact ⟨w, im, lb, h, his, hw⟩

end Verif.Mixup
