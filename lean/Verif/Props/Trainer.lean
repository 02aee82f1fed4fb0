import Verif.Proofs.Trainer
import Mathlib.Tactic.FieldSimp
import Mathlib.Tactic.Positivity
import Mathlib.Tactic.Linarith
import Mathlib.Tactic.NormNum

/-! Properties C48 (accumulation of gradients) and C50 (length of the training). -/

namespace Verif.Trainer

open Verif Verif.BatchSpec

/-! ### C50 -/

/-- C50: the length can be computed exactly if one of the two numbers is given, it is not zero, and no division by
zero is needed. -/
theorem C50_accepts (bs ex : Int) (steps : Option Int) (epochs : Option ℚ) :
    (∃ r, getTrainStepsAndEpochs bs ex steps epochs = .ok r) ↔
      ex ≠ 0 ∧ ((∃ s, s ≠ 0 ∧ steps = some s ∧ epochs = none) ∨
        (∃ e, e ≠ 0 ∧ epochs = some e ∧ steps = none ∧ bs ≠ 0)) := by
  by_cases hx : ex = 0 <;> by_cases hb : bs = 0 <;> rcases steps with _ | s <;> rcases epochs with _ | e
  all_goals first
    | (by_cases hs : s = 0 <;> by_cases he : e = 0 <;>
        simp [getTrainStepsAndEpochs, falsy, hx, hb, hs, he, throw, throwThe, MonadExceptOf.throw, bind, Except.bind])
    | (by_cases hs : s = 0 <;>
        simp [getTrainStepsAndEpochs, falsy, hx, hb, hs, throw, throwThe, MonadExceptOf.throw, bind, Except.bind,
          pure, Except.pure])
    | (by_cases he : e = 0 <;>
        simp [getTrainStepsAndEpochs, falsy, hx, hb, he, throw, throwThe, MonadExceptOf.throw, bind, Except.bind,
          pure, Except.pure])
    | simp [getTrainStepsAndEpochs, falsy, hx, hb, throw, throwThe, MonadExceptOf.throw, bind, Except.bind]

/-- C50: with neither or with both numbers the error is a `ValueError`, also when one of the two is zero. -/
theorem C50_rejects (bs ex : Int) (steps : Option Int) (epochs : Option ℚ)
    (h : (steps = none ∧ epochs = none) ∨ (steps.isSome ∧ epochs.isSome)) :
    getTrainStepsAndEpochs bs ex steps epochs = .error .valueError := by
  rcases h with ⟨rfl, rfl⟩ | ⟨h1, h2⟩
  · rfl
  · obtain ⟨s, rfl⟩ := Option.isSome_iff_exists.1 h1
    obtain ⟨e, rfl⟩ := Option.isSome_iff_exists.1 h2
    unfold getTrainStepsAndEpochs
    by_cases hs : falsy (some s) <;> by_cases he : falsy (some e) <;>
      simp [hs, he, throw, throwThe, MonadExceptOf.throw, bind, Except.bind]

/-- C50: a number of steps is used as given, and the number of epochs is the number of examples seen over the number of
examples. -/
theorem C50_steps (bs ex s : Int) (hs : s ≠ 0) (hx : ex ≠ 0) :
    getTrainStepsAndEpochs bs ex (some s) none = .ok (s, (s : ℚ) * bs / ex) := by
  simp [getTrainStepsAndEpochs, falsy, hs, hx, bind, Except.bind, pure, Except.pure]

/-- C50: with a number of epochs the number of steps is the least one whose batches cover that many passes over the
data; the reported number of epochs covers the one asked for, by less than a batch. -/
theorem C50_epochs (bs ex : Int) (e : ℚ) (hb : 0 < bs) (hx : 0 < ex) (he : e ≠ 0) :
    ∃ steps epochs, getTrainStepsAndEpochs bs ex none (some e) = .ok (steps, epochs) ∧
      e * ex ≤ steps * bs ∧ (∀ k : Int, e * ex ≤ k * bs → steps ≤ k) ∧
      epochs * ex = steps * bs ∧ e ≤ epochs ∧ (epochs - e) * ex < bs := by
  have hb' : (0 : ℚ) < bs := by exact_mod_cast hb
  have hx' : (0 : ℚ) < ex := by exact_mod_cast hx
  have h1 : e * ex ≤ (⌈e * ex / bs⌉ : ℚ) * bs := by
    have := Int.le_ceil (e * ex / bs)
    rwa [div_le_iff₀ hb'] at this
  have h2 : (⌈e * ex / bs⌉ : ℚ) * bs < e * ex + bs := by
    have := Int.ceil_lt_add_one (e * ex / bs)
    have h3 := mul_lt_mul_of_pos_right this hb'
    have h4 : (e * ex / bs + 1) * bs = e * ex + bs := by field_simp
    linarith
  have h5 : (⌈e * ex / bs⌉ : ℚ) * bs / ex * ex = ⌈e * ex / bs⌉ * bs := by field_simp
  refine ⟨⌈e * ex / bs⌉, (⌈e * ex / bs⌉ : ℚ) * bs / ex, ?_, h1, ?_, h5, ?_, ?_⟩
  · simp [getTrainStepsAndEpochs, falsy, he, hb.ne', hx.ne', bind, Except.bind, pure, Except.pure]
  · intro k hk
    rw [Int.ceil_le, div_le_iff₀ hb']
    exact hk
  · rw [le_div_iff₀ hx']; exact h1
  · rw [sub_mul, h5]; linarith

example : getTrainStepsAndEpochs 128 1000 none (some (3 / 2)) = .ok (12, 1536 / 1000) := by decide +kernel
example : getTrainStepsAndEpochs 128 1000 (some 0) (some (3 / 2)) = .error .valueError := by decide +kernel

/-! ### C48 -/

section
variable {P I L R G M : Type} [AddCommGroup G] [Module ℝ G] [AddCommGroup M] [Module ℝ M]

/-- C48: no microsteps (`None`, zero or negative) leaves the function as it is. -/
theorem C48_disabled (devices : Nat) (fn : GradFn P I L R G M) (microsteps : Option Int)
    (h : ∀ m, microsteps = some m → m ≤ 0) : accumulate devices fn microsteps = fn := by
  unfold accumulate
  rw [if_pos]
  rcases microsteps with _ | m
  · rfl
  · have := h m rfl
    rcases this.lt_or_eq with h | h
    · simp [h]
    · simp [falsy, h]

/-- C48: a number of examples per device that is not a multiple of the number of microsteps is refused. -/
theorem C48_rejects (devices : Nat) (fn : GradFn P I L R G M) (m : Nat) (hm : 0 < m) (params : P) (images : List I)
    (labels : List L) (rngs : R) (h : ¬ m ∣ images.length / devices) :
    accumulate devices fn (some (m : Int)) params images labels rngs = .error .assertionError := by
  unfold accumulate
  have h0 : ¬ (falsy (some (m : Int)) || decide ((some (m : Int)).getD 0 < 0)) = true := by simp [falsy]; omega
  rw [if_neg h0]
  have h1 : images.length / devices % m ≠ 0 := fun h' => h (Nat.dvd_of_mod_eq_zero h')
  simp [h1, throw, throwThe, MonadExceptOf.throw, bind, Except.bind]

/-- C48: microstep `i` works on the examples in positions `i`, `i + m`, `i + 2m`, ..., with images and labels of the
same positions and with the generators that the previous microstep returned; the result is the average of the gradients
and of the metrics, and the last generators. -/
theorem C48_microsteps (devices : Nat) (hd : 0 < devices) (fn : GradFn P I L R G M) (m : Nat) (hm : 0 < m) (params : P)
    (images : List I) (labels : List L) (hlen : labels.length = images.length)
    (hdev : devices ∣ images.length) (hdvd : m ∣ images.length / devices)
    (gs : Nat → G) (rs : Nat → R) (Ms : Nat → M)
    (hrun : ∀ i < m, fn params (every m i images) (every m i labels) (rs i) = .ok (gs i, rs (i + 1), Ms i)) :
    accumulate devices fn (some (m : Int)) params images labels (rs 0)
      = .ok ((1 / (m : ℝ)) • ((List.range m).map gs).sum, rs m, (1 / (m : ℝ)) • ((List.range m).map Ms).sum) := by
  have hmi : m ∣ images.length := by
    obtain ⟨k, hk⟩ := hdev
    rw [hk, Nat.mul_div_cancel_left _ hd] at hdvd
    rw [hk]; exact Dvd.dvd.mul_left hdvd _
  have hml : m ∣ labels.length := hlen ▸ hmi
  unfold accumulate
  have h0 : ¬ (falsy (some (m : Int)) || decide ((some (m : Int)).getD 0 < 0)) = true := by simp [falsy]; omega
  rw [if_neg h0]
  have h1 : images.length / devices % m = 0 := Nat.mod_eq_zero_of_dvd hdvd
  simp only [Option.getD_some, Int.toNat_natCast, h1, ne_eq, not_true_eq_false, if_false]
  change (reshapeRows m images >>= _) = _
  rw [reshapeRows_ok hm hmi]
  change (reshapeRows m labels >>= _) = _
  rw [reshapeRows_ok hm hml]
  change (fn params _ _ _ >>= _) = _
  rw [dynamicIndex_reshape hmi hm, dynamicIndex_reshape hml hm, hrun 0 hm]
  change ((List.range' 1 (m - 1)).foldlM (m := Except PyErr) _ _ >>= _) = _
  rw [foldlM_accum fn params _ _ gs rs Ms (m - 1) 1 (gs 0) (Ms 0)]
  · have hr : List.range m = 0 :: List.range' 1 (m - 1) := by
      rw [List.range_eq_range']
      obtain ⟨k, rfl⟩ : ∃ k, m = k + 1 := ⟨m - 1, by omega⟩
      rw [List.range'_succ]; simp
    rw [hr, List.map_cons, List.map_cons, List.sum_cons, List.sum_cons]
    have : 1 + (m - 1) = m := by omega
    rw [this]
    rfl
  · intro i hi1 hi2
    have hi : i < m := by omega
    rw [dynamicIndex_reshape hmi hi, dynamicIndex_reshape hml hi]
    exact hrun i hi

/-- C48: every example of the batch is used in exactly one microstep. -/
theorem C48_every_example_once {α : Type} (m : Nat) (hm : 0 < m) (xs : List α) :
    ((List.range m).flatMap fun i => every m i xs).Perm xs := every_perm m hm xs

/-- C48: every microstep uses the same number of examples of every device, when the batch is spread over the devices
in contiguous blocks of `b` examples. -/
theorem C48_covers_devices (m : Nat) (hm : 0 < m) (devices b : Nat) (h : m ∣ b) (i : Nat) (hi : i < m) (d : Nat)
    (hd : d < devices) :
    (every m i ((List.range (devices * b)).map fun j => j / b)).count d = b / m := by
  obtain ⟨k, rfl⟩ := h
  rcases Nat.eq_zero_or_pos k with rfl | hk
  · simp [every]
  rw [Nat.mul_div_cancel_left _ hm]
  have hb : 0 < m * k := Nat.mul_pos hm hk
  have key : ∀ D, (every m i ((List.range (D * (m * k))).map fun j => j / (m * k))).count d = if d < D then k else 0 := by
    intro D
    induction D with
    | zero => simp [every]
    | succ D ih =>
      have hr : (List.range ((D + 1) * (m * k))).map (fun j => j / (m * k))
          = (List.range (D * (m * k))).map (fun j => j / (m * k)) ++ List.replicate (m * k) D := by
        rw [Nat.succ_mul, List.range_add, List.map_append, List.map_map]
        congr 1
        rw [List.eq_replicate_iff]
        refine ⟨by simp, ?_⟩
        intro x hx
        obtain ⟨j, hj, rfl⟩ := List.mem_map.1 hx
        have hj := List.mem_range.1 hj
        simp only [Function.comp]
        rw [Nat.add_comm, Nat.add_mul_div_right _ _ hb, Nat.div_eq_of_lt hj, Nat.zero_add]
      rw [hr, every_append m i _ _ ⟨D * k, by simp; ring⟩, List.count_append, ih]
      have hrep : every m i (List.replicate (m * k) D) = List.replicate k D := by
        rw [List.eq_replicate_iff]
        refine ⟨every_length m i hi k _ (by simp [Nat.mul_comm]), ?_⟩
        intro x hx
        unfold every at hx
        obtain ⟨⟨y, j⟩, hy, rfl⟩ := List.mem_map.1 hx
        have := List.fst_mem_of_mem_zipIdx (List.mem_filter.1 hy).1
        exact List.eq_of_mem_replicate this
      rw [hrep, List.count_replicate]
      by_cases h1 : d < D
      · have : ¬ D = d := by omega
        simp [h1, this, Nat.lt_succ_of_lt h1]
      · by_cases h2 : D = d
        · subst h2; simp
        · have : ¬ d < D + 1 := by omega
          simp [h1, h2, this]
  rw [key, if_pos hd]

/-- C48: if gradients and metrics are means over the examples, the accumulated ones are those of the whole batch. -/
theorem C48_mean (devices : Nat) (hd : 0 < devices) (fn : GradFn P I L R G M) (g : P → I × L → G) (q : P → I × L → M)
    (next : R → R)
    (hfn : ∀ p xs r, fn p (xs.map Prod.fst) (xs.map Prod.snd) r = .ok (mean (g p) xs, next r, mean (q p) xs))
    (m : Nat) (hm : 0 < m) (params : P) (batch : List (I × L)) (hdev : devices ∣ batch.length)
    (hdvd : m ∣ batch.length / devices) (rngs : R) :
    accumulate devices fn (some (m : Int)) params (batch.map Prod.fst) (batch.map Prod.snd) rngs
      = .ok (mean (g params) batch, next^[m] rngs, mean (q params) batch) := by
  have hmi : m ∣ batch.length := by
    obtain ⟨k, hk⟩ := hdev
    rw [hk, Nat.mul_div_cancel_left _ hd] at hdvd
    rw [hk]; exact Dvd.dvd.mul_left hdvd _
  have key : ∀ {W : Type} [AddCommGroup W] [Module ℝ W] (f : I × L → W),
      (1 / (m : ℝ)) • ((List.range m).map fun i => mean f (every m i batch)).sum = mean f batch := by
    intro W _ _ f
    obtain ⟨k, hk⟩ := hmi
    have h1 : ((List.range m).map fun i => mean f (every m i batch))
        = (List.range m).map fun i => (1 / (k : ℝ)) • ((every m i batch).map f).sum := by
      apply List.map_congr_left
      intro i hi
      unfold mean
      rw [every_length m i (List.mem_range.1 hi) k batch (by rw [hk, Nat.mul_comm])]
    have h2 : ((List.range m).map fun i => (1 / (k : ℝ)) • ((every m i batch).map f).sum).sum
        = (1 / (k : ℝ)) • (batch.map f).sum := by
      rw [← ((every_perm m hm batch).map f).sum_eq]
      generalize List.range m = is
      induction is with
      | nil => simp
      | cons i is ih => rw [List.map_cons, List.sum_cons, ih, List.flatMap_cons, List.map_append, List.sum_append, smul_add]
    rw [h1, h2, smul_smul]
    unfold mean
    rw [hk]
    congr 1
    push_cast
    rw [div_mul_div_comm, one_mul]
  have := C48_microsteps devices hd fn m hm params (batch.map Prod.fst) (batch.map Prod.snd) (by simp)
    (by simpa using hdev) (by simpa using hdvd) (fun i => mean (g params) (every m i batch)) (fun i => next^[i] rngs)
    (fun i => mean (q params) (every m i batch)) (by
      intro i _
      rw [every_map, every_map, hfn, Function.iterate_succ_apply'])
  rw [key, key] at this
  exact this
end

/-- C48: a case that meets the hypotheses: eight examples on two devices in two microsteps, the gradient of the mean
of `label * parameter * image`. -/
noncomputable example :
    let fn : GradFn ℝ ℝ ℝ Nat ℝ ℝ := fun p xs ys r =>
      .ok (mean (fun x : ℝ × ℝ => x.1 * x.2) (xs.zip ys), r + 1, mean (fun x : ℝ × ℝ => p * x.1 * x.2) (xs.zip ys))
    ∀ batch : List (ℝ × ℝ), batch.length = 8 →
      accumulate 2 fn (some 2) 3 (batch.map Prod.fst) (batch.map Prod.snd) 0
        = .ok (mean (fun x => x.1 * x.2) batch, 2, mean (fun x => 3 * x.1 * x.2) batch) := by
  intro fn batch h
  have := C48_mean 2 (by decide) fn (fun _ x => x.1 * x.2) (fun p x => p * x.1 * x.2) (· + 1)
    (by intro p xs r; simp [fn, List.zip_map', List.map_id']) 2 (by decide) 3 batch (by rw [h]; decide) (by rw [h]; decide) 0
  exact this

/-- C48: the claim needs gradients that are means over examples; for a function of the batch as a whole (as a mixture of
experts with limited capacity, or a squared batch loss) microsteps change the result. -/
theorem C48_batch_function_counterexample :
    ∃ fn : GradFn Unit ℝ ℝ Unit ℝ ℝ, ∃ xs ys : List ℝ,
      accumulate 1 fn (some 2) () xs ys () ≠ fn () xs ys () := by
  refine ⟨fun _ xs _ _ => .ok (xs.sum ^ 2, (), 0), [1, 1], [1, 1], ?_⟩
  rw [show ((2 : Int)) = ((2 : Nat) : Int) from rfl,
    C48_microsteps 1 (by decide) _ 2 (by decide) () [1, 1] [1, 1] rfl (by simp) (by simp) (fun _ => 1) (fun _ => ())
    (fun _ => 0) (by
      intro i hi
      have : every 2 i [(1 : ℝ), 1] = [1] := by
        rcases (by omega : i = 0 ∨ i = 1) with rfl | rfl <;> simp [every, List.zipIdx]
      simp [this])]
  intro h
  simp only [Except.ok.injEq, Prod.mk.injEq] at h
  norm_num [List.range_succ] at h

/-- C48: the assertion does not protect against a batch that is not spread evenly over the devices: five examples on
two devices pass it and then the reshape fails. -/
theorem C48_uneven_counterexample : ∃ fn : GradFn Unit ℝ ℝ Unit ℝ ℝ,
    accumulate 2 fn (some 2) () [1, 2, 3, 4, 5] [1, 2, 3, 4, 5] () = .error .typeError := by
  refine ⟨fun _ _ _ _ => .ok (0, (), 0), ?_⟩
  simp [accumulate, falsy, reshapeRows, bind, Except.bind]

end Verif.Trainer
