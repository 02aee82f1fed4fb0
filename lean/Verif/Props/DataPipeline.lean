import Verif.Proofs.DataPipeline
import Verif.Proofs.PyDict
import Mathlib.Data.List.Perm.Basic

/-!
# The evaluation dataset: padding (C33) and batch sizes (C39)
-/

namespace Verif.DataPipeline

open Verif

/-- Spec: `k` batches of `b` examples are enough for every process. -/
def Covers (nums : List Nat) (b k : Nat) : Prop := ∀ n ∈ nums, n ≤ k * b

/-- Without a filter there is one number of batches, the least that covers the largest share, such that every
process gets exactly that many full batches, which contain all its processed examples, then the fake ones. -/
theorem C33_padding (nums : List Nat) (batchSize pc dc b : Nat)
    (hbs : batchSizePerProcess batchSize pc dc = .ok b) (hb : 0 < b)
    (process : Data → Except PyErr Data) (g : Data → Data) (spec : PyDict String TensorSpec) :
    ∃ k, Covers nums b k ∧ (∀ k', Covers nums b k' → k ≤ k') ∧
      ∀ (src : Source) (sched : List Data → List Data), (∀ l, (sched l).Perm l) →
        src.nums = nums → src.processCount = pc → src.deviceCount = dc →
        nums[src.processIndex]? = some src.examples.length →
        (∀ d ∈ src.examples, process d = .ok (g d)) →
        ∃ batches, getEvalDataset src batchSize none process spec sched = .ok batches ∧
          batches.length = k ∧ (∀ x ∈ batches, x.length = b) ∧
          batches.flatten = sched (src.examples.map fun d => maskFn (g d)) ++
            List.replicate (k * b - src.examples.length) (fakeElem spec) := by
  have hceil : listMax nums ≤ ceilDiv (listMax nums) b * b ∧
      ceilDiv (listMax nums) b * b < listMax nums + b := by
    have h2 := Nat.div_add_mod (listMax nums + b - 1) b
    have h3 := Nat.mod_lt (listMax nums + b - 1) hb
    unfold ceilDiv
    rw [Nat.mul_comm]
    omega
  refine ⟨ceilDiv (listMax nums) b, fun n hn => le_trans (le_listMax hn) hceil.1, ?_, ?_⟩
  · intro k' hk'
    by_contra hlt
    have h1 : (k' + 1) * b ≤ ceilDiv (listMax nums) b * b := Nat.mul_le_mul_right b (by omega)
    have h2 := listMax_le hk'
    rw [Nat.succ_mul] at h1
    omega
  · intro src sched hs h1 h2 h3 h4 h5
    have hmem : src.examples.length ∈ nums := List.mem_of_getElem? h4
    have hle := le_trans (le_listMax hmem) hceil.1
    set k := ceilDiv (listMax nums) b with hk
    set m := sched (src.examples.map fun d => maskFn (g d)) with hm
    have hml : m.length = src.examples.length := by rw [hm, (hs _).length_eq, List.length_map]
    have hadd : addFakes (((k * b : Nat) : Int) - (src.examples.length : Int)) spec m =
        m ++ List.replicate (k * b - src.examples.length) (fakeElem spec) := by
      unfold addFakes
      by_cases hz : 0 < ((k * b : Nat) : Int) - (src.examples.length : Int)
      · rw [if_pos hz]
        congr 2
        omega
      · rw [if_neg hz]
        have : k * b - src.examples.length = 0 := by omega
        rw [this]
        simp
    have hlen : (m ++ List.replicate (k * b - src.examples.length) (fakeElem spec)).length = k * b := by
      rw [List.length_append, List.length_replicate, hml]
      omega
    obtain ⟨e1, e2, e3⟩ := batch_mul hb hlen
    refine ⟨_, ?_, e1, e2, e3⟩
    unfold getEvalDataset
    rw [h2, h3, hbs]
    change ((src.examples.mapM fun d => do return maskFn (← process d)) >>= _) = _
    rw [mapM_ok_eq (g := fun d => maskFn (g d)) (fun d hd => by rw [h5 d hd]; rfl)]
    change (numFake src.processIndex b src.nums >>= _) = _
    rw [h1, numFake_ok h4 hb]
    change Except.ok (batch b (addFakes _ spec m)) = _
    rw [hadd]

/-- Real examples keep the validity they were given, `True` by default; fake ones are invalid. -/
theorem C33_masks (d : Data) (spec : PyDict String TensorSpec)
    (hspec : PyDict.get? spec validKey = some ⟨true, []⟩) :
    PyDict.get? (maskFn d) validKey = some ((PyDict.get? d validKey).getD (Tensor.bool true)) ∧
    (∀ k, k ≠ validKey → PyDict.get? (maskFn d) k = PyDict.get? d k) ∧
    PyDict.get? (fakeElem spec) validKey = some (Tensor.bool false) ∧
    ∀ k t, PyDict.get? (fakeElem spec) k = some t → ∀ x ∈ t.data, x = 0 := by
  have hget := get?_fakeElem spec
  refine ⟨?_, ?_, ?_, ?_⟩
  · unfold maskFn
    rw [PyDict.get?_set, if_pos rfl]
  · intro k hk
    unfold maskFn
    rw [PyDict.get?_set, if_neg (by tauto)]
  · rw [hget, hspec]
    simp [TensorSpec.zeros, Tensor.bool]
  · intro k t h x hx
    rw [hget] at h
    rw [Option.map_eq_some_iff] at h
    obtain ⟨s, _, rfl⟩ := h
    exact List.eq_of_mem_replicate hx

/-- Two processes with three and two examples and batches of two: both get two batches. -/
example : ∃ src : Source, src.nums = [3, 2] ∧ src.nums[src.processIndex]? = some src.examples.length ∧
    src.processIndex = 1 ∧ batchSizePerProcess 4 2 4 = .ok 2 :=
  ⟨⟨1, 2, 4, [3, 2], [[], []]⟩, rfl, rfl, rfl, rfl⟩

/-- A `pre_filter_fn` breaks this, since the padding is computed from the unfiltered numbers: with two processes
of two examples, one process runs one batch and the other one two. -/
theorem C33_filter_counterexample :
    ∃ (src0 src1 : Source) (p : Data → Bool) (x y : List (List Data)),
      src0.nums = src1.nums ∧ src0.processCount = 2 ∧ src1.processCount = 2 ∧
      src0.processIndex = 0 ∧ src1.processIndex = 1 ∧
      src0.nums = [src0.examples.length, src1.examples.length] ∧
      getEvalDataset src0 2 (some p) .ok [] id = .ok x ∧ getEvalDataset src1 2 (some p) .ok [] id = .ok y ∧
      x.length = 1 ∧ y.length = 2 := by
  refine ⟨⟨0, 2, 2, [2, 2], [[], [("a", Tensor.bool true)]]⟩, ⟨1, 2, 2, [2, 2], [[], []]⟩,
    fun d => d.isEmpty, _, _, rfl, rfl, rfl, rfl, rfl, rfl, rfl, rfl, ?_, ?_⟩ <;> decide +kernel

/-- A `pre_filter_fn` can also lose real examples: one of two examples passes the filter, and the only batch, of
two examples, is never filled. -/
theorem C33_filter_drops_counterexample :
    ∃ (src : Source) (p : Data → Bool),
      src.processCount = 1 ∧ src.nums = [src.examples.length] ∧ (src.examples.filter p).length = 1 ∧
      getEvalDataset src 2 (some p) .ok [] id = .ok [] := by
  refine ⟨⟨0, 1, 2, [2], [[], [("a", Tensor.bool true)]]⟩, fun d => d.isEmpty, rfl, rfl, rfl, ?_⟩
  rfl

/-- A dataset is only built for a batch size that is a multiple of the process and device counts. -/
theorem C39_validation (src : Source) (batchSize : Nat) (pf : Option (Data → Bool))
    (process : Data → Except PyErr Data) (spec : PyDict String TensorSpec) (sched : List Data → List Data) :
    (¬ (src.processCount ∣ batchSize ∧ src.deviceCount ∣ batchSize) →
      getEvalDataset src batchSize pf process spec sched = .error .valueError) ∧
    ∀ batches, getEvalDataset src batchSize pf process spec sched = .ok batches →
      src.processCount ∣ batchSize ∧ src.deviceCount ∣ batchSize ∧
      ∀ x ∈ batches, x.length * src.processCount = batchSize := by
  refine ⟨?_, ?_⟩
  · intro h
    unfold getEvalDataset batchSizePerProcess
    rw [if_pos (by simp only [Nat.dvd_iff_mod_eq_zero] at h; tauto)]
    rfl
  · intro batches h
    unfold getEvalDataset at h
    obtain ⟨b, hb, h⟩ := ebind h
    unfold batchSizePerProcess at hb
    split_ifs at hb with hc
    push Not at hc
    obtain ⟨m, _, h⟩ := ebind h
    obtain ⟨f, _, h⟩ := ebind h
    obtain rfl : b = batchSize / src.processCount := by injection hb with hb; exact hb.symm
    obtain rfl : batch _ _ = batches := by injection h
    refine ⟨Nat.dvd_of_mod_eq_zero hc.1, Nat.dvd_of_mod_eq_zero hc.2, ?_⟩
    intro x hx
    rw [batch_length hx]
    exact Nat.div_mul_cancel (Nat.dvd_of_mod_eq_zero hc.1)

/-- The batch of a process splits evenly on its devices, when all processes have equally many. -/
theorem C39_devices (batchSize pc localDevices b : Nat) (hpc : 0 < pc)
    (h : batchSizePerProcess batchSize pc (pc * localDevices) = .ok b) :
    b * pc = batchSize ∧ localDevices ∣ b := by
  unfold batchSizePerProcess at h
  split_ifs at h with hc
  push Not at hc
  injection h with h
  subst h
  refine ⟨Nat.div_mul_cancel (Nat.dvd_of_mod_eq_zero hc.1), ?_⟩
  obtain ⟨k, hk⟩ := Nat.dvd_of_mod_eq_zero hc.2
  refine ⟨k, ?_⟩
  rw [hk, Nat.mul_assoc, Nat.mul_div_cancel_left _ hpc]

/-- Two processes of four devices and batches of sixteen; and a rejected size. -/
example : batchSizePerProcess 16 2 (2 * 4) = .ok 8 ∧ batchSizePerProcess 12 2 (2 * 4) = .error .valueError :=
  ⟨rfl, rfl⟩

end Verif.DataPipeline
