import Verif.Props.DataPipeline

/-! C172: evaluation data with a filter. -/

namespace Verif.DataPipeline

open Verif

/-- Batches use only the elements before the last multiple of the batch size. -/
theorem batch_take {α : Type} {b : Nat} (hb : 0 < b) (l : List α) : batch b l = batch b (l.take (l.length / b * b)) := by
  have hle : l.length / b * b ≤ l.length := Nat.div_mul_le_self _ _
  unfold batch
  rw [List.length_take, min_eq_left hle, Nat.mul_div_cancel _ hb]
  refine List.map_congr_left fun i hi => ?_
  have hi := List.mem_range.1 hi
  have h1 : (i + 1) * b ≤ l.length / b * b := Nat.mul_le_mul_right b hi
  rw [Nat.succ_mul] at h1
  rw [List.drop_take, List.take_take, min_eq_left (by omega)]

/-- The number of examples of a process that the filter removes. -/
def removed (src : Source) (p : Data → Bool) : Nat := src.examples.length - (src.examples.filter p).length

/-- Spec: `q` is the least number of batches of `b` that holds `r` examples. -/
def Holds (b r q : Nat) : Prop := r ≤ q * b ∧ ∀ q', r ≤ q' * b → q ≤ q'

/-- With a filter: let `k` be the number of batches that there would be without it.  A process loses as many batches as hold the
examples that the filter removed from its share, and loses examples that the filter keeps when what is left does not fill
a batch and there are not enough fake examples: the last of them are dropped, fewer than a batch. -/
theorem C172_filter (nums : List Nat) (batchSize pc dc b : Nat)
    (hbs : batchSizePerProcess batchSize pc dc = .ok b) (hb : 0 < b)
    (process : Data → Except PyErr Data) (g : Data → Data) (spec : PyDict String TensorSpec) (p : Data → Bool) :
    ∃ k, Covers nums b k ∧ (∀ k', Covers nums b k' → k ≤ k') ∧
      ∀ (src : Source) (sched : List Data → List Data), (∀ l, (sched l).Perm l) →
        src.nums = nums → src.processCount = pc → src.deviceCount = dc →
        nums[src.processIndex]? = some src.examples.length →
        (∀ d ∈ src.examples, p d = true → process d = .ok (g d)) →
        ∃ batches q lost, getEvalDataset src batchSize (some p) process spec sched = .ok batches ∧
          Holds b (removed src p) q ∧ batches.length + q = k ∧ (∀ x ∈ batches, x.length = b) ∧
          lost < b ∧ lost = (k * b - removed src p) % b - (k * b - src.examples.length) ∧
          batches.flatten = (sched ((src.examples.filter p).map fun d => maskFn (g d))).take ((src.examples.filter p).length - lost) ++
            List.replicate (k * b - src.examples.length - (k * b - removed src p) % b) (fakeElem spec) := by
  have hceil : listMax nums ≤ ceilDiv (listMax nums) b * b ∧
      ceilDiv (listMax nums) b * b < listMax nums + b := by
    have h2 := Nat.div_add_mod (listMax nums + b - 1) b
    have h3 := Nat.mod_lt (listMax nums + b - 1) hb
    unfold ceilDiv
    rw [Nat.mul_comm]
    omega
  refine ⟨ceilDiv (listMax nums) b, fun n hn => le_trans (le_listMax hn) hceil.1, ?_, ?_⟩
  · intro k' hk'
    by_contra hlt
    have h1 : (k' + 1) * b ≤ ceilDiv (listMax nums) b * b := Nat.mul_le_mul_right b (by omega)
    have h2 := listMax_le hk'
    rw [Nat.succ_mul] at h1
    omega
  · intro src sched hs h1 h2 h3 h4 h5
    have hle := le_trans (le_listMax (List.mem_of_getElem? h4)) hceil.1
    have hkept : (src.examples.filter p).length ≤ src.examples.length := List.length_filter_le _ _
    set k := ceilDiv (listMax nums) b with hk
    set m := sched ((src.examples.filter p).map fun d => maskFn (g d)) with hm
    have hml : m.length = (src.examples.filter p).length := by rw [hm, (hs _).length_eq, List.length_map]
    have hadd : addFakes (((k * b : Nat) : Int) - (src.examples.length : Int)) spec m =
        m ++ List.replicate (k * b - src.examples.length) (fakeElem spec) := by
      unfold addFakes
      by_cases hz : 0 < ((k * b : Nat) : Int) - (src.examples.length : Int)
      · rw [if_pos hz]
        congr 2
        omega
      · rw [if_neg hz]
        have : k * b - src.examples.length = 0 := by omega
        rw [this]
        simp
    set all := m ++ List.replicate (k * b - src.examples.length) (fakeElem spec) with hall
    have hr : removed src p + (src.examples.filter p).length = src.examples.length := by unfold removed; omega
    have hlen : all.length = k * b - removed src p := by
      rw [hall, List.length_append, List.length_replicate, hml]
      omega
    have hdm := Nat.div_add_mod all.length b
    have hmod := Nat.mod_lt all.length hb
    have hcut : (all.take (all.length / b * b)).length = all.length / b * b := by
      rw [List.length_take, min_eq_left (Nat.div_mul_le_self _ _)]
    obtain ⟨e1, e2, e3⟩ := batch_mul hb hcut
    rw [← batch_take hb] at e1 e2 e3
    rw [Nat.mul_comm] at hdm
    have hqk : all.length / b ≤ k := by
      refine Nat.le_of_mul_le_mul_right (c := b) ?_ hb
      omega
    have hsub : (k - all.length / b) * b = k * b - all.length / b * b := Nat.sub_mul _ _ _
    refine ⟨batch b all, k - all.length / b, _, ?_, ⟨?_, ?_⟩, ?_, e2, ?_, rfl, ?_⟩
    · unfold getEvalDataset
      rw [h2, h3, hbs]
      change (((src.examples.filter p).mapM fun d => do return maskFn (← process d)) >>= _) = _
      rw [mapM_ok_eq (g := fun d => maskFn (g d)) (fun d hd => by
        rw [h5 d (List.mem_filter.1 hd).1 (List.mem_filter.1 hd).2]; rfl)]
      change (numFake src.processIndex b src.nums >>= _) = _
      rw [h1, numFake_ok h4 hb]
      change Except.ok (batch b (addFakes _ spec m)) = _
      rw [hadd]
    · omega
    · intro q' hq'
      by_contra hlt
      have h6 : (q' + 1) * b ≤ (k - all.length / b) * b := Nat.mul_le_mul_right b (by omega)
      rw [Nat.succ_mul] at h6
      omega
    · omega
    · rw [← hlen]
      omega
    · rw [e3, hall, List.take_append, ← hall, hml, List.take_replicate]
      rw [← hlen]
      have hal : all.length = (src.examples.filter p).length + (k * b - src.examples.length) := by omega
      congr 1
      · by_cases hc : all.length / b * b ≤ (src.examples.filter p).length
        · congr 1
          omega
        · rw [List.take_of_length_le (by omega), List.take_of_length_le (by omega)]
      · congr 1
        omega

/-- Two processes get the same number of batches exactly if the examples that the filter removed from their shares fill the same
number of batches. -/
theorem C172_aligned (src src' : Source) (batchSize b : Nat) (hn : src.nums = src'.nums)
    (hpc : src.processCount = src'.processCount) (hdc : src.deviceCount = src'.deviceCount)
    (hbs : batchSizePerProcess batchSize src.processCount src.deviceCount = .ok b) (hb : 0 < b)
    (hi : src.nums[src.processIndex]? = some src.examples.length) (hi' : src'.nums[src'.processIndex]? = some src'.examples.length)
    (process : Data → Except PyErr Data) (g : Data → Data) (spec : PyDict String TensorSpec) (p : Data → Bool)
    (hg : ∀ d ∈ src.examples ++ src'.examples, p d = true → process d = .ok (g d))
    (sched sched' : List Data → List Data) (hs : ∀ l, (sched l).Perm l) (hs' : ∀ l, (sched' l).Perm l) :
    ∃ x y, getEvalDataset src batchSize (some p) process spec sched = .ok x ∧
      getEvalDataset src' batchSize (some p) process spec sched' = .ok y ∧
      (x.length = y.length ↔ ∀ q, Holds b (removed src p) q ↔ Holds b (removed src' p) q) := by
  obtain ⟨k, _, _, h⟩ := C172_filter src.nums batchSize _ _ b hbs hb process g spec p
  obtain ⟨x, q, _, e1, h1, l1, _⟩ := h src sched hs rfl rfl rfl hi (fun d hd => hg d (List.mem_append_left _ hd))
  obtain ⟨y, q', _, e2, h2, l2, _⟩ := h src' sched' hs' hn.symm hpc.symm hdc.symm (hn ▸ hi')
    (fun d hd => hg d (List.mem_append_right _ hd))
  have huniq : ∀ {r u v}, Holds b r u → Holds b r v → u = v := fun hu hv => le_antisymm (hu.2 _ hv.1) (hv.2 _ hu.1)
  refine ⟨x, y, e1, e2, fun hxy => ?_, fun hq => ?_⟩
  · have : q = q' := by omega
    subst this
    intro u
    exact ⟨fun hu => huniq h1 hu ▸ h2, fun hu => huniq h2 hu ▸ h1⟩
  · have := huniq ((hq q).1 h1) h2
    omega

/-- Two processes with five examples each and batches of two: the filter removes three examples of the first, one of the second.
The first gets one batch of real examples, the second two. -/
example :
    let d : Bool → Data := fun c => [("a", Tensor.bool true), ("b", Tensor.bool c)].take (if c then 2 else 1)
    let src : Source := ⟨0, 2, 2, [5, 5], [d true, d false, d false, d false, d true]⟩
    let src' : Source := ⟨1, 2, 2, [5, 5], [d true, d true, d true, d true, d false]⟩
    let p : Data → Bool := fun x => x.length = 2
    batchSizePerProcess 4 2 2 = .ok 2 ∧ src.nums[src.processIndex]? = some src.examples.length ∧
      src'.nums[src'.processIndex]? = some src'.examples.length ∧ removed src p = 3 ∧ removed src' p = 1 ∧
      Holds 2 3 2 ∧ Holds 2 1 1 ∧ Covers [5, 5] 2 3 := by
  refine ⟨by decide, rfl, rfl, by decide +kernel, by decide +kernel, ⟨by decide, fun q h => by omega⟩, ⟨by decide, fun q h => by omega⟩, ?_⟩
  intro n hn
  simp only [List.mem_cons, List.not_mem_nil, or_false, or_self] at hn
  omega

/-- One process with four examples and batches of two, the filter removes one: of the three others one is lost. -/
example :
    let d : Data := [("a", Tensor.bool true)]
    let src : Source := ⟨0, 1, 1, [4], [d, d, [], d]⟩
    let p : Data → Bool := fun x => x.length = 1
    batchSizePerProcess 2 1 1 = .ok 2 ∧ src.nums[src.processIndex]? = some src.examples.length ∧ Covers [4] 2 2 ∧
      (src.examples.filter p).length = 3 ∧ (2 * 2 - removed src p) % 2 - (2 * 2 - src.examples.length) = 1 := by
  refine ⟨by decide, rfl, fun n hn => ?_, by decide +kernel, by decide +kernel⟩
  rw [List.mem_singleton.1 hn]

end Verif.DataPipeline
