import Verif.Model.MoeFactory
import Mathlib.Algebra.Order.Ring.Int
import Mathlib.Data.Fin.VecNotation
import Mathlib.Tactic.Linarith
import Mathlib.Tactic.FieldSimp
import Mathlib.Tactic.NormNum

/-!
Properties C10 and C11: capacity computation and validation done by the dispatcher factories.
`fl` is an arbitrary rounding of floating point results, so every statement that does not fix it
holds with floating point arithmetic as well.
-/

set_option linter.unusedSectionVars false

namespace Verif.Moe

open Verif

/-- `r` is `q` rounded to a nearest integer, the even one on ties. -/
def IsRoundHalfEven (q : ℚ) (r : Int) : Prop :=
  |q - r| ≤ 1 / 2 ∧ (|q - r| = 1 / 2 → r % 2 = 0)

/-- The share of one expert after rounding, as `compute_capacity` documents it. -/
def IsRoundedShare (mode : String) (q : ℚ) (r : Int) : Prop :=
  (mode = "ceil" ∧ q ≤ r ∧ ∀ r' : Int, q ≤ r' → r ≤ r') ∨ (mode = "round" ∧ IsRoundHalfEven q r)

theorem roundHalfEven_spec (q : ℚ) : IsRoundHalfEven q (roundHalfEven q) := by
  have h1 := Int.floor_le q
  have h2 := Int.lt_floor_add_one q
  unfold IsRoundHalfEven roundHalfEven
  simp only
  split_ifs with ha hb hc
  · rw [abs_of_nonneg (by linarith)]
    exact ⟨ha.le, fun h => by linarith⟩
  · rw [abs_of_nonpos (by push_cast; linarith)]
    push_cast
    exact ⟨by linarith, fun h => by linarith⟩
  · have he : q - ⌊q⌋ = 1 / 2 := by linarith
    rw [he]
    refine ⟨by norm_num, fun _ => hc⟩
  · have he : q - ⌊q⌋ = 1 / 2 := by linarith
    push_cast
    have : q - (⌊q⌋ + 1) = - (1 / 2) := by linarith
    rw [this]
    refine ⟨by norm_num, fun _ => by omega⟩

theorem isRoundedShare_unique {mode : String} {q : ℚ} {r r' : Int} (h : IsRoundedShare mode q r)
    (h' : IsRoundedShare mode q r') : r = r' := by
  rcases h with ⟨rfl, h1, h2⟩ | ⟨rfl, h1, h2⟩
  · rcases h' with ⟨-, h3, h4⟩ | ⟨hm, -⟩
    · exact le_antisymm (h2 _ h3) (h4 _ h1)
    · exact absurd hm (by decide)
  · rcases h' with ⟨hm, -⟩ | ⟨-, h3, h4⟩
    · exact absurd hm (by decide)
    · by_contra hne
      rw [abs_le] at h1 h3
      rcases lt_or_gt_of_ne hne with hlt | hlt
      · have h5 : (r : ℚ) + 1 ≤ r' := by exact_mod_cast hlt
        have e1 : q - r = 1 / 2 := by linarith
        have e2 : q - r' = - (1 / 2) := by linarith
        have e3 : (r' : ℚ) = r + 1 := by linarith
        have e4 : r' = r + 1 := by exact_mod_cast e3
        have := h2 (by rw [e1]; norm_num)
        have := h4 (by rw [e2]; norm_num)
        omega
      · have h5 : (r' : ℚ) + 1 ≤ r := by exact_mod_cast hlt
        have e1 : q - r' = 1 / 2 := by linarith
        have e2 : q - r = - (1 / 2) := by linarith
        have e3 : (r : ℚ) = r' + 1 := by linarith
        have e4 : r = r' + 1 := by exact_mod_cast e3
        have := h4 (by rw [e1]; norm_num)
        have := h2 (by rw [e2]; norm_num)
        omega

theorem base_spec {mode : String} (hm : mode = "ceil" ∨ mode = "round") (q : ℚ) :
    IsRoundedShare mode q (if mode = "ceil" then ⌈q⌉ else roundHalfEven q) := by
  rcases hm with rfl | rfl
  · rw [if_pos rfl]
    exact Or.inl ⟨rfl, Int.le_ceil q, fun r' h => Int.ceil_le.2 h⟩
  · rw [if_neg (by decide)]
    exact Or.inr ⟨rfl, roundHalfEven_spec q⟩

/-- C10: for a known rounding mode, let `r` be the rounded share of an expert (as floating point
computes the share).  If `r < 1` a ValueError is raised.  Otherwise the capacity is the least
multiple of `multiple_of` that is at least `r` (just `r` if there is no positive `multiple_of`);
in particular it is positive and less than `r + multiple_of`. -/
theorem C10_capacity (fl : ℚ → ℚ) (tokens experts : Nat) (factor : ℚ) (mode : String)
    (multipleOf : Option Int) (he : 0 < experts) (r : Int)
    (hr : IsRoundedShare mode (fl (fl (tokens * factor) / experts)) r) :
    (r < 1 → computeCapacity fl tokens experts factor mode multipleOf = .error .valueError) ∧
    (1 ≤ r → ∃ c, computeCapacity fl tokens experts factor mode multipleOf = .ok c ∧ r ≤ c ∧
      (∀ m, multipleOf = some m → 0 < m →
        m ∣ c ∧ c < r + m ∧ ∀ c', m ∣ c' → r ≤ c' → c ≤ c') ∧
      ((∀ m, multipleOf = some m → m ≤ 0) → c = r)) := by
  have hmode : mode = "ceil" ∨ mode = "round" := by
    rcases hr with ⟨h, -⟩ | ⟨h, -⟩
    · exact Or.inl h
    · exact Or.inr h
  have hbase := isRoundedShare_unique (base_spec hmode _) hr
  have hnot : ¬ (mode ≠ "ceil" ∧ mode ≠ "round") := by tauto
  have he' : experts ≠ 0 := by omega
  simp only [computeCapacity, hnot, if_false, he', hbase]
  constructor
  · intro h
    rw [if_pos h]
  · intro h
    rw [if_neg (by omega)]
    rcases multipleOf with _ | m
    · exact ⟨r, rfl, le_rfl, fun m hm => by simp at hm, fun _ => rfl⟩
    · by_cases hm : 0 < m
      · simp only [hm, if_true]
        have h1 := Int.emod_nonneg (-r) (by omega : m ≠ 0)
        have h2 := Int.emod_lt_of_pos (-r) hm
        have h3 : m ∣ r + -r % m := by
          have := Int.dvd_self_sub_emod (x := -r) (m := m)
          have h4 : r + -r % m = - (-r - -r % m) := by ring
          rw [h4]
          exact (dvd_neg).2 this
        refine ⟨_, rfl, by omega, ?_, ?_⟩
        · rintro m' hm' -
          cases hm'
          refine ⟨h3, by omega, ?_⟩
          intro c' hc' hrc
          by_contra hlt
          push Not at hlt
          have h5 : m ∣ (r + -r % m) - c' := dvd_sub h3 hc'
          have h6 := Int.le_of_dvd (by omega) h5
          omega
        · intro h4
          have := h4 m rfl
          omega
      · simp only [hm, if_false]
        refine ⟨r, rfl, le_rfl, ?_, fun _ => rfl⟩
        intro m' hm' h0
        cases hm'
        exact absurd h0 hm

/-- C10: a successful call had a known rounding mode, at least one expert and a rounded share of at
least one (so `C10_capacity` describes its result). -/
theorem C10_success_only_if (fl : ℚ → ℚ) (tokens experts : Nat) (factor : ℚ) (mode : String)
    (multipleOf : Option Int) (c : Int)
    (h : computeCapacity fl tokens experts factor mode multipleOf = .ok c) :
    (mode = "ceil" ∨ mode = "round") ∧ 0 < experts ∧
    ∃ r, IsRoundedShare mode (fl (fl (tokens * factor) / experts)) r ∧ 1 ≤ r := by
  by_cases hmode : mode = "ceil" ∨ mode = "round"
  · by_cases he : experts = 0
    · have hnot : ¬ (mode ≠ "ceil" ∧ mode ≠ "round") := by tauto
      simp [computeCapacity, hnot, he] at h
    · refine ⟨hmode, by omega, _, base_spec hmode _, ?_⟩
      by_contra hlt
      have := (C10_capacity fl tokens experts factor mode multipleOf (by omega) _
        (base_spec hmode _)).1 (by omega)
      rw [this] at h
      cases h
  · have hnot : mode ≠ "ceil" ∧ mode ≠ "round" := by tauto
    simp [computeCapacity, hnot] at h

/-- C10: an unknown rounding mode raises ValueError, whatever the other arguments are. -/
theorem C10_unknown_mode (fl : ℚ → ℚ) (tokens experts : Nat) (factor : ℚ) (mode : String)
    (multipleOf : Option Int) (h : mode ≠ "ceil") (h' : mode ≠ "round") :
    computeCapacity fl tokens experts factor mode multipleOf = .error .valueError := by
  simp [computeCapacity, h, h']

/-- C10: with `ceil` and exact arithmetic, the total buffer space is at least tokens times
capacity factor, and so no request needs to be dropped under perfect balance. -/
theorem C10_ceil_space (tokens experts : Nat) (factor : ℚ) (multipleOf : Option Int) (c : Int)
    (h : computeCapacity id tokens experts factor "ceil" multipleOf = .ok c) :
    (tokens : ℚ) * factor ≤ experts * c := by
  obtain ⟨-, he, r, hr, h1⟩ := C10_success_only_if id tokens experts factor "ceil" multipleOf c h
  obtain ⟨c', hc', hrc, -⟩ := (C10_capacity id tokens experts factor "ceil" multipleOf he r hr).2 h1
  rw [hc'] at h
  cases h
  rcases hr with ⟨-, hr, -⟩ | ⟨hm, -⟩
  · simp only [id] at hr
    have he' : (0 : ℚ) < experts := by exact_mod_cast he
    have : (r : ℚ) ≤ c := by exact_mod_cast hrc
    rw [div_le_iff₀ he'] at hr
    nlinarith
  · exact absurd hm (by decide)

example : computeCapacity id 8 3 (21 / 20) "ceil" (some 4) = .ok 4 ∧
    computeCapacity id 14 4 1 "ceil" (some 4) = .ok 4 ∧
    computeCapacity id 14 4 1 "round" none = .ok 4 ∧
    computeCapacity id 10 4 1 "round" none = .ok 2 ∧
    computeCapacity id 10 4 (1 / 100) "round" (some 4) = .error .valueError := by decide +kernel

example : IsRoundedShare "round" (id (id (((10 : Nat) : ℚ) * 1) / ((4 : Nat) : ℚ))) 2 :=
  Or.inr ⟨rfl, by norm_num [abs_le], fun _ => by decide⟩

/-! ### C11 -/

section
variable {R : Type*} [CommRing R] [LinearOrder R] {S E : Nat}

/-- Capacity of an item-choice dispatcher. -/
def ItemChoiceDispatcher.capacity {K : Nat} : ItemChoiceDispatcher R S E K → Nat
  | .einsum c _ => c
  | .indices c _ => c

/-- C11: giving both or none of `capacity` and `capacity_factor` raises ValueError. -/
theorem C11_both_or_none (fl : ℚ → ℚ) (gates : Fin S → Fin E → R) (name : String) (K : Nat)
    (bpr : Bool) (capacity : Option Nat) (factor : Option ℚ) (mode : String) (m : Option Int)
    (h : capacity.isSome = factor.isSome) :
    getTopExpertsPerItemDispatcher fl gates name K bpr capacity factor mode m =
      .error .valueError ∧
    getTopItemsPerExpertDispatcher fl gates name capacity factor mode m = .error .valueError := by
  have h' : capacity.isNone = factor.isNone := by
    cases capacity <;> cases factor <;> simp_all
  have hr : ∀ n e, resolveCapacity fl n e capacity factor mode m = .error .valueError := by
    intro n e; simp [resolveCapacity, h']
  refine ⟨?_, ?_⟩
  · simp [getTopExpertsPerItemDispatcher, hr]
  · simp [getTopItemsPerExpertDispatcher, hr]

/-- C11: an unknown dispatcher name never gives a dispatcher. -/
theorem C11_unknown_name (fl : ℚ → ℚ) (gates : Fin S → Fin E → R) (name : String) (K : Nat)
    (bpr : Bool) (capacity : Option Nat) (factor : Option ℚ) (mode : String) (m : Option Int) :
    (name ≠ "einsum" → name ≠ "indices" → ∃ err,
      getTopExpertsPerItemDispatcher fl gates name K bpr capacity factor mode m = .error err) ∧
    (name ≠ "einsum" → ∃ err,
      getTopItemsPerExpertDispatcher fl gates name capacity factor mode m = .error err) := by
  constructor
  · intro h h'
    unfold getTopExpertsPerItemDispatcher
    split
    · exact ⟨_, rfl⟩
    · rw [if_pos ⟨h, h'⟩]; exact ⟨_, rfl⟩
  · intro h
    unfold getTopItemsPerExpertDispatcher
    split
    · exact ⟨_, rfl⟩
    · rw [if_pos h]; exact ⟨_, rfl⟩

/-- C11: a given (positive) capacity is used as is by both factories, whatever the rounding
options are; the weights are those of the routing algorithms for that capacity. -/
theorem C11_given_capacity (fl : ℚ → ℚ) (gates : Fin S → Fin E → R) (K : Nat) (hK : 0 < K)
    (hKE : K ≤ E) (bpr : Bool) (c : Nat) (hc : 0 < c) (mode : String) (m : Option Int) :
    getTopExpertsPerItemDispatcher fl gates "einsum" K bpr (some c) none mode m =
      .ok (.einsum c (topExpertsEinsum gates K hK hKE c bpr)) ∧
    getTopExpertsPerItemDispatcher fl gates "indices" K bpr (some c) none mode m =
      .ok (.indices c (topExpertsIndices gates K hK hKE c bpr)) ∧
    (∀ hcS : c ≤ S, getTopItemsPerExpertDispatcher fl gates "einsum" (some c) none mode m =
      .ok ⟨c, topItemsEinsum gates c hcS⟩) ∧
    (S < c → getTopItemsPerExpertDispatcher fl gates "einsum" (some c) none mode m =
      .error .valueError) := by
  obtain ⟨c, rfl⟩ : ∃ d, c = d + 1 := ⟨c - 1, by omega⟩
  have hr : ∀ n e, resolveCapacity fl n e (some (c + 1)) none mode m = .ok (c + 1) := by
    intro n e; simp [resolveCapacity]
  refine ⟨?_, ?_, ?_, ?_⟩
  · simp [getTopExpertsPerItemDispatcher, hr, hK, hKE]
  · simp [getTopExpertsPerItemDispatcher, hr, hK, hKE]
  · intro hcS
    simp [getTopItemsPerExpertDispatcher, hr, hcS]
  · intro h
    have : ¬ c + 1 ≤ S := by omega
    simp [getTopItemsPerExpertDispatcher, hr, this]

/-- C11: `capacity = 0` is not accepted (and is not silently replaced). -/
theorem C11_zero_capacity (fl : ℚ → ℚ) (gates : Fin S → Fin E → R) (name : String) (K : Nat)
    (bpr : Bool) (factor : Option ℚ) (mode : String) (m : Option Int) :
    (∃ err, getTopExpertsPerItemDispatcher fl gates name K bpr (some 0) factor mode m = .error err) ∧
    (∃ err, getTopItemsPerExpertDispatcher fl gates name (some 0) factor mode m = .error err) := by
  have hr : ∀ n e, ∃ err, resolveCapacity fl n e (some 0) factor mode m = .error err := by
    intro n e
    cases factor with
    | none =>
      simp only [resolveCapacity]
      split_ifs <;> simp
    | some f => simp [resolveCapacity]
  constructor
  · obtain ⟨err, h⟩ := hr (S * K) E
    exact ⟨err, by simp [getTopExpertsPerItemDispatcher, h]⟩
  · obtain ⟨err, h⟩ := hr S E
    exact ⟨err, by simp [getTopItemsPerExpertDispatcher, h]⟩

/-- C11: with a capacity factor, the capacity is what `compute_capacity` gives for the effective
number of tokens: group size times `K` for item choice, group size for expert choice.  Errors of
`compute_capacity` are passed on. -/
theorem C11_capacity_factor (fl : ℚ → ℚ) (gates : Fin S → Fin E → R) (K : Nat) (hK : 0 < K)
    (hKE : K ≤ E) (bpr : Bool) (f : ℚ) (mode : String) (m : Option Int) (name : String)
    (hname : name = "einsum" ∨ name = "indices") :
    (∀ c, computeCapacity fl (S * K) E f mode m = .ok c →
      ∃ d, getTopExpertsPerItemDispatcher fl gates name K bpr none (some f) mode m = .ok d ∧
        (d.capacity : Int) = c) ∧
    (∀ c, computeCapacity fl S E f mode m = .ok c → c ≤ S →
      ∃ d, getTopItemsPerExpertDispatcher fl gates "einsum" none (some f) mode m = .ok d ∧
        (d.1 : Int) = c) ∧
    (∀ err, computeCapacity fl (S * K) E f mode m = .error err →
      getTopExpertsPerItemDispatcher fl gates name K bpr none (some f) mode m = .error err) ∧
    (∀ err, computeCapacity fl S E f mode m = .error err →
      getTopItemsPerExpertDispatcher fl gates "einsum" none (some f) mode m = .error err) := by
  have hr : ∀ n e, resolveCapacity fl n e none (some f) mode m =
      (computeCapacity fl n e f mode m).map Int.toNat := by
    intro n e; simp [resolveCapacity]
  have hpos : ∀ n e c, computeCapacity fl n e f mode m = .ok c → 0 ≤ c := by
    intro n e c h
    obtain ⟨-, he, r, hr, h1⟩ := C10_success_only_if fl n e f mode m c h
    obtain ⟨c', hc', hrc, -⟩ := (C10_capacity fl n e f mode m he r hr).2 h1
    rw [hc'] at h
    cases h
    omega
  refine ⟨?_, ?_, ?_, ?_⟩
  · intro c h
    have hp := hpos _ _ _ h
    unfold getTopExpertsPerItemDispatcher
    rw [hr, h]
    rcases hname with rfl | rfl
    · refine ⟨.einsum c.toNat (topExpertsEinsum gates K hK hKE c.toNat bpr), ?_, ?_⟩
      · simp [Except.map, hK, hKE]
      · simp only [ItemChoiceDispatcher.capacity]; omega
    · refine ⟨.indices c.toNat (topExpertsIndices gates K hK hKE c.toNat bpr), ?_, ?_⟩
      · simp [Except.map, hK, hKE]
      · simp only [ItemChoiceDispatcher.capacity]; omega
  · intro c h hcS
    have hp := hpos _ _ _ h
    have hcS' : c.toNat ≤ S := by omega
    unfold getTopItemsPerExpertDispatcher
    rw [hr, h]
    refine ⟨⟨c.toNat, topItemsEinsum gates c.toNat hcS'⟩, ?_, ?_⟩
    · simp [Except.map, hcS]
    · simp only; omega
  · intro err h
    simp [getTopExpertsPerItemDispatcher, hr, h, Except.map]
  · intro err h
    simp [getTopItemsPerExpertDispatcher, hr, h, Except.map]

/-- C11: because of `multiple_of`, the computed capacity of expert choice can exceed the group
size, and then the call raises although a smaller capacity would have been fine. -/
theorem C11_expert_choice_small_group_counterexample :
    computeCapacity id 3 2 1 "ceil" (some 4) = .ok 4 ∧
    getTopItemsPerExpertDispatcher (R := ℤ) (S := 3) (E := 2) id (fun _ _ => 1) "einsum" none (some 1)
      "ceil" (some 4) = .error .valueError := by
  have h : computeCapacity id 3 2 1 "ceil" (some 4) = .ok 4 := by decide +kernel
  refine ⟨h, ?_⟩
  simp [getTopItemsPerExpertDispatcher, resolveCapacity, h, Except.map]

example : ∃ d, getTopExpertsPerItemDispatcher (R := ℤ) (S := 8) (E := 3) id (fun _ _ => 1) "indices" 2
    true none (some (1 / 2)) "ceil" (some 4) = .ok d ∧ (d.capacity : Int) = 4 :=
  (C11_capacity_factor id _ 2 (by decide) (by decide) true (1 / 2) "ceil" (some 4) "indices"
    (Or.inr rfl)).1 4 (by decide +kernel)

end

end Verif.Moe
