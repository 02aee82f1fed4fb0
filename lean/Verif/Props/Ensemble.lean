import Verif.Proofs.Ensemble
import Verif.Proofs.SoftMoe
import Mathlib.Algebra.Order.Ring.Int
import Mathlib.Data.Fin.VecNotation

/-!
Properties C12 and C13: isolation of ensemble members and regrouping of tokens.

Member of an item: position modulo the ensemble size.  Member of an expert: block of `E / M`
consecutive experts.  Both are written out in the statements.
-/

set_option linter.unusedSectionVars false

namespace Verif.Ensemble

open Verif Verif.NdArray Verif.Spec Verif.Moe

universe u

variable {α : Type u}

/-! ### C13 -/

/-- C13: the token of image `b`, member `m`, position `t` (row `b * M + m` of the repeated batch)
lands at the flat place `n = (b * T + t) * M + m`, that is group `n / S`, position `n % S`; when the
group size is a multiple of the ensemble size, that position is congruent to `m`. -/
theorem C13_regroup_position {x : NdArray α} {B M T H S : Nat} (hx : x.shape = [B * M, T, H])
    (hM : 0 < M) (hS : 0 < S) (hH : 0 < H) (hdiv : S ∣ B * M * T) :
    ∃ y, reshapeTo x S M = .ok y ∧ y.shape = [B * M * T / S, S, H] ∧
      ∀ b m t h, b < B → m < M → t < T → h < H →
        y.get [((b * T + t) * M + m) / S, ((b * T + t) * M + m) % S, h] = x.get [b * M + m, t, h] ∧
        (M ∣ S → (((b * T + t) * M + m) % S) % M = m) := by
  obtain ⟨y, h1, h2, h3⟩ := reshapeTo_spec hx hM hS hH hdiv
  refine ⟨y, h1, h2, ?_⟩
  intro b m t h hb hm ht hh
  refine ⟨h3 b m t h hb hm ht hh _ _ ?_, ?_⟩
  · rw [Nat.mul_comm]; exact Nat.div_add_mod _ _
  · intro hMS
    rw [Nat.mod_mod_of_dvd _ hMS, Nat.mul_comm, Nat.mul_add_mod, Nat.mod_eq_of_lt hm]

/-- C13: different tokens land at different places. -/
theorem C13_no_collision {M T S b m t b' m' t' : Nat} (hm : m < M) (hm' : m' < M) (ht : t < T)
    (ht' : t' < T)
    (hg : ((b * T + t) * M + m) / S = ((b' * T + t') * M + m') / S)
    (hs : ((b * T + t) * M + m) % S = ((b' * T + t') * M + m') % S) :
    b = b' ∧ m = m' ∧ t = t' := by
  have h1 : (b * T + t) * M + m = (b' * T + t') * M + m' := by
    rw [← Nat.div_add_mod ((b * T + t) * M + m) S, hg, hs, Nat.div_add_mod]
  have hmm : m = m' := by
    have := congrArg (· % M) h1
    simpa [Nat.mul_comm _ M, Nat.mul_add_mod, Nat.mod_eq_of_lt hm, Nat.mod_eq_of_lt hm'] using this
  subst hmm
  have h2 : b * T + t = b' * T + t' := by
    have h3 : (b * T + t) * M = (b' * T + t') * M := by omega
    exact Nat.eq_of_mul_eq_mul_right (by omega) h3
  have htt : t = t' := by
    have := congrArg (· % T) h2
    simpa [Nat.mul_comm _ T, Nat.mul_add_mod, Nat.mod_eq_of_lt ht, Nat.mod_eq_of_lt ht'] using this
  subst htt
  exact ⟨Nat.eq_of_mul_eq_mul_right (by omega : 0 < T) (by omega), rfl, rfl⟩

/-- C13: regrouping and going back gives the same tensor. -/
theorem C13_round_trip {x : NdArray α} {B M T H S : Nat} (hx : x.shape = [B * M, T, H])
    (hM : 0 < M) (hS : 0 < S) (hT : 0 < T) (hH : 0 < H) (hdiv : S ∣ B * M * T) :
    ∃ y z, reshapeTo x S M = .ok y ∧ reshapeFrom y T M = .ok z ∧ Same z x := by
  obtain ⟨y, h1, h2, h3⟩ := reshapeTo_spec hx hM hS hH hdiv
  obtain ⟨z, h4, h5, h6⟩ := reshapeFrom_spec (B := B) h2 hM hT hH (by
    rw [Nat.div_mul_cancel hdiv]; ring)
  refine ⟨y, z, h1, h4, by rw [h5, hx], ?_⟩
  intro idx hidx
  rw [h5] at hidx
  obtain ⟨i, t, h, rfl, hi, ht, hh⟩ := valid_three_elim hidx
  have hm : i % M < M := Nat.mod_lt _ hM
  have hb : i / M < B := (Nat.div_lt_iff_lt_mul hM).2 hi
  have hn : ∀ n, n / S * S + n % S = n := fun n => by rw [Nat.mul_comm]; exact Nat.div_add_mod n S
  have e1 := h6 (i / M) (i % M) t h hb hm ht hh _ _ (Nat.mod_lt _ hS) (hn _)
  have e2 := h3 (i / M) (i % M) t h hb hm ht hh _ _ (hn _)
  rw [e2] at e1
  have hi' : i / M * M + i % M = i := by rw [Nat.mul_comm]; exact Nat.div_add_mod i M
  rwa [hi'] at e1

/-- C13: after `jnp.repeat`, row `b * M + m` is image `b`, so every group place of member `m`
holds a copy of the original token. -/
theorem C13_repeat_row (x : NdArray α) (B M T H : Nat) (hx : x.shape = [B, T, H]) :
    (repeatBatch x M).shape = [B * M, T, H] ∧
    ∀ b m t h, m < M → (repeatBatch x M).get [b * M + m, t, h] = x.get [b, t, h] := by
  refine ⟨by simp [repeatBatch, hx], ?_⟩
  intro b m t h hm
  simp only [repeatBatch]
  rw [Nat.mul_comm, Nat.mul_add_div (by omega), Nat.div_eq_of_lt hm, Nat.add_zero]

/-- C13: a group size that does not divide the number of tokens is rejected. -/
theorem C13_bad_group_size {x : NdArray α} {B M T H S : Nat} (hx : x.shape = [B * M, T, H])
    (hM : 0 < M) (hH : 0 < H) (hdiv : ¬ S ∣ B * M * T) :
    reshapeTo x S M = .error .typeError := by
  have hb : B * M / M = B := Nat.mul_div_cancel _ hM
  obtain ⟨x1, e1, s1⟩ := reshape_ok (x := x) (dims := [B, M, T, H]) (by
    simp only [hx, List.prod_cons, List.prod_nil]; ring)
  obtain ⟨x2, e2, s2, -⟩ := transpose0213 x1 B M T H s1
  simp only [List.map_cons, List.map_nil] at e1
  unfold reshapeTo
  rw [hx]
  simp only [hb, Nat.pos_iff_ne_zero.1 hM, if_false, jr e1]
  change (x1.transpose [0, 2, 1, 3] >>= _) = _
  rw [e2]
  change x2.jreshape _ = _
  unfold NdArray.jreshape NdArray.reshape resolveShape
  have hc : ([none, some S, some H] : List (Option Nat)).count none = 1 := by
    simp
  have hk : knownProd [none, some S, some H] = S * H := by simp [knownProd]
  have hp : x2.shape.prod = B * M * T * H := by
    simp only [s2, List.prod_cons, List.prod_nil]; ring
  rw [hc]
  simp only [hk, hp]
  split_ifs with h1 h2
  · rfl
  · exfalso
    apply hdiv
    exact Nat.dvd_of_mul_dvd_mul_right hH (Nat.dvd_of_mod_eq_zero h2)
  · rfl

-- Non-vacuity: 2 images, 2 members, 3 tokens, groups of 4.
example : ∃ y, reshapeTo (⟨[2 * 2, 3, 1], fun i => i⟩ : NdArray (List Nat)) 4 2 = .ok y ∧
    y.shape = [2 * 2 * 3 / 4, 4, 1] ∧ y.get [1, 1, 0] = [1, 2, 0] := by
  obtain ⟨y, h1, h2, h3⟩ := C13_regroup_position
    (x := (⟨[2 * 2, 3, 1], fun i => i⟩ : NdArray (List Nat))) (B := 2) (M := 2) (T := 3) (H := 1)
    (S := 4) rfl (by decide) (by decide) (by decide) (by decide)
  exact ⟨y, h1, h2, (h3 0 1 2 0 (by decide) (by decide) (by decide) (by decide)).1⟩

/-! ### C12 -/

section
variable {R : Type u} [CommRing R] [LinearOrder R] [IsStrictOrderedRing R]

/-- C12: the gates are block diagonal: item at position `p` has the gates of member `p % M` on the
experts of block `p % M` and zero gates elsewhere.  The member's router only sees its own tokens. -/
theorem C12_gates_block_diagonal (inner : Inner α R) {inputs : NdArray α} {G S H E M K : Nat}
    (hx : inputs.shape = [G, S, H]) (hM : 0 < M) (hE : M ∣ E) (hS : M ∣ S) (hK : 1 ≤ K)
    (hKE : K ≤ E / M) :
    ∃ y, ensembleGates inner E M K inputs = .ok y ∧ y.shape = [G, S, E] ∧
      ∀ g p e, g < G → p < S → e < E → y.get [g, p, e] =
        if p % M = e / (E / M) then
          inner G (S / M) H (E / M) (p % M)
            (fun g i h => inputs.get [g, (i : Nat) * M + p % M, h]) g (p / M) (e % (E / M))
        else 0 :=
  ensembleGates_spec inner hx hM hE hS hK hKE

/-- The router of every member returns positive gates (true for a softmax of real logits). -/
def PositiveInner (inner : Inner α R) : Prop :=
  ∀ G s H e m x g i j, g < G → i < s → j < e → 0 < inner G s H e m x g i j

theorem own_block_facts {inner : Inner α R} (hpos : PositiveInner inner) {inputs : NdArray α}
    {G S H n M K : Nat} (hx : inputs.shape = [G, S, H]) (hM : 0 < M) (hS : M ∣ S)
    (hK : 1 ≤ K) (hKE : K ≤ n) {y : NdArray R} (hy : ensembleGates inner (M * n) M K inputs = .ok y)
    {g : Nat} (hg : g < G) (s : Fin S) :
    (∀ e : Fin (M * n), (e : Nat) / n = s % M → 0 < groupGates y S (M * n) g s e) ∧
    (∀ e : Fin (M * n), (e : Nat) / n ≠ s % M → groupGates y S (M * n) g s e = 0) := by
  have hd : M * n / M = n := Nat.mul_div_cancel_left _ hM
  obtain ⟨y', h1, h2, h3⟩ := ensembleGates_spec inner hx hM (Dvd.intro _ rfl) hS hK (by rw [hd]; exact hKE)
  rw [hy] at h1
  cases h1
  rw [hd] at h3
  have hn : 0 < n := by omega
  constructor
  · intro e he
    unfold groupGates
    rw [h3 g s e hg s.2 e.2, if_pos he.symm]
    refine hpos _ _ _ _ _ _ _ _ _ hg ?_ (Nat.mod_lt _ hn)
    exact (Nat.div_lt_iff_lt_mul hM).2 (by rw [Nat.div_mul_cancel hS]; exact s.2)
  · intro e he
    unfold groupGates
    rw [h3 g s e hg s.2 e.2, if_neg (fun h => he h.symm)]

/-- C12: every dispatched item goes to an expert of the block of its own member; so an expert never
receives items of two members. -/
theorem C12_no_shared_experts (inner : Inner α R) (hpos : PositiveInner inner) {inputs : NdArray α}
    {G S H n M K : Nat} (hx : inputs.shape = [G, S, H]) (hM : 0 < M) (hS : M ∣ S)
    (h0 : 0 < K) (hKE : K ≤ n) (hKE' : K ≤ M * n) {y : NdArray R}
    (hy : ensembleGates inner (M * n) M K inputs = .ok y)
    {g : Nat} (hg : g < G) (cap : Nat) (bp : Bool) :
    let w := topExpertsEinsum (groupGates y S (M * n) g) K h0 hKE' cap bp
    let r := topExpertsCommon (groupGates y S (M * n) g) K h0 hKE' bp
    (∀ s k, (r.expertIndex s k : Nat) / n = s % M) ∧
    (∀ s e c, w.dispatchWeights s e c = true → (e : Nat) / n = s % M) ∧
    (∀ s s' e c c', w.dispatchWeights s e c = true → w.dispatchWeights s' e c' = true →
      (s : Nat) % M = s' % M) := by
  have hMn : 0 < M * n := Nat.mul_pos hM (by omega)
  have key : ∀ s e, Requests (groupGates y S (M * n) g) K s e → (e : Nat) / n = s % M := by
    intro s e hr
    obtain ⟨p1, p2⟩ := own_block_facts hpos hx hM hS h0 hKE hy hg s
    exact requests_in_block _ K hKE s (s % M) (Nat.mod_lt _ hM) p1 p2 e hr
  have key2 : ∀ s e c, (topExpertsEinsum (groupGates y S (M * n) g) K h0 hKE' cap bp).dispatchWeights
      s e c = true → (e : Nat) / n = s % M := by
    intro s e c h
    rw [einsum_dispatchWeights hMn] at h
    exact key s e h.1
  refine ⟨?_, key2, ?_⟩
  · intro s k
    apply key
    rw [common_expertIndex]
    exact requests_topK _ hKE' s k
  · intro s s' e c c' h h'
    rw [← key2 s e c h, ← key2 s' e c' h']

/-- C12 (non-interference): the routing of the items of member `m` (which expert, which slot) does
not depend on the inputs of the other members. -/
theorem C12_non_interference (inner : Inner α R) (hpos : PositiveInner inner)
    {inputs inputs' : NdArray α} {G S H n M K : Nat} (hx : inputs.shape = [G, S, H])
    (hx' : inputs'.shape = [G, S, H]) (hM : 0 < M) (hS : M ∣ S)
    (h0 : 0 < K) (hKE : K ≤ n) (hKE' : K ≤ M * n) {y y' : NdArray R}
    (hy : ensembleGates inner (M * n) M K inputs = .ok y)
    (hy' : ensembleGates inner (M * n) M K inputs' = .ok y') (m : Nat)
    (hagree : ∀ g p h, p % M = m → inputs.get [g, p, h] = inputs'.get [g, p, h])
    {g : Nat} (hg : g < G) (cap : Nat) (bp : Bool) (s : Fin S) (hs : (s : Nat) % M = m) (e : Fin (M * n))
    (c : Fin cap) :
    (topExpertsEinsum (groupGates y S (M * n) g) K h0 hKE' cap bp).dispatchWeights s e c =
      (topExpertsEinsum (groupGates y' S (M * n) g) K h0 hKE' cap bp).dispatchWeights s e c ∧
    (topExpertsEinsum (groupGates y S (M * n) g) K h0 hKE' cap bp).combineWeights s e c =
      (topExpertsEinsum (groupGates y' S (M * n) g) K h0 hKE' cap bp).combineWeights s e c := by
  have hMn : 0 < M * n := Nat.mul_pos hM (by omega)
  have hd : M * n / M = n := Nat.mul_div_cancel_left _ hM
  have hrow : ∀ s : Fin S, (s : Nat) % M = m →
      groupGates y S (M * n) g s = groupGates y' S (M * n) g s := by
    intro s hs
    funext e
    obtain ⟨z, h1, -, h3⟩ := ensembleGates_spec inner hx hM (E := M * n) (Dvd.intro _ rfl) hS h0 (by rw [hd]; exact hKE)
    obtain ⟨z', h1', -, h3'⟩ := ensembleGates_spec inner hx' hM (E := M * n) (Dvd.intro _ rfl) hS h0 (by rw [hd]; exact hKE)
    rw [hy] at h1
    rw [hy'] at h1'
    cases h1
    cases h1'
    unfold groupGates
    rw [h3 g s e hg s.2 e.2, h3' g s e hg s.2 e.2]
    split_ifs
    · congr 1
      funext g' i h
      apply hagree
      rw [Nat.mul_comm, Nat.mul_add_mod, Nat.mod_mod, hs]
    · rfl
  have hreq : ∀ {z : NdArray R} {x : NdArray α}, x.shape = [G, S, H] →
      ensembleGates inner (M * n) M K x = .ok z → ∀ (s : Fin S) e,
      Requests (groupGates z S (M * n) g) K s e → (e : Nat) / n = s % M := by
    intro z x hxz hz s e hr
    obtain ⟨p1, p2⟩ := own_block_facts hpos hxz hM hS h0 hKE hz hg s
    exact requests_in_block _ K hKE s (s % M) (Nat.mod_lt _ hM) p1 p2 e hr
  have hslot : (e : Nat) / n = m →
      slot hMn bp (groupGates y S (M * n) g) K s e = slot hMn bp (groupGates y' S (M * n) g) K s e := by
    intro he
    unfold slot
    refine congrArg Finset.card (Finset.filter_congr fun s' _ => ?_)
    by_cases hs' : (s' : Nat) % M = m
    · rw [requests_congr (hrow s' hs'), higherPriority_congr hMn bp (hrow s hs) (hrow s' hs')]
    · constructor
      · rintro ⟨h, -⟩
        exact absurd ((hreq hx hy s' e h).symm.trans he) hs'
      · rintro ⟨h, -⟩
        exact absurd ((hreq hx' hy' s' e h).symm.trans he) hs'
  have hdw : (topExpertsEinsum (groupGates y S (M * n) g) K h0 hKE' cap bp).dispatchWeights s e c =
      (topExpertsEinsum (groupGates y' S (M * n) g) K h0 hKE' cap bp).dispatchWeights s e c := by
    rw [Bool.eq_iff_iff, einsum_dispatchWeights hMn, einsum_dispatchWeights hMn,
      requests_congr (hrow s hs)]
    constructor
    · rintro ⟨h1, h2⟩
      refine ⟨h1, ?_⟩
      rw [← hslot ((hreq hx' hy' s e h1).trans hs)]
      exact h2
    · rintro ⟨h1, h2⟩
      refine ⟨h1, ?_⟩
      rw [hslot ((hreq hx' hy' s e h1).trans hs)]
      exact h2
  refine ⟨hdw, ?_⟩
  have hcw : ∀ z : NdArray R, (topExpertsEinsum (groupGates z S (M * n) g) K h0 hKE' cap bp).combineWeights
      s e c = groupGates z S (M * n) g s e * (if (topExpertsEinsum (groupGates z S (M * n) g) K h0 hKE'
        cap bp).dispatchWeights s e c = true then 1 else 0) := fun _ => rfl
  rw [hcw, hcw, hdw, hrow s hs]

/-- C12: the argument checks of the router: a group size or number of experts that is not a multiple
of the ensemble size is rejected, and so is asking for more experts than one member has. -/
theorem C12_rejects (inner : Inner α R) {inputs : NdArray α} {G S H E M K : Nat}
    (hx : inputs.shape = [G, S, H])
    (hbad : M = 0 ∨ ¬ M ∣ E ∨ ¬ M ∣ S ∨ K = 0 ∨ E / M < K) :
    ensembleGates inner E M K inputs = .error .valueError := by
  unfold ensembleGates
  rw [hx]
  simp only [Nat.dvd_iff_mod_eq_zero] at hbad
  by_cases hM : M = 0
  · simp [hM]
  by_cases hE : E % M = 0
  · by_cases hS : S % M = 0
    · have hK : K < 1 ∨ E / M < K := by
        rcases hbad with h | h | h | h | h
        · exact absurd h hM
        · exact absurd hE h
        · exact absurd hS h
        · left; omega
        · right; exact h
      obtain ⟨s, rfl⟩ := Nat.dvd_of_mod_eq_zero hS
      obtain ⟨x1, e1, s1⟩ := reshape_ok (x := inputs) (dims := [G, s, M, H]) (by
        simp only [hx, List.prod_cons, List.prod_nil]; ring)
      simp only [List.map_cons, List.map_nil] at e1
      simp only [hM, hE, hS, ne_eq, not_true_eq_false, if_false,
        Nat.mul_div_cancel_left _ (Nat.pos_of_ne_zero hM), jr e1]
      change (if K < 1 ∨ E / M < K then _ else _) = _
      rw [if_pos hK]
    · simp [hM, hE, hS]
  · simp [hM, hE]

end

/-- A router that gives every member the gates 3, 2 on its two experts. -/
def exInner : Inner ℤ ℤ := fun _ _ _ _ _ _ _ _ j => 3 - j

-- Non-vacuity: 2 members with 2 experts each, one group of 4 items.
example : PositiveInner (R := ℤ) (α := ℤ) (fun _ _ _ _ m _ _ _ j => 3 + m + j) ∧
    ∃ y, ensembleGates exInner 4 2 1 ⟨[1, 4, 1], fun _ => 0⟩ = .ok y ∧ y.get [0, 1, 2] = 3 ∧
      y.get [0, 1, 0] = 0 := by
  refine ⟨?_, ?_⟩
  · intro G s H e m x g i j _ _ _
    simp only
    omega
  · obtain ⟨y, h1, -, h3⟩ := C12_gates_block_diagonal exInner (inputs := ⟨[1, 4, 1], fun _ => 0⟩)
      (G := 1) (S := 4) (H := 1) (E := 4) (M := 2) (K := 1) rfl (by decide) (by decide) (by decide)
      (by decide) (by decide)
    refine ⟨y, h1, ?_, ?_⟩
    · rw [h3 0 1 2 (by decide) (by decide) (by decide)]; decide
    · rw [h3 0 1 0 (by decide) (by decide) (by decide)]; decide

/-- C12: gates computed by a softmax of real logits meet the positivity hypothesis, whatever the
logits (inputs, parameters, noise) are. -/
theorem C12_softmax_positive (logits : (G s H e m : Nat) → (Fin G → Fin s → Fin H → ℝ) → Nat → Nat →
      Fin e → ℝ) :
    PositiveInner (α := ℝ) (R := ℝ) (fun G s H e m x g i j =>
      if h : j < e then Soft.softmax (logits G s H e m x g i) ⟨j, h⟩ else 0) := by
  intro G s H e m x g i j _ _ hj
  simp only [hj, dif_pos]
  exact Soft.softmax_pos _ _

/-- C12: positivity is needed.  If the softmax underflows to zero for an item's own second expert,
its second request goes to an expert of another member: here item 1 (member 1) with gates (0, 0, 1,
0) requests expert 0, which belongs to member 0. -/
theorem C12_zero_gate_leaks_counterexample :
    let gates : Fin 2 → Fin 4 → ℤ := ![![1, 1, 0, 0], ![0, 0, 1, 0]]
    (topExpertsEinsum gates 2 (by decide) (by decide) 2 false).dispatchWeights 1 0 1 = true := by
  decide

end Verif.Ensemble
