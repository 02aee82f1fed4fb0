import Verif.Model.EnsembleStart
import Verif.Props.EnsembleModel
import Verif.Proofs.NdArray
import Verif.Props.RulesParse

/-!
C151: an ensemble that starts from a model with one router.
-/

namespace Verif.EnsembleStart

open Verif Verif.Vmoe Verif.Moe Verif.MoeBlock Verif.Spec Verif.EnsembleBlock

variable {H M n : Nat}

/-- C151.  The rule `reshape` gives member `m` of the ensemble the columns `m * n, ..., m * n + n - 1` of the kernel of the
checkpoint: its expert `j` is found by the same weights as expert `m * n + j`. -/
theorem C151_kernel {D : Type} [DecidableEq D] (env : Mapping.Env D ℝ) (x t : Mapping.Arr D ℝ)
    (hx : x.value.shape = [H, M * n]) (ht : t.value.shape = [H, M, n]) :
    ∃ y, Mapping.Tx.call env (.single (.reshape none) x t) = .ok y ∧ y.dtype = x.dtype ∧ y.value.shape = [H, M, n] ∧
      ∀ h < H, ∀ m < M, ∀ j < n, memberKernels y.value m h j = routerKernel x.value h (m * n + j) := by
  have hr : InitRules.reshape x.value (t.value.shape.map some) = .ok
      { shape := [H, M, n], get := fun idx => x.value.get (NdArray.unflatIndex x.value.shape (NdArray.flatIndex [H, M, n] idx)) } := by
    unfold InitRules.reshape NdArray.reshape
    have : NdArray.resolveShape x.value.shape.prod (t.value.shape.map some) = .ok [H, M, n] := by
      rw [hx, ht]
      unfold NdArray.resolveShape NdArray.knownProd
      simp
    rw [this]
    rfl
  refine ⟨⟨x.dtype, { shape := [H, M, n], get := fun idx => x.value.get (NdArray.unflatIndex x.value.shape
    (NdArray.flatIndex [H, M, n] idx)) }, false⟩, ?_, rfl, rfl, ?_⟩
  · unfold Mapping.Tx.call
    simp only
    rw [hr]
    rfl
  intro h hh m hm j hj
  unfold memberKernels routerKernel
  simp only
  have hlt : m * n + j < M * n := by
    calc m * n + j < m * n + n := by omega
      _ = (m + 1) * n := by ring
      _ ≤ M * n := Nat.mul_le_mul_right _ hm
  have hf : NdArray.flatIndex [H, M, n] [h, m, j] = NdArray.flatIndex [H, M * n] [h, m * n + j] := by
    simp [NdArray.flatIndex]
  rw [hf, hx, NdArray.unflat_flat]
  exact .cons hh (.cons hlt .nil)

theorem memberGates_eq (cdf : ℝ → ℝ) (cfg : RouterConfig) (kernel : Nat → Nat → Nat → ℝ) (z : Nat → Nat → Nat → Nat → ℝ)
    {G s : Nat} (m : Nat) (x : Fin G → Fin s → Fin H → ℝ) (h0 : 0 < cfg.numSelected) (hK : cfg.numSelected ≤ n)
    (g : Fin G) (i : Fin s) (j : Fin n) :
    memberGates cdf cfg kernel z G s H n m x g i j =
      expWeights (fun j : Fin n => (∑ h : Fin H, x g i h * kernel m h j) + usedStd cfg n * z m g i j) j := by
  obtain ⟨q, hq⟩ := gates_eq cdf cfg (fun (h : Fin H) (j : Fin n) => kernel m h j) (z m) x h0 hK
  unfold memberGates
  rw [hq]
  simp only
  rw [dif_pos ⟨g.2, i.2, j.2⟩]

/-- C151.  Without noise, the gates of member `m` are those of the model of the checkpoint for the experts of the member,
scaled to sum one: the member behaves as the router of the checkpoint among its experts.  So the member ranks its experts as that
router does. -/
theorem C151_gates (cdf : ℝ → ℝ) (cfg : RouterConfig) (hdet : cfg.deterministic = true) (h0 : 0 < cfg.numSelected)
    (hK : cfg.numSelected ≤ n) (x y : NdArray ℝ)
    (hy : ∀ h < H, ∀ m < M, ∀ j < n, memberKernels y m h j = routerKernel x h (m * n + j))
    (z : Nat → Nat → Nat → Nat → ℝ) (z' : Nat → Nat → Nat → ℝ) {G s : Nat} (tokens : Fin G → Fin s → Fin H → ℝ)
    (gates : Fin G → Fin s → Fin (M * n) → ℝ) (metrics)
    (hg : gatesAndMetrics cdf cfg (fun (h : Fin H) (e : Fin (M * n)) => routerKernel x h e) z' tokens = .ok (gates, metrics))
    (m : Fin M) (g : Fin G) (i : Fin s) (j : Fin n) :
    let member := fun j : Fin n => memberGates cdf cfg (memberKernels y) z G s H n m tokens g i j
    member j = gates g i (expertPos m j) / ∑ k, gates g i (expertPos m k) ∧
      ∀ k, member j < member k ↔ gates g i (expertPos m j) < gates g i (expertPos m k) := by
  intro member
  have hKE : cfg.numSelected ≤ M * n := le_trans hK (Nat.le_mul_of_pos_left _ (Nat.lt_of_le_of_lt (Nat.zero_le _) m.2))
  obtain ⟨q, hq⟩ := gates_eq cdf cfg (fun (h : Fin H) (e : Fin (M * n)) => routerKernel x h e) z' tokens h0 hKE
  rw [hq] at hg
  have hgates := (Prod.ext_iff.1 (Except.ok.inj hg)).1
  simp only at hgates
  have hstd : ∀ E, usedStd cfg E = 0 := fun E => by simp [usedStd, hdet]
  set l : Fin (M * n) → ℝ := fun e => ∑ h : Fin H, tokens g i h * routerKernel x h e with hl
  have hG : ∀ e, gates g i e = Real.exp (l e) / ∑ e', Real.exp (l e') := by
    intro e
    rw [← hgates]
    simp only [expWeights, hstd, zero_mul, add_zero, hl]
  have hmem : ∀ j, member j = Real.exp (l (expertPos m j)) / ∑ k, Real.exp (l (expertPos m k)) := by
    intro j
    have hk : ∀ k : Fin n, (∑ h : Fin H, tokens g i h * memberKernels y m h k) = l (expertPos m k) := by
      intro k
      refine Finset.sum_congr rfl fun h _ => ?_
      rw [hy h h.2 m m.2 k k.2]
      rfl
    show memberGates cdf cfg (memberKernels y) z G s H n m tokens g i j = _
    rw [memberGates_eq cdf cfg _ z m tokens h0 hK]
    simp only [expWeights, hstd, zero_mul, add_zero, hk]
  have hpos : 0 < ∑ e', Real.exp (l e') :=
    Finset.sum_pos (fun _ _ => Real.exp_pos _) ⟨expertPos m j, Finset.mem_univ _⟩
  have hpos' : 0 < ∑ k, Real.exp (l (expertPos m k)) :=
    Finset.sum_pos (fun _ _ => Real.exp_pos _) ⟨j, Finset.mem_univ _⟩
  refine ⟨?_, fun k => ?_⟩
  · rw [hmem]
    simp only [hG]
    rw [← Finset.sum_div]
    field_simp
  · rw [hmem, hmem, hG, hG, div_lt_div_iff_of_pos_right hpos', div_lt_div_iff_of_pos_right hpos]

/-- Two members with two experts each: the second member prefers its first expert, since the checkpoint prefers expert 2 to expert 3. -/
example : memberGates (fun _ => 0) ⟨1, 1, 0, 0, 0, ⟨"einsum", false, none, some 1, "ceil", none, false⟩, true⟩
      (memberKernels ⟨[1, 2, 2], fun idx => if idx.getD 1 0 * 2 + idx.getD 2 0 = 2 then 1 else 0⟩) (fun _ _ _ _ => 0) 1 1 1 2 1
      (fun _ _ _ => 1) 0 0 1 <
    memberGates (fun _ => 0) ⟨1, 1, 0, 0, 0, ⟨"einsum", false, none, some 1, "ceil", none, false⟩, true⟩
      (memberKernels ⟨[1, 2, 2], fun idx => if idx.getD 1 0 * 2 + idx.getD 2 0 = 2 then 1 else 0⟩) (fun _ _ _ _ => 0) 1 1 1 2 1
      (fun _ _ _ => 1) 0 0 0 := by
  obtain ⟨q, hq⟩ := gates_eq (G := 1) (S := 1) (H := 1) (E := 2 * 2) (fun _ => 0)
    ⟨1, 1, 0, 0, 0, ⟨"einsum", false, none, some 1, "ceil", none, false⟩, true⟩
    (fun h e => routerKernel ⟨[1, 4], fun idx => if idx.getD 1 0 = 2 then 1 else 0⟩ h e) (fun _ _ _ => 0) (fun _ _ _ => 1)
    (by decide) (by show 1 ≤ 4; decide)
  have := (C151_gates (H := 1) (M := 2) (n := 2) (fun _ => 0) _ rfl (by show 0 < 1; decide) (by show 1 ≤ 2; decide) _
    ⟨[1, 2, 2], fun idx => if idx.getD 1 0 * 2 + idx.getD 2 0 = 2 then 1 else 0⟩
    (by intro h _ m _ j _; simp [memberKernels, routerKernel]) (fun _ _ _ _ => 0) _ _ _ _ hq 1 0 0 1).2 0
  refine this.2 ?_
  unfold expWeights
  refine div_lt_div_of_pos_right ?_ (Finset.sum_pos (fun _ _ => Real.exp_pos _) ⟨0, Finset.mem_univ _⟩)
  refine Real.exp_lt_exp.2 ?_
  norm_num [routerKernel, expertPos, usedStd]

/-- C151.  With noise, the logits of a member get noise of standard deviation `noise_std` over the number of experts of the member
(not of all experts). -/
theorem C151_noise (cdf : ℝ → ℝ) (cfg : RouterConfig) (hdet : cfg.deterministic = false) (h0 : 0 < cfg.numSelected)
    (hK : cfg.numSelected ≤ n) (kernel : Nat → Nat → Nat → ℝ) (z : Nat → Nat → Nat → Nat → ℝ) {G s : Nat} (m : Nat)
    (tokens : Fin G → Fin s → Fin H → ℝ) (g : Fin G) (i : Fin s) (j : Fin n) :
    memberGates cdf cfg kernel z G s H n m tokens g i j =
      expWeights (fun j : Fin n => (∑ h : Fin H, tokens g i h * kernel m h j) + cfg.noiseStd / n * z m g i j) j := by
  rw [memberGates_eq cdf cfg _ z m tokens h0 hK]
  simp only [usedStd, hdet, Bool.false_eq_true, if_false]

/-- C151, the comment `This is divided by NUM_EXPERTS` in the configuration of E³ is not what the code does: the noise is divided by
the four experts of a member. -/
theorem C151_noise_counterexample : ∃ (kernel : Nat → Nat → Nat → ℝ) (z : Nat → Nat → Nat → Nat → ℝ)
    (tokens : Fin 1 → Fin 1 → Fin 1 → ℝ) (j : Fin (eeeExperts / eeeMembers)),
    memberGates (fun _ => 0) (eeeRouter false) kernel z 1 1 1 (eeeExperts / eeeMembers) 0 tokens 0 0 j ≠
      expWeights (fun j : Fin (eeeExperts / eeeMembers) => (∑ h : Fin 1, tokens 0 0 h * kernel 0 h j) +
        (eeeRouter false).noiseStd / eeeExperts * z 0 0 0 j) j := by
  refine ⟨fun _ _ _ => 0, fun _ _ _ j => if j = 0 then 1 else 0, fun _ _ _ => 0, ⟨0, by decide⟩, ?_⟩
  have h := C151_noise (H := 1) (n := eeeExperts / eeeMembers) (fun _ => 0) (eeeRouter false) rfl (by decide) (by decide)
    (fun _ _ _ => 0) (fun _ _ _ j => if j = 0 then 1 else 0) 0 (fun (_ : Fin 1) (_ : Fin 1) _ => 0) 0 0 ⟨0, by decide⟩
  rw [show ((0 : Fin 1) : Nat) = 0 from rfl] at h
  rw [h]
  have e4 : eeeExperts / eeeMembers = 4 := by decide
  have key : ∀ (N : Nat) (hN : N = 4) (a b : ℝ), a ≠ b →
      expWeights (fun j : Fin N => (∑ h : Fin 1, (0 : ℝ) * 0) + a * (if (j : Nat) = 0 then 1 else 0)) ⟨0, by omega⟩ ≠
      expWeights (fun j : Fin N => (∑ h : Fin 1, (0 : ℝ) * 0) + b * (if (j : Nat) = 0 then 1 else 0)) ⟨0, by omega⟩ := by
    rintro N rfl a b hab heq
    simp only [expWeights, Fin.sum_univ_four] at heq
    norm_num at heq
    have ha := Real.exp_pos a
    have hb := Real.exp_pos b
    rw [div_eq_div_iff (by positivity) (by positivity)] at heq
    exact hab (Real.exp_injective (by linarith))
  refine key _ e4 _ _ ?_
  rw [e4]
  simp only [eeeRouter, eeeExperts]
  norm_num

/-- A checkpoint with four experts in a row for each input dimension, as an ensemble of two members. -/
example (env : Mapping.Env Unit ℝ) : ∃ y, Mapping.Tx.call env (.single (.reshape none)
      ⟨(), ⟨[3, 2 * 2], fun idx => 10 * (idx.getD 0 0) + idx.getD 1 0⟩, false⟩ ⟨(), ⟨[3, 2, 2], fun _ => 0⟩, false⟩) = .ok y ∧
    memberKernels y.value 1 2 0 = 22 := by
  obtain ⟨y, h1, -, -, h4⟩ := C151_kernel (H := 3) (M := 2) (n := 2) (D := Unit) env
    ⟨(), ⟨[3, 2 * 2], fun idx => 10 * (idx.getD 0 0) + idx.getD 1 0⟩, false⟩ ⟨(), ⟨[3, 2, 2], fun _ => 0⟩, false⟩ rfl rfl
  refine ⟨y, h1, ?_⟩
  rw [h4 2 (by omega) 1 (by omega) 0 (by omega)]
  norm_num [routerKernel]

/-- C151, the configuration of E³.  If floating point numbers hold small integers exactly, every expert of the ensemble has room for 816
tokens of a group, the same as in a separate model with 4 experts and groups of 2176 tokens: one and a half times the share of an
expert. -/
theorem C151_eee_capacity (fl : ℚ → ℚ) (hfl : ∀ k : Nat, k < 2 ^ 24 → fl k = k) (deterministic : Bool) :
    let d := (eeeRouter deterministic).dispatcher
    let K := (eeeRouter deterministic).numSelected
    resolveCapacity fl (eeeGroup * eeeMembers * K) eeeExperts d.capacity d.capacityFactor d.ceilOrRound d.multipleOf = .ok 816 ∧
    resolveCapacity fl (eeeGroup * K) (eeeExperts / eeeMembers) d.capacity d.capacityFactor d.ceilOrRound d.multipleOf = .ok 816 ∧
    eeeGroup * K * 3 = 816 * (eeeExperts / eeeMembers) * 2 := by
  intro d K
  have h1 : fl 6528 = 6528 := hfl 6528 (by norm_num)
  have h2 : fl 3264 = 3264 := hfl 3264 (by norm_num)
  have h3 : fl 816 = 816 := hfl 816 (by norm_num)
  have hK : K = 1 := rfl
  refine ⟨?_, ?_, by rw [hK]; decide⟩
  · have e : ((eeeGroup * eeeMembers * K : ℕ) : ℚ) * (3 / 2) = 6528 := by
      rw [hK, show eeeGroup * eeeMembers * 1 = 4352 by decide]; norm_num
    have e' : (6528 : ℚ) / ((eeeExperts : ℕ) : ℚ) = 816 := by norm_num [eeeExperts]
    show (computeCapacity fl _ _ (3 / 2) "ceil" (some 4)).map Int.toNat = _
    unfold computeCapacity
    rw [if_neg (by simp), if_neg (by decide), e, h1, e', h3]
    norm_num [Except.map]
    rfl
  · have e : ((eeeGroup * K : ℕ) : ℚ) * (3 / 2) = 3264 := by
      rw [hK, show eeeGroup * 1 = 2176 by decide]; norm_num
    have e' : (3264 : ℚ) / ((eeeExperts / eeeMembers : ℕ) : ℚ) = 816 := by
      rw [show eeeExperts / eeeMembers = 4 by decide]; norm_num
    show (computeCapacity fl _ _ (3 / 2) "ceil" (some 4)).map Int.toNat = _
    unfold computeCapacity
    rw [if_neg (by simp), if_neg (by decide), e, h2, e', h3]
    norm_num [Except.map]
    rfl

example : ∀ k : Nat, k < 2 ^ 24 → (id : ℚ → ℚ) k = k := fun _ _ => rfl

variable {c : Nat} {P : Type}

/-- C151, the configuration of E³.  A MoE layer of the ensemble works on every batch with a multiple of 128 images (and their copies), and
gives each of the two members what a separate layer with 4 experts and groups of 128 images gives.  It rejects other batches. -/
theorem C151_eee_layer (deterministic : Bool) (fl : ℚ → ℚ) (hfl : ∀ k : Nat, k < 2 ^ 24 → fl k = k) (cdf bf : ℝ → ℝ)
    (oob : Fin c → ℝ) (mlp : P → (Fin c → ℝ) → Fin c → ℝ) (hc : 0 < c) (p : EnsembleParams (2 * 4) P) (B : Nat)
    (X : List (Seq eeeTokens c)) (xs : Fin 2 → List (Seq eeeTokens c)) (hX : Interleaved B X xs) :
    let cfg : EnsembleConfig c P := eeeConfig deterministic fl cdf bf oob mlp
    (128 ∣ B → ∃ (Y : _) (ys : Fin 2 → List (Seq eeeTokens c)) (ms : Fin 2 → LayerMetrics), ensembleLayer cfg p X = .ok (Y, ()) ∧
      (∀ m, moeLayer (cfg.plain (128 * eeeTokens)) (memberParams p m) (xs m) = .ok (ys m, ms m)) ∧ Interleaved B Y ys) ∧
    (¬ 128 ∣ B → ensembleLayer cfg p X = .error .typeError) := by
  intro cfg
  have hcaps := C151_eee_capacity fl hfl deterministic
  simp only at hcaps
  obtain ⟨c1, c2, -⟩ := hcaps
  have hT : 0 < eeeTokens := by decide
  refine ⟨fun hB => ?_, fun hB => ?_⟩
  · have hplain : ∀ m, ∃ y q, moeLayer (cfg.plain (128 * eeeTokens)) (memberParams p m) (xs m) = .ok (y, q) := by
      intro m
      have herr := C72_block_errors fl cdf bf (eeeRouter deterministic) (128 * eeeTokens) (memberParams (c := c) p m).kernel
        (memberParams (c := c) p m).z oob (memberParams (c := c) p m).experts mlp (xs m).get
      simp only at herr
      have hlen : (xs m).length = B := hX.2.1 m
      have hd : 0 < 128 * eeeTokens ∧ 128 * eeeTokens ∣ (xs m).length * eeeTokens := by
        rw [hlen]
        exact ⟨by decide, Nat.mul_dvd_mul_right hB _⟩
      obtain ⟨q, hq⟩ := ((herr.2.2 hd ⟨by show 1 ≤ 1; decide, by show 1 ≤ 4; decide⟩).2 816 c2).2 (.inl rfl)
      unfold moeLayer
      rw [show (cfg.plain (128 * eeeTokens)).router = .topExperts (eeeRouter deterministic) from rfl]
      simp only
      rw [show mlpMoeBlock (cfg.plain (128 * eeeTokens)).fl (cfg.plain (128 * eeeTokens)).cdf (cfg.plain (128 * eeeTokens)).bf
        (eeeRouter deterministic) (cfg.plain (128 * eeeTokens)).groupSize (memberParams (c := c) p m).kernel (memberParams (c := c) p m).z
        (cfg.plain (128 * eeeTokens)).oob (memberParams (c := c) p m).experts (cfg.plain (128 * eeeTokens)).mlp (xs m).get = .ok q from hq]
      exact ⟨_, _, rfl⟩
    choose ys ms h using hplain
    obtain ⟨Y, h1, h2⟩ := C124_layer cfg (128 * eeeTokens) (by decide) rfl rfl (by
      intro cap hcap
      have hcap' : resolveCapacity fl (eeeGroup * 1) (eeeExperts / eeeMembers) none (some (3 / 2)) "ceil" (some 4) = .ok cap := hcap
      have : cap = 816 := Except.ok.inj (hcap'.symm.trans c2)
      rw [this]
      exact c1) hT hc p B X xs ys ms hX h
    exact ⟨Y, ys, ms, h1, h, h2⟩
  · unfold ensembleLayer
    obtain ⟨f, rfl, hxs⟩ := interleaved_ofFn hX
    have hrej := (C76_rejects (B := B) (M := 2) (S := eeeGroup * eeeMembers) fl cdf bf (eeeRouter deterministic) p.kernel p.z oob p.experts mlp f hc).2.1 (by decide)
      (by
        intro hd
        apply hB
        have : eeeGroup * eeeMembers = 128 * (2 * eeeTokens) := by decide
        rw [this, Nat.mul_assoc B] at hd
        exact (Nat.mul_dvd_mul_iff_right (by decide)).1 hd)
    have ht := transport (fun N (g : Fin N → Seq eeeTokens c) => ensembleBlock fl cdf bf (eeeRouter deterministic) (eeeGroup * eeeMembers)
      (some ((2 : Nat) : Int)) p.kernel p.z oob p.experts mlp g) f
    have ht := ht.trans hrej
    rw [show ensembleBlock cfg.fl cfg.cdf cfg.bf cfg.router cfg.groupSize cfg.size p.kernel p.z cfg.oob p.experts cfg.mlp
      (List.ofFn f).get = .error .typeError from ht]

/-- A batch of 128 images and their copies. -/
example (x : Seq eeeTokens c) : 128 ∣ 128 ∧ Interleaved 128 (List.replicate 256 x) (fun _ : Fin 2 => List.replicate 128 x) := by
  refine ⟨dvd_refl _, List.length_replicate, fun _ => List.length_replicate, fun b hb m => ?_⟩
  rw [List.getElem?_replicate, List.getElem?_replicate, if_pos (by have := m.2; omega), if_pos hb]

end Verif.EnsembleStart
