import Verif.Model.EnsembleBlock
import Verif.Proofs.EnsembleBlock
import Verif.Proofs.ExceptLemmas
import Verif.Props.Ensemble
import Verif.Props.MoeBlock

/-!
Property C76: the MoE block of the ensemble model computes, for every member, what a plain MoE block
with the parameters of that member computes from the sequences of that member.
-/

namespace Verif.EnsembleBlock

open Verif Verif.Moe Verif.MoeBlock Verif.Ensemble Verif.Spec Verif.NdArray

variable {B T H O s M n : Nat} {P : Type*}

/-- The sequences of member `m` in the repeated batch: rows `b * M + m`. -/
def memberRows {V : Type*} (x : Fin (B * M) → V) (m : Fin M) : Fin B → V :=
  fun b => x (itemPos b m)

theorem ofFn_get {a b c : Nat} (f : Fin a → Fin b → Fin c → ℝ) (i : Fin a) (j : Fin b) (k : Fin c) :
    (ofFn f).get [i, j, k] = f i j k := by
  unfold ofFn
  simp only
  rw [dif_pos ⟨i.2, j.2, k.2⟩]

/-- Regrouping inside `MlpMoeBlock` does nothing, since the input is already grouped. -/
theorem jreshape_same {y : NdArray ℝ} {G S H : Nat} (hy : y.shape = [G, S, H]) (hS : 0 < S)
    (hH : 0 < H) :
    ∃ y', y.jreshape [none, some S, some H] = .ok y' ∧ y'.shape = [G, S, H] ∧
      ∀ g i h, g < G → i < S → h < H → y'.get [g, i, h] = y.get [g, i, h] := by
  have hp : y.shape.prod = G * (S * H) := by simp [hy]
  obtain ⟨y', e, hs⟩ := reshape_auto_ok (x := y) (dims := [S, H]) (by simp; exact ⟨hS, hH⟩) (by
    rw [hp]; simp)
  have hs' : y'.shape = [G, S, H] := by
    rw [hs, hp]
    simp only [List.prod_cons, List.prod_nil, Nat.mul_one]
    rw [Nat.mul_div_cancel _ (Nat.mul_pos hS hH)]
  simp only [List.map_cons, List.map_nil] at e
  refine ⟨y', jr e, hs', ?_⟩
  intro g i h hg hi hh
  exact get_reshape e (by rw [hy]; exact valid_three.2 ⟨hg, hi, hh⟩) (by rw [hs', hy])

theorem memberGates_eq (cdf : ℝ → ℝ) (cfg : RouterConfig) (kernel : Nat → Nat → Nat → ℝ)
    (z : Nat → Nat → Nat → Nat → ℝ) (h0 : 0 < cfg.numSelected) {G s H e : Nat}
    (hK : cfg.numSelected ≤ e) (m : Nat) (x : Fin G → Fin s → Fin H → ℝ) (g : Fin G) (i : Fin s)
    (j : Fin e) :
    memberGates cdf cfg kernel z G s H e m x g i j = expWeights (fun j' : Fin e =>
      (∑ h, x g i h * kernel m h j') + usedStd cfg e * z m g i j') j := by
  obtain ⟨_, hm⟩ := gates_eq cdf cfg (fun (h : Fin H) (j : Fin e) => kernel m h j) (z m) x h0 hK
  unfold memberGates
  rw [hm]
  simp only
  rw [dif_pos ⟨g.2, i.2, j.2⟩]

/-- C76: with `M` members, `n` experts per member, groups of `s * M` tokens and the same capacity,
the block returns an array of shape (B * M, T, O), and the rows of member `m` (`b * M + m`) are
exactly the output of the plain block with group size `s`, the gating parameters and noise of member
`m` and the experts `m * n, ..., m * n + n - 1`, applied to the rows of member `m`. -/
theorem C76_members_are_plain_blocks (fl : ℚ → ℚ) (cdf bf : ℝ → ℝ) (cfg : RouterConfig)
    (kernel : Nat → Nat → Nat → ℝ) (z : Nat → Nat → Nat → Nat → ℝ) (oob : Fin O → ℝ)
    (params : Fin (M * n) → P) (mlp : P → (Fin H → ℝ) → Fin O → ℝ)
    (x : Fin (B * M) → Fin T → Fin H → ℝ) (hM : 0 < M) (hs : 0 < s) (hT : 0 < T) (hH : 0 < H)
    (hO : 0 < O) (hdiv : s ∣ B * T) (h0 : 0 < cfg.numSelected) (hK : cfg.numSelected ≤ n)
    (hname : cfg.dispatcher.name = "einsum" ∨ cfg.dispatcher.name = "indices") (cap : Nat)
    (hcap : resolveCapacity fl (s * M * cfg.numSelected) (M * n) cfg.dispatcher.capacity
      cfg.dispatcher.capacityFactor cfg.dispatcher.ceilOrRound cfg.dispatcher.multipleOf = .ok cap)
    (hcap' : resolveCapacity fl (s * cfg.numSelected) n cfg.dispatcher.capacity
      cfg.dispatcher.capacityFactor cfg.dispatcher.ceilOrRound cfg.dispatcher.multipleOf = .ok cap) :
    ∃ out, ensembleBlock fl cdf bf cfg (s * M) (some M) kernel z oob params mlp x = .ok out ∧
      out.shape = [B * M, T, O] ∧
      ∀ m : Fin M, ∃ member metrics,
        mlpMoeBlock fl cdf bf cfg s (fun (h : Fin H) (j : Fin n) => kernel m h j) (z m) oob
          (fun j => params (expertPos m j)) mlp (memberRows x m) = .ok (member, metrics) ∧
        ∀ (b : Fin B) (t : Fin T) (o : Fin O), out.get [b * M + m, t, o] = member b t o := by
  have hn : 0 < n := by omega
  have hE : 0 < M * n := Nat.mul_pos hM hn
  have hS : 0 < s * M := Nat.mul_pos hs hM
  have hKE : cfg.numSelected ≤ M * n := hK.trans (Nat.le_mul_of_pos_left _ hM)
  have hdivS : s * M ∣ B * M * T := by
    rw [show B * M * T = B * T * M by ring]
    exact Nat.mul_dvd_mul_right hdiv M
  have hG : B * M * T / (s * M) = B * T / s := by
    rw [show B * M * T = B * T * M by ring, Nat.mul_div_mul_right _ _ hM]
  obtain ⟨y, e1, s1, g1⟩ := reshapeTo_spec (x := ofFn x) (B := B) (M := M) (T := T) (H := H)
    (S := s * M) rfl hM hS hH hdivS
  rw [hG] at s1
  obtain ⟨y', e2, s2, g2⟩ := jreshape_same s1 hS hH
  have hd : M * n / M = n := Nat.mul_div_cancel_left _ hM
  have hd' : s * M / M = s := Nat.mul_div_cancel _ hM
  obtain ⟨gt, e3, s3, g3⟩ := ensembleGates_spec (memberGates cdf cfg kernel z) (inputs := y')
    (E := M * n) (K := cfg.numSelected) s2 hM (Dvd.intro _ rfl) (Dvd.intro_left _ rfl) h0
    (by rw [hd]; exact hK)
  rw [hd, hd'] at g3
  have hhead : y'.shape.headD 0 = B * T / s := by rw [s2]; rfl
  obtain ⟨d, e4, hl⟩ := applyLayer_eq (G := y'.shape.headD 0) hE fl bf cfg
    (fun g => groupGates gt (s * M) (M * n) g)
    cfg.dispatcher.bfloat16 oob params mlp
    (fun (g : Fin (y'.shape.headD 0)) (i : Fin (s * M)) (h : Fin H) => y'.get [g, i, h])
    cap hcap hname h0 hKE
  obtain ⟨out, e5, s5, g5⟩ := reshapeFrom_spec (B := B) (M := M) (T := T)
    (y := ofFn (applyLayer bf cfg.dispatcher.bfloat16 oob params mlp d
      (fun (g : Fin (y'.shape.headD 0)) (i : Fin (s * M)) (h : Fin H) => y'.get [g, i, h])))
    rfl hM hT hO (by rw [hhead, ← Nat.mul_assoc, Nat.div_mul_cancel hdiv])
  have hparse : Encoder.parseEnsembleSize (some (M : Int)) = .ok M := by
    unfold Encoder.parseEnsembleSize
    simp only
    rw [if_neg (by omega)]
    rfl
  refine ⟨out, ?_, s5, ?_⟩
  · unfold ensembleBlock
    rw [hparse]
    change (reshapeTo (ofFn x) (s * M) M >>= _ : Except PyErr _) = _
    rw [e1]
    change (y.jreshape [none, some (s * M), some H] >>= _ : Except PyErr _) = _
    rw [e2]
    change (ensembleGates _ _ _ _ y' >>= _ : Except PyErr _) = _
    rw [e3]
    change (createDispatcher fl cfg _ >>= _ : Except PyErr _) = _
    rw [e4]
    exact e5
  · intro m
    obtain ⟨member, metrics, hb, hmem⟩ := C72_block_output fl cdf bf cfg s
      (fun (h : Fin H) (j : Fin n) => kernel m h j) (z m) oob (fun j => params (expertPos m j)) mlp
      (memberRows x m) hs hdiv hn h0 hK hname cap hcap'
    refine ⟨member, metrics, hb, ?_⟩
    intro b t o
    rw [hmem b t o]
    have hlt : tokenNumber T b t < B * T := tokenNumber_lt b t
    generalize htn : tokenNumber T b t = N at hlt ⊢
    have hg : N / s < B * T / s := by
      rw [Nat.div_lt_iff_lt_mul hs, Nat.div_mul_cancel hdiv]; exact hlt
    let i : Fin s := ⟨N % s, Nat.mod_lt _ hs⟩
    let g : Fin (y'.shape.headD 0) := ⟨N / s, by rw [hhead]; exact hg⟩
    have hplace : ∀ (i' : Fin s) (m' : Fin M),
        N / s * (s * M) + (itemPos i' m' : Nat) = (N / s * s + i') * M + m' := by
      intro i' m'
      simp only [itemPos]
      ring
    -- entries of the regrouped inputs
    have hin : ∀ (m' : Fin M) (i' : Fin s) (h : Fin H),
        y'.get [N / s, (itemPos i' m' : Nat), h] = tokenOf (memberRows x m') (N / s * s + i') h := by
      intro m' i' h
      have hlt' : N / s * s + i' < B * T := by
        calc N / s * s + i' < N / s * s + s := by have := i'.2; omega
          _ = (N / s + 1) * s := by ring
          _ ≤ B * T / s * s := Nat.mul_le_mul_right _ hg
          _ = B * T := Nat.div_mul_cancel hdiv
      have hb' : (N / s * s + i') / T < B := (Nat.div_lt_iff_lt_mul hT).2 hlt'
      have ht' : (N / s * s + i') % T < T := Nat.mod_lt _ hT
      rw [g2 _ _ _ hg (itemPos i' m').2 h.2,
        g1 _ m' _ h hb' m'.2 ht' h.2 (N / s) _ (by rw [hplace, Nat.div_add_mod'])]
      unfold tokenOf
      rw [dif_pos ⟨hb', ht'⟩]
      exact ofFn_get x (itemPos ⟨_, hb'⟩ m') ⟨_, ht'⟩ h
    -- the gates are block diagonal
    have hblocks : Blocks (groupGates gt (s * M) (M * n) (N / s)) (fun m' =>
        tokenGates s (fun (h : Fin H) (j : Fin n) => kernel m' h j) (usedStd cfg n) (z m')
          (memberRows x m') (N / s)) := by
      refine ⟨?_, ?_, ?_⟩
      · intro i' m' j
        unfold groupGates
        rw [g3 _ _ _ hg (itemPos i' m').2 (expertPos m' j).2, itemPos_mod, itemPos_div,
          expertPos_mod, expertPos_div, if_pos rfl]
        refine (memberGates_eq cdf cfg kernel z h0 hK m' _ ⟨N / s, hg⟩ i' j).trans ?_
        unfold tokenGates
        congr 1
        funext j'
        congr 1
        refine Finset.sum_congr rfl fun h _ => ?_
        congr 1
        exact hin m' i' h
      · intro i' m' e he
        unfold groupGates
        rw [g3 _ _ _ hg (itemPos i' m').2 e.2, itemPos_mod, if_neg (fun h => he h.symm)]
      · intro m' i' j
        exact expWeights_pos j
    have hout := g5 b m t o b.2 m.2 t.2 o.2 (N / s) (itemPos i m) (itemPos i m).2 (by
      rw [hplace]
      show (N / s * s + N % s) * M + m = _
      rw [Nat.div_add_mod', ← htn]
      rfl)
    rw [hout]
    refine (ofFn_get _ g (itemPos i m) o).trans ?_
    rw [hl g (itemPos i m), Finset.sum_apply]
    have hr : ∀ {D : Nat} (v : Fin D → ℝ), castData bf cfg.dispatcher.bfloat16 v =
        fun k => if cfg.dispatcher.bfloat16 then bf (v k) else v k := by
      intro D v
      unfold castData
      funext k
      by_cases hbf : cfg.dispatcher.bfloat16 = true <;> simp [hbf]
    have hx : (fun h : Fin H => y'.get [(g : Nat), (itemPos i m : Nat), h]) = memberRows x m b t := by
      funext h
      refine (hin m i h).trans ?_
      show tokenOf (memberRows x m) (N / s * s + N % s) h = _
      rw [Nat.div_add_mod', ← htn, tokenOf_tokenNumber]
    have hset : Finset.univ.filter (fun e => Kept hE cfg.dispatcher.batchPriority
        (groupGates gt (s * M) (M * n) g) cfg.numSelected cap (itemPos i m) e) =
        (Finset.univ.filter (fun j => Kept hn cfg.dispatcher.batchPriority
          (tokenGates s (fun (h : Fin H) (j : Fin n) => kernel m h j) (usedStd cfg n) (z m)
            (memberRows x m) (N / s)) cfg.numSelected cap i j)).image (expertPos m) := by
      ext e
      simp only [Finset.mem_filter, Finset.mem_univ, true_and, Finset.mem_image]
      rw [hblocks.kept hE hn _ hK]
      constructor
      · rintro ⟨j, rfl, h⟩
        exact ⟨j, h, rfl⟩
      · rintro ⟨j, h, rfl⟩
        exact ⟨j, rfl, h⟩
    rw [hset, Finset.sum_image (fun j _ j' _ h => expertPos_inj m h)]
    refine Finset.sum_congr rfl fun j _ => ?_
    rw [Pi.smul_apply, smul_eq_mul, hx, hr, hr]
    exact congrArg (· * _) (hblocks.own i m j)

/-- C76: the two capacities of `C76_members_are_plain_blocks` agree when the capacity is given, and
with a capacity factor when arithmetic is exact (rounding of floats can make them differ). -/
theorem C76_same_capacity (fl : ℚ → ℚ) (K : Nat) (hM : 0 < M) (hn : 0 < n) (capacity : Option Nat)
    (factor : Option ℚ) (mode : String) (multipleOf : Option Int)
    (h : (∃ c, capacity = some (c + 1)) ∨ fl = id) :
    resolveCapacity fl (s * M * K) (M * n) capacity factor mode multipleOf =
      resolveCapacity fl (s * K) n capacity factor mode multipleOf := by
  rcases h with ⟨c, rfl⟩ | rfl
  · unfold resolveCapacity
    rfl
  · have hcc : ∀ f : ℚ, computeCapacity id (s * M * K) (M * n) f mode multipleOf =
        computeCapacity id (s * K) n f mode multipleOf := by
      intro f
      have hMq : (M : ℚ) ≠ 0 := by exact_mod_cast hM.ne'
      have hnq : (n : ℚ) ≠ 0 := by exact_mod_cast hn.ne'
      have hshare : ((s * M * K : Nat) : ℚ) * f / ((M * n : Nat) : ℚ) =
          ((s * K : Nat) : ℚ) * f / (n : ℚ) := by
        push_cast
        field_simp
      unfold computeCapacity
      simp only [id, hshare, (Nat.mul_pos hM hn).ne', hn.ne', if_false]
    unfold resolveCapacity
    simp only [hcc]

/-- C76: members do not influence each other: if two batches agree on the rows of member `m`, and
the gating parameters, noise and experts of member `m` agree, then the rows of member `m` of the two
outputs agree, whatever the other members have. -/
theorem C76_members_independent (fl : ℚ → ℚ) (cdf bf : ℝ → ℝ) (cfg : RouterConfig)
    (kernel kernel' : Nat → Nat → Nat → ℝ) (z z' : Nat → Nat → Nat → Nat → ℝ) (oob : Fin O → ℝ)
    (params params' : Fin (M * n) → P) (mlp : P → (Fin H → ℝ) → Fin O → ℝ)
    (x x' : Fin (B * M) → Fin T → Fin H → ℝ) (hM : 0 < M) (hs : 0 < s) (hT : 0 < T) (hH : 0 < H)
    (hO : 0 < O) (hdiv : s ∣ B * T) (h0 : 0 < cfg.numSelected) (hK : cfg.numSelected ≤ n)
    (hname : cfg.dispatcher.name = "einsum" ∨ cfg.dispatcher.name = "indices") (cap : Nat)
    (hcap : resolveCapacity fl (s * M * cfg.numSelected) (M * n) cfg.dispatcher.capacity
      cfg.dispatcher.capacityFactor cfg.dispatcher.ceilOrRound cfg.dispatcher.multipleOf = .ok cap)
    (hcap' : resolveCapacity fl (s * cfg.numSelected) n cfg.dispatcher.capacity
      cfg.dispatcher.capacityFactor cfg.dispatcher.ceilOrRound cfg.dispatcher.multipleOf = .ok cap)
    (m : Fin M) (hk : kernel m = kernel' m) (hz : z m = z' m)
    (hp : ∀ e : Fin (M * n), (e : Nat) / n = m → params e = params' e)
    (hx : ∀ r : Fin (B * M), (r : Nat) % M = m → x r = x' r) (out out' : NdArray ℝ)
    (h : ensembleBlock fl cdf bf cfg (s * M) (some M) kernel z oob params mlp x = .ok out)
    (h' : ensembleBlock fl cdf bf cfg (s * M) (some M) kernel' z' oob params' mlp x' = .ok out')
    (r : Nat) (hr : r < B * M) (hrm : r % M = m) (t : Fin T) (o : Fin O) :
    out.get [r, t, o] = out'.get [r, t, o] := by
  obtain ⟨o1, e1, -, f1⟩ := C76_members_are_plain_blocks fl cdf bf cfg kernel z oob params mlp x hM hs
    hT hH hO hdiv h0 hK hname cap hcap hcap'
  obtain ⟨o2, e2, -, f2⟩ := C76_members_are_plain_blocks fl cdf bf cfg kernel' z' oob params' mlp x'
    hM hs hT hH hO hdiv h0 hK hname cap hcap hcap'
  rw [h] at e1
  rw [h'] at e2
  cases e1
  cases e2
  obtain ⟨a, ma, ha, fa⟩ := f1 m
  obtain ⟨b, mb, hb, fb⟩ := f2 m
  have hrows : memberRows x m = memberRows x' m := by
    funext i
    exact hx _ (itemPos_mod i m)
  have hpar : (fun j => params (expertPos m j)) = fun j => params' (expertPos m j) := by
    funext j
    exact hp _ (expertPos_div m j)
  rw [hrows, hpar, hk, hz, hb] at ha
  cases ha
  have hr' : r / M * M + m = r := by rw [← hrm]; exact Nat.div_add_mod' r M
  have hlt : r / M < B := (Nat.div_lt_iff_lt_mul hM).2 hr
  have q1 := fa ⟨r / M, hlt⟩ t o
  have q2 := fb ⟨r / M, hlt⟩ t o
  simp only [hr'] at q1 q2
  rw [q1, q2]

/-- C76: what is rejected: a missing or non-positive ensemble size (ValueError), a group size that
does not divide the number of tokens (TypeError), a number of experts or a group size that is not a
multiple of the ensemble size (ValueError), fewer experts per member than selected experts
(ValueError). -/
theorem C76_rejects {E S : Nat} (fl : ℚ → ℚ) (cdf bf : ℝ → ℝ) (cfg : RouterConfig)
    (kernel : Nat → Nat → Nat → ℝ) (z : Nat → Nat → Nat → Nat → ℝ) (oob : Fin O → ℝ)
    (params : Fin E → P) (mlp : P → (Fin H → ℝ) → Fin O → ℝ)
    (x : Fin (B * M) → Fin T → Fin H → ℝ) (hH : 0 < H) :
    let r := fun size => ensembleBlock fl cdf bf cfg S size kernel z oob params mlp x
    (∀ size : Option Int, (∀ k, size = some k → k ≤ 0) → r size = .error .valueError) ∧
    (0 < M → ¬ S ∣ B * M * T → r (some M) = .error .typeError) ∧
    (0 < M → 0 < S → S ∣ B * M * T → (¬ M ∣ E ∨ ¬ M ∣ S ∨ cfg.numSelected < 1 ∨
      E / M < cfg.numSelected) → r (some M) = .error .valueError) := by
  intro r
  have hparse : 0 < M → Encoder.parseEnsembleSize (some (M : Int)) = .ok M := by
    intro hM
    unfold Encoder.parseEnsembleSize
    simp only
    rw [if_neg (by omega)]
    rfl
  refine ⟨?_, ?_, ?_⟩
  · intro size hsize
    have : Encoder.parseEnsembleSize size = .error .valueError := by
      unfold Encoder.parseEnsembleSize
      cases size with
      | none => rfl
      | some k =>
        simp only
        rw [if_pos (hsize k rfl)]
    simp only [r, ensembleBlock]
    rw [this]
    rfl
  · intro hM hdiv
    simp only [r, ensembleBlock]
    rw [hparse hM]
    change (reshapeTo (ofFn x) S M >>= _ : Except PyErr _) = _
    rw [C13_bad_group_size (B := B) (M := M) (T := T) (H := H) rfl hM hH hdiv]
    rfl
  · intro hM hS hdiv hbad
    obtain ⟨y, e1, s1, -⟩ := reshapeTo_spec (x := ofFn x) (B := B) (M := M) (T := T) (H := H)
      (S := S) rfl hM hS hH hdiv
    obtain ⟨y', e2, s2, -⟩ := jreshape_same s1 hS hH
    have hg : ensembleGates (memberGates cdf cfg kernel z) E M cfg.numSelected y' =
        .error .valueError := by
      unfold ensembleGates
      rw [s2]
      simp only [hM.ne', if_false]
      by_cases hE : E % M ≠ 0
      · rw [if_pos hE]
      rw [if_neg hE]
      by_cases hSM : S % M ≠ 0
      · rw [if_pos hSM]
      rw [if_neg hSM]
      push Not at hE hSM
      have hE' := Nat.dvd_of_mod_eq_zero hE
      have hSM' := Nat.dvd_of_mod_eq_zero hSM
      have hk : cfg.numSelected < 1 ∨ E / M < cfg.numSelected := by tauto
      obtain ⟨x1, e3, -⟩ := reshape_ok (x := y') (dims := [B * M * T / S, S / M, M, H]) (by
        simp only [s2, List.prod_cons, List.prod_nil]
        rw [← Nat.mul_assoc (S / M), Nat.div_mul_cancel hSM'])
      simp only [List.map_cons, List.map_nil] at e3
      rw [jr e3]
      change (if cfg.numSelected < 1 ∨ E / M < cfg.numSelected then _ else _) = _
      rw [if_pos hk]
    simp only [r, ensembleBlock]
    rw [hparse hM]
    change (reshapeTo (ofFn x) S M >>= _ : Except PyErr _) = _
    rw [e1]
    change (y.jreshape [none, some S, some H] >>= _ : Except PyErr _) = _
    rw [e2]
    change (ensembleGates _ _ _ _ y' >>= _ : Except PyErr _) = _
    rw [hg]
    rfl

/-- Options of the examples: one selected expert out of two per member, capacity factor 1, with
noise. -/
noncomputable def exEnsemble : RouterConfig :=
  { numSelected := 1
    noiseStd := 1
    gshardLossWeight := 0
    importanceLossWeight := 1
    loadLossWeight := 1
    dispatcher :=
      { name := "einsum", batchPriority := true, capacity := none, capacityFactor := some 1
        ceilOrRound := "ceil", multipleOf := none, bfloat16 := false }
    deterministic := false }

theorem exEnsemble_capacity : resolveCapacity id (3 * 1) 2 none (some 1) "ceil" none = .ok 2 := by
  simp [resolveCapacity, computeCapacity, Except.map]
  norm_num
  rfl

-- Non-vacuity: two members with two experts each, three images of two tokens, groups of 3 * 2 tokens.
-- The two capacities agree and are smaller than the number of tokens of a member in a group.
example (kernel : Nat → Nat → Nat → ℝ) (z : Nat → Nat → Nat → Nat → ℝ)
    (x : Fin (3 * 2) → Fin 2 → Fin 2 → ℝ) :
    ∃ out, ensembleBlock id id id exEnsemble (3 * 2) (some (2 : Nat)) kernel z (fun _ : Fin 2 => 0)
        (fun e : Fin (2 * 2) => (e : ℝ)) (fun p v o => p * v o) x = .ok out ∧
      out.shape = [3 * 2, 2, 2] := by
  have h2 : resolveCapacity id (3 * 1) 2 none (some 1) "ceil" none = .ok 2 := exEnsemble_capacity
  obtain ⟨out, h, hs, -⟩ := C76_members_are_plain_blocks (B := 3) (M := 2) (n := 2) (s := 3) id id id
    exEnsemble kernel z (fun _ : Fin 2 => 0) (fun e : Fin (2 * 2) => (e : ℝ)) (fun p v o => p * v o) x
    (by decide) (by decide) (by decide) (by decide) (by decide) (by decide) (by decide)
    (by decide) (Or.inl rfl) 2
    ((C76_same_capacity id 1 (by decide) (by decide) none (some 1) "ceil" none (Or.inr rfl)).trans h2)
    h2
  exact ⟨out, h, hs⟩

-- Non-vacuity: four experts are not a multiple of three members; groups of 3 divide the tokens.
example (kernel : Nat → Nat → Nat → ℝ) (z : Nat → Nat → Nat → Nat → ℝ)
    (x : Fin (2 * 3) → Fin 2 → Fin 2 → ℝ) :
    ensembleBlock id id id exEnsemble 3 (some (3 : Nat)) kernel z (fun _ : Fin 2 => 0)
      (fun e : Fin 4 => (e : ℝ)) (fun p v o => p * v o) x = .error .valueError :=
  (C76_rejects (B := 2) (M := 3) (S := 3) id id id exEnsemble kernel z (fun _ : Fin 2 => 0)
    (fun e : Fin 4 => (e : ℝ)) (fun p v o => p * v o) x (by decide)).2.2 (by decide) (by decide)
    (by decide) (Or.inl (by decide))

end Verif.EnsembleBlock
