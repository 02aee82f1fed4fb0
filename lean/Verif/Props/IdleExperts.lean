import Mathlib.Analysis.Calculus.FDeriv.Add
import Mathlib.Analysis.Calculus.FDeriv.Mul
import Mathlib.Analysis.Calculus.FDeriv.Pi
import Verif.Props.MoeBlock
import Verif.Props.Adam

/-!
C149: an expert that keeps no token is not trained by a batch (vmoe/nn/vit_moe.py:101-124, vmoe/train/trainer.py:658-675), and what the
optimizer does with it (vmoe/train/optimizer.py:90-139).
-/

namespace Verif.MoeBlock

open Verif Verif.Moe Verif.Spec Verif.Aux Verif.Soft

variable {B T H O E : Nat}

/-- Expert `e` keeps no token of any group of the batch. -/
def Idle (hE : 0 < E) (cfg : RouterConfig) (S cap : Nat) (kernel : Fin H → Fin E → ℝ) (z : Nat → Nat → Nat → ℝ)
    (x : Fin B → Fin T → Fin H → ℝ) (e : Fin E) : Prop :=
  ∀ g < B * T / S, ∀ s, ¬ Kept hE cfg.dispatcher.batchPriority (tokenGates S kernel (usedStd cfg E) z x g) cfg.numSelected cap s e

/-- C149: the outputs and metrics of the block do not depend on the parameters of the idle experts. -/
theorem C149_idle {P : Type*} (fl : ℚ → ℚ) (cdf bf : ℝ → ℝ) (cfg : RouterConfig) (S : Nat) (kernel : Fin H → Fin E → ℝ)
    (z : Nat → Nat → Nat → ℝ) (oob : Fin O → ℝ) (params params' : Fin E → P) (mlp : P → (Fin H → ℝ) → Fin O → ℝ)
    (x : Fin B → Fin T → Fin H → ℝ) (hE : 0 < E) (cap : Nat)
    (hcap : resolveCapacity fl (S * cfg.numSelected) E cfg.dispatcher.capacity
      cfg.dispatcher.capacityFactor cfg.dispatcher.ceilOrRound cfg.dispatcher.multipleOf = .ok cap)
    (h : ∀ e, params e = params' e ∨ Idle hE cfg S cap kernel z x e) :
    mlpMoeBlock fl cdf bf cfg S kernel z oob params mlp x = mlpMoeBlock fl cdf bf cfg S kernel z oob params' mlp x := by
  have herr := C72_block_errors fl cdf bf cfg S kernel z oob params mlp x
  have herr' := C72_block_errors fl cdf bf cfg S kernel z oob params' mlp x
  simp only at herr herr'
  by_cases hd : 0 < S ∧ S ∣ B * T
  swap
  · rw [herr.1 hd, herr'.1 hd]
  by_cases hk : 1 ≤ cfg.numSelected ∧ cfg.numSelected ≤ E
  swap
  · rw [herr.2.1 hd hk, herr'.2.1 hd hk]
  by_cases hname : cfg.dispatcher.name = "einsum" ∨ cfg.dispatcher.name = "indices"
  swap
  · have hname' : cfg.dispatcher.name ≠ "einsum" ∧ cfg.dispatcher.name ≠ "indices" := by tauto
    rw [((herr.2.2 hd hk).2 cap hcap).1 hname', ((herr'.2.2 hd hk).2 cap hcap).1 hname']
  obtain ⟨hS, hdiv⟩ := hd
  obtain ⟨h0, hK⟩ := hk
  obtain ⟨m, hm⟩ := gates_eq cdf cfg kernel z (fun (g : Fin (B * T / S)) (s : Fin S) => tokenOf x (g * S + s)) h0 hK
  obtain ⟨d, hd, hl⟩ := applyLayer_eq hE fl bf cfg (fun (g : Fin (B * T / S)) (s : Fin S) =>
    expWeights (fun e => (∑ h, tokenOf x (g * S + s) h * kernel h e) + usedStd cfg E * z g s e))
    cfg.dispatcher.bfloat16 oob params mlp (fun g s => tokenOf x (g * S + s)) cap hcap hname h0 hK
  obtain ⟨d', hd', hl'⟩ := applyLayer_eq hE fl bf cfg (fun (g : Fin (B * T / S)) (s : Fin S) =>
    expWeights (fun e => (∑ h, tokenOf x (g * S + s) h * kernel h e) + usedStd cfg E * z g s e))
    cfg.dispatcher.bfloat16 oob params' mlp (fun g s => tokenOf x (g * S + s)) cap hcap hname h0 hK
  have hdd : d' = d := Except.ok.inj (hd'.symm.trans hd)
  subst hdd
  have hsame : applyLayer bf cfg.dispatcher.bfloat16 oob params mlp d' (fun (g : Fin (B * T / S)) (s : Fin S) => tokenOf x (g * S + s)) =
      applyLayer bf cfg.dispatcher.bfloat16 oob params' mlp d' (fun (g : Fin (B * T / S)) (s : Fin S) => tokenOf x (g * S + s)) := by
    funext g s
    rw [hl, hl']
    refine Finset.sum_congr rfl fun e he => ?_
    rcases h e with h | h
    · rw [h]
    · exact absurd (Finset.mem_filter.1 he).2 (h g g.2 s)
  unfold mlpMoeBlock
  rw [regroup_eq x S hS hdiv]
  simp only [hm, hd, hsame]

/-- C149: so whatever the rest of the network and the loss are, the derivative in the parameters of an idle expert is zero, even if the
expert itself has no derivative. -/
theorem C149_no_gradient {P : Type*} [NormedAddCommGroup P] [NormedSpace ℝ P] (fl : ℚ → ℚ) (cdf bf : ℝ → ℝ) (cfg : RouterConfig) (S : Nat)
    (kernel : Fin H → Fin E → ℝ) (z : Nat → Nat → Nat → ℝ) (oob : Fin O → ℝ) (params : Fin E → P) (mlp : P → (Fin H → ℝ) → Fin O → ℝ)
    (x : Fin B → Fin T → Fin H → ℝ) (hE : 0 < E) (cap : Nat)
    (hcap : resolveCapacity fl (S * cfg.numSelected) E cfg.dispatcher.capacity
      cfg.dispatcher.capacityFactor cfg.dispatcher.ceilOrRound cfg.dispatcher.multipleOf = .ok cap)
    (e : Fin E) (he : Idle hE cfg S cap kernel z x e)
    (loss : Except PyErr ((Fin B → Fin T → Fin O → ℝ) × Metrics (B * T / S)) → ℝ) (p : P) :
    HasFDerivAt (fun p => loss (mlpMoeBlock fl cdf bf cfg S kernel z oob (Function.update params e p) mlp x)) (0 : P →L[ℝ] ℝ) p := by
  have : (fun p => loss (mlpMoeBlock fl cdf bf cfg S kernel z oob (Function.update params e p) mlp x)) =
      fun _ => loss (mlpMoeBlock fl cdf bf cfg S kernel z oob params mlp x) := by
    funext q
    rw [C149_idle fl cdf bf cfg S kernel z oob (Function.update params e q) params mlp x hE cap hcap]
    intro e'
    by_cases h : e' = e
    · exact Or.inr (h ▸ he)
    · exact Or.inl (Function.update_of_ne h _ _)
  rw [this]
  exact hasFDerivAt_const _ _

/-- C149: and without rounding to bfloat16, the output of a token changes with the parameters of the experts that keep it, in proportion
to its gates for them. -/
theorem C149_gradient {P : Type*} [NormedAddCommGroup P] [NormedSpace ℝ P] (fl : ℚ → ℚ) (cdf bf : ℝ → ℝ) (cfg : RouterConfig) (S : Nat)
    (kernel : Fin H → Fin E → ℝ) (z : Nat → Nat → Nat → ℝ) (oob : Fin O → ℝ) (params : Fin E → P) (mlp : P → (Fin H → ℝ) → Fin O → ℝ)
    (x : Fin B → Fin T → Fin H → ℝ) (hS : 0 < S) (hdiv : S ∣ B * T) (hE : 0 < E) (h0 : 0 < cfg.numSelected) (hK : cfg.numSelected ≤ E)
    (hname : cfg.dispatcher.name = "einsum" ∨ cfg.dispatcher.name = "indices") (hbf : cfg.dispatcher.bfloat16 = false) (cap : Nat)
    (hcap : resolveCapacity fl (S * cfg.numSelected) E cfg.dispatcher.capacity
      cfg.dispatcher.capacityFactor cfg.dispatcher.ceilOrRound cfg.dispatcher.multipleOf = .ok cap)
    (b : Fin B) (t : Fin T) (i : Fin O) (D : Fin E → P →L[ℝ] ℝ)
    (hD : ∀ e, HasFDerivAt (fun p => mlp p (x b t) i) (D e) (params e)) :
    ∃ out : (Fin E → P) → Fin B → Fin T → Fin O → ℝ,
      (∀ params, ∃ m, mlpMoeBlock fl cdf bf cfg S kernel z oob params mlp x = .ok (out params, m)) ∧
      let n := tokenNumber T b t
      let gates := tokenGates S kernel (usedStd cfg E) z x (n / S)
      HasFDerivAt (fun params => out params b t i)
        (∑ e ∈ Finset.univ.filter (fun e => Kept hE cfg.dispatcher.batchPriority gates cfg.numSelected cap ⟨n % S, Nat.mod_lt _ hS⟩ e),
          gates ⟨n % S, Nat.mod_lt _ hS⟩ e • (D e).comp (ContinuousLinearMap.proj e)) params := by
  have h := fun params => C72_block_output fl cdf bf cfg S kernel z oob params mlp x hS hdiv hE h0 hK hname cap hcap
  choose out m hout hval using h
  refine ⟨out, fun p => ⟨m p, hout p⟩, ?_⟩
  intro n gates
  have hval' : (fun params => out params b t i) = fun params => ∑ e ∈ Finset.univ.filter (fun e => Kept hE cfg.dispatcher.batchPriority
      gates cfg.numSelected cap ⟨n % S, Nat.mod_lt _ hS⟩ e), gates ⟨n % S, Nat.mod_lt _ hS⟩ e * mlp (params e) (x b t) i := by
    funext params
    have := hval params b t i
    simp only [hbf, Bool.false_eq_true, if_false] at this
    exact this
  rw [hval']
  refine HasFDerivAt.fun_sum fun e _ => ?_
  refine HasFDerivAt.const_mul ?_ _
  exact HasFDerivAt.comp (g := fun p => mlp p (x b t) i) (f := fun q : Fin E → P => q e) params (hD e) (hasFDerivAt_apply e params)

/-- One token, two experts, one selected: the second expert is idle, because the first has the larger logit. -/
example : let cfg : RouterConfig := ⟨1, 0, 0, 0, 0, ⟨"einsum", true, none, some 1, "ceil", none, false⟩, true⟩
    resolveCapacity id (1 * 1) 2 cfg.dispatcher.capacity cfg.dispatcher.capacityFactor cfg.dispatcher.ceilOrRound
      cfg.dispatcher.multipleOf = .ok 1 ∧
    Idle (B := 1) (T := 1) (H := 1) (E := 2) (by norm_num) cfg 1 1 (fun _ e => if e = 0 then 1 else 0) (fun _ _ _ => 0)
      (fun _ _ _ => 1) 1 := by
  intro cfg
  constructor
  · simp only [cfg, resolveCapacity, computeCapacity]
    norm_num [Except.map]
  · rintro g hg s ⟨hr, -⟩
    have hr' : choiceRank (tokenGates 1 (fun (_ : Fin 1) (e : Fin 2) => if e = 0 then (1 : ℝ) else 0) (usedStd cfg 2)
        (fun _ _ _ => 0) (fun (_ : Fin 1) (_ : Fin 1) (_ : Fin 1) => (1 : ℝ)) g) s 1 < 1 := hr
    rw [Nat.lt_one_iff] at hr'
    unfold choiceRank at hr'
    rw [Finset.card_eq_zero, Finset.filter_eq_empty_iff] at hr'
    obtain rfl : g = 0 := by
      have : 1 * 1 / 1 = 1 := rfl
      omega
    refine hr' (Finset.mem_univ (0 : Fin 2)) (Or.inl ?_)
    unfold tokenGates expWeights
    rw [div_lt_div_iff_of_pos_right (Finset.sum_pos (fun _ _ => Real.exp_pos _) Finset.univ_nonempty), Real.exp_lt_exp]
    obtain rfl : s = 0 := Subsingleton.elim _ _
    simp [tokenOf]

end Verif.MoeBlock

namespace Verif.Adam

open Verif FlatDict Partitioning Optimizer AdamSpec TreeSpec RulesSpec MeshSpec

theorem getD_map_zero (f : ℝ → ℝ) (h : f 0 = 0) (t : Tensor) (i : Nat) (ht : t.getD i 0 = 0) : (t.map f).getD i 0 = 0 := by
  rw [List.getD_eq_getElem?_getD] at ht ⊢
  rw [List.getElem?_map]
  cases hh : t[i]? with
  | none => rfl
  | some v =>
    rw [hh, Option.getD_some] at ht
    rw [Option.map_some, Option.getD_some, ht, h]

/-- Scaling and clipping keep the zeros. -/
theorem zero_kept (search : List Char → Key → Bool) (c : Config) (hav : ∀ m, c.clipAbsolute = some m → 0 < m) (g scaled u : Params)
    (hu : SameShape g u)
    (h1 : ∀ path t k, leafOf g path = some t → FirstRule search c.gradientScale 1 (join path) k → leafOf scaled path = some (t.map (k * ·)))
    (h2 : Clipped c.clipGlobalNorm c.clipAbsolute scaled u) (path : List Key) (i : Nat) (h : entry g path i = 0) : entry u path i = 0 := by
  cases hl : leafOf g path with
  | none =>
    cases hl' : leafOf u path with
    | none => unfold entry; rw [hl']; simp
    | some t =>
      obtain ⟨t', h', _⟩ := hu.symm.leaf path t hl'
      rw [hl] at h'
      cases h'
  | some t =>
    rw [entry_of_leaf hl] at h
    obtain ⟨k, hk⟩ := exists_firstRule search c.gradientScale 1 (join path)
    have hsc := h1 path t k hl hk
    have hz : (t.map (k * ·)).getD i 0 = 0 := getD_map_zero _ (mul_zero k) t i h
    unfold Clipped at h2
    split at h2
    · rw [h2, entry_of_leaf hsc, hz]
    · obtain ⟨_, _, q, _, _, h3⟩ := h2
      rw [entry_of_leaf (h3 path _ hsc)]
      exact getD_map_zero _ (mul_zero q) _ i hz
    · rename_i a _ ha
      have hapos := hav a ha
      rw [entry_of_leaf (h2 path _ hsc)]
      refine getD_map_zero _ ?_ _ i hz
      simp only [min_eq_left hapos.le]
      exact max_eq_right (by linarith)
    · exact h2.elim

theorem direction_zero (b1 b2 eps epsRoot : ℝ) (xs : List ℝ) (h : ∀ x ∈ xs, x = 0) : direction b1 b2 eps epsRoot xs = 0 := by
  have : fading b1 xs = 0 := by
    unfold fading
    refine Finset.sum_eq_zero fun j hj => ?_
    rw [Finset.mem_range] at hj
    rw [List.getD_eq_getElem _ _ hj, h _ (List.getElem_mem hj), mul_zero]
  unfold direction ewma
  rw [this, zero_div, zero_div]

/-- C149, Adam: an entry of the parameters whose gradients were always zero, like those of an expert that was always idle, only
shrinks by the weight decay; without it (or frozen) it stays as it was. -/
theorem C149_adam (search : List Char → Key → Bool) (c : Config) (hav : ∀ m, c.clipAbsolute = some m → 0 < m) (b1 b2 eps epsRoot : ℝ)
    (lr : Schedule.Sched) (p0 p : Params) (gs us : List Params) (h : AdamRun search c b1 b2 eps epsRoot lr p0 gs us p) (path : List Key)
    (t0 : Tensor) (ht : leafOf p0 path = some t0) (i : Nat) (hi : i < t0.length) (hz : ∀ g ∈ gs, entry g path i = 0) (w : ℝ)
    (hw : DecayIs search c.weightDecay (join path) w) :
    (FrozenIs search c.frozenPattern c.trainablePattern (join path) → entry p path i = t0.getD i 0) ∧
    (¬ FrozenIs search c.frozenPattern c.trainablePattern (join path) →
      entry p path i = t0.getD i 0 * ∏ n ∈ Finset.range gs.length, (1 - lr n * w)) := by
  suffices H : (∀ u ∈ us, entry u path i = 0) ∧ ∃ t, leafOf p path = some t ∧ t.length = t0.length ∧
      (FrozenIs search c.frozenPattern c.trainablePattern (join path) → t.getD i 0 = t0.getD i 0) ∧
      (¬ FrozenIs search c.frozenPattern c.trainablePattern (join path) →
        t.getD i 0 = t0.getD i 0 * ∏ n ∈ Finset.range gs.length, (1 - lr n * w)) by
    obtain ⟨_, t, e1, _, e3⟩ := H
    rw [entry_of_leaf e1]
    exact e3
  induction h with
  | start => exact ⟨by simp, t0, ht, rfl, fun _ => rfl, fun _ => by simp⟩
  | step gs us g u q p h1 hs ih =>
    obtain ⟨e0, t, e1, e2, e3, e4⟩ := ih fun g' hg' => hz g' (by simp [hg'])
    obtain ⟨scaled, s1, s2, s3, s4, s5, s6⟩ := hs
    have hu := zero_kept search c hav g scaled u s2 s4 s5 path i (hz g (by simp))
    have hall : ∀ u' ∈ us ++ [u], entry u' path i = 0 := by
      intro u' hu'
      rcases List.mem_append.1 hu' with h | h
      · exact e0 u' h
      · rw [List.mem_singleton.1 h]
        exact hu
    obtain ⟨t', f1, f2, f3, f4⟩ := s6 path t e1
    refine ⟨hall, t', f1, by omega, fun hf => by rw [f3 hf, e3 hf], fun hf => ?_⟩
    rw [f4 hf w hw i (by omega), direction_zero, e4 hf, List.length_append, List.length_singleton, Finset.prod_range_succ]
    · ring
    · intro x hx
      obtain ⟨u', hu', rfl⟩ := List.mem_map.1 hx
      exact hall u' hu'

/-- C149, SGD: the same with any momentum. -/
theorem C149_sgd (search : List Char → Key → Bool) (c : Config) (hav : ∀ m, c.clipAbsolute = some m → 0 < m) (lr : Schedule.Sched)
    (μ : ℝ) (nesterov : Bool) (p0 p m : Params) (gs : List Params) (hgs : ∀ g ∈ gs, SameShape p0 g)
    (h : SgdRun search c lr μ nesterov p0 gs p m) (path : List Key)
    (t0 : Tensor) (ht : leafOf p0 path = some t0) (i : Nat) (hi : i < t0.length) (hz : ∀ g ∈ gs, entry g path i = 0) (w : ℝ)
    (hw : DecayIs search c.weightDecay (join path) w) :
    (FrozenIs search c.frozenPattern c.trainablePattern (join path) → entry p path i = t0.getD i 0) ∧
    (¬ FrozenIs search c.frozenPattern c.trainablePattern (join path) →
      entry p path i = t0.getD i 0 * ∏ n ∈ Finset.range gs.length, (1 - lr n * w)) := by
  suffices H : (∃ tm, leafOf m path = some tm ∧ tm.length = t0.length ∧ tm.getD i 0 = 0) ∧ ∃ t, leafOf p path = some t ∧ t.length = t0.length ∧
      (FrozenIs search c.frozenPattern c.trainablePattern (join path) → t.getD i 0 = t0.getD i 0) ∧
      (¬ FrozenIs search c.frozenPattern c.trainablePattern (join path) →
        t.getD i 0 = t0.getD i 0 * ∏ n ∈ Finset.range gs.length, (1 - lr n * w)) by
    obtain ⟨_, t, e1, _, e3⟩ := H
    rw [entry_of_leaf e1]
    exact e3
  induction h with
  | start m hs hm =>
    obtain ⟨tm, h1, h2⟩ := hs.leaf path t0 ht
    refine ⟨⟨tm, h1, h2.symm, ?_⟩, t0, ht, rfl, fun _ => rfl, fun _ => by simp⟩
    rw [List.getD_eq_getElem _ _ (by omega)]
    exact hm path tm h1 _ (List.getElem_mem _)
  | step gs g q m p m' h1 hs ih =>
    obtain ⟨⟨tm, d1, d2, d3⟩, t, e1, e2, e3, e4⟩ := ih (fun g' hg' => hgs g' (by simp [hg'])) fun g' hg' => hz g' (by simp [hg'])
    obtain ⟨scaled, u, s1, s2, _, _, s4, s5, s6⟩ := hs
    have hu := zero_kept search c hav g scaled u s2 s4 s5 path i (hz g (by simp))
    obtain ⟨tg, g1, g2⟩ := (hgs g (by simp)).leaf path t0 ht
    obtain ⟨tu, u1, u2⟩ := s2.leaf path tg g1
    rw [entry_of_leaf u1] at hu
    obtain ⟨tm', d, r1, r2, r3, r4, r5⟩ := s6 path tu tm t u1 d1 e1
    have hl1 : tm'.length = t0.length := by rw [r1, List.length_zipWith]; omega
    have hm0 : tm'.getD i 0 = 0 := by
      rw [r1, getD_zipWith _ _ _ (by omega) _ (by omega), hu, d3]
      ring
    have hd0 : d.getD i 0 = 0 ∧ d.length = t0.length := by
      rw [r2]
      split
      · rw [getD_zipWith _ _ _ (by omega) _ (by omega), hu, hm0]
        refine ⟨by ring, ?_⟩
        rw [List.length_zipWith]; omega
      · exact ⟨hm0, hl1⟩
    refine ⟨⟨tm', r3, hl1, hm0⟩, ?_⟩
    by_cases hf : FrozenIs search c.frozenPattern c.trainablePattern (join path)
    · exact ⟨t, r4 hf, e2, e3, fun h => absurd hf h⟩
    · refine ⟨_, r5 hf w hw, by rw [List.length_zipWith]; omega, fun h => absurd h hf, fun _ => ?_⟩
      rw [getD_zipWith _ _ _ (by omega) _ (by omega), hd0.1, e4 hf, List.length_append, List.length_singleton, Finset.prod_range_succ]
      ring

/-- C149: but an expert that was used before is moved by Adam while it is idle: after a gradient that is not zero, the entry
also changes with a zero gradient (without weight decay, scaling and clipping, and with a learning rate). -/
theorem C149_adam_moves (search : List Char → Key → Bool) (c : Config) (hs : c.gradientScale = []) (hgn : c.clipGlobalNorm = none)
    (hav : c.clipAbsolute = none) (b1 b2 eps epsRoot : ℝ) (hb1 : 0 < b1) (heps : 0 < eps) (lr : Schedule.Sched)
    (hlr : lr 1 ≠ 0) (p0 p1 p2 g1 g2 u1 u2 : Params) (h1 : AdamStep search c b1 b2 eps epsRoot lr 0 [] g1 u1 p0 p1)
    (h2 : AdamStep search c b1 b2 eps epsRoot lr 1 [u1] g2 u2 p1 p2) (path : List Key) (t0 : Tensor) (ht : leafOf p0 path = some t0)
    (i : Nat) (hi : i < t0.length) (hx : entry g1 path i ≠ 0) (hz : entry g2 path i = 0)
    (hw : DecayIs search c.weightDecay (join path) 0) (hf : ¬ FrozenIs search c.frozenPattern c.trainablePattern (join path)) :
    entry p2 path i ≠ entry p1 path i := by
  have hsame : ∀ g scaled u : Params, SameShape g scaled → SameShape g u →
      (∀ path t k, leafOf g path = some t → FirstRule search c.gradientScale 1 (join path) k → leafOf scaled path = some (t.map (k * ·))) →
      Clipped c.clipGlobalNorm c.clipAbsolute scaled u → entry u path i = entry g path i := by
    intro g scaled u q1 q2 q3 q4
    rw [hgn, hav] at q4
    have q5 : u = scaled := q4
    rw [q5]
    cases hl : leafOf g path with
    | none =>
      cases hl' : leafOf scaled path with
      | none => unfold entry; rw [hl, hl']
      | some t =>
        obtain ⟨t', h', _⟩ := q1.symm.leaf path t hl'
        rw [hl] at h'
        cases h'
    | some t =>
      rw [entry_of_leaf hl, entry_of_leaf (q3 path t 1 hl (by
        rw [hs]
        exact Or.inr ⟨by simp, rfl⟩))]
      simp
  obtain ⟨sc1, a1, a2, _, a4, a5, a6⟩ := h1
  obtain ⟨sc2, c1, c2, _, c4, c5, c6⟩ := h2
  have e1 := hsame g1 sc1 u1 a1 a2 a4 a5
  have e2 := hsame g2 sc2 u2 c1 c2 c4 c5
  obtain ⟨t1, f1, f2, _, _⟩ := a6 path t0 ht
  obtain ⟨t2, k1, k2, _, k4⟩ := c6 path t1 f1
  rw [entry_of_leaf k1, entry_of_leaf f1, k4 hf 0 hw i (by omega)]
  have hlist : (([u1] ++ [u2]).map fun u => entry u path i) = [entry g1 path i, 0] := by simp [e1, e2, hz]
  rw [hlist]
  have hpos : 0 < Real.sqrt (ewma b2 ([entry g1 path i, 0].map (· ^ 2)) + epsRoot) + eps :=
    add_pos_of_nonneg_of_pos (Real.sqrt_nonneg _) heps
  have hew : ewma b1 [entry g1 path i, 0] ≠ 0 := by
    unfold ewma fading
    simp only [List.length_cons, List.length_nil, Finset.sum_range_succ, Finset.sum_range_zero]
    simp
    exact ⟨⟨hb1.ne', hx⟩, by positivity⟩
  have hdir : direction b1 b2 eps epsRoot [entry g1 path i, 0] ≠ 0 := div_ne_zero hew hpos.ne'
  intro h
  have : ((1 : ℕ) : ℝ) = 1 := Nat.cast_one
  have h3 : lr ((1 : ℕ)) * direction b1 b2 eps epsRoot [entry g1 path i, 0] = 0 := by linarith
  rcases mul_eq_zero.1 h3 with h4 | h4
  · exact hlr (by simpa using h4)
  · exact hdir h4

/-- Training with zero gradients for an array: with the configuration of V-MoE-H/14 the array only decays. -/
example (search : List Char → Key → Bool) (lr : Schedule.Sched)
    (hlr : Schedule.createLearningRateSchedule exampleConfig.learningRate exampleConfig.totalSteps = .ok lr)
    (grads : List Params) (hl : grads.length < 2 ^ 31) (hg : ∀ g ∈ grads, SameShape exampleParams g)
    (hz : ∀ g ∈ grads, entry g ["body".toList] 0 = 0) :
    ∃ opt os, ∃ s : TrainState opt, createOptimizer (fun r => .ok (search r)) exampleConfig = .ok opt ∧
      train ⟨0, exampleParams, os⟩ grads = .ok s ∧
      entry s.params ["body".toList] 0 = 4 * ∏ n ∈ Finset.range grads.length, (1 - lr n * 0.1) := by
  obtain ⟨opt, ho⟩ : ∃ opt, createOptimizer (fun r => .ok (search r)) exampleConfig = .ok opt := by
    unfold createOptimizer gradientScaling gradientClipping addDecayedWeights learningRateGT freezeWeights
    norm_num [exampleConfig, truthy, baseGT, Schedule.createLearningRateSchedule, falsy, bind, Except.bind, pure, Except.pure]
  obtain ⟨os, _, h⟩ := C138_adam _ search (fun _ => rfl) exampleConfig {} rfl (by norm_num) (by norm_num)
    (by intro m h; cases h; norm_num) (by intro m h; cases h) lr hlr opt ho exampleParams exampleParams_ok.1 exampleParams_ok.2
  obtain ⟨s, us, e1, _, _, e4⟩ := h grads hl hg
  have hlf : leafOf exampleParams ["body".toList] = some [4] := by simp [leafOf, leafAt, lookup, exampleParams]
  have := (C149_adam search exampleConfig (by intro m h; cases h) _ _ _ _ lr exampleParams s.params grads us e4 ["body".toList] [4] hlf 0
    (by simp) hz 0.1 rfl).2 (by simp [FrozenIs, exampleConfig, falsy])
  exact ⟨opt, os, s, ho, e1, by simpa using this⟩

/-- The gradients 1 and then 0 of that array. -/
example : entry [("body".toList, .leaf [1])] ["body".toList] 0 ≠ 0 ∧ entry [("body".toList, .leaf [0])] ["body".toList] 0 = 0 ∧
    direction 0.9 0.999 1 0 [1, 0] ≠ 0 := by
  refine ⟨by simp [entry, leafOf, leafAt, lookup], by simp [entry, leafOf, leafAt, lookup], ?_⟩
  norm_num [direction, ewma, fading, Finset.sum_range_succ]
  positivity

end Verif.Adam
