import Verif.Props.ModelGradient
import Verif.Props.Adam

/-!
C167: the updates of the optimizer lower the total loss of the batch they were computed from, if the learning rate is small.
-/

namespace Verif.Downhill

open Verif FlatDict Optimizer AdamSpec TreeSpec RulesSpec Verif.Adam
open scoped Topology

variable {ι Θ : Type} [Fintype ι] [NormedAddCommGroup Θ] [NormedSpace ℝ Θ]

/-- The parameters of the loss are the entries of a tree: parameter `k` is the entry `(loc k).2` of the array at `(loc k).1`. -/
def Holds (b : Module.Basis ι ℝ Θ) (loc : ι → List Key × Nat) (p : Params) (θ : Θ) : Prop :=
  ∀ k, ∃ t, leafOf p (loc k).1 = some t ∧ (loc k).2 < t.length ∧ t.getD (loc k).2 0 = b.repr θ k

/-- The entries of the tree are the partial derivatives. -/
def IsGradient (b : Module.Basis ι ℝ Θ) (loc : ι → List Key × Nat) (g : Params) (G : Θ →L[ℝ] ℝ) : Prop :=
  ∀ k, ∃ x, leafOf g (loc k).1 = some x ∧ (loc k).2 < x.length ∧ x.getD (loc k).2 0 = G (b k)

/-- Some parameter that is not frozen has a derivative other than zero. -/
def Moves (search : List Char → Key → Bool) (c : Config) (b : Module.Basis ι ℝ Θ) (loc : ι → List Key × Nat) (G : Θ →L[ℝ] ℝ) :
    Prop :=
  ∃ k, ¬ FrozenIs search c.frozenPattern c.trainablePattern (join (loc k).1) ∧ G (b k) ≠ 0

/-! ### Directions -/

/-- Along a direction of negative derivative the values are lower. -/
theorem descends {ℓ : Θ → ℝ} {G : Θ →L[ℝ] ℝ} {θ d : Θ} (h : HasFDerivAt ℓ G θ) (hd : G d < 0) :
    ∃ ε : ℝ, 0 < ε ∧ ∀ η : ℝ, 0 < η → η < ε → ℓ (θ + η • d) < ℓ θ := by
  have hl : HasDerivAt (fun η : ℝ => ℓ (θ + η • d)) (G d) 0 := by
    have h1 : HasDerivAt (fun η : ℝ => θ + η • d) d 0 := by
      simpa using ((hasDerivAt_id (0 : ℝ)).smul_const d).const_add θ
    have h2 : HasFDerivAt ℓ G (θ + (0 : ℝ) • d) := by simpa using h
    exact h2.comp_hasDerivAt 0 h1
  have h4 : ∀ᶠ η in 𝓝[>] (0 : ℝ), η⁻¹ • (ℓ (θ + (0 + η) • d) - ℓ (θ + (0 : ℝ) • d)) < 0 :=
    hl.tendsto_slope_zero_right.eventually_lt_const hd
  obtain ⟨ε, hε, h5⟩ := mem_nhdsGT_iff_exists_Ioo_subset.1 h4
  refine ⟨ε, hε, fun η h0 h1 => ?_⟩
  have h6 : η⁻¹ • (ℓ (θ + (0 + η) • d) - ℓ (θ + (0 : ℝ) • d)) < 0 := h5 ⟨h0, h1⟩
  rw [zero_add, zero_smul, add_zero, smul_eq_mul] at h6
  have := neg_of_mul_neg_right h6 (inv_pos.2 h0).le
  linarith

/-- The vector with these coordinates. -/
noncomputable def vec (b : Module.Basis ι ℝ Θ) (w : ι → ℝ) : Θ := ∑ k, w k • b k

theorem repr_vec (b : Module.Basis ι ℝ Θ) (w : ι → ℝ) (k : ι) : b.repr (vec b w) k = w k := by
  rw [vec, b.repr_sum_self]

theorem apply_vec (b : Module.Basis ι ℝ Θ) (w : ι → ℝ) (G : Θ →L[ℝ] ℝ) : G (vec b w) = ∑ k, w k * G (b k) := by
  rw [vec, map_sum]
  exact Finset.sum_congr rfl fun k _ => by rw [map_smul, smul_eq_mul]

/-- A direction against the sign of every derivative, or zero where the parameter is frozen. -/
theorem apply_neg (b : Module.Basis ι ℝ Θ) (w : ι → ℝ) (G : Θ →L[ℝ] ℝ) (h : ∀ k, w k = 0 ∨ w k * G (b k) < 0 ∨ G (b k) = 0)
    (hk : ∃ k, w k * G (b k) < 0) : G (vec b w) < 0 := by
  rw [apply_vec]
  obtain ⟨k, hk⟩ := hk
  refine Finset.sum_neg' (fun j _ => ?_) ⟨k, Finset.mem_univ k, hk⟩
  rcases h j with h | h | h
  · rw [h, zero_mul]
  · exact h.le
  · rw [h, mul_zero]

/-! ### Scaling and clipping -/

theorem rule_pos {search : List Char → Key → Bool} {l : List (List Char × ℝ)} (hpos : ∀ r ∈ l, 0 < r.2) {name : Key} {k : ℝ}
    (h : FirstRule search l 1 name k) : 0 < k := by
  rcases h with ⟨pre, q, post, rfl, -, -⟩ | ⟨-, rfl⟩
  · exact hpos (q, k) (by simp)
  · exact one_pos

/-- An entry cut off at plus and minus the bound. -/
noncomputable def cut : Option ℝ → ℝ → ℝ
  | none, x => x
  | some a, x => max (-a) (min x a)

theorem cut_sign (o : Option ℝ) (ho : ∀ a, o = some a → 0 < a) (x : ℝ) : (0 < x → 0 < cut o x) ∧ (x < 0 → cut o x < 0) ∧ cut o 0 = 0 := by
  cases o with
  | none => exact ⟨id, id, rfl⟩
  | some a =>
    have ha := ho a rfl
    refine ⟨fun h => lt_max_of_lt_right (lt_min h ha), fun h => max_lt (by linarith) (min_lt_of_left_lt h), ?_⟩
    show max (-a) (min 0 a) = 0
    rw [min_eq_left ha.le, max_eq_right (by linarith)]

/-- The scaled and clipped updates, entry by entry, up to a factor of all of them. -/
theorem clipped_entries {search : List Char → Key → Bool} {c : Config} {g scaled u : Params}
    (hs : ∀ path t k, leafOf g path = some t → FirstRule search c.gradientScale 1 (join path) k →
      leafOf scaled path = some (t.map (k * ·))) (hu : Clipped c.clipGlobalNorm c.clipAbsolute scaled u) :
    ∃ κ : ℝ, 0 < κ ∧ κ ≤ 1 ∧ ∀ path t k, leafOf g path = some t → FirstRule search c.gradientScale 1 (join path) k →
      leafOf u path = some (t.map fun x => κ * cut c.clipAbsolute (k * x)) := by
  unfold Clipped at hu
  split at hu
  · rename_i h2
    subst hu
    refine ⟨1, one_pos, le_rfl, fun path t k h h' => ?_⟩
    rw [hs path t k h h', h2]
    simp [cut]
  · rename_i h2
    obtain ⟨-, -, κ, h0, h1, hu⟩ := hu
    refine ⟨κ, h0, h1, fun path t k h h' => ?_⟩
    rw [hu _ _ (hs path t k h h'), h2, List.map_map]
    rfl
  · rename_i a _ h2
    refine ⟨1, one_pos, le_rfl, fun path t k h h' => ?_⟩
    rw [hu _ _ (hs path t k h h'), h2, List.map_map]
    congr 2
    funext x
    simp [cut]
  · cases hu

/-! ### SGD -/

open Classical in
/-- The direction of the updates of SGD: against the scaled gradients, cut off, and zero for what is frozen. -/
noncomputable def sgdWay (search : List Char → Key → Bool) (c : Config) (b : Module.Basis ι ℝ Θ) (loc : ι → List Key × Nat)
    (G : Θ →L[ℝ] ℝ) (k : ι) : ℝ :=
  if FrozenIs search c.frozenPattern c.trainablePattern (join (loc k).1) then 0
  else - cut c.clipAbsolute ((exists_firstRule search c.gradientScale 1 (join (loc k).1)).choose * G (b k))

theorem sgdWay_neg {search : List Char → Key → Bool} {c : Config} (hpos : ∀ r ∈ c.gradientScale, 0 < r.2)
    (hav : ∀ m, c.clipAbsolute = some m → 0 < m) {b : Module.Basis ι ℝ Θ} {loc : ι → List Key × Nat} {G : Θ →L[ℝ] ℝ}
    (hm : Moves search c b loc G) : G (vec b (sgdWay search c b loc G)) < 0 := by
  have key : ∀ k, ¬ FrozenIs search c.frozenPattern c.trainablePattern (join (loc k).1) → G (b k) ≠ 0 →
      sgdWay search c b loc G k * G (b k) < 0 := by
    intro k hf h0
    unfold sgdWay
    rw [if_neg hf]
    have h := rule_pos hpos (exists_firstRule search c.gradientScale 1 (join (loc k).1)).choose_spec
    generalize (exists_firstRule search c.gradientScale 1 (join (loc k).1)).choose = s at h
    obtain ⟨h1, h2, -⟩ := cut_sign c.clipAbsolute hav (s * G (b k))
    rcases lt_or_gt_of_ne h0 with h3 | h3
    · have := h2 (mul_neg_of_pos_of_neg h h3)
      nlinarith
    · have := h1 (mul_pos h h3)
      nlinarith
  refine apply_neg b _ G (fun k => ?_) ?_
  · by_cases hf : FrozenIs search c.frozenPattern c.trainablePattern (join (loc k).1)
    · left
      unfold sgdWay
      rw [if_pos hf]
    · by_cases h0 : G (b k) = 0
      · exact .inr (.inr h0)
      · exact .inr (.inl (key k hf h0))
  · obtain ⟨k, hf, h0⟩ := hm
    exact ⟨k, key k hf h0⟩

/-- The parameters after an update of SGD without momentum, or with momentum zero so far. -/
theorem sgd_moves {search : List Char → Key → Bool} {c : Config} (hw : ∀ path, DecayIs search c.weightDecay (join path) 0)
    {lr : Schedule.Sched} {μ : ℝ} (hμ : 0 ≤ μ) {nesterov : Bool} {n : Nat} {g p m p' m' : Params}
    (hm : SameShape g m) (h0 : μ = 0 ∨ ∀ path t, leafOf m path = some t → ∀ x ∈ t, x = 0)
    (h : SgdStep search c lr μ nesterov n g p m p' m') {b : Module.Basis ι ℝ Θ} {loc : ι → List Key × Nat} {θ : Θ}
    (hp : Holds b loc p θ) {G : Θ →L[ℝ] ℝ} (hg : IsGradient b loc g G) :
    ∃ κ : ℝ, 0 < κ ∧ κ ≤ 1 + μ ∧ Holds b loc p' (θ + (lr n * κ) • vec b (sgdWay search c b loc G)) := by
  obtain ⟨scaled, u, s1, s2, s3, s4, hs, hu, h⟩ := h
  obtain ⟨κ, hκ0, hκ1, he⟩ := clipped_entries hs hu
  refine ⟨κ * (if nesterov then 1 + μ else 1), ?_, ?_, ?_⟩
  · split
    · exact mul_pos hκ0 (by linarith)
    · linarith
  · split
    · exact mul_le_of_le_one_left (by linarith) hκ1
    · linarith
  · intro k
    obtain ⟨tp, p1, p2, p3⟩ := hp k
    obtain ⟨x, g1, g2, g3⟩ := hg k
    set path := (loc k).1
    set i := (loc k).2
    obtain ⟨tm, m1, m2⟩ := hm.leaf path x g1
    have e1 := he path x _ g1 (exists_firstRule search c.gradientScale 1 (join path)).choose_spec
    obtain ⟨tm', d, f1, f2, f3, f4, f5⟩ := h path _ tm tp e1 m1 p1
    have hmz : ∀ (i : Nat) (hi : i < tm.length), μ * tm[i] = 0 := by
      intro i hi
      rcases h0 with h0 | h0
      · rw [h0, zero_mul]
      · rw [h0 path tm m1 _ (List.getElem_mem hi), mul_zero]
    rw [map_add, map_smul, Finsupp.add_apply, Finsupp.smul_apply, repr_vec, smul_eq_mul, ← p3]
    by_cases hf : FrozenIs search c.frozenPattern c.trainablePattern (join path)
    · refine ⟨tp, f4 hf, p2, ?_⟩
      unfold sgdWay
      rw [if_pos hf, mul_zero, add_zero]
    · have hl : tm'.length = x.length := by rw [f1]; simp [m2]
      have hi1 : i < tm'.length := by omega
      have hd : d.length = x.length := by
        rw [f2]
        split
        · simp [hl]
        · exact hl
      refine ⟨_, f5 hf 0 (hw path), by simp only [List.length_zipWith]; omega, ?_⟩
      have hme : tm'[i] = κ * cut c.clipAbsolute ((exists_firstRule search c.gradientScale 1 (join path)).choose * G (b k)) := by
        rw [← g3, List.getD_eq_getElem _ _ g2]
        simp only [f1, List.getElem_zipWith, List.getElem_map]
        rw [hmz, add_zero]
      have hde : d.getD i 0 = (if nesterov then 1 + μ else 1) * tm'[i] := by
        rw [List.getD_eq_getElem _ _ (by omega)]
        cases nesterov with
        | false => simp only [f2, Bool.false_eq_true, if_false, one_mul]
        | true =>
          simp only [f2, if_true, List.getElem_zipWith, List.getElem_map]
          rw [hme, ← g3, List.getD_eq_getElem _ _ g2]
          ring
      rw [List.getD_eq_getElem _ _ (by simp only [List.length_zipWith]; omega), List.getElem_zipWith,
        ← List.getD_eq_getElem tp 0, ← List.getD_eq_getElem d 0, hde, hme]
      unfold sgdWay
      rw [if_neg hf]
      ring

/-- C167, updates of SGD.  An update of SGD without weight decay, at any step without momentum, or with momentum that is still zero, lowers the
loss its gradients come from, if the learning rate is positive and small enough, unless the derivatives of everything that is not
frozen are zero. -/
theorem C167_sgd_step (search : List Char → Key → Bool) (c : Config) (hpos : ∀ r ∈ c.gradientScale, 0 < r.2)
    (hav : ∀ m, c.clipAbsolute = some m → 0 < m) (hw : ∀ path, DecayIs search c.weightDecay (join path) 0) (μ : ℝ) (hμ : 0 ≤ μ)
    (nesterov : Bool) (b : Module.Basis ι ℝ Θ) (loc : ι → List Key × Nat) (ℓ : Θ → ℝ) (θ : Θ) (G : Θ →L[ℝ] ℝ)
    (hℓ : HasFDerivAt ℓ G θ) (p g : Params) (hp : Holds b loc p θ) (hg : IsGradient b loc g G) (hm : Moves search c b loc G) :
    ∃ ε : ℝ, 0 < ε ∧ ∀ (lr : Schedule.Sched) (n : Nat) (m p' m' : Params), 0 < lr n → lr n < ε → SameShape g m →
      (μ = 0 ∨ ∀ path t, leafOf m path = some t → ∀ x ∈ t, x = 0) → SgdStep search c lr μ nesterov n g p m p' m' →
      ∃ θ', Holds b loc p' θ' ∧ ℓ θ' < ℓ θ := by
  obtain ⟨ε, h0, h⟩ := descends hℓ (sgdWay_neg hpos hav hm)
  refine ⟨ε / (1 + μ), by positivity, ?_⟩
  intro lr n m p' m' l0 l1 hgm hz hs
  obtain ⟨κ, k0, k1, hh⟩ := sgd_moves hw hμ hgm hz hs hp hg
  refine ⟨_, hh, h _ (mul_pos l0 k0) ?_⟩
  rw [lt_div_iff₀ (by linarith)] at l1
  exact lt_of_le_of_lt (mul_le_mul_of_nonneg_left k1 l0.le) l1

/-! ### Adam -/

open Classical in
/-- The direction of the first update of Adam. -/
noncomputable def adamWay (search : List Char → Key → Bool) (c : Config) (eps epsRoot : ℝ) (loc : ι → List Key × Nat) (u : Params)
    (k : ι) : ℝ :=
  if FrozenIs search c.frozenPattern c.trainablePattern (join (loc k).1) then 0
  else - (entry u (loc k).1 (loc k).2 / (Real.sqrt (entry u (loc k).1 (loc k).2 ^ 2 + epsRoot) + eps))

/-- C167, first update of Adam.  It points downhill for the loss its gradients come from, and lowers it if the learning rate is small
enough, unless the derivatives of everything that is not frozen are zero. -/
theorem C167_adam_step (search : List Char → Key → Bool) (c : Config) (hpos : ∀ r ∈ c.gradientScale, 0 < r.2)
    (hav : ∀ m, c.clipAbsolute = some m → 0 < m) (hw : ∀ path, DecayIs search c.weightDecay (join path) 0)
    (b1 b2 eps epsRoot : ℝ) (he : 0 < eps) (b : Module.Basis ι ℝ Θ) (loc : ι → List Key × Nat) (ℓ : Θ → ℝ)
    (θ : Θ) (G : Θ →L[ℝ] ℝ) (hℓ : HasFDerivAt ℓ G θ) (p g u : Params) (hp : Holds b loc p θ) (hg : IsGradient b loc g G)
    (hm : Moves search c b loc G) :
    ∃ ε : ℝ, 0 < ε ∧ ∀ (lr : Schedule.Sched) (p' : Params), 0 < lr 0 → AdamStep search c b1 b2 eps epsRoot lr 0 [] g u p p' →
      ∃ θ', Holds b loc p' θ' ∧ G (θ' - θ) < 0 ∧ (lr 0 < ε → ℓ θ' < ℓ θ) := by
  by_cases hex : ∃ scaled, (∀ path t k, leafOf g path = some t → FirstRule search c.gradientScale 1 (join path) k →
      leafOf scaled path = some (t.map (k * ·))) ∧ Clipped c.clipGlobalNorm c.clipAbsolute scaled u
  swap
  · refine ⟨1, one_pos, fun lr p' _ h => ?_⟩
    obtain ⟨scaled, _, _, _, hs, hu, _⟩ := h
    exact absurd ⟨scaled, hs, hu⟩ hex
  obtain ⟨scaled, hs, hu⟩ := hex
  obtain ⟨κ, hκ0, -, hcl⟩ := clipped_entries hs hu
  have hneg : G (vec b (adamWay search c eps epsRoot loc u)) < 0 := by
    have key : ∀ k, ¬ FrozenIs search c.frozenPattern c.trainablePattern (join (loc k).1) → G (b k) ≠ 0 →
        adamWay search c eps epsRoot loc u k * G (b k) < 0 := by
      intro k hf h0
      obtain ⟨x, g1, g2, g3⟩ := hg k
      obtain ⟨s, hs1⟩ := exists_firstRule search c.gradientScale 1 (join (loc k).1)
      have hs0 := rule_pos hpos hs1
      have hue : entry u (loc k).1 (loc k).2 = κ * cut c.clipAbsolute (s * G (b k)) := by
        rw [entry_of_leaf (hcl _ x s g1 hs1), List.getD_eq_getElem _ _ (by simpa using g2), List.getElem_map, ← g3,
          List.getD_eq_getElem _ _ g2]
      unfold adamWay
      rw [if_neg hf, hue]
      obtain ⟨h1, h2, -⟩ := cut_sign c.clipAbsolute hav (s * G (b k))
      generalize cut c.clipAbsolute (s * G (b k)) = y at h1 h2
      have hden : 0 < Real.sqrt ((κ * y) ^ 2 + epsRoot) + eps := by positivity
      generalize Real.sqrt ((κ * y) ^ 2 + epsRoot) + eps = D at hden
      rw [neg_mul, neg_lt_zero, div_mul_eq_mul_div]
      refine div_pos ?_ hden
      rcases lt_or_gt_of_ne h0 with h3 | h3
      · have := h2 (mul_neg_of_pos_of_neg hs0 h3)
        exact mul_pos_of_neg_of_neg (mul_neg_of_pos_of_neg hκ0 this) h3
      · exact mul_pos (mul_pos hκ0 (h1 (mul_pos hs0 h3))) h3
    refine apply_neg b _ G (fun k => ?_) ?_
    · by_cases hf : FrozenIs search c.frozenPattern c.trainablePattern (join (loc k).1)
      · left
        unfold adamWay
        rw [if_pos hf]
      · by_cases h0 : G (b k) = 0
        · exact .inr (.inr h0)
        · exact .inr (.inl (key k hf h0))
    · obtain ⟨k, hf, h0⟩ := hm
      exact ⟨k, key k hf h0⟩
  obtain ⟨ε, h0, h⟩ := descends hℓ hneg
  refine ⟨ε, h0, fun lr p' l0 hstep => ⟨θ + lr 0 • vec b (adamWay search c eps epsRoot loc u), ?_, ?_, h _ l0⟩⟩
  · intro k
    obtain ⟨t, p1, p2, p3⟩ := hp k
    obtain ⟨x, g1, g2, g3⟩ := hg k
    obtain ⟨s, hs1⟩ := exists_firstRule search c.gradientScale 1 (join (loc k).1)
    have hu1 := hcl _ x s g1 hs1
    obtain ⟨t', q1, q2, q3, -⟩ := hstep.choose_spec.2.2.2.2.2 (loc k).1 t p1
    refine ⟨t', q1, by omega, ?_⟩
    rw [map_add, map_smul, Finsupp.add_apply, Finsupp.smul_apply, repr_vec, smul_eq_mul, ← p3]
    unfold adamWay
    by_cases hf : FrozenIs search c.frozenPattern c.trainablePattern (join (loc k).1)
    · rw [q3 hf, if_pos hf, mul_zero, add_zero]
    · rw [if_neg hf, C138_first search c b1 b2 eps epsRoot lr g u p p' hstep _ t t' _ p1 q1 hu1 hf 0 (hw _) _ p2, entry_of_leaf hu1]
      ring
  · rw [add_sub_cancel_left, map_smul, smul_eq_mul]
    exact mul_neg_of_pos_of_neg l0 hneg

/-! ### Training -/

/-- C167, SGD.  Training starts with an update that lowers the loss the gradients come from, for every learning rate schedule that
starts low enough, with or without momentum. -/
theorem C167_sgd (compile : List Char → Except PyErr (Key → Bool)) (search : List Char → Key → Bool)
    (hc : ∀ r, compile r = .ok (search r)) (c : Config) (μ : Option ℝ) (hμ : ∀ x, μ = some x → 0 ≤ x) (nesterov : Bool)
    (hb : c.base = .sgd μ nesterov) (hpos : ∀ r ∈ c.gradientScale, 0 < r.2) (hgn : ∀ m, c.clipGlobalNorm = some m → 0 < m)
    (hav : ∀ m, c.clipAbsolute = some m → 0 < m) (hw : ∀ path, DecayIs search c.weightDecay (join path) 0)
    (b : Module.Basis ι ℝ Θ) (loc : ι → List Key × Nat) (ℓ : Θ → ℝ) (θ : Θ) (G : Θ →L[ℝ] ℝ) (hℓ : HasFDerivAt ℓ G θ)
    (p g : Params) (hp : ItemsOk p) (hn : NoEmptyItems p) (hs : SameShape p g) (hh : Holds b loc p θ) (hg : IsGradient b loc g G)
    (hm : Moves search c b loc G) :
    ∃ ε : ℝ, 0 < ε ∧ ∀ (rate : Schedule.Kind) (lr : Schedule.Sched) (opt : GT),
      Schedule.createLearningRateSchedule rate c.totalSteps = .ok lr → 0 < lr 0 → lr 0 < ε →
      createOptimizer compile { c with learningRate := rate } = .ok opt →
      ∃ os s θ', opt.init p = .ok os ∧ train ⟨0, p, os⟩ [g] = .ok s ∧ Holds b loc s.params θ' ∧ ℓ θ' < ℓ θ := by
  have hμ' : 0 ≤ μ.getD 0 := by
    cases μ with
    | none => exact le_rfl
    | some x => exact hμ x rfl
  obtain ⟨ε, h0, h⟩ := C167_sgd_step search c hpos hav hw (μ.getD 0) hμ' nesterov b loc ℓ θ G hℓ p g hh hg hm
  refine ⟨ε, h0, fun rate lr opt hlr l0 l1 hopt => ?_⟩
  obtain ⟨os, e1, e2⟩ := C88_sgd compile search hc { c with learningRate := rate } μ nesterov hb hgn hav lr hlr opt hopt p hp hn
  obtain ⟨s, m, e3, -, -, -, e4⟩ := e2 [g] (by simpa using hs)
  generalize hl : [g] = l at e4
  cases e4 with
  | start => cases hl
  | step gs g' q m0 _ _ hr hst =>
    obtain ⟨rfl, hg'⟩ := List.append_inj' (s₁ := []) (t₁ := [g]) hl rfl
    cases hg'
    generalize hl' : ([] : List Params) = l at hr hst
    cases hr with
    | start _ z1 z2 =>
      obtain ⟨θ', h1, h2⟩ := h lr 0 m0 s.params m l0 l1 (hs.symm.trans z1) (.inr z2) hst
      exact ⟨os, s, θ', e1, e3, h1, h2⟩
    | step => simp at hl'

/-- C167, Adam.  Training starts with an update in a direction of falling loss: between the old parameters and the new ones, near
the old ones, the loss the gradients come from is lower. -/
theorem C167_adam (compile : List Char → Except PyErr (Key → Bool)) (search : List Char → Key → Bool)
    (hc : ∀ r, compile r = .ok (search r)) (c : Config) (a : Adam.Args) (hb : c.base = .other (Adam.scaleByAdam a))
    (hb1 : a.b1 ≠ 1) (hb2 : a.b2 ≠ 1) (he : 0 < a.eps) (hpos : ∀ r ∈ c.gradientScale, 0 < r.2)
    (hgn : ∀ m, c.clipGlobalNorm = some m → 0 < m)
    (hav : ∀ m, c.clipAbsolute = some m → 0 < m) (hw : ∀ path, DecayIs search c.weightDecay (join path) 0)
    (lr : Schedule.Sched) (hlr : Schedule.createLearningRateSchedule c.learningRate c.totalSteps = .ok lr) (hlr0 : 0 < lr 0)
    (opt : GT) (hopt : createOptimizer compile c = .ok opt)
    (b : Module.Basis ι ℝ Θ) (loc : ι → List Key × Nat) (ℓ : Θ → ℝ) (θ : Θ) (G : Θ →L[ℝ] ℝ) (hℓ : HasFDerivAt ℓ G θ)
    (p g : Params) (hp : ItemsOk p) (hn : NoEmptyItems p) (hs : SameShape p g) (hh : Holds b loc p θ) (hg : IsGradient b loc g G)
    (hm : Moves search c b loc G) :
    ∃ os s θ', opt.init p = .ok os ∧ train ⟨0, p, os⟩ [g] = .ok s ∧ Holds b loc s.params θ' ∧ G (θ' - θ) < 0 ∧
      ∃ ε : ℝ, 0 < ε ∧ ∀ η : ℝ, 0 < η → η < ε → ℓ (θ + η • (θ' - θ)) < ℓ θ := by
  obtain ⟨os, e1, e2⟩ := Adam.C138_adam compile search hc c a hb hb1 hb2 hgn hav lr hlr opt hopt p hp hn
  obtain ⟨s, us, e3, -, -, e4⟩ := e2 [g] (by simp) (by simpa using hs)
  generalize hl : [g] = l at e4
  cases e4 with
  | start => cases hl
  | step gs us g' u q _ hr hst =>
    obtain ⟨rfl, hg'⟩ := List.append_inj' (s₁ := []) (t₁ := [g]) hl rfl
    cases hg'
    generalize hl' : ([] : List Params) = l at hr hst
    cases hr with
    | start =>
      obtain ⟨_, _, h⟩ := C167_adam_step search c hpos hav hw a.b1 a.b2 a.eps a.epsRoot he b loc ℓ θ G hℓ p g u hh hg hm
      obtain ⟨θ', h1, h2, -⟩ := h lr s.params hlr0 hst
      exact ⟨os, s, θ', e1, e3, h1, h2, descends hℓ h2⟩
    | step => simp at hl'

section Experts

open ModelGradient ModelLoss Vit

variable {ph pw D c r H W T E : Nat} {P L : Type} [NormedAddCommGroup P] [NormedSpace ℝ P]

/-- C167, models with experts.  The first update of SGD, from the gradients of the total loss of a batch, lowers the total loss of
this batch (with the same noise), for every learning rate schedule that starts low enough, if no gates are tied. -/
theorem C167_experts (F : ModelGradient.Family Θ ph pw D c r T E P) (loss : List ℝ ⊕ Vec r → L → ℝ) (hF : F.Smooth loss)
    (z : Nat → Nat → Nat → Nat → ℝ) (batch : List (Image H W D × L)) (θ : Θ) (v : ℝ)
    (h : totalLoss (F.net θ) loss z batch = .ok v) (ht : NoTiesOn (F.net θ) z (batch.map Prod.fst))
    (compile : List Char → Except PyErr (Key → Bool)) (search : List Char → Key → Bool)
    (hc : ∀ r, compile r = .ok (search r)) (cfg : Config) (μ : Option ℝ) (hμ : ∀ x, μ = some x → 0 ≤ x) (nesterov : Bool)
    (hb : cfg.base = .sgd μ nesterov) (hpos : ∀ r ∈ cfg.gradientScale, 0 < r.2) (hgn : ∀ m, cfg.clipGlobalNorm = some m → 0 < m)
    (hav : ∀ m, cfg.clipAbsolute = some m → 0 < m) (hw : ∀ path, DecayIs search cfg.weightDecay (join path) 0)
    (b : Module.Basis ι ℝ Θ) (loc : ι → List Key × Nat) (p g : Optimizer.Params) (hp : ItemsOk p) (hn : NoEmptyItems p)
    (hs : SameShape p g) (hh : Holds b loc p θ)
    (hg : ∀ ℓ : Θ → ℝ, (∀ θ', totalLoss (F.net θ') loss z batch = .ok (ℓ θ')) → IsGradient b loc g (fderiv ℝ ℓ θ) ∧
      Moves search cfg b loc (fderiv ℝ ℓ θ)) :
    ∃ ε : ℝ, 0 < ε ∧ ∀ (rate : Schedule.Kind) (lr : Schedule.Sched) (opt : GT),
      Schedule.createLearningRateSchedule rate cfg.totalSteps = .ok lr → 0 < lr 0 → lr 0 < ε →
      createOptimizer compile { cfg with learningRate := rate } = .ok opt →
      ∃ os s θ' v', opt.init p = .ok os ∧ train ⟨0, p, os⟩ [g] = .ok s ∧ Holds b loc s.params θ' ∧
        totalLoss (F.net θ') loss z batch = .ok v' ∧ v' < v := by
  obtain ⟨ℓ, h1, h2⟩ := C163_differentiable F loss hF z batch θ v h ht
  have hv : ℓ θ = v := Except.ok.inj ((h1 θ).symm.trans h)
  obtain ⟨hg1, hg2⟩ := hg ℓ h1
  obtain ⟨ε, h0, h3⟩ := C167_sgd compile search hc cfg μ hμ nesterov hb hpos hgn hav hw b loc ℓ θ _ h2.hasFDerivAt p g hp hn hs hh
    hg1 hg2
  refine ⟨ε, h0, fun rate lr opt a1 a2 a3 a4 => ?_⟩
  obtain ⟨os, s, θ', b1, b2, b3, b4⟩ := h3 rate lr opt a1 a2 a3 a4
  exact ⟨os, s, θ', ℓ θ', b1, b2, b3, h1 θ', hv ▸ b4⟩

end Experts

/-! ### Momentum -/

/-- One parameter. -/
def one (x : ℝ) : Params := [("w".toList, .leaf [x])]

theorem one_leaf (x : ℝ) : leafOf (one x) ["w".toList] = some [x] := by
  rfl

theorem one_shape (x y : ℝ) : SameShape (one x) (one y) :=
  SameShape.itemsMap (fun t : Tensor => t.map fun _ => y) (fun t => by simp) (one x)

theorem one_ok (x : ℝ) : ItemsOk (one x) ∧ NoEmptyItems (one x) := by
  constructor
  · simp only [one, ItemsOk, Tree.Ok, PyDict.keys]
    decide
  · simp [one, NoEmptyItems, NoEmpty]

/-- SGD with momentum, at a constant rate, and nothing else. -/
noncomputable def plain (rate : ℝ) : Config where
  base := .sgd (some 0.9) false
  totalSteps := 100
  learningRate := .constant rate
  clipGlobalNorm := none
  clipAbsolute := none
  weightDecay := .none
  frozenPattern := .none
  trainablePattern := .none
  gradientScale := []

theorem plain_frozen (search : List Char → Key → Bool) (rate : ℝ) (name : Key) :
    ¬ FrozenIs search (plain rate).frozenPattern (plain rate).trainablePattern name := by
  simp [FrozenIs, plain, falsy]

theorem plain_created (compile : List Char → Except PyErr (Key → Bool)) (rate : ℝ) :
    ∃ opt, createOptimizer compile (plain rate) = .ok opt := by
  unfold createOptimizer gradientScaling gradientClipping addDecayedWeights learningRateGT freezeWeights
  simp [plain, truthy, baseGT, Schedule.createLearningRateSchedule, falsy, bind, Except.bind, pure, Except.pure]

theorem plain_step {search : List Char → Key → Bool} {rate : ℝ} {n : Nat} {g x m : ℝ} {p0 p' m0 m' : Params}
    (hp : leafOf p0 ["w".toList] = some [x]) (hm : leafOf m0 ["w".toList] = some [m])
    (h : SgdStep search (plain rate) (fun _ => rate) 0.9 false n (one g) p0 m0 p' m') :
    leafOf p' ["w".toList] = some [x - rate * (g + 0.9 * m)] ∧ leafOf m' ["w".toList] = some [g + 0.9 * m] := by
  obtain ⟨scaled, u, -, -, -, -, hs, hu, h⟩ := h
  have h1 := hs ["w".toList] [g] 1 (one_leaf g) (.inr ⟨by simp [plain], rfl⟩)
  have hu' : u = scaled := hu
  rw [hu'] at h
  obtain ⟨tm', d, f1, f2, f3, -, f5⟩ := h _ _ _ _ h1 hm hp
  have h2 := f5 (plain_frozen search rate _) 0 rfl
  rw [h2, f3, f2, f1]
  simp

/-- C167 needs the hypothesis about momentum: the second update of SGD with momentum can raise the loss its gradients come from, at
every learning rate.  The losses of the two batches are `x` and `-x / 10`. -/
theorem C167_momentum_counterexample (compile : List Char → Except PyErr (Key → Bool)) (search : List Char → Key → Bool)
    (hc : ∀ r, compile r = .ok (search r)) (rate x : ℝ) (hr : 0 < rate) : ∃ opt os s₁ s₂ y₁ y₂,
      createOptimizer compile (plain rate) = .ok opt ∧ opt.init (one x) = .ok os ∧
      train ⟨0, one x, os⟩ [one 1] = .ok s₁ ∧ train ⟨0, one x, os⟩ [one 1, one (-0.1)] = .ok s₂ ∧
      leafOf s₁.params ["w".toList] = some [y₁] ∧ leafOf s₂.params ["w".toList] = some [y₂] ∧ -y₁ / 10 < -y₂ / 10 := by
  obtain ⟨opt, hopt⟩ := plain_created compile rate
  have hok := one_ok x
  obtain ⟨os, e1, e2⟩ := C88_sgd compile search hc (plain rate) (some 0.9) false rfl (by simp [plain]) (by simp [plain]) _ rfl opt hopt
    (one x) hok.1 hok.2
  have hsh : ∀ y, SameShape (one x) (one y) := by
    exact fun y => one_shape x y
  obtain ⟨s₁, m₁, a1, -, -, -, a2⟩ := e2 [one 1] (by simpa using hsh 1)
  obtain ⟨s₂, m₂, b1, -, -, -, b2⟩ := e2 [one 1, one (-0.1)] (by simpa using ⟨hsh 1, hsh (-0.1)⟩)
  have first : ∀ q m, SgdRun search (plain rate) (fun _ => rate) 0.9 false (one x) [one 1] q m →
      leafOf q ["w".toList] = some [x - rate] ∧ leafOf m ["w".toList] = some [1] := by
    intro q m h
    generalize hl : [one 1] = l at h
    cases h with
    | start => cases hl
    | step gs g' q' m0 _ _ hr hst =>
      obtain ⟨rfl, hg'⟩ := List.append_inj' (s₁ := []) (t₁ := [one 1]) hl rfl
      cases hg'
      generalize hl' : ([] : List Params) = l at hr hst
      cases hr with
      | start _ z1 z2 =>
        obtain ⟨tm, q1, q2⟩ := z1.leaf _ _ (one_leaf x)
        have hz := z2 _ _ q1
        match tm, q2, hz with
        | [y], _, hz =>
          obtain rfl : y = 0 := hz y (by simp)
          have := plain_step (one_leaf x) q1 hst
          simpa using this
      | step => simp at hl'
  obtain ⟨c1, -⟩ := first _ _ a2
  have c2 : leafOf s₂.params ["w".toList] = some [x - rate - rate * (-0.1 + 0.9 * 1)] := by
    clear b1
    generalize s₂.params = q at b2
    generalize hl : [one 1, one (-0.1)] = l at b2
    cases b2 with
    | start => cases hl
    | step gs g' q' m0 _ _ hr hst =>
      obtain ⟨rfl, hg'⟩ := List.append_inj' (s₁ := [one 1]) (t₁ := [one (-0.1)]) hl rfl
      cases hg'
      obtain ⟨d1, d2⟩ := first _ _ hr
      exact (plain_step d1 d2 hst).1
  refine ⟨opt, os, s₁, s₂, _, _, hopt, e1, a1, b1, c1, c2, ?_⟩
  linarith

/-! ### Examples -/

/-- The only parameter. -/
noncomputable def exBasis : Module.Basis Unit ℝ ℝ := Module.Basis.singleton Unit ℝ

def exLoc : Unit → List Key × Nat := fun _ => (["w".toList], 0)

theorem exHolds (x : ℝ) : Holds exBasis exLoc (one x) x :=
  fun _ => ⟨[x], one_leaf x, by simp [exLoc], by simp [exLoc, exBasis]⟩

theorem exGradient (x : ℝ) (G : ℝ →L[ℝ] ℝ) (h : G 1 = x) : IsGradient exBasis exLoc (one x) G :=
  fun _ => ⟨[x], one_leaf x, by simp [exLoc], by simp [exLoc, exBasis, h]⟩

theorem exMoves (search : List Char → Key → Bool) (rate : ℝ) (G : ℝ →L[ℝ] ℝ) (h : G 1 ≠ 0) :
    Moves search (plain rate) exBasis exLoc G :=
  ⟨(), plain_frozen _ _ _, by simpa [exBasis] using h⟩

theorem exSquare : HasFDerivAt (fun x : ℝ => x ^ 2) (ContinuousLinearMap.toSpanSingleton ℝ (6 : ℝ)) 3 := by
  have h := (hasDerivAt_pow 2 (3 : ℝ)).hasFDerivAt
  norm_num at h
  exact h

/-- Minimizing a square with momentum. -/
example (compile : List Char → Except PyErr (Key → Bool)) (search : List Char → Key → Bool) (hc : ∀ r, compile r = .ok (search r)) :
    ∃ rate : ℝ, 0 < rate ∧ ∃ opt os s y, createOptimizer compile (plain rate) = .ok opt ∧ opt.init (one 3) = .ok os ∧
      train ⟨0, one 3, os⟩ [one 6] = .ok s ∧ Holds exBasis exLoc s.params y ∧ y ^ 2 < (3 : ℝ) ^ 2 := by
  obtain ⟨ε, h0, h⟩ := C167_sgd compile search hc (plain 1) (some 0.9) (by intro x h; cases h; norm_num) false rfl (by simp [plain])
    (by simp [plain]) (by simp [plain]) (fun _ => rfl) exBasis exLoc (fun x => x ^ 2) 3 _ exSquare (one 3) (one 6) (one_ok 3).1 (one_ok 3).2
    (one_shape 3 6) (exHolds 3) (exGradient 6 _ (by simp)) (exMoves _ _ _ (by simp))
  obtain ⟨opt, hopt⟩ := plain_created compile (ε / 2)
  obtain ⟨os, s, y, h1, h2, h3, h4⟩ := h (.constant (ε / 2)) _ opt rfl (by simpa using h0) (by linarith) hopt
  exact ⟨ε / 2, by linarith, opt, os, s, y, hopt, h1, h2, h3, h4⟩

/-- The hypotheses of `C167_adam` are met. -/
example (compile : List Char → Except PyErr (Key → Bool)) (search : List Char → Key → Bool) (hc : ∀ r, compile r = .ok (search r)) :
    ∃ c opt os s y, c.base = .other (Adam.scaleByAdam {}) ∧ createOptimizer compile c = .ok opt ∧ opt.init (one 3) = .ok os ∧
      train ⟨0, one 3, os⟩ [one 6] = .ok s ∧ Holds exBasis exLoc s.params y ∧ y < 3 := by
  have hopt : ∃ opt, createOptimizer compile { plain 0.001 with base := .other (Adam.scaleByAdam {}) } = .ok opt := by
    unfold createOptimizer gradientScaling gradientClipping addDecayedWeights learningRateGT freezeWeights
    simp [plain, truthy, baseGT, Schedule.createLearningRateSchedule, falsy, bind, Except.bind, pure, Except.pure]
  obtain ⟨opt, hopt⟩ := hopt
  obtain ⟨os, s, y, h1, h2, h3, h4, -⟩ := C167_adam compile search hc { plain 0.001 with base := .other (Adam.scaleByAdam {}) } {} rfl
    (by norm_num) (by norm_num) (by norm_num) (by simp [plain]) (by simp [plain]) (by simp [plain]) (fun _ => rfl) _ rfl (by norm_num)
    opt hopt exBasis exLoc (fun x => x ^ 2) 3 _ exSquare (one 3) (one 6) (one_ok 3).1 (one_ok 3).2
    (one_shape 3 6) (exHolds 3) (exGradient 6 _ (by simp)) ⟨(), plain_frozen search 0.001 _, by simp [exBasis]⟩
  refine ⟨_, opt, os, s, y, rfl, hopt, h1, h2, h3, ?_⟩
  simp at h4
  linarith

section Experts

open ModelGradient ModelLoss Vit Vmoe Encoder

/-- The model `exFamily` with everything fixed but the bias of the logit. -/
noncomputable def exHead : ModelGradient.Family ℝ 1 1 1 1 1 2 2 ℝ where
  params := fun θ => ⟨fun _ _ _ _ => 1, fun _ => 1, 0, fun _ => 0, id, fun _ v => [v 0 + θ]⟩
  classifier := "gap".toList
  numClasses := some 1
  positionEmb := none
  cfg := exFamily.cfg
  kernel := fun _ => exFamily.kernel 1
  experts := fun _ => exFamily.experts 1
  blocks := fun _ => exFamily.blocks 1
  dense := fun _ => exFamily.dense 1
  post := fun _ => id
  posParams := fun _ => exFamily.posParams 1
  numLayers := 2
  moeLayers := [0]

theorem exHead_smooth : exHead.Smooth exLogit where
  unrounded := rfl
  cdf := fun x => (LoadNoise.hasDerivAt_normCdf x).differentiableAt
  cdf_lt := LoadNoise.normCdf_lt_one
  mlp := exSmooth.mlp
  kernel := fun i => differentiable_const _
  experts := fun i => differentiable_const _
  attn := fun i => by
    show Differentiable ℝ fun q : ℝ × Seq 2 1 => (1 : ℝ) • q.2
    fun_prop
  norm := fun i => differentiable_snd
  dense := fun i => by
    show Differentiable ℝ fun q : ℝ × Seq 2 1 => (1 : ℝ) • q.2
    fun_prop
  post := differentiable_snd
  patch := fun _ _ _ _ => differentiable_const _
  bias := fun _ => differentiable_const _
  cls := differentiable_const _
  posLength := ⟨2, fun _ => rfl⟩
  pos := fun k => by
    show Differentiable ℝ fun _ : ℝ => (exFamily.posParams 1).getD k 0
    exact differentiable_const _
  mapHead := differentiable_const _
  preLogits := differentiable_snd
  features := fun _ y => by
    show Differentiable ℝ fun v : Fin 1 → ℝ => v 0
    fun_prop
  logits := fun n _ y => by
    show Differentiable ℝ fun q : ℝ × (Fin 1 → ℝ) => q.2 0 + q.1
    fun_prop

theorem exHead_loss (image : Image 2 1 1) : ∃ a : ℝ, ∀ θ, totalLoss (exHead.net θ) exLogit (fun _ _ _ _ => 0) [(image, (0 : ℝ))] = .ok (a + θ) := by
  have hmoe : ∀ x : Seq 2 1, ∃ q mq, moeLayer (E := 2) exFamily.cfg ⟨exFamily.kernel 1 0, exFamily.experts 1 0, fun _ _ _ => 0⟩ [x] =
      .ok ([q], mq) := by
    intro x
    obtain ⟨out, m, h, -⟩ := MoeBlock.C72_block_output exFamily.cfg.fl exFamily.cfg.cdf exFamily.cfg.bf exRouter 2
      (exFamily.kernel 1 0) (fun _ _ _ => 0) exFamily.cfg.oob (exFamily.experts 1 0) exFamily.cfg.mlp [x].get (by decide)
      ⟨1, rfl⟩ (by decide) Nat.one_pos (by decide : 1 ≤ 2) (Or.inl rfl) 1 rfl
    refine ⟨out 0, .topExperts _ m, ?_⟩
    have h' : MoeBlock.mlpMoeBlock exFamily.cfg.fl exFamily.cfg.cdf exFamily.cfg.bf exRouter exFamily.cfg.groupSize
      (exFamily.kernel 1 0) (fun _ _ _ => 0) exFamily.cfg.oob (exFamily.experts 1 0) exFamily.cfg.mlp [x].get = .ok (out, m) := h
    unfold moeLayer
    rw [show exFamily.cfg.router = .topExperts exRouter from rfl]
    simp only
    rw [h']
    rfl
  have hpre : ∀ x : Seq 2 1, ∃ y, [x].mapM (addPos none (exFamily.posParams 1)) = .ok [y] := fun x => ⟨_, rfl⟩
  have henc : ∀ x, ∃ y m, encoder 2 exFamily.cfg
      (fun i => ⟨exFamily.kernel 1 i, exFamily.experts 1 i, fun _ _ _ => 0⟩) (exFamily.blocks 1) (exFamily.dense 1) meanAux
        id (exFamily.posParams 1) 2 [0] none [x] = .ok ([y], m) := by
    intro x
    unfold encoder encoderMoe
    obtain ⟨y, hy⟩ := hpre (fun t => x.getD t 0)
    rw [List.map_cons, List.map_nil, hy]
    simp only
    rw [show List.range 2 = [0, 1] from rfl, loop, if_pos (by simp)]
    unfold moeBlock
    simp only
    obtain ⟨q, mq, hq⟩ := hmoe ((exFamily.blocks 1 0).norm ((exFamily.blocks 1 0).attn y + y))
    have hq' : moeLayer (E := 2) exFamily.cfg ⟨exFamily.kernel 1 0, exFamily.experts 1 0, fun _ _ _ => 0⟩
      ((attention (exFamily.blocks 1 0) [y]).map (exFamily.blocks 1 0).norm) = _ := hq
    rw [hq']
    simp only
    rw [loop, if_neg (by simp), loop]
    exact ⟨_, _, rfl⟩
  obtain ⟨y, m, hy⟩ := henc (tokens (exHead.params 0) "gap".toList image)
  refine ⟨mean y 0 + auxiliary m, fun θ => ?_⟩
  unfold totalLoss Net.run visionTransformer
  rw [show encoderPosEmb (exHead.net θ).positionEmb (convSize 2 1) (convSize 1 1) = .ok none from rfl]
  simp only
  have hy' : encoder 2 (exHead.net θ).cfg (fun i => ⟨(exHead.net θ).kernel i, (exHead.net θ).experts i, fun _ _ _ => 0⟩)
    (exHead.net θ).blocks (exHead.net θ).dense meanAux (exHead.net θ).post (exHead.net θ).posParams (exHead.net θ).numLayers
    (exHead.net θ).moeLayers none (([(image, (0 : ℝ))].map Prod.fst).map (tokens (exHead.net θ).params (exHead.net θ).classifier)) = _ := hy
  rw [hy', show (exHead.net θ).classifier = "gap".toList from rfl]
  simp only
  rw [if_neg (by decide), if_pos trivial]
  show Except.ok ((mean y 0 + θ + 0) / ((1 : Nat) : ℝ) + auxiliary m) = _
  congr 1
  push_cast
  ring

/-- Training the bias lowers the total loss, which is the logit and the auxiliary loss. -/
example (compile : List Char → Except PyErr (Key → Bool)) (search : List Char → Key → Bool) (hc : ∀ r, compile r = .ok (search r))
    (image : Image 2 1 1) (hpix : ∀ a b d, 0 ≤ image a b d) (v : ℝ)
    (hv : totalLoss (exHead.net 5) exLogit (fun _ _ _ _ => 0) [(image, (0 : ℝ))] = .ok v) :
    ∃ rate : ℝ, 0 < rate ∧ ∃ opt os s θ' v', createOptimizer compile (plain rate) = .ok opt ∧ opt.init (one 5) = .ok os ∧
      train ⟨0, one 5, os⟩ [one 1] = .ok s ∧ Holds exBasis exLoc s.params θ' ∧
      totalLoss (exHead.net θ') exLogit (fun _ _ _ _ => 0) [(image, (0 : ℝ))] = .ok v' ∧ v' < v := by
  have hd : ∀ ℓ : ℝ → ℝ, (∀ θ', totalLoss (exHead.net θ') exLogit (fun _ _ _ _ => 0) [(image, (0 : ℝ))] = .ok (ℓ θ')) →
      fderiv ℝ ℓ 5 1 = 1 := by
    intro ℓ hℓ
    obtain ⟨a, ha⟩ := exHead_loss image
    have : ℓ = fun θ => a + θ := funext fun θ => Except.ok.inj ((hℓ θ).symm.trans (ha θ))
    rw [this]
    simp
  obtain ⟨ε, h0, h⟩ := C167_experts exHead exLogit exHead_smooth (fun _ _ _ _ => 0) [(image, (0 : ℝ))] 5 v hv
    (exNoTies [image] (by simpa using hpix)) compile search hc (plain 1) (some 0.9) (by intro x h; cases h; norm_num) false rfl
    (by simp [plain]) (by simp [plain]) (by simp [plain]) (fun _ => rfl) exBasis exLoc (one 5) (one 1) (one_ok 5).1 (one_ok 5).2
    (one_shape 5 1) (exHolds 5) (fun ℓ hℓ => ⟨exGradient 1 _ (hd ℓ hℓ), exMoves _ _ _ (by rw [hd ℓ hℓ]; exact one_ne_zero)⟩)
  obtain ⟨opt, hopt⟩ := plain_created compile (ε / 2)
  obtain ⟨os, s, θ', v', h1, h2, h3, h4⟩ := h (.constant (ε / 2)) _ opt rfl (by simpa using h0) (by linarith) hopt
  exact ⟨ε / 2, by linarith, opt, os, s, θ', v', hopt, h1, h2, h3, h4⟩

end Experts

end Verif.Downhill
