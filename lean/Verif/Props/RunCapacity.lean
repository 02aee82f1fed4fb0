import Verif.Model.RunCapacity
import Verif.Props.PaperConfigs
import Verif.Props.ConfigOverride

/-!
C153: the room in the experts of the runs of the V-MoE paper, in training and in evaluation.
-/

namespace Verif.RunCapacity

open Verif Verif.Moe Verif.Spec Verif.PaperConfigs Verif.Vmoe Verif.MoeBlock Verif.ConfigOverride

variable {c : Nat} {P : Type}

/-- Roundings that keep the order and the integers below 2^24. -/
def Rounding (fl : ℚ → ℚ) : Prop := Monotone fl ∧ ∀ k : Nat, k < 2 ^ 24 → fl k = k

theorem capacity_between {fl : ℚ → ℚ} (hfl : Rounding fl) (tokens E cap : Nat) (f : ℚ) (hE : 0 < E) (h4 : 4 ∣ cap) (hpos : 0 < cap)
    (hlo : (((cap - 3) * E : ℕ) : ℚ) ≤ tokens * f) (hhi : tokens * f ≤ ((cap * E : ℕ) : ℚ)) (hsmall : cap * E < 2 ^ 24) :
    resolveCapacity fl tokens E none (some f) "ceil" (some 4) = .ok cap := by
  obtain ⟨hmono, hint⟩ := hfl
  have hE' : (0 : ℚ) < E := by exact_mod_cast hE
  have hc : cap < 2 ^ 24 := lt_of_le_of_lt (Nat.le_mul_of_pos_right _ hE) hsmall
  have hlo' : (((cap - 3) * E : ℕ) : ℚ) ≤ fl (tokens * f) := by
    rw [← hint ((cap - 3) * E) (lt_of_le_of_lt (Nat.mul_le_mul_right _ (Nat.sub_le _ _)) hsmall)]
    exact hmono hlo
  have hhi' : fl (tokens * f) ≤ ((cap * E : ℕ) : ℚ) := by
    rw [← hint (cap * E) hsmall]
    exact hmono hhi
  have h1 : ((cap - 3 : ℕ) : ℚ) ≤ fl (fl (tokens * f) / E) := by
    rw [← hint (cap - 3) (lt_of_le_of_lt (Nat.sub_le _ _) hc)]
    apply hmono
    rw [le_div_iff₀ hE']
    exact_mod_cast hlo'
  have h2 : fl (fl (tokens * f) / E) ≤ (cap : ℚ) := by
    rw [← hint cap hc]
    apply hmono
    rw [div_le_iff₀ hE']
    exact_mod_cast hhi'
  have h3 : ((cap - 3 : ℕ) : ℤ) ≤ ⌈fl (fl (tokens * f) / E)⌉ := by
    have : (((cap - 3 : ℕ) : ℤ) : ℚ) ≤ (⌈fl (fl (tokens * f) / E)⌉ : ℚ) := by
      refine le_trans ?_ (Int.le_ceil _)
      exact_mod_cast h1
    exact_mod_cast this
  have h5 : ⌈fl (fl (tokens * f) / E)⌉ ≤ (cap : ℤ) := by
    rw [Int.ceil_le]
    exact_mod_cast h2
  have h6 : 4 ≤ cap := Nat.le_of_dvd hpos h4
  show (computeCapacity fl tokens E f "ceil" (some 4)).map Int.toNat = _
  unfold computeCapacity
  rw [if_neg (by simp), if_neg (by omega)]
  simp only [if_true]
  generalize ⌈fl (fl (tokens * f) / E)⌉ = r at h3 h5
  rw [if_neg (by omega), if_pos (by norm_num)]
  simp only [Except.map]
  congr 1
  omega

theorem vmoe_values {s : List Char} {img nc : Nat} {v : VmoeConfig} (d : Description) (hd : matchDescription s = some d)
    (hv : getVmoeConfig s img nc = .ok v) : d.patch ≠ 0 ∧ v.groupSize = 8 * (img / d.patch * (img / d.patch) + 1) ∧
      v.numExperts = d.numExperts ∧ v.numSelected = d.k ∧ v.capacityFactor = f105 ∧ v.patchSize = d.patch := by
  unfold getVmoeConfig at hv
  rw [hd] at hv
  simp only [bind, Except.bind] at hv
  split at hv
  · cases hv
  split at hv
  · cases hv
  rename_i hp
  split at hv
  · cases hv
  split at hv
  · cases hv
  cases hv
  exact ⟨hp, rfl, rfl, rfl, rfl, rfl⟩

theorem over_factor (f g : ℚ) : overrideBaseConfig (fun _ v => some v) (factorSection f) (some (factorSection g)) = .ok (factorSection g) := by
  simp [overrideBaseConfig, factorSection, updateItems, updateValue, PyDict.get?, PyDict.set, bind, Except.bind, pure, Except.pure]

theorem over_none (f : ℚ) : overrideBaseConfig (fun _ v => some v) (factorSection f) none = .ok (factorSection f) := rfl

theorem read_factor (f : ℚ) : readFactor (factorSection f) = .ok (some f) := by
  rfl

theorem trainModel_eq (r : Run) (c : VmoeConfig) (h : getVmoeConfig r.description.toList r.imageSize r.numClasses = .ok c) :
    trainModel r = .ok { c with capacityFactor := r.capacityFactor.getD c.capacityFactor } := by
  unfold trainModel
  rw [h]
  rfl

theorem evalModel_none (r : Run) (v : VmoeConfig) (ht : trainModel r = .ok v) (hr : r.overrides = none) : evalModel r = .ok v := by
  unfold evalModel
  rw [ht, hr]
  simp only [bind, Except.bind, over_none, read_factor]
  rfl

theorem evalModel_some (r : Run) (v : VmoeConfig) (f : ℚ) (ht : trainModel r = .ok v) (hr : r.overrides = some (factorSection f)) :
    evalModel r = .ok { v with capacityFactor := f } := by
  unfold evalModel
  rw [ht, hr]
  simp only [bind, Except.bind, over_factor, read_factor]
  rfl

theorem s32_match : matchDescription "ViT-S/32, E=8, K=2, Last 2, 300 Epochs".toList = some ⟨'S', 32, 8, 2, false, 2, 300⟩ := by decide

theorem b16_match : matchDescription "ViT-B/16, E=8, K=2, Every 2, 300 Epochs".toList = some ⟨'B', 16, 8, 2, true, 2, 300⟩ := by decide

/-- The runs with the tokens of an image (patches and class token), and the places of an expert in training and in evaluation. -/
def room : List (Run × Nat × Nat × Nat) :=
  [(s32Light1, 50, 108, 400), (b16Pretrain, 197, 416, 416), (b16FtIlsvrc, 577, 1732, 1732), (s32FtIlsvrc, 145, 436, 436),
    (b16FtCifar, 65, 196, 196)]

/-- A model that has two of eight experts per token, groups of eight images of `T` tokens, and `cap` places per expert. -/
def Has (fl : ℚ → ℚ) (v : VmoeConfig) (T cap : Nat) : Prop :=
  v.numExperts = 8 ∧ v.numSelected = 2 ∧ v.groupSize = 8 * T ∧
    ∀ deterministic, let d := (router v deterministic).dispatcher
      resolveCapacity fl (v.groupSize * v.numSelected) v.numExperts d.capacity d.capacityFactor d.ceilOrRound d.multipleOf = .ok cap

theorem has_of {fl : ℚ → ℚ} (hfl : Rounding fl) (v : VmoeConfig) (T cap : Nat) (h1 : v.numExperts = 8) (h2 : v.numSelected = 2)
    (h3 : v.groupSize = 8 * T) (h4 : 4 ∣ cap) (hpos : 0 < cap) (hlo : ((cap - 3 : ℕ) : ℚ) ≤ 2 * T * v.capacityFactor)
    (hhi : 2 * T * v.capacityFactor ≤ cap) (hsmall : cap * 8 < 2 ^ 24) : Has fl v T cap := by
  refine ⟨h1, h2, h3, fun det => ?_⟩
  show resolveCapacity fl _ _ none (some v.capacityFactor) "ceil" (some 4) = _
  rw [h1, h2, h3]
  refine capacity_between hfl _ 8 cap _ (by norm_num) h4 hpos ?_ ?_ hsmall
  · push_cast
    linarith
  · push_cast
    linarith

/-- C153: the models of the runs.  Every run gives a model for training and one for evaluation, with groups of eight images and the room
of the table: the overrides of the first run give every expert room for the whole group in the evaluation; the other runs evaluate
with the capacity of the training. -/
theorem C153_room (fl : ℚ → ℚ) (hfl : Rounding fl) : ∀ q ∈ room, ∃ v w, trainModel q.1 = .ok v ∧ evalModel q.1 = .ok w ∧
    q.2.1 = Vit.convSize q.1.imageSize v.patchSize * Vit.convSize q.1.imageSize v.patchSize + 1 ∧
    Has fl v q.2.1 q.2.2.1 ∧ Has fl w q.2.1 q.2.2.2 ∧ w = { v with capacityFactor := w.capacityFactor } := by
  have hs : ∀ img nc, nc ≠ 0 → ∃ v, getVmoeConfig "ViT-S/32, E=8, K=2, Last 2, 300 Epochs".toList img nc = .ok v := by
    intro img nc hnc
    obtain ⟨c, hc, -⟩ := C133_model _ ⟨'S', 32, 8, 2, false, 2, 300⟩ ((C133_description _ _).1 s32_match) img nc 512 8 2048 8
      (by simp [sizes]) (by decide) hnc (by decide)
    exact ⟨c, hc⟩
  have hb : ∀ img nc, nc ≠ 0 → ∃ v, getVmoeConfig "ViT-B/16, E=8, K=2, Every 2, 300 Epochs".toList img nc = .ok v := by
    intro img nc hnc
    obtain ⟨c, hc, -⟩ := C133_model _ ⟨'B', 16, 8, 2, true, 2, 300⟩ ((C133_description _ _).1 b16_match) img nc 768 12 3072 12
      (by simp [sizes]) (by decide) hnc (by decide)
    exact ⟨c, hc⟩
  intro q hq
  simp only [room, List.mem_cons, List.not_mem_nil, or_false] at hq
  rcases hq with rfl | rfl | rfl | rfl | rfl
  · obtain ⟨v, hv⟩ := hs 224 1000 (by decide)
    obtain ⟨-, v1, v2, v3, v4, v5⟩ := vmoe_values _ s32_match hv
    have ht := trainModel_eq s32Light1 v hv
    refine ⟨_, _, ht, evalModel_some _ _ 4 ht rfl, ?_, has_of hfl _ _ _ v2 v3 v1 (by decide) (by decide) ?_ ?_ (by decide),
      has_of hfl _ _ _ v2 v3 v1 (by decide) (by decide) ?_ ?_ (by decide), rfl⟩
    · simp only [v5]
      decide
    all_goals norm_num [s32Light1, factorSection, v4, f105]
  · obtain ⟨v, hv⟩ := hb 224 21843 (by decide)
    obtain ⟨-, v1, v2, v3, v4, v5⟩ := vmoe_values _ b16_match hv
    have ht := trainModel_eq b16Pretrain v hv
    refine ⟨_, _, ht, evalModel_none _ _ ht rfl, ?_, has_of hfl _ _ _ v2 v3 v1 (by decide) (by decide) ?_ ?_ (by decide),
      has_of hfl _ _ _ v2 v3 v1 (by decide) (by decide) ?_ ?_ (by decide), rfl⟩
    · simp only [v5]
      decide
    all_goals norm_num [b16Pretrain, factorSection, v4, f105]
  · obtain ⟨v, hv⟩ := hb 384 1000 (by decide)
    obtain ⟨-, v1, v2, v3, v4, v5⟩ := vmoe_values _ b16_match hv
    have ht := trainModel_eq b16FtIlsvrc v hv
    refine ⟨_, _, ht, evalModel_none _ _ ht rfl, ?_, has_of hfl _ _ _ v2 v3 v1 (by decide) (by decide) ?_ ?_ (by decide),
      has_of hfl _ _ _ v2 v3 v1 (by decide) (by decide) ?_ ?_ (by decide), rfl⟩
    · simp only [v5]
      decide
    all_goals norm_num [b16FtIlsvrc, factorSection, v4, f105]
  · obtain ⟨v, hv⟩ := hs 384 1000 (by decide)
    obtain ⟨-, v1, v2, v3, v4, v5⟩ := vmoe_values _ s32_match hv
    have ht := trainModel_eq s32FtIlsvrc v hv
    refine ⟨_, _, ht, evalModel_none _ _ ht rfl, ?_, has_of hfl _ _ _ v2 v3 v1 (by decide) (by decide) ?_ ?_ (by decide),
      has_of hfl _ _ _ v2 v3 v1 (by decide) (by decide) ?_ ?_ (by decide), rfl⟩
    · simp only [v5]
      decide
    all_goals norm_num [s32FtIlsvrc, factorSection, v4, f105]
  · obtain ⟨v, hv⟩ := hb 128 10 (by decide)
    obtain ⟨-, v1, v2, v3, v4, v5⟩ := vmoe_values _ b16_match hv
    have ht := trainModel_eq b16FtCifar v hv
    refine ⟨_, _, ht, evalModel_none _ _ ht rfl, ?_, has_of hfl _ _ _ v2 v3 v1 (by decide) (by decide) ?_ ?_ (by decide),
      has_of hfl _ _ _ v2 v3 v1 (by decide) (by decide) ?_ ?_ (by decide), rfl⟩
    · simp only [v5]
      decide
    all_goals norm_num [b16FtCifar, factorSection, v4, f105]

/-- The table is about the runs of the configurations. -/
example : room.map Prod.fst = runs := rfl

/-- C153: the layers of such models accept exactly the batches with a multiple of eight images, -/
theorem C153_accepts {fl : ℚ → ℚ} {v : VmoeConfig} {T cap : Nat} (h : Has fl v T cap) (hT : 0 < T) (deterministic : Bool)
    (cdf bf : ℝ → ℝ) (oob : Fin c → ℝ) (mlp : P → (Fin c → ℝ) → Fin c → ℝ) (p : MoeParams c v.numExperts P) (x : List (Seq T c)) :
    (∃ r, moeLayer (layer v deterministic fl cdf bf oob mlp) p x = .ok r) ↔ 8 ∣ x.length := by
  obtain ⟨h1, h2, h3, hcap⟩ := h
  have herr := C72_block_errors fl cdf bf (router v deterministic) v.groupSize p.kernel p.z oob p.experts mlp x.get
  have hk : (router v deterministic).numSelected = v.numSelected := rfl
  simp only [hk] at herr
  have hdiv : 0 < v.groupSize ∧ v.groupSize ∣ x.length * T ↔ 8 ∣ x.length := by
    rw [h3]
    constructor
    · rintro ⟨-, h⟩
      exact (Nat.mul_dvd_mul_iff_right hT).1 h
    · intro h
      exact ⟨by omega, (Nat.mul_dvd_mul_iff_right hT).2 h⟩
  have hsel : 1 ≤ v.numSelected ∧ v.numSelected ≤ v.numExperts := by omega
  unfold moeLayer layer
  simp only
  constructor
  · rintro ⟨r, hr⟩
    by_contra hn
    rw [herr.1 (fun h => hn (hdiv.1 h))] at hr
    cases hr
  · intro hx
    obtain ⟨out, hout⟩ := ((herr.2.2 (hdiv.2 hx) hsel).2 cap (hcap deterministic)).2 (Or.inl rfl)
    rw [hout]
    exact ⟨_, rfl⟩

/-- C153: and those are the batches of all the datasets of the runs, also the shares of the devices, if there are at most 128 of them and
a power of two. -/
theorem C153_batches : ∀ r ∈ runs, ∀ k ≤ 7, 8 ∣ r.batchSize ∧ 2 ^ k ∣ r.batchSize ∧ 8 ∣ r.batchSize / 2 ^ k := by
  intro r hr k hk
  simp only [runs, List.mem_cons, List.not_mem_nil, or_false] at hr
  interval_cases k <;> rcases hr with rfl | rfl | rfl | rfl | rfl <;> decide

/-- C153: in the evaluation of the first run, the prediction for an image does not depend on its batch. -/
theorem C153_evaluation {H W D ph pw r nE : Nat} (fl : ℚ → ℚ) (hfl : Rounding fl) (cdf bf : ℝ → ℝ) (oob : Fin c → ℝ)
    (mlp : P → (Fin c → ℝ) → Fin c → ℝ) (w : VmoeConfig) (hw : evalModel s32Light1 = .ok w) (hE : w.numExperts = nE)
    (p : Vit.Params ph pw D c r) (classifier : List Char) (num_classes : Option Nat)
    (position_emb : Option (Option Vit.PosEmb)) (params : Nat → MoeParams c nE P)
    (blocks : Nat → Encoder.BlockFns (Seq 50 c)) (dense : Nat → Seq 50 c → Seq 50 c) (aux : LayerMetrics → ℝ) (post : Seq 50 c → Seq 50 c)
    (pe : List (Vit.Vec c)) (numLayers : Nat) (moeLayers : List Int) :
    ∃ f : Vit.Image H W D → List ℝ ⊕ Vit.Vec r, ∀ images out m,
      Vit.visionTransformer p classifier num_classes position_emb
        (encoder 50 (layer w true fl cdf bf oob mlp) params blocks dense aux post pe numLayers moeLayers) images = .ok (out, m) →
      Out.rows out = images.map f := by
  obtain ⟨v, w', -, hw', -, -, ⟨h1, h2, h3, hcap⟩, -⟩ := C153_room fl hfl _ (List.mem_cons_self (a := (s32Light1, 50, 108, 400)))
  obtain rfl : w' = w := Except.ok.inj (hw'.symm.trans hw)
  subst hE
  refine C119_model p classifier num_classes position_emb _ params blocks dense aux post pe numLayers moeLayers (Or.inl rfl) ?_
  exact Or.inr ⟨_, 400, rfl, h3.le, hcap true⟩

/-- Exact arithmetic is such a rounding, and the evaluation of the first run is defined. -/
example : Rounding id ∧ ∃ w, evalModel s32Light1 = .ok w ∧ w.numExperts = 8 ∧ w.capacityFactor = 4 := by
  have h : Rounding id := ⟨monotone_id, fun _ _ => rfl⟩
  obtain ⟨v, hv⟩ : ∃ v, getVmoeConfig "ViT-S/32, E=8, K=2, Last 2, 300 Epochs".toList 224 1000 = .ok v := by
    obtain ⟨c, hc, -⟩ := C133_model _ ⟨'S', 32, 8, 2, false, 2, 300⟩ ((C133_description _ _).1 s32_match) 224 1000 512 8 2048 8
      (by simp [sizes]) (by decide) (by decide) (by decide)
    exact ⟨c, hc⟩
  exact ⟨h, _, evalModel_some _ _ 4 (trainModel_eq s32Light1 v hv) rfl, (vmoe_values _ s32_match hv).2.2.1, rfl⟩

/-- If all items have the same gates, the first ones are kept. -/
theorem kept_same {S E : Nat} (hE : 0 < E) (gates : Fin S → Fin E → ℝ) (g : Fin E → ℝ) (hg : ∀ s, gates s = g) (K cap : Nat) (s : Fin S)
    (e : Fin E) : Kept hE false gates K cap s e ↔ choiceRank gates s e < K ∧ s.val < cap := by
  have hr : ∀ s s' e, choiceRank gates s' e = choiceRank gates s e := by
    intro s s' e
    unfold choiceRank
    rw [hg s, hg s']
  unfold Kept Requests
  refine and_congr_right fun hreq => ?_
  have : slot hE false gates K s e = s.val := by
    unfold slot
    rw [← Fin.card_Iio s]
    congr 1
    ext s'
    simp only [Finset.mem_filter, Finset.mem_univ, true_and, Finset.mem_Iio, HigherPriority, ItemBefore, Bool.false_eq_true, if_false, Requests]
    rw [hr s s' e]
    simp [hreq]
  rw [this]

/-- C153 does not hold for the evaluation of the other runs: if the tokens of eight equal images ask for the same experts, the last image gets
another result than the first one. -/
theorem C153_evaluation_counterexample (fl : ℚ → ℚ) (hfl : Rounding fl) (cdf : ℝ → ℝ) (hc : 0 < c) : ∀ q ∈ room.tail,
    ∃ w, evalModel q.1 = .ok w ∧ ∀ a : Seq q.2.1 c, ∃ (mlp : Unit → (Fin c → ℝ) → Fin c → ℝ) (p : MoeParams c w.numExperts Unit)
      (y : List (Seq q.2.1 c)) (m : LayerMetrics),
      moeLayer (layer w true fl cdf id 0 mlp) p (List.replicate 8 a) = .ok (y, m) ∧ y[0]? ≠ y[7]? := by
  intro q hq
  obtain ⟨v, w, -, hw, hT, -, ⟨h1, h2, h3, hcap⟩, -⟩ := C153_room fl hfl q (List.mem_of_mem_tail hq)
  refine ⟨w, hw, fun a => ?_⟩
  have hlt : q.2.2.2 < 8 * q.2.1 ∧ q.2.1 ≤ q.2.2.2 := by
    simp only [room, List.tail_cons, List.mem_cons, List.not_mem_nil, or_false] at hq
    rcases hq with rfl | rfl | rfl | rfl <;> decide
  generalize q.2.2.2 = cap at hcap hlt
  generalize q.2.1 = T at *
  have hTpos : 0 < T := hT ▸ Nat.succ_pos _
  have hE : 0 < w.numExperts := by omega
  obtain ⟨out, m, hout, hval⟩ := C72_block_output fl cdf id (router w true) w.groupSize (fun (_ : Fin c) (_ : Fin w.numExperts) => (0 : ℝ))
    (fun _ _ _ => 0) 0 (fun _ => ()) (fun _ _ _ => (1 : ℝ)) (List.replicate 8 a).get (by omega)
    (by rw [h3, List.length_replicate]) hE (by show 0 < w.numSelected; omega) (by show w.numSelected ≤ _; omega) (Or.inl rfl) cap (hcap true)
  refine ⟨fun _ _ _ => 1, ⟨fun _ _ => 0, fun _ => (), fun _ _ _ => 0⟩, List.ofFn out, .topExperts _ m, ?_, ?_⟩
  · unfold moeLayer layer
    simp only
    rw [hout]
  have hgates : ∀ n, ∀ s, tokenGates w.groupSize (fun (_ : Fin c) (_ : Fin w.numExperts) => (0 : ℝ)) (usedStd (router w true) w.numExperts)
      (fun _ _ _ => 0) (List.replicate 8 a).get n s = expWeights fun _ => 0 := by
    intro n s
    unfold tokenGates
    simp
  have hlen : (List.replicate 8 a).length = 8 := List.length_replicate
  have hfirst : 0 < out ⟨0, by omega⟩ ⟨T - 1, by omega⟩ ⟨0, hc⟩ := by
    rw [hval ⟨0, by omega⟩ ⟨T - 1, by omega⟩ ⟨0, hc⟩]
    refine Finset.sum_pos ?_ ⟨⟨0, hE⟩, ?_⟩
    · intro e _
      rw [hgates]
      refine mul_pos ?_ ?_
      · unfold expWeights
        have : 0 < w.numExperts := hE
        simp
        omega
      · show (0 : ℝ) < if (router w true).dispatcher.bfloat16 then id 1 else 1
        split_ifs <;> simp
    · simp only [Finset.mem_filter, Finset.mem_univ, true_and]
      refine (kept_same hE _ _ (hgates _) _ _ _ _).2 ⟨?_, ?_⟩
      · have : choiceRank (tokenGates w.groupSize (fun (_ : Fin c) (_ : Fin w.numExperts) => (0 : ℝ)) (usedStd (router w true) w.numExperts)
            (fun _ _ _ => 0) (List.replicate 8 a).get (tokenNumber T 0 (T - 1) / w.groupSize)) ⟨tokenNumber T 0 (T - 1) % w.groupSize, Nat.mod_lt _ (by omega)⟩
            ⟨0, hE⟩ = 0 := by
          unfold choiceRank
          rw [Finset.card_eq_zero, Finset.filter_eq_empty_iff]
          intro e' _
          rw [hgates]
          rintro (h | h)
          · exact lt_irrefl _ h
          · exact Nat.not_lt_zero _ h.2
        show _ < w.numSelected
        rw [h2]
        exact lt_of_eq_of_lt this (by norm_num)
      · show tokenNumber T 0 (T - 1) % w.groupSize < cap
        rw [h3, Nat.mod_eq_of_lt (by unfold tokenNumber; omega)]
        unfold tokenNumber
        omega
  have hlast : out ⟨7, by omega⟩ ⟨T - 1, by omega⟩ ⟨0, hc⟩ = 0 := by
    rw [hval ⟨7, by omega⟩ ⟨T - 1, by omega⟩ ⟨0, hc⟩, Finset.filter_false_of_mem, Finset.sum_empty]
    intro e _ hk
    have := ((kept_same hE _ _ (hgates _) _ _ _ _).1 hk).2
    have hn : tokenNumber T 7 (T - 1) % w.groupSize = 8 * T - 1 := by
      rw [h3, Nat.mod_eq_of_lt (by unfold tokenNumber; omega)]
      unfold tokenNumber
      omega
    have h' : tokenNumber T 7 (T - 1) % w.groupSize < cap := this
    omega
  rw [List.getElem?_ofFn, List.getElem?_ofFn, dif_pos (by omega), dif_pos (by omega)]
  intro h
  have h' := congrFun (congrFun (Option.some.inj h) ⟨T - 1, by omega⟩) ⟨0, hc⟩
  rw [hlast] at h'
  exact absurd h' hfirst.ne'

end Verif.RunCapacity
