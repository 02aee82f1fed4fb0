import Verif.Model.AttackConfig
import Verif.Props.RunCapacity
import Verif.Props.ProcessText
import Verif.Props.VmoeModel

/-!
C160: does the adversarial attack see the model that was fine-tuned, and the images that it was evaluated on?
-/

namespace Verif.AttackConfig

open Verif Verif.Moe Verif.Spec Verif.PaperConfigs Verif.Vmoe Verif.MoeBlock Verif.RunCapacity

variable {c : Nat} {P : Type}

/-! ### The model -/

/-- C160: the model of the attack is the model of the fine-tuning (and of its evaluation) in everything but the groups: they have four
images instead of eight. -/
theorem C160_model : ∃ v, trainModel b16FtIlsvrc = .ok v ∧ evalModel b16FtIlsvrc = .ok v ∧
    attackModel = { v with groupSize := attackModel.groupSize } ∧ attackModel.groupSize = 4 * 577 ∧ v.groupSize = 8 * 577 := by
  have h : trainModel b16FtIlsvrc = .ok { attackModel with groupSize := 8 * 577 } := by
    obtain ⟨v, hv⟩ : ∃ v, getVmoeConfig "ViT-B/16, E=8, K=2, Every 2, 300 Epochs".toList 384 1000 = .ok v := by
      obtain ⟨c, hc, -⟩ := C133_model _ ⟨'B', 16, 8, 2, true, 2, 300⟩ ((C133_description _ _).1 b16_match) 384 1000 768 12 3072 12
        (by simp [sizes]) (by decide) (by decide) (by decide)
      exact ⟨c, hc⟩
    rw [trainModel_eq b16FtIlsvrc v hv]
    unfold getVmoeConfig at hv
    rw [b16_match] at hv
    have hl : moeLayers true 2 12 = .ok [1, 3, 5, 7, 9, 11] := by decide
    cases hv
    rfl
  exact ⟨_, h, evalModel_none _ _ h rfl, rfl, by decide, rfl⟩

/-- Places of an expert in a group of four images. -/
theorem attack_cap (fl : ℚ → ℚ) (hfl : Rounding fl) (deterministic : Bool) :
    let d := (router attackModel deterministic).dispatcher
    resolveCapacity fl (attackModel.groupSize * attackModel.numSelected) attackModel.numExperts d.capacity d.capacityFactor d.ceilOrRound
      d.multipleOf = .ok 868 := by
  show resolveCapacity fl (2308 * 2) 8 none (some (3 / 2)) "ceil" (some 4) = _
  exact capacity_between hfl _ 8 868 _ (by norm_num) (by decide) (by norm_num) (by norm_num) (by norm_num) (by norm_num)

/-- C160: an expert has 868 places for four images in the attack, and 1732 places for eight images in the evaluation. -/
theorem C160_room (fl : ℚ → ℚ) (hfl : Rounding fl) (deterministic : Bool) :
    (let d := (router attackModel deterministic).dispatcher
     resolveCapacity fl (attackModel.groupSize * attackModel.numSelected) attackModel.numExperts d.capacity d.capacityFactor
      d.ceilOrRound d.multipleOf = .ok 868) ∧
    ∃ v, evalModel b16FtIlsvrc = .ok v ∧ Has fl v 577 1732 := by
  refine ⟨attack_cap fl hfl deterministic, ?_⟩
  obtain ⟨-, w, -, hw, -, -, h, -⟩ := C153_room fl hfl (b16FtIlsvrc, 577, 1732, 1732) (by simp [room])
  exact ⟨w, hw, h⟩

example : Rounding id := ⟨monotone_id, fun _ _ => rfl⟩

/-! ### The groups -/

/-- Spec: the experts that the token with a number asks for, without noise. -/
def Asks {T E : Nat} (kernel : Fin c → Fin E → ℝ) (K : Nat) (x : List (Seq T c)) (n : Nat) (e : Fin E) : Prop :=
  choiceRank (fun _ : Fin 1 => expWeights fun e => ∑ h, tokenOf x.get n h * kernel h e) 0 e < K

open Classical in
/-- Spec: how many of `S` tokens, from a number on, ask for an expert. -/
noncomputable def demand {T E : Nat} (kernel : Fin c → Fin E → ℝ) (K : Nat) (x : List (Seq T c)) (start S : Nat) (e : Fin E) : Nat :=
  ((Finset.range S).filter fun s => Asks kernel K x (start + s) e).card

theorem demand_add {T E : Nat} (kernel : Fin c → Fin E → ℝ) (K : Nat) (x : List (Seq T c)) (start S S' : Nat) (e : Fin E) :
    demand kernel K x start (S + S') e = demand kernel K x start S e + demand kernel K x (start + S) S' e := by
  unfold demand
  rw [Finset.card_filter, Finset.card_filter, Finset.card_filter, Finset.sum_range_add]
  refine congrArg _ (Finset.sum_congr rfl fun s _ => ?_)
  rw [Nat.add_assoc start S s]

theorem requests_iff {T E S : Nat} (kernel : Fin c → Fin E → ℝ) (K : Nat) (z : Nat → Nat → Nat → ℝ) (x : List (Seq T c)) (g : Nat)
    (s : Fin S) (e : Fin E) : Requests (tokenGates S kernel 0 z x.get g) K s e ↔ Asks kernel K x (g * S + s) e := by
  unfold Requests Asks choiceRank tokenGates
  simp only [zero_mul, add_zero]

theorem kept_of_room {T E S : Nat} (hE : 0 < E) (bp : Bool) (kernel : Fin c → Fin E → ℝ) (K cap : Nat) (z : Nat → Nat → Nat → ℝ)
    (x : List (Seq T c)) (g : Nat) (s : Fin S) (e : Fin E) (h : demand kernel K x (g * S) S e ≤ cap) :
    Kept hE bp (tokenGates S kernel 0 z x.get g) K cap s e ↔ Asks kernel K x (g * S + s) e := by
  unfold Kept
  rw [requests_iff]
  refine and_iff_left_of_imp fun hs => lt_of_lt_of_le ?_ h
  classical
  have h1 : demand kernel K x (g * S) S e =
      (Finset.univ.filter fun s' : Fin S => Requests (tokenGates S kernel 0 z x.get g) K s' e).card := by
    unfold demand
    rw [Finset.card_filter, Finset.card_filter, Finset.sum_range]
    refine Finset.sum_congr rfl fun s' _ => ?_
    simp only [requests_iff]
  rw [h1]
  unfold slot
  refine Finset.card_lt_card ⟨fun s' hs' => ?_, fun hsub => ?_⟩
  · simp only [Finset.mem_filter, Finset.mem_univ, true_and] at hs' ⊢
    exact hs'.1
  · have hm : s ∈ Finset.univ.filter fun s' : Fin S => Requests (tokenGates S kernel 0 z x.get g) K s' e := by
      simp only [Finset.mem_filter, Finset.mem_univ, true_and]
      exact (requests_iff kernel K z x g s e).2 hs
    rcases (Finset.mem_filter.1 (hsub hm)).2.2 with h | ⟨-, h⟩
    · exact lt_irrefl _ h
    · unfold ItemBefore at h
      split_ifs at h
      · rcases h with h | h
        · exact lt_irrefl _ h
        · exact lt_irrefl _ h.2
      · exact lt_irrefl _ h

open Classical in
/-- The result where every expert has room for all that ask for it: each token gets the sum over all the experts that it asks for. -/
theorem layer_of_room {T : Nat} (v : VmoeConfig) (fl : ℚ → ℚ) (cdf bf : ℝ → ℝ) (oob : Fin c → ℝ) (mlp : P → (Fin c → ℝ) → Fin c → ℝ)
    (p : MoeParams c v.numExperts P) (x : List (Seq T c)) (cap : Nat)
    (hcap : let d := (router v true).dispatcher
      resolveCapacity fl (v.groupSize * v.numSelected) v.numExperts d.capacity d.capacityFactor d.ceilOrRound d.multipleOf = .ok cap)
    (hS : 0 < v.groupSize) (hdiv : v.groupSize ∣ x.length * T) (hK : 0 < v.numSelected ∧ v.numSelected ≤ v.numExperts)
    (hroom : ∀ g < x.length * T / v.groupSize, ∀ e, demand p.kernel v.numSelected x (g * v.groupSize) v.groupSize e ≤ cap) :
    ∃ m, moeLayer (layer v true fl cdf bf oob mlp) p x = .ok (List.ofFn (fun (b : Fin x.length) (t : Fin T) i =>
      ∑ e ∈ Finset.univ.filter (fun e => Asks p.kernel v.numSelected x (tokenNumber T b t) e),
        expWeights (fun e => ∑ h, tokenOf x.get (tokenNumber T b t) h * p.kernel h e) e *
          bf (mlp (p.experts e) (fun j => bf (x.get b t j)) i)), m) := by
  have hE : 0 < v.numExperts := hK.1.trans_le hK.2
  obtain ⟨out, m, hout, hval⟩ := C72_block_output fl cdf bf (router v true) v.groupSize p.kernel p.z oob p.experts mlp x.get hS hdiv hE
    hK.1 hK.2 (Or.inl rfl) cap hcap
  refine ⟨.topExperts _ m, ?_⟩
  unfold moeLayer layer
  simp only
  rw [hout]
  simp only
  congr 3
  funext b t i
  rw [hval b t i]
  have hn : tokenNumber T b t / v.groupSize * v.groupSize + tokenNumber T b t % v.groupSize = tokenNumber T b t := by
    rw [Nat.mul_comm]
    exact Nat.div_add_mod _ _
  have hlt : tokenNumber T b t < x.length * T := by
    unfold tokenNumber
    calc b.1 * T + t.1 < b.1 * T + T := Nat.add_lt_add_left t.2 _
      _ = (b.1 + 1) * T := by ring
      _ ≤ x.length * T := Nat.mul_le_mul_right _ b.2
  have hg : tokenNumber T b t / v.groupSize < x.length * T / v.groupSize := Nat.div_lt_div_of_lt_of_dvd hdiv hlt
  have hstd : usedStd (router v true) v.numExperts = 0 := by unfold usedStd router; simp
  rw [hstd]
  refine Finset.sum_congr ?_ fun e _ => ?_
  · ext e
    simp only [Finset.mem_filter, Finset.mem_univ, true_and]
    refine (kept_of_room hE _ p.kernel _ cap p.z x _ _ e (hroom _ hg e)).trans ?_
    rw [show (tokenNumber T b t / v.groupSize * v.groupSize +
      ((⟨tokenNumber T b t % v.groupSize, Nat.mod_lt _ hS⟩ : Fin v.groupSize) : ℕ)) = tokenNumber T b t from hn]
  · congr 1
    unfold tokenGates
    simp only [zero_mul, add_zero, hn]

/-- C160: where at most 866 tokens of every four images ask for the same expert, the layers of the attack and those of the evaluation
give the same results: no expert runs out of room in either. -/
theorem C160_agree (fl : ℚ → ℚ) (hfl : Rounding fl) (cdf bf : ℝ → ℝ) (oob : Fin c → ℝ) (mlp : P → (Fin c → ℝ) → Fin c → ℝ)
    (v : VmoeConfig) (hv : evalModel b16FtIlsvrc = .ok v) (hE : v.numExperts = 8) (p : MoeParams c 8 P) (x : List (Seq 577 c))
    (hx : 8 ∣ x.length) (hroom : ∀ g < x.length / 4, ∀ e, demand p.kernel 2 x (g * 2308) 2308 e ≤ 866) :
    ∃ y m m', moeLayer (layer attackModel true fl cdf bf oob mlp) p x = .ok (y, m) ∧
      moeLayer (layer v true fl cdf bf oob mlp) (hE ▸ p) x = .ok (y, m') := by
  obtain ⟨v', -, hv', hm, h4, h8⟩ := C160_model
  obtain rfl : v' = v := Except.ok.inj (hv'.symm.trans hv)
  obtain ⟨w, hw, -, -, -, hcap⟩ := (C160_room fl hfl true).2
  obtain rfl : w = v' := Except.ok.inj (hw.symm.trans hv)
  have hvE : w = { attackModel with groupSize := 8 * 577 } := by
    rw [hm]
    simp only
    rw [← h8]
  subst hvE
  obtain ⟨k, hk⟩ := hx
  have d4 : attackModel.groupSize ∣ x.length * 577 := ⟨2 * k, by rw [h4, hk]; ring⟩
  have d8 : 8 * 577 ∣ x.length * 577 := ⟨k, by rw [hk]; ring⟩
  have n4 : x.length * 577 / attackModel.groupSize = x.length / 4 := by rw [h4]; exact Nat.mul_div_mul_right _ _ (by norm_num)
  have n8 : x.length * 577 / (8 * 577) = x.length / 8 := Nat.mul_div_mul_right _ _ (by norm_num)
  obtain ⟨m, hm1⟩ := layer_of_room attackModel fl cdf bf oob mlp p x 868 (attack_cap fl hfl true) (by rw [h4]; norm_num) d4
    ⟨two_pos, by show 2 ≤ 8; norm_num⟩ (by
      intro g hg e
      rw [n4] at hg
      exact (hroom g hg e).trans (by norm_num))
  obtain ⟨m', hm2⟩ := layer_of_room { attackModel with groupSize := 8 * 577 } fl cdf bf oob mlp p x 1732 (hcap true) (by norm_num) d8
    ⟨two_pos, by show 2 ≤ 8; norm_num⟩ (by
      intro g hg e
      have hg' : g < x.length / 8 := by rw [← n8]; exact hg
      have a := hroom (2 * g) (by omega) e
      have b := hroom (2 * g + 1) (by omega) e
      have := demand_add p.kernel 2 x (g * (8 * 577)) 2308 2308 e
      have e1 : g * (8 * 577) = 2 * g * 2308 := by ring
      have e2 : g * (8 * 577) + 2308 = (2 * g + 1) * 2308 := by ring
      show demand p.kernel 2 x (g * (8 * 577)) (8 * 577) e ≤ 1732
      rw [e2, e1] at this
      rw [show 8 * 577 = 2308 + 2308 from rfl, show g * (2308 + 2308) = 2 * g * 2308 by ring, this]
      omega)
  exact ⟨_, m, m', hm1, hm2⟩

/-- Tokens that ask for two of the experts, in turn: 0 and 1, 2 and 3, and so on. -/
noncomputable def turns : Seq 577 8 := fun t e => if e.1 / 2 = t.1 % 4 then 1 else 0

/-- The kernel that takes the features as scores. -/
noncomputable def scores : Fin 8 → Fin 8 → ℝ := fun h e => if h = e then 1 else 0

theorem turns_asks (n : Nat) (hn : n < 8 * 577) (e : Fin 8) (h : Asks scores 2 (List.replicate 8 turns) n e) : e.1 / 2 = n % 577 % 4 := by
  by_contra hne
  have hlen : (List.replicate 8 turns).length = 8 := List.length_replicate
  have hx : tokenOf (List.replicate 8 turns).get n = turns ⟨n % 577, Nat.mod_lt _ (by norm_num)⟩ := by
    unfold tokenOf
    rw [dif_pos ⟨by rw [hlen]; omega, Nat.mod_lt _ (by norm_num)⟩]
    rw [List.get_eq_getElem, List.getElem_replicate]
  have hl : ∀ e, ∑ h, tokenOf (List.replicate 8 turns).get n h * scores h e = turns ⟨n % 577, Nat.mod_lt _ (by norm_num)⟩ e := by
    intro e
    rw [hx]
    unfold scores
    simp
  unfold Asks at h
  simp only [hl] at h
  have hq : n % 577 % 4 < 4 := Nat.mod_lt _ (by norm_num)
  have hlt : ∀ e', e'.1 / 2 = n % 577 % 4 → expWeights (fun e => turns ⟨n % 577, Nat.mod_lt _ (by norm_num)⟩ e) e <
      expWeights (fun e => turns ⟨n % 577, Nat.mod_lt _ (by norm_num)⟩ e) e' := by
    intro e' he'
    unfold expWeights
    refine div_lt_div_of_pos_right ?_ (Finset.sum_pos (fun _ _ => Real.exp_pos _) ⟨0, Finset.mem_univ _⟩)
    rw [Real.exp_lt_exp]
    unfold turns
    simp only
    rw [if_neg hne, if_pos he']
    norm_num
  have h2 : 2 ≤ choiceRank (fun _ : Fin 1 => expWeights fun e => turns ⟨n % 577, Nat.mod_lt _ (by norm_num)⟩ e) 0 e := by
    unfold choiceRank
    have hc : ({⟨2 * (n % 577 % 4), by omega⟩, ⟨2 * (n % 577 % 4) + 1, by omega⟩} : Finset (Fin 8)).card = 2 := by
      rw [Finset.card_pair]
      intro h
      have := congrArg Fin.val h
      simp only at this
      omega
    rw [← hc]
    refine Finset.card_le_card fun e' he' => ?_
    simp only [Finset.mem_insert, Finset.mem_singleton] at he'
    simp only [Finset.mem_filter, Finset.mem_univ, true_and]
    refine Or.inl (hlt e' ?_)
    rcases he' with rfl | rfl
    · simp
    · simp only
      omega
  omega

/-- Eight images whose tokens ask for the experts in turn meet the condition: 580 tokens of four images ask for an expert, or fewer. -/
example : 8 ∣ (List.replicate 8 turns).length ∧ ∀ g < (List.replicate 8 turns).length / 4, ∀ e,
    demand scores 2 (List.replicate 8 turns) (g * 2308) 2308 e ≤ 866 := by
  have hlen : (List.replicate 8 turns).length = 8 := List.length_replicate
  rw [hlen]
  refine ⟨dvd_rfl, fun g hg e => ?_⟩
  have hcount : ∀ g < 2, ∀ q < 4, ((Finset.range 2308).filter fun s => q = (g * 2308 + s) % 577 % 4).card ≤ 866 := by decide +kernel
  refine le_trans ?_ (hcount g hg (e.1 / 2) (by omega))
  unfold demand
  refine Finset.card_le_card fun s hs => ?_
  simp only [Finset.mem_filter, Finset.mem_range] at hs ⊢
  exact ⟨hs.1, turns_asks _ (by omega) e hs.2⟩

/-- C160: the layers of the attack accept exactly the batches with a multiple of four images, so also all that the evaluation accepts (multiples
of eight). -/
theorem C160_accepts (fl : ℚ → ℚ) (hfl : Rounding fl) (deterministic : Bool) (cdf bf : ℝ → ℝ) (oob : Fin c → ℝ)
    (mlp : P → (Fin c → ℝ) → Fin c → ℝ) (p : MoeParams c 8 P) (x : List (Seq 577 c)) :
    (∃ r, moeLayer (layer attackModel deterministic fl cdf bf oob mlp) p x = .ok r) ↔ 4 ∣ x.length := by
  have herr := C72_block_errors fl cdf bf (router attackModel deterministic) attackModel.groupSize p.kernel p.z oob p.experts mlp x.get
  have hdiv : 0 < attackModel.groupSize ∧ attackModel.groupSize ∣ x.length * 577 ↔ 4 ∣ x.length := by
    have hg : attackModel.groupSize = 4 * 577 := by decide
    rw [hg]
    constructor
    · rintro ⟨-, h⟩
      exact (Nat.mul_dvd_mul_iff_right (by norm_num)).1 h
    · intro h
      exact ⟨by norm_num, (Nat.mul_dvd_mul_iff_right (by norm_num)).2 h⟩
  unfold moeLayer layer
  simp only
  constructor
  · rintro ⟨r, hr⟩
    by_contra hn
    rw [herr.1 (fun h => hn (hdiv.1 h))] at hr
    cases hr
  · intro hx
    obtain ⟨out, hout⟩ := ((herr.2.2 (hdiv.2 hx) ⟨one_le_two, by show 2 ≤ 8; norm_num⟩).2 868 (attack_cap fl hfl deterministic)).2 (Or.inl rfl)
    rw [hout]
    exact ⟨_, rfl⟩

/-- C160: so the batches of the configuration are accepted. -/
theorem C160_batch (fl : ℚ → ℚ) (hfl : Rounding fl) (deterministic : Bool) (cdf bf : ℝ → ℝ) (oob : Fin c → ℝ)
    (mlp : P → (Fin c → ℝ) → Fin c → ℝ) (p : MoeParams c 8 P) (x : List (Seq 577 c)) (hx : x.length = attackBatch) :
    ∃ r, moeLayer (layer attackModel deterministic fl cdf bf oob mlp) p x = .ok r :=
  (C160_accepts fl hfl deterministic cdf bf oob mlp p x).2 (by rw [hx]; decide)

example (v : Seq 577 c) : (List.replicate attackBatch v).length = attackBatch := List.length_replicate

example : 4 ∣ attackBatch ∧ 8 ∣ attackBatch := by decide

theorem same_image (w : VmoeConfig) (h1 : w.numExperts = 8) (h2 : w.numSelected = 2) (G : Nat) (hG : w.groupSize = G * 577) (hG0 : 0 < G) (hG8 : G ∣ 8)
    (cap : Nat) (fl : ℚ → ℚ) (cdf : ℝ → ℝ)
    (hcap : let d := (router w true).dispatcher
      resolveCapacity fl (w.groupSize * w.numSelected) w.numExperts d.capacity d.capacityFactor d.ceilOrRound d.multipleOf = .ok cap)
    (a : Seq 577 c) : ∃ out m,
      moeLayer (layer w true fl cdf id 0 fun (_ : Unit) _ _ => 1) (⟨fun _ _ => 0, fun _ => (), fun _ _ _ => 0⟩ : MoeParams c w.numExperts Unit) (List.replicate 8 a) =
        .ok (List.ofFn out, m) ∧
      ∀ (b : Fin (List.replicate 8 a).length) (i : Fin c), (b.1 * 577 % (G * 577) < cap → 0 < out b 0 i) ∧
        (cap ≤ b.1 * 577 % (G * 577) → out b 0 i = 0) := by
  have hE : 0 < w.numExperts := by omega
  obtain ⟨out, m, hout, hval⟩ := C72_block_output fl cdf id (router w true) w.groupSize (fun (_ : Fin c) (_ : Fin w.numExperts) => (0 : ℝ))
    (fun _ _ _ => 0) 0 (fun _ => ()) (fun _ _ _ => (1 : ℝ)) (List.replicate 8 a).get (by omega)
    (by rw [hG, List.length_replicate]; exact Nat.mul_dvd_mul_right hG8 _) hE (by show 0 < w.numSelected; omega) (by show w.numSelected ≤ _; omega)
    (Or.inl rfl) cap hcap
  have hgates : ∀ n, ∀ s, tokenGates w.groupSize (fun (_ : Fin c) (_ : Fin w.numExperts) => (0 : ℝ)) (usedStd (router w true) w.numExperts)
      (fun _ _ _ => 0) (List.replicate 8 a).get n s = expWeights fun _ => 0 := by
    intro n s
    unfold tokenGates
    simp
  have ht : ∀ b, tokenNumber 577 b 0 = b * 577 := fun b => by unfold tokenNumber; omega
  refine ⟨out, .topExperts _ m, ?_, fun b i => ⟨fun hb => ?_, fun hb => ?_⟩⟩
  · unfold moeLayer layer
    simp only
    rw [hout]
  · rw [hval b 0 i]
    refine Finset.sum_pos ?_ ⟨⟨0, hE⟩, ?_⟩
    · intro e _
      rw [hgates]
      refine mul_pos (expWeights_pos _) ?_
      show (0 : ℝ) < if (router w true).dispatcher.bfloat16 then id 1 else 1
      split_ifs <;> simp
    · simp only [Finset.mem_filter, Finset.mem_univ, true_and]
      refine (kept_same hE _ _ (hgates _) _ _ _ _).2 ⟨?_, ?_⟩
      · have : choiceRank (tokenGates w.groupSize (fun (_ : Fin c) (_ : Fin w.numExperts) => (0 : ℝ)) (usedStd (router w true) w.numExperts)
            (fun _ _ _ => 0) (List.replicate 8 a).get (tokenNumber 577 b 0 / w.groupSize)) ⟨tokenNumber 577 b 0 % w.groupSize, Nat.mod_lt _ (by omega)⟩
            ⟨0, hE⟩ = 0 := by
          unfold choiceRank
          rw [Finset.card_eq_zero, Finset.filter_eq_empty_iff]
          intro e' _
          rw [hgates]
          rintro (h | h)
          · exact lt_irrefl _ h
          · exact Nat.not_lt_zero _ h.2
        show _ < w.numSelected
        rw [h2]
        exact lt_of_eq_of_lt this (by norm_num)
      · show tokenNumber 577 b 0 % w.groupSize < cap
        rw [hG, ht]
        exact hb
  · rw [hval b 0 i, Finset.filter_false_of_mem, Finset.sum_empty]
    intro e _ hk
    have h' : tokenNumber 577 b 0 % w.groupSize < cap := ((kept_same hE _ _ (hgates _) _ _ _ _).1 hk).2
    rw [hG, ht] at h'
    exact absurd hb (not_le.2 h')

/-- C160, limit: in general the results of the attack are not those of the evaluation.  If all the tokens of eight equal images ask for the same
experts, the fifth image is the first of a group of four, but has no place in a group of eight. -/
theorem C160_groups_counterexample (fl : ℚ → ℚ) (hfl : Rounding fl) (cdf : ℝ → ℝ) (hc : 0 < c) (a : Seq 577 c) :
    ∃ v, evalModel b16FtIlsvrc = .ok v ∧ ∃ (mlp : Unit → (Fin c → ℝ) → Fin c → ℝ) (kernel : Fin c → Fin 8 → ℝ) (hE : v.numExperts = 8)
      (y y' : List (Seq 577 c)) (m m' : LayerMetrics),
      let p : MoeParams c 8 Unit := ⟨kernel, fun _ => (), fun _ _ _ => 0⟩
      moeLayer (layer attackModel true fl cdf id 0 mlp) p (List.replicate 8 a) = .ok (y, m) ∧
      moeLayer (layer v true fl cdf id 0 mlp) (hE ▸ p) (List.replicate 8 a) = .ok (y', m') ∧ y[4]? ≠ y'[4]? := by
  obtain ⟨v, hv, h1, h2, h3, hcap⟩ := (C160_room fl hfl true).2
  obtain ⟨v', -, hv', hm, -, h8⟩ := C160_model
  obtain rfl : v' = v := Except.ok.inj (hv'.symm.trans hv)
  have hvE : v' = { attackModel with groupSize := 8 * 577 } := by
    rw [hm]
    simp only
    rw [← h8]
  subst hvE
  refine ⟨_, hv, fun _ _ _ => 1, fun _ _ => 0, rfl, ?_⟩
  obtain ⟨out, m, e1, f1⟩ := same_image attackModel rfl rfl 4 (by decide) (by norm_num) (by decide) 868 fl cdf (attack_cap fl hfl true) a
  obtain ⟨out', m', e2, f2⟩ := same_image { attackModel with groupSize := 8 * 577 } rfl rfl 8 rfl (by norm_num) (by decide) 1732 fl cdf (hcap true) a
  refine ⟨_, _, m, m', e1, e2, ?_⟩
  have hlen : (List.replicate 8 a).length = 8 := List.length_replicate
  have p1 := (f1 ⟨4, by omega⟩ ⟨0, hc⟩).1 (by show 4 * 577 % (4 * 577) < 868; norm_num)
  have p2 := (f2 ⟨4, by omega⟩ ⟨0, hc⟩).2 (by show 1732 ≤ 4 * 577 % (8 * 577); norm_num)
  rw [List.getElem?_ofFn, List.getElem?_ofFn, dif_pos (by omega), dif_pos (by omega)]
  intro h
  have h' := congrFun (congrFun (Option.some.inj h) 0) ⟨0, hc⟩
  rw [p2] at h'
  exact absurd h' p1.ne'

/-! ### The data -/

open Verif.ProcessText Verif.PpOps Verif.ImageOps Verif.DataPipeline

theorem get?_filter {κ ν : Type} [DecidableEq κ] (p : κ → Bool) (d : PyDict κ ν) (k : κ) :
    PyDict.get? (d.filter fun kv => p kv.1) k = if p k then PyDict.get? d k else none := by
  induction d with
  | nil => simp [PyDict.get?]
  | cons kv d ih =>
    obtain ⟨k', v⟩ := kv
    rw [List.filter_cons]
    by_cases hp : p k' = true
    · rw [if_pos hp]
      unfold PyDict.get?
      by_cases hk : k' = k
      · subst hk
        rw [if_pos rfl, if_pos hp, if_pos rfl]
      · rw [if_neg hk, if_neg hk, ih]
    · rw [if_neg hp, ih]
      conv_rhs => unfold PyDict.get?
      by_cases hk : k' = k
      · subst hk
        rw [if_neg hp, if_neg hp]
      · rw [if_neg hk]

/-- The operations of the attack. -/
theorem attack_ops {B : Type} (w : World B) : getDataProcessFn w attackText = .ok (composeFns
    [ikok (onBytes (w.decode 3)) none "image" "image",
     ikok (onImage (ImageOps.resize (w.interpolation "bilinear") (.int 384))) none "image" "image",
     ikok (onImage fun i => .ok (valueRangeOp (-1) 1 0 255 false i)) none "image" "image",
     PpOps.keep ["image", "label"], ikok (onehotOp 1000 1 0) none "label" "labels"]) := by
  have h : MakesAll w _ _ := .cons (makes_decode w) (.cons (makes_resize w 384) (.cons (makes_range w 0)
    (.cons (makes_keep w "image" "label" (by decide) (by decide)) (.cons (makes_onehot_key w 1000 "label" (by decide)) .nil))))
  rw [← getDataProcessFn_of w _ _ (List.cons_ne_nil _ _) h]
  congr 1

/-- C160: the attack prepares the images as the evaluation does: every example is refused by both, for the same reason, or both give the same image, the same
labels and the same mask. -/
theorem C160_data {B : Type} (w : World B) : ∃ f g, getDataProcessFn w attackText = .ok f ∧
    getDataProcessFn w (processText (.resize 384) .label 1000) = .ok g ∧
    ∀ d : PyDict String (Value B), (∃ err, f (.dict d) = .error err ∧ g (.dict d) = .error err) ∨
      ∃ r r', f (.dict d) = .ok r ∧ g (.dict d) = .ok r' ∧
        ∀ k ∈ ["image", "labels", validKey], PyDict.get? r k = PyDict.get? r' k := by
  refine ⟨_, _, attack_ops w, (C140_builds w (.resize 384) .label 1000).1 (fun _ _ => .ok) (by simp [Images.augments]), fun d => ?_⟩
  have hl : labelsOps B 1000 .label = [ikok (onImage fun i => .ok (valueRangeOp (-1) 1 0 255 false i)) none "image" "image",
    ikok (onehotOp 1000 1 0) none "label" "labels", PpOps.keep ["image", "labels"]] := by
    unfold labelsOps
    rfl
  rw [hl]
  simp only [imagesOps, composeFns, List.cons_append, List.nil_append]
  generalize ikok (onBytes (w.decode 3)) none "image" "image" = o1
  generalize ikok (onImage (ImageOps.resize (w.interpolation "bilinear") (.int 384))) none "image" "image" = o2
  generalize (ikok (onImage fun i => .ok (valueRangeOp (-1) 1 0 255 false i)) none "image" "image" : Op (Value B)) = o3
  simp only [applyAll, bind, Except.bind]
  rcases o1 d with err | d1
  · exact Or.inl ⟨err, rfl, rfl⟩
  simp only
  rcases o2 d1 with err | d2
  · exact Or.inl ⟨err, rfl, rfl⟩
  simp only
  rcases o3 d2 with err | d3
  · exact Or.inl ⟨err, rfl, rfl⟩
  simp only [PpOps.keep, ikok, keyOr, PpOps.lookup, bind, Except.bind, pure, Except.pure]
  rw [get?_filter]
  rw [if_pos (by decide)]
  rcases PyDict.get? d3 "label" with _ | l
  · exact Or.inl ⟨_, rfl, rfl⟩
  simp only
  rcases onehotOp 1000 1 0 l with err | l'
  · exact Or.inl ⟨err, rfl, rfl⟩
  refine Or.inr ⟨_, _, rfl, rfl, fun k hk => ?_⟩
  rw [get?_filter, PyDict.get?_set, PyDict.get?_set, get?_filter]
  simp only [List.mem_cons, List.not_mem_nil, or_false] at hk
  rcases hk with rfl | rfl | rfl
  · rw [if_neg (by decide), if_pos (by decide), if_pos (by decide), if_neg (by decide)]
  · rw [if_pos rfl, if_pos (by decide), if_pos rfl]
  · rw [if_neg (by decide), if_pos (by decide), if_pos (by decide), if_neg (by decide)]

end Verif.AttackConfig
