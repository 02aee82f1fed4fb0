import Verif.Props.Relabel
import Verif.Proofs.DataPipeline

/-!
C127: the order of the images in a batch.
-/

namespace Verif.BatchOrder

open Verif Verif.Vmoe Verif.Encoder Verif.Vit Verif.Spec Verif.Moe Verif.Aux Verif.Relabel

variable {T c E S K B : Nat} {P : Type}

/-- Where token `n` of the new batch is in the old one, if image `b` of the new batch is image `π b` of the old one. -/
def tokenMap (T : Nat) (π : Nat → Nat) (n : Nat) : Nat := π (n / T) * T + n % T

/-- `π` puts the `B` images in another order, so that the tokens of one group (of `S` tokens) come from one group. -/
structure Rearranges (T S B : Nat) (π : Nat → Nat) : Prop where
  lt : ∀ b < B, π b < B
  inj : ∀ b < B, ∀ b' < B, π b = π b' → b = b'
  groups : ∀ n < B * T, ∀ n' < B * T, n / S = n' / S → tokenMap T π n / S = tokenMap T π n' / S

/-- Item `b` of the new list is item `π b` of the old one. -/
def Rearranged {V : Type} (π : Nat → Nat) (B : Nat) (x x' : List V) : Prop :=
  x.length = B ∧ x'.length = B ∧ ∀ b < B, x'[b]? = x[π b]?

/-- No two tokens of the group have the same largest gate. -/
def DistinctTop (gates : Fin S → Fin E → ℝ) : Prop :=
  ∀ s s' v, IsGreatest (Set.range (gates s)) v → IsGreatest (Set.range (gates s')) v → s = s'

/-- The choice in the groups of the batch does not have to look at positions: experts process tokens by their largest gates, which
differ (where items choose), or the gates of each expert differ (where experts choose). -/
def Ordered (cfg : MoeConfig c P) (p : MoeParams c E P) (x : List (Seq T c)) : Prop :=
  match cfg.router with
  | .topExperts r => r.dispatcher.batchPriority = true ∧
    ∀ g : Fin (x.length * T / cfg.groupSize), DistinctTop (tokenGates cfg.groupSize p.kernel 0 p.z x.get g)
  | .topItems _ => ∀ g : Fin (x.length * T / cfg.groupSize), ∀ e,
    Function.Injective fun s => tokenGates cfg.groupSize p.kernel 0 p.z x.get g s e

theorem tokenMap_lt {π : Nat → Nat} (hπ : Rearranges T S B π) {n : Nat} (hn : n < B * T) : tokenMap T π n < B * T := by
  have hT : 0 < T := Nat.pos_of_ne_zero fun h => by simp [h] at hn
  have h1 : n / T < B := (Nat.div_lt_iff_lt_mul hT).2 hn
  have h2 := hπ.lt _ h1
  have h3 : n % T < T := Nat.mod_lt _ hT
  unfold tokenMap
  calc π (n / T) * T + n % T < π (n / T) * T + T := by omega
    _ = (π (n / T) + 1) * T := by ring
    _ ≤ B * T := Nat.mul_le_mul_right _ h2

theorem tokenMap_inj {π : Nat → Nat} (hπ : Rearranges T S B π) {n n' : Nat} (hn : n < B * T) (hn' : n' < B * T)
    (h : tokenMap T π n = tokenMap T π n') : n = n' := by
  have hT : 0 < T := Nat.pos_of_ne_zero fun h => by simp [h] at hn
  have h1 : n / T < B := (Nat.div_lt_iff_lt_mul hT).2 hn
  have h1' : n' / T < B := (Nat.div_lt_iff_lt_mul hT).2 hn'
  have hd : ∀ n, tokenMap T π n / T = π (n / T) := by
    intro n
    unfold tokenMap
    rw [Nat.mul_comm, Nat.mul_add_div hT, Nat.div_eq_of_lt (Nat.mod_lt _ hT), Nat.add_zero]
  have hm : ∀ n, tokenMap T π n % T = n % T := by
    intro n
    unfold tokenMap
    rw [Nat.mul_comm, Nat.mul_add_mod, Nat.mod_mod]
  have e1 := hd n
  have e2 := hd n'
  have e3 := hm n
  have e4 := hm n'
  rw [h] at e1 e3
  have h5 := hπ.inj _ h1 _ h1' (e1.symm.trans e2)
  have h6 := e3.symm.trans e4
  rw [← Nat.div_add_mod n T, ← Nat.div_add_mod n' T, h5, h6]

/-- The tokens of a group of the new batch are those of a group of the old one. -/
theorem group_moved {π : Nat → Nat} (hπ : Rearranges T S B π) (hS : 0 < S) (hd : S ∣ B * T) (g : Nat) (hg : g < B * T / S) :
    ∃ (τ : Equiv.Perm (Fin S)), tokenMap T π (g * S) / S < B * T / S ∧
      ∀ s : Fin S, tokenMap T π (g * S + s) = tokenMap T π (g * S) / S * S + τ s := by
  have hlt : ∀ s : Fin S, g * S + s < B * T := by
    intro s
    obtain ⟨q, hq⟩ := hd
    rw [hq, Nat.mul_div_cancel_left _ hS] at hg
    rw [hq]
    calc g * S + s.1 < g * S + S := by have := s.2; omega
      _ = S * (g + 1) := by ring
      _ ≤ S * q := Nat.mul_le_mul_left _ hg
  have hgr : ∀ s : Fin S, tokenMap T π (g * S + s) / S = tokenMap T π (g * S) / S := by
    intro s
    apply hπ.groups _ (hlt s) _ (hlt ⟨0, hS⟩)
    rw [Nat.mul_comm, Nat.mul_add_div hS, Nat.div_eq_of_lt s.2]
    simp [hS]
  have hinj : Function.Injective fun s : Fin S => (⟨tokenMap T π (g * S + s) % S, Nat.mod_lt _ hS⟩ : Fin S) := by
    intro s s' h
    have h1 : tokenMap T π (g * S + s) % S = tokenMap T π (g * S + s') % S := congrArg Fin.val h
    have h2 : tokenMap T π (g * S + s) = tokenMap T π (g * S + s') := by
      rw [← Nat.div_add_mod (tokenMap T π (g * S + s)) S, ← Nat.div_add_mod (tokenMap T π (g * S + s')) S, h1, hgr s, hgr s']
    have h3 := tokenMap_inj hπ (hlt s) (hlt s') h2
    exact Fin.ext (by omega)
  refine ⟨Equiv.ofBijective _ (Finite.injective_iff_bijective.1 hinj), ?_, ?_⟩
  · exact Nat.div_lt_div_of_lt_of_dvd hd (tokenMap_lt hπ (hlt ⟨0, hS⟩))
  · intro s
    rw [← hgr s]
    exact (Nat.div_add_mod' _ _).symm

theorem kept_moved (τ : Equiv.Perm (Fin S)) (hE : 0 < E) (gates : Fin S → Fin E → ℝ) (hn : DistinctTop gates)
    (cap : Nat) (s : Fin S) (e : Fin E) :
    Kept hE true (fun s => gates (τ s)) K cap s e ↔ Kept hE true gates K cap (τ s) e := by
  have hr : ∀ s, choiceRank (fun s => gates (τ s)) s e = choiceRank gates (τ s) e := fun _ => rfl
  have ht : ∀ s, topGate hE (fun s => gates (τ s)) s = topGate hE gates (τ s) := fun _ => rfl
  have hgr : ∀ s, IsGreatest (Set.range (gates s)) (topGate hE gates s) := by
    intro s
    constructor
    · obtain ⟨e, -, he⟩ := Finset.exists_mem_eq_sup' ⟨⟨0, hE⟩, Finset.mem_univ _⟩ (gates s)
      exact ⟨e, he.symm⟩
    · rintro _ ⟨e, rfl⟩
      exact Finset.le_sup' (gates s) (Finset.mem_univ e)
  have hs : slot hE true (fun s => gates (τ s)) K s e = slot hE true gates K (τ s) e := by
    unfold slot
    apply Finset.card_equiv τ
    intro s'
    simp only [Finset.mem_filter, Finset.mem_univ, true_and]
    unfold HigherPriority ItemBefore Requests
    simp only [hr, ht, if_true]
    have key : (topGate hE gates (τ s') = topGate hE gates (τ s) ∧ s' < s) ↔
        (topGate hE gates (τ s') = topGate hE gates (τ s) ∧ τ s' < τ s) := by
      constructor
      · rintro ⟨h1, h2⟩
        have := τ.injective (hn _ _ _ (hgr (τ s')) (h1 ▸ hgr (τ s)))
        exact absurd h2 (by rw [this]; exact lt_irrefl _)
      · rintro ⟨h1, h2⟩
        have := hn _ _ _ (hgr (τ s')) (h1 ▸ hgr (τ s))
        exact absurd h2 (by rw [this]; exact lt_irrefl _)
    rw [key]
  unfold Kept Requests
  rw [hs, hr]

theorem itemRank_moved (τ : Equiv.Perm (Fin S)) (gates : Fin S → Fin E → ℝ) (e : Fin E) (hn : Function.Injective fun s => gates s e)
    (s : Fin S) : itemRank (fun s => gates (τ s)) s e = itemRank gates (τ s) e := by
  unfold itemRank
  apply Finset.card_equiv τ
  intro s'
  simp only [Finset.mem_filter, Finset.mem_univ, true_and]
  constructor
  · rintro (h | ⟨h, h'⟩)
    · exact Or.inl h
    · have := τ.injective (hn h)
      exact absurd h' (by rw [this]; exact lt_irrefl _)
  · rintro (h | ⟨h, h'⟩)
    · exact Or.inl h
    · have := hn h
      exact absurd h' (by rw [this]; exact lt_irrefl _)

theorem importance_moved (τ : Equiv.Perm (Fin S)) (gates : Fin S → Fin E → ℝ) :
    importanceLoss (fun s => gates (τ s)) = importanceLoss gates := by
  have h : ∀ e, ∑ s, gates (τ s) e = ∑ s, gates s e := fun e => Equiv.sum_comp τ fun s => gates s e
  unfold importanceLoss
  simp only [h]

theorem gshard_moved (τ : Equiv.Perm (Fin S)) (hE : 0 < E) (gates : Fin S → Fin E → ℝ) :
    gshardLoss hE (fun s => gates (τ s)) = gshardLoss hE gates := by
  unfold gshardLoss
  simp only
  have h1 : ∀ e, Aux.mean (fun s => gates (τ s) e) = Aux.mean fun s => gates s e :=
    fun e => mean_renumber τ fun s => gates s e
  have h2 : ∀ e, Aux.mean (fun s => if argmax hE (gates (τ s)) = e then (1 : ℝ) else 0) =
      Aux.mean fun s => if argmax hE (gates s) = e then (1 : ℝ) else 0 :=
    fun e => mean_renumber τ fun s => if argmax hE (gates s) = e then (1 : ℝ) else 0
  simp only [h1, h2]

theorem tokenOf_rearranged {π : Nat → Nat} {x x' : List (Seq T c)} (hπ : Rearranges T S B π) (hx : Rearranged π B x x') (n : Nat)
    (hn : n < B * T) : tokenOf x'.get n = tokenOf x.get (tokenMap T π n) := by
  obtain ⟨hl, hl', hget⟩ := hx
  have hT : 0 < T := Nat.pos_of_ne_zero fun h => by simp [h] at hn
  have h1 : n / T < B := (Nat.div_lt_iff_lt_mul hT).2 hn
  have h2 := hπ.lt _ h1
  have hd : tokenMap T π n / T = π (n / T) := by
    unfold tokenMap
    rw [Nat.mul_comm, Nat.mul_add_div hT, Nat.div_eq_of_lt (Nat.mod_lt _ hT), Nat.add_zero]
  have hm : tokenMap T π n % T = n % T := by
    unfold tokenMap
    rw [Nat.mul_comm, Nat.mul_add_mod, Nat.mod_mod]
  unfold tokenOf
  have hm' : n % T < T := Nat.mod_lt _ hT
  rw [dif_pos ⟨by omega, hm'⟩, dif_pos ⟨by rw [hd]; omega, by rw [hm]; exact hm'⟩]
  have h3 := hget _ h1
  rw [List.getElem?_eq_getElem (by omega), List.getElem?_eq_getElem (by omega)] at h3
  have h4 := Option.some.inj h3
  have h5 : x'.get ⟨n / T, by omega⟩ = x.get ⟨tokenMap T π n / T, by rw [hd]; omega⟩ := by
    simp only [List.get_eq_getElem, h4, hd]
  rw [h5]
  exact congrArg (x.get ⟨tokenMap T π n / T, by rw [hd]; omega⟩) (Fin.ext hm.symm)

theorem gates_moved {π : Nat → Nat} {x x' : List (Seq T c)} (hπ : Rearranges T S B π) (hx : Rearranged π B x x') (hS : 0 < S)
    (hd : S ∣ B * T) (kernel : Fin c → Fin E → ℝ) (z z' : Nat → Nat → Nat → ℝ) (g : Nat) (hg : g < B * T / S) :
    ∃ τ : Equiv.Perm (Fin S), tokenMap T π (g * S) / S < B * T / S ∧
      (∀ s : Fin S, tokenMap T π (g * S + s) = tokenMap T π (g * S) / S * S + τ s) ∧
      tokenGates S kernel 0 z' x'.get g = fun s => tokenGates S kernel 0 z x.get (tokenMap T π (g * S) / S) (τ s) := by
  obtain ⟨τ, h1, h2⟩ := group_moved hπ hS hd g hg
  refine ⟨τ, h1, h2, ?_⟩
  funext s e
  have hlt : g * S + s < B * T := by
    obtain ⟨q, hq⟩ := hd
    rw [hq, Nat.mul_div_cancel_left _ hS] at hg
    rw [hq]
    calc g * S + s.1 < g * S + S := by have := s.2; omega
      _ = S * (g + 1) := by ring
      _ ≤ S * q := Nat.mul_le_mul_left _ hg
  unfold tokenGates
  rw [tokenOf_rearranged hπ hx _ hlt, h2]
  simp

theorem groups_moved {π : Nat → Nat} (hπ : Rearranges T S B π) (hS : 0 < S) (hd : S ∣ B * T) :
    ∃ γ : Equiv.Perm (Fin (B * T / S)), ∀ g : Fin (B * T / S), (γ g).1 = tokenMap T π (g * S) / S := by
  have hinj : Function.Injective fun g : Fin (B * T / S) => (⟨tokenMap T π (g * S) / S,
      (group_moved hπ hS hd g g.2).choose_spec.1⟩ : Fin (B * T / S)) := by
    intro g g' h
    have h1 : tokenMap T π (g * S) / S = tokenMap T π (g' * S) / S := congrArg Fin.val h
    obtain ⟨τ, -, ht⟩ := group_moved hπ hS hd g g.2
    obtain ⟨τ', -, ht'⟩ := group_moved hπ hS hd g' g'.2
    have h2 := ht ⟨0, hS⟩
    have h3 := ht' (τ'.symm (τ ⟨0, hS⟩))
    rw [Equiv.apply_symm_apply, ← h1, ← h2] at h3
    have hlt : ∀ (g : Fin (B * T / S)) (s : Fin S), g * S + s < B * T := by
      intro g s
      obtain ⟨g, hg⟩ := g
      simp only
      obtain ⟨q, hq⟩ := hd
      calc g * S + s.1 < g * S + S := by have := s.2; omega
        _ = S * (g + 1) := by ring
        _ ≤ S * q := Nat.mul_le_mul_left _ (by rw [hq, Nat.mul_div_cancel_left _ hS] at hg; exact hg)
        _ = B * T := hq.symm
    have h4 := tokenMap_inj hπ (hlt g' _) (hlt g _) h3
    have h5 : (g'.1 * S + (τ'.symm (τ ⟨0, hS⟩)).1) / S = (g.1 * S + 0) / S := by rw [h4]
    have hdv : ∀ a k, k < S → (a * S + k) / S = a := by
      intro a k hk
      rw [Nat.mul_comm, Nat.mul_add_div hS, Nat.div_eq_of_lt hk, Nat.add_zero]
    rw [hdv _ _ (Fin.isLt _), hdv _ _ hS] at h5
    exact Fin.ext h5.symm
  exact ⟨Equiv.ofBijective _ (Finite.injective_iff_bijective.1 hinj), fun g => rfl⟩

/-- Mean over the groups of the auxiliary loss of a layer. -/
noncomputable def meanAux : LayerMetrics → ℝ
  | .topExperts G m => (∑ g, m.auxiliaryLoss g) / G
  | .topItems _ _ _ r => r.auxiliaryLoss

theorem tokenMap_token {π : Nat → Nat} (b t : Nat) (ht : t < T) : tokenMap T π (tokenNumber T b t) = tokenNumber T (π b) t := by
  have hT : 0 < T := by omega
  unfold tokenMap tokenNumber
  rw [Nat.mul_comm b T, Nat.mul_add_div hT, Nat.mul_add_mod, Nat.div_eq_of_lt ht, Nat.mod_eq_of_lt ht, Nat.add_zero]

theorem mean_moved {G G1 G2 : Nat} (h1 : G1 = G) (h2 : G2 = G) (γ : Equiv.Perm (Fin G)) (v1 : Fin G1 → ℝ) (v2 : Fin G2 → ℝ)
    (h : ∀ g : Fin G, v1 ⟨γ g, h1 ▸ (γ g).2⟩ = v2 ⟨g, h2 ▸ g.2⟩) : (∑ g, v1 g) / G1 = (∑ g, v2 g) / G2 := by
  subst h1
  subst h2
  rw [← Equiv.sum_comp γ v1]
  congr 1
  exact Finset.sum_congr rfl fun g _ => h g

/-- A token of the new batch, its group and its place in the old batch. -/
theorem token_moved {π : Nat → Nat} {x x' : List (Seq T c)} (hπ : Rearranges T S B π) (hx : Rearranged π B x x') (hS : 0 < S)
    (hd : S ∣ B * T) (kernel : Fin c → Fin E → ℝ) (z : Nat → Nat → Nat → ℝ) (b : Nat) (hb : b < B) (t : Fin T) :
    ∃ τ : Equiv.Perm (Fin S), tokenNumber T (π b) t / S < B * T / S ∧
      τ ⟨tokenNumber T b t % S, Nat.mod_lt _ hS⟩ = ⟨tokenNumber T (π b) t % S, Nat.mod_lt _ hS⟩ ∧
      tokenGates S kernel 0 z x'.get (tokenNumber T b t / S) =
        fun s => tokenGates S kernel 0 z x.get (tokenNumber T (π b) t / S) (τ s) := by
  have hlt := MoeBlock.tokenNumber_lt (⟨b, hb⟩ : Fin B) t
  have hg : tokenNumber T b t / S < B * T / S := Nat.div_lt_div_of_lt_of_dvd hd hlt
  obtain ⟨τ, h1, h2, h3⟩ := gates_moved hπ hx hS hd kernel z z _ hg
  have h4 := h2 ⟨tokenNumber T b t % S, Nat.mod_lt _ hS⟩
  simp only [Nat.div_add_mod'] at h4
  rw [tokenMap_token b t t.2] at h4
  have h5 : tokenNumber T (π b) t / S = tokenMap T π (tokenNumber T b t / S * S) / S := by
    rw [h4, Nat.mul_comm, Nat.mul_add_div hS, Nat.div_eq_of_lt (Fin.isLt _), Nat.add_zero]
  refine ⟨τ, ?_, ?_, ?_⟩
  · rw [h5]
    exact h1
  · apply Fin.ext
    rw [h4]
    simp only
    rw [Nat.mul_comm, Nat.mul_add_mod, Nat.mod_eq_of_lt (Fin.isLt _)]
  · rw [h5]
    exact h3

theorem rearranged_ofFn {V : Type} {π : Nat → Nat} {n n' : Nat} (hn : n = B) (hn' : n' = B) (y : Fin n → V) (y' : Fin n' → V)
    (hlt : ∀ b < B, π b < B) (h : ∀ (b : Nat) (hb : b < B), y' ⟨b, hn' ▸ hb⟩ = y ⟨π b, hn ▸ hlt b hb⟩) :
    Rearranged π B (List.ofFn y) (List.ofFn y') := by
  subst hn hn'
  refine ⟨List.length_ofFn, List.length_ofFn, ?_⟩
  intro b hb
  rw [List.getElem?_ofFn, List.getElem?_ofFn, dif_pos hb, dif_pos (hlt b hb), h b hb]

/-- C127.  Without noise, and if no two tokens of a group tie, a MoE layer with batch priority, or where experts choose, gives
every image of the rearranged batch what it gives it in the old batch, with the same mean auxiliary loss. -/
theorem C127_layer (cfg : MoeConfig c P) (p : MoeParams c E P) (hq : cfg.router.noiseless) (π : Nat → Nat)
    (hπ : Rearranges T cfg.groupSize B π) (x x' : List (Seq T c)) (hx : Rearranged π B x x') (hn : Ordered cfg p x) (y m)
    (h : moeLayer cfg p x = .ok (y, m)) :
    ∃ y' m', moeLayer cfg p x' = .ok (y', m') ∧ Rearranged π B y y' ∧ meanAux m = meanAux m' := by
  have hl := hx.1
  have hl' := hx.2.1
  unfold Ordered at hn
  unfold moeLayer at h ⊢
  rcases hr : cfg.router with rc | rc
  · rw [hr] at hn h hq
    simp only at hn h ⊢
    split at h
    · cases h
    rename_i o1 m1 h1
    cases h
    obtain ⟨hS, hk, hname, cap, hcap⟩ := success h1
    have hE : 0 < E := Nat.lt_of_lt_of_le hk.1 hk.2
    have hd : cfg.groupSize ∣ B * T := hl ▸ hS.2
    obtain ⟨o1', m1', e1, f1⟩ := MoeBlock.C72_block_output cfg.fl cfg.cdf cfg.bf rc cfg.groupSize p.kernel p.z cfg.oob
      p.experts cfg.mlp x.get hS.1 hS.2 hE hk.1 hk.2 hname cap hcap
    rw [h1] at e1
    cases e1
    obtain ⟨o2, m2, h2, f2⟩ := MoeBlock.C72_block_output cfg.fl cfg.cdf cfg.bf rc cfg.groupSize p.kernel p.z cfg.oob
      p.experts cfg.mlp x'.get hS.1 (by rw [hl']; exact hd) hE hk.1 hk.2 hname cap hcap
    rw [h2]
    refine ⟨_, _, rfl, ?_, ?_⟩
    · apply rearranged_ofFn hl hl' o1 o2 hπ.lt
      intro b hb
      funext t i
      obtain ⟨τ, hg, hτ, hgates⟩ := token_moved hπ hx hS.1 hd p.kernel p.z b hb t
      have g1 := f1 ⟨π b, hl ▸ hπ.lt b hb⟩ t i
      have g2 := f2 ⟨b, hl' ▸ hb⟩ t i
      have hxb : x'.get ⟨b, hl' ▸ hb⟩ = x.get ⟨π b, hl ▸ hπ.lt b hb⟩ := by
        have := hx.2.2 b hb
        rw [List.getElem?_eq_getElem (by omega), List.getElem?_eq_getElem (by have := hπ.lt b hb; omega)] at this
        exact Option.some.inj this
      simp only [usedStd_zero rc hq] at g1 g2
      rw [g1, g2, hgates, hxb, hn.1]
      have hn' := hn.2 ⟨tokenNumber T (π b) t / cfg.groupSize, by rw [hl]; exact hg⟩
      rw [← hτ]
      apply Finset.sum_congr
      · ext e
        simp only [Finset.mem_filter, Finset.mem_univ, true_and]
        exact kept_moved τ hE _ hn' cap _ e
      · intro e _
        rfl
    · have hmm : ∀ g : Fin (x.length * T / cfg.groupSize), ∀ g' : Fin (x'.length * T / cfg.groupSize),
          g.1 = tokenMap T π (g'.1 * cfg.groupSize) / cfg.groupSize → m1.auxiliaryLoss g = m2.auxiliaryLoss g' := by
        intro g g' hgg
        obtain ⟨a1, b1, c1, -⟩ := MoeBlock.C72_metrics _ _ _ _ _ _ _ _ _ _ _ _ _ h1 hE g
        obtain ⟨a2, b2, c2, -⟩ := MoeBlock.C72_metrics _ _ _ _ _ _ _ _ _ _ _ _ _ h2 hE g'
        rw [(c1 hq).2, (c2 hq).2, a1, a2, b1, b2, usedStd_zero rc hq]
        obtain ⟨τ, -, -, hgates⟩ := gates_moved hπ hx hS.1 hd p.kernel p.z p.z g'.1 (by rw [← hl']; exact g'.2)
        rw [hgates, hgg, importance_moved τ (tokenGates cfg.groupSize p.kernel 0 p.z x.get _),
          gshard_moved τ hE (tokenGates cfg.groupSize p.kernel 0 p.z x.get _)]
      obtain ⟨γ, hγ⟩ := groups_moved hπ hS.1 hd
      unfold meanAux
      simp only
      exact mean_moved (by rw [hl]) (by rw [hl']) γ _ _ fun g => hmm _ _ (hγ g)
  · rw [hr] at hn h hq
    simp only at hn h ⊢
    split at h
    · cases h
    rename_i o1 r1 h1
    cases h
    obtain ⟨hS, hE, d, hdd, hname, hk, cap, hcap, hC⟩ := ExpertChoice.success h1
    have hd : cfg.groupSize ∣ B * T := hl ▸ hS.2
    obtain ⟨o1', r1', e1, f1, a1, -⟩ := ExpertChoice.C78_block_output cfg.fl cfg.bf rc cfg.groupSize p.kernel p.z p.experts
      cfg.mlp x.get hS.1 hS.2 hE d hdd cap hcap hname hC hk
    rw [h1] at e1
    cases e1
    obtain ⟨o2, r2, h2, f2, a2, -⟩ := ExpertChoice.C78_block_output cfg.fl cfg.bf rc cfg.groupSize p.kernel p.z p.experts
      cfg.mlp x'.get hS.1 (by rw [hl']; exact hd) hE d hdd cap hcap hname hC hk
    rw [h2]
    refine ⟨_, _, rfl, ?_, ?_⟩
    · apply rearranged_ofFn hl hl' o1 o2 hπ.lt
      intro b hb
      funext t i
      obtain ⟨τ, hg, hτ, hgates⟩ := token_moved hπ hx hS.1 hd p.kernel p.z b hb t
      have g1 := f1 ⟨π b, hl ▸ hπ.lt b hb⟩ t i
      have g2 := f2 ⟨b, hl' ▸ hb⟩ t i
      have hxb : x'.get ⟨b, hl' ▸ hb⟩ = x.get ⟨π b, hl ▸ hπ.lt b hb⟩ := by
        have := hx.2.2 b hb
        rw [List.getElem?_eq_getElem (by omega), List.getElem?_eq_getElem (by have := hπ.lt b hb; omega)] at this
        exact Option.some.inj this
      simp only [sigma_zero rc hq] at g1 g2
      rw [g1, g2, hgates, hxb]
      have hn' := hn ⟨tokenNumber T (π b) t / cfg.groupSize, by rw [hl]; exact hg⟩
      rw [← hτ]
      apply Finset.sum_congr
      · ext e
        simp only [Finset.mem_filter, Finset.mem_univ, true_and]
        rw [itemRank_moved τ _ e (hn' e)]
      · intro e _
        rfl
    · unfold meanAux
      simp only
      rw [a1, a2]

theorem rearranged_map {V W : Type} {π : Nat → Nat} {x x' : List V} (h : Rearranged π B x x') (f : V → W) :
    Rearranged π B (x.map f) (x'.map f) := by
  obtain ⟨h1, h2, h3⟩ := h
  refine ⟨by rw [List.length_map, h1], by rw [List.length_map, h2], ?_⟩
  intro b hb
  rw [List.getElem?_map, List.getElem?_map, h3 b hb]

theorem rearranged_zip {U V W : Type} {π : Nat → Nat} {x x' : List U} {y y' : List V} (h : Rearranged π B x x')
    (hy : Rearranged π B y y') (f : U → V → W) : Rearranged π B (List.zipWith f x y) (List.zipWith f x' y') := by
  obtain ⟨h1, h2, h3⟩ := h
  obtain ⟨g1, g2, g3⟩ := hy
  refine ⟨by rw [List.length_zipWith, h1, g1, Nat.min_self], by rw [List.length_zipWith, h2, g2, Nat.min_self], ?_⟩
  intro b hb
  rw [List.getElem?_zipWith, List.getElem?_zipWith, h3 b hb, g3 b hb]

theorem rearranged_mapM {V W : Type} {π : Nat → Nat} {x x' : List V} (hlt : ∀ b < B, π b < B) (h : Rearranged π B x x')
    (f : V → Except PyErr W) (y : List W) (hy : x.mapM f = .ok y) : ∃ y', x'.mapM f = .ok y' ∧ Rearranged π B y y' := by
  rcases Nat.eq_zero_or_pos B with hB | hB
  · subst hB
    obtain ⟨h1, h2, -⟩ := h
    rw [List.length_eq_zero_iff.1 h1] at hy
    cases hy
    rw [List.length_eq_zero_iff.1 h2]
    exact ⟨[], rfl, rfl, rfl, fun b hb => absurd hb (Nat.not_lt_zero _)⟩
  obtain ⟨hlen, hval⟩ := mapM_getElem? hy
  have hd : ∃ d : W, d ∈ y := by
    have : 0 < y.length := by rw [hlen, h.1]; exact hB
    exact ⟨y[0], List.getElem_mem _⟩
  obtain ⟨d, -⟩ := hd
  have hval' : y = x.map fun v => valueOf d (f v) := mapM_value d f x y hy
  refine ⟨x'.map fun v => valueOf d (f v), ?_, ?_⟩
  · apply DataPipeline.mapM_ok_eq
    intro v hv
    obtain ⟨b, hb, rfl⟩ := List.mem_iff_getElem.1 hv
    have h3 := h.2.2 b (by rw [← h.2.1]; exact hb)
    rw [List.getElem?_eq_getElem hb] at h3
    obtain ⟨w, -, hw⟩ := hval (π b) _ h3.symm
    rw [hw]
    rfl
  · rw [hval']
    exact rearranged_map h _

/-- No layer of the model has to look at positions; the batch goes through the blocks in order. -/
def OrderedAlong (cfg : MoeConfig c P) (params : Nat → MoeParams c E P) (blocks : Nat → BlockFns (Seq T c))
    (dense : Nat → Seq T c → Seq T c) (moeLayers : List Int) : List Nat → List (Seq T c) → Prop
  | [], _ => True
  | b :: rest, x =>
    if (b : Int) ∈ moeLayers then
      Ordered cfg (params b) ((attention (blocks b) x).map (blocks b).norm) ∧
        ∀ y m, moeBlock (blocks b) (moeLayer cfg (params b)) x = .ok (y, m) →
          OrderedAlong cfg params blocks dense moeLayers rest y
    else OrderedAlong cfg params blocks dense moeLayers rest (denseBlock (blocks b) (dense b) x)

theorem loop_moved (cfg : MoeConfig c P) (params : Nat → MoeParams c E P) (hq : cfg.router.noiseless) (π : Nat → Nat)
    (hπ : Rearranges T cfg.groupSize B π) (blocks : Nat → BlockFns (Seq T c)) (dense : Nat → Seq T c → Seq T c)
    (moeLayers : List Int) (ids : List Nat) :
    ∀ (x x' : List (Seq T c)) (ms ms' : PyDict (List Char) LayerMetrics), Rearranged π B x x' →
    SameItems (fun m m' => meanAux m = meanAux m') ms ms' →
    OrderedAlong cfg params blocks dense moeLayers ids x →
    ∀ y n, loop ⟨blocks, dense, fun i => moeLayer cfg (params i)⟩ moeLayers ids x ms = .ok (y, n) →
    ∃ y' n', loop ⟨blocks, dense, fun i => moeLayer cfg (params i)⟩ moeLayers ids x' ms' = .ok (y', n') ∧
      Rearranged π B y y' ∧ SameItems (fun m m' => meanAux m = meanAux m') n n' := by
  induction ids with
  | nil =>
    intro x x' ms ms' hx hms _ y n h
    rw [loop] at h
    cases h
    exact ⟨x', ms', rfl, hx, hms⟩
  | cons b rest ih =>
    intro x x' ms ms' hx hms hn y n h
    rw [OrderedAlong] at hn
    rw [loop] at h ⊢
    have hat : Rearranged π B (attention (blocks b) x) (attention (blocks b) x') := rearranged_map hx _
    by_cases hb : (b : Int) ∈ moeLayers
    · rw [if_pos hb] at hn h ⊢
      obtain ⟨hn1, hn2⟩ := hn
      unfold moeBlock at hn2 h ⊢
      simp only at hn2 h ⊢
      rcases hl : moeLayer cfg (params b) ((attention (blocks b) x).map (blocks b).norm) with err | ⟨y1, m1⟩
      · rw [hl] at h
        cases h
      obtain ⟨y2, m2, hl2, hy, hm⟩ := C127_layer cfg (params b) hq π hπ _ _ (rearranged_map hat (blocks b).norm) hn1 y1 m1 hl
      rw [hl] at h hn2
      rw [hl2]
      exact ih _ _ _ _ (rearranged_zip hat hy _) (sameItems_set hms _ hm) (hn2 _ _ rfl) y n h
    · rw [if_neg hb] at hn h ⊢
      exact ih _ _ _ _ (rearranged_zip hat (rearranged_map (rearranged_map hat _) _) _) hms hn y n h

theorem final_moved {ms ms' : PyDict (List Char) LayerMetrics} (h : SameItems (fun m m' => meanAux m = meanAux m') ms ms') :
    PyDict.get? (finalMetrics meanAux ms) auxName = PyDict.get? (finalMetrics meanAux ms') auxName := by
  unfold finalMetrics
  have hs : (ms.map fun kv => meanAux kv.2).sum = (ms'.map fun kv => meanAux kv.2).sum := by
    congr 1
    induction h with
    | nil => rfl
    | cons hab _ ih => rw [List.map_cons, List.map_cons, ih, hab.2]
  rw [hs, PyDict.get?_set, PyDict.get?_set, if_pos rfl, if_pos rfl]

variable {ph pw D r H W : Nat}

/-- C127.  A model without noise in the routers, with batch priority or where experts choose, makes the same prediction for every
image when the batch is put in another order that keeps groups together, and has the same total auxiliary loss, if no tokens tie. -/
theorem C127_model (q : Params ph pw D c r) (classifier : List Char) (num_classes : Option Nat)
    (position_emb : Option (Option PosEmb)) (cfg : MoeConfig c P) (params : Nat → MoeParams c E P)
    (blocks : Nat → BlockFns (Seq T c)) (dense : Nat → Seq T c → Seq T c) (post : Seq T c → Seq T c)
    (pe : List (Vec c)) (numLayers : Nat) (moeLayers : List Int) (hq : cfg.router.noiseless) (π : Nat → Nat)
    (hπ : Rearranges T cfg.groupSize B π) (images images' : List (Image H W D)) (hi : Rearranged π B images images')
    (hn : ∀ pos x, encoderPosEmb position_emb (convSize H ph) (convSize W pw) = .ok pos →
      ((images.map (tokens q classifier)).map fun l (t : Fin T) => l.getD t 0).mapM (addPos pos pe) = .ok x →
      OrderedAlong cfg params blocks dense moeLayers (List.range numLayers) x) (out m)
    (h : visionTransformer q classifier num_classes position_emb
        (encoder T cfg params blocks dense meanAux post pe numLayers moeLayers) images = .ok (out, m)) :
    ∃ out' m', visionTransformer q classifier num_classes position_emb
        (encoder T cfg params blocks dense meanAux post pe numLayers moeLayers) images' = .ok (out', m') ∧
      Rearranged π B (Out.rows out) (Out.rows out') ∧ PyDict.get? m auxName = PyDict.get? m' auxName := by
  unfold visionTransformer at h ⊢
  rcases hpos : encoderPosEmb position_emb (convSize H ph) (convSize W pw) with err | pos
  · rw [hpos] at h
    cases h
  rw [hpos] at h
  simp only at h ⊢
  split at h
  · cases h
  rename_i x ms henc
  have henc' : ∃ x' ms', encoder T cfg params blocks dense meanAux post pe numLayers moeLayers pos
      (images'.map (tokens q classifier)) = .ok (x', ms') ∧ Rearranged π B x x' ∧
      PyDict.get? ms auxName = PyDict.get? ms' auxName := by
    unfold encoder encoderMoe at henc ⊢
    generalize hx : List.mapM (addPos pos pe) _ = xs at henc
    rcases xs with err | x0
    · cases henc
    obtain ⟨x0', hx', hr0⟩ := rearranged_mapM hπ.lt (rearranged_map (rearranged_map hi (tokens q classifier))
      fun l (t : Fin T) => l.getD t 0) (addPos pos pe) x0 hx
    simp only at henc
    generalize hx1 : List.mapM (addPos pos pe) _ = xs1
    have hxx : xs1 = .ok x0' := hx1.symm.trans hx'
    subst hxx
    simp only
    generalize hl : loop (⟨blocks, dense, fun i => moeLayer cfg (params i)⟩ : Layers (Seq T c) LayerMetrics) moeLayers
      (List.range numLayers) x0 [] = res at henc
    rcases res with err | ⟨y1, n1⟩
    · cases henc
    obtain ⟨y2, n2, hl2, hy, hm⟩ := loop_moved cfg params hq π hπ blocks dense moeLayers (List.range numLayers) x0 x0' [] [] hr0 .nil
      (hn pos x0 hpos hx) y1 n1 hl
    rw [hl2]
    cases henc
    exact ⟨_, _, rfl, rearranged_map (rearranged_map hy _) _, final_moved hm⟩
  obtain ⟨x', ms', he', hx', hm'⟩ := henc'
  rw [he']
  simp only
  have hfin : ∀ v v' : List (Vec c), Rearranged π B v v' → Rearranged π B
      (Out.rows (finish q.head num_classes (v.map q.preLogits))) (Out.rows (finish q.head num_classes (v'.map q.preLogits))) := by
    intro v v' hv
    match num_classes with
    | none => exact rearranged_map (rearranged_map hv _) _
    | some 0 => exact rearranged_map (rearranged_map hv _) _
    | some (n + 1) => exact rearranged_map (rearranged_map (rearranged_map hv _) _) _
  by_cases h1 : classifier = "token".toList ∨ classifier = "0".toList
  · rw [if_pos h1] at h ⊢
    cases h
    exact ⟨_, _, rfl, hfin _ _ (rearranged_map hx' _), hm'⟩
  rw [if_neg h1] at h ⊢
  by_cases h2 : classifier = "gap".toList
  · rw [if_pos h2] at h ⊢
    cases h
    exact ⟨_, _, rfl, hfin _ _ (rearranged_map hx' _), hm'⟩
  rw [if_neg h2] at h ⊢
  by_cases h3 : classifier = "map".toList
  · rw [if_pos h3] at h ⊢
    cases h
    exact ⟨_, _, rfl, hfin _ _ (rearranged_map hx' _), hm'⟩
  · rw [if_neg h3] at h
    cases h

/-! Two images of one token in one group, two experts with room for one token each; both tokens prefer the second expert. -/

/-- One selected expert, no noise. -/
noncomputable def exRouter (bp : Bool) : MoeBlock.RouterConfig :=
  ⟨1, 0, 0, 0, 0, ⟨"einsum", bp, some 1, none, "ceil", none, false⟩, true⟩

/-- The experts change nothing. -/
noncomputable def exConfig (bp : Bool) : MoeConfig 1 Unit where
  fl := id
  cdf := id
  bf := id
  router := .topExperts (exRouter bp)
  groupSize := 2
  oob := fun _ => 0
  mlp := fun _ v => v

/-- Positive tokens prefer the second expert. -/
noncomputable def exParams : MoeParams 1 2 Unit := ⟨fun _ e => e.1, fun _ => (), fun _ _ _ => 0⟩

/-- An image of one token with one feature. -/
def exImage (a : ℝ) : Seq 1 1 := fun _ _ => a

theorem exGates (a b : ℝ) (s : Fin 2) :
    tokenGates 2 exParams.kernel 0 exParams.z [exImage a, exImage b].get 0 s = gate exParams.kernel (fun _ => if s = 0 then a else b) := by
  have := gates_token exParams.kernel exParams.z [exImage a, exImage b].get s (0 : Fin 1) (S := 2) (by decide)
  have h1 : tokenNumber 1 s.1 (0 : Fin 1) / 2 = 0 := by
    have := s.2
    simp only [tokenNumber]
    omega
  have h2 : (⟨tokenNumber 1 s.1 (0 : Fin 1) % 2, Nat.mod_lt _ (by decide)⟩ : Fin 2) = s := by
    apply Fin.ext
    have := s.2
    simp only [tokenNumber]
    omega
  rw [h1, h2] at this
  rw [this]
  congr 1
  fin_cases s <;> rfl

theorem exGate (a : ℝ) (e : Fin 2) : gate exParams.kernel (fun _ => a) e = Real.exp (a * e.1) / (1 + Real.exp a) := by
  unfold gate expWeights exParams
  simp

theorem exKept {gates : Fin 2 → Fin 2 → ℝ} (h : ∀ s, gates s 0 < gates s 1) (s e : Fin 2) :
    Kept (by decide) false gates 1 1 s e ↔ e = 1 ∧ s = 0 := by
  have hr : ∀ s e, choiceRank gates s e = if e = 1 then 0 else 1 := by
    intro s e
    unfold choiceRank
    have h1 := h s
    rw [Finset.card_filter, Fin.sum_univ_two]
    fin_cases e
    · simp [h1]
    · simp [h1.le, h1.ne]
  unfold Kept slot HigherPriority Requests ItemBefore
  simp only [hr, Nat.lt_irrefl, false_or, true_and, Nat.lt_one_iff, Finset.card_eq_zero,
    Finset.filter_eq_empty_iff, Finset.mem_univ, forall_true_left, Bool.false_eq_true, if_false]
  fin_cases e
  · simp
  · constructor
    · rintro ⟨-, h'⟩
      refine ⟨rfl, ?_⟩
      have := @h' 0
      fin_cases s
      · rfl
      · simp at this
    · rintro ⟨-, rfl⟩
      refine ⟨by simp, ?_⟩
      intro x
      simp

theorem exValue (a b : ℝ) (ha : 0 < a) (hb : 0 < b) :
    ∃ y m v, moeLayer (exConfig false) exParams [exImage a, exImage b] = .ok (y, m) ∧ v ≠ 0 ∧ y = [exImage v, exImage 0] := by
  obtain ⟨out, m, h, ho⟩ := MoeBlock.C72_block_output (exConfig false).fl (exConfig false).cdf (exConfig false).bf (exRouter false) 2
    exParams.kernel exParams.z (exConfig false).oob exParams.experts (exConfig false).mlp [exImage a, exImage b].get (by decide) ⟨1, rfl⟩
    (by decide) Nat.one_pos (by decide) (Or.inl rfl) 1 rfl
  have hstd : MoeBlock.usedStd (exRouter false) 2 = 0 := if_pos rfl
  have hlt : ∀ s, tokenGates 2 exParams.kernel 0 exParams.z [exImage a, exImage b].get 0 s 0 <
      tokenGates 2 exParams.kernel 0 exParams.z [exImage a, exImage b].get 0 s 1 := by
    intro s
    rw [exGates, exGate, exGate]
    have hp : 0 < (if s = 0 then a else b) := by split <;> assumption
    generalize (if s = 0 then a else b) = w at hp
    apply div_lt_div_of_pos_right _ (by positivity)
    apply Real.exp_lt_exp.2
    simpa using hp
  have hval : ∀ (k : Fin 2) (t i : Fin 1), out k t i =
      if k = 0 then gate exParams.kernel (fun _ => a) 1 * a else 0 := by
    intro k t i
    have h1 := ho k t i
    simp only [hstd] at h1
    rw [h1]
    have hk : (⟨tokenNumber 1 k t % 2, Nat.mod_lt _ (by decide)⟩ : Fin 2) = k := by
      apply Fin.ext
      have := k.2
      have := t.2
      simp only [tokenNumber]
      omega
    have hg : tokenNumber 1 k t / 2 = 0 := by
      have := k.2
      have := t.2
      simp only [tokenNumber]
      omega
    have hkept : ∀ e, Kept (E := 2) (by decide) (exRouter false).dispatcher.batchPriority
        (tokenGates 2 exParams.kernel 0 exParams.z [exImage a, exImage b].get (tokenNumber 1 k t / 2)) (exRouter false).numSelected 1
        ⟨tokenNumber 1 k t % 2, Nat.mod_lt _ (by decide)⟩ e ↔ e = 1 ∧ k = 0 := by
      intro e
      rw [hk, hg]
      exact exKept hlt k e
    simp only [hkept]
    rw [hg, hk]
    by_cases h0 : k = 0
    · subst h0
      rw [if_pos rfl]
      have : (Finset.univ.filter fun e : Fin 2 => e = 1 ∧ (0 : Fin 2) = 0) = {1} := by decide
      refine (Finset.sum_congr this fun _ _ => rfl).trans ?_
      rw [Finset.sum_singleton, exGates, if_pos rfl]
      rfl
    · rw [if_neg h0, Finset.filter_false_of_mem (fun _ _ hh => h0 hh.2)]
      rfl
  refine ⟨List.ofFn out, .topExperts _ m, gate exParams.kernel (fun _ => a) 1 * a, ?_, ?_, ?_⟩
  · have h' : MoeBlock.mlpMoeBlock (exConfig false).fl (exConfig false).cdf (exConfig false).bf (exRouter false)
      (exConfig false).groupSize exParams.kernel exParams.z
      (exConfig false).oob exParams.experts (exConfig false).mlp [exImage a, exImage b].get = .ok (out, m) := h
    unfold moeLayer
    rw [show (exConfig false).router = .topExperts (exRouter false) from rfl]
    simp only
    rw [h']
    rfl
  · rw [exGate]
    positivity
  · have e0 : out 0 = exImage (gate exParams.kernel (fun _ => a) 1 * a) := by
      funext t i
      exact hval 0 t i
    have e1 : out 1 = exImage 0 := by
      funext t i
      exact hval 1 t i
    rw [← e0, ← e1]
    rfl

theorem exSwap : Rearranges 1 2 2 (fun b => 1 - b) := by
  refine ⟨?_, ?_, ?_⟩
  · intro b hb; omega
  · intro b hb b' hb' h; omega
  · intro n hn n' hn' h
    unfold tokenMap
    simp only
    omega

theorem exDistinct (a b : ℝ) (ha : 0 < a) (hab : a < b) :
    DistinctTop (tokenGates 2 exParams.kernel 0 exParams.z [exImage a, exImage b].get 0) := by
  have hgr : ∀ w : ℝ, 0 < w → ∀ v, IsGreatest (Set.range (gate exParams.kernel fun _ => w)) v → v = 1 - 1 / (1 + Real.exp w) := by
    intro w hw v hv
    have hp := Real.exp_pos w
    have h1 : IsGreatest (Set.range (gate exParams.kernel fun _ => w)) (gate exParams.kernel (fun _ => w) 1) := by
      refine ⟨⟨1, rfl⟩, ?_⟩
      rintro _ ⟨e, rfl⟩
      fin_cases e
      · change gate exParams.kernel (fun _ => w) 0 ≤ _
        rw [exGate, exGate]
        apply div_le_div_of_nonneg_right _ (by positivity)
        apply Real.exp_le_exp.2
        simp [hw.le]
      · exact le_refl _
    rw [hv.unique h1, exGate]
    field_simp
    simp
  have hne : (1 : ℝ) - 1 / (1 + Real.exp a) ≠ 1 - 1 / (1 + Real.exp b) := by
    have h1 := Real.exp_pos a
    have h2 := Real.exp_lt_exp.2 hab
    have : 1 / (1 + Real.exp b) < 1 / (1 + Real.exp a) := one_div_lt_one_div_of_lt (by positivity) (by linarith)
    intro h
    linarith
  intro s s' v hs hs'
  rw [exGates] at hs hs'
  have e1 := hgr _ (by split <;> linarith) v hs
  have e2 := hgr _ (by split <;> linarith) v hs'
  fin_cases s <;> fin_cases s'
  · rfl
  · exact absurd (e1.symm.trans e2) hne
  · exact absurd (e2.symm.trans e1) hne
  · rfl

/-- C127, limit.  Without batch priority the order matters even if no tokens tie: with little room the image that comes first is
processed and the other one is dropped. -/
theorem C127_no_priority_counterexample : ∃ (p : MoeParams 1 2 Unit) (x x' y y' : List (Seq 1 1)) (m m' : LayerMetrics),
    (∀ g : Fin (x.length * 1 / 2), DistinctTop (tokenGates 2 p.kernel 0 p.z x.get g)) ∧ Rearranged (fun b => 1 - b) 2 x x' ∧
    moeLayer (exConfig false) p x = .ok (y, m) ∧ moeLayer (exConfig false) p x' = .ok (y', m') ∧
    ¬ Rearranged (fun b => 1 - b) 2 y y' := by
  obtain ⟨y, m, v, h, hv, rfl⟩ := exValue 1 2 one_pos two_pos
  obtain ⟨y', m', v', h', hv', rfl⟩ := exValue 2 1 two_pos one_pos
  refine ⟨exParams, _, _, _, _, m, m', ?_, ⟨rfl, rfl, ?_⟩, h, h', ?_⟩
  · intro g
    have hg : g.1 = 0 := Nat.lt_one_iff.1 g.2
    rw [hg]
    exact exDistinct 1 2 one_pos (by norm_num)
  · intro b hb
    interval_cases b <;> rfl
  · rintro ⟨-, -, h3⟩
    have := h3 0 (by decide)
    have := congrFun (congrFun (Option.some.inj this) 0) 0
    exact hv' this

/-- The hypotheses of `C127_layer` are met with batch priority: the layer runs on two images in one group, and the order does not
matter. -/
example : ∃ y m y' m', moeLayer (exConfig true) exParams [exImage 1, exImage 2] = .ok (y, m) ∧
    moeLayer (exConfig true) exParams [exImage 2, exImage 1] = .ok (y', m') ∧ Rearranged (fun b => 1 - b) 2 y y' := by
  obtain ⟨out, m, h, -⟩ := MoeBlock.C72_block_output (exConfig true).fl (exConfig true).cdf (exConfig true).bf (exRouter true) 2
    exParams.kernel exParams.z (exConfig true).oob exParams.experts (exConfig true).mlp [exImage 1, exImage 2].get (by decide) ⟨1, rfl⟩
    (by decide) Nat.one_pos (by decide) (Or.inl rfl) 1 rfl
  have hm : moeLayer (exConfig true) exParams [exImage 1, exImage 2] = .ok (List.ofFn out, .topExperts _ m) := by
    have h' : MoeBlock.mlpMoeBlock (exConfig true).fl (exConfig true).cdf (exConfig true).bf (exRouter true)
      (exConfig true).groupSize exParams.kernel exParams.z
      (exConfig true).oob exParams.experts (exConfig true).mlp [exImage 1, exImage 2].get = .ok (out, m) := h
    unfold moeLayer
    rw [show (exConfig true).router = .topExperts (exRouter true) from rfl]
    simp only
    rw [h']
    rfl
  obtain ⟨y', m', h', hr, -⟩ := C127_layer (B := 2) (exConfig true) exParams (Or.inl rfl) (fun b => 1 - b) exSwap
    [exImage 1, exImage 2] [exImage 2, exImage 1] ⟨rfl, rfl, fun b hb => by interval_cases b <;> rfl⟩ ⟨rfl, fun g => by
      have hg : g.1 = 0 := Nat.lt_one_iff.1 g.2
      rw [hg]
      exact exDistinct 1 2 one_pos (by norm_num)⟩ _ _ hm
  exact ⟨_, _, y', m', hm, h', hr⟩

/-- The only token of an image of one pixel is this pixel. -/
noncomputable def exModel : Params 1 1 1 1 1 := ⟨fun _ _ _ _ => 1, fun _ => 0, 0, fun _ => 0, id, fun _ v => [v 0]⟩

theorem exTokens (a : ℝ) : (fun t : Fin 1 => (tokens exModel "gap".toList (fun _ _ _ => a : Image 1 1 1)).getD t 0) = exImage a := by
  funext t i
  have ht : t = 0 := Subsingleton.elim _ _
  subst ht
  unfold tokens conv exModel
  simp [convSize, pixel, exImage]

theorem exPos (a : ℝ) : addPos none [0] (exImage a) = .ok (exImage a) := by
  have h : addPositionEmb ((none : Option (Option PosEmb)).getD none) [(0 : Vec 1)] (List.ofFn (exImage a)) =
      .ok [exImage a 0 + 0] := rfl
  unfold addPos
  rw [h]
  simp only
  congr 1
  funext t
  have ht : t = 0 := Subsingleton.elim _ _
  subst ht
  exact add_zero _

/-- Two images of one pixel. -/
def exImages : List (Image 1 1 1) := [fun _ _ _ => 1, fun _ _ _ => 2]

/-- The hypotheses of `C127_model` are met: a model with one MoE block, with batch priority and room for one token of two in each
expert, predicts the same for two images in both orders. -/
example : ∃ out m out' m',
    visionTransformer exModel "gap".toList (some 3) none (encoder 1 (exConfig true) (fun _ => exParams)
      (fun _ => ⟨fun _ => 0, id⟩) (fun _ v => v) meanAux id [0] 1 [0]) exImages = .ok (out, m) ∧
    visionTransformer exModel "gap".toList (some 3) none (encoder 1 (exConfig true) (fun _ => exParams)
      (fun _ => ⟨fun _ => 0, id⟩) (fun _ v => v) meanAux id [0] 1 [0]) exImages.reverse = .ok (out', m') ∧
    Rearranged (fun b => 1 - b) 2 (Out.rows out) (Out.rows out') := by
  have hpre : (exImages.map (tokens exModel "gap".toList)).map
      (fun l (t : Fin 1) => l.getD t 0) = [exImage 1, exImage 2] := by
    simp only [exImages, List.map_cons, List.map_nil, exTokens]
  have hmap : ([exImage 1, exImage 2].mapM (addPos none [0]) : Except PyErr (List (Seq 1 1))) = .ok [exImage 1, exImage 2] :=
    (DataPipeline.mapM_ok_eq (g := id) (by
      intro v hv
      simp only [List.mem_cons, List.not_mem_nil, or_false] at hv
      rcases hv with rfl | rfl <;> exact exPos _)).trans (by simp)
  have hat : (attention (⟨fun _ => 0, id⟩ : BlockFns (Seq 1 1)) [exImage 1, exImage 2]).map id = [exImage 1, exImage 2] := by
    unfold attention
    simp
  have hord : Ordered (exConfig true) exParams [exImage 1, exImage 2] := ⟨rfl, fun g => by
    have hg : g.1 = 0 := Nat.lt_one_iff.1 g.2
    rw [hg]
    exact exDistinct 1 2 one_pos (by norm_num)⟩
  have hruns : ∃ out m, visionTransformer exModel "gap".toList (some 3) none (encoder 1 (exConfig true) (fun _ => exParams)
      (fun _ => ⟨fun _ => 0, id⟩) (fun _ v => v) meanAux id [0] 1 [0]) exImages = .ok (out, m) := by
    obtain ⟨out, m, h, -⟩ := MoeBlock.C72_block_output (exConfig true).fl (exConfig true).cdf (exConfig true).bf (exRouter true) 2
      exParams.kernel exParams.z (exConfig true).oob exParams.experts (exConfig true).mlp [exImage 1, exImage 2].get (by decide)
      ⟨1, rfl⟩ (by decide) Nat.one_pos (by decide) (Or.inl rfl) 1 rfl
    have hm : moeLayer (exConfig true) exParams [exImage 1, exImage 2] = .ok (List.ofFn out, .topExperts _ m) := by
      have h' : MoeBlock.mlpMoeBlock (exConfig true).fl (exConfig true).cdf (exConfig true).bf (exRouter true)
        (exConfig true).groupSize exParams.kernel exParams.z
        (exConfig true).oob exParams.experts (exConfig true).mlp [exImage 1, exImage 2].get = .ok (out, m) := h
      unfold moeLayer
      rw [show (exConfig true).router = .topExperts (exRouter true) from rfl]
      simp only
      rw [h']
      rfl
    have henc : ∃ y n, encoder 1 (exConfig true) (fun _ => exParams) (fun _ => ⟨fun _ => 0, id⟩) (fun _ v => v) meanAux id [0] 1 [0]
        none (exImages.map (tokens exModel "gap".toList)) = .ok (y, n) := by
      unfold encoder encoderMoe
      rw [hpre, hmap]
      simp only
      rw [show List.range 1 = [0] from rfl, loop, if_pos (by simp)]
      unfold moeBlock
      simp only
      rw [hat, hm]
      exact ⟨_, _, rfl⟩
    obtain ⟨y, n, hy⟩ := henc
    unfold visionTransformer
    rw [show encoderPosEmb none (convSize 1 1) (convSize 1 1) = .ok none from rfl]
    simp only
    rw [hy]
    simp only
    rw [if_neg (by decide), if_pos trivial]
    exact ⟨_, _, rfl⟩
  obtain ⟨out, m, h⟩ := hruns
  obtain ⟨out', m', h', hr, -⟩ := C127_model (B := 2) exModel "gap".toList (some 3) none (exConfig true) (fun _ => exParams)
    (fun _ => ⟨fun _ => 0, id⟩) (fun _ v => v) id [0] 1 [0] (Or.inl rfl) (fun b => 1 - b) exSwap _
    exImages.reverse ⟨rfl, rfl, fun b hb => by interval_cases b <;> rfl⟩ (by
      intro pos x hpos hx
      cases hpos
      have hx' := hx.symm.trans ((congrArg (fun l => l.mapM (addPos none [0])) hpre).trans hmap)
      cases hx'
      rw [show List.range 1 = [0] from rfl, OrderedAlong, if_pos (by simp)]
      simp only
      rw [hat]
      exact ⟨hord, fun _ _ _ => trivial⟩) out m h
  exact ⟨out, m, out', m', h, h', hr⟩

end Verif.BatchOrder
