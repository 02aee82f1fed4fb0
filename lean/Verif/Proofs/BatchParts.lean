import Verif.Props.VmoeModel
import Verif.Model.ModelLoss
import Verif.Proofs.PyDict

/-!
A MoE layer on a batch that contains another batch: the groups of the inner batch are groups of the outer one when the images
before it fill whole groups.
-/

namespace Verif.BatchParts

open Verif Verif.Spec Verif.Moe Verif.Encoder Verif.Vit Verif.ModelLoss

variable {B B' T S H O E : Nat} {P : Type}

theorem tokenOf_shift {M : Type*} [Inhabited M] (k : Nat) (x : Fin B → Fin T → M) (w : Fin B' → Fin T → M)
    (hB : k + B ≤ B') (hw : ∀ b : Fin B, w ⟨k + b, by omega⟩ = x b) (n : Nat) (hn : n < B * T) :
    tokenOf w (k * T + n) = tokenOf x n := by
  have hT : 0 < T := by
    rcases Nat.eq_zero_or_pos T with h | h
    · subst h; omega
    · exact h
  have h1 : (k * T + n) / T = k + n / T := by rw [Nat.mul_comm, Nat.mul_add_div hT]
  have h2 : (k * T + n) % T = n % T := by rw [Nat.mul_comm, Nat.mul_add_mod]
  have h3 : n / T < B := by rw [Nat.div_lt_iff_lt_mul hT]; exact hn
  unfold tokenOf
  rw [dif_pos ⟨by rw [h1]; omega, Nat.mod_lt _ hT⟩, dif_pos ⟨h3, Nat.mod_lt _ hT⟩]
  simp only [h1, h2]
  exact congrFun (hw ⟨n / T, h3⟩) _

theorem group_lt (hS : 0 < S) (hdiv : S ∣ B * T) {n : Nat} (hn : n < B * T) : n / S < B * T / S := by
  rw [Nat.div_lt_iff_lt_mul hS, Nat.div_mul_cancel hdiv]; exact hn

theorem in_group (hdiv : S ∣ B * T) {g s : Nat} (hg : g < B * T / S) (hs : s < S) : g * S + s < B * T := by
  have h1 : (g + 1) * S ≤ B * T / S * S := Nat.mul_le_mul_right _ hg
  rw [Nat.div_mul_cancel hdiv, Nat.add_mul, Nat.one_mul] at h1
  omega

/-- Tokens of a group, counted in the outer batch and in the inner one. -/
theorem token_group (k : Nat) (x : Fin B → Fin T → Fin H → ℝ) (w : Fin B' → Fin T → Fin H → ℝ)
    (hB : k + B ≤ B') (hw : ∀ b : Fin B, w ⟨k + b, by omega⟩ = x b) (hdiv : S ∣ B * T) (hk : S ∣ k * T)
    {g s : Nat} (hg : g < B * T / S) (hs : s < S) :
    tokenOf w ((k * T / S + g) * S + s) = tokenOf x (g * S + s) := by
  rw [Nat.add_mul, Nat.div_mul_cancel hk, Nat.add_assoc]
  exact tokenOf_shift k x w hB hw _ (in_group hdiv hg hs)

theorem gates_shift (sigma : ℝ) (kernel : Fin H → Fin E → ℝ) (k : Nat) (x : Fin B → Fin T → Fin H → ℝ)
    (w : Fin B' → Fin T → Fin H → ℝ)
    (hB : k + B ≤ B') (hw : ∀ b : Fin B, w ⟨k + b, by omega⟩ = x b) (hdiv : S ∣ B * T) (hk : S ∣ k * T)
    (z z' : Nat → Nat → Nat → ℝ) (hz : ∀ g < B * T / S, z' (k * T / S + g) = z g) {g : Nat} (hg : g < B * T / S) :
    tokenGates S kernel sigma z' w (k * T / S + g) = tokenGates S kernel sigma z x g := by
  funext s
  unfold tokenGates
  rw [token_group k x w hB hw hdiv hk hg s.2, hz g hg]

theorem number_shift (k b t : Nat) : tokenNumber T (k + b) t = k * T + tokenNumber T b t := by
  unfold tokenNumber
  ring

theorem number_div (hS : 0 < S) {k : Nat} (hk : S ∣ k * T) (n : Nat) : (k * T + n) / S = k * T / S + n / S := by
  obtain ⟨q, hq⟩ := hk
  rw [hq, Nat.mul_add_div hS, Nat.mul_div_cancel_left _ hS]

theorem number_mod {k : Nat} (hk : S ∣ k * T) (n : Nat) : (k * T + n) % S = n % S := by
  obtain ⟨q, hq⟩ := hk
  rw [hq, Nat.mul_add_mod]

theorem group_le {k : Nat} (hB : k + B ≤ B') (hk : S ∣ k * T) (hS : 0 < S) :
    k * T / S + B * T / S ≤ B' * T / S := by
  have h1 : (k * T + B * T) / S = k * T / S + B * T / S := number_div hS hk _
  rw [← h1, ← Nat.add_mul]
  exact Nat.div_le_div_right (Nat.mul_le_mul_right _ hB)

/-- Item choice: outputs and auxiliary losses of the inner batch. -/
theorem topExperts_part (fl : ℚ → ℚ) (cdf bf : ℝ → ℝ) (cfg : MoeBlock.RouterConfig)
    (kernel : Fin H → Fin E → ℝ) (z z' : Nat → Nat → Nat → ℝ) (oob : Fin O → ℝ) (params : Fin E → P)
    (mlp : P → (Fin H → ℝ) → Fin O → ℝ) (x : Fin B → Fin T → Fin H → ℝ) (w : Fin B' → Fin T → Fin H → ℝ) (k : Nat)
    (hB : k + B ≤ B') (hw : ∀ b : Fin B, w ⟨k + b, by omega⟩ = x b) (hk : S ∣ k * T)
    (hz : ∀ g < B * T / S, z' (k * T / S + g) = z g) (out m out' m')
    (h : MoeBlock.mlpMoeBlock fl cdf bf cfg S kernel z oob params mlp x = .ok (out, m))
    (h' : MoeBlock.mlpMoeBlock fl cdf bf cfg S kernel z' oob params mlp w = .ok (out', m')) :
    (∀ b : Fin B, out' ⟨k + b, by omega⟩ = out b) ∧
      ∀ (g : Fin (B * T / S)) (hg : k * T / S + g < B' * T / S), m'.auxiliaryLoss ⟨k * T / S + g, hg⟩ = m.auxiliaryLoss g := by
  obtain ⟨⟨hS, hdiv⟩, hsel, hname, cap, hcap⟩ := Vmoe.success h
  obtain ⟨⟨-, hdiv'⟩, -⟩ := Vmoe.success h'
  have hE : 0 < E := Nat.lt_of_lt_of_le hsel.1 hsel.2
  constructor
  · intro b
    obtain ⟨o1, m1, e1, f1⟩ := MoeBlock.C72_block_output fl cdf bf cfg S kernel z oob params mlp x hS hdiv hE hsel.1 hsel.2
      hname cap hcap
    obtain ⟨o2, m2, e2, f2⟩ := MoeBlock.C72_block_output fl cdf bf cfg S kernel z' oob params mlp w hS hdiv' hE hsel.1 hsel.2
      hname cap hcap
    rw [h] at e1
    rw [h'] at e2
    cases e1
    cases e2
    funext t i
    have r1 := f1 b t i
    have r2 := f2 ⟨k + b, by omega⟩ t i
    simp only at r1 r2
    have hlt := MoeBlock.tokenNumber_lt b t
    simp only [number_shift, number_div hS hk, number_mod hk,
      gates_shift (MoeBlock.usedStd cfg E) kernel k x w hB hw hdiv hk z z' hz (group_lt hS hdiv hlt), hw b] at r2
    rw [r1, r2]
  · intro g hg
    obtain ⟨a1, a2, a3, a4⟩ := MoeBlock.C72_metrics fl cdf bf cfg S kernel z oob params mlp x out m h hE g
    obtain ⟨b1, b2, b3, b4⟩ := MoeBlock.C72_metrics fl cdf bf cfg S kernel z' oob params mlp w out' m' h' hE
      ⟨k * T / S + g, hg⟩
    have hgate := fun sigma => gates_shift sigma kernel k x w hB hw hdiv hk z z' hz g.2
    have c1 : m'.importanceLoss ⟨k * T / S + g, hg⟩ = m.importanceLoss g := by rw [a1, b1, hgate]
    have c2 : m'.gshardLoss ⟨k * T / S + g, hg⟩ = m.gshardLoss g := by rw [a2, b2, hgate]
    by_cases hd : cfg.deterministic = true ∨ cfg.noiseStd = 0
    · rw [(a3 hd).2, (b3 hd).2, c1, c2]
    · push Not at hd
      have hd1 : cfg.deterministic = false := by simpa using hd.1
      obtain ⟨l1, -, s1, i1, j1, t1⟩ := a4 hd1 hd.2
      obtain ⟨l2, -, s2, i2, j2, t2⟩ := b4 hd1 hd.2
      rw [s1, s2, c1, c2, t1, t2]
      simp only
      have e1 : (fun (s : Fin S) (e : Fin E) => ∑ j, tokenOf w ((k * T / S + g) * S + s) j * kernel j e) =
          fun (s : Fin S) (e : Fin E) => ∑ j, tokenOf x (g * S + s) j * kernel j e := by
        funext s e
        rw [token_group k x w hB hw hdiv hk g.2 s.2]
      have e2 : (fun (s : Fin S) (e : Fin E) => ∑ j, tokenOf w ((k * T / S + g) * S + s) j * kernel j e +
            cfg.noiseStd / E * z' (k * T / S + g) s e) =
          fun (s : Fin S) (e : Fin E) => ∑ j, tokenOf x (g * S + s) j * kernel j e + cfg.noiseStd / E * z g s e := by
        funext s e
        rw [token_group k x w hB hw hdiv hk g.2 s.2, hz g g.2]
      rw [e1, e2]

/-- Expert choice: outputs of the inner batch; the auxiliary loss is zero. -/
theorem topItems_part (fl : ℚ → ℚ) (bf : ℝ → ℝ) (cfg : ExpertChoice.RouterConfig)
    (kernel : Fin H → Fin E → ℝ) (z z' : Nat → Nat → Nat → ℝ) (params : Fin E → P)
    (mlp : P → (Fin H → ℝ) → Fin O → ℝ) (x : Fin B → Fin T → Fin H → ℝ) (w : Fin B' → Fin T → Fin H → ℝ) (k : Nat)
    (hB : k + B ≤ B') (hw : ∀ b : Fin B, w ⟨k + b, by omega⟩ = x b) (hk : S ∣ k * T)
    (hz : ∀ g < B * T / S, z' (k * T / S + g) = z g) (out m out' m')
    (h : ExpertChoice.mlpMoeBlock fl bf cfg S kernel z params mlp x = .ok (out, m))
    (h' : ExpertChoice.mlpMoeBlock fl bf cfg S kernel z' params mlp w = .ok (out', m')) :
    (∀ b : Fin B, out' ⟨k + b, by omega⟩ = out b) ∧ m.auxiliaryLoss = 0 ∧ m'.auxiliaryLoss = 0 := by
  obtain ⟨⟨hS, hdiv⟩, hE, d, hd, hname, hkeys, cap, hc, hC⟩ := ExpertChoice.success h
  obtain ⟨⟨-, hdiv'⟩, -⟩ := ExpertChoice.success h'
  obtain ⟨o1, m1, e1, f1, u1, -⟩ := ExpertChoice.C78_block_output fl bf cfg S kernel z params mlp x hS hdiv hE d hd
    cap hc hname hC hkeys
  obtain ⟨o2, m2, e2, f2, u2, -⟩ := ExpertChoice.C78_block_output fl bf cfg S kernel z' params mlp w hS hdiv' hE d
    hd cap hc hname hC hkeys
  rw [h] at e1
  rw [h'] at e2
  cases e1
  cases e2
  refine ⟨?_, u1, u2⟩
  intro b
  funext t i
  have r1 := f1 b t i
  have r2 := f2 ⟨k + b, by omega⟩ t i
  simp only at r1 r2
  have hlt := MoeBlock.tokenNumber_lt b t
  simp only [number_shift, number_div hS hk, number_mod hk,
    gates_shift (ExpertChoice.sigma cfg E) kernel k x w hB hw hdiv hk z z' hz (group_lt hS hdiv hlt), hw b] at r2
  rw [r1, r2]

/-- A mean over groups, weighted with the number of images. -/
theorem weighted (hS : 0 < S) (hdiv : S ∣ B * T) (f : Fin (B * T / S) → ℝ) :
    (B : ℝ) * ((∑ g, f g) / ((B * T / S : Nat) : ℝ)) = (S : ℝ) / T * ∑ g, f g := by
  rcases Nat.eq_zero_or_pos (B * T / S) with h0 | h0
  · have : ∑ g, f g = 0 := by
      apply Finset.sum_eq_zero
      intro g
      exact absurd g.2 (by omega)
    rw [this]
    simp
  · have hc : (((B * T / S : Nat) : ℝ)) * S = B * T := by exact_mod_cast Nat.div_mul_cancel hdiv
    have h1 : (((B * T / S : Nat) : ℝ)) ≠ 0 := by exact_mod_cast h0.ne'
    have h2 : (S : ℝ) ≠ 0 := by exact_mod_cast hS.ne'
    have h3 : (T : ℝ) ≠ 0 := by
      rintro h
      rw [h, mul_zero] at hc
      exact (mul_ne_zero h1 h2) hc
    rw [← mul_div_assoc, div_eq_iff h1, div_mul_eq_mul_div, div_mul_eq_mul_div, eq_div_iff h3]
    calc (B : ℝ) * (∑ g, f g) * T = (∑ g, f g) * (B * T) := by ring
      _ = _ := by rw [← hc]; ring

theorem sum_split {G G1 G2 : Nat} (h : G = G1 + G2) (f : Fin G → ℝ) :
    ∑ g, f g = (∑ g : Fin G1, f ⟨g, by omega⟩) + ∑ g : Fin G2, f ⟨G1 + g, by omega⟩ := by
  subst h
  rw [Fin.sum_univ_add]
  rfl

theorem ofFn_split {V : Type} {n n1 n2 : Nat} (h : n = n1 + n2) (f : Fin n → V) :
    List.ofFn f = List.ofFn (fun b : Fin n1 => f ⟨b, by omega⟩) ++ List.ofFn fun b : Fin n2 => f ⟨n1 + b, by omega⟩ := by
  subst h
  rw [← List.ofFn_fin_append]
  congr 1
  funext i
  refine Fin.addCases (fun j => ?_) (fun j => ?_) i
  · rw [Fin.append_left]; rfl
  · rw [Fin.append_right]; rfl

open Vmoe in
/-- A MoE layer on a batch put together from two batches on which it runs. -/
theorem layer_join {c : Nat} (cfg : MoeConfig c P) (kernel : Fin c → Fin E → ℝ) (experts : Fin E → P)
    (z1 z2 z : Nat → Nat → Nat → ℝ) (x y : List (Seq T c)) (a b : List (Seq T c)) (m m' : LayerMetrics)
    (h1 : moeLayer cfg ⟨kernel, experts, z1⟩ x = .ok (a, m)) (h2 : moeLayer cfg ⟨kernel, experts, z2⟩ y = .ok (b, m'))
    (hz : 0 < cfg.groupSize → cfg.groupSize ∣ x.length * T → cfg.groupSize ∣ y.length * T →
      (∀ g < x.length * T / cfg.groupSize, z g = z1 g) ∧
        ∀ g < y.length * T / cfg.groupSize, z (x.length * T / cfg.groupSize + g) = z2 g) :
    ∃ m'', moeLayer cfg ⟨kernel, experts, z⟩ (x ++ y) = .ok (a ++ b, m'') ∧
      ((x.length : ℝ) + y.length) * meanAux m'' = x.length * meanAux m + y.length * meanAux m' := by
  have hlen : (x ++ y).length = x.length + y.length := List.length_append
  have hw1 : ∀ i : Fin x.length, (x ++ y).get ⟨0 + i, by omega⟩ = x.get i := by
    intro i
    simp
  have hw2 : ∀ i : Fin y.length, (x ++ y).get ⟨x.length + i, by omega⟩ = y.get i := by
    intro i
    simp
  unfold moeLayer at h1 h2 ⊢
  rcases hr : cfg.router with r | r
  · rw [hr] at h1 h2
    simp only at h1 h2 ⊢
    split at h1
    · cases h1
    rename_i o1 m1 e1
    split at h2
    · cases h2
    rename_i o2 m2 e2
    cases h1
    cases h2
    obtain ⟨⟨hS, hd1⟩, hsel, hname, cap, hcap⟩ := Vmoe.success e1
    obtain ⟨⟨-, hd2⟩, -⟩ := Vmoe.success e2
    obtain ⟨hz1, hz2⟩ := hz hS hd1 hd2
    have hd : cfg.groupSize ∣ (x ++ y).length * T := by rw [hlen, Nat.add_mul]; exact Nat.dvd_add hd1 hd2
    obtain ⟨o, m, e, -⟩ := MoeBlock.C72_block_output cfg.fl cfg.cdf cfg.bf r cfg.groupSize kernel z cfg.oob experts cfg.mlp
      (x ++ y).get hS hd (Nat.lt_of_lt_of_le hsel.1 hsel.2) hsel.1 hsel.2 hname cap hcap
    rw [e]
    have hG : (x ++ y).length * T / cfg.groupSize = x.length * T / cfg.groupSize + y.length * T / cfg.groupSize := by
      rw [hlen, Nat.add_mul, number_div hS hd1]
    obtain ⟨p1, q1⟩ := topExperts_part cfg.fl cfg.cdf cfg.bf r kernel z1 z cfg.oob experts cfg.mlp x.get (x ++ y).get 0
      (by omega) hw1 (by simp) (by simpa using hz1) _ _ _ _ e1 e
    obtain ⟨p2, q2⟩ := topExperts_part cfg.fl cfg.cdf cfg.bf r kernel z2 z cfg.oob experts cfg.mlp y.get (x ++ y).get x.length
      (by omega) hw2 hd1 hz2 _ _ _ _ e2 e
    have ho : List.ofFn o = List.ofFn o1 ++ List.ofFn o2 := by
      rw [ofFn_split hlen]
      congr 1
      · congr 1
        funext i
        rw [← p1 i]
        congr 1
        exact Fin.ext (Nat.zero_add _).symm
      · congr 1
        funext i
        exact p2 i
    refine ⟨.topExperts _ m, by simp only [ho], ?_⟩
    have hs : ∑ g, m.auxiliaryLoss g = (∑ g, m1.auxiliaryLoss g) + ∑ g, m2.auxiliaryLoss g := by
      rw [sum_split hG]
      congr 1
      · apply Finset.sum_congr rfl
        intro g _
        have hg := g.2
        rw [← q1 g (by rw [Nat.zero_mul, Nat.zero_div, Nat.zero_add, hG]; exact Nat.lt_add_right _ hg)]
        congr 1
        exact Fin.ext (by simp)
      · apply Finset.sum_congr rfl
        intro g _
        exact q2 g (by omega)
    have hl : ((x.length : ℝ) + y.length) = ((x ++ y).length : ℝ) := by rw [hlen]; push_cast; ring
    unfold meanAux
    simp only
    rw [hl, weighted hS hd, weighted hS hd1, weighted hS hd2, hs, mul_add]
  · rw [hr] at h1 h2
    simp only at h1 h2 ⊢
    split at h1
    · cases h1
    rename_i o1 m1 e1
    split at h2
    · cases h2
    rename_i o2 m2 e2
    cases h1
    cases h2
    obtain ⟨⟨hS, hd1⟩, hE, d, hd', hname, hkeys, cap, hc, hC⟩ := ExpertChoice.success e1
    obtain ⟨⟨-, hd2⟩, -⟩ := ExpertChoice.success e2
    obtain ⟨hz1, hz2⟩ := hz hS hd1 hd2
    have hd : cfg.groupSize ∣ (x ++ y).length * T := by rw [hlen, Nat.add_mul]; exact Nat.dvd_add hd1 hd2
    obtain ⟨o, m, e, -⟩ := ExpertChoice.C78_block_output cfg.fl cfg.bf r cfg.groupSize kernel z experts cfg.mlp
      (x ++ y).get hS hd hE d hd' cap hc hname hC hkeys
    rw [e]
    obtain ⟨p1, q1, -⟩ := topItems_part cfg.fl cfg.bf r kernel z1 z experts cfg.mlp x.get (x ++ y).get 0
      (by omega) hw1 (by simp) (by simpa using hz1) _ _ _ _ e1 e
    obtain ⟨p2, q2, q⟩ := topItems_part cfg.fl cfg.bf r kernel z2 z experts cfg.mlp y.get (x ++ y).get x.length
      (by omega) hw2 hd1 hz2 _ _ _ _ e2 e
    have ho : List.ofFn o = List.ofFn o1 ++ List.ofFn o2 := by
      rw [ofFn_split hlen]
      congr 1
      · congr 1
        funext i
        rw [← p1 i]
        congr 1
        exact Fin.ext (Nat.zero_add _).symm
      · congr 1
        funext i
        exact p2 i
    refine ⟨.topItems _ _ _ m, by simp only [ho], ?_⟩
    unfold meanAux
    simp only
    rw [q, q1, q2]
    ring

open Vmoe in
theorem layer_length {c : Nat} {cfg : MoeConfig c P} {p : MoeParams c E P} {x a : List (Seq T c)} {m : LayerMetrics}
    (h : moeLayer cfg p x = .ok (a, m)) : a.length = x.length := by
  unfold moeLayer at h
  split at h <;> split at h
  · cases h
  · cases h
    exact List.length_ofFn
  · cases h
  · cases h
    exact List.length_ofFn

/-- Functions `f1`, `f2` on batches of `n1` and `n2` items, and `f` on both together: the outputs come one after the other, and the
metrics are related by `J`. -/
def JoinAt {V W M1 : Type} (n1 n2 : Nat) (f1 f2 f : List V → Except PyErr (List W × M1)) (J : M1 → M1 → M1 → Prop) : Prop :=
  ∀ x y a b m m', x.length = n1 → y.length = n2 → f1 x = .ok (a, m) → f2 y = .ok (b, m') →
    a.length = n1 ∧ b.length = n2 ∧ ∃ m'', f (x ++ y) = .ok (a ++ b, m'') ∧ J m m' m''

/-- Dictionaries with the same keys, and values related by `J`. -/
def Rel {K M1 : Type} (J : M1 → M1 → M1 → Prop) (d1 d2 d : PyDict K M1) : Prop :=
  ∃ q : List (K × M1 × M1 × M1), (∀ e ∈ q, J e.2.1 e.2.2.1 e.2.2.2) ∧ d1 = q.map (fun e => (e.1, e.2.1)) ∧
    d2 = q.map (fun e => (e.1, e.2.2.1)) ∧ d = q.map fun e => (e.1, e.2.2.2)

theorem set_map {K M1 M2 : Type} [DecidableEq K] (f : M1 → M2) (q : PyDict K M1) (k : K) (v : M1) :
    PyDict.set (q.map fun e => (e.1, f e.2)) k (f v) = (PyDict.set q k v).map fun e => (e.1, f e.2) := by
  induction q with
  | nil => rfl
  | cons e q ih =>
    obtain ⟨k0, v0⟩ := e
    simp only [List.map_cons, PyDict.set]
    by_cases h : k0 = k
    · rw [if_pos h, if_pos h]; rfl
    · rw [if_neg h, if_neg h, ih]; rfl

theorem mem_set {K M1 : Type} [DecidableEq K] (q : PyDict K M1) (k : K) (v : M1) (e : K × M1) (h : e ∈ PyDict.set q k v) :
    e ∈ q ∨ e = (k, v) := by
  induction q with
  | nil => simp only [PyDict.set, List.mem_singleton] at h; exact .inr h
  | cons e0 q ih =>
    obtain ⟨k0, v0⟩ := e0
    simp only [PyDict.set] at h
    split at h
    · rcases List.mem_cons.mp h with h | h
      · exact .inr h
      · exact .inl (List.mem_cons_of_mem _ h)
    · rcases List.mem_cons.mp h with h | h
      · exact .inl (h ▸ List.mem_cons_self)
      · exact (ih h).imp (List.mem_cons_of_mem _) id

theorem Rel.set {K M1 : Type} [DecidableEq K] {J : M1 → M1 → M1 → Prop} {d1 d2 d : PyDict K M1} (h : Rel J d1 d2 d) (k : K)
    {m1 m2 m : M1} (hJ : J m1 m2 m) : Rel J (d1.set k m1) (d2.set k m2) (d.set k m) := by
  obtain ⟨q, hq, rfl, rfl, rfl⟩ := h
  refine ⟨PyDict.set q k (m1, m2, m), ?_, ?_, ?_, ?_⟩
  · intro e he
    rcases mem_set _ _ _ _ he with h | h
    · exact hq e h
    · rw [h]; exact hJ
  · exact set_map (fun v : M1 × M1 × M1 => v.1) q k (m1, m2, m)
  · exact set_map (fun v : M1 × M1 × M1 => v.2.1) q k (m1, m2, m)
  · exact set_map (fun v : M1 × M1 × M1 => v.2.2) q k (m1, m2, m)

theorem loop_join {V M1 : Type} [Add V] {n1 n2 : Nat} (fns : Nat → BlockFns V) (mlp : Nat → V → V)
    (f1 f2 f : Nat → List V → Except PyErr (List V × M1)) (J : M1 → M1 → M1 → Prop) (ids : List Int)
    (hj : ∀ i, JoinAt n1 n2 (f1 i) (f2 i) (f i) J) (blocks : List Nat) :
    ∀ x y d1 d2 d a b r1 r2, x.length = n1 → y.length = n2 → Rel J d1 d2 d →
      loop ⟨fns, mlp, f1⟩ ids blocks x d1 = .ok (a, r1) → loop ⟨fns, mlp, f2⟩ ids blocks y d2 = .ok (b, r2) →
      a.length = n1 ∧ b.length = n2 ∧
        ∃ r, loop ⟨fns, mlp, f⟩ ids blocks (x ++ y) d = .ok (a ++ b, r) ∧ Rel J r1 r2 r := by
  induction blocks with
  | nil =>
    intro x y d1 d2 d a b r1 r2 hx hy hd h1 h2
    rw [loop] at h1 h2
    cases h1
    cases h2
    exact ⟨hx, hy, d, by rw [loop], hd⟩
  | cons blk rest ih =>
    intro x y d1 d2 d a b r1 r2 hx hy hd h1 h2
    rw [loop] at h1 h2
    by_cases hb : (blk : Int) ∈ ids
    · rw [if_pos hb] at h1 h2
      unfold moeBlock attention at h1 h2
      simp only at h1 h2
      split at h1
      · cases h1
      rename_i x1 m1 e1
      split at h2
      · cases h2
      rename_i y1 m2 e2
      split at e1
      · cases e1
      rename_i x2 m1' e1'
      split at e2
      · cases e2
      rename_i y2 m2' e2'
      cases e1
      cases e2
      obtain ⟨la, lb, m, hm, hJ⟩ := hj blk _ _ _ _ _ _ (by simpa using hx) (by simpa using hy) e1' e2'
      obtain ⟨ga, gb, r, hr, hR⟩ := ih _ _ _ _ _ _ _ _ _ (by simp [hx, la]) (by simp [hy, lb])
        (hd.set (blockName blk) hJ) h1 h2
      refine ⟨ga, gb, r, ?_, hR⟩
      rw [loop, if_pos hb]
      unfold moeBlock attention
      simp only [List.map_append]
      rw [hm]
      simp only
      rw [← hr, List.zipWith_append (by simp [hx, la])]
    · rw [if_neg hb] at h1 h2
      obtain ⟨ga, gb, r, hr, hR⟩ := ih _ _ _ _ _ _ _ _ _ (by simp [denseBlock, attention, hx])
        (by simp [denseBlock, attention, hy]) hd h1 h2
      refine ⟨ga, gb, r, ?_, hR⟩
      rw [loop, if_neg hb, ← hr]
      congr 1
      unfold denseBlock attention
      simp only [List.map_append]
      rw [List.zipWith_append (by simp)]

/-- Metrics of the encoder whose auxiliary losses are weighted with the number of images. -/
def AuxJoin (n1 n2 : Nat) (d1 d2 d : PyDict (List Char) (Metric Vmoe.LayerMetrics ℝ)) : Prop :=
  ((n1 : ℝ) + n2) * auxiliary d = n1 * auxiliary d1 + n2 * auxiliary d2

theorem auxiliary_final (d : PyDict (List Char) Vmoe.LayerMetrics) :
    auxiliary (finalMetrics meanAux d) = (d.map fun kv => meanAux kv.2).sum := by
  unfold auxiliary finalMetrics
  rw [PyDict.get?_set, if_pos rfl]

theorem final_join {n1 n2 : Nat} {d1 d2 d : PyDict (List Char) Vmoe.LayerMetrics}
    (h : Rel (fun m m' m'' => ((n1 : ℝ) + n2) * meanAux m'' = n1 * meanAux m + n2 * meanAux m') d1 d2 d) :
    AuxJoin n1 n2 (finalMetrics meanAux d1) (finalMetrics meanAux d2) (finalMetrics meanAux d) := by
  obtain ⟨q, hq, rfl, rfl, rfl⟩ := h
  unfold AuxJoin
  rw [auxiliary_final, auxiliary_final, auxiliary_final]
  simp only [List.map_map]
  induction q with
  | nil => simp
  | cons e q ih =>
    have h1 := hq e List.mem_cons_self
    have h2 := ih fun e' he' => hq e' (List.mem_cons_of_mem _ he')
    simp only [List.map_cons, List.sum_cons, Function.comp] at h2 ⊢
    rw [mul_add, mul_add, mul_add, h1, h2]
    ring

theorem mapM_append {V W : Type} (f : V → Except PyErr W) (x y : List V) (a b : List W) (h1 : x.mapM f = .ok a)
    (h2 : y.mapM f = .ok b) : (x ++ y).mapM f = .ok (a ++ b) := by
  rw [List.mapM_append, h1, h2]
  rfl

theorem mapM_length {V W : Type} (f : V → Except PyErr W) (x : List V) (a : List W) (h : x.mapM f = .ok a) :
    a.length = x.length := by
  induction x generalizing a with
  | nil => cases h; rfl
  | cons v x ih =>
    rw [List.mapM_cons] at h
    obtain ⟨b, -, h⟩ := ebind h
    obtain ⟨l, hl, h⟩ := ebind h
    cases h
    rw [List.length_cons, List.length_cons, ih l hl]

open Vmoe in
/-- The noise of a batch that is put together from two batches, for groups of `S` tokens. -/
def NoiseJoin (S T n1 n2 : Nat) (z1 z2 z : Nat → Nat → Nat → Nat → ℝ) : Prop :=
  0 < S → S ∣ n1 * T → S ∣ n2 * T → ∀ i, (∀ g < n1 * T / S, z i g = z1 i g) ∧ ∀ g < n2 * T / S, z i (n1 * T / S + g) = z2 i g

open Vmoe in
theorem encoder_join {c n1 n2 : Nat} (cfg : MoeConfig c P) (kernel : Nat → Fin c → Fin E → ℝ) (experts : Nat → Fin E → P)
    (blocks : Nat → BlockFns (Seq T c)) (dense : Nat → Seq T c → Seq T c) (post : Seq T c → Seq T c) (pe : List (Vec c))
    (numLayers : Nat) (moeLayers : List Int) (pos : Option (Option PosEmb)) (z1 z2 z : Nat → Nat → Nat → Nat → ℝ)
    (hz : NoiseJoin cfg.groupSize T n1 n2 z1 z2 z) :
    JoinAt n1 n2 (encoder T cfg (fun i => ⟨kernel i, experts i, z1 i⟩) blocks dense meanAux post pe numLayers moeLayers pos)
      (encoder T cfg (fun i => ⟨kernel i, experts i, z2 i⟩) blocks dense meanAux post pe numLayers moeLayers pos)
      (encoder T cfg (fun i => ⟨kernel i, experts i, z i⟩) blocks dense meanAux post pe numLayers moeLayers pos)
      (AuxJoin n1 n2) := by
  intro x y a b m m' hx hy h1 h2
  unfold encoder at h1 h2
  split at h1
  · cases h1
  rename_i a1 m1 e1
  split at h2
  · cases h2
  rename_i b1 m2 e2
  cases h1
  cases h2
  unfold encoderMoe at e1 e2
  split at e1
  · cases e1
  rename_i x1 p1
  split at e2
  · cases e2
  rename_i y1 p2
  split at e1
  · cases e1
  rename_i x2 d1 l1
  split at e2
  · cases e2
  rename_i y2 d2 l2
  cases e1
  cases e2
  have hx1 := mapM_length _ _ _ p1
  have hy1 := mapM_length _ _ _ p2
  rw [List.length_map] at hx1 hy1
  obtain ⟨ga, gb, r, hr, hR⟩ := loop_join (n1 := n1) (n2 := n2) blocks dense _ _
    (fun i => moeLayer cfg ⟨kernel i, experts i, z i⟩)
    (fun m m' m'' => ((n1 : ℝ) + n2) * meanAux m'' = n1 * meanAux m + n2 * meanAux m') moeLayers (by
      intro i u v a b m m' hu hv h1 h2
      refine ⟨by rw [layer_length h1, hu], by rw [layer_length h2, hv], ?_⟩
      obtain ⟨m'', h3, h4⟩ := layer_join cfg (kernel i) (experts i) (z1 i) (z2 i) (z i) u v a b m m' h1 h2 (by
        intro hS k1 k2
        rw [hu] at k1 ⊢
        rw [hv] at k2 ⊢
        exact hz hS k1 k2 i)
      rw [hu, hv] at h4
      exact ⟨m'', h3, h4⟩) (List.range numLayers) x1 y1 [] [] [] x2 y2 d1 d2 (hx1.trans hx) (hy1.trans hy)
    ⟨[], by simp, rfl, rfl, rfl⟩ l1 l2
  refine ⟨by simpa using ga, by simpa using gb, finalMetrics meanAux r, ?_, final_join hR⟩
  unfold encoder encoderMoe
  rw [List.map_append, mapM_append _ _ _ _ _ p1 p2]
  simp only
  rw [hr]
  simp only [List.map_append]

theorem losses_rows {r : Nat} {L : Type} (loss : List ℝ ⊕ Vec r → L → ℝ) (out : Out r) (labels : List L) :
    losses loss out labels = List.zipWith loss (Vmoe.Out.rows out) labels := by
  cases out <;> simp [losses, Vmoe.Out.rows, List.zipWith_map_left]

theorem run_join {ph pw D c r H W n1 n2 : Nat} (net : Net ph pw D c r T E P) (z1 z2 z : Nat → Nat → Nat → Nat → ℝ)
    (hz : NoiseJoin net.cfg.groupSize T n1 n2 z1 z2 z) (x y : List (Image H W D)) (hx : x.length = n1) (hy : y.length = n2)
    (o1 o2 m1 m2) (h1 : net.run z1 x = .ok (o1, m1)) (h2 : net.run z2 y = .ok (o2, m2)) :
    ∃ o m, net.run z (x ++ y) = .ok (o, m) ∧ Vmoe.Out.rows o = Vmoe.Out.rows o1 ++ Vmoe.Out.rows o2 ∧
      (Vmoe.Out.rows o1).length = n1 ∧ (Vmoe.Out.rows o2).length = n2 ∧ AuxJoin n1 n2 m1 m2 m := by
  unfold Net.run visionTransformer at h1 h2
  rcases hp : encoderPosEmb net.positionEmb (convSize H ph) (convSize W pw) with err | pos
  · rw [hp] at h1; cases h1
  rw [hp] at h1 h2
  simp only at h1 h2
  split at h1
  · cases h1
  rename_i a d1 e1
  split at h2
  · cases h2
  rename_i b d2 e2
  split at h1
  · cases h1
  rename_i a' q1
  split at h2
  · cases h2
  rename_i b' q2
  cases h1
  cases h2
  obtain ⟨la, lb, d, hd, hJ⟩ := encoder_join net.cfg net.kernel net.experts net.blocks net.dense net.post net.posParams
    net.numLayers net.moeLayers pos z1 z2 z hz _ _ _ _ _ _ (by simpa using hx) (by simpa using hy) e1 e2
  have hpool : ∀ (f : List (List (Vec c)) → Except PyErr (List (Vec c))),
      f = (fun x => if net.classifier = "token".toList ∨ net.classifier = "0".toList then .ok (x.map (·.headD 0))
        else if net.classifier = "gap".toList then .ok (x.map mean)
        else if net.classifier = "map".toList then .ok (x.map net.params.mapHead)
        else .error .valueError) → f a = .ok a' → f b = .ok b' →
      f (a ++ b) = .ok (a' ++ b') ∧ a'.length = a.length ∧ b'.length = b.length := by
    intro f hf ha hb
    subst hf
    simp only at ha hb ⊢
    by_cases c1 : net.classifier = "token".toList ∨ net.classifier = "0".toList
    · rw [if_pos c1] at ha hb ⊢
      cases ha; cases hb; simp
    · rw [if_neg c1] at ha hb ⊢
      by_cases c2 : net.classifier = "gap".toList
      · rw [if_pos c2] at ha hb ⊢
        cases ha; cases hb; simp
      · rw [if_neg c2] at ha hb ⊢
        by_cases c3 : net.classifier = "map".toList
        · rw [if_pos c3] at ha hb ⊢
          cases ha; cases hb; simp
        · rw [if_neg c3] at ha
          cases ha
  obtain ⟨hab, l1, l2⟩ := hpool _ rfl q1 q2
  refine ⟨finish net.params.head net.numClasses ((a' ++ b').map net.params.preLogits), d, ?_, ?_, ?_, ?_, hJ⟩
  · unfold Net.run visionTransformer
    rw [hp]
    simp only
    rw [List.map_append, hd]
    simp only
    rw [hab]
  · match net.numClasses with
    | none => simp [finish, Vmoe.Out.rows]
    | some 0 => simp [finish, Vmoe.Out.rows]
    | some (n + 1) => simp [finish, Vmoe.Out.rows]
  · match net.numClasses with
    | none => simp [finish, Vmoe.Out.rows, l1, la]
    | some 0 => simp [finish, Vmoe.Out.rows, l1, la]
    | some (n + 1) => simp [finish, Vmoe.Out.rows, l1, la]
  · match net.numClasses with
    | none => simp [finish, Vmoe.Out.rows, l2, lb]
    | some 0 => simp [finish, Vmoe.Out.rows, l2, lb]
    | some (n + 1) => simp [finish, Vmoe.Out.rows, l2, lb]

open Vmoe in
/-- A MoE layer only looks at the noise of its groups. -/
theorem layer_noise {c : Nat} (cfg : MoeConfig c P) (kernel : Fin c → Fin E → ℝ) (experts : Fin E → P)
    (z z' : Nat → Nat → Nat → ℝ) (x : List (Seq T c))
    (hz : cfg.router.noiseless ∨ ∀ g < x.length * T / cfg.groupSize, z g = z' g) :
    moeLayer cfg ⟨kernel, experts, z⟩ x = moeLayer cfg ⟨kernel, experts, z'⟩ x := by
  unfold moeLayer
  rcases hr : cfg.router with q | q
  · have hg : ∀ xg : Fin (x.length * T / cfg.groupSize) → Fin cfg.groupSize → Fin c → ℝ,
        MoeBlock.gatesAndMetrics cfg.cdf q kernel z xg = MoeBlock.gatesAndMetrics cfg.cdf q kernel z' xg := by
      intro xg
      unfold MoeBlock.gatesAndMetrics
      rcases hz with hn | hz
      · rw [hr] at hn
        have hn' : q.deterministic = true ∨ q.noiseStd = 0 := hn
        simp only [if_pos hn']
      · have hz' : ∀ g : Fin (x.length * T / cfg.groupSize), z g = z' g := fun g => hz g g.2
        simp only [hz']
    simp only [MoeBlock.mlpMoeBlock, hg]
  · have hg : ∀ xg : Fin (x.length * T / cfg.groupSize) → Fin cfg.groupSize → Fin c → ℝ,
        ExpertChoice.computeGatesSoftmax q kernel z xg = ExpertChoice.computeGatesSoftmax q kernel z' xg := by
      intro xg
      unfold ExpertChoice.computeGatesSoftmax
      rcases hz with hn | hz
      · rw [hr] at hn
        have hn' : q.deterministic = true ∨ q.noiseStd = 0 := hn
        simp only [if_pos hn']
      · have hz' : ∀ g : Fin (x.length * T / cfg.groupSize), z g = z' g := fun g => hz g g.2
        simp only [hz']
    simp only [ExpertChoice.mlpMoeBlock, hg]

theorem loop_congr {V M1 : Type} [Add V] {n : Nat} (fns : Nat → BlockFns V) (mlp : Nat → V → V)
    (f f' : Nat → List V → Except PyErr (List V × M1)) (ids : List Int)
    (hf : ∀ i x, x.length = n → f i x = f' i x) (hl : ∀ i x a m, f i x = .ok (a, m) → a.length = x.length)
    (blocks : List Nat) : ∀ x d, x.length = n → loop ⟨fns, mlp, f⟩ ids blocks x d = loop ⟨fns, mlp, f'⟩ ids blocks x d := by
  induction blocks with
  | nil => intro x d _; rw [loop, loop]
  | cons blk rest ih =>
    intro x d hx
    rw [loop, loop]
    by_cases hb : (blk : Int) ∈ ids
    · rw [if_pos hb, if_pos hb]
      unfold moeBlock attention
      simp only
      rw [← hf blk _ (by simpa using hx)]
      rcases he : f blk ((x.map fun v => (fns blk).attn v + v).map (fns blk).norm) with err | ⟨a, m⟩
      · rfl
      · have := hl _ _ _ _ he
        simp only
        rw [ih _ _ (by simp_all)]
    · rw [if_neg hb, if_neg hb]
      exact ih _ _ (by simp [denseBlock, attention, hx])

open Vmoe in
theorem run_noise {ph pw D c r H W : Nat} (net : Net ph pw D c r T E P) (z z' : Nat → Nat → Nat → Nat → ℝ)
    (x : List (Image H W D))
    (hz : net.cfg.router.noiseless ∨ ∀ i, ∀ g < x.length * T / net.cfg.groupSize, z i g = z' i g) :
    net.run z x = net.run z' x := by
  unfold Net.run visionTransformer
  rcases encoderPosEmb net.positionEmb (convSize H ph) (convSize W pw) with err | pos
  · rfl
  simp only
  have : encoder T net.cfg (fun i => ⟨net.kernel i, net.experts i, z i⟩) net.blocks net.dense meanAux net.post net.posParams
      net.numLayers net.moeLayers pos (x.map (tokens net.params net.classifier)) =
      encoder T net.cfg (fun i => ⟨net.kernel i, net.experts i, z' i⟩) net.blocks net.dense meanAux net.post net.posParams
      net.numLayers net.moeLayers pos (x.map (tokens net.params net.classifier)) := by
    unfold encoder encoderMoe
    rcases hp : ((x.map (tokens net.params net.classifier)).map fun l (t : Fin T) => l.getD t 0).mapM
      (addPos pos net.posParams) with err | y
    · rw [hp]
    · have hy := mapM_length _ _ _ hp
      rw [hp]
      simp only
      rw [loop_congr (n := x.length) net.blocks net.dense (fun i => moeLayer net.cfg ⟨net.kernel i, net.experts i, z i⟩) (fun i => moeLayer net.cfg ⟨net.kernel i, net.experts i, z' i⟩)
        net.moeLayers (fun i u hu => layer_noise _ _ _ _ _ u (by rw [hu]; exact hz.imp id fun h => h i))
        (fun i u a m h => layer_length h) _ _ _ (by simpa using hy)]
  rw [this]

end Verif.BatchParts
