import Verif.Proofs.BatchParts
import Verif.Props.Trainer
import Mathlib.Analysis.Calculus.FDeriv.Add
import Mathlib.Analysis.Calculus.FDeriv.Mul

/-!
C162: what splitting a batch into microsteps does to a model with MoE layers.
-/

namespace Verif.MicrostepGroups

open Verif Verif.BatchSpec Verif.Trainer Verif.Encoder Verif.Vit Verif.Vmoe Verif.ModelLoss Verif.BatchParts

variable {ph pw D c r H W T E : Nat} {P L : Type}

theorem length_mul_div {A : Type} (l : List A) (f : A → ℝ) : (l.length : ℝ) * ((l.map f).sum / l.length) = (l.map f).sum := by
  rcases l with _ | ⟨a, l⟩
  · simp
  · have : (((a :: l).length : ℝ)) ≠ 0 := by simp only [List.length_cons]; positivity
    field_simp

theorem total_join (net : Net ph pw D c r T E P) (loss : List ℝ ⊕ Vec r → L → ℝ) (z1 z2 z : Nat → Nat → Nat → Nat → ℝ)
    (b1 b2 : List (Image H W D × L)) (v1 v2 : ℝ) (h1 : totalLoss net loss z1 b1 = .ok v1)
    (h2 : totalLoss net loss z2 b2 = .ok v2) (hb : 0 < b1.length + b2.length)
    (hz : NoiseJoin net.cfg.groupSize T b1.length b2.length z1 z2 z) :
    totalLoss net loss z (b1 ++ b2) = .ok ((b1.length * v1 + b2.length * v2) / (b1.length + b2.length)) := by
  unfold totalLoss at h1 h2 ⊢
  split at h1
  · cases h1
  rename_i o1 m1 e1
  split at h2
  · cases h2
  rename_i o2 m2 e2
  simp only [Except.ok.injEq] at h1 h2
  obtain ⟨o, m, e, hr, l1, l2, hJ⟩ := run_join net z1 z2 z hz _ _ (by simp) (by simp) o1 o2 m1 m2 e1 e2
  rw [List.map_append, e]
  simp only
  rw [losses_rows] at h1 h2 ⊢
  have k1 : (List.zipWith loss (Out.rows o1) (b1.map Prod.snd)).length = b1.length := by simp [l1]
  have k2 : (List.zipWith loss (Out.rows o2) (b2.map Prod.snd)).length = b2.length := by simp [l2]
  have k : List.zipWith loss (Out.rows o) ((b1 ++ b2).map Prod.snd) =
      List.zipWith loss (Out.rows o1) (b1.map Prod.snd) ++ List.zipWith loss (Out.rows o2) (b2.map Prod.snd) := by
    rw [hr, List.map_append, List.zipWith_append (by simp [l1])]
  have q1 := length_mul_div (List.zipWith loss (Out.rows o1) (b1.map Prod.snd)) id
  have q2 := length_mul_div (List.zipWith loss (Out.rows o2) (b2.map Prod.snd)) id
  rw [List.map_id, k1] at q1
  rw [List.map_id, k2] at q2
  rw [k1] at h1
  rw [k2] at h2
  rw [k, List.sum_append, List.length_append, k1, k2, ← h1, ← h2]
  unfold AuxJoin at hJ
  have hne : ((b1.length : ℝ) + b2.length) ≠ 0 := by
    have : (0 : ℝ) < ((b1.length + b2.length : Nat) : ℝ) := by exact_mod_cast hb
    push_cast at this
    exact this.ne'
  congr 1
  push_cast
  rw [eq_div_iff hne, add_mul, mul_comm (auxiliary m), hJ, div_mul_cancel₀ _ hne, mul_add (b1.length : ℝ), q1,
    mul_add (b2.length : ℝ), q2]
  ring

/-- C162.  If a model runs on two batches, it runs on the batch of both, with the noise of both, and the total loss is the mean
of their total losses weighted with the number of examples. -/
theorem C162_join (net : Net ph pw D c r T E P) (loss : List ℝ ⊕ Vec r → L → ℝ) (z1 z2 z : Nat → Nat → Nat → Nat → ℝ)
    (b1 b2 : List (Image H W D × L)) (v1 v2 : ℝ) (h1 : totalLoss net loss z1 b1 = .ok v1)
    (h2 : totalLoss net loss z2 b2 = .ok v2) (hb : 0 < b1.length + b2.length)
    (hz : ∀ i, (∀ g < b1.length * T / net.cfg.groupSize, z i g = z1 i g) ∧
      ∀ g < b2.length * T / net.cfg.groupSize, z i (b1.length * T / net.cfg.groupSize + g) = z2 i g) :
    totalLoss net loss z (b1 ++ b2) = .ok ((b1.length * v1 + b2.length * v2) / (b1.length + b2.length)) :=
  total_join net loss z1 z2 z b1 b2 v1 v2 h1 h2 hb fun _ _ _ => hz

/-- The batch in the order in which the microsteps go through it: first the examples of microstep 0, and so on. -/
def reordered {A : Type} (m : Nat) (batch : List A) : List A := (List.range m).flatMap fun j => every m j batch

/-- The noise of all microsteps, one after the other; each has `G` groups. -/
def allNoise (G : Nat) (zs : Nat → Nat → Nat → Nat → Nat → ℝ) : Nat → Nat → Nat → Nat → ℝ := fun i g => zs (g / G) i (g % G)

/-- C162.  `m` microsteps with `n` examples each have, on average, the total loss of one step over the whole batch in another
order: the examples of the first microstep, then those of the second, and so on.  Groups and noise are those of the microsteps. -/
theorem C162_reordered (net : Net ph pw D c r T E P) (loss : List ℝ ⊕ Vec r → L → ℝ) (m n : Nat) (hm : 0 < m) (hn : 0 < n)
    (zs : Nat → Nat → Nat → Nat → Nat → ℝ) (batch : List (Image H W D × L)) (hlen : batch.length = n * m) (v : Nat → ℝ)
    (hv : ∀ j < m, totalLoss net loss (zs j) (every m j batch) = .ok (v j)) :
    (reordered m batch).Perm batch ∧
    totalLoss net loss (allNoise (n * T / net.cfg.groupSize) zs) (reordered m batch) =
      .ok (1 / (m : ℝ) * ((List.range m).map v).sum) := by
  refine ⟨C48_every_example_once m hm batch, ?_⟩
  have hl : ∀ j < m, (every m j batch).length = n := fun j hj => every_length m j hj n batch hlen
  have hlk : ∀ k ≤ m, ((List.range k).flatMap fun j => every m j batch).length = k * n := by
    intro k hk
    induction k with
    | zero => simp
    | succ k ih =>
      rw [List.range_succ, List.flatMap_append, List.length_append, ih (by omega)]
      simp only [List.flatMap_cons, List.flatMap_nil, List.append_nil]
      rw [hl k (by omega)]
      ring
  have key : ∀ k, 0 < k → k ≤ m →
      totalLoss net loss (allNoise (n * T / net.cfg.groupSize) zs) ((List.range k).flatMap fun j => every m j batch) =
        .ok (1 / (k : ℝ) * ((List.range k).map v).sum) := by
    intro k hk0 hk
    induction k with
    | zero => omega
    | succ k ih =>
      rw [List.range_succ, List.flatMap_append, List.map_append, List.sum_append]
      simp only [List.flatMap_cons, List.flatMap_nil, List.append_nil, List.map_cons, List.map_nil, List.sum_cons, List.sum_nil,
        add_zero]
      have hnoise : ∀ (l : List (Image H W D × L)), l.length = k * n →
          NoiseJoin net.cfg.groupSize T l.length (every m k batch).length (allNoise (n * T / net.cfg.groupSize) zs) (zs k)
            (allNoise (n * T / net.cfg.groupSize) zs) := by
        intro l hll hS h1 h2 i
        refine ⟨fun _ _ => rfl, ?_⟩
        intro g hg
        rw [hl k (by omega)] at h2 hg
        have hd : l.length * T / net.cfg.groupSize = n * T / net.cfg.groupSize * k := by
          rw [hll, Nat.mul_assoc, Nat.mul_div_assoc _ h2, Nat.mul_comm]
        have hpos : 0 < n * T / net.cfg.groupSize := by omega
        unfold allNoise
        rw [hd, Nat.mul_add_div hpos, Nat.div_eq_of_lt hg, Nat.add_zero, Nat.mul_add_mod, Nat.mod_eq_of_lt hg]
      rcases Nat.eq_zero_or_pos k with rfl | hkp
      · have h0 := hv 0 hm
        rw [List.range_zero, List.flatMap_nil, List.nil_append, List.map_nil, List.sum_nil, zero_add]
        unfold totalLoss at h0 ⊢
        rw [run_noise net (allNoise (n * T / net.cfg.groupSize) zs) (zs 0) _ (.inr (by
          intro i g hg
          rw [List.length_map, hl 0 hm] at hg
          unfold allNoise
          rw [Nat.div_eq_of_lt hg, Nat.mod_eq_of_lt hg])), h0]
        simp
      · have hj := total_join net loss _ (zs k) _ _ _ _ _ (ih hkp (by omega)) (hv k (by omega))
          (by rw [hl k (by omega)]; omega) (hnoise _ (hlk k (by omega)))
        rw [hj, hlk k (by omega), hl k (by omega)]
        congr 1
        have h1 : (k : ℝ) ≠ 0 := by exact_mod_cast hkp.ne'
        have h2 : (n : ℝ) ≠ 0 := by exact_mod_cast hn.ne'
        have h3 : ((k : ℝ) + 1) ≠ 0 := by positivity
        push_cast
        rw [show ((k : ℝ) * n + n) = (k + 1) * n by ring]
        field_simp
  exact key m hm le_rfl

/-- C162.  So the gradient that `accumulate_gradients_and_metrics` returns for a model with MoE layers is the gradient of the total
loss over the reordered batch, and the reported total loss is its value. -/
theorem C162_gradient {Θ R : Type} [NormedAddCommGroup Θ] [NormedSpace ℝ Θ] (net : Θ → Net ph pw D c r T E P) (S : Nat)
    (hS : ∀ θ, (net θ).cfg.groupSize = S) (loss : List ℝ ⊕ Vec r → L → ℝ) (devices m n : Nat) (hdev : 0 < devices) (hm : 0 < m)
    (hn : 0 < n) (zs : Nat → Nat → Nat → Nat → Nat → ℝ) (batch : List (Image H W D × L)) (hlen : batch.length = n * m)
    (hd : devices ∣ batch.length) (hmd : m ∣ batch.length / devices) (v : Nat → Θ → ℝ)
    (hv : ∀ j < m, ∀ θ, totalLoss (net θ) loss (zs j) (every m j batch) = .ok (v j θ)) (θ : Θ) (g : Nat → Θ →L[ℝ] ℝ)
    (hg : ∀ j < m, HasFDerivAt (v j) (g j) θ) (fn : GradFn Θ (Image H W D) L R (Θ →L[ℝ] ℝ) ℝ) (rs : Nat → R)
    (hfn : ∀ j < m, fn θ (every m j (batch.map Prod.fst)) (every m j (batch.map Prod.snd)) (rs j) =
      .ok (g j, rs (j + 1), v j θ)) :
    ∃ (grad : Θ →L[ℝ] ℝ) (total : Θ → ℝ),
      accumulate devices fn (some (m : Int)) θ (batch.map Prod.fst) (batch.map Prod.snd) (rs 0) =
        .ok (grad, rs m, total θ) ∧
      (∀ θ', totalLoss (net θ') loss (allNoise (n * T / S) zs) (reordered m batch) = .ok (total θ')) ∧
      HasFDerivAt total grad θ := by
  refine ⟨(1 / (m : ℝ)) • ((List.range m).map g).sum, fun θ' => 1 / (m : ℝ) * ((List.range m).map fun j => v j θ').sum, ?_, ?_, ?_⟩
  · exact C48_microsteps devices hdev fn m hm θ _ _ (by simp) (by simpa using hd) (by simpa using hmd) g rs (fun j => v j θ) hfn
  · intro θ'
    rw [← hS θ']
    exact (C162_reordered (net θ') loss m n hm hn zs batch hlen (fun j => v j θ') fun j hj => hv j hj θ').2
  · have hsum : ∀ k ≤ m, HasFDerivAt (fun θ' => ((List.range k).map fun j => v j θ').sum) ((List.range k).map g).sum θ := by
      intro k hk
      induction k with
      | zero => simpa using hasFDerivAt_const (0 : ℝ) θ
      | succ k ih =>
        simp only [List.range_succ, List.map_append, List.sum_append, List.map_cons, List.map_nil, List.sum_cons, List.sum_nil,
          add_zero]
        exact (ih (by omega)).add (hg k (by omega))
    exact (hsum m le_rfl).const_mul _

/-- C162.  Without noise, if the model runs on every single image (groups within an image), the total loss of a batch is the mean of
the total losses of its examples, whatever the batch. -/
theorem C162_single (net : Net ph pw D c r T E P) (hn : net.cfg.router.noiseless) (loss : List ℝ ⊕ Vec r → L → ℝ)
    (z : Nat → Nat → Nat → Nat → ℝ) (v : Image H W D × L → ℝ) (batch : List (Image H W D × L)) (hb : batch ≠ [])
    (hv : ∀ e ∈ batch, totalLoss net loss z [e] = .ok (v e)) : totalLoss net loss z batch = .ok (BatchSpec.mean v batch) := by
  have hz : ∀ (z' : Nat → Nat → Nat → Nat → ℝ) (b : List (Image H W D × L)),
      totalLoss net loss z' b = totalLoss net loss (fun _ _ _ _ => 0) b := by
    intro z' b
    unfold totalLoss
    rw [run_noise net z' (fun _ _ _ _ => 0) _ (.inl hn)]
  rw [hz z]
  simp only [hz z] at hv
  induction batch with
  | nil => exact absurd rfl hb
  | cons e rest ih =>
    rcases rest with _ | ⟨e', rest⟩
    · rw [hv e List.mem_cons_self]
      simp [BatchSpec.mean]
    · have h1 := ih (by simp) fun a ha => hv a (List.mem_cons_of_mem _ ha)
      have h2 := total_join net loss _ _ (fun _ _ _ _ => 0) [e] (e' :: rest) _ _ (hv e List.mem_cons_self) h1 (by simp)
        (fun _ _ _ i => ⟨fun _ _ => rfl, fun _ _ => rfl⟩)
      rw [List.singleton_append] at h2
      rw [h2]
      congr 1
      unfold BatchSpec.mean
      simp only [List.map_cons, List.sum_cons, List.length_cons, List.length_nil, smul_eq_mul]
      push_cast
      have h3 : ((rest.length : ℝ) + 1) ≠ 0 := by positivity
      have h4 : ((1 : ℝ) + (rest.length + 1)) ≠ 0 := by positivity
      have h5 : ((rest.length : ℝ) + 1 + 1) ≠ 0 := by positivity
      rw [div_eq_iff h4]
      field_simp
      ring

/-- C162.  In that case microsteps change nothing: their average is the total loss of the whole batch, as given. -/
theorem C162_same (net : Net ph pw D c r T E P) (hnoise : net.cfg.router.noiseless) (loss : List ℝ ⊕ Vec r → L → ℝ) (m n : Nat)
    (hm : 0 < m) (hn : 0 < n) (z : Nat → Nat → Nat → Nat → ℝ) (zs : Nat → Nat → Nat → Nat → Nat → ℝ)
    (batch : List (Image H W D × L)) (hlen : batch.length = n * m) (v : Image H W D × L → ℝ)
    (hv : ∀ e ∈ batch, totalLoss net loss z [e] = .ok (v e)) :
    ∃ l : Nat → ℝ, (∀ j < m, totalLoss net loss (zs j) (every m j batch) = .ok (l j)) ∧
      totalLoss net loss z batch = .ok (1 / (m : ℝ) * ((List.range m).map l).sum) := by
  have hz : ∀ (z' : Nat → Nat → Nat → Nat → ℝ) (b : List (Image H W D × L)),
      totalLoss net loss z' b = totalLoss net loss z b := by
    intro z' b
    unfold totalLoss
    rw [run_noise net z' z _ (.inl hnoise)]
  have hj : ∀ j < m, totalLoss net loss (zs j) (every m j batch) = .ok (BatchSpec.mean v (every m j batch)) := by
    intro j hj
    rw [hz]
    refine C162_single net hnoise loss z v _ ?_ ?_
    · intro h0
      have := every_length m j hj n batch hlen
      rw [h0] at this
      simp at this
      omega
    · intro e he
      apply hv
      unfold every at he
      obtain ⟨p, hp, rfl⟩ := List.mem_map.mp he
      exact List.fst_mem_of_mem_zipIdx (List.mem_of_mem_filter hp)
  refine ⟨fun j => BatchSpec.mean v (every m j batch), hj, ?_⟩
  obtain ⟨hp, ht⟩ := C162_reordered net loss m n hm hn zs batch hlen _ hj
  rw [← ht, hz (allNoise _ _)]
  have hne : batch ≠ [] := by
    rintro rfl
    simp at hlen
    omega
  rw [C162_single net hnoise loss z v batch hne hv, C162_single net hnoise loss z v (reordered m batch)
    (fun h0 => hne (by rw [h0] at hp; exact hp.symm.eq_nil)) fun e he => hv e (hp.mem_iff.mp he)]
  congr 1
  unfold BatchSpec.mean
  rw [hp.length_eq, (hp.map v).sum_eq]

/-- C162.  Otherwise the groups are not those of the batch: with `k` images per group and at least `k` microsteps, two images of
the same microstep are never in the same group of the batch. -/
theorem C162_groups (T k m : Nat) (hT : 0 < T) (hk : 0 < k) (hkm : k ≤ m) (p q t u : Nat) (hpq : p ≠ q) (ht : t < T) (hu : u < T)
    (hm : p % m = q % m) : Spec.tokenNumber T p t / (k * T) ≠ Spec.tokenNumber T q u / (k * T) := by
  have hd : ∀ a s, s < T → Spec.tokenNumber T a s / (k * T) = a / k := by
    intro a s hs
    unfold Spec.tokenNumber
    rw [Nat.mul_comm k, ← Nat.div_div_eq_div_mul, Nat.mul_comm a, Nat.mul_add_div hT, Nat.div_eq_of_lt hs, Nat.add_zero]
  rw [hd p t ht, hd q u hu]
  intro h
  have h1 := Nat.div_add_mod p k
  have h2 := Nat.div_add_mod q k
  have h3 := Nat.mod_lt p hk
  have h4 := Nat.mod_lt q hk
  have h5 := Nat.div_add_mod p m
  have h6 := Nat.div_add_mod q m
  rw [h] at h1
  rw [hm] at h5
  rcases Nat.lt_trichotomy (p / m) (q / m) with h7 | h7 | h7
  · have := Nat.mul_le_mul_left m (Nat.succ_le_of_lt h7)
    rw [Nat.mul_succ] at this
    omega
  · rw [h7] at h5
    omega
  · have := Nat.mul_le_mul_left m (Nat.succ_le_of_lt h7)
    rw [Nat.mul_succ] at this
    omega

/-- C162, limit.  Four images of one token, groups of two images, one expert with one place, no noise: without microsteps the layer
keeps the first and the third image, with two microsteps the first and the second. -/
theorem C162_groups_counterexample : ∃ (p : MoeParams 1 1 Unit) (x y y0 y1 : List (Seq 1 1)) (m m0 m1 : LayerMetrics),
    exTight.router.noiseless ∧ moeLayer exTight p x = .ok (y, m) ∧ moeLayer exTight p (every 2 0 x) = .ok (y0, m0) ∧
      moeLayer exTight p (every 2 1 x) = .ok (y1, m1) ∧ every 2 0 y ≠ y0 ∧ every 2 1 y ≠ y1 := by
  have hne : (fun _ _ => 1 : Seq 1 1) ≠ 0 := by
    intro h
    have := congrFun (congrFun h 0) 0
    simp at this
  obtain ⟨m1, h1⟩ := tight_value ⟨fun _ _ => 0, fun _ => (), fun _ _ _ => 0⟩ (fun _ _ => 1) (fun _ _ => 1)
  obtain ⟨m, h, -⟩ := layer_join exTight _ _ _ _ (fun _ _ _ => 0) _ _ _ _ _ _ h1 h1
    (fun _ _ _ => ⟨fun _ _ => rfl, fun _ _ => rfl⟩)
  refine ⟨⟨fun _ _ => 0, fun _ => (), fun _ _ _ => 0⟩, _, _, _, _, m, m1, m1, .inl rfl, h, h1, h1, ?_, ?_⟩
  · intro he
    have h2 : every 2 0 ([(fun _ _ => 1 : Seq 1 1), 0] ++ [(fun _ _ => 1 : Seq 1 1), 0]) =
      [(fun _ _ => 1 : Seq 1 1), (fun _ _ => 1 : Seq 1 1)] := by simp [every, List.zipIdx]
    rw [h2] at he
    injection he with _ he
    injection he with he _
    exact hne he
  · intro he
    have h2 : every 2 1 ([(fun _ _ => 1 : Seq 1 1), 0] ++ [(fun _ _ => 1 : Seq 1 1), 0]) = [0, 0] := by
      simp [every, List.zipIdx]
    rw [h2] at he
    injection he with he _
    exact hne he.symm

/-! Non-vacuity: a model with two layers, the first one with experts and groups of `S` tokens; images have two tokens. -/

/-- Two experts, one place per expert, groups of `S` tokens. -/
noncomputable def exNet (S : Nat) : Net 1 1 1 1 1 2 2 Unit where
  params := ⟨fun _ _ _ _ => 1, fun _ => 0, 0, fun _ => 0, id, fun _ v => [v 0]⟩
  classifier := "gap".toList
  numClasses := some 3
  positionEmb := none
  cfg := { exSeparate with groupSize := S }
  kernel := fun _ _ e => e
  experts := fun _ _ => ()
  blocks := fun _ => ⟨id, id⟩
  dense := fun _ v => v
  post := id
  posParams := [0, 0]
  numLayers := 2
  moeLayers := [0]

theorem exNet_runs (S : Nat) (hS : 0 < S) (z : Nat → Nat → Nat → Nat → ℝ) (images : List (Image 2 1 1))
    (hd : S ∣ images.length * 2) : ∃ q, (exNet S).run z images = .ok q := by
  have hmoe : ∀ (i : Nat) (x : List (Seq 2 1)), x.length = images.length →
      ∃ q, moeLayer (exNet S).cfg ⟨(exNet S).kernel i, (exNet S).experts i, z i⟩ x = .ok q := by
    intro i x hx
    obtain ⟨out, m, h, -⟩ := MoeBlock.C72_block_output (exNet S).cfg.fl (exNet S).cfg.cdf (exNet S).cfg.bf
      { exTightRouter with numSelected := 2 } S ((exNet S).kernel i) (z i) (exNet S).cfg.oob ((exNet S).experts i)
      (exNet S).cfg.mlp x.get hS (by rw [hx]; exact hd) (by decide) Nat.two_pos (le_refl 2) (Or.inl rfl) 1 rfl
    refine ⟨(List.ofFn out, .topExperts _ m), ?_⟩
    have h' : MoeBlock.mlpMoeBlock (exNet S).cfg.fl (exNet S).cfg.cdf (exNet S).cfg.bf { exTightRouter with numSelected := 2 }
      (exNet S).cfg.groupSize ((exNet S).kernel i) (z i) (exNet S).cfg.oob ((exNet S).experts i) (exNet S).cfg.mlp x.get =
        .ok (out, m) := h
    unfold moeLayer
    rw [show (exNet S).cfg.router = .topExperts { exTightRouter with numSelected := 2 } from rfl]
    simp only
    rw [h']
    rfl
  have hpre : ∀ x : List (Seq 2 1), ∃ y, x.mapM (addPos none [0, 0]) = .ok y := by
    intro x
    refine ⟨_, DataPipeline.mapM_ok_eq (g := fun v (t : Fin 2) => (List.zipWith (· + ·) (List.ofFn v) [0, 0]).getD t 0) ?_⟩
    intro v _
    rfl
  have henc : ∀ x, x.length = images.length → ∃ y m, encoder 2 (exNet S).cfg
      (fun i => ⟨(exNet S).kernel i, (exNet S).experts i, z i⟩) (exNet S).blocks (exNet S).dense meanAux id [0, 0] 2 [0] none x =
        .ok (y, m) := by
    intro x hx
    unfold encoder encoderMoe
    obtain ⟨y, hy⟩ := hpre (x.map fun l t => l.getD t 0)
    have hl := mapM_length _ _ _ hy
    rw [hy]
    simp only
    rw [show List.range 2 = [0, 1] from rfl, loop, if_pos (by simp)]
    unfold moeBlock
    simp only
    obtain ⟨⟨q, mq⟩, hq⟩ := hmoe 0 ((attention ((exNet S).blocks 0) y).map ((exNet S).blocks 0).norm)
      (by simpa [attention, hx] using hl)
    rw [hq]
    simp only
    rw [loop, if_neg (by simp), loop]
    exact ⟨_, _, rfl⟩
  obtain ⟨y, m, hy⟩ := henc (images.map (tokens (exNet S).params "gap".toList)) (by simp)
  unfold Net.run visionTransformer
  rw [show encoderPosEmb (exNet S).positionEmb (convSize 2 1) (convSize 1 1) = .ok none from rfl]
  simp only
  rw [show (exNet S).classifier = "gap".toList from rfl, show (exNet S).post = id from rfl,
    show (exNet S).posParams = [0, 0] from rfl, show (exNet S).numLayers = 2 from rfl,
    show (exNet S).moeLayers = [0] from rfl, hy]
  simp only
  rw [if_neg (by decide), if_pos trivial]
  exact ⟨_, rfl⟩

theorem exNet_loss (S : Nat) (hS : 0 < S) (loss : List ℝ ⊕ Vec 1 → ℝ → ℝ) (z : Nat → Nat → Nat → Nat → ℝ)
    (batch : List (Image 2 1 1 × ℝ)) (hd : S ∣ batch.length * 2) : ∃ v, totalLoss (exNet S) loss z batch = .ok v := by
  obtain ⟨⟨o, m⟩, h⟩ := exNet_runs S hS z (batch.map Prod.fst) (by simpa using hd)
  unfold totalLoss
  rw [h]
  exact ⟨_, rfl⟩

/-- Groups of two images, four images in two microsteps. -/
example (loss : List ℝ ⊕ Vec 1 → ℝ → ℝ) (zs : Nat → Nat → Nat → Nat → Nat → ℝ) (a b c d : Image 2 1 1 × ℝ) :
    reordered 2 [a, b, c, d] = [a, c, b, d] ∧
      ∃ v : Nat → ℝ, totalLoss (exNet 4) loss (allNoise 1 zs) [a, c, b, d] = .ok (1 / (2 : ℝ) * (v 0 + v 1)) := by
  have hr : reordered 2 [a, b, c, d] = [a, c, b, d] := by simp [reordered, every, List.zipIdx, List.range_succ]
  refine ⟨hr, ?_⟩
  have hex : ∀ j < 2, ∃ v, totalLoss (exNet 4) loss (zs j) (every 2 j [a, b, c, d]) = .ok v := fun j hj =>
    exNet_loss 4 (by decide) loss (zs j) _ (by rw [every_length 2 j hj 2 _ rfl])
  have h0 := hex 0 (by decide)
  have h1 := hex 1 (by decide)
  obtain ⟨v0, h0⟩ := h0
  obtain ⟨v1, h1⟩ := h1
  refine ⟨fun j => if j = 0 then v0 else v1, ?_⟩
  have := (C162_reordered (exNet 4) loss 2 2 (by decide) (by decide) zs [a, b, c, d] rfl (fun j => if j = 0 then v0 else v1) (by
    intro j hj
    interval_cases j
    · exact h0
    · exact h1)).2
  rw [hr, show 2 * 2 / (exNet 4).cfg.groupSize = 1 from rfl] at this
  simpa [List.range_succ] using this

/-- The same model with a factor in the head as its only parameter, and logits as losses. -/
noncomputable def exFamily (S : Nat) (θ : ℝ) : Net 1 1 1 1 1 2 2 Unit :=
  { exNet S with params := { (exNet S).params with head := fun _ v => [θ * v 0] } }

/-- The loss of an example: its logit. -/
def exLoss (v : List ℝ ⊕ Vec 1) (_ : ℝ) : ℝ :=
  match v with
  | .inl l => l.headD 0
  | .inr _ => 0

theorem exFamily_loss (S : Nat) (hS : 0 < S) (z : Nat → Nat → Nat → Nat → ℝ)
    (batch : List (Image 2 1 1 × ℝ)) (hd : S ∣ batch.length * 2) :
    ∃ a b : ℝ, ∀ θ, totalLoss (exFamily S θ) exLoss z batch = .ok (θ * a + b) := by
  obtain ⟨q, h⟩ := exNet_runs S hS z (batch.map Prod.fst) (by simpa using hd)
  unfold Net.run visionTransformer at h
  rw [show encoderPosEmb (exNet S).positionEmb (convSize 2 1) (convSize 1 1) = .ok none from rfl] at h
  simp only at h
  split at h
  · cases h
  rename_i y m hy
  clear h
  refine ⟨(List.zipWith (fun (v : Vec 1) (_ : ℝ) => v 0) (y.map mean) (batch.map Prod.snd)).sum /
    ((List.zipWith (fun (v : Vec 1) (_ : ℝ) => v 0) (y.map mean) (batch.map Prod.snd)).length : ℝ), auxiliary m, ?_⟩
  intro θ
  unfold totalLoss Net.run visionTransformer
  rw [show encoderPosEmb (exFamily S θ).positionEmb (convSize 2 1) (convSize 1 1) = .ok none from rfl]
  simp only
  have hy' : encoder 2 (exFamily S θ).cfg (fun i => ⟨(exFamily S θ).kernel i, (exFamily S θ).experts i, z i⟩) (exFamily S θ).blocks
      (exFamily S θ).dense meanAux (exFamily S θ).post (exFamily S θ).posParams (exFamily S θ).numLayers (exFamily S θ).moeLayers none
      ((batch.map Prod.fst).map (tokens (exFamily S θ).params (exFamily S θ).classifier)) = .ok (y, m) := hy
  rw [hy']
  simp only
  rw [show (exFamily S θ).classifier = "gap".toList from rfl, if_neg (by decide), if_pos rfl]
  simp only
  have hl : losses exLoss (finish (exFamily S θ).params.head (exFamily S θ).numClasses
      ((y.map mean).map (exFamily S θ).params.preLogits)) (batch.map Prod.snd) =
      (List.zipWith (fun (v : Vec 1) (_ : ℝ) => v 0) (y.map mean) (batch.map Prod.snd)).map (fun u => θ * u) := by
    rw [show (exFamily S θ).numClasses = some 3 from rfl]
    simp only [finish, losses, List.zipWith_map_left, List.map_zipWith]
    rfl
  rw [hl, List.length_map, List.sum_map_mul_left, List.map_id', mul_div_assoc]

/-- Two microsteps with groups of two images; the gradient with respect to the factor. -/
example (zs : Nat → Nat → Nat → Nat → Nat → ℝ) (batch : List (Image 2 1 1 × ℝ)) (hlen : batch.length = 4) :
    ∃ (fn : GradFn ℝ (Image 2 1 1) ℝ Nat (ℝ →L[ℝ] ℝ) ℝ) (grad : ℝ →L[ℝ] ℝ) (total : ℝ → ℝ),
      accumulate 1 fn (some 2) 3 (batch.map Prod.fst) (batch.map Prod.snd) 0 = .ok (grad, 2, total 3) ∧
      (∀ θ, totalLoss (exFamily 4 θ) exLoss (allNoise 1 zs) (reordered 2 batch) = .ok (total θ)) ∧ HasFDerivAt total grad 3 := by
  have hex : ∀ j : Nat, ∃ a b : ℝ, j < 2 → ∀ θ, totalLoss (exFamily 4 θ) exLoss (zs j) (every 2 j batch) = .ok (θ * a + b) := by
    intro j
    by_cases hj : j < 2
    · obtain ⟨a, b, h⟩ := exFamily_loss 4 (by decide) (zs j) (every 2 j batch) (by rw [every_length 2 j hj 2 batch hlen])
      exact ⟨a, b, fun _ => h⟩
    · exact ⟨0, 0, fun h => absurd h hj⟩
  choose a b hab using hex
  have hder : ∀ j < 2, HasFDerivAt (fun θ => θ * a j + b j) ((ContinuousLinearMap.id ℝ ℝ).smulRight (a j)) 3 := by
    intro j _
    have := ((hasFDerivAt_id (𝕜 := ℝ) (3 : ℝ)).mul_const (a j)).add_const (b j)
    refine this.congr_fderiv ?_
    ext
    simp
  -- the state of the generators counts the microsteps
  refine ⟨fun θ _ _ j => .ok ((ContinuousLinearMap.id ℝ ℝ).smulRight (a j), j + 1, θ * a j + b j), ?_⟩
  exact C162_gradient (exFamily 4) 4 (fun _ => rfl) exLoss 1 2 2 (by decide) (by decide) (by decide) zs batch hlen (by simp)
    (by rw [hlen]; decide) (fun j θ => θ * a j + b j) (fun j hj θ => hab j hj θ) 3 (fun j => (ContinuousLinearMap.id ℝ ℝ).smulRight (a j))
    hder _ id fun _ _ => rfl

/-- Groups of one image: the loss of a batch is the mean over its images. -/
example (loss : List ℝ ⊕ Vec 1 → ℝ → ℝ) (z : Nat → Nat → Nat → Nat → ℝ) (batch : List (Image 2 1 1 × ℝ)) (hb : batch ≠ []) :
    ∃ v, totalLoss (exNet 2) loss z batch = .ok (BatchSpec.mean v batch) := by
  have h := fun e => exNet_loss 2 (by decide) loss z [e] ⟨1, rfl⟩
  choose v hv using h
  exact ⟨v, C162_single (exNet 2) (.inl rfl) loss z v batch hb fun e _ => hv e⟩

/-- Images 0 and 2 are in the same group of microstep 0 of 2, and in different groups of the batch. -/
example : Spec.tokenNumber 5 0 3 / (2 * 5) ≠ Spec.tokenNumber 5 2 1 / (2 * 5) :=
  C162_groups 5 2 2 (by decide) (by decide) (by decide) 0 2 3 1 (by decide) (by decide) (by decide) rfl

end Verif.MicrostepGroups
