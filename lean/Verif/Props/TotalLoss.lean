import Verif.Props.MicrostepGroups
import Verif.Props.Encoder

/-!
C162: what the total loss of a model with MoE layers consists of.
-/

namespace Verif.TotalLoss

open Verif Verif.Encoder Verif.Vit Verif.Vmoe Verif.ModelLoss

variable {ph pw D c r H W T E : Nat} {P L : Type}

/-- The mean over the groups of the auxiliary losses that a MoE layer reports for its groups (with expert choice one value for all
groups), and zero for a dense layer. -/
noncomputable def layerLoss : Option LayerMetrics → ℝ
  | none => 0
  | some (.topExperts G m) => (∑ g, m.auxiliaryLoss g) / G
  | some (.topItems _ _ _ m) => m.auxiliaryLoss

theorem zipWith_sum {A B : Type} (f : A → B → ℝ) (l : List A) (k : List B) (h : l.length = k.length) :
    (List.zipWith f l k).sum = ∑ b : Fin k.length, f (l[b]'(by omega)) k[b] := by
  rw [← Fin.sum_ofFn]
  congr 1
  apply List.ext_getElem
  · simp [h]
  · intro i h1 h2
    simp

theorem filterMap_sum (f : Nat → Option LayerMetrics) (num : Nat) :
    ((List.range num).filterMap fun i => (f i).map meanAux).sum = ∑ i ∈ Finset.range num, layerLoss (f i) := by
  induction num with
  | zero => simp
  | succ n ih =>
    rw [List.range_succ, List.filterMap_append, List.sum_append, ih, Finset.sum_range_succ]
    congr 1
    rcases h : f n with _ | m
    · simp [h, layerLoss]
    · cases m <;> simp [h, layerLoss, meanAux]

/-- C162.  The total loss is the mean over the examples of the loss of the row of the example and its label, plus, for each block
with a MoE layer, the mean over the groups of its auxiliary loss.  Block `i` has the kernel, the experts and the noise with
number `i`, and its metrics are returned under its name. -/
theorem C162_total (net : Net ph pw D c r T E P) (loss : List ℝ ⊕ Vec r → L → ℝ) (z : Nat → Nat → Nat → Nat → ℝ)
    (batch : List (Image H W D × L)) (v : ℝ) (h : totalLoss net loss z batch = .ok v) :
    ∃ (out : Out r) (metrics : PyDict (List Char) (Metric LayerMetrics ℝ)) (f : Nat → Option LayerMetrics)
      (hrows : (Out.rows out).length = batch.length),
      net.run z (batch.map Prod.fst) = .ok (out, metrics) ∧
      (∀ i < net.numLayers, metrics.get? (blockName i) = (f i).map Metric.block ∧ ((f i).isSome ↔ (i : Int) ∈ net.moeLayers) ∧
        ∀ m, f i = some m → ∃ x y : List (Seq T c), x.length = batch.length ∧ moeLayer net.cfg ⟨net.kernel i, net.experts i, z i⟩ x = .ok (y, m)) ∧
      v = (∑ b : Fin batch.length, loss ((Out.rows out)[b]'(by omega)) batch[b].2) / batch.length +
        ∑ i ∈ Finset.range net.numLayers, layerLoss (f i) := by
  unfold totalLoss at h
  split at h
  · cases h
  rename_i out metrics hrun
  have hrun0 := hrun
  unfold Net.run visionTransformer at hrun
  split at hrun
  · cases hrun
  rename_i pos hpos
  split at hrun
  · cases hrun
  rename_i a d henc
  have hlen : (Out.rows out).length = a.length ∧ d = metrics := by
    have hfin : ∀ x : List (Vec c), (Out.rows (finish net.params.head net.numClasses (x.map net.params.preLogits))).length = x.length := by
      intro x
      match net.numClasses with
      | none => simp [finish, Out.rows]
      | some 0 => simp [finish, Out.rows]
      | some (n + 1) => simp [finish, Out.rows]
    split_ifs at hrun with h1 h2 h3
    all_goals first
      | cases hrun; done
      | (simp only [Except.ok.injEq, Prod.mk.injEq] at hrun
         obtain ⟨rfl, rfl⟩ := hrun
         refine ⟨?_, rfl⟩
         rw [hfin, List.length_map])
  obtain ⟨hlen, rfl⟩ := hlen
  clear hrun
  unfold encoder at henc
  split at henc
  · cases henc
  rename_i y d' hy
  obtain ⟨rfl, rfl⟩ := Prod.mk.inj (Except.ok.inj henc)
  rw [C73_plain_encoder] at hy
  obtain ⟨n, hn, hn1, xs, f, hx0, hout, hdense, hmoe, hget, -, haux⟩ := C73_ensemble_encoder _ _ _ _ _ _ _ _ _ _ hy
  obtain rfl : n = 1 := by simpa using hn1.symm
  have hone : ∀ i : Nat, (if ∀ j < i, (j : Int) ∉ net.moeLayers then (xs i).flatMap (fun v => List.replicate 1 v) else xs i) = xs i := by
    intro i
    split_ifs
    · simp [List.replicate]
    · rfl
  simp only [hone] at hmoe
  have hxs : ∀ i ≤ net.numLayers, (xs i).length = batch.length := by
    intro i
    induction i with
    | zero =>
      intro _
      have := BatchParts.mapM_length _ _ _ hx0
      simpa using this
    | succ i ih =>
      intro hi
      have ih := ih (by omega)
      by_cases hL : (i : Int) ∈ net.moeLayers
      · obtain ⟨m, y', -, hm, hx⟩ := hmoe i (by omega) hL
        have := BatchParts.layer_length hm
        rw [hx]
        simp_all
      · rw [(hdense i (by omega) hL).2, List.length_map, ih]
  have hrows : (Out.rows out).length = batch.length := by
    rw [hlen, hout, List.length_map, List.length_map, hxs _ le_rfl]
  refine ⟨out, d', f, hrows, hrun0, ?_, ?_⟩
  · intro i hi
    refine ⟨hget i hi, ?_, ?_⟩
    · by_cases hL : (i : Int) ∈ net.moeLayers
      · obtain ⟨m, y', hf, -⟩ := hmoe i hi hL
        simp [hf, hL]
      · simp [(hdense i hi hL).1, hL]
    · intro m hm
      have hL : (i : Int) ∈ net.moeLayers := by
        by_contra hL
        rw [(hdense i hi hL).1] at hm
        cases hm
      obtain ⟨m', y', hf, hm', -⟩ := hmoe i hi hL
      rw [hm] at hf
      cases hf
      exact ⟨_, _, by simpa using hxs i (by omega), hm'⟩
  · have h := (Except.ok.inj h).symm
    rw [h, BatchParts.losses_rows]
    congr 1
    · have hk : (List.zipWith loss (Out.rows out) (batch.map Prod.snd)).length = batch.length := by simp [hrows]
      rw [hk, List.zipWith_map_right, zipWith_sum _ _ _ hrows]
    · rw [← filterMap_sum]
      unfold auxiliary
      rw [haux]

/-- The model of the examples of C162 with groups of two images. -/
example (loss : List ℝ ⊕ Vec 1 → ℝ → ℝ) (z : Nat → Nat → Nat → Nat → ℝ) (batch : List (Image 2 1 1 × ℝ)) (hb : batch.length = 4) :
    ∃ (v : ℝ) (f : Nat → Option LayerMetrics) (rows : Fin 4 → List ℝ ⊕ Vec 1),
      totalLoss (MicrostepGroups.exNet 4) loss z batch = .ok v ∧
      v = (∑ b : Fin 4, loss (rows b) (batch[b]'(by omega)).2) / 4 +
        ∑ i ∈ Finset.range (MicrostepGroups.exNet 4).numLayers, layerLoss (f i) := by
  obtain ⟨v, hv⟩ := MicrostepGroups.exNet_loss 4 (by decide) loss z batch (by rw [hb]; decide)
  obtain ⟨out, metrics, f, hrows, -, -, h⟩ := C162_total _ loss z batch v hv
  refine ⟨v, f, fun b => (Out.rows out)[b]'(by omega), hv, ?_⟩
  rw [h]
  congr 1
  have : ∀ (n : Nat) (hn : batch.length = n), (∑ b : Fin batch.length, loss ((Out.rows out)[b]'(by omega)) batch[b].2) =
      ∑ b : Fin n, loss ((Out.rows out)[b]'(by omega)) (batch[b]'(by omega)).2 := by
    rintro n rfl
    rfl
  rw [this 4 hb, show (batch.length : ℝ) = 4 by rw [hb]; norm_num]

end Verif.TotalLoss
