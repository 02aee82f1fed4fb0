import Verif.Model.FewshotStep
import Verif.Props.Fewshot
import Verif.Props.SoftModel

/-!
C168: features of the few-shot evaluation: random keys, and batches.
-/

namespace Verif.FewshotStep

open Verif Verif.Fewshot Verif.FewshotAction FewshotSpec TrainStep

variable {A X : Type} {D : Nat}

/-- The examples of the batches that are not padding, in order. -/
def valid (batches : List (Batch X)) : List (X × Int) :=
  batches.flatten.filterMap fun e => if e.2.2 then some (e.1, e.2.1) else none

/-- The keys for batch number `n`: the second half of every split goes on, the first half is used. -/
def keysAt (state : Rngs) (n : Nat) : Rngs := state.map fun e => (e.1, e.2 ++ List.replicate n 1 ++ [0])

/-- The keys after `n` batches. -/
def keysAfter (state : Rngs) (n : Nat) : Rngs := state.map fun e => (e.1, e.2 ++ List.replicate n 1)

theorem slice_after (state : Rngs) (n : Nat) : slice (keysAfter state n) 1 = keysAfter state (n + 1) := by
  simp [slice, keysAfter, child, Function.comp_def, List.replicate_succ']

theorem slice_at (state : Rngs) (n : Nat) : slice (keysAfter state n) 0 = keysAt state n := by
  simp [slice, keysAfter, keysAt, child, Function.comp_def]

theorem keysAfter_zero (state : Rngs) : keysAfter state 0 = state := by
  simp [keysAfter]

theorem loop_keys (apply : A → List X → Rngs → List (Fin D → ℝ)) (vars : A) (state : Rngs) (batches : List (Batch X)) (n : Nat)
    (acc : List (List (Example D))) :
    batches.foldl (fun (state, chunks) batch =>
      let (state, rows) := fewshotStep apply vars state batch
      (state, chunks ++ [(rows.filter fun r => r.2.2).map fun r => (r.1, r.2.1)])) (keysAfter state n, acc) =
    (keysAfter state (n + batches.length), acc ++ (batches.zipIdx n).map fun bi =>
      (((List.zip (apply vars (bi.1.map (·.1)) (keysAt state bi.2)) (bi.1.map (·.2))).filter fun r => r.2.2).map fun r =>
        (r.1, r.2.1))) := by
  induction batches generalizing n acc with
  | nil => simp
  | cons b bs ih =>
    rw [List.foldl_cons, List.zipIdx_cons, List.map_cons]
    simp only [fewshotStep, slice_after, slice_at]
    have := ih (n + 1) (acc ++ [((List.zip (apply vars (b.map (·.1)) (keysAt state n)) (b.map (·.2))).filter fun r => r.2.2).map
      fun r => (r.1, r.2.1)])
    simp only [fewshotStep] at this
    rw [this, List.append_assoc, List.singleton_append, List.length_cons]
    congr 2
    omega

/-- C168, keys.  Batch number `n` (counted through training and test data) is computed with its own keys, derived from those of the
state, and padding is left out. -/
theorem C168_keys (apply : A → List X → Rngs → List (Fin D → ℝ)) (vars : A) (state : Rngs) (batches : List (Batch X)) (n : Nat)
    (h : batches ≠ []) :
    computeRepresentation (fewshotStep apply vars) (keysAfter state n) batches = .ok (keysAfter state (n + batches.length),
      ((batches.zipIdx n).map fun bi =>
        (List.zip (apply vars (bi.1.map (·.1)) (keysAt state bi.2)) (bi.1.map (·.2))).filterMap fun r =>
          if r.2.2 then some (r.1, r.2.1) else none).flatten) := by
  unfold computeRepresentation
  rw [loop_keys]
  simp only [List.nil_append]
  rw [if_neg (by simpa using h)]
  congr 3
  refine List.map_congr_left fun bi _ => ?_
  rw [← List.filterMap_eq_map, List.filterMap_filter]
  rfl

/-- C168, keys differ.  If the keys of the state are different and equally long, no key is used twice: not for two batches, nor for two
names, nor is one used that stays in the state. -/
theorem C168_fresh (state : Rngs) (hd : (state.map Prod.snd).Nodup) (len : Nat) (hl : ∀ e ∈ state, e.2.length = len)
    (m n : Nat) (a b : List Char × TrainStep.Key) (ha : a ∈ keysAt state m) (hb : b ∈ keysAt state n)
    (h : a.2 = b.2) : m = n ∧ a = b := by
  obtain ⟨e, he, rfl⟩ := List.mem_map.1 ha
  obtain ⟨e', he', rfl⟩ := List.mem_map.1 hb
  simp only at h
  have hlen := congrArg List.length h
  simp only [List.length_append, List.length_replicate, hl e he, hl e' he', List.length_singleton] at hlen
  obtain rfl : m = n := by omega
  have h2 : e.2 = e'.2 := List.append_cancel_right (List.append_cancel_right h)
  have : e = e' := List.inj_on_of_nodup_map hd he he' h2
  exact ⟨rfl, by rw [this]⟩

theorem representation_pointwise (apply : A → List X → Rngs → List (Fin D → ℝ)) (vars : A) (f : X → Fin D → ℝ)
    (hf : ∀ images rngs, apply vars images rngs = images.map f) (state : Rngs) (batches : List (Batch X)) (h : batches ≠ []) :
    ∃ s, computeRepresentation (fewshotStep apply vars) state batches = .ok (s, (valid batches).map fun e => (f e.1, e.2)) := by
  have hk := C168_keys apply vars state batches 0 h
  rw [keysAfter_zero] at hk
  refine ⟨keysAfter state (0 + batches.length), hk.trans ?_⟩
  congr 2
  have : ∀ b : Batch X, (List.zip (b.map fun e => f e.1) (b.map (·.2))).filterMap (fun r =>
      if r.2.2 then some (r.1, r.2.1) else none) = (valid [b]).map fun e => (f e.1, e.2) := by
    intro b
    unfold valid
    rw [List.flatten_singleton, List.zip_map', List.filterMap_map, List.map_filterMap]
    congr 1
    funext e
    simp only [Function.comp_apply]
    split <;> rfl
  simp only [hf, List.map_map, Function.comp_def] at *
  simp only [this]
  clear hk h
  generalize 0 = n
  induction batches generalizing n with
  | nil => rfl
  | cons b bs ih =>
    rw [List.zipIdx_cons, List.map_cons, List.flatten_cons, ih]
    simp [valid]

/-- Two names; the third batch uses keys of its own. -/
example : keysAt [("dropout".toList, [7, 0]), ("gating".toList, [7, 1])] 2 =
    [("dropout".toList, [7, 0, 1, 1, 0]), ("gating".toList, [7, 1, 1, 1, 0])] := rfl

example (a b : List Char × TrainStep.Key) (m n : Nat) (ha : a ∈ keysAt [("dropout".toList, [7, 0]), ("gating".toList, [7, 1])] m)
    (hb : b ∈ keysAt [("dropout".toList, [7, 0]), ("gating".toList, [7, 1])] n) (h : a.2 = b.2) : m = n ∧ a = b :=
  C168_fresh _ (by decide) 2 (by decide) m n a b ha hb h

/-- Two batches, the second with a padded example. -/
example (x y : X) (f : X → Fin D → ℝ) (state : Rngs) :
    computeRepresentation (fewshotStep (fun (_ : Unit) images _ => images.map f) ()) state [[(x, 3, true)], [(y, 4, true), (x, 0, false)]] =
      .ok (keysAfter state 2, [(f x, 3), (f y, 4)]) := by
  have h := C168_keys (fun (_ : Unit) images _ => images.map f) () state [[(x, 3, true)], [(y, 4, true), (x, 0, false)]] 0 (by simp)
  rw [keysAfter_zero] at h
  exact h

/-- C168, batches.  If the features of an image depend on the image only, the results of the few-shot evaluation are those of the
examples: how they are put in batches, padding and random keys do not matter. -/
theorem C168_batches (eigh : EighFn) (perm : Nat → Nat → List Nat → List Nat) (cfg : FewshotAction.Config) (numClasses : Nat)
    (apply : A → List X → Rngs → List (Fin D → ℝ)) (vars : A) (f : X → Fin D → ℝ)
    (hf : ∀ images rngs, apply vars images rngs = images.map f) (seed : Nat) (state state' : Rngs) (tr te tr' te' : List (Batch X))
    (h1 : tr ≠ []) (h2 : te ≠ []) (h1' : tr' ≠ []) (h2' : te' ≠ []) (htr : valid tr = valid tr') (hte : valid te = valid te') :
    computeFewshotMetrics eigh perm (fewshotStep apply) cfg numClasses state vars tr te seed =
      computeFewshotMetrics eigh perm (fewshotStep apply) cfg numClasses state' vars tr' te' seed := by
  unfold computeFewshotMetrics
  obtain ⟨s, e⟩ := representation_pointwise apply vars f hf state tr h1
  obtain ⟨s', e'⟩ := representation_pointwise apply vars f hf state' tr' h1'
  obtain ⟨t, d⟩ := representation_pointwise apply vars f hf s te h2
  obtain ⟨t', d'⟩ := representation_pointwise apply vars f hf s' te' h2'
  rw [e, e']
  simp only [bind, Except.bind]
  rw [d, d', htr, hte]

/-- One batch with padding, or two without. -/
example (eigh : EighFn) (perm : Nat → Nat → List Nat → List Nat) (cfg : FewshotAction.Config) (f : X → Fin D → ℝ) (x y z : X)
    (state : Rngs) : computeFewshotMetrics eigh perm (fewshotStep fun (_ : Unit) images _ => images.map f) cfg 5 state ()
        [[(x, 3, true), (y, 4, true), (z, 0, false)]] [[(z, 3, true)]] 1 =
      computeFewshotMetrics eigh perm (fewshotStep fun (_ : Unit) images _ => images.map f) cfg 5 state ()
        [[(x, 3, true)], [(y, 4, true)]] [[(z, 3, true), (z, 3, false)]] 1 :=
  C168_batches eigh perm cfg 5 _ () f (fun _ _ => rfl) 1 state state _ _ _ _ (by simp) (by simp) (by simp) (by simp) rfl rfl

section Soft

open Vit Vmoe Encoder SoftModel

variable {ph pw c r H W T : Nat} {P : Type}

theorem features_of {M : Type} {p : Params ph pw D c r} {classifier : List Char} {pos : Option (Option PosEmb)}
    {enc : Option (Option PosEmb) → List (List (Vec c)) → Except PyErr (List (List (Vec c)) × M)} {images : List (Image H W D)}
    {out : Out r} {m : M} (hq : visionTransformer p classifier none pos enc images = .ok (out, m)) : ∃ x, out = .features x := by
  unfold visionTransformer at hq
  split at hq
  · cases hq
  · split at hq
    · cases hq
    · simp only at hq
      split at hq
      · cases hq
      · cases hq
        exact ⟨_, rfl⟩

/-- C168, soft router.  The results with features from a model with the soft router, whose groups are whole sequences, without noise,
do not depend on the batches and the padding. -/
theorem C168_soft (eigh : EighFn) (perm : Nat → Nat → List Nat → List Nat) (fcfg : FewshotAction.Config) (numClasses : Nat)
    (p : A → Params ph pw D c r) (classifier : List Char) (cfg : SoftModel.Config c P)
    (params : A → Nat → LayerParams cfg.router.numExperts P) (blocks : A → Nat → BlockFns (Seq T c))
    (dense : A → Nat → Seq T c → Seq T c) (post : A → Seq T c → Seq T c) (pe : A → List (Vec c)) (numLayers : Nat)
    (moeLayers : List Int) (hS : cfg.groupSize = T) (hT : 0 < T) (hn : cfg.router.deterministic = true ∨ cfg.router.noiseStd ≤ 0)
    (hc : classifier ∈ ["token".toList, "0".toList, "gap".toList, "map".toList]) (vars : A)
    (hfit : ∀ i < numLayers, (i : Int) ∈ moeLayers → Fits cfg (params vars i))
    (apply : A → List (Image H W D) → Rngs → List (Fin r → ℝ))
    (happly : ∀ images rngs x m, visionTransformer (p vars) classifier none none
      (SoftModel.encoder T cfg (params vars) (blocks vars) (dense vars) (post vars) (pe vars) numLayers moeLayers) images =
        .ok (.features x, m) → apply vars images rngs = x)
    (seed : Nat) (state state' : Rngs) (tr te tr' te' : List (Batch (Image H W D)))
    (h1 : tr ≠ []) (h2 : te ≠ []) (h1' : tr' ≠ []) (h2' : te' ≠ []) (htr : valid tr = valid tr') (hte : valid te = valid te') :
    computeFewshotMetrics eigh perm (fewshotStep apply) fcfg numClasses state vars tr te seed =
      computeFewshotMetrics eigh perm (fewshotStep apply) fcfg numClasses state' vars tr' te' seed := by
  obtain ⟨f, hf⟩ := C134_model (H := H) (W := W) (p vars) classifier none none cfg (params vars) (blocks vars) (dense vars) (post vars)
    (pe vars) numLayers moeLayers hS hT hn
  refine C168_batches eigh perm fcfg numClasses apply vars (fun x => ((f x).getRight?).getD 0) ?_ seed state state' tr te tr' te' h1 h2
    h1' h2' htr hte
  intro images rngs
  obtain ⟨⟨out, m⟩, hq⟩ := C134_runs (p vars) classifier none cfg (params vars) (blocks vars) (dense vars) (post vars) (pe vars) numLayers
    moeLayers hS hT hc hfit images
  have hr := hf images out m hq
  obtain ⟨x, rfl⟩ := features_of hq
  rw [happly images rngs x m hq]
  have : x = (Out.rows (.features x)).map fun y => (y.getRight?).getD 0 := by
    simp [Out.rows, Function.comp_def]
  rw [this, hr, List.map_map]
  rfl

example (eigh : EighFn) (perm : Nat → Nat → List Nat → List Nat) (fcfg : FewshotAction.Config) (p : Params 1 1 1 1 1)
    (blocks : Nat → BlockFns (Seq 2 1)) (dense : Nat → Seq 2 1 → Seq 2 1) (state : Rngs) (x y z : Image 2 1 1) :
    ∃ apply : Unit → List (Image 2 1 1) → Rngs → List (Fin 1 → ℝ),
      (∀ images rngs, ∃ m, visionTransformer p "gap".toList none none
        (SoftModel.encoder 2 exMixed (fun _ => ⟨⟨1, 1, 1, fun _ _ _ => 3⟩, 2, fun _ => (), none⟩) blocks dense id [0, 0] 2 [0]) images =
          .ok (.features (apply () images rngs), m)) ∧
      computeFewshotMetrics eigh perm (fewshotStep apply) fcfg 5 state ()
          [[(x, 3, true), (y, 4, true), (z, 0, false)]] [[(z, 3, true)]] 1 =
        computeFewshotMetrics eigh perm (fewshotStep apply) fcfg 5 state () [[(x, 3, true)], [(y, 4, true)]] [[(z, 3, true)]] 1 := by
  have hrun : ∀ images : List (Image 2 1 1), ∃ x m, visionTransformer p "gap".toList none none
      (SoftModel.encoder 2 exMixed (fun _ => ⟨⟨1, 1, 1, fun _ _ _ => 3⟩, 2, fun _ => (), none⟩) blocks dense id [0, 0] 2 [0]) images =
        .ok (.features x, m) := by
    intro images
    obtain ⟨⟨out, m⟩, h⟩ := C134_runs p "gap".toList none exMixed
      (fun _ => ⟨⟨1, 1, 1, fun _ _ _ => 3⟩, 2, fun _ => (), none⟩) blocks dense id [0, 0] 2 [0] rfl Nat.two_pos (by simp)
      (fun _ _ _ => ⟨rfl, rfl, rfl, fun h => by cases h⟩) images
    obtain ⟨x, rfl⟩ := features_of h
    exact ⟨x, m, h⟩
  choose F M hF using hrun
  refine ⟨fun _ images _ => F images, fun images _ => ⟨_, hF images⟩, ?_⟩
  refine C168_soft eigh perm fcfg 5 (fun _ => p) "gap".toList exMixed (fun _ _ => ⟨⟨1, 1, 1, fun _ _ _ => 3⟩, 2, fun _ => (), none⟩)
    (fun _ => blocks) (fun _ => dense) (fun _ => id) (fun _ => [0, 0]) 2 [0] rfl Nat.two_pos (.inl rfl) (by simp) ()
    (fun _ _ _ => ⟨rfl, rfl, rfl, fun h => by cases h⟩) _ ?_ 1 state state _ _ _ _ (by simp) (by simp) (by simp) (by simp) rfl rfl
  intro images _ x m h
  have := (hF images).symm.trans h
  cases this
  rfl

/-- C168 needs that images do not share groups: with groups of two images, a padded example changes the features of the other one. -/
theorem C168_groups_counterexample : ∃ (p : LayerParams exMixed.router.numExperts Unit) (a b b' : Seq 1 1),
    ∀ apply : Unit → List (Seq 1 1) → Rngs → List (Fin 1 → ℝ),
      (∀ images rngs y m, SoftModel.moeLayer exMixed p images = .ok (y, m) → apply () images rngs = y.map fun v => v 0) →
      valid [[(a, 3, true), (b, 0, false)]] = valid [[(a, 3, true), (b', 0, false)]] ∧
      ∀ state : Rngs, ∀ s s' e e',
        computeRepresentation (fewshotStep apply ()) state [[(a, 3, true), (b, 0, false)]] = .ok (s, e) →
        computeRepresentation (fewshotStep apply ()) state [[(a, 3, true), (b', 0, false)]] = .ok (s', e') → e ≠ e' := by
  obtain ⟨p, a, b, b', y, y', h, h', hne⟩ := C134_groups_counterexample
  refine ⟨p, a, b, b', fun apply happly => ⟨rfl, fun state s s' e e' he he' hee => hne ?_⟩⟩
  have key : ∀ (b : Seq 1 1) y s e, SoftModel.moeLayer exMixed p [a, b] = .ok (y, 0) →
      computeRepresentation (fewshotStep apply ()) state [[(a, 3, true), (b, 0, false)]] = .ok (s, e) →
      y.head? = e.head?.map fun r => (fun _ => r.1 : Seq 1 1) := by
    intro b y s e h he
    have hk := C168_keys apply () state [[(a, 3, true), (b, 0, false)]] 0 (by simp)
    rw [keysAfter_zero, he] at hk
    obtain ⟨-, rfl⟩ := Prod.mk.inj (Except.ok.inj hk)
    simp only [List.zipIdx_cons, List.zipIdx_nil, List.map_cons, List.map_nil, List.flatten_singleton]
    rw [happly _ _ _ _ h]
    match y with
    | [] => rfl
    | v :: y =>
      have hv : v = fun _ => v 0 := by
        funext t
        rw [Subsingleton.elim t 0]
      simp
      exact hv
  rw [← List.head?_eq_getElem?, ← List.head?_eq_getElem?, key b y s e h he, key b' y' s' e' h' he', hee]

end Soft

end Verif.FewshotStep
