import Verif.Model.EnsembleModel
import Verif.Props.EnsembleBlock
import Verif.Props.VmoeModel

/-!
Property C124: an ensemble model is a set of separate models.
-/

namespace Verif.Vmoe

open Verif Verif.Moe Verif.Encoder Verif.Vit Verif.EnsembleBlock

variable {T c n M : Nat} {P : Type}

/-- `X` has the entries of the `M` lists `xs m` of length `B`, entry `b` of list `m` at position `b * M + m`. -/
def Interleaved {V : Type} (B : Nat) (X : List V) (xs : Fin M → List V) : Prop :=
  X.length = B * M ∧ (∀ m, (xs m).length = B) ∧ ∀ b < B, ∀ m : Fin M, X[b * M + m]? = (xs m)[b]?

/-- The parameters of member `m` of a MoE layer: its own kernel and noise, and experts `m * n, ..., m * n + n - 1`. -/
def memberParams (p : EnsembleParams (M * n) P) (m : Fin M) : MoeParams c n P where
  kernel := fun h j => p.kernel m h j
  experts := fun j => p.experts (expertPos m j)
  z := p.z m

/-- The options of the layers of a separate model: groups of `s` tokens. -/
def EnsembleConfig.plain (cfg : EnsembleConfig c P) (s : Nat) : MoeConfig c P where
  fl := cfg.fl
  cdf := cfg.cdf
  bf := cfg.bf
  router := .topExperts cfg.router
  groupSize := s
  oob := cfg.oob
  mlp := cfg.mlp

/-- Whenever the capacity of a separate layer is defined, the capacity of the ensemble layer is the same. -/
def EnsembleConfig.sameCapacity (cfg : EnsembleConfig c P) (M n s : Nat) : Prop :=
  ∀ cap, resolveCapacity cfg.fl (s * cfg.router.numSelected) n cfg.router.dispatcher.capacity
      cfg.router.dispatcher.capacityFactor cfg.router.dispatcher.ceilOrRound cfg.router.dispatcher.multipleOf = .ok cap →
    resolveCapacity cfg.fl (s * M * cfg.router.numSelected) (M * n) cfg.router.dispatcher.capacity
      cfg.router.dispatcher.capacityFactor cfg.router.dispatcher.ceilOrRound cfg.router.dispatcher.multipleOf = .ok cap

theorem transport {V α : Type} {B : Nat} (F : (N : Nat) → (Fin N → V) → α) (f : Fin B → V) :
    F (List.ofFn f).length (List.ofFn f).get = F B f := by
  have key : ∀ (N : Nat) (g : Fin N → V) (h : N = B), (∀ i, g i = f (Fin.cast h i)) → F N g = F B f := by
    rintro N g rfl h
    rw [show g = f from funext h]
  exact key _ _ List.length_ofFn fun i => by simp; rfl

theorem interleaved_ofFn {V : Type} {B : Nat} {X : List V} {xs : Fin M → List V} (h : Interleaved B X xs) :
    ∃ f : Fin (B * M) → V, X = List.ofFn f ∧ ∀ m, xs m = List.ofFn (memberRows f m) := by
  obtain ⟨h1, h2, h3⟩ := h
  refine ⟨fun i => X[i.1]'(by rw [h1]; exact i.2), ?_, fun m => ?_⟩
  · apply List.ext_getElem (h1.trans List.length_ofFn.symm)
    intro i hi hi'
    rw [List.getElem_ofFn]
  · apply List.ext_getElem (by rw [h2, List.length_ofFn])
    intro b hb hb'
    have hlt : b * M + m < X.length := by
      rw [h1]
      exact pos_lt (⟨b, by rw [h2] at hb; exact hb⟩ : Fin B) m
    have := h3 b (by rw [h2] at hb; exact hb) m
    rw [List.getElem?_eq_getElem hb, List.getElem?_eq_getElem hlt] at this
    rw [List.getElem_ofFn]
    exact (Option.some.inj this).symm

theorem interleaved_map {V W : Type} {B : Nat} {X : List V} {xs : Fin M → List V} (h : Interleaved B X xs) (g : V → W) :
    Interleaved B (X.map g) (fun m => (xs m).map g) := by
  obtain ⟨h1, h2, h3⟩ := h
  refine ⟨by simpa using h1, fun m => by simpa using h2 m, fun b hb m => ?_⟩
  rw [List.getElem?_map, List.getElem?_map, h3 b hb m]

theorem interleaved_zipWith {V W U : Type} {B : Nat} {X : List V} {xs : Fin M → List V} {Y : List W} {ys : Fin M → List W}
    (h : Interleaved B X xs) (h' : Interleaved B Y ys) (g : V → W → U) :
    Interleaved B (List.zipWith g X Y) (fun m => List.zipWith g (xs m) (ys m)) := by
  obtain ⟨h1, h2, h3⟩ := h
  obtain ⟨h1', h2', h3'⟩ := h'
  refine ⟨by simp [h1, h1'], fun m => by simp [h2, h2'], fun b hb m => ?_⟩
  simp only [List.getElem?_zipWith, h3 b hb m, h3' b hb m]

theorem interleaved_repeat {V : Type} (x : List V) : Interleaved x.length (repeatRows M x) (fun _ : Fin M => x) := by
  have hlen : ∀ x : List V, (repeatRows M x).length = x.length * M := by
    intro x
    induction x with
    | nil => simp [repeatRows]
    | cons a x ih =>
      rw [repeatRows, List.flatMap_cons, List.length_append, List.length_replicate]
      change M + (repeatRows M x).length = _
      rw [ih, List.length_cons]
      ring
  refine ⟨hlen x, fun _ => rfl, fun b hb m => ?_⟩
  induction x generalizing b with
  | nil => simp at hb
  | cons a x ih =>
    rw [repeatRows, List.flatMap_cons]
    change (List.replicate M a ++ repeatRows M x)[_]? = _
    cases b with
    | zero =>
      rw [List.getElem?_append_left (by simp), List.getElem?_replicate]
      simp
    | succ b =>
      rw [List.getElem?_append_right (by simp; nlinarith [m.2]), List.length_replicate]
      have : (b + 1) * M + m - M = b * M + m := by
        rw [Nat.add_mul]; omega
      rw [this, ih b (by simpa using hb)]
      rfl

/-- C124.  One MoE layer: if the separate layers of the members run on their sequences, then the layer of the ensemble runs on all of
them, and gives every member its result. -/
theorem C124_layer (cfg : EnsembleConfig c P) (s : Nat) (hM : 0 < M) (hsize : cfg.size = some (M : Int))
    (hgroup : cfg.groupSize = s * M) (hcap : cfg.sameCapacity M n s) (hT : 0 < T) (hc : 0 < c) (p : EnsembleParams (M * n) P)
    (B : Nat) (X : List (Seq T c)) (xs ys : Fin M → List (Seq T c)) (ms : Fin M → LayerMetrics) (hX : Interleaved B X xs)
    (h : ∀ m, moeLayer (cfg.plain s) (memberParams p m) (xs m) = .ok (ys m, ms m)) :
    ∃ Y, ensembleLayer cfg p X = .ok (Y, ()) ∧ Interleaved B Y ys := by
  obtain ⟨f, rfl, hxs⟩ := interleaved_ofFn hX
  have hplain : ∀ m, ∃ y mm, MoeBlock.mlpMoeBlock cfg.fl cfg.cdf cfg.bf cfg.router s (memberParams (c := c) p m).kernel
      (p.z m) cfg.oob (memberParams (c := c) p m).experts cfg.mlp (memberRows f m) = .ok (y, mm) ∧ ys m = List.ofFn y := by
    intro m
    have := h m
    rw [hxs m] at this
    have ht := transport (fun N (g : Fin N → Seq T c) => ∃ y mm, MoeBlock.mlpMoeBlock cfg.fl cfg.cdf cfg.bf cfg.router s
      (memberParams (c := c) p m).kernel (p.z m) cfg.oob (memberParams (c := c) p m).experts cfg.mlp g = .ok (y, mm) ∧
        ys m = List.ofFn y) (memberRows f m)
    rw [← ht]
    unfold moeLayer at this
    rw [show (cfg.plain s).router = .topExperts cfg.router from rfl] at this
    simp only at this
    split at this
    · cases this
    · rename_i y mm hy
      exact ⟨y, mm, hy, (congrArg Prod.fst (Except.ok.inj this)).symm⟩
  obtain ⟨y0, m0, hy0, -⟩ := hplain ⟨0, hM⟩
  obtain ⟨⟨hs, hdiv⟩, ⟨hK1, hK2⟩, hname, cap, hcap'⟩ := success hy0
  obtain ⟨out, e1, e2, e3⟩ := C76_members_are_plain_blocks cfg.fl cfg.cdf cfg.bf cfg.router p.kernel p.z cfg.oob p.experts
    cfg.mlp f hM hs hT hc hc hdiv hK1 hK2 hname cap (hcap cap hcap') hcap'
  have hrun : ensembleLayer cfg p (List.ofFn f) =
      .ok (List.ofFn fun (i : Fin (out.shape.headD 0)) t f => out.get [i.1, t.1, f.1], ()) := by
    have ht := transport (fun N (g : Fin N → Seq T c) => EnsembleBlock.ensembleBlock cfg.fl cfg.cdf cfg.bf cfg.router (s * M)
      (some (M : Int)) p.kernel p.z cfg.oob p.experts cfg.mlp g) f
    unfold ensembleLayer
    rw [hsize, hgroup]
    rw [ht, e1]
  have hhead : out.shape.headD 0 = B * M := by rw [e2]; rfl
  refine ⟨_, hrun, by rw [List.length_ofFn, hhead], fun m => ?_, fun b hb m => ?_⟩
  · obtain ⟨y, mm, -, hy⟩ := hplain m
    rw [hy, List.length_ofFn]
  · obtain ⟨y, mm, hy, hys⟩ := hplain m
    obtain ⟨member, metrics, g1, g2⟩ := e3 m
    have : (member, metrics) = (y, mm) := by
      have := g1.symm.trans hy
      exact Except.ok.inj this
    cases this
    have hlt : b * M + m < out.shape.headD 0 := by
      rw [hhead]; exact pos_lt (⟨b, hb⟩ : Fin B) m
    rw [hys, List.getElem?_ofFn, List.getElem?_ofFn, dif_pos hlt, dif_pos hb]
    congr 1
    funext t o
    exact g2 ⟨b, hb⟩ t o

/-- What is needed of the layers of an ensemble and of its members. -/
def MembersOf {V N N' : Type} (e : Layers V N) (plain : Fin M → Layers V N') (ids : List Int) : Prop :=
  (∀ m i, (plain m).fns i = e.fns i) ∧ (∀ m i, (plain m).mlp i = e.mlp i) ∧
    ∀ i : Nat, (i : Int) ∈ ids → ∀ (B : Nat) (X : List V) (xs ys : Fin M → List V) (ms : Fin M → N'), Interleaved B X xs → (∀ m, (plain m).moe i (xs m) = .ok (ys m, ms m)) →
      ∃ Y q, e.moe i X = .ok (Y, q) ∧ Interleaved B Y ys

theorem moeBlock_ok {V N : Type} [Add V] {fns : BlockFns V} {moe : List V → Except PyErr (List V × N)} {x : List V}
    {y : List V} {m : N} (h : moeBlock fns moe x = .ok (y, m)) :
    ∃ z, moe ((attention fns x).map fns.norm) = .ok (z, m) ∧ y = List.zipWith (· + ·) (attention fns x) z := by
  unfold moeBlock at h
  simp only at h
  split at h
  · cases h
  · rename_i z m' hz
    cases h
    exact ⟨z, hz, rfl⟩

theorem members_block {V N N' : Type} [Add V] {e : Layers V N} {plain : Fin M → Layers V N'} {ids : List Int}
    (hl : MembersOf e plain ids) (b : Nat) (hb : (b : Int) ∈ ids) (B : Nat) (X : List V) (xs ys : Fin M → List V) (ms : Fin M → N')
    (hX : Interleaved B X xs) (h : ∀ m, moeBlock ((plain m).fns b) ((plain m).moe b) (xs m) = .ok (ys m, ms m)) :
    ∃ Y q, moeBlock (e.fns b) (e.moe b) X = .ok (Y, q) ∧ Interleaved B Y ys := by
  choose z hz hy using fun m => moeBlock_ok (h m)
  have ha : Interleaved B (attention (e.fns b) X) (fun m => attention (e.fns b) (xs m)) := interleaved_map hX _
  obtain ⟨Y, q, hY, hi⟩ := hl.2.2 b hb B _ _ z ms (interleaved_map ha (e.fns b).norm) (by
    intro m
    have := hz m
    rw [hl.1 m b] at this
    exact this)
  refine ⟨_, q, by unfold moeBlock; simp only; rw [hY], ?_⟩
  have := interleaved_zipWith ha hi (· + ·)
  have he : (fun m => List.zipWith (· + ·) (attention (e.fns b) (xs m)) (z m)) = ys := by
    funext m
    rw [hy m, hl.1 m b]
  rw [he] at this
  exact this

theorem members_loop {V N N' : Type} [Add V] {e : Layers V N} {plain : Fin M → Layers V N'} {ids : List Int}
    (hl : MembersOf e plain ids) (rest : List Nat) (B : Nat) (X : List V) (xs ys : Fin M → List V)
    (ms ms' : Fin M → PyDict (List Char) N') (d : PyDict (List Char) N) (hX : Interleaved B X xs)
    (h : ∀ m, loop (plain m) ids rest (xs m) (ms m) = .ok (ys m, ms' m)) :
    ∃ Y q, loopEnsemble e ids M rest false X d = .ok (Y, q) ∧ Interleaved B Y ys := by
  induction rest generalizing X xs ms d with
  | nil =>
    refine ⟨X, d, rfl, ?_⟩
    have : xs = ys := by
      funext m
      have := h m
      rw [loop] at this
      exact congrArg Prod.fst (Except.ok.inj this)
    rw [← this]
    exact hX
  | cons b rest ih =>
    by_cases hb : (b : Int) ∈ ids
    · have hb' : ∀ m, ∃ z q, moeBlock ((plain m).fns b) ((plain m).moe b) (xs m) = .ok (z, q) ∧
          loop (plain m) ids rest z (PyDict.set (ms m) (blockName b) q) = .ok (ys m, ms' m) := by
        intro m
        have := h m
        rw [loop, if_pos hb] at this
        split at this
        · cases this
        · rename_i z q hz
          exact ⟨z, q, hz, this⟩
      choose z q hz hrest using hb'
      obtain ⟨Y, q', hY, hi⟩ := members_block hl b hb B X xs z q hX hz
      obtain ⟨Y', q'', hY', hi'⟩ := ih Y z _ (PyDict.set d (blockName b) q') hi hrest
      refine ⟨Y', q'', ?_, hi'⟩
      rw [loopEnsemble, if_pos hb]
      simp only [Bool.false_eq_true, if_false]
      rw [hY]
      exact hY'
    · have hd : Interleaved B (denseBlock (e.fns b) (e.mlp b) X) (fun m => denseBlock ((plain m).fns b) ((plain m).mlp b) (xs m)) := by
        have ha : Interleaved B (attention (e.fns b) X) (fun m => attention (e.fns b) (xs m)) := interleaved_map hX _
        have := interleaved_zipWith ha (interleaved_map (interleaved_map ha (e.fns b).norm) (e.mlp b)) (· + ·)
        have he : (fun m => denseBlock ((plain m).fns b) ((plain m).mlp b) (xs m)) = fun m =>
            List.zipWith (· + ·) (attention (e.fns b) (xs m)) (((attention (e.fns b) (xs m)).map (e.fns b).norm).map (e.mlp b)) := by
          funext m
          rw [hl.1 m b, hl.2.1 m b]
          rfl
        rw [he]
        exact this
      obtain ⟨Y', q'', hY', hi'⟩ := ih _ _ ms d hd (by
        intro m
        have := h m
        rw [loop, if_neg hb] at this
        exact this)
      refine ⟨Y', q'', ?_, hi'⟩
      rw [loopEnsemble, if_neg hb]
      exact hY'

theorem members_first {V N N' : Type} [Add V] {e : Layers V N} {plain : Fin M → Layers V N'} {ids : List Int}
    (hl : MembersOf e plain ids) (rest : List Nat) (hex : ∃ b ∈ rest, (b : Int) ∈ ids) (x : List V) (ys : Fin M → List V)
    (ms ms' : Fin M → PyDict (List Char) N') (d : PyDict (List Char) N)
    (h : ∀ m, loop (plain m) ids rest x (ms m) = .ok (ys m, ms' m)) :
    ∃ Y q, loopEnsemble e ids M rest true x d = .ok (Y, q) ∧ Interleaved x.length Y ys := by
  induction rest generalizing x ms d with
  | nil => simp at hex
  | cons b rest ih =>
    by_cases hb : (b : Int) ∈ ids
    · have := members_loop hl (b :: rest) x.length (repeatRows M x) (fun _ => x) ys ms ms' d (interleaved_repeat x) h
      obtain ⟨Y, q, hY, hi⟩ := this
      refine ⟨Y, q, ?_, hi⟩
      rw [loopEnsemble, if_pos hb] at hY ⊢
      simpa using hY
    · have hlen : (denseBlock (e.fns b) (e.mlp b) x).length = x.length := by
        simp [denseBlock, attention]
      obtain ⟨Y', q'', hY', hi'⟩ := ih (by
          obtain ⟨i, hi, hi'⟩ := hex
          rcases List.mem_cons.mp hi with rfl | hi
          · exact absurd hi' hb
          · exact ⟨i, hi, hi'⟩) (denseBlock (e.fns b) (e.mlp b) x) ms d (by
        intro m
        have := h m
        rw [loop, if_neg hb, hl.1 m b, hl.2.1 m b] at this
        exact this)
      rw [hlen] at hi'
      refine ⟨Y', q'', ?_, hi'⟩
      rw [loopEnsemble, if_neg hb]
      exact hY'

theorem encoder_parts {T c E : Nat} {P : Type} (cfg : MoeConfig c P) (params : Nat → MoeParams c E P) (blocks : Nat → BlockFns (Seq T c))
    (dense : Nat → Seq T c → Seq T c) (aux : LayerMetrics → ℝ) (post : Seq T c → Seq T c) (pe : List (Vec c)) (numLayers : Nat)
    (moeLayers : List Int) (pos : Option (Option PosEmb)) (x y : List (List (Vec c))) (m)
    (h : encoder T cfg params blocks dense aux post pe numLayers moeLayers pos x = .ok (y, m)) :
    ∃ x' z d, (x.map fun l (t : Fin T) => l.getD t 0).mapM (addPos pos pe) = .ok x' ∧
      loop ⟨blocks, dense, fun i => moeLayer cfg (params i)⟩ moeLayers (List.range numLayers) x' [] = .ok (z, d) ∧
      y = z.map fun v => List.ofFn (post v) := by
  unfold encoder encoderMoe at h
  split at h
  · cases h
  rename_i y' m' h'
  cases h
  split at h'
  · cases h'
  rename_i x' hx'
  split at h'
  · cases h'
  rename_i z d hz
  cases h'
  exact ⟨x', z, d, hx', hz, by simp [List.map_map, Function.comp_def]⟩

theorem mapM_length {V W : Type} (f : V → Except PyErr W) (x : List V) (y : List W) (h : x.mapM f = .ok y) : y.length = x.length := by
  induction x generalizing y with
  | nil => cases h; rfl
  | cons a x ih =>
    rw [List.mapM_cons] at h
    obtain ⟨b, hb, h⟩ := ebind h
    obtain ⟨l, hl, h⟩ := ebind h
    cases h
    simp [ih l hl]

/-- C124.  The encoder. -/
theorem C124_encoder (cfg : EnsembleConfig c P) (s : Nat) (hM : 0 < M) (hsize : cfg.size = some (M : Int))
    (hgroup : cfg.groupSize = s * M) (hcap : cfg.sameCapacity M n s) (hT : 0 < T) (hc : 0 < c)
    (params : Nat → EnsembleParams (M * n) P) (blocks : Nat → BlockFns (Seq T c)) (dense : Nat → Seq T c → Seq T c)
    (aux : LayerMetrics → ℝ) (post : Seq T c → Seq T c) (pe : List (Vec c)) (numLayers : Nat) (moeLayers : List Int)
    (hex : ∃ b < numLayers, (b : Int) ∈ moeLayers) (pos : Option (Option PosEmb)) (x : List (List (Vec c)))
    (ys : Fin M → List (List (Vec c))) (ms : Fin M → PyDict (List Char) (Metric LayerMetrics ℝ)) (h : ∀ m, encoder T (cfg.plain s) (fun i => memberParams (params i) m) blocks dense aux
      post pe numLayers moeLayers none x = .ok (ys m, ms m)) :
    ∃ Y, ensembleEncoder T cfg params blocks dense post pe numLayers moeLayers pos x = .ok (Y, ()) ∧ Interleaved x.length Y ys := by
  choose x' z d hx' hz hy using fun m => encoder_parts _ _ _ _ _ _ _ _ _ _ _ _ _ (h m)
  obtain ⟨x0, hx0⟩ : ∃ x0, ∀ m, x' m = x0 := by
    refine ⟨x' ⟨0, hM⟩, fun m => ?_⟩
    have := (hx' m).symm.trans (hx' ⟨0, hM⟩)
    exact Except.ok.inj this
  simp only [hx0] at hx' hz
  have hl : MembersOf (⟨blocks, dense, fun i => ensembleLayer cfg (params i)⟩ : Layers (Seq T c) Unit)
      (fun m => ⟨blocks, dense, fun i => moeLayer (cfg.plain s) (memberParams (params i) m)⟩) moeLayers := by
    refine ⟨fun _ _ => rfl, fun _ _ => rfl, fun i _ B X xs ys ms hX hh => ?_⟩
    obtain ⟨Y, h1, h2⟩ := C124_layer cfg s hM hsize hgroup hcap hT hc (params i) B X xs ys ms hX hh
    exact ⟨Y, (), h1, h2⟩
  obtain ⟨Y, q, hY, hi⟩ := members_first hl (List.range numLayers) (by simpa using hex) x0 z (fun _ => []) d [] hz
  refine ⟨(Y.map post).map List.ofFn, ?_, ?_⟩
  · unfold ensembleEncoder encoderMoeEnsemble
    rw [hx' ⟨0, hM⟩, hsize]
    have hp : parseEnsembleSize (some (M : Int)) = .ok M := by
      change (if (M : Int) ≤ 0 then _ else _) = _
      rw [if_neg (by omega)]
      rfl
    simp only [hp]
    rw [hY]
  · have hlen : x0.length = x.length := by
      have := mapM_length _ _ _ (hx' ⟨0, hM⟩)
      simpa using this
    rw [hlen] at hi
    have := interleaved_map (interleaved_map hi post) List.ofFn
    have he : (fun m => ((z m).map post).map List.ofFn) = ys := by
      funext m
      rw [hy m, List.map_map]
      rfl
    rw [he] at this
    exact this

variable {ph pw D r H W : Nat}

/-- What comes after the encoder: one function for every row, and it runs for all rows or for none. -/
theorem after_encoder (p : Params ph pw D c r) (classifier : List Char) (num_classes : Option Nat) :
    ∃ g : List (Vec c) → List ℝ ⊕ Vec r, ∀ {N N' : Type} (position_emb position_emb' : Option (Option PosEmb))
      (enc : Option (Option PosEmb) → List (List (Vec c)) → Except PyErr (List (List (Vec c)) × N))
      (enc' : Option (Option PosEmb) → List (List (Vec c)) → Except PyErr (List (List (Vec c)) × N'))
      (images : List (Image H W D)) out m,
      visionTransformer p classifier num_classes position_emb enc images = .ok (out, m) →
      ∃ pos x, encoderPosEmb position_emb (convSize H ph) (convSize W pw) = .ok pos ∧
        enc pos (images.map (tokens p classifier)) = .ok (x, m) ∧ Out.rows out = x.map g ∧
        ∀ pos' x' m', encoderPosEmb position_emb' (convSize H ph) (convSize W pw) = .ok pos' →
          enc' pos' (images.map (tokens p classifier)) = .ok (x', m') →
          ∃ out', visionTransformer p classifier num_classes position_emb' enc' images = .ok (out', m') ∧
            Out.rows out' = x'.map g := by
  have hpool : ∃ q : List (Vec c) → Vec c, ∀ (x : List (List (Vec c))) y,
      (if classifier = "token".toList ∨ classifier = "0".toList then .ok (x.map (·.headD 0))
        else if classifier = "gap".toList then .ok (x.map mean)
        else if classifier = "map".toList then .ok (x.map p.mapHead)
        else .error .valueError : Except PyErr (List (Vec c))) = .ok y → y = x.map q ∧
      ∀ x' : List (List (Vec c)), (if classifier = "token".toList ∨ classifier = "0".toList then .ok (x'.map (·.headD 0))
        else if classifier = "gap".toList then .ok (x'.map mean)
        else if classifier = "map".toList then .ok (x'.map p.mapHead)
        else .error .valueError : Except PyErr (List (Vec c))) = .ok (x'.map q) := by
    by_cases h1 : classifier = "token".toList ∨ classifier = "0".toList
    · refine ⟨(·.headD 0), fun x y h => ?_⟩
      simp only [if_pos h1] at h ⊢; cases h; exact ⟨rfl, fun _ => trivial⟩
    · by_cases h2 : classifier = "gap".toList
      · refine ⟨mean, fun x y h => ?_⟩
        simp only [if_neg h1, if_pos h2] at h ⊢; cases h; exact ⟨rfl, fun _ => trivial⟩
      · by_cases h3 : classifier = "map".toList
        · refine ⟨p.mapHead, fun x y h => ?_⟩
          simp only [if_neg h1, if_neg h2, if_pos h3] at h ⊢; cases h; exact ⟨rfl, fun _ => trivial⟩
        · refine ⟨fun _ => 0, fun x y h => ?_⟩
          rw [if_neg h1, if_neg h2, if_neg h3] at h; cases h
  obtain ⟨q, hq⟩ := hpool
  have hfin : ∃ w : Vec r → List ℝ ⊕ Vec r, ∀ x : List (Vec r), Out.rows (finish p.head num_classes x) = x.map w := by
    match num_classes with
    | none => exact ⟨.inr, fun x => rfl⟩
    | some 0 => exact ⟨.inr, fun x => rfl⟩
    | some (n + 1) =>
      refine ⟨fun v => .inl (p.head (n + 1) v), fun x => ?_⟩
      simp [finish, Out.rows]
  obtain ⟨w, hw⟩ := hfin
  refine ⟨fun l => w (p.preLogits (q l)), ?_⟩
  intro N N' position_emb position_emb' enc enc' images out m h
  unfold visionTransformer at h
  split at h
  · cases h
  rename_i pos hpos
  split at h
  · cases h
  rename_i x ms henc
  simp only at h
  split at h
  · cases h
  rename_i y hy
  cases h
  obtain ⟨hy1, hy2⟩ := hq x y hy
  refine ⟨pos, x, hpos, henc, ?_, ?_⟩
  · rw [hw, hy1]
    simp only [List.map_map]
    rfl
  · intro pos' x' m' hpos' henc'
    refine ⟨finish p.head num_classes ((x'.map q).map p.preLogits), ?_, ?_⟩
    · unfold visionTransformer
      rw [hpos']
      simp only
      rw [henc']
      simp only
      rw [hy2 x']
    · rw [hw]
      simp only [List.map_map]
      rfl

/-- C124.  An ensemble model of `M` members, with `M * n` experts, groups of `s * M` tokens and at least one MoE layer, is `M` separate
models: if `M` plain models with `n` experts and groups of `s` tokens run on a batch, where model `m` has the routers and noise of member
`m`, experts `m * n, ..., m * n + n - 1`, and everything else in common, then the ensemble runs on the batch, and row `b * M + m` of its
predictions is the prediction of model `m` for image `b`. -/
theorem C124_model (p : Params ph pw D c r) (classifier : List Char) (num_classes : Option Nat) (cfg : EnsembleConfig c P) (s : Nat)
    (hM : 0 < M) (hsize : cfg.size = some (M : Int)) (hgroup : cfg.groupSize = s * M) (hcap : cfg.sameCapacity M n s)
    (hT : 0 < T) (hc : 0 < c) (params : Nat → EnsembleParams (M * n) P) (blocks : Nat → BlockFns (Seq T c))
    (dense : Nat → Seq T c → Seq T c) (aux : LayerMetrics → ℝ) (post : Seq T c → Seq T c) (pe : List (Vec c)) (numLayers : Nat)
    (moeLayers : List Int) (hex : ∃ b < numLayers, (b : Int) ∈ moeLayers) (images : List (Image H W D)) (outs : Fin M → Out r)
    (ms : Fin M → PyDict (List Char) (Metric LayerMetrics ℝ))
    (h : ∀ m, visionTransformer p classifier num_classes none
      (encoder T (cfg.plain s) (fun i => memberParams (params i) m) blocks dense aux post pe numLayers moeLayers) images =
        .ok (outs m, ms m)) :
    ∃ out, visionTransformer p classifier num_classes none
        (ensembleEncoder T cfg params blocks dense post pe numLayers moeLayers) images = .ok (out, ()) ∧
      (Out.rows out).length = images.length * M ∧
      ∀ b < images.length, ∀ m : Fin M, (Out.rows out)[b * M + m]? = (Out.rows (outs m))[b]? ∧ (Out.rows (outs m))[b]? ≠ none := by
  obtain ⟨g, hg⟩ := after_encoder (H := H) (W := W) p classifier num_classes
  choose pos x hpos henc hrows hnext using fun m => hg none none _ (ensembleEncoder T cfg params blocks dense post pe numLayers moeLayers)
    images (outs m) (ms m) (h m)
  have hpos' : ∀ m, pos m = none := by
    intro m
    exact (Except.ok.inj (hpos m)).symm
  simp only [hpos'] at henc
  obtain ⟨Y, hY, hi⟩ := C124_encoder cfg s hM hsize hgroup hcap hT hc params blocks dense aux post pe numLayers moeLayers hex none
    (images.map (tokens p classifier)) x ms henc
  obtain ⟨out, ho, hr⟩ := hnext ⟨0, hM⟩ none Y () rfl hY
  rw [List.length_map] at hi
  have hi := interleaved_map hi g
  refine ⟨out, ho, by rw [hr]; exact hi.1, fun b hb m => ?_⟩
  rw [hr, hrows m]
  refine ⟨hi.2.2 b hb m, ?_⟩
  rw [List.getElem?_eq_getElem (by have := hi.2.1 m; simp only at this; rw [this]; exact hb)]
  simp

/-- C124.  The capacities agree if the capacity is given, or if the arithmetic of the capacity factor is exact. -/
theorem C124_capacity (cfg : EnsembleConfig c P) (s : Nat) (hM : 0 < M) (hn : 0 < n)
    (h : (∃ k, cfg.router.dispatcher.capacity = some (k + 1)) ∨ cfg.fl = id) : cfg.sameCapacity M n s := by
  intro cap hcap
  rw [C76_same_capacity cfg.fl cfg.router.numSelected hM hn _ _ _ _ h]
  exact hcap

/-- C124.  So if the routers of the members do not add noise, and separate the images, then the predictions of all members for an image
are the same in every batch where the separate models run. -/
theorem C124_batches (p : Params ph pw D c r) (classifier : List Char) (num_classes : Option Nat) (cfg : EnsembleConfig c P) (s : Nat)
    (hM : 0 < M) (hsize : cfg.size = some (M : Int)) (hgroup : cfg.groupSize = s * M) (hcap : cfg.sameCapacity M n s)
    (hT : 0 < T) (hc : 0 < c) (params : Nat → EnsembleParams (M * n) P) (blocks : Nat → BlockFns (Seq T c))
    (dense : Nat → Seq T c → Seq T c) (aux : LayerMetrics → ℝ) (post : Seq T c → Seq T c) (pe : List (Vec c)) (numLayers : Nat)
    (moeLayers : List Int) (hex : ∃ b < numLayers, (b : Int) ∈ moeLayers) (hn : (cfg.plain s).router.noiseless)
    (hs : (cfg.plain s).separates T n) :
    ∃ f : Image H W D → Fin M → List ℝ ⊕ Vec r, ∀ images : List (Image H W D),
      (∀ m, ∃ q, visionTransformer p classifier num_classes none
        (encoder T (cfg.plain s) (fun i => memberParams (params i) m) blocks dense aux post pe numLayers moeLayers) images = .ok q) →
      ∃ out, visionTransformer p classifier num_classes none
          (ensembleEncoder T cfg params blocks dense post pe numLayers moeLayers) images = .ok (out, ()) ∧
        (Out.rows out).length = images.length * M ∧
        ∀ b img, images[b]? = some img → ∀ m : Fin M, (Out.rows out)[b * M + m]? = some (f img m) := by
  choose f hf using fun m : Fin M => C119_model (H := H) (W := W) p classifier num_classes none (cfg.plain s)
    (fun i => memberParams (params i) m) blocks dense aux post pe numLayers moeLayers hn hs
  refine ⟨fun img m => f m img, fun images h => ?_⟩
  choose q hq using h
  obtain ⟨out, h1, h2, h3⟩ := C124_model p classifier num_classes cfg s hM hsize hgroup hcap hT hc params blocks dense aux post pe
    numLayers moeLayers hex images (fun m => (q m).1) (fun m => (q m).2) hq
  refine ⟨out, h1, h2, fun b img hb m => ?_⟩
  rw [(h3 b (List.getElem?_eq_some_iff.mp hb).1 m).1, hf m images _ _ (hq m), List.getElem?_map, hb]
  rfl

theorem no_moe_loop {V N N' : Type} [Add V] (e : Layers V N) (plain : Layers V N') (hf : plain.fns = e.fns) (hm : plain.mlp = e.mlp)
    (ids : List Int) (k : Nat) (rest : List Nat) (hno : ∀ b ∈ rest, (b : Int) ∉ ids) (x : List V) (d : PyDict (List Char) N)
    (d' : PyDict (List Char) N') :
    ∃ y, loop plain ids rest x d' = .ok (y, d') ∧ loopEnsemble e ids k rest true x d = .ok (y, d) := by
  induction rest generalizing x with
  | nil => exact ⟨x, rfl, rfl⟩
  | cons b rest ih =>
    obtain ⟨y, h1, h2⟩ := ih (fun b hb => hno b (List.mem_cons_of_mem _ hb)) (denseBlock (e.fns b) (e.mlp b) x)
    refine ⟨y, ?_, ?_⟩
    · rw [loop, if_neg (hno b List.mem_cons_self), hf, hm]
      exact h1
    · rw [loopEnsemble, if_neg (hno b List.mem_cons_self)]
      exact h2

/-- C124.  Without MoE layers nothing is repeated: the ensemble has one prediction for every image, the one of the plain model. -/
theorem C124_no_moe {E E' : Nat} (p : Params ph pw D c r) (classifier : List Char) (num_classes : Option Nat) (cfg : EnsembleConfig c P)
    (cfg' : MoeConfig c P) (hM : 0 < M) (hsize : cfg.size = some (M : Int)) (params : Nat → EnsembleParams E P)
    (params' : Nat → MoeParams c E' P) (blocks : Nat → BlockFns (Seq T c))
    (dense : Nat → Seq T c → Seq T c) (aux : LayerMetrics → ℝ) (post : Seq T c → Seq T c) (pe : List (Vec c)) (numLayers : Nat)
    (moeLayers : List Int) (hno : ∀ b < numLayers, (b : Int) ∉ moeLayers) (images : List (Image H W D)) (out : Out r) (ms)
    (h : visionTransformer p classifier num_classes none
      (encoder T cfg' params' blocks dense aux post pe numLayers moeLayers) images = .ok (out, ms)) :
    ∃ out', visionTransformer p classifier num_classes none
        (ensembleEncoder T cfg params blocks dense post pe numLayers moeLayers) images = .ok (out', ()) ∧
      Out.rows out' = Out.rows out := by
  obtain ⟨g, hg⟩ := after_encoder (H := H) (W := W) p classifier num_classes
  obtain ⟨pos, x, hpos, henc, hrows, hnext⟩ := hg none none _
    (ensembleEncoder T cfg params blocks dense post pe numLayers moeLayers) images out ms h
  cases Except.ok.inj hpos
  obtain ⟨x', z, d, hx', hz, hy⟩ := encoder_parts _ _ _ _ _ _ _ _ _ _ _ _ _ henc
  obtain ⟨y, h1, h2⟩ := no_moe_loop (⟨blocks, dense, fun i => ensembleLayer cfg (params i)⟩ : Layers (Seq T c) Unit)
    ⟨blocks, dense, fun i => moeLayer cfg' (params' i)⟩ rfl rfl moeLayers M (List.range numLayers) (by simpa using hno) x' [] []
  have hyz : y = z := congrArg Prod.fst (Except.ok.inj (h1.symm.trans hz))
  subst hyz
  have hrun : ensembleEncoder T cfg params blocks dense post pe numLayers moeLayers none (images.map (tokens p classifier)) =
      .ok (x, ()) := by
    unfold ensembleEncoder encoderMoeEnsemble
    rw [hx', hsize]
    have hp : parseEnsembleSize (some (M : Int)) = .ok M := by
      change (if (M : Int) ≤ 0 then _ else _) = _
      rw [if_neg (by omega)]
      rfl
    simp only [hp]
    rw [h2, hy]
    simp only [List.map_map, Function.comp_def]
  obtain ⟨out', ho, hr⟩ := hnext none x () rfl hrun
  exact ⟨out', ho, by rw [hr, hrows]⟩

/-- C124, limit.  The option `position_emb` of the configuration has no effect on the ensemble: it always has the learned embedding. -/
theorem C124_position_ignored {E : Nat} (p : Params ph pw D c r) (classifier : List Char) (num_classes : Option Nat)
    (cfg : EnsembleConfig c P) (params : Nat → EnsembleParams E P) (blocks : Nat → BlockFns (Seq T c))
    (dense : Nat → Seq T c → Seq T c) (post : Seq T c → Seq T c) (pe : List (Vec c)) (numLayers : Nat)
    (moeLayers : List Int) (pos : PosEmb) (images : List (Image H W D)) :
    visionTransformer p classifier num_classes (some (some pos))
        (ensembleEncoder T cfg params blocks dense post pe numLayers moeLayers) images =
      visionTransformer p classifier num_classes none
        (ensembleEncoder T cfg params blocks dense post pe numLayers moeLayers) images := by
  have h : ∃ q, encoderPosEmb (some (some pos)) (convSize H ph) (convSize W pw) = .ok q := by
    unfold encoderPosEmb
    simp only
    split <;> exact ⟨_, rfl⟩
  obtain ⟨q, hq⟩ := h
  unfold visionTransformer
  rw [hq, show encoderPosEmb none (convSize H ph) (convSize W pw) = .ok none from rfl]
  rfl

/-- Two members with two experts each, groups of two tokens of each member. -/
noncomputable def exEnsemble : EnsembleConfig 1 Unit where
  fl := exSeparate.fl
  cdf := exSeparate.cdf
  bf := exSeparate.bf
  router := { exTightRouter with numSelected := 2 }
  groupSize := 4
  size := some 2
  oob := exSeparate.oob
  mlp := exSeparate.mlp

-- Non-vacuity: an ensemble of two members with a MoE layer and a dense layer runs on every batch.
example (p : Params 1 1 1 1 1) (params : Nat → EnsembleParams (2 * 2) Unit) (blocks : Nat → BlockFns (Seq 2 1))
    (dense : Nat → Seq 2 1 → Seq 2 1) :
    ∃ f : Image 2 1 1 → Fin 2 → List ℝ ⊕ Vec 1, ∀ images : List (Image 2 1 1),
      ∃ out, visionTransformer p "gap".toList (some 3) none
          (ensembleEncoder 2 exEnsemble params blocks dense id [0, 0] 2 [0]) images = .ok (out, ()) ∧
        (Out.rows out).length = images.length * 2 ∧
        ∀ (b : Nat) img, images[b]? = some img → ∀ m : Fin 2, (Out.rows out)[b * 2 + m.1]? = some (f img m) := by
  obtain ⟨f, hf⟩ := C124_batches (H := 2) (W := 1) (n := 2) (M := 2) p "gap".toList (some 3) exEnsemble 2 Nat.two_pos rfl rfl
    (C124_capacity exEnsemble 2 Nat.two_pos Nat.two_pos (.inl ⟨0, rfl⟩)) Nat.two_pos Nat.one_pos params blocks dense (fun _ => 0) id [0, 0] 2 [0]
    ⟨0, by decide, by decide⟩ (.inl rfl) (.inl rfl)
  exact ⟨f, fun images => hf images fun m => exRuns p (fun i => memberParams (params i) m) blocks dense images⟩

end Verif.Vmoe
