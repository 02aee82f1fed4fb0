import Verif.Proofs.Encoder

/-!
Property C73: structure of the transformer encoders with MoE layers (vmoe/nn/vit_moe.py:151-264 and
vmoe/nn/vit_moe_ensemble.py:73-124).
-/

namespace Verif.Encoder

open Verif

variable {V M A : Type*} [Add V] [AddMonoid A]

theorem ensemble_run (layers : Layers V M) (aux : M → A) (pre : V → Except PyErr V) (post : V → V)
    (num : Nat) (L : List Int) (size : Option Int) (inputs out : List V)
    (metrics : PyDict (List Char) (Metric M A))
    (h : encoderMoeEnsemble layers aux pre post num L size inputs = .ok (out, metrics)) :
    ∃ n : Nat, 0 < n ∧ size = some (n : Int) ∧ ∃ x ms, inputs.mapM pre = .ok x ∧
      loopEnsemble layers L n (List.range num) true x [] = .ok ms ∧ out = ms.1.map post ∧
      metrics = finalMetrics aux ms.2 := by
  unfold encoderMoeEnsemble at h
  split at h
  · cases h
  rename_i x hx
  split at h
  · cases h
  rename_i n hn
  split at h
  · cases h
  rename_i x1 ms hl
  cases h
  have hsz : 0 < n ∧ size = some (n : Int) := by
    unfold parseEnsembleSize at hn
    split at hn
    · cases hn
    · rename_i k
      split at hn
      · cases hn
      · rename_i hk
        cases hn
        refine ⟨by omega, ?_⟩
        rw [Int.toNat_of_nonneg (by omega)]
  exact ⟨n, hsz.1, hsz.2, x, (x1, ms), hx, hl, rfl, rfl⟩

/-- C73 (ensemble encoder).  A successful run is a chain of batches `xs 0, ..., xs num`: block `i` is a
MoE block exactly if `i` is listed, each block is attention and MLP (or MoE layer) with residual
connections, and right before the first MoE block, and nowhere else, every sequence is repeated
`n` = ensemble size times.  The metrics have one entry per MoE block, plus the auxiliary loss, which
is the sum over those entries (zero if there are none). -/
theorem C73_ensemble_encoder (layers : Layers V M) (aux : M → A) (pre : V → Except PyErr V)
    (post : V → V) (num : Nat) (L : List Int) (size : Option Int) (inputs out : List V)
    (metrics : PyDict (List Char) (Metric M A))
    (h : encoderMoeEnsemble layers aux pre post num L size inputs = .ok (out, metrics)) :
    ∃ n : Nat, 0 < n ∧ size = some (n : Int) ∧ ∃ (xs : Nat → List V) (f : Nat → Option M),
      inputs.mapM pre = .ok (xs 0) ∧ out = (xs num).map post ∧
      (∀ i < num, (i : Int) ∉ L → f i = none ∧
        xs (i + 1) = (xs i).map (fun v =>
          let a := (layers.fns i).attn v + v
          a + layers.mlp i ((layers.fns i).norm a))) ∧
      (∀ i < num, (i : Int) ∈ L → ∃ m y, f i = some m ∧
        let x := if ∀ j < i, (j : Int) ∉ L then (xs i).flatMap (fun v => List.replicate n v) else xs i
        let a := x.map (fun v => (layers.fns i).attn v + v)
        layers.moe i (a.map (layers.fns i).norm) = .ok (y, m) ∧
        xs (i + 1) = List.zipWith (· + ·) a y) ∧
      (∀ i < num, metrics.get? (blockName i) = (f i).map Metric.block) ∧
      PyDict.keys metrics =
        ((List.range num).filter (fun i : Nat => (i : Int) ∈ L)).map blockName ++ [auxName] ∧
      metrics.get? auxName =
        some (.total (((List.range num).filterMap (fun i => (f i).map aux)).sum)) := by
  obtain ⟨n, hn, hsize, x, ms, hx, hl, hout, hmet⟩ := ensemble_run layers aux pre post num L size
    inputs out metrics h
  rw [List.range_eq_range'] at hl
  obtain ⟨xs, f, e0, e1, e2, e3, e4⟩ := loopEnsemble_spec layers L n num 0 true x [] ms.1 ms.2 hl
  have hnodup : (List.range' 0 num).Nodup := by
    rw [← List.range_eq_range']; exact List.nodup_range
  have hms : ms.2 = entries f (List.range' 0 num) := by
    rw [e4, PyDict.foldl_set_of_nodup _ _ (by simpa using entries_keys_nodup f _ hnodup),
      List.nil_append]
  have hkeys : PyDict.keys (entries f (List.range' 0 num)) =
      ((List.range num).filter (fun i : Nat => (i : Int) ∈ L)).map blockName := by
    rw [← List.range_eq_range']
    unfold PyDict.keys entries
    rw [List.map_filterMap, ← List.filterMap_eq_map, List.filterMap_filter]
    apply List.filterMap_congr
    intro i hi
    rw [List.mem_range] at hi
    by_cases hiL : (i : Int) ∈ L
    · obtain ⟨m, hf, -⟩ := e3 i (by omega) (by omega) hiL
      simp [hf, hiL]
    · obtain ⟨hf, -⟩ := e2 i (by omega) (by omega) hiL
      simp [hf, hiL]
  have hkeys' : PyDict.keys ((entries f (List.range' 0 num)).map
      (fun kv => (kv.1, (Metric.block kv.2 : Metric M A)))) =
      ((List.range num).filter (fun i : Nat => (i : Int) ∈ L)).map blockName := by
    rw [← hkeys]
    unfold PyDict.keys
    rw [List.map_map]
    rfl
  have hnot : auxName ∉ PyDict.keys ((entries f (List.range' 0 num)).map
      (fun kv => (kv.1, (Metric.block kv.2 : Metric M A)))) := by
    rw [hkeys', List.mem_map]
    rintro ⟨i, -, hi⟩
    exact blockName_ne_aux i hi
  refine ⟨n, hn, hsize, xs, f, ?_, ?_, ?_, ?_, ?_, ?_, ?_⟩
  · rw [e0]; exact hx
  · rw [hout, e1, Nat.zero_add]
  · intro i hi hiL
    obtain ⟨hf, hd⟩ := e2 i (by omega) (by omega) hiL
    exact ⟨hf, by rw [hd, denseBlock_eq]⟩
  · intro i hi hiL
    obtain ⟨m, hf, hm⟩ := e3 i (by omega) (by omega) hiL
    have hc : (true = true ∧ ∀ j, 0 ≤ j → j < i → (j : Int) ∉ L) ↔ ∀ j < i, (j : Int) ∉ L :=
      ⟨fun h j hj => h.2 j (Nat.zero_le _) hj, fun h => ⟨rfl, fun j _ hj => h j hj⟩⟩
    rw [if_congr hc rfl rfl] at hm
    unfold moeBlock at hm
    simp only at hm
    split at hm
    · cases hm
    · rename_i y m' hy
      have hinj := Prod.mk.inj (Except.ok.inj hm)
      refine ⟨m, y, hf, ?_, hinj.1.symm⟩
      rw [← hinj.2]
      exact hy
  · intro i hi
    rw [hmet, hms]
    unfold finalMetrics
    rw [PyDict.get?_set, if_neg (fun h => blockName_ne_aux i h.symm),
      get?_map (Metric.block : M → Metric M A), entries_get f _ hnodup i (by
        rw [List.mem_range'_1]; omega)]
  · rw [hmet, hms]
    unfold finalMetrics
    rw [PyDict.keys_set, if_neg hnot, hkeys']
  · rw [hmet, hms]
    unfold finalMetrics
    rw [PyDict.get?_set, if_pos rfl, entries_sum, List.range_eq_range']

/-- C73: the plain encoder is the ensemble encoder with one member; so the chain of
`C73_ensemble_encoder` describes it too (nothing is repeated). -/
theorem C73_plain_encoder (layers : Layers V M) (aux : M → A) (pre : V → Except PyErr V)
    (post : V → V) (num : Nat) (L : List Int) (inputs : List V) :
    encoderMoe layers aux pre post num L inputs =
      encoderMoeEnsemble layers aux pre post num L (some 1) inputs := by
  unfold encoderMoe encoderMoeEnsemble
  have h1 : parseEnsembleSize (some 1) = .ok 1 := rfl
  simp only [h1, loop_eq_ensemble layers L true]

/-- C73: only the set of listed ids below the number of layers matters: duplicates, order, negative
and too large ids have no effect (and raise no error). -/
theorem C73_ids_as_set (layers : Layers V M) (aux : M → A) (pre : V → Except PyErr V)
    (post : V → V) (num : Nat) (L L' : List Int) (size : Option Int) (inputs : List V)
    (h : ∀ i < num, (i : Int) ∈ L ↔ (i : Int) ∈ L') :
    encoderMoeEnsemble layers aux pre post num L size inputs =
      encoderMoeEnsemble layers aux pre post num L' size inputs ∧
    encoderMoe layers aux pre post num L inputs = encoderMoe layers aux pre post num L' inputs := by
  have key : ∀ (n : Nat) (blocks : List Nat), (∀ i ∈ blocks, i < num) →
      ∀ (first : Bool) (x : List V) (ms : PyDict (List Char) M),
        loopEnsemble layers L n blocks first x ms = loopEnsemble layers L' n blocks first x ms := by
    intro n blocks
    induction blocks with
    | nil => intro _ first x ms; rfl
    | cons b rest ih =>
      intro hb first x ms
      have ih' := ih (fun i hi => hb i (List.mem_cons_of_mem _ hi))
      rw [loopEnsemble, loopEnsemble]
      have hb' := h b (hb b List.mem_cons_self)
      by_cases hL : (b : Int) ∈ L
      · rw [if_pos hL, if_pos (hb'.1 hL)]
        simp only [ih']
      · rw [if_neg hL, if_neg (fun h2 => hL (hb'.2 h2)), ih']
  have he : ∀ size, encoderMoeEnsemble layers aux pre post num L size inputs =
      encoderMoeEnsemble layers aux pre post num L' size inputs := by
    intro size
    unfold encoderMoeEnsemble
    simp only [fun n => key n (List.range num) (fun i hi => List.mem_range.1 hi)]
  exact ⟨he size, by rw [C73_plain_encoder, C73_plain_encoder, he]⟩

/-- C73: number of output sequences: `ensemble_size` times the inputs if there is at least one MoE
block, and the same as the inputs otherwise. -/
theorem C73_batch_size (layers : Layers V M) (aux : M → A) (pre : V → Except PyErr V)
    (post : V → V) (num : Nat) (L : List Int) (n : Nat) (inputs out : List V)
    (metrics : PyDict (List Char) (Metric M A))
    (hmoe : ∀ i x y m, layers.moe i x = .ok (y, m) → y.length = x.length)
    (h : encoderMoeEnsemble layers aux pre post num L (some (n : Int)) inputs = .ok (out, metrics)) :
    out.length = (if ∃ i < num, (i : Int) ∈ L then n else 1) * inputs.length := by
  obtain ⟨n', hn, hsize, xs, f, e0, e1, e2, e3, -⟩ := C73_ensemble_encoder layers aux pre post num L _
    inputs out metrics h
  have hnn : n' = n := by
    have := Option.some.inj hsize
    exact_mod_cast this.symm
  subst hnn
  have hlen : ∀ i ≤ num, (xs i).length =
      (if ∃ j < i, (j : Int) ∈ L then n' else 1) * (xs 0).length := by
    intro i
    induction i with
    | zero => intro _; simp
    | succ i ih =>
      intro hi
      have ih' := ih (by omega)
      by_cases hL : (i : Int) ∈ L
      · obtain ⟨m, y, hf, hy, hxs⟩ := e3 i (by omega) hL
        have hl := hmoe _ _ _ _ hy
        rw [if_pos ⟨i, by omega, hL⟩, hxs, List.length_zipWith, hl]
        simp only [List.length_map, min_self]
        by_cases hfirst : ∀ j < i, (j : Int) ∉ L
        · rw [if_pos hfirst]
          have : ¬ ∃ j < i, (j : Int) ∈ L := by
            rintro ⟨j, hj, hjL⟩; exact hfirst j hj hjL
          rw [if_neg this, Nat.one_mul] at ih'
          have := repeatRows_length n' (xs i)
          unfold repeatRows at this
          rw [this, ih']
        · rw [if_neg hfirst]
          push Not at hfirst
          rw [if_pos hfirst] at ih'
          exact ih'
      · obtain ⟨-, hxs⟩ := e2 i (by omega) hL
        rw [hxs, List.length_map, ih']
        have : (∃ j < i + 1, (j : Int) ∈ L) ↔ ∃ j < i, (j : Int) ∈ L := by
          constructor
          · rintro ⟨j, hj, hjL⟩
            refine ⟨j, ?_, hjL⟩
            by_contra hn
            have : j = i := by omega
            subst this
            exact hL hjL
          · rintro ⟨j, hj, hjL⟩; exact ⟨j, by omega, hjL⟩
        simp only [this]
  have h0 : (xs 0).length = inputs.length := by
    have key : ∀ (l r : List V), l.mapM pre = .ok r → r.length = l.length := by
      intro l
      induction l with
      | nil => intro r hr; rw [List.mapM_nil] at hr; cases hr; rfl
      | cons a l ih =>
        intro r hr
        rw [List.mapM_cons] at hr
        rcases ha : pre a with e | b
        · rw [ha] at hr; cases hr
        · rw [ha] at hr
          rcases hl : l.mapM pre with e | bs
          · rw [hl] at hr; cases hr
          · rw [hl] at hr
            cases hr
            simp [ih bs hl]
    exact key _ _ e0
  rw [e1, List.length_map, hlen num le_rfl, h0]

/-- C73: a bad ensemble size (absent, zero or negative) is rejected, even without MoE blocks. -/
theorem C73_bad_ensemble_size (layers : Layers V M) (aux : M → A) (pre : V → Except PyErr V)
    (post : V → V) (num : Nat) (L : List Int) (size : Option Int) (inputs x : List V)
    (hx : inputs.mapM pre = .ok x) (hsize : ∀ n : Int, size = some n → n ≤ 0) :
    encoderMoeEnsemble layers aux pre post num L size inputs = .error .valueError := by
  unfold encoderMoeEnsemble
  rw [hx]
  have : parseEnsembleSize size = .error .valueError := by
    cases size with
    | none => rfl
    | some n => simp [parseEnsembleSize, hsize n rfl]
  simp only [this]

/-- C73: nothing else fails: if the position embedding and the MoE layers succeed on everything, and
the ensemble size is positive, so does the encoder. -/
theorem C73_no_other_errors (layers : Layers V M) (aux : M → A) (pre : V → Except PyErr V)
    (post : V → V) (num : Nat) (L : List Int) (n : Int) (hn : 0 < n) (inputs x : List V)
    (hx : inputs.mapM pre = .ok x) (hmoe : ∀ i x, ∃ r, layers.moe i x = .ok r) :
    (∃ r, encoderMoeEnsemble layers aux pre post num L (some n) inputs = .ok r) ∧
    ∃ r, encoderMoe layers aux pre post num L inputs = .ok r := by
  have key : ∀ (k : Nat) (blocks : List Nat) (first : Bool) (x : List V)
      (ms : PyDict (List Char) M), ∃ r, loopEnsemble layers L k blocks first x ms = .ok r := by
    intro k blocks
    induction blocks with
    | nil => intro first x ms; exact ⟨_, rfl⟩
    | cons b rest ih =>
      intro first x ms
      rw [loopEnsemble]
      split
      · simp only
        have hb : ∀ x, ∃ r, moeBlock (layers.fns b) (layers.moe b) x = .ok r := by
          intro x
          unfold moeBlock
          obtain ⟨r, hr⟩ := hmoe b ((attention (layers.fns b) x).map (layers.fns b).norm)
          simp only [hr]
          exact ⟨_, rfl⟩
        obtain ⟨r, hr⟩ := hb (if first = true then repeatRows k x else x)
        rw [hr]
        exact ih _ _ _
      · exact ih _ _ _
  have main : ∀ n : Int, 0 < n →
      ∃ r, encoderMoeEnsemble layers aux pre post num L (some n) inputs = .ok r := by
    intro n hn
    unfold encoderMoeEnsemble
    have hp : parseEnsembleSize (some n) = .ok n.toNat := by
      simp [parseEnsembleSize, not_le.2 hn]
    rw [hx]
    simp only [hp]
    obtain ⟨r, hr⟩ := key n.toNat (List.range num) true x []
    rw [hr]
    exact ⟨_, rfl⟩
  exact ⟨main n hn, by rw [C73_plain_encoder]; exact main 1 (by decide)⟩

/-- Layers of the examples: numbers instead of sequences; dense blocks add 1 after doubling, the MoE
layer of block `i` adds up the batch. -/
def exLayers : Layers Int Int where
  fns := fun _ => { attn := fun v => v, norm := fun v => v }
  mlp := fun _ _ => 1
  moe := fun i x => .ok (x.map (fun _ => x.sum), (i : Int) + 10)

-- Non-vacuity: 3 blocks, MoE listed at 1 and at the non-existing block 7; two images, two members.
example : encoderMoeEnsemble exLayers (fun m : Int => m) (fun v => .ok v) (fun v => v) 3 [7, 1] (some 2)
    [1, 2] = .ok ([77, 77, 85, 85], [(blockName 1, .block 11), (auxName, .total 11)]) := by decide +kernel

example : encoderMoe exLayers (fun m : Int => m) (fun v => .ok v) (fun v => v) 2 [] [1] =
    .ok ([7], [(auxName, .total 0)]) := by decide +kernel

example : ∀ i x y m, exLayers.moe i x = .ok (y, m) → y.length = x.length := by
  intro i x y m h
  simp only [exLayers, Except.ok.injEq, Prod.mk.injEq] at h
  rw [← h.1, List.length_map]

end Verif.Encoder
