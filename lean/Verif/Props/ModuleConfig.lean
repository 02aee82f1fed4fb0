import Verif.Proofs.ModuleConfig

/-!
Property C79: which option wins when modules are built from configuration dictionaries.
-/

namespace Verif.Config

open Verif PyDict

variable {V : Type}

theorem get?_pair (a b k : Str) (x y : V) :
    get? [(a, x), (b, y)] k = if a = k then some x else if b = k then some y else none := rfl

theorem get?_single (a k : Str) (x : V) : get? [(a, x)] k = if a = k then some x else none := rfl

theorem get?_triple (a b c k : Str) (x y z : V) : get? [(a, x), (b, y), (c, z)] k =
    if a = k then some x else if b = k then some y else if c = k then some z else none := rfl

/-- Options that a router gets: the number of experts, the type and the name come from the layer;
`deterministic` from the router options, else from the layer; everything else from the router
options, else from the call string. -/
def routerOption (env : Env V) (b : Block V) (callKwargs : PyDict Str V) (k : Str) : Option V :=
  if k = "num_experts".toList then some b.numExperts
  else if k = "dtype".toList then some b.dtype
  else if k = "name".toList then some (env.str "Router".toList)
  else if k = "deterministic".toList then
    some ((get? (b.router.getD []) k).getD b.deterministic)
  else (get? (b.router.getD []) k).or (get? callKwargs k)

theorem routerKwargs_spec (b : Block V) (hr : (keys (b.router.getD [])).Nodup)
    (hn : get? (b.router.getD []) "num_experts".toList = none) :
    ∃ kw, routerKwargs b = .ok kw ∧ (keys kw).Nodup ∧ ∀ k, get? kw k =
      if k = "num_experts".toList then some b.numExperts
      else if k = "deterministic".toList then
        some ((get? (b.router.getD []) k).getD b.deterministic)
      else get? (b.router.getD []) k := by
  have hm : kwMerge [("num_experts".toList, b.numExperts)] (b.router.getD []) =
      .ok ([("num_experts".toList, b.numExperts)] ++ b.router.getD []) := by
    apply kwMerge_ok
    intro k hk
    simp only [get?] at hk
    split at hk
    · rename_i h; rw [← h]; exact hn
    · cases hk
  have hne : ¬ "num_experts".toList = "deterministic".toList := by decide
  unfold routerKwargs
  rw [hm]
  refine ⟨_, rfl, ?_, ?_⟩
  · apply nodup_keys_set
    simp only [keys, List.cons_append, List.nil_append, List.map_cons, List.nodup_cons]
    exact ⟨(get?_eq_none _ _).1 hn, hr⟩
  · intro k
    rw [get?_set]
    simp only [List.cons_append, List.nil_append, get?, if_neg hne]
    by_cases h1 : k = "num_experts".toList
    · rw [if_pos h1, if_neg (by rw [h1]; decide), if_pos h1.symm]
    · rw [if_neg h1]
      by_cases h2 : k = "deterministic".toList
      · rw [if_pos h2, if_pos h2.symm, h2]
      · rw [if_neg h2, if_neg (Ne.symm h2), if_neg (Ne.symm h1)]

/-- C79, routers.  Giving `num_experts` among the router options is a TypeError; so is giving `dtype`
there, or `dtype` or `name` in the call string.  Otherwise the router is built from `routerOption` and
the positional arguments of the call string, with TypeError for unknown, repeated and missing
options.  In particular `num_experts` in the call string is overridden by the layer, and
`deterministic` in the call string is ignored. -/
theorem C79_router (env : Env V) (b : Block V) (hr : (keys (b.router.getD [])).Nodup) :
    let r := b.router.getD []
    ("num_experts".toList ∈ keys r → createRouter env b = .error .typeError) ∧
    ("num_experts".toList ∉ keys r →
      let name := (get? r "name".toList).getD (env.str "NoisyTopExpertsPerItemRouter".toList)
      (∀ err, env.parse name = .error err → createRouter env b = .error err) ∧
      (∀ call, env.parse name = .ok call →
        ("dtype".toList ∈ keys r ∨ "dtype".toList ∈ keys call.kwargs ∨
          "name".toList ∈ keys call.kwargs → createRouter env b = .error .typeError) ∧
        ("dtype".toList ∉ keys r → "dtype".toList ∉ keys call.kwargs →
          "name".toList ∉ keys call.kwargs → call.cls.Wf →
          BuildsCls env.none_ call.cls call.args (routerOption env b call.kwargs)
            (createRouter env b)))) := by
  intro r
  refine ⟨?_, ?_⟩
  · intro h
    unfold createRouter routerKwargs
    rw [kwMerge_error _ _ "num_experts".toList (by simp [get?]) ((mem_keys_iff _ _).1 h)]
  · intro h name
    obtain ⟨kw, e1, e2, e3⟩ := routerKwargs_spec b hr ((get?_eq_none _ _).2 h)
    have hname : (get? kw "name".toList).getD
        (env.str "NoisyTopExpertsPerItemRouter".toList) = name := by
      rw [e3, if_neg (by decide), if_neg (by decide)]
    have hK : ∀ call : Call V, ∀ k, get? (update call.kwargs (remove kw "name".toList)) k =
        if k = "num_experts".toList then some b.numExperts
        else if k = "deterministic".toList then some ((get? r k).getD b.deterministic)
        else if k = "name".toList then get? call.kwargs k
        else (get? r k).or (get? call.kwargs k) := by
      intro call k
      rw [get?_update _ _ (nodup_remove _ _ e2), get?_remove, e3]
      by_cases h1 : k = "num_experts".toList
      · rw [if_pos h1, if_pos h1, if_neg (by rw [h1]; decide)]; rfl
      · rw [if_neg h1, if_neg h1]
        by_cases h2 : k = "deterministic".toList
        · rw [if_pos h2, if_pos h2, if_neg (by rw [h2]; decide)]; rfl
        · rw [if_neg h2, if_neg h2]
          by_cases h3 : k = "name".toList
          · rw [if_pos h3, if_pos h3]; rfl
          · rw [if_neg h3, if_neg h3]
    refine ⟨?_, ?_⟩
    · intro err herr
      unfold createRouter
      rw [e1]
      simp only [hname, herr]
    · intro call hcall
      refine ⟨?_, ?_⟩
      · intro hbad
        unfold createRouter
        rw [e1]
        simp only [hname, hcall]
        rcases hbad with h1 | h1 | h1
        · rw [kwMerge_error _ _ "dtype".toList (by simp [get?])]
          rw [hK, if_neg (by decide), if_neg (by decide), if_neg (by decide), Option.isSome_or,
            (mem_keys_iff _ _).1 h1]
          rfl
        · rw [kwMerge_error _ _ "dtype".toList (by simp [get?])]
          rw [hK, if_neg (by decide), if_neg (by decide), if_neg (by decide), Option.isSome_or,
            (mem_keys_iff _ _).1 h1, Bool.or_true]
        · rw [kwMerge_error _ _ "name".toList (by simp [get?])]
          rw [hK, if_neg (by decide), if_neg (by decide), if_pos rfl, (mem_keys_iff _ _).1 h1]
      · intro h1 h2 h3 hwf
        have hm : kwMerge [("dtype".toList, b.dtype), ("name".toList, env.str "Router".toList)]
            (update call.kwargs (remove kw "name".toList)) = .ok
            ([("dtype".toList, b.dtype), ("name".toList, env.str "Router".toList)] ++
              update call.kwargs (remove kw "name".toList)) := by
          apply kwMerge_ok
          intro k hk
          rw [hK]
          simp only [get?] at hk
          split at hk
          · rename_i hd
            rw [← hd, if_neg (by decide), if_neg (by decide), if_neg (by decide),
              (get?_eq_none _ _).2 h1, (get?_eq_none _ _).2 h2]
            rfl
          · split at hk
            · rename_i hd
              rw [← hd, if_neg (by decide), if_neg (by decide), if_pos rfl,
                (get?_eq_none _ _).2 h3]
            · cases hk
        unfold createRouter
        rw [e1]
        simp only [hname, hcall, hm]
        apply construct_buildsCls env.none_ call.cls hwf
        intro k
        rw [get?_append, hK]
        unfold routerOption
        simp only [get?]
        by_cases a1 : k = "num_experts".toList
        · rw [if_pos a1, if_pos a1, if_neg (by rw [a1]; decide), if_neg (by rw [a1]; decide)]; rfl
        · rw [if_neg a1, if_neg a1]
          by_cases a2 : k = "dtype".toList
          · rw [if_pos a2.symm, if_pos a2]; rfl
          · rw [if_neg (Ne.symm a2), if_neg a2]
            by_cases a3 : k = "name".toList
            · rw [if_pos a3.symm, if_pos a3, if_pos a3]; rfl
            · rw [if_neg (Ne.symm a3), if_neg a3, if_neg a3]
              rfl

/-- C79: consequences for a router that was built: number of experts, type and name are those of the
layer, whatever the call string says; `deterministic` follows the router options, else the layer. -/
theorem C79_router_follows_layer (env : Env V) (b : Block V)
    (hr : (keys (b.router.getD [])).Nodup) (c : Cls V) (attrs : PyDict Str V)
    (h : createRouter env b = .ok (c, attrs)) (hwf : c.Wf) :
    get? attrs "num_experts".toList = some b.numExperts ∧
    get? attrs "dtype".toList = some b.dtype ∧
    get? attrs "name".toList = some (env.str "Router".toList) ∧
    get? attrs "deterministic".toList =
      some ((get? (b.router.getD []) "deterministic".toList).getD b.deterministic) ∧
    (∀ k v, k ≠ "name".toList → get? (b.router.getD []) k = some v → get? attrs k = some v) := by
  obtain ⟨h1, h2⟩ := C79_router env b hr
  have hn : "num_experts".toList ∉ keys (b.router.getD []) := by
    intro hn; rw [h1 hn] at h; cases h
  obtain ⟨h3, h4⟩ := h2 hn
  rcases hp : env.parse ((get? (b.router.getD []) "name".toList).getD
      (env.str "NoisyTopExpertsPerItemRouter".toList)) with err | call
  · rw [h3 err hp] at h; cases h
  obtain ⟨h5, h6⟩ := h4 call hp
  have hd1 : "dtype".toList ∉ keys (b.router.getD []) := by
    intro hn; rw [h5 (Or.inl hn)] at h; cases h
  have hd2 : "dtype".toList ∉ keys call.kwargs := by
    intro hn; rw [h5 (Or.inr (Or.inl hn))] at h; cases h
  have hd3 : "name".toList ∉ keys call.kwargs := by
    intro hn; rw [h5 (Or.inr (Or.inr hn))] at h; cases h
  have hcls : c = call.cls := by
    unfold createRouter at h
    split at h
    · cases h
    · rename_i kw hkw
      obtain ⟨kw', e1, -, e3⟩ := routerKwargs_spec b hr ((get?_eq_none _ _).2 hn)
      rw [hkw] at e1
      cases e1
      simp only at h
      rw [e3, if_neg (by decide), if_neg (by decide), hp] at h
      simp only at h
      split at h
      · cases h
      · rename_i kw2 _
        rcases hcon : construct env.none_ call.cls call.args kw2 with e | a
        · rw [hcon] at h; cases h
        · rw [hcon] at h; cases h; rfl
  subst hcls
  obtain ⟨⟨h7, h8⟩, -⟩ := h6 hd1 hd2 hd3 hwf
  rw [h] at h7 h8
  have hacc : Accepted call.cls call.args (routerOption env b call.kwargs) := by
    by_contra hn; exact absurd (h8 hn) (by simp [Except.map])
  obtain ⟨attrs', ha, hf, hname⟩ := h7 hacc
  have ha' : attrs' = attrs := by cases ha; rfl
  subst ha'
  -- an option with a value has that value
  have key : ∀ k v, k ≠ "name".toList → routerOption env b call.kwargs k = some v →
      get? attrs' k = some v := by
    intro k v hk hv
    obtain ⟨a1, a2⟩ := hacc.2.1 k (by rw [hv]; rfl)
    have hin : k ∈ call.cls.names := a2.resolve_right hk
    obtain ⟨f, hf', rfl⟩ := List.mem_map.1 hin
    rw [hf f hf']
    have hpos : positional call.cls call.args f.1 = none := by
      unfold positional
      rw [← get?_zip, get?_eq_none, keys_zip _ _ (by simpa [Cls.names] using hacc.1)]
      exact a1
    unfold finalValue
    rw [hpos, hv]
    rfl
  refine ⟨?_, ?_, ?_, ?_, ?_⟩
  · exact key _ _ (by decide) (by unfold routerOption; rw [if_pos rfl])
  · exact key _ _ (by decide) (by
      unfold routerOption; rw [if_neg (by decide), if_pos rfl])
  · rw [hname]
    unfold routerOption
    rw [if_neg (by decide), if_neg (by decide), if_pos rfl]
    rfl
  · exact key _ _ (by decide) (by
      unfold routerOption
      rw [if_neg (by decide), if_neg (by decide), if_neg (by decide), if_pos rfl])
  · intro k v hk hv
    apply key k v hk
    unfold routerOption
    rw [if_neg, if_neg, if_neg hk]
    · rw [hv]
      split <;> rfl
    · intro e
      rw [e] at hv
      exact hd1 ((mem_keys_iff _ _).2 (by rw [hv]; rfl))
    · intro e
      rw [e] at hv
      exact hn ((mem_keys_iff _ _).2 (by rw [hv]; rfl))

/-- Options of the ensemble router: as above, without a call string, and the ensemble size is the one
of the layer even if the router options contain another one. -/
def ensembleRouterOption (env : Env V) (num : Int → V) (n : Int) (b : Block V) (k : Str) : Option V :=
  if k = "ensemble_size".toList then some (num n) else routerOption env b [] k

/-- C79, ensemble routers: TypeError if the router options contain `num_experts`; otherwise ValueError
if the ensemble size is missing or not positive; otherwise TypeError if they contain `dtype` or `name`;
otherwise the router is built from `ensembleRouterOption`. -/
theorem C79_ensemble_router (env : Env V) (num : Int → V) (cls : Cls V) (hwf : cls.Wf)
    (size : Option Int) (b : Block V) (hr : (keys (b.router.getD [])).Nodup) :
    let r := b.router.getD []
    let res := createEnsembleRouter env num cls size b
    ("num_experts".toList ∈ keys r → res = .error .typeError) ∧
    ("num_experts".toList ∉ keys r → (∀ n, size = some n → n ≤ 0) → res = .error .valueError) ∧
    ("num_experts".toList ∉ keys r → ∀ n, size = some n → 0 < n →
      ("dtype".toList ∈ keys r ∨ "name".toList ∈ keys r → res = .error .typeError) ∧
      ("dtype".toList ∉ keys r → "name".toList ∉ keys r →
        Builds env.none_ cls [] (ensembleRouterOption env num n b) res)) := by
  intro r res
  refine ⟨?_, ?_, ?_⟩
  · intro h
    simp only [res]
    unfold createEnsembleRouter routerKwargs
    rw [kwMerge_error _ _ "num_experts".toList (by simp [get?]) ((mem_keys_iff _ _).1 h)]
  · intro h hs
    obtain ⟨kw, e1, e2, e3⟩ := routerKwargs_spec b hr ((get?_eq_none _ _).2 h)
    simp only [res]
    unfold createEnsembleRouter
    rw [e1]
    cases size with
    | none => rfl
    | some n => simp only [parseSize, if_pos (hs n rfl)]
  · intro h n hn h0
    subst hn
    obtain ⟨kw, e1, e2, e3⟩ := routerKwargs_spec b hr ((get?_eq_none _ _).2 h)
    have hps : parseSize (some n) = .ok n := by
      simp only [parseSize, if_neg (Int.not_le.2 h0)]
    have hK : ∀ k, get? (set kw "ensemble_size".toList (num n)) k =
        if k = "ensemble_size".toList then some (num n)
        else if k = "num_experts".toList then some b.numExperts
        else if k = "deterministic".toList then some ((get? r k).getD b.deterministic)
        else get? r k := by
      intro k
      rw [get?_set, e3]
      by_cases h1 : k = "ensemble_size".toList
      · rw [if_pos h1, if_pos h1.symm]
      · rw [if_neg h1, if_neg (Ne.symm h1)]
    refine ⟨?_, ?_⟩
    · intro hbad
      simp only [res]
      unfold createEnsembleRouter
      rw [e1]
      simp only [hps]
      rcases hbad with h1 | h1
      · rw [kwMerge_error _ _ "dtype".toList (by simp [get?])]
        rw [hK, if_neg (by decide), if_neg (by decide), if_neg (by decide)]
        exact (mem_keys_iff _ _).1 h1
      · rw [kwMerge_error _ _ "name".toList (by simp [get?])]
        rw [hK, if_neg (by decide), if_neg (by decide), if_neg (by decide)]
        exact (mem_keys_iff _ _).1 h1
    · intro h1 h2
      have hm : kwMerge [("dtype".toList, b.dtype), ("name".toList, env.str "Router".toList)]
          (set kw "ensemble_size".toList (num n)) = .ok
          ([("dtype".toList, b.dtype), ("name".toList, env.str "Router".toList)] ++
            set kw "ensemble_size".toList (num n)) := by
        apply kwMerge_ok
        intro k hk
        rw [hK]
        simp only [get?] at hk
        split at hk
        · rename_i hd
          rw [← hd, if_neg (by decide), if_neg (by decide), if_neg (by decide)]
          exact (get?_eq_none _ _).2 h1
        · split at hk
          · rename_i hd
            rw [← hd, if_neg (by decide), if_neg (by decide), if_neg (by decide)]
            exact (get?_eq_none _ _).2 h2
          · cases hk
      simp only [res]
      unfold createEnsembleRouter
      rw [e1]
      simp only [hps, hm]
      apply construct_builds env.none_ cls hwf
      intro k
      rw [get?_append, hK]
      unfold ensembleRouterOption routerOption
      simp only [get?]
      by_cases a0 : k = "ensemble_size".toList
      · rw [if_pos a0, if_pos a0, if_neg (by rw [a0]; decide), if_neg (by rw [a0]; decide)]; rfl
      rw [if_neg a0, if_neg a0]
      by_cases a1 : k = "num_experts".toList
      · rw [if_pos a1, if_pos a1, if_neg (by rw [a1]; decide), if_neg (by rw [a1]; decide)]; rfl
      · rw [if_neg a1, if_neg a1]
        by_cases a2 : k = "dtype".toList
        · rw [if_pos a2.symm, if_pos a2]; rfl
        · rw [if_neg (Ne.symm a2), if_neg a2]
          by_cases a3 : k = "name".toList
          · rw [if_pos a3.symm, if_pos a3]; rfl
          · rw [if_neg (Ne.symm a3), if_neg a3, Option.or_none]
            rfl

/-- Options of the MLP of an MoE block: type, `deterministic` and name come from the encoder; `layers`
is not an option of the MLP; everything else from the `moe` options, else (bottleneck size and dropout
rate) from the encoder. -/
def moeOption (env : Env V) (e : Encoder V) (k : Str) : Option V :=
  if k = "dtype".toList then some e.dtype
  else if k = "deterministic".toList then some e.deterministic
  else if k = "name".toList then some (env.str "Moe".toList)
  else if k = "layers".toList then none
  else (get? (e.moe.getD []) k).or
    (if k = "mlp_dim".toList then some e.mlpDim
     else if k = "dropout_rate".toList then some e.dropoutRate else none)

/-- Options of the MLP of a dense block: the `moe` options do not reach it. -/
def denseOption (env : Env V) (e : Encoder V) (k : Str) : Option V :=
  if k = "dtype".toList then some e.dtype
  else if k = "deterministic".toList then some e.deterministic
  else if k = "name".toList then some (env.str "Mlp".toList)
  else if k = "mlp_dim".toList then some e.mlpDim
  else if k = "dropout_rate".toList then some e.dropoutRate
  else none

/-- C79, MLPs of the encoder.  `name` among the `moe` options is a TypeError; otherwise the MLP of an
MoE block is built from `moeOption`: `dtype` and `deterministic` among the `moe` options are silently
ignored.  The MLP of a dense block is built from the options of the encoder. -/
theorem C79_encoder_mlps (env : Env V) (moeCls denseCls : Cls V) (hm : moeCls.Wf) (hd : denseCls.Wf)
    (e : Encoder V) (hr : (keys (e.moe.getD [])).Nodup) :
    ("name".toList ∈ keys (e.moe.getD []) → moeMlp env moeCls e = .error .typeError) ∧
    ("name".toList ∉ keys (e.moe.getD []) →
      Builds env.none_ moeCls [] (moeOption env e) (moeMlp env moeCls e)) ∧
    Builds env.none_ denseCls [] (denseOption env e) (denseMlp env denseCls e) := by
  have hcall : ∀ a d : V, (keys [("dtype".toList, a), ("deterministic".toList, d)]).Nodup := by
    intro a d
    change ["dtype".toList, "deterministic".toList].Nodup
    decide
  have hB : ∀ k, get? (remove (update (denseParams e) (e.moe.getD [])) "layers".toList) k =
      if k = "layers".toList then none else (get? (e.moe.getD []) k).or
        (if k = "mlp_dim".toList then some e.mlpDim
         else if k = "dropout_rate".toList then some e.dropoutRate else none) := by
    intro k
    rw [get?_remove, get?_update _ _ hr]
    unfold denseParams
    rw [get?_pair]
    by_cases a4 : k = "mlp_dim".toList
    · rw [if_pos a4, if_pos a4.symm]
    rw [if_neg a4, if_neg (Ne.symm a4)]
    by_cases a5 : k = "dropout_rate".toList
    · rw [if_pos a5, if_pos a5.symm]
    · rw [if_neg a5, if_neg (Ne.symm a5)]
  refine ⟨?_, ?_, ?_⟩
  · intro h
    unfold moeMlp moeParams
    rw [kwMerge_error _ _ "name".toList _ (by simp [get?])]
    rw [hB, if_neg (by decide), Option.isSome_or, (mem_keys_iff _ _).1 h]
    rfl
  · intro h
    have hk : moeParams env e = .ok (remove (update (denseParams e) (e.moe.getD [])) "layers".toList ++
        [("name".toList, env.str "Moe".toList)]) := by
      unfold moeParams
      apply kwMerge_ok
      intro k hk
      simp only [get?]
      rw [if_neg]
      intro e'
      rw [← e', hB, if_neg (by decide), (get?_eq_none _ _).2 h, if_neg (by decide),
        if_neg (by decide)] at hk
      cases hk
    unfold moeMlp
    rw [hk]
    apply construct_builds env.none_ moeCls hm
    intro k
    rw [get?_update _ _ (hcall _ _), get?_append, hB]
    unfold moeOption
    rw [get?_pair, get?_single]
    by_cases a1 : k = "dtype".toList
    · rw [if_pos a1, if_pos a1.symm]; rfl
    rw [if_neg a1, if_neg (Ne.symm a1)]
    by_cases a2 : k = "deterministic".toList
    · rw [if_pos a2, if_pos a2.symm]; rfl
    rw [if_neg a2, if_neg (Ne.symm a2)]
    by_cases a3 : k = "name".toList
    · rw [if_pos a3, if_pos a3.symm, if_neg (by rw [a3]; decide), if_neg (by rw [a3]; decide),
        if_neg (by rw [a3]; decide), a3, (get?_eq_none _ _).2 h]
      rfl
    rw [if_neg a3, if_neg (Ne.symm a3), Option.or_none]
    rfl
  · unfold denseMlp
    apply construct_builds env.none_ denseCls hd
    intro k
    rw [get?_update _ _ (hcall _ _)]
    unfold denseOption
    change (get? [("dtype".toList, e.dtype), ("deterministic".toList, e.deterministic)] k).or
      (get? [("mlp_dim".toList, e.mlpDim), ("dropout_rate".toList, e.dropoutRate),
        ("name".toList, env.str "Mlp".toList)] k) = _
    rw [get?_pair, get?_triple]
    by_cases a1 : k = "dtype".toList
    · rw [if_pos a1, if_pos a1.symm]; rfl
    rw [if_neg a1, if_neg (Ne.symm a1)]
    by_cases a2 : k = "deterministic".toList
    · rw [if_pos a2, if_pos a2.symm]; rfl
    rw [if_neg a2, if_neg (Ne.symm a2)]
    by_cases a3 : k = "name".toList
    · rw [if_pos a3, if_pos a3.symm, if_neg (by rw [a3]; decide), if_neg (by rw [a3]; decide)]; rfl
    rw [if_neg a3, if_neg (Ne.symm a3)]
    by_cases a4 : k = "mlp_dim".toList
    · rw [if_pos a4, if_pos a4.symm]; rfl
    rw [if_neg a4, if_neg (Ne.symm a4)]
    by_cases a5 : k = "dropout_rate".toList
    · rw [if_pos a5, if_pos a5.symm]; rfl
    · rw [if_neg a5, if_neg (Ne.symm a5)]; rfl

/-- Options of an encoder block. -/
def blockOption (o : BlockOptions V) (qkNorm : Option V) (name mlp : V) (k : Str) : Option V :=
  if k = "name".toList then some name
  else if k = "mlp_block".toList then some mlp
  else if k = "num_heads".toList then some o.numHeads
  else if k = "dropout_rate".toList then some o.dropoutRate
  else if k = "attention_dropout_rate".toList then some o.attentionDropoutRate
  else if k = "attention_qk_norm".toList then qkNorm
  else if k = "deterministic".toList then some o.deterministic
  else if k = "dtype".toList then some o.dtype
  else none

/-- C79, encoder blocks: every block of the encoder gets the options of the encoder.  In the ensemble
encoder `attention_qk_norm` is the exception: the blocks keep the default of their class. -/
theorem C79_encoder_blocks (env : Env V) (cls : Cls V) (hc : cls.Wf) (o : BlockOptions V)
    (name mlp : V) :
    Builds env.none_ cls [] (blockOption o (some o.attentionQkNorm) name mlp)
      (encoderBlock env cls o name mlp) ∧
    Builds env.none_ cls [] (blockOption o none name mlp)
      (encoderBlockEnsemble env cls o name mlp) := by
  have hcall : (keys [("name".toList, name), ("mlp_block".toList, mlp)]).Nodup := by
    change ["name".toList, "mlp_block".toList].Nodup
    decide
  have flip : ∀ (a k : Str) (x : V) (y : Option V), (if a = k then some x else y) =
      if k = a then some x else y := by
    intro a k x y
    by_cases h : k = a
    · rw [if_pos h, if_pos h.symm]
    · rw [if_neg h, if_neg (Ne.symm h)]
  refine ⟨?_, ?_⟩
  · apply construct_builds env.none_ cls hc
    intro k
    rw [get?_update _ _ hcall, get?_pair]
    change Option.or _ (if "num_heads".toList = k then some o.numHeads
      else if "dropout_rate".toList = k then some o.dropoutRate
      else if "attention_dropout_rate".toList = k then some o.attentionDropoutRate
      else if "attention_qk_norm".toList = k then some o.attentionQkNorm
      else if "deterministic".toList = k then some o.deterministic
      else if "dtype".toList = k then some o.dtype else none) = _
    unfold blockOption
    rw [flip "name".toList k,
      flip "mlp_block".toList k,
      flip "num_heads".toList k,
      flip "dropout_rate".toList k,
      flip "attention_dropout_rate".toList k,
      flip "attention_qk_norm".toList k,
      flip "deterministic".toList k,
      flip "dtype".toList k]
    split
    · rfl
    split
    · rfl
    · exact Option.none_or
  · apply construct_builds env.none_ cls hc
    intro k
    rw [get?_update _ _ hcall, get?_pair]
    change Option.or _ (if "num_heads".toList = k then some o.numHeads
      else if "dropout_rate".toList = k then some o.dropoutRate
      else if "attention_dropout_rate".toList = k then some o.attentionDropoutRate
      else if "deterministic".toList = k then some o.deterministic
      else if "dtype".toList = k then some o.dtype else none) = _
    unfold blockOption
    rw [flip "name".toList k,
      flip "mlp_block".toList k,
      flip "num_heads".toList k,
      flip "dropout_rate".toList k,
      flip "attention_dropout_rate".toList k,
      flip "deterministic".toList k,
      flip "dtype".toList k]
    split
    · rfl
    split
    · rfl
    refine Option.none_or.trans ?_
    by_cases h : k = "attention_qk_norm".toList
    · subst h
      rfl
    · rw [if_neg h]

/-- C79, models: without a name KeyError; an option given both in the call string and in the
configuration, or `deterministic` in either, is a TypeError; otherwise the model is built from the
union.  A plain dictionary loses its `name`, so that a second call with it fails with KeyError; a
`ConfigDict` is left alone. -/
theorem C79_flax_model (env : Env V) (isConfigDict : Bool) (config : PyDict Str V) (det : V) :
    let res := (createFlaxModel env isConfigDict config det).1
    let after := (createFlaxModel env isConfigDict config det).2
    ("name".toList ∉ keys config → res = .error .keyError ∧ after = config) ∧
    (∀ name, get? config "name".toList = some name →
      (isConfigDict = true → after = config) ∧
      (isConfigDict = false → (createFlaxModel env isConfigDict after det).1 = .error .keyError) ∧
      (∀ err, env.parse name = .error err → res = .error err) ∧
      (∀ call, env.parse name = .ok call →
        let conf := fun k => if k = "name".toList then none else get? config k
        ((∃ k, (get? call.kwargs k).isSome ∧ (conf k).isSome) ∨
          (get? call.kwargs "deterministic".toList).isSome ∨ (conf "deterministic".toList).isSome →
            res = .error .typeError) ∧
        ((∀ k, (get? call.kwargs k).isSome → conf k = none) →
          get? call.kwargs "deterministic".toList = none → conf "deterministic".toList = none →
          call.cls.Wf →
          BuildsCls env.none_ call.cls call.args (fun k =>
            if k = "deterministic".toList then some det else (get? call.kwargs k).or (conf k)) res))) := by
  intro res after
  refine ⟨?_, ?_⟩
  · intro h
    rw [← get?_eq_none] at h
    simp only [res, after, createFlaxModel, h, and_self]
  · intro name hname
    refine ⟨?_, ?_, ?_, ?_⟩
    · intro hc
      simp only [after, createFlaxModel, hname, hc, if_true]
    · intro hc
      have : get? after "name".toList = none := by
        simp only [after, createFlaxModel, hname, hc, Bool.false_eq_true, if_false]
        rw [get?_remove, if_pos rfl]
      simp only [createFlaxModel, this]
    · intro err herr
      simp only [res, createFlaxModel, hname, herr]
    · intro call hcall conf
      have hrem : ∀ k, get? (remove config "name".toList) k = conf k := fun k => get?_remove _ _ _
      refine ⟨?_, ?_⟩
      · intro hbad
        simp only [res, createFlaxModel, hname, hcall]
        by_cases hdis : ∃ k, (get? call.kwargs k).isSome ∧ (conf k).isSome
        · obtain ⟨k, h1, h2⟩ := hdis
          rw [kwMerge_error _ _ k h1 (by rw [hrem]; exact h2)]
        · have hok : kwMerge call.kwargs (remove config "name".toList) = .ok
              (call.kwargs ++ remove config "name".toList) := by
            apply kwMerge_ok
            intro k hk
            rw [hrem]
            by_contra hne
            exact hdis ⟨k, hk, Option.isSome_iff_ne_none.2 hne⟩
          rw [hok]
          simp only
          have hdet : (get? (call.kwargs ++ remove config "name".toList)
              "deterministic".toList).isSome := by
            rw [get?_append, hrem, Option.isSome_or]
            rcases hbad with h | h | h
            · exact absurd h hdis
            · rw [h]; rfl
            · rw [h, Bool.or_true]
          rw [kwMerge_error _ _ "deterministic".toList hdet (by simp [get?])]
      · intro h1 h2 h3 hwf
        have hok : kwMerge call.kwargs (remove config "name".toList) = .ok
            (call.kwargs ++ remove config "name".toList) :=
          kwMerge_ok _ _ (fun k hk => (hrem k).trans (h1 k hk))
        have hok2 : kwMerge (call.kwargs ++ remove config "name".toList)
            [("deterministic".toList, det)] = .ok (call.kwargs ++ remove config "name".toList ++
              [("deterministic".toList, det)]) := by
          apply kwMerge_ok
          intro k hk
          simp only [get?]
          rw [if_neg]
          intro e'
          rw [← e', get?_append, hrem, h2, h3] at hk
          cases hk
        simp only [res, createFlaxModel, hname, hcall, hok, hok2]
        apply construct_buildsCls env.none_ call.cls hwf
        intro k
        rw [get?_append, get?_append, hrem]
        simp only [get?]
        by_cases a : k = "deterministic".toList
        · rw [if_pos a, if_pos a.symm, a, h2, h3]; rfl
        · rw [if_neg a, if_neg (Ne.symm a), Option.or_none]

/-- C79, towers of the contrastive model: the options win over the call string, `deterministic` in
either is a TypeError, and the name is the one of the tower whatever the call string says. -/
theorem C79_tower (env : Env V) (default tower : Str) (options : PyDict Str V) (det : V)
    (ho : (keys options).Nodup) :
    let res := createTower env default tower options det
    let name := (get? options "name".toList).getD (env.str default)
    (∀ err, env.parse name = .error err → res = .error err) ∧
    (∀ call, env.parse name = .ok call →
      ((get? options "deterministic".toList).isSome ∨
        (get? call.kwargs "deterministic".toList).isSome → res = .error .typeError) ∧
      (get? options "deterministic".toList = none → get? call.kwargs "deterministic".toList = none →
        call.cls.Wf →
        BuildsCls env.none_ call.cls call.args (fun k =>
          if k = "name".toList then some (env.str tower)
          else if k = "deterministic".toList then some det
          else (get? options k).or (get? call.kwargs k)) res)) := by
  intro res name
  have hK : ∀ call : Call V, ∀ k, get? (update call.kwargs (remove options "name".toList)) k =
      if k = "name".toList then get? call.kwargs k
      else (get? options k).or (get? call.kwargs k) := by
    intro call k
    rw [get?_update _ _ (nodup_remove _ _ ho), get?_remove]
    by_cases h3 : k = "name".toList
    · rw [if_pos h3, if_pos h3]; rfl
    · rw [if_neg h3, if_neg h3]
  refine ⟨?_, ?_⟩
  · intro err herr
    simp only [res, createTower]
    rw [show env.parse _ = _ from herr]
  · intro call hcall
    refine ⟨?_, ?_⟩
    · intro hbad
      simp only [res, createTower]
      rw [show env.parse _ = _ from hcall]
      simp only
      rw [kwMerge_error _ _ "deterministic".toList _ (by simp [get?])]
      rw [hK, if_neg (by decide), Option.isSome_or]
      rcases hbad with h | h
      · rw [h]; rfl
      · rw [h, Bool.or_true]
    · intro h1 h2 hwf
      have hok : kwMerge (update call.kwargs (remove options "name".toList))
          [("deterministic".toList, det)] = .ok (update call.kwargs (remove options "name".toList) ++
            [("deterministic".toList, det)]) := by
        apply kwMerge_ok
        intro k hk
        simp only [get?]
        rw [if_neg]
        intro e'
        rw [← e', hK, if_neg (by decide), h1, h2] at hk
        cases hk
      simp only [res, createTower]
      rw [show env.parse _ = _ from hcall]
      simp only [hok]
      apply construct_buildsCls env.none_ call.cls hwf
      intro k
      rw [get?_update _ _ (by simp [keys]), get?_append, hK]
      simp only [get?]
      by_cases a : k = "name".toList
      · rw [if_pos a, if_pos a.symm, if_pos a]; rfl
      · rw [if_neg a, if_neg (Ne.symm a), if_neg a]
        by_cases a2 : k = "deterministic".toList
        · rw [if_pos a2, if_pos a2.symm, a2, h1, h2]; rfl
        · rw [if_neg a2, if_neg (Ne.symm a2), Option.or_none]; rfl

/-- C79: the random generators of the experts: with a boolean both are split or none; with names
exactly the named ones. -/
theorem C79_split_rngs (s : SplitRngs) :
    keys (createSplitRngs s) = ["params".toList, "dropout".toList] ∧
    ∀ k ∈ ["params".toList, "dropout".toList], get? (createSplitRngs s) k = some (match s with
      | .all b => b
      | .names l => decide (k ∈ l)) := by
  have hne : ¬ "params".toList = "dropout".toList := by decide
  refine ⟨by cases s <;> rfl, ?_⟩
  intro k hk
  cases s <;> unfold createSplitRngs <;> rw [get?_pair] <;>
    rcases List.mem_pair.1 hk with rfl | rfl
  · rw [if_pos rfl]
  · rw [if_neg hne, if_pos rfl]
  · rw [if_pos rfl]
  · rw [if_neg hne, if_pos rfl]

/-! ### Examples -/

/-- Values for the examples: strings, numbers, None. -/
inductive ExVal where
  | str (s : Str)
  | num (n : Int)
  | none_
  deriving DecidableEq

/-- A router class with the fields of `NoisyTopItemsPerExpertRouter` (vmoe/nn/routing.py:199-203). -/
def exCls : Cls ExVal :=
  { id := 1
    fields := [("num_experts".toList, none), ("noise_std".toList, some (.num 1)),
      ("dispatcher".toList, some .none_), ("deterministic".toList, some (.num 0)),
      ("dtype".toList, some .none_)] }

/-- Every name means the call `Router(noise_std=5, deterministic=7, num_experts=9)`. -/
def exEnv : Env ExVal :=
  { str := .str
    none_ := .none_
    parse := fun _ => .ok ⟨exCls, [], [("noise_std".toList, .num 5), ("deterministic".toList, .num 7),
      ("num_experts".toList, .num 9)]⟩ }

/-- A layer with 4 experts whose router options set the dispatcher. -/
def exBlock : Block ExVal :=
  { numExperts := .num 4, deterministic := .num 1
    router := some [("dispatcher".toList, .num 3), ("name".toList, .str "x".toList)], dtype := .num 32 }

-- Non-vacuity of the router theorems: the router is built; the number of experts and `deterministic`
-- of the call string are overridden, its `noise_std` is used.
example : exCls.Wf ∧ (keys (exBlock.router.getD [])).Nodup ∧
    "num_experts".toList ∉ keys (exBlock.router.getD []) ∧
    (createRouter exEnv exBlock).map Prod.snd = .ok
      [("num_experts".toList, .num 4), ("noise_std".toList, .num 5), ("dispatcher".toList, .num 3),
       ("deterministic".toList, .num 1), ("dtype".toList, .num 32),
       ("name".toList, .str "Router".toList)] := by
  refine ⟨⟨by decide, by decide⟩, by decide, by decide, by decide⟩

-- The ensemble router: the size of the layer wins.
example : createEnsembleRouter exEnv .num
    { exCls with fields := exCls.fields ++ [("ensemble_size".toList, some (.num 1))] } (some 2)
    { exBlock with router := some [("ensemble_size".toList, .num 8)] } = .ok
      [("num_experts".toList, .num 4), ("noise_std".toList, .num 1), ("dispatcher".toList, .none_),
       ("deterministic".toList, .num 1), ("dtype".toList, .num 32), ("ensemble_size".toList, .num 2),
       ("name".toList, .str "Router".toList)] := by decide

/-- An MLP class with three fields that matter. -/
def exMlp : Cls ExVal :=
  { id := 2
    fields := [("mlp_dim".toList, none), ("dropout_rate".toList, some (.num 0)),
      ("deterministic".toList, some (.num 0)), ("dtype".toList, some .none_)] }

-- The encoder: `mlp_dim` of the `moe` options is used, their `deterministic` is ignored, `layers` is
-- removed; the dense MLP does not see them.
example :
    let e : Encoder ExVal :=
      { mlpDim := .num 10, dropoutRate := .num 11, deterministic := .num 1, dtype := .num 32
        moe := some [("layers".toList, .none_), ("mlp_dim".toList, .num 20),
          ("deterministic".toList, .num 5)] }
    exMlp.Wf ∧ moeMlp exEnv exMlp e = .ok
      [("mlp_dim".toList, .num 20), ("dropout_rate".toList, .num 11),
       ("deterministic".toList, .num 1), ("dtype".toList, .num 32),
       ("name".toList, .str "Moe".toList)] ∧
    denseMlp exEnv exMlp e = .ok
      [("mlp_dim".toList, .num 10), ("dropout_rate".toList, .num 11),
       ("deterministic".toList, .num 1), ("dtype".toList, .num 32),
       ("name".toList, .str "Mlp".toList)] := by
  refine ⟨⟨by decide, by decide⟩, by decide, by decide⟩

-- Encoder blocks: the ensemble encoder drops `attention_qk_norm`.
example :
    let cls : Cls ExVal := { id := 3, fields := [("mlp_block".toList, none), ("num_heads".toList, none),
      ("dtype".toList, some .none_), ("dropout_rate".toList, some (.num 0)),
      ("attention_dropout_rate".toList, some (.num 0)), ("attention_qk_norm".toList, some (.num 0)),
      ("deterministic".toList, some (.num 0))] }
    let o : BlockOptions ExVal := ⟨.num 8, .num 2, .num 3, .num 1, .num 1, .num 32⟩
    cls.Wf ∧
    (encoderBlock exEnv cls o (.num 0) (.num 9)).map (fun a => get? a "attention_qk_norm".toList) =
      .ok (some (.num 1)) ∧
    (encoderBlockEnsemble exEnv cls o (.num 0) (.num 9)).map
      (fun a => get? a "attention_qk_norm".toList) = .ok (some (.num 0)) := by
  refine ⟨⟨by decide, by decide⟩, by decide, by decide⟩

-- A plain dictionary as model configuration works once.
example :
    let env : Env ExVal := { exEnv with parse := fun _ => .ok ⟨exMlp, [.num 7], []⟩ }
    let r := createFlaxModel env false [("name".toList, .str "m".toList), ("dtype".toList, .num 16)]
      (.num 1)
    r.1.map Prod.snd = .ok [("mlp_dim".toList, .num 7), ("dropout_rate".toList, .num 0),
      ("deterministic".toList, .num 1), ("dtype".toList, .num 16), ("name".toList, .none_)] ∧
    r.2 = [("dtype".toList, .num 16)] := by
  refine ⟨by decide, by decide⟩

-- A tower: the option `mlp_dim` wins over the call string.
example :
    let env : Env ExVal := { exEnv with parse := fun _ => .ok ⟨exMlp, [],
      [("mlp_dim".toList, .num 7), ("name".toList, .num 0)]⟩ }
    (createTower env "ViT".toList "img".toList [("mlp_dim".toList, .num 8)] (.num 1)).map Prod.snd =
      .ok [("mlp_dim".toList, .num 8), ("dropout_rate".toList, .num 0),
        ("deterministic".toList, .num 1), ("dtype".toList, .none_),
        ("name".toList, .str "img".toList)] := by decide

end Verif.Config
