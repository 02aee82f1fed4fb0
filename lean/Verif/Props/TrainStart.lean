import Verif.Model.TrainStart
import Verif.Props.Mapping
import Verif.Props.TrainState
import Verif.Proofs.InitVmoe

/-! C98: where the train state of a run comes from (vmoe/train/trainer.py:371-438,500-536). -/

namespace Verif.TrainStart

open Verif FlatDict TreeSpec MappingSpec MeshSpec

variable {D α V W : Type}

mutual
theorem mapLeaves_eq (f : V → W) (p : List Key) (t : FlatDict.Tree V) : mapLeaves f t = Partitioning.mapTree (fun _ => f) p t := by
  match t with
  | .leaf v => simp [mapLeaves, Partitioning.mapTree]
  | .node l => rw [mapLeaves, Partitioning.mapTree, mapItems_eq f p l]
theorem mapItems_eq (f : V → W) (p : List Key) (l : List (Key × FlatDict.Tree V)) :
    mapItems f l = Partitioning.mapItems (fun _ => f) p l := by
  match l with
  | [] => simp [mapItems, Partitioning.mapItems]
  | (k, t) :: l => rw [mapItems, Partitioning.mapItems, mapLeaves_eq f (p ++ [k]) t, mapItems_eq f p l]
end

theorem leafOf_mapItems (f : V → W) (l : List (Key × FlatDict.Tree V)) (p : List Key) :
    leafOf (mapItems f l) p = (leafOf l p).map f := by
  rw [mapItems_eq f []]
  exact InitVmoe.leafOf_map f l p

theorem itemsOk_mapItems (f : V → W) (l : List (Key × FlatDict.Tree V)) (h : ItemsOk l) : ItemsOk (mapItems f l) := by
  rw [mapItems_eq f []]
  exact Partitioning.mapItems_ok _ _ _ h

mutual
theorem mapLeavesM_ok (f : V → Except PyErr W) (t : FlatDict.Tree V) (r : FlatDict.Tree W) (h : mapLeavesM f t = .ok r) :
    ∀ path, (∀ v, leafAt path t = some v → ∃ w, f v = .ok w ∧ leafAt path r = some w) ∧
      (leafAt path t = none → leafAt path r = none) := by
  match t with
  | .leaf v =>
    rw [mapLeavesM] at h
    cases hf : f v with
    | error e => rw [hf] at h; cases h
    | ok w =>
      rw [hf] at h
      cases h
      intro path
      cases path with
      | nil =>
        refine ⟨?_, ?_⟩
        · intro v' hv
          cases hv
          exact ⟨w, hf, rfl⟩
        · intro h
          cases h
      | cons k ks =>
        refine ⟨?_, fun _ => rfl⟩
        intro v' hv
        simp [leafAt] at hv
  | .node l =>
    rw [mapLeavesM] at h
    cases hl : mapItemsM f l with
    | error e => rw [hl] at h; cases h
    | ok m =>
      rw [hl] at h
      cases h
      intro path
      cases path with
      | nil => exact ⟨fun v' hv => by simp [leafAt] at hv, fun _ => by simp [leafAt]⟩
      | cons k ks =>
        have := mapItemsM_ok f l m hl k ks
        simpa [leafAt] using this
theorem mapItemsM_ok (f : V → Except PyErr W) (l : List (Key × FlatDict.Tree V)) (r : List (Key × FlatDict.Tree W))
    (h : mapItemsM f l = .ok r) (k : Key) (ks : List Key) :
    (∀ v, leafAt (k :: ks) (.node l) = some v → ∃ w, f v = .ok w ∧ leafAt (k :: ks) (.node r) = some w) ∧
      (leafAt (k :: ks) (.node l) = none → leafAt (k :: ks) (.node r) = none) := by
  match l with
  | [] =>
    rw [mapItemsM] at h
    cases h
    exact ⟨fun v hv => by simp [leafAt, lookup] at hv, fun _ => by simp [leafAt, lookup]⟩
  | (k', t) :: l =>
    rw [mapItemsM] at h
    cases ht : mapLeavesM f t with
    | error e => rw [ht] at h; cases h
    | ok t' =>
      rw [ht] at h
      cases hl : mapItemsM f l with
      | error e =>
        simp only [hl] at h
        cases h
      | ok l' =>
        simp only [hl] at h
        cases h
        have h1 := mapLeavesM_ok f t t' ht ks
        have h2 := mapItemsM_ok f l l' hl k ks
        simp only [leafAt, lookup] at h2 ⊢
        by_cases hk : k' = k
        · simp only [hk, if_true]
          exact h1
        · simp only [hk, if_false]
          exact h2
end

/-- C98: once there is a checkpoint, a run continues from the latest one, whatever the configured initialization, which is not
even read. -/
theorem C98_restart [DecidableEq D] (mgr : Manager D α) (step : Nat) (state : Partial D α) (seen : Int)
    (hl : mgr.latest = some step) (hr : mgr.restore step = .ok (state, seen)) (env : Mapping.Env D α) (np : Numpy D α)
    (reader : Reader D α V) (str : V → Option Key) (fresh : Arrays D α) (kwargs : Option (PyDict Key V)) :
    restoreOrCreate mgr env np reader str fresh kwargs = .ok (state, some seen) := by
  simp only [restoreOrCreate, hl, hr]
  rfl

/-- C98: without checkpoint and initialization, the state is the new one. -/
theorem C98_scratch [DecidableEq D] (mgr : Manager D α) (hl : mgr.latest = none) (env : Mapping.Env D α) (np : Numpy D α)
    (reader : Reader D α V) (str : V → Option Key) (fresh : Arrays D α) (hf : ItemsOk fresh) (kwargs : Option (PyDict Key V))
    (hk : kwargs = none ∨ kwargs = some []) :
    ∃ state, restoreOrCreate mgr env np reader str fresh kwargs = .ok (state, none) ∧
      ∀ p, leafOf state p = (leafOf fresh p).map fun x => .array x () := by
  have hg : given kwargs = none := by rcases hk with rfl | rfl <;> rfl
  have hleaf : ∀ p, leafOf (mapItems toLeaf (mapItems shapeOf fresh)) p = (leafOf fresh p).map fun _ => .struct () := by
    intro p
    rw [leafOf_mapItems, leafOf_mapItems]
    cases leafOf fresh p <;> rfl
  obtain ⟨r, h1, _, _, h4, h5⟩ := Trainer.C52_reuse (mapItems toLeaf (mapItems shapeOf fresh)) fresh
    (itemsOk_mapItems _ _ (itemsOk_mapItems _ _ hf)) hf (by
      intro path s h
      rw [hleaf] at h
      cases hx : leafOf fresh path with
      | none => rw [hx] at h; cases h
      | some x => exact ⟨x, rfl⟩)
  refine ⟨r, ?_, ?_⟩
  · simp only [restoreOrCreate, hl, partialState, hg]
    change (Trainer.createOrReuse _ _ >>= _ : Except PyErr _) = _
    rw [h1]
    rfl
  · intro p
    cases hx : leafOf fresh p with
    | none =>
      rw [h5 p (by rw [hleaf, hx]; rfl)]
      rfl
    | some x =>
      obtain ⟨v, hv, hr⟩ := h4 p () (by rw [hleaf, hx]; rfl)
      rw [hx] at hv
      cases hv
      exact hr

theorem applyTx_concrete [DecidableEq D] (env : Mapping.Env D α) (flags : Mapping.Flags) (tx : Mapping.Tx D α) (v : Mapping.Arr D α)
    (hs : ∀ s x t, tx = .single s x t → x.abstract = false) (h : Mapping.applyTx env flags tx = .ok v) : v.abstract = false := by
  have hast : ∀ (d : D) (x : Mapping.Arr D α), x.abstract = false → (Mapping.astype env d x).abstract = false := by
    intro d x hx
    unfold Mapping.astype
    split
    · exact hx
    · rfl
  have hmap : ∀ (e : Except PyErr (NdArray α)) (d : D) (y : Mapping.Arr D α),
      e.map (fun z => (⟨d, z, false⟩ : Mapping.Arr D α)) = .ok y → y.abstract = false := by
    intro e d y hy
    cases e with
    | error e => cases hy
    | ok z => cases hy; rfl
  have hcall : ∀ y, tx.call env = .ok y → y.abstract = false := by
    intro y hy
    match tx, hs with
    | .single .copy x t, hs =>
      cases hy
      exact hs _ _ _ rfl
    | .single (.expandTile axes reps) x t, _ => exact hmap _ _ _ hy
    | .single (.reshape shape) x t, _ => exact hmap _ _ _ hy
    | .single (.squeeze axis) x t, _ => exact hmap _ _ _ hy
    | .single .zoom x t, _ => exact hmap _ _ _ hy
    | .single .vitZoom x t, _ =>
      simp only [Mapping.Tx.call] at hy
      obtain ⟨z, _, hy⟩ := ebind hy
      obtain ⟨⟨b1, n1⟩, _, hy⟩ := ebind hy
      obtain ⟨⟨b2, n2⟩, _, hy⟩ := ebind hy
      cases hy
      simp only
      split
      · exact hast _ _ rfl
      · rfl
    | .stack axis [] t, _ => cases hy
    | .stack axis (x :: xs) t, _ => exact hmap _ _ _ hy
  unfold Mapping.applyTx at h
  obtain ⟨y, hy, h⟩ := ebind h
  have hyc := hcall y hy
  have hyc' := hast tx.target.dtype y hyc
  by_cases h1 : y.dtype ≠ tx.target.dtype ∧ flags.raiseDtype = true
  · rw [if_pos h1] at h
    cases h
  rw [if_neg h1] at h
  by_cases h2 : (Mapping.astype env tx.target.dtype y).value.shape = tx.target.value.shape
  · change (if (Mapping.astype env tx.target.dtype y).value.shape = tx.target.value.shape then _ else _ : Except PyErr _) = _ at h
    rw [if_pos h2] at h
    cases h
    exact hyc'
  · change (if (Mapping.astype env tx.target.dtype y).value.shape = tx.target.value.shape then _ else _ : Except PyErr _) = _ at h
    rw [if_neg h2] at h
    split at h
    · cases h
    · obtain ⟨z, _, h⟩ := ebind h
      cases h
      rfl

/-- C98: without checkpoint but with an initialization, the configured method is called.  The result has the structure of the new
state.  Every array of it for which the rules use no array of the checkpoint (the optimizer state, the step, a new head) has its
new value, and each other array is what the rule makes of the arrays of the checkpoint that it is used for. -/
theorem C98_finetune [DecidableEq D] (mgr : Manager D α) (hl : mgr.latest = none) (env : Mapping.Env D α) (np : Numpy D α)
    (reader : Reader D α V) (str : V → Option Key) (fresh : Arrays D α) (hf : ItemsOk fresh) (kwargs : PyDict Key V)
    (hk : kwargs ≠ []) (state : Partial D α) (seen : Option Int)
    (hconcrete : ∀ method kw target ckpt, source np reader method kw target = .ok ckpt →
      ∀ k x, PyDict.get? (flatten ckpt) k = some (.leaf x) → x.abstract = false)
    (h : restoreOrCreate mgr env np reader str fresh (some kwargs) = .ok (state, seen)) :
    seen = none ∧ ∃ name value method rules flags ckpt, PyDict.get? kwargs "name".toList = some value ∧ str value = some name ∧
      methodOf name = .ok method ∧
      reader.options (kwargs.filter fun kv => kv.1 ≠ "name".toList) = .ok (rules, flags) ∧
      source np reader method (kwargs.filter fun kv => kv.1 ≠ "name".toList) (mapItems shapeOf fresh) = .ok ckpt ∧
      (∀ p, leafOf fresh p = none → leafOf state p = none) ∧
      ∀ p x, leafOf fresh p = some x → ∃ v, leafOf state p = some (.array v ()) ∧
        (((∀ k ∈ PyDict.keys (flatten ckpt), ∀ a, ¬ GoesTo rules k (join p) a) ∧ v = x) ∨
         (∃ k a s y, k ∈ PyDict.keys (flatten ckpt) ∧ GoesTo rules k (join p) a ∧
            (∀ k' ∈ PyDict.keys (flatten ckpt), ∀ a', GoesTo rules k' (join p) a' → k' = k) ∧
            a.kind = .single s ∧ PyDict.get? (flatten ckpt) k = some (.leaf y) ∧
            Mapping.applyTx env flags (.single s y (shapeOf x)) = .ok v) ∨
         (∃ k ks a axis xs, (∀ k', k' ∈ k :: ks ↔ k' ∈ PyDict.keys (flatten ckpt) ∧ ∃ a', GoesTo rules k' (join p) a') ∧
            (k :: ks).Sublist (NaturalSort.naturalSort env.float (PyDict.keys (flatten ckpt))) ∧
            GoesTo rules k (join p) a ∧ a.kind = .stack axis ∧
            List.Forall₂ (fun k' x => PyDict.get? (flatten ckpt) k' = some (.leaf x)) (k :: ks) xs ∧
            Mapping.applyTx env flags (.stack axis xs (shapeOf x)) = .ok v)) := by
  obtain ⟨kv, kws, rfl⟩ : ∃ kv kws, kwargs = kv :: kws := List.exists_cons_of_ne_nil hk
  generalize hkw : kv :: kws = kw at *
  have hg : given (some kw) = some kw := by rw [← hkw]; rfl
  simp only [restoreOrCreate, hl, partialState, hg] at h
  obtain ⟨l, hl1, h⟩ := ebind h
  obtain ⟨r, hr, h⟩ := ebind h
  cases h
  refine ⟨rfl, ?_⟩
  obtain ⟨tree, ht, hl1⟩ := ebind hl1
  unfold initializeTrainState at ht
  split at ht
  · cases ht
  split at ht
  · cases ht
  rename_i value hv
  split at ht
  · cases ht
  rename_i name hn
  obtain ⟨method, hm, ht⟩ := ebind ht
  split at ht
  · cases ht
  change initializeFrom _ _ _ _ _ _ = _ at ht
  unfold initializeFrom at ht
  obtain ⟨⟨rules, flags⟩, ho, ht⟩ := ebind ht
  obtain ⟨ckpt, hc, ht⟩ := ebind ht
  have htok : ItemsOk (mapItems shapeOf fresh) := itemsOk_mapItems _ _ hf
  obtain ⟨txs, _, _, htree⟩ := Mapping.mapStateDict_spec env rules flags ckpt _ htok tree ht
  obtain ⟨l', hl', _, hass⟩ := Mapping.C54_assignment env rules flags ckpt _ htok tree ht
  rw [htree] at hl'
  simp only [FlatDict.Tree.node.injEq] at hl'
  rw [htree] at hl1
  simp only [items, Except.ok.injEq] at hl1
  rw [hl1] at hl'
  subst hl'
  have hnone : ∀ p, leafOf fresh p = none → leafOf l p = none := by
    intro p hp
    rw [← hl1, Optimizer.leafOf_map, leafOf_mapItems, hp]
    rfl
  have hlok : ItemsOk l := by
    rw [← hl1]
    exact Partitioning.mapItems_ok _ _ _ htok
  obtain ⟨r', h1, _, h3, h4, h5⟩ := Trainer.C52_reuse (mapItems toLeaf l) fresh (itemsOk_mapItems _ _ hlok) hf (by
    intro p s hp
    cases hx : leafOf fresh p with
    | none =>
      rw [leafOf_mapItems, hnone p hx] at hp
      cases hp
    | some x => exact ⟨x, rfl⟩)
  rw [hr] at h1
  cases h1
  refine ⟨name, value, method, rules, flags, ckpt, hv, hn, hm, ho, hc, ?_, ?_⟩
  · intro p hp
    apply h5
    rw [leafOf_mapItems, hnone p hp]
    rfl
  · intro p x hx
    have hxs : leafOf (mapItems shapeOf fresh) p = some (shapeOf x) := by rw [leafOf_mapItems, hx]; rfl
    obtain ⟨v, hvl, hcase⟩ := hass p (shapeOf x) hxs
    have hlift : v.abstract = false → leafOf state p = some (.array v ()) := by
      intro ha
      apply h3 p v ()
      rw [leafOf_mapItems, hvl]
      simp [toLeaf, ha]
    rcases hcase with ⟨hno, rfl⟩ | ⟨k, a, s, y, hk1, hk2, hk3, hk4, hk5, hk6⟩ | ⟨k, ks, a, axis, xs, hk1, hk2, hk3, hk4, hk5, hk6, hk7⟩
    · obtain ⟨w, hw, hs⟩ := h4 p () (by rw [leafOf_mapItems, hvl]; simp [toLeaf, shapeOf])
      rw [hx] at hw
      cases hw
      exact ⟨x, hs, .inl ⟨hno, rfl⟩⟩
    · refine ⟨v, hlift ?_, .inr (.inl ⟨k, a, s, y, hk1, hk2, hk3, hk4, hk5, hk6⟩)⟩
      refine applyTx_concrete env flags _ v ?_ hk6
      intro s' x' t' he
      cases he
      exact hconcrete _ _ _ _ hc k y hk5
    · refine ⟨v, hlift ?_, .inr (.inr ⟨k, ks, a, axis, xs, hk1, hk2, hk4, hk5, hk6, hk7⟩)⟩
      refine applyTx_concrete env flags _ v ?_ hk7
      intro s' x' t' he
      cases he

/-- C98: if the mapping succeeds, so does the creation of the state; and an error of it is not hidden. -/
theorem C98_finetune_ok [DecidableEq D] (mgr : Manager D α) (hl : mgr.latest = none) (env : Mapping.Env D α) (np : Numpy D α)
    (reader : Reader D α V) (str : V → Option Key) (fresh : Arrays D α) (hf : ItemsOk fresh) (kwargs : PyDict Key V)
    (hk : kwargs ≠ []) :
    (∀ e, initializeTrainState env np reader str (mapItems shapeOf fresh) kwargs = .error e →
      restoreOrCreate mgr env np reader str fresh (some kwargs) = .error e) ∧
    (∀ r, initializeTrainState env np reader str (mapItems shapeOf fresh) kwargs = .ok r →
      ∃ state, restoreOrCreate mgr env np reader str fresh (some kwargs) = .ok (state, none)) := by
  obtain ⟨kv, kws, rfl⟩ : ∃ kv kws, kwargs = kv :: kws := List.exists_cons_of_ne_nil hk
  have hg : given (some (kv :: kws)) = some (kv :: kws) := rfl
  generalize kv :: kws = kw at *
  constructor
  · intro e he
    simp only [restoreOrCreate, hl, partialState, hg, he]
    rfl
  · intro tree ht
    simp only [restoreOrCreate, hl, partialState, hg, ht]
    have ht' := ht
    unfold initializeTrainState at ht
    split at ht
    · cases ht
    split at ht
    · cases ht
    split at ht
    · cases ht
    obtain ⟨method, hm, ht⟩ := ebind ht
    split at ht
    · cases ht
    change initializeFrom _ _ _ _ _ _ = _ at ht
    unfold initializeFrom at ht
    obtain ⟨⟨rules, flags⟩, ho, ht⟩ := ebind ht
    obtain ⟨ckpt, hc, ht⟩ := ebind ht
    have htok : ItemsOk (mapItems shapeOf fresh) := itemsOk_mapItems _ _ hf
    obtain ⟨txs, _, _, htree⟩ := Mapping.mapStateDict_spec env rules flags ckpt _ htok tree ht
    subst htree
    obtain ⟨r', h1, _⟩ := Trainer.C52_reuse (mapItems toLeaf (Partitioning.mapItems (Mapping.newValue env flags txs) [] (mapItems shapeOf fresh)))
      fresh (itemsOk_mapItems _ _ (Partitioning.mapItems_ok _ _ _ htok)) hf (by
        intro p s hp
        cases hx : leafOf fresh p with
        | none =>
          rw [leafOf_mapItems, Optimizer.leafOf_map, leafOf_mapItems, hx] at hp
          cases hp
        | some x => exact ⟨x, rfl⟩)
    refine ⟨r', ?_⟩
    change (Trainer.createOrReuse _ _ >>= _ : Except PyErr _) = _
    rw [h1]
    rfl

/-- C98: an initialization without a name is a `TypeError`, one with an unknown name a `ValueError`. -/
theorem C98_names [DecidableEq D] (env : Mapping.Env D α) (np : Numpy D α) (reader : Reader D α V) (str : V → Option Key)
    (target : Arrays D α) (kwargs : PyDict Key V)
    (hown : ∀ k ∈ PyDict.keys kwargs, k ∉ ["train_state".toList, "mesh".toList, "thread_pool".toList]) :
    ("name".toList ∉ PyDict.keys kwargs → initializeTrainState env np reader str target kwargs = .error .typeError) ∧
    ∀ v name, PyDict.get? kwargs "name".toList = some v → str v = some name →
      name ∉ ["initialize_from_vmoe".toList, "initialize_from_vit".toList, "initialize_from_orbax".toList] →
      initializeTrainState env np reader str target kwargs = .error .valueError := by
  have hn : ¬ (ownArgs.any fun k => decide (k ∈ PyDict.keys kwargs)) = true := by
    intro h
    obtain ⟨k, h1, h2⟩ := List.any_eq_true.1 h
    exact hown k (of_decide_eq_true h2) h1
  constructor
  · intro h
    rw [initializeTrainState, if_neg hn, (PyDict.get?_eq_none _ _).2 h]
  · intro v name hv hs hname
    simp only [List.mem_cons, List.not_mem_nil, or_false, not_or] at hname
    rw [initializeTrainState, if_neg hn, hv]
    simp only [hs]
    rw [methodOf, if_neg hname.1, if_neg hname.2.1, if_neg hname.2.2]
    rfl

/-- C98: arrays of a ViT checkpoint that NumPy read as two raw bytes are used as bfloat16, those with another type as they are, and
a raw type of another size is an error: no array of a void type is used for the model. -/
theorem C98_vit (np : Numpy D α) (reader : Reader D α V) (kwargs : PyDict Key V) (target ckpt used : Arrays D α)
    (hbf : np.voidSize np.bfloat16 = none) (hr : reader.read .vit kwargs target = .ok ckpt)
    (hu : source np reader .vit kwargs target = .ok used) :
    (∀ p, leafOf ckpt p = none → leafOf used p = none) ∧
    ∀ p x, leafOf ckpt p = some x → ∃ y, leafOf used p = some y ∧ np.voidSize y.dtype = none ∧ y.value.shape = x.value.shape ∧
      (np.voidSize x.dtype = none → y = x) ∧
      (np.voidSize x.dtype ≠ none → np.voidSize x.dtype = some 2 ∧ y.dtype = np.bfloat16 ∧
        ∀ idx, y.value.get idx = np.view (x.value.get idx)) := by
  unfold source at hu
  rw [hr] at hu
  change mapItemsM (fixDtype np) ckpt = .ok used at hu
  have htree : mapLeavesM (fixDtype np) (.node ckpt) = .ok (.node used) := by
    rw [mapLeavesM, hu]
    rfl
  have h := mapLeavesM_ok _ _ _ htree
  refine ⟨fun p hp => (h p).2 hp, ?_⟩
  intro p x hx
  obtain ⟨y, hy, hl⟩ := (h p).1 x hx
  refine ⟨y, hl, ?_⟩
  unfold fixDtype at hy
  cases hv : np.voidSize x.dtype with
  | none =>
    rw [hv] at hy
    cases hy
    exact ⟨hv, rfl, fun _ => rfl, fun hne => absurd rfl hne⟩
  | some size =>
    rw [hv] at hy
    simp only at hy
    split at hy
    · rename_i hs
      cases hy
      refine ⟨hbf, rfl, (fun h => by cases h), fun _ => ⟨by rw [hs], rfl, fun _ => rfl⟩⟩
    · cases hy

/-- A run of fine-tuning: the head is new, the body is copied from the checkpoint (types are numbers, shapes empty). -/
def exEnv : Mapping.Env Nat Nat := ⟨fun a _ => a, fun _ x => x, fun n => n, fun x _ => x, fun _ => ⟨[], fun _ => 0⟩, fun q => q⟩

def exFresh : Arrays Nat Nat := [("body".toList, .leaf ⟨0, ⟨[], fun _ => 1⟩, false⟩), ("head".toList, .leaf ⟨0, ⟨[], fun _ => 2⟩, false⟩)]

def exReader : Reader Nat Nat Key :=
  ⟨fun _ _ _ => .ok [("body".toList, .leaf ⟨0, ⟨[], fun _ => 7⟩, false⟩)], fun _ => .ok ([], { raiseSource := false, raiseTarget := false })⟩

def exCkpt : Arrays Nat Nat := [("body".toList, .leaf ⟨0, ⟨[], fun _ => 7⟩, false⟩)]

theorem exMapped : Mapping.mapStateDict exEnv [] { raiseSource := false, raiseTarget := false } exCkpt (mapItems shapeOf exFresh) =
    .ok (.node [("body".toList, .leaf ⟨0, ⟨[], fun _ => 7⟩, false⟩), ("head".toList, .leaf ⟨0, ⟨[], fun _ => 2⟩, true⟩)]) := by
  have hn : ∀ fl, NaturalSort.naturalSort fl (PyDict.keys (flatten exCkpt)) = ["body".toList] := fun fl => List.mergeSort_singleton _
  have hb : Mapping.build exEnv [] { raiseSource := false, raiseTarget := false } (flatten exCkpt) (flatten (mapItems shapeOf exFresh)) =
      .ok [("body".toList, .single .copy ⟨0, ⟨[], fun _ => 7⟩, false⟩ ⟨0, ⟨[], fun _ => 1⟩, true⟩)] := by
    unfold Mapping.build
    rw [hn]
    rfl
  unfold Mapping.mapStateDict
  rw [hb]
  change (Mapping.apply _ _ _ _ >>= _ : Except PyErr _) = _
  unfold Mapping.apply
  rw [List.mergeSort_singleton]
  rfl

example : ∃ state, restoreOrCreate ⟨none, fun _ => .error .valueError⟩ exEnv ⟨fun _ => none, 0, id⟩ exReader some exFresh
    (some [("name".toList, "initialize_from_vmoe".toList)]) = .ok (state, none) ∧
    (∃ v, leafOf state ["body".toList] = some (.array v ()) ∧ v.value.get [] = 7) ∧
    ∃ v, leafOf state ["head".toList] = some (.array v ()) ∧ v.value.get [] = 2 := by
  have hi : initializeTrainState exEnv ⟨fun _ => none, 0, id⟩ exReader some (mapItems shapeOf exFresh)
      [("name".toList, "initialize_from_vmoe".toList)] = Mapping.mapStateDict exEnv [] { raiseSource := false, raiseTarget := false }
        exCkpt (mapItems shapeOf exFresh) := rfl
  rw [exMapped] at hi
  refine ⟨[("body".toList, .leaf (.array ⟨0, ⟨[], fun _ => 7⟩, false⟩ ())), ("head".toList, .leaf (.array ⟨0, ⟨[], fun _ => 2⟩, false⟩ ()))],
    ?_, ⟨_, rfl, rfl⟩, ⟨_, rfl, rfl⟩⟩
  unfold restoreOrCreate partialState
  simp only [given, hi]
  rfl

end Verif.TrainStart
