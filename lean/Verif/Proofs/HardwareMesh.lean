import Verif.Proofs.Partitioning

/-! Lemmas about the hardware mesh, the automatic partition shapes and the partitioning rules. -/

namespace Verif.Partitioning

open Verif NdArray MeshSpec

variable {α : Type}

theorem lexLt_irrefl (a : List Nat) : lexLt a a = false := by
  induction a with
  | nil => rfl
  | cons x a ih => simp [lexLt, ih]

/-- The last index of an array is the largest tuple. -/
theorem lexLt_top {shape c : List Nat} (h : Valid shape c) (hne : c ≠ shape.map (· - 1)) :
    lexLt c (shape.map (· - 1)) = true ∧ lexLt (shape.map (· - 1)) c = false := by
  induction h with
  | nil => exact absurd rfl hne
  | @cons i d is ds hid _ ih =>
    simp only [List.map_cons, lexLt]
    by_cases e : i = d - 1
    · subst e
      have := ih fun h => hne (by simp [h])
      simp [this]
    · have h1 : i < d - 1 := by omega
      have h2 : ¬ d - 1 < i := by omega
      have h3 : ¬ d - 1 = i := by omega
      simp [h1, h2, h3]

theorem foldl_top (top : List Nat) (cs : List (List Nat)) (m : List Nat)
    (hle : ∀ c ∈ m :: cs, c = top ∨ (lexLt c top = true ∧ lexLt top c = false)) (hmem : top ∈ m :: cs) :
    cs.foldl (fun m x => if lexLt m x then x else m) m = top := by
  induction cs generalizing m with
  | nil => simpa using (List.mem_singleton.1 hmem).symm
  | cons c cs ih =>
    rw [List.foldl_cons]
    apply ih
    · intro x hx
      rcases List.mem_cons.1 hx with rfl | hx
      · split
        · exact hle c (by simp)
        · exact hle m (by simp)
      · exact hle x (by simp [hx])
    · rcases List.mem_cons.1 hmem with rfl | h
      · rcases hle c (by simp) with rfl | ⟨_, h2⟩
        · simp
        · rw [h2]; simp
      · rcases List.mem_cons.1 h with rfl | h
        · rcases hle m (by simp) with rfl | ⟨h1, _⟩
          · simp
          · rw [h1]; simp
        · simp [h]

theorem fillMesh_spec (items : List (List Nat × α)) (mesh : NdArray (Option α))
    (hv : ∀ cd ∈ items, Valid mesh.shape cd.1) (hnd : (items.map Prod.fst).Nodup) :
    ∃ m, fillMesh mesh items = .ok m ∧ m.shape = mesh.shape ∧
      (∀ cd ∈ items, m.get cd.1 = some cd.2) ∧
      ∀ idx, idx ∉ items.map Prod.fst → m.get idx = mesh.get idx := by
  induction items generalizing mesh with
  | nil => exact ⟨mesh, rfl, rfl, by simp, by simp⟩
  | cons cd items ih =>
    obtain ⟨c, d⟩ := cd
    have hc := hv (c, d) (by simp)
    obtain ⟨h1, h2⟩ := valid_iff.1 hc
    simp only [List.map_cons, List.nodup_cons] at hnd
    obtain ⟨m, hm, hs, hg, ho⟩ := ih { mesh with get := fun idx => if idx = c then some d else mesh.get idx }
      (fun cd hcd => hv cd (by simp [hcd])) hnd.2
    refine ⟨m, ?_, hs, ?_, ?_⟩
    · rw [fillMesh, if_pos, hm]
      refine ⟨h1, ?_⟩
      rw [List.all_eq_true]
      intro a ha
      rw [List.mem_range, h1] at ha
      simpa using h2 a ha
    · intro cd hcd
      rcases List.mem_cons.1 hcd with rfl | hcd
      · rw [ho c hnd.1]
        simp
      · exact hg cd hcd
    · intro idx hidx
      simp only [List.map_cons, List.mem_cons, not_or] at hidx
      rw [ho idx hidx.2]
      simp [hidx.1]

/-- Devices whose coordinates fill a box give a mesh with every device at its coordinates. -/
theorem hardwareMesh_spec (coords : α → List Nat) (devices : List α) (shape : List Nat)
    (hpos : ∀ s ∈ shape, 0 < s) (hnd : (devices.map coords).Nodup)
    (hfull : ∀ c, c ∈ devices.map coords ↔ Valid shape c) :
    ∃ m, getHardwareMesh coords devices = .ok m ∧ m.shape = shape ∧
      ∀ d ∈ devices, m.get (coords d) = some d := by
  have htop : Valid shape (shape.map (· - 1)) := by
    clear hfull
    induction shape with
    | nil => exact .nil
    | cons s ss ih =>
      refine .cons ?_ (ih fun s hs => hpos s (by simp [hs]))
      have := hpos s (by simp)
      change s - 1 < s
      omega
  have hkeys : (devices.map fun d => (coords d, d)).map Prod.fst = devices.map coords := by
    rw [List.map_map]; rfl
  have hdict : PyDict.ofItems (devices.map fun d => (coords d, d)) = devices.map fun d => (coords d, d) := by
    apply PyDict.ofItems_of_nodup
    unfold PyDict.keys
    rw [hkeys]
    exact hnd
  have hlast : lastSorted (PyDict.keys (devices.map fun d => (coords d, d))) = .ok (shape.map (· - 1)) := by
    unfold PyDict.keys
    rw [hkeys]
    have hm : shape.map (· - 1) ∈ devices.map coords := (hfull _).2 htop
    have hle : ∀ c ∈ devices.map coords, c = shape.map (· - 1) ∨
        (lexLt c (shape.map (· - 1)) = true ∧ lexLt (shape.map (· - 1)) c = false) := by
      intro c hc
      by_cases e : c = shape.map (· - 1)
      · exact Or.inl e
      · exact Or.inr (lexLt_top ((hfull c).1 hc) e)
    generalize devices.map coords = cs at hm hle
    cases cs with
    | nil => simp at hm
    | cons c cs =>
      rw [lastSorted, foldl_top _ cs c hle hm]
  have hsh : (shape.map (· - 1)).map (· + 1) = shape := by
    rw [List.map_map]
    conv_rhs => rw [← List.map_id shape]
    apply List.map_congr_left
    intro s hs
    have := hpos s hs
    simp only [Function.comp, id]
    omega
  unfold getHardwareMesh
  simp only []
  rw [hdict, hlast]
  change ∃ m, fillMesh _ _ = _ ∧ _
  rw [hsh]
  obtain ⟨m, hm, hs, hg, _⟩ := fillMesh_spec (devices.map fun d => (coords d, d))
    { shape := shape, get := fun _ => none }
    (by
      intro cd hcd
      obtain ⟨d, hd, rfl⟩ := List.mem_map.1 hcd
      exact (hfull _).1 (List.mem_map.2 ⟨d, hd, rfl⟩))
    (by rw [hkeys]; exact hnd)
  exact ⟨m, hm, hs, fun d hd => hg (coords d, d) (List.mem_map.2 ⟨d, hd, rfl⟩)⟩

/-! Automatic partition shapes. -/

theorem autoOther_iff (n sd sh : Nat) (hn : 0 < n) (hsd : 0 < sd) (hsh : 0 < sh) (ps : List Nat) :
    autoPartitionsOther n [sd, sh] = .ok ps ↔
      ∃ d h, ps = [d, h] ∧ d = min n sd ∧ d * h = n ∧ d ∣ sd ∧ h ∣ sh := by
  have hd : min n sd ≠ 0 := by omega
  have hq : floorDiv n (min n sd) = .ok (n / min n sd) := by simp [floorDiv, hd]
  unfold autoPartitionsOther
  simp only []
  rw [hq]
  change (if _ then _ else _) = _ ↔ _
  set d := min n sd with hdef
  constructor
  · intro h
    split at h
    · cases h
    · rename_i hc
      push Not at hc
      injection h with h
      exact ⟨d, _, h.symm, rfl, hc.1, Nat.dvd_of_mod_eq_zero hc.2.1, Nat.dvd_of_mod_eq_zero hc.2.2⟩
  · rintro ⟨d', h, rfl, rfl, h1, h2, h3⟩
    have e : n / d = h := by
      rw [← h1]
      exact Nat.mul_div_cancel_left h (Nat.pos_of_ne_zero hd)
    have hle : h ≤ sh := Nat.le_of_dvd hsh h3
    rw [e, min_eq_left hle, if_neg]
    · rfl
    · push Not
      exact ⟨h1, Nat.mod_eq_zero_of_dvd h2, Nat.mod_eq_zero_of_dvd h3⟩

theorem autoOther_error (n sd sh : Nat) (hn : 0 < n) (hsd : 0 < sd) (e : PyErr)
    (h : autoPartitionsOther n [sd, sh] = .error e) : e = .valueError := by
  have hd : min n sd ≠ 0 := by omega
  have hq : floorDiv n (min n sd) = .ok (n / min n sd) := by simp [floorDiv, hd]
  unfold autoPartitionsOther at h
  simp only [] at h
  rw [hq] at h
  change (if _ then _ else _) = _ at h
  split at h
  · injection h with h
    exact h.symm
  · cases h

theorem floorDiv_ok {n d : Nat} (hd : d ≠ 0) : floorDiv n d = .ok (n / d) := by simp [floorDiv, hd]

/-- What `get_auto_logical_mesh_tpu` chooses. -/
theorem autoTpu_eq (n sc sx sy sz : Nat) (hn : 0 < n) (hx : 0 < sx) (hy : 0 < sy) (hz : 0 < sz) :
    autoPartitionsTpu n [sc, sx, sy, sz] =
      let z := if sz = 1 then 1 else min n sz
      let y := if sz = 1 then min (n / min n sx) sy else min (n / min n sz) sy
      let x := if sz = 1 then min n sx else min (n / (z * y)) sx
      let c := min (n / (z * y * x)) sc
      if c * x * y * z ≠ n ∨ sc % c ≠ 0 ∨ sx % x ≠ 0 ∨ sy % y ≠ 0 ∨ sz % z ≠ 0 then .error .valueError
      else .ok [c, x, y, z] := by
  unfold autoPartitionsTpu
  simp only []
  by_cases h1 : sz = 1
  · simp only [h1, if_true]
    have hx0 : min n sx ≠ 0 := by omega
    have hq : n / min n sx ≠ 0 := by
      have : 0 < n / min n sx := Nat.div_pos (min_le_left _ _) (Nat.pos_of_ne_zero hx0)
      omega
    have hy0 : min (n / min n sx) sy ≠ 0 := by omega
    rw [floorDiv_ok hx0]
    change (floorDiv n (min n sx * min (n / min n sx) sy) >>= _) = _
    rw [floorDiv_ok (Nat.mul_ne_zero hx0 hy0)]
    change (if _ then _ else _) = _
    have e : 1 * min (n / min n sx) sy * min n sx = min n sx * min (n / min n sx) sy := by ring
    rw [e]
    rfl
  · simp only [if_neg h1]
    have hz0 : min n sz ≠ 0 := by omega
    have hq : 0 < n / min n sz := Nat.div_pos (min_le_left _ _) (Nat.pos_of_ne_zero hz0)
    have hy0 : min (n / min n sz) sy ≠ 0 := by omega
    have hzy : min n sz * min (n / min n sz) sy ≤ n :=
      le_trans (Nat.mul_le_mul_left _ (min_le_left _ _)) (Nat.mul_div_le _ _)
    have hq2 : 0 < n / (min n sz * min (n / min n sz) sy) :=
      Nat.div_pos hzy (Nat.pos_of_ne_zero (Nat.mul_ne_zero hz0 hy0))
    have hx0 : min (n / (min n sz * min (n / min n sz) sy)) sx ≠ 0 := by omega
    rw [floorDiv_ok hz0]
    change (floorDiv n (min n sz * min (n / min n sz) sy) >>= _) = _
    rw [floorDiv_ok (Nat.mul_ne_zero hz0 hy0)]
    change (floorDiv n (min n sz * min (n / min n sz) sy * min (n / (min n sz * min (n / min n sz) sy)) sx) >>= _) = _
    rw [floorDiv_ok (Nat.mul_ne_zero (Nat.mul_ne_zero hz0 hy0) hx0)]
    rfl

theorem autoTpu_spec (n sc sx sy sz : Nat) (hn : 0 < n) (hx : 0 < sx) (hy : 0 < sy) (hz : 0 < sz) :
    ∃ c x y z, (sz = 1 → z = 1 ∧ x = min n sx ∧ y = min (n / x) sy) ∧
      (sz ≠ 1 → z = min n sz ∧ y = min (n / z) sy ∧ x = min (n / (z * y)) sx) ∧ c = min (n / (z * y * x)) sc ∧
      autoPartitionsTpu n [sc, sx, sy, sz] =
        if c * x * y * z ≠ n ∨ sc % c ≠ 0 ∨ sx % x ≠ 0 ∨ sy % y ≠ 0 ∨ sz % z ≠ 0 then .error .valueError
        else .ok [c, x, y, z] := by
  refine ⟨_, _, _, _, ?_, ?_, rfl, autoTpu_eq n sc sx sy sz hn hx hy hz⟩
  · intro h
    simp only [h, if_true]
    exact ⟨trivial, trivial, trivial⟩
  · intro h
    simp only [if_neg h]
    exact ⟨trivial, trivial, trivial⟩

/-! Partition rules. -/

theorem searchRules_spec {R : Type} (search : R → List Char → Bool) (key : List Char) (size : Nat)
    (rules : List (R × List SpecElem)) :
    (∃ pre r post, rules = pre ++ r :: post ∧ search r.1 key = true ∧ 1 < size ∧ (∀ q ∈ pre, search q.1 key = false) ∧
      searchRules search key size rules = r.2) ∨
    ((size ≤ 1 ∨ ∀ r ∈ rules, search r.1 key = false) ∧ searchRules search key size rules = []) := by
  induction rules with
  | nil => exact Or.inr ⟨Or.inr (by simp), rfl⟩
  | cons rs rules ih =>
    obtain ⟨r, s⟩ := rs
    rw [searchRules]
    by_cases hs : size > 1
    · by_cases hr : search r key = true
      · left
        exact ⟨[], (r, s), rules, rfl, hr, hs, by simp, by simp [hr, hs]⟩
      · have hr : search r key = false := by simpa using hr
        simp only [hr, Bool.false_and, Bool.false_eq_true, if_false]
        rcases ih with ⟨pre, r', post, e, h1, h2, h3, h4⟩ | ⟨h1, h2⟩
        · left
          refine ⟨(r, s) :: pre, r', post, by simp [e], h1, h2, ?_, h4⟩
          intro q hq
          rcases List.mem_cons.1 hq with rfl | hq
          · exact hr
          · exact h3 q hq
        · right
          refine ⟨?_, h2⟩
          rcases h1 with h1 | h1
          · omega
          · right
            intro q hq
            rcases List.mem_cons.1 hq with rfl | hq
            · exact hr
            · exact h1 q hq
    · right
      have : searchRules search key size rules = [] := by
        rcases ih with ⟨_, _, _, _, _, h2, _⟩ | ⟨_, h2⟩
        · omega
        · exact h2
      exact ⟨Or.inl (by omega), by simp [hs, this]⟩

open FlatDict

mutual
/-- Applies a function of path and leaf to every leaf. -/
def mapTree {V W : Type} (f : List Key → V → W) : List Key → Tree V → Tree W
  | p, .leaf v => .leaf (f p v)
  | p, .node l => .node (mapItems f p l)
/-- The same for items. -/
def mapItems {V W : Type} (f : List Key → V → W) : List Key → List (Key × Tree V) → List (Key × Tree W)
  | _, [] => []
  | p, (k, t) :: l => (k, mapTree f (p ++ [k]) t) :: mapItems f p l
end

/-- The function on flat values. -/
def mapFlat {V W : Type} (f : List Key → V → W) (p : List Key) : Flat V → Flat W
  | .leaf v => .leaf (f p v)
  | .empty => .empty

mutual
theorem flattenAt_map {V W : Type} (f : List Key → V → W) (p : List Key) (t : Tree V) :
    flattenAt p (mapTree f p t) = (flattenAt p t).map fun pv => (pv.1, mapFlat f pv.1 pv.2) := by
  match t with
  | .leaf v => simp [mapTree, flattenAt, mapFlat]
  | .node [] => simp [mapTree, mapItems, flattenAt, mapFlat]
  | .node ((k, t) :: l) =>
    have := flattenItems_map f p ((k, t) :: l)
    rw [mapTree, flattenAt, ← this, mapItems, flattenAt]
theorem flattenItems_map {V W : Type} (f : List Key → V → W) (p : List Key) (l : List (Key × Tree V)) :
    flattenItems p (mapItems f p l) = (flattenItems p l).map fun pv => (pv.1, mapFlat f pv.1 pv.2) := by
  match l with
  | [] => simp [mapItems, flattenItems]
  | (k, t) :: l =>
    rw [mapItems, flattenItems, flattenItems, flattenAt_map f (p ++ [k]) t, flattenItems_map f p l, List.map_append]
end

theorem mapItems_keys {V W : Type} (f : List Key → V → W) (p : List Key) (l : List (Key × Tree V)) :
    PyDict.keys (mapItems f p l) = PyDict.keys l := by
  induction l with
  | nil => simp [mapItems, PyDict.keys]
  | cons kt l ih =>
    obtain ⟨k, t⟩ := kt
    simp only [mapItems, PyDict.keys, List.map_cons] at ih ⊢
    rw [ih]

mutual
theorem mapTree_ok {V W : Type} (f : List Key → V → W) (p : List Key) (t : Tree V) (h : t.Ok) :
    (mapTree f p t).Ok := by
  match t with
  | .leaf v => simp [mapTree, Tree.Ok]
  | .node l =>
    rw [mapTree, Tree.Ok]
    exact mapItems_ok f p l (by simpa [Tree.Ok] using h)
theorem mapItems_ok {V W : Type} (f : List Key → V → W) (p : List Key) (l : List (Key × Tree V)) (h : ItemsOk l) :
    ItemsOk (mapItems f p l) := by
  match l with
  | [] => simp [mapItems, ItemsOk]
  | (k, t) :: l =>
    rw [ItemsOk] at h
    obtain ⟨h1, h2, h3, h4⟩ := h
    rw [mapItems, ItemsOk]
    exact ⟨h1, by rw [mapItems_keys]; exact h2, mapTree_ok f _ t h3, mapItems_ok f p l h4⟩
end

mutual
theorem mapTree_rel {V W : Type} (f : List Key → V → W) (R : List Key → V → W → Prop) (hR : ∀ p v, R p v (f p v))
    (p : List Key) (t : Tree V) : TreeRel R p t (mapTree f p t) := by
  match t with
  | .leaf v => rw [mapTree, TreeRel]; exact hR p v
  | .node l => rw [mapTree, TreeRel]; exact mapItems_rel f R hR p l
theorem mapItems_rel {V W : Type} (f : List Key → V → W) (R : List Key → V → W → Prop) (hR : ∀ p v, R p v (f p v))
    (p : List Key) (l : List (Key × Tree V)) : ItemsRel R p l (mapItems f p l) := by
  match l with
  | [] => simp [mapItems, ItemsRel]
  | (k, t) :: l =>
    rw [mapItems, ItemsRel]
    exact ⟨rfl, mapTree_rel f R hR _ t, mapItems_rel f R hR p l⟩
end

theorem get?_cons_self {W : Type} (k : Key) (t : Tree W) (l : List (Key × Tree W)) :
    PyDict.get? ((k, t) :: l) k = some t := by
  simp [PyDict.get?]

mutual
theorem fromState_map {V W : Type} (f : List Key → V → W) (p : List Key) (t : Tree V) (h : t.Ok) :
    fromStateDict t (mapTree f p t) = .ok (mapTree f p t) := by
  match t with
  | .leaf v => simp [mapTree, fromStateDict]
  | .node l =>
    have := fromStateItems_map f p l [] (by simpa [Tree.Ok] using h) (by simp [PyDict.keys])
    rw [List.nil_append] at this
    rw [mapTree, fromStateDict, this]
    rfl
theorem fromStateItems_map {V W : Type} (f : List Key → V → W) (p : List Key) (l : List (Key × Tree V))
    (pre : List (Key × Tree W)) (h : ItemsOk l) (hpre : ∀ k ∈ PyDict.keys l, k ∉ PyDict.keys pre) :
    fromStateItems l (pre ++ mapItems f p l) = .ok (mapItems f p l) := by
  match l with
  | [] => simp [mapItems, fromStateItems]
  | (k, t) :: l =>
    rw [ItemsOk] at h
    obtain ⟨h1, h2, h3, h4⟩ := h
    have hk : PyDict.get? (pre ++ mapItems f p ((k, t) :: l)) k = some (mapTree f (p ++ [k]) t) := by
      have hkp := hpre k (by simp [PyDict.keys])
      clear hpre
      induction pre with
      | nil => simp [mapItems, PyDict.get?]
      | cons x pre ih =>
        obtain ⟨k0, v0⟩ := x
        simp only [PyDict.keys, List.map_cons, List.mem_cons, not_or] at hkp
        simp only [List.cons_append, PyDict.get?]
        rw [if_neg (Ne.symm hkp.1)]
        exact ih hkp.2
    have ih := fromStateItems_map f p l (pre ++ [(k, mapTree f (p ++ [k]) t)]) h4 (by
      intro k' hk'
      have a : k' ≠ k := fun e => h2 (e ▸ hk')
      have b := hpre k' (by simp only [PyDict.keys, List.map_cons, List.mem_cons]; exact Or.inr hk')
      simp only [PyDict.keys, List.map_append, List.map_cons, List.map_nil, List.mem_append, List.mem_singleton, not_or]
      exact ⟨b, a⟩)
    rw [fromStateItems, hk]
    simp only []
    rw [fromState_map f (p ++ [k]) t h3]
    change (fromStateItems l (pre ++ mapItems f p ((k, t) :: l)) >>= _) = _
    have e : pre ++ mapItems f p ((k, t) :: l) = pre ++ [(k, mapTree f (p ++ [k]) t)] ++ mapItems f p l := by
      simp [mapItems]
    rw [e, ih]
    simp only [mapItems]
    rfl
end

/-- The rules applied to a tree whose keys contain no separator. -/
theorem treeAxisResources_eq {R : Type} (search : R → List Char → Bool) (tree : List (Key × Tree (List Nat)))
    (regexes : List (R × UnparsedSpec)) (hok : ItemsOk tree) :
    treeAxisResourcesFromRegexes search tree regexes =
      .ok (.node (mapItems (fun p shape => searchRules search (join p) shape.prod
        (regexes.map fun rs => (rs.1, parsePartitionSpec rs.2))) [] tree)) := by
  set f : List Key → List Nat → List SpecElem := fun p shape => searchRules search (join p) shape.prod
        (regexes.map fun rs => (rs.1, parsePartitionSpec rs.2)) with hf
  unfold treeAxisResourcesFromRegexes
  simp only []
  have e : ((flatten tree).map fun kv => (kv.1, searchPartitionSpec search
      (regexes.map fun rs => (rs.1, parsePartitionSpec rs.2)) kv.1 kv.2)) = flatten (mapItems f [] tree) := by
    rw [flatten_eq tree hok, flatten_eq _ (mapItems_ok f [] tree hok), flattenItems_map, List.map_map, List.map_map]
    apply List.map_congr_left
    intro pv _
    obtain ⟨p, v⟩ := pv
    cases v <;> rfl
  rw [e, unflatten_flatten _ (mapItems_ok f [] tree hok)]
  change fromStateDict (.node tree) (.node (mapItems f [] tree)) = _
  have h := fromState_map f [] (.node tree) (by simpa [Tree.Ok] using hok)
  rw [mapTree] at h
  exact h

end Verif.Partitioning
