import Verif.Model.FlatDict
import Verif.Proofs.PyDict
import Verif.Proofs.ExceptLemmas
import Mathlib.Data.List.Nodup

/-! Flattening a nested dict and unflattening it again. -/

namespace Verif.FlatDict

open Verif

variable {V W : Type}

mutual
/-- Keys are distinct in every dict and contain no separator. -/
def Tree.Ok : Tree V → Prop
  | .leaf _ => True
  | .node items => ItemsOk items
/-- The same for the items of a dict. -/
def ItemsOk : List (Key × Tree V) → Prop
  | [] => True
  | (k, t) :: l => '/' ∉ k ∧ k ∉ PyDict.keys l ∧ t.Ok ∧ ItemsOk l
end

theorem split_append (p : Key) (hp : '/' ∉ p) (s : Key) : split (p ++ '/' :: s) = p :: split s := by
  induction p with
  | nil => simp [split]
  | cons c p ih =>
    rw [List.mem_cons, not_or] at hp
    rw [List.cons_append, split, if_neg (Ne.symm hp.1), ih hp.2]

theorem split_single (p : Key) (hp : '/' ∉ p) : split p = [p] := by
  induction p with
  | nil => simp [split]
  | cons c p ih =>
    rw [List.mem_cons, not_or] at hp
    rw [split, if_neg (Ne.symm hp.1), ih hp.2]

theorem split_join (ps : List Key) (hne : ps ≠ []) (h : ∀ p ∈ ps, '/' ∉ p) : split (join ps) = ps := by
  induction ps with
  | nil => exact absurd rfl hne
  | cons p ps ih =>
    cases ps with
    | nil => exact split_single p (h p (by simp))
    | cons q qs =>
      rw [join, split_append p (h p (by simp)), ih (by simp) fun x hx => h x (by simp [hx])]

mutual
theorem flattenAt_prefix (pre : List Key) (t : Tree V) :
    flattenAt pre t = (flattenAt [] t).map fun pv => (pre ++ pv.1, pv.2) := by
  match t with
  | .leaf v => simp [flattenAt]
  | .node [] => simp [flattenAt]
  | .node (kt :: l) =>
    rw [flattenAt, flattenAt]
    exact flattenItems_prefix pre (kt :: l)
theorem flattenItems_prefix (pre : List Key) (l : List (Key × Tree V)) :
    flattenItems pre l = (flattenItems [] l).map fun pv => (pre ++ pv.1, pv.2) := by
  match l with
  | [] => simp [flattenItems]
  | (k, t) :: l =>
    rw [flattenItems, flattenItems, flattenAt_prefix (pre ++ [k]) t, flattenAt_prefix ([] ++ [k]) t,
      flattenItems_prefix pre l, List.map_append, List.map_map]
    congr 1
    apply List.map_congr_left
    intro a _
    simp
end

theorem get?_append_single (d : PyDict Key (Tree V)) (k : Key) (t : Tree V) (h : k ∉ PyDict.keys d) :
    PyDict.get? (d ++ [(k, t)]) k = some t := by
  rw [← PyDict.set_of_not_mem d k t h, PyDict.get?_set, if_pos rfl]

theorem set_append_single (d : PyDict Key (Tree V)) (k : Key) (t t' : Tree V) (h : k ∉ PyDict.keys d) :
    PyDict.set (d ++ [(k, t)]) k t' = d ++ [(k, t')] := by
  induction d with
  | nil => simp [PyDict.set]
  | cons kv d ih =>
    obtain ⟨k0, v0⟩ := kv
    simp only [PyDict.keys, List.map_cons, List.mem_cons, not_or] at h
    simp only [List.cons_append, PyDict.set]
    rw [if_neg (Ne.symm h.1), ih h.2]

theorem insert_new (d : PyDict Key (Tree V)) (k : Key) (hk : k ∉ PyDict.keys d) (p : List Key) (hp : p ≠ [])
    (v : Tree V) : insert d (k :: p) v = (insert [] p v).map fun s => d ++ [(k, .node s)] := by
  cases p with
  | nil => exact absurd rfl hp
  | cons k' ks =>
    rw [insert, (PyDict.get?_eq_none d k).2 hk]
    simp only
    cases insert [] (k' :: ks) v with
    | error e => rfl
    | ok s =>
      change Except.ok (PyDict.set d k (Tree.node s)) = Except.ok _
      rw [PyDict.set_of_not_mem d k _ hk]

theorem insert_old (d s : PyDict Key (Tree V)) (k : Key) (hk : k ∉ PyDict.keys d) (p : List Key) (hp : p ≠ [])
    (v : Tree V) :
    insert (d ++ [(k, .node s)]) (k :: p) v = (insert s p v).map fun s' => d ++ [(k, .node s')] := by
  cases p with
  | nil => exact absurd rfl hp
  | cons k' ks =>
    rw [insert, get?_append_single d k _ hk]
    simp only
    cases insert s (k' :: ks) v with
    | error e => rfl
    | ok s' =>
      change Except.ok (PyDict.set _ k (Tree.node s')) = Except.ok _
      rw [set_append_single d k _ _ hk]

theorem insertAll_append (d : PyDict Key (Tree V)) (l l' : List (List Key × Flat V)) :
    insertAll d (l ++ l') = (insertAll d l >>= fun d' => insertAll d' l') := by
  induction l generalizing d with
  | nil => rfl
  | cons pv l ih =>
    obtain ⟨p, v⟩ := pv
    rw [List.cons_append, insertAll, insertAll]
    cases insert d p v.toTree with
    | error e => rfl
    | ok d' => exact ih d'

theorem insertAll_under (d s : PyDict Key (Tree V)) (k : Key) (hk : k ∉ PyDict.keys d)
    (l : List (List Key × Flat V)) (hl : ∀ pv ∈ l, pv.1 ≠ []) :
    insertAll (d ++ [(k, .node s)]) (l.map fun pv => (k :: pv.1, pv.2)) =
      (insertAll s l).map fun s' => d ++ [(k, .node s')] := by
  induction l generalizing s with
  | nil => rfl
  | cons pv l ih =>
    obtain ⟨p, v⟩ := pv
    rw [List.map_cons, insertAll, insertAll, insert_old d s k hk p (hl (p, v) (by simp))]
    cases insert s p v.toTree with
    | error e => rfl
    | ok s' => exact ih s' fun pv hpv => hl pv (by simp [hpv])

mutual
theorem flattenAt_ne_nil (t : Tree V) : flattenAt [] t ≠ [] := by
  match t with
  | .leaf v => simp [flattenAt]
  | .node [] => simp [flattenAt]
  | .node ((k, t) :: l) =>
    rw [flattenAt, flattenItems, flattenAt_prefix]
    have := flattenAt_ne_nil t
    simp [this]
end

theorem flattenItems_paths (l : List (Key × Tree V)) : ∀ pv ∈ flattenItems [] l, pv.1 ≠ [] := by
  induction l with
  | nil => simp [flattenItems]
  | cons kt l ih =>
    obtain ⟨k, t⟩ := kt
    intro pv hpv
    rw [flattenItems, flattenAt_prefix, List.mem_append] at hpv
    rcases hpv with h | h
    · obtain ⟨a, _, rfl⟩ := List.mem_map.1 h
      simp
    · exact ih pv h

mutual
theorem insertAll_tree (t : Tree V) (ht : t.Ok) (d : PyDict Key (Tree V)) (k : Key) (hk : k ∉ PyDict.keys d) :
    insertAll d (flattenAt [k] t) = .ok (d ++ [(k, t)]) := by
  match t with
  | .leaf v =>
    rw [flattenAt, insertAll, insert]
    change insertAll (PyDict.set d k (Tree.leaf v)) [] = _
    rw [PyDict.set_of_not_mem d k _ hk]
    rfl
  | .node [] =>
    rw [flattenAt, insertAll, insert]
    change insertAll (PyDict.set d k (Tree.node [])) [] = _
    rw [PyDict.set_of_not_mem d k _ hk]
    rfl
  | .node ((k1, t1) :: l) =>
    have hpaths := flattenItems_paths ((k1, t1) :: l)
    have hne : flattenItems [] ((k1, t1) :: l) ≠ [] := by
      rw [flattenItems, flattenAt_prefix]
      simp [flattenAt_ne_nil t1]
    have hin := insertAll_items ((k1, t1) :: l) (by simpa [Tree.Ok] using ht) [] (by simp [PyDict.keys])
    rw [List.nil_append] at hin
    rw [flattenAt, flattenItems_prefix]
    generalize flattenItems [] ((k1, t1) :: l) = fl at hpaths hne hin
    cases fl with
    | nil => exact absurd rfl hne
    | cons pv fl =>
      obtain ⟨p, v⟩ := pv
      rw [insertAll] at hin
      obtain ⟨s, hs, hin⟩ := ebind hin
      rw [List.map_cons, insertAll]
      change (insert d (k :: p) v.toTree >>= _) = _
      rw [insert_new d k hk p (hpaths (p, v) (by simp)), hs]
      change insertAll (d ++ [(k, Tree.node s)]) (fl.map fun pv => (k :: pv.1, pv.2)) = _
      rw [insertAll_under d s k hk fl fun pv hpv => hpaths pv (by simp [hpv]), hin]
      rfl
theorem insertAll_items (l : List (Key × Tree V)) (hl : ItemsOk l) (d : PyDict Key (Tree V))
    (hd : ∀ k ∈ PyDict.keys l, k ∉ PyDict.keys d) :
    insertAll d (flattenItems [] l) = .ok (d ++ l) := by
  match l with
  | [] => simp [flattenItems, insertAll]
  | (k, t) :: l =>
    rw [ItemsOk] at hl
    obtain ⟨_, h2, h3, h4⟩ := hl
    rw [flattenItems, insertAll_append, List.nil_append,
      insertAll_tree t h3 d k (hd k (by simp [PyDict.keys]))]
    change insertAll (d ++ [(k, t)]) (flattenItems [] l) = _
    rw [insertAll_items l h4 (d ++ [(k, t)]) ?_]
    · simp
    · intro k' hk'
      have : k' ≠ k := fun e => h2 (e ▸ hk')
      have := hd k' (by simp only [PyDict.keys, List.map_cons, List.mem_cons]; exact Or.inr hk')
      simp only [PyDict.keys, List.map_append, List.map_cons, List.map_nil, List.mem_append,
        List.mem_singleton, not_or]
      exact ⟨this, by assumption⟩
end

mutual
/-- All keys on the paths are free of the separator. -/
theorem flattenAt_sep (t : Tree V) (ht : t.Ok) : ∀ pv ∈ flattenAt [] t, ∀ k ∈ pv.1, '/' ∉ k := by
  match t with
  | .leaf v => simp [flattenAt]
  | .node [] => simp [flattenAt]
  | .node (kt :: l) =>
    rw [flattenAt]
    exact flattenItems_sep (kt :: l) (by simpa [Tree.Ok] using ht)
theorem flattenItems_sep (l : List (Key × Tree V)) (hl : ItemsOk l) :
    ∀ pv ∈ flattenItems [] l, ∀ k ∈ pv.1, '/' ∉ k := by
  match l with
  | [] => simp [flattenItems]
  | (k, t) :: l =>
    rw [ItemsOk] at hl
    obtain ⟨h1, _, h3, h4⟩ := hl
    intro pv hpv
    rw [flattenItems, flattenAt_prefix, List.mem_append] at hpv
    rcases hpv with h | h
    · obtain ⟨a, ha, rfl⟩ := List.mem_map.1 h
      intro k' hk'
      simp only [List.nil_append, List.singleton_append, List.mem_cons] at hk'
      rcases hk' with rfl | hk'
      · exact h1
      · exact flattenAt_sep t h3 a ha k' hk'
    · exact flattenItems_sep l h4 pv h
end

theorem flattenItems_head (l : List (Key × Tree V)) :
    ∀ pv ∈ flattenItems [] l, ∃ k p, pv.1 = k :: p ∧ k ∈ PyDict.keys l := by
  induction l with
  | nil => simp [flattenItems]
  | cons kt l ih =>
    obtain ⟨k, t⟩ := kt
    intro pv hpv
    rw [flattenItems, flattenAt_prefix, List.mem_append] at hpv
    rcases hpv with h | h
    · obtain ⟨a, _, rfl⟩ := List.mem_map.1 h
      exact ⟨k, a.1, by simp, by simp [PyDict.keys]⟩
    · obtain ⟨k', p, e, hk'⟩ := ih pv h
      exact ⟨k', p, e, by simp only [PyDict.keys, List.map_cons, List.mem_cons]; exact Or.inr hk'⟩

mutual
theorem flattenAt_nodup (t : Tree V) (ht : t.Ok) : ((flattenAt [] t).map Prod.fst).Nodup := by
  match t with
  | .leaf v => simp [flattenAt]
  | .node [] => simp [flattenAt]
  | .node (kt :: l) =>
    rw [flattenAt]
    exact flattenItems_nodup (kt :: l) (by simpa [Tree.Ok] using ht)
theorem flattenItems_nodup (l : List (Key × Tree V)) (hl : ItemsOk l) :
    ((flattenItems [] l).map Prod.fst).Nodup := by
  match l with
  | [] => simp [flattenItems]
  | (k, t) :: l =>
    rw [ItemsOk] at hl
    obtain ⟨_, h2, h3, h4⟩ := hl
    rw [flattenItems, flattenAt_prefix, List.map_append, List.nodup_append]
    refine ⟨?_, flattenItems_nodup l h4, ?_⟩
    · have := flattenAt_nodup t h3
      rw [List.map_map]
      have e : (Prod.fst ∘ fun pv : List Key × Flat V => ([] ++ [k] ++ pv.1, pv.2)) =
          (fun p => [k] ++ p) ∘ Prod.fst := by
        funext a; simp
      rw [e, ← List.map_map]
      apply List.Pairwise.map (R := (· ≠ ·)) _ _ this
      intro a b hab h
      exact hab (List.append_cancel_left h)
    · intro a ha b hb hab
      subst hab
      obtain ⟨x, hx, rfl⟩ := List.mem_map.1 ha
      obtain ⟨y, _, rfl⟩ := List.mem_map.1 hx
      obtain ⟨z, hz, e⟩ := List.mem_map.1 hb
      obtain ⟨k', p, e', hk'⟩ := flattenItems_head l z hz
      rw [e'] at e
      simp only [List.nil_append, List.singleton_append, List.cons.injEq] at e
      exact h2 (e.1 ▸ hk')
end

/-- With keys that contain no separator, no two paths collide when they are joined. -/
theorem flatten_eq (l : List (Key × Tree V)) (hl : ItemsOk l) :
    flatten l = (flattenItems [] l).map fun pv => (join pv.1, pv.2) := by
  unfold flatten
  apply PyDict.ofItems_of_nodup
  unfold PyDict.keys
  rw [List.map_map]
  have e : (Prod.fst ∘ fun pv : List Key × Flat V => (join pv.1, pv.2)) = join ∘ Prod.fst := rfl
  rw [e, ← List.map_map]
  apply List.Nodup.map_on _ (flattenItems_nodup l hl)
  intro a ha b hb hab
  obtain ⟨x, hx, rfl⟩ := List.mem_map.1 ha
  obtain ⟨y, hy, rfl⟩ := List.mem_map.1 hb
  have := congrArg split hab
  rwa [split_join _ (flattenItems_paths l x hx) (flattenItems_sep l hl x hx),
    split_join _ (flattenItems_paths l y hy) (flattenItems_sep l hl y hy)] at this

/-- Unflattening gives the dict back. -/
theorem unflatten_flatten (l : List (Key × Tree V)) (hl : ItemsOk l) : unflatten (flatten l) = .ok l := by
  rw [flatten_eq l hl]
  unfold unflatten
  rw [List.map_map]
  have : (flattenItems [] l).map ((fun kv : Key × Flat V => (split kv.1, kv.2)) ∘ fun pv => (join pv.1, pv.2)) =
      flattenItems [] l := by
    conv_rhs => rw [← List.map_id (flattenItems [] l)]
    apply List.map_congr_left
    intro pv hpv
    simp only [Function.comp, id]
    rw [split_join pv.1 (flattenItems_paths l pv hpv) (flattenItems_sep l hl pv hpv)]
  rw [this, insertAll_items l hl [] (by simp [PyDict.keys])]
  simp

end Verif.FlatDict
