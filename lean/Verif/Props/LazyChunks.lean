import Verif.Model.LazyChunks
import Verif.Proofs.PyDict
import Mathlib.Data.List.Sort
import Mathlib.Tactic.Tauto

/-!
C116: what is written in the background was copied before `save_checkpoint` returned.
-/

namespace Verif.LazyChunks

open Verif PyDict

variable {α S : Type}

/-- All references, in order. -/
def refs (c : Chunks S) : List Nat := c.flatMap fun lac => lac.2.flatMap fun lst => lst.2.map Prod.fst

/-- Other references in the same places. -/
def rename (f : Nat → Nat) (c : Chunks S) : Chunks S :=
  c.map fun lac => (lac.1, lac.2.map fun lst => (lst.1, lst.2.map fun x => (f x.1, x.2)))

/-- What a write would find in memory: the contents of every chunk's array, with its slices. -/
def contents (h : Mem α) (c : Chunks S) : List (Nat × List (Nat × List (Option α × S × S))) :=
  c.map fun lac => (lac.1, lac.2.map fun lst => (lst.1, lst.2.map fun x =>
    ((h x.1).map (fun | .jax a => a | .numpy a => a), x.2)))

/-- Memory in which every array of the chunks is alive. -/
def Alive (h : Mem α) (c : Chunks S) : Prop := ∀ r ∈ refs c, (h r).isSome

/-! ### The dictionary of arrays -/

theorem foldl_set_self (l : List Nat) (d : PyDict Nat Nat) (hd : ∀ kv ∈ d, kv.1 = kv.2) (hn : (keys d).Nodup) :
    let d' := l.foldl (fun d r => set d r r) d
    (∀ kv ∈ d', kv.1 = kv.2) ∧ (keys d').Nodup ∧ ∀ k, k ∈ keys d' ↔ k ∈ keys d ∨ k ∈ l := by
  induction l generalizing d with
  | nil => exact ⟨hd, hn, by simp⟩
  | cons r l ih =>
    have hn' := nodup_keys_set d r r hn
    have hk : ∀ k, k ∈ keys (set d r r) ↔ k ∈ keys d ∨ k = r := by
      intro k
      rw [keys_set]
      split
      · rename_i hm
        constructor
        · exact .inl
        · rintro (h | rfl)
          · exact h
          · exact hm
      · simp
    have hd' : ∀ kv ∈ set d r r, kv.1 = kv.2 := by
      intro kv hkv
      have h1 : get? (set d r r) kv.1 = some kv.2 := (get?_eq_some _ hn' _ _).2 hkv
      rw [get?_set] at h1
      split at h1
      · rename_i e; cases h1; exact e.symm
      · exact hd kv ((get?_eq_some d hn _ _).1 h1)
    obtain ⟨h1, h2, h3⟩ := ih _ hd' hn'
    refine ⟨h1, h2, fun k => ?_⟩
    rw [List.foldl_cons, h3, hk, List.mem_cons]
    tauto

theorem collect_eq (c : Chunks S) : collect c = (refs c).foldl (fun d r => set d r r) [] := by
  unfold collect refs
  rw [List.foldl_flatMap]
  congr 1
  funext d lac
  rw [List.foldl_flatMap]
  congr 1
  funext d lst
  rw [List.foldl_map]

/-! ### The conversion -/

/-- Finitely many objects are alive. -/
def Bounded (h : Mem α) : Prop := ∃ n, ∀ r, n ≤ r → h r = none

/-- `alloc` gives an address that is not in use. -/
def Allocates (alloc : Mem α → Nat) : Prop := ∀ h, Bounded h → h (alloc h) = none

theorem asarray_spec (alloc : Mem α → Nat) (ha : Allocates alloc) (h : Mem α) (hb : Bounded h) (r : Nat) :
    let res := asarray alloc h r
    (∀ x, h x ≠ none → res.1 x = h x) ∧
    (∀ a, h r = some (.jax a) → h res.2 = none ∧ res.1 res.2 = some (.numpy a) ∧
      ∀ x, h x = none → x ≠ res.2 → res.1 x = none) ∧
    (∀ a, h r = some (.numpy a) → res.2 = r ∧ res.1 = h) ∧ Bounded res.1 := by
  intro res
  have hbd : Bounded res.1 := by
    simp only [res, asarray]
    split
    · obtain ⟨n, hn⟩ := hb
      refine ⟨max n (alloc h + 1), fun r hr => ?_⟩
      have hne : r ≠ alloc h := by
        rintro rfl
        omega
      exact (Function.update_of_ne hne _ _).trans (hn r (by omega))
    · exact hb
  refine ⟨fun x hx => ?_, fun a hr => ?_, fun a hr => ?_, hbd⟩
  · simp only [res, asarray]
    split
    · have hne : x ≠ alloc h := by
        intro e
        apply hx
        rw [e]
        exact ha h hb
      exact Function.update_of_ne hne _ _
    · rfl
  · simp only [res, asarray, hr]
    exact ⟨ha h hb, Function.update_self _ _ _, fun x hx hne => (Function.update_of_ne hne _ _).trans hx⟩
  · simp only [res, asarray, hr]
    exact ⟨trivial, trivial⟩

theorem convert_cons (alloc : Mem α → Nat) (h : Mem α) (k r : Nat) (d : PyDict Nat Nat) :
    convert alloc h ((k, r) :: d) = ((convert alloc (asarray alloc h r).1 d).1,
      (k, (asarray alloc h r).2) :: (convert alloc (asarray alloc h r).1 d).2) := rfl

theorem convert_spec (alloc : Mem α → Nat) (ha : Allocates alloc) (d : PyDict Nat Nat)
    (hd : ∀ kv ∈ d, kv.1 = kv.2) (hn : (keys d).Nodup) (h : Mem α) (hb : Bounded h) (hl : ∀ kv ∈ d, (h kv.2).isSome) :
    let res := convert alloc h d
    (∀ x, h x ≠ none → res.1 x = h x) ∧
    (∀ k ∈ keys d, ∃ r, get? res.2 k = some r ∧
      (∀ a, h k = some (.jax a) → h r = none ∧ res.1 r = some (.numpy a)) ∧
      (∀ a, h k = some (.numpy a) → r = k)) ∧
    (∀ k ∈ keys d, ∀ k' ∈ keys d, get? res.2 k = get? res.2 k' → k = k') ∧
    (∀ x, h x = none → res.1 x ≠ none → ∃ k ∈ keys d, (∃ a, h k = some (.jax a)) ∧ get? res.2 k = some x) := by
  induction d generalizing h with
  | nil =>
    exact ⟨fun _ _ => rfl, by simp [keys], by simp [keys], fun x h1 h2 => absurd h1 h2⟩
  | cons kv d ih =>
    obtain ⟨k0, r0⟩ := kv
    have e0 : k0 = r0 := hd (k0, r0) List.mem_cons_self
    subst e0
    have hn' : k0 ∉ keys d ∧ (keys d).Nodup := by simpa [keys] using hn
    have hks : keys ((k0, k0) :: d) = k0 :: keys d := rfl
    obtain ⟨s1, s2, s3, s4⟩ := asarray_spec alloc ha h hb k0
    have hlive : ∀ k ∈ keys d, (h k).isSome := by
      intro k hk
      obtain ⟨kv, hkv, rfl⟩ := List.mem_map.1 hk
      rw [hd kv (List.mem_cons_of_mem _ hkv)]
      exact hl kv (List.mem_cons_of_mem _ hkv)
    have hsame : ∀ k ∈ keys d, (asarray alloc h k0).1 k = h k := fun k hk =>
      s1 k (Option.isSome_iff_ne_none.1 (hlive k hk))
    obtain ⟨i1, i2, i3, i4⟩ := ih (fun kv hkv => hd kv (List.mem_cons_of_mem _ hkv)) hn'.2 (asarray alloc h k0).1 s4
      (by
        intro kv hkv
        have := hl kv (List.mem_cons_of_mem _ hkv)
        rw [s1 kv.2 (Option.isSome_iff_ne_none.1 this)]
        exact this)
    intro res
    have hres : res = ((convert alloc (asarray alloc h k0).1 d).1,
      (k0, (asarray alloc h k0).2) :: (convert alloc (asarray alloc h k0).1 d).2) := rfl
    have hget0 : get? res.2 k0 = some (asarray alloc h k0).2 := by rw [hres]; simp [get?]
    have hget : ∀ k ∈ keys d, get? res.2 k = get? (convert alloc (asarray alloc h k0).1 d).2 k := by
      intro k hk
      have hne : k0 ≠ k := by rintro rfl; exact hn'.1 hk
      rw [hres]
      simp only [get?, if_neg hne]
    have hres1 : ∀ x, res.1 x = (convert alloc (asarray alloc h k0).1 d).1 x := fun _ => rfl
    have hl0 : (h k0).isSome := hl (k0, k0) List.mem_cons_self
    -- the address given to `k0` is alive after the first step
    have hr0 : (asarray alloc h k0).1 (asarray alloc h k0).2 ≠ none := by
      rcases hv : h k0 with _ | (a | a)
      · rw [hv] at hl0; cases hl0
      · rw [(s2 a hv).2.1]; simp
      · rw [(s3 a hv).1, s1 k0 (by rw [hv]; simp), hv]; simp
    -- and is not the one given to another array
    have hdiff : ∀ k ∈ keys d, get? res.2 k0 ≠ get? res.2 k := by
      intro k hk e
      rw [hget0, hget k hk] at e
      obtain ⟨r, hr, hj, hnp⟩ := i2 k hk
      rw [hr] at e
      simp only [Option.some.injEq] at e
      rcases hv : h k with _ | (a | a)
      · have := hlive k hk; rw [hv] at this; cases this
      · have := (hj a ((hsame k hk).trans hv)).1
        rw [← e] at this
        exact hr0 this
      · have hrk := hnp a ((hsame k hk).trans hv)
        rw [hrk] at e
        rcases hv0 : h k0 with _ | (b | b)
        · rw [hv0] at hl0; cases hl0
        · have := (s2 b hv0).1
          rw [e, hv] at this; cases this
        · rw [(s3 b hv0).1] at e
          exact hn'.1 (e ▸ hk)
    refine ⟨fun x hx => ?_, fun k hk => ?_, fun k hk k' hk' e => ?_, fun x hx hx' => ?_⟩
    · rw [hres1, i1 x (by rw [s1 x hx]; exact hx), s1 x hx]
    · rw [hks] at hk
      rcases List.mem_cons.1 hk with rfl | hk
      · refine ⟨_, hget0, fun a hv => ⟨(s2 a hv).1, ?_⟩, fun a hv => (s3 a hv).1⟩
        rw [hres1, i1 _ hr0, (s2 a hv).2.1]
      · obtain ⟨r, hr, hj, hnp⟩ := i2 k hk
        refine ⟨r, (hget k hk).trans hr, fun a hv => ?_, fun a hv => hnp a ((hsame k hk).trans hv)⟩
        obtain ⟨j1, j2⟩ := hj a ((hsame k hk).trans hv)
        refine ⟨?_, j2⟩
        by_contra hne
        rw [s1 r hne] at j1
        exact hne j1
    · rw [hks] at hk hk'
      rcases List.mem_cons.1 hk with m | m <;> rcases List.mem_cons.1 hk' with m' | m'
      · rw [m, m']
      · rw [m] at e
        exact absurd e (hdiff k' m')
      · rw [m'] at e
        exact absurd e.symm (hdiff k m)
      · rw [hget k m, hget k' m'] at e
        exact i3 k m k' m' e
    · by_cases hm : (asarray alloc h k0).1 x = none
      · obtain ⟨k, hk, ⟨a, hva⟩, hg⟩ := i4 x hm hx'
        exact ⟨k, List.mem_cons_of_mem _ hk, ⟨a, (hsame k hk).symm.trans hva⟩, (hget k hk).trans hg⟩
      · refine ⟨k0, List.mem_cons_self, ?_⟩
        rcases hv : h k0 with _ | (a | a)
        · rw [hv] at hl0; cases hl0
        · refine ⟨⟨a, rfl⟩, ?_⟩
          rw [hget0]
          by_contra hne
          exact hm ((s2 a hv).2.2 x hx (fun e => hne (by rw [e])))
        · rw [(s3 a hv).2] at hm
          exact absurd hx hm

/-! ### The replacement -/

theorem mapM_ok_eq {A B : Type} (f : A → Except PyErr B) (g : A → B) (l : List A) (h : ∀ x ∈ l, f x = .ok (g x)) :
    l.mapM f = .ok (l.map g) := by
  induction l with
  | nil => rfl
  | cons x l ih =>
    rw [List.mapM_cons, h x (by simp), ih (fun y hy => h y (by simp [hy]))]
    rfl

theorem replace_eq (d : PyDict Nat Nat) (f : Nat → Nat) (c : Chunks S) (h : ∀ r ∈ refs c, get? d r = some (f r)) :
    c.mapM (replaceShard d) = .ok (rename f c) := by
  apply mapM_ok_eq
  intro lac hlac
  unfold replaceShard
  rw [mapM_ok_eq (replaceList d) (fun lst => (lst.1, lst.2.map fun x => (f x.1, x.2))) lac.2]
  · rfl
  · intro lst hlst
    unfold replaceList
    rw [mapM_ok_eq (replaceChunk d) (fun x => (f x.1, x.2)) lst.2]
    · rfl
    · intro x hx
      have : get? d x.1 = some (f x.1) := by
        apply h
        exact List.mem_flatMap.2 ⟨lac, hlac, List.mem_flatMap.2 ⟨lst, hlst, List.mem_map.2 ⟨x, hx, rfl⟩⟩⟩
      simp only [replaceChunk, this]

/-- C116.  `_replace_jax_with_numpy_in_lazy_array_chunks` does not fail and only renames the arrays: shards, arrays, slices and
their order stay; every array of the result is a NumPy array with the contents of the array it replaces; two chunks share an array
exactly if they did before; no object that existed is changed, and exactly one new object is made for every different JAX
array. -/
theorem C116_copies (alloc : Mem α → Nat) (ha : Allocates alloc) (h : Mem α) (hb : Bounded h) (c : Chunks S) (hl : Alive h c) :
    ∃ (h' : Mem α) (f : Nat → Nat), replaceJax alloc h c = .ok (h', rename f c) ∧
      (∀ r ∈ refs c, ∀ a, h r = some (.jax a) ∨ h r = some (.numpy a) → h' (f r) = some (.numpy a)) ∧
      (∀ r ∈ refs c, ∀ r' ∈ refs c, f r = f r' → r = r') ∧
      (∀ x, h x ≠ none → h' x = h x) ∧
      (∀ x, h x = none → (h' x ≠ none ↔ ∃ r ∈ refs c, (∃ a, h r = some (.jax a)) ∧ f r = x)) := by
  obtain ⟨c1, c2, c3⟩ := foldl_set_self (refs c) [] (by simp) (by simp [keys])
  rw [← collect_eq] at c1 c2 c3
  have hp : (sortKeys (collect c)).Perm (collect c) := List.mergeSort_perm _ _
  have hkp : (keys (sortKeys (collect c))).Perm (keys (collect c)) := hp.map _
  have hk : ∀ k, k ∈ keys (sortKeys (collect c)) ↔ k ∈ refs c := by
    intro k
    rw [hkp.mem_iff, c3]
    simp [keys]
  have hd : ∀ kv ∈ sortKeys (collect c), kv.1 = kv.2 := fun kv hkv => c1 kv (hp.mem_iff.1 hkv)
  obtain ⟨s1, s2, s3, s4⟩ := convert_spec alloc ha (sortKeys (collect c)) hd (hkp.nodup_iff.2 c2) h hb (by
    intro kv hkv
    rw [← hd kv hkv]
    exact hl kv.1 ((hk kv.1).1 (List.mem_map.2 ⟨kv, hkv, rfl⟩)))
  have hf : ∀ r ∈ refs c, get? (convert alloc h (sortKeys (collect c))).2 r =
      some ((get? (convert alloc h (sortKeys (collect c))).2 r).getD 0) := by
    intro r hr
    obtain ⟨r', e, _⟩ := s2 r ((hk r).2 hr)
    rw [e]; rfl
  refine ⟨(convert alloc h (sortKeys (collect c))).1, fun r => (get? (convert alloc h (sortKeys (collect c))).2 r).getD 0,
    ?_, ?_, ?_, s1, ?_⟩
  · unfold replaceJax
    simp only
    rw [replace_eq _ _ c hf]
    rfl
  · intro r hr a hv
    obtain ⟨r', e, hj, hnp⟩ := s2 r ((hk r).2 hr)
    simp only [e, Option.getD_some]
    rcases hv with hv | hv
    · exact (hj a hv).2
    · rw [hnp a hv, s1 r (by rw [hv]; simp), hv]
  · intro r hr r' hr' e
    apply s3 r ((hk r).2 hr) r' ((hk r').2 hr')
    rw [hf r hr, hf r' hr']
    exact congrArg some e
  · intro x hx
    constructor
    · intro hx'
      obtain ⟨k, hkk, hj, hg⟩ := s4 x hx hx'
      exact ⟨k, (hk k).1 hkk, hj, by simp only [hg, Option.getD_some]⟩
    · rintro ⟨r, hr, ⟨a, hv⟩, rfl⟩
      obtain ⟨r', e, hj, _⟩ := s2 r ((hk r).2 hr)
      simp only [e, Option.getD_some, (hj a hv).2]
      simp

/-- C116.  So whatever happens to device arrays while the files are written, what is written is what the arrays held when
`save_checkpoint` was called. -/
theorem C116_contents (alloc : Mem α → Nat) (ha : Allocates alloc) (h : Mem α) (hb : Bounded h) (c : Chunks S) (hl : Alive h c)
    (h' : Mem α) (c' : Chunks S) (hr : replaceJax alloc h c = .ok (h', c'))
    (later : Mem α) (hlater : ∀ r a, h' r = some (.numpy a) → later r = some (.numpy a)) :
    contents later c' = contents h c := by
  obtain ⟨h1, f, e, hv, _⟩ := C116_copies alloc ha h hb c hl
  rw [hr] at e
  cases e
  unfold contents rename
  rw [List.map_map]
  apply List.map_congr_left
  intro lac hlac
  simp only [Function.comp, Prod.mk.injEq, true_and]
  rw [List.map_map]
  apply List.map_congr_left
  intro lst hlst
  simp only [Function.comp, Prod.mk.injEq, true_and]
  rw [List.map_map]
  apply List.map_congr_left
  intro x hx
  have hmem : x.1 ∈ refs c :=
    List.mem_flatMap.2 ⟨lac, hlac, List.mem_flatMap.2 ⟨lst, hlst, List.mem_map.2 ⟨x, hx, rfl⟩⟩⟩
  simp only [Function.comp, Prod.mk.injEq, and_true]
  have hlive := hl x.1 hmem
  rcases hx0 : h x.1 with _ | (a | a)
  · rw [hx0] at hlive; cases hlive
  · rw [hlater _ _ (hv x.1 hmem a (.inl hx0))]; rfl
  · rw [hlater _ _ (hv x.1 hmem a (.inr hx0))]

/-- C116.  Without the replacement a device array released while the files are written would be lost. -/
theorem C116_without_copies (h : Mem α) (c : Chunks S) (r : Nat) (hr : r ∈ refs c) (a : α) (hj : h r = some (.jax a)) :
    ∃ later : Mem α, (∀ r a, h r = some (.numpy a) → later r = some (.numpy a)) ∧ contents later c ≠ contents h c := by
  refine ⟨Function.update h r none, fun x b hx => ?_, fun e => ?_⟩
  · rw [Function.update_of_ne _]
    · exact hx
    · rintro rfl
      rw [hj] at hx; cases hx
  · obtain ⟨lac, hlac, hm⟩ := List.mem_flatMap.1 hr
    obtain ⟨lst, hlst, hm⟩ := List.mem_flatMap.1 hm
    obtain ⟨x, hx, rfl⟩ := List.mem_map.1 hm
    have e1 := (List.map_inj_left.1 e) lac hlac
    simp only [Prod.mk.injEq, true_and] at e1
    have e2 := (List.map_inj_left.1 e1) lst hlst
    simp only [Prod.mk.injEq, true_and] at e2
    have e3 := (List.map_inj_left.1 e2) x hx
    simp only [Prod.mk.injEq, and_true, Function.update_self, hj] at e3
    cases e3

/-- Example memory: two device arrays and a NumPy array. -/
def exMem : Mem Nat := fun r => if r = 3 then some (.jax 10) else if r = 7 then some (.jax 20) else
  if r = 8 then some (.numpy 30) else none

/-- Example chunks: the array at 7 is used twice. -/
def exChunks : Chunks Nat := [(0, [(0, [(7, 0, 0), (3, 1, 1)])]), (2, [(0, [(7, 2, 2)]), (1, [(8, 0, 0)])])]

-- Non-vacuity: there is such an `alloc`, and the memory of the example is finite.
example : (∃ alloc : Mem Nat → Nat, Allocates alloc) ∧ Bounded exMem := by
  refine ⟨⟨fun h => Classical.epsilon fun r => h r = none, fun h hb => ?_⟩, 9, fun r hr => ?_⟩
  · obtain ⟨n, hn⟩ := hb
    exact Classical.epsilon_spec (p := fun r => h r = none) ⟨n, hn n (le_refl n)⟩
  · unfold exMem
    rw [if_neg (by omega), if_neg (by omega), if_neg (by omega)]

example : Alive exMem exChunks ∧ (∃ r ∈ refs exChunks, exMem r = some (.jax 20)) ∧
    contents exMem exChunks = [(0, [(0, [(some 20, 0, 0), (some 10, 1, 1)])]), (2, [(0, [(some 20, 2, 2)]), (1, [(some 30, 0, 0)])])] := by
  refine ⟨?_, ⟨7, by decide, rfl⟩, rfl⟩
  intro r hr
  have : r = 7 ∨ r = 3 ∨ r = 7 ∨ r = 8 := by simpa [refs, exChunks] using hr
  rcases this with rfl | rfl | rfl | rfl <;> rfl

end Verif.LazyChunks
