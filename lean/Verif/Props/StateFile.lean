import Verif.Proofs.StateFile
import Verif.Props.CkptFiles
import Verif.Props.Serialization

/-!
C107: a state that was saved is restored, from the tree to the bytes of the file and back.
-/

namespace Verif.Ser

open Verif Msgpack

/-! ### What is claimed -/

mutual
/-- A tree that is not confused with something else: no key is repeated or reserved, arrays have the elements that their shape says. -/
def Obj.Wf (itemsize : Bytes → Nat) : Obj → Prop
  | .leaf l => LeafOk itemsize l
  | .dict l => ((l.map Prod.fst).Nodup ∧ magicKey ∉ l.map Prod.fst ∧ chunkedKey ∉ l.map Prod.fst) ∧ ObjWfItems itemsize l
  | .seq _ l => ObjWfSeq itemsize l
/-- The same for the items of a dict. -/
def ObjWfItems (itemsize : Bytes → Nat) : List (Bytes × Obj) → Prop
  | [] => True
  | (_, x) :: l => x.Wf itemsize ∧ ObjWfItems itemsize l
/-- The same for the items of a list. -/
def ObjWfSeq (itemsize : Bytes → Nat) : List Obj → Prop
  | [] => True
  | x :: l => x.Wf itemsize ∧ ObjWfSeq itemsize l
end

/-- A step of a path in a tree. -/
inductive Step where
  | key (k : Bytes)
  | idx (i : Nat)

mutual
/-- The leaf at a path. -/
def Obj.leafAt : Obj → List Step → Option Leaf
  | .leaf l, [] => some l
  | .dict l, .key k :: p => itemsAt l k p
  | .seq _ l, .idx i :: p => seqAt l i p
  | _, _ => none
/-- The leaf below an item of a dict. -/
def itemsAt : List (Bytes × Obj) → Bytes → List Step → Option Leaf
  | [], _, _ => none
  | (k', x) :: l, k, p => if k' = k then x.leafAt p else itemsAt l k p
/-- The leaf below an item of a list. -/
def seqAt : List Obj → Nat → List Step → Option Leaf
  | [], _, _ => none
  | x :: _, 0, p => x.leafAt p
  | _ :: l, i + 1, p => seqAt l i p
end

mutual
/-- The tree without its leaves: the kinds of its containers, their keys and their order. -/
def skeleton : Obj → Obj
  | .leaf _ => .leaf .none
  | .dict l => .dict (skeletonItems l)
  | .seq t l => .seq t (skeletonSeq l)
/-- The items of a dict. -/
def skeletonItems : List (Bytes × Obj) → List (Bytes × Obj)
  | [] => []
  | (k, x) :: l => (k, skeleton x) :: skeletonItems l
/-- The items of a list. -/
def skeletonSeq : List Obj → List Obj
  | [] => []
  | x :: l => skeleton x :: skeletonSeq l
end

mutual
/-- The target has a place for everything in the saved tree: the same keys, in any order, and lists or tuples of the same length. -/
def Same : Obj → Obj → Prop
  | .leaf _, .leaf _ => True
  | .dict l, .dict m => (l.map Prod.fst).Perm (m.map Prod.fst) ∧ SameItems l m
  | .seq _ l, .seq _ m => SameSeq l m
  | _, _ => False
/-- The same for the items of a dict. -/
def SameItems : List (Bytes × Obj) → List (Bytes × Obj) → Prop
  | [], _ => True
  | (k, t) :: l, m => (∃ x, (k, x) ∈ m ∧ Same t x) ∧ SameItems l m
/-- The same for the items of a list. -/
def SameSeq : List Obj → List Obj → Prop
  | [], [] => True
  | t :: l, x :: m => Same t x ∧ SameSeq l m
  | _, _ => False
end

/-! ### From the tree to the state dict and back -/

theorem toStateItems_keys (l : List (Bytes × Obj)) : (toStateItems l).map Prod.fst = l.map Prod.fst := by
  induction l with
  | nil => rw [toStateItems]; rfl
  | cons p l ih =>
    obtain ⟨k, x⟩ := p
    rw [toStateItems]
    simp [ih]

theorem toStateSeq_keys (l : List Obj) (i : Nat) : (toStateSeq i l).map Prod.fst = (List.range' i l.length).map indexKey := by
  induction l generalizing i with
  | nil => rw [toStateSeq]; rfl
  | cons x l ih =>
    rw [toStateSeq]
    simp [ih, List.range'_succ]

theorem npConvertItems_keys (l : List (Bytes × State)) : (npConvertItems l).map Prod.fst = l.map Prod.fst := by
  induction l with
  | nil => rw [npConvertItems]
  | cons p l ih =>
    obtain ⟨k, x⟩ := p
    rw [npConvertItems]
    simp [ih]

mutual
theorem wf_toState (itemsize : Bytes → Nat) : ∀ x : Obj, x.Wf itemsize → (toState x).Wf itemsize
  | .leaf l, h => by
    rw [Obj.Wf] at h
    rw [toState, State.Wf]
    exact h
  | .dict l, h => by
    rw [Obj.Wf] at h
    rw [toState, State.Wf, toStateItems_keys]
    exact ⟨h.1, wf_toStateItems itemsize l h.2⟩
  | .seq _ l, h => by
    rw [Obj.Wf] at h
    rw [toState, State.Wf, toStateSeq_keys]
    refine ⟨⟨?_, ?_, ?_⟩, wf_toStateSeq itemsize l 0 h⟩
    · exact List.Nodup.map (fun _ _ h => indexKey_inj h) List.nodup_range'
    · intro hm
      obtain ⟨i, _, hi⟩ := List.mem_map.1 hm
      exact indexKey_ne_magic i hi
    · intro hm
      obtain ⟨i, _, hi⟩ := List.mem_map.1 hm
      exact indexKey_ne_chunked i hi
theorem wf_toStateItems (itemsize : Bytes → Nat) : ∀ l : List (Bytes × Obj), ObjWfItems itemsize l → WfItems itemsize (toStateItems l)
  | [], _ => by rw [toStateItems, WfItems]; trivial
  | (k, x) :: l, h => by
    rw [ObjWfItems] at h
    rw [toStateItems, WfItems]
    exact ⟨wf_toState itemsize x h.1, wf_toStateItems itemsize l h.2⟩
theorem wf_toStateSeq (itemsize : Bytes → Nat) : ∀ (l : List Obj) (i : Nat), ObjWfSeq itemsize l → WfItems itemsize (toStateSeq i l)
  | [], i, _ => by rw [toStateSeq, WfItems]; trivial
  | x :: l, i, h => by
    rw [ObjWfSeq] at h
    rw [toStateSeq, WfItems]
    exact ⟨wf_toState itemsize x h.1, wf_toStateSeq itemsize l (i + 1) h.2⟩
end

theorem lookup_items (m : List (Bytes × Obj)) (hn : (m.map Prod.fst).Nodup) (k : Bytes) (x : Obj) (h : (k, x) ∈ m) :
    lookup k (npConvertItems (toStateItems m)) = .ok (npConvert (toState x)) ∧ ∀ p, itemsAt m k p = x.leafAt p := by
  induction m with
  | nil => simp at h
  | cons q m ih =>
    obtain ⟨k', x'⟩ := q
    rw [List.map_cons, List.nodup_cons] at hn
    rw [toStateItems, npConvertItems]
    by_cases hk : k' = k
    · subst hk
      rcases List.mem_cons.1 h with h | h
      · injection h with h1 h2
        subst h2
        refine ⟨by simp [lookup], fun p => ?_⟩
        rw [itemsAt, if_pos rfl]
      · exact absurd (List.mem_map.2 ⟨_, h, rfl⟩) hn.1
    · have hm : (k, x) ∈ m := by
        rcases List.mem_cons.1 h with h | h
        · injection h with h1 h2
          exact absurd h1.symm hk
        · exact h
      obtain ⟨h1, h2⟩ := ih hn.2 hm
      refine ⟨?_, fun p => ?_⟩
      · unfold lookup at h1 ⊢
        rw [List.find?_cons]
        have : ((k', npConvert (toState x')).1 == k) = false := by simpa using hk
        simp only [this]
        exact h1
      · rw [itemsAt, if_neg hk]
        exact h2 p

theorem itemsAt_none (m : List (Bytes × Obj)) (k : Bytes) (p : List Step) (h : k ∉ m.map Prod.fst) : itemsAt m k p = none := by
  induction m with
  | nil => rw [itemsAt]
  | cons q m ih =>
    obtain ⟨k', x'⟩ := q
    simp only [List.map_cons, List.mem_cons, not_or] at h
    rw [itemsAt, if_neg (fun e => h.1 e.symm)]
    exact ih h.2

theorem lookup_seq (m : List Obj) (i j : Nat) (x : Obj) (h : m[j]? = some x) :
    lookup (indexKey (i + j)) (npConvertItems (toStateSeq i m)) = .ok (npConvert (toState x)) := by
  induction m generalizing i j with
  | nil => simp at h
  | cons y m ih =>
    rw [toStateSeq, npConvertItems]
    cases j with
    | zero =>
      simp only [List.getElem?_cons_zero, Option.some.injEq] at h
      subst h
      simp [lookup]
    | succ j =>
      have h' : m[j]? = some x := by simpa using h
      have hne : (indexKey i == indexKey (i + (j + 1))) = false := by
        rw [beq_eq_false_iff_ne]
        intro he
        have := indexKey_inj he
        omega
      have := ih (i + 1) j h'
      unfold lookup at this ⊢
      rw [List.find?_cons]
      simp only [hne]
      rw [show i + (j + 1) = i + 1 + j by omega]
      exact this

theorem objWfItems_mem {itemsize : Bytes → Nat} : ∀ {l : List (Bytes × Obj)}, ObjWfItems itemsize l → ∀ k x, (k, x) ∈ l → x.Wf itemsize
  | [], _, _, _, h => by simp at h
  | (k', x') :: l, hw, k, x, h => by
    rw [ObjWfItems] at hw
    rcases List.mem_cons.1 h with h | h
    · injection h with h1 h2
      subst h2
      exact hw.1
    · exact objWfItems_mem hw.2 k x h

theorem length_toStateSeq (m : List Obj) (i : Nat) : (npConvertItems (toStateSeq i m)).length = m.length := by
  have h := congrArg List.length (npConvertItems_keys (toStateSeq i m))
  rw [toStateSeq_keys] at h
  simpa using h

theorem sameSeq_length : ∀ {l m : List Obj}, SameSeq l m → l.length = m.length
  | [], [], _ => rfl
  | [], _ :: _, h => by rw [SameSeq] at h; exact absurd h id; all_goals simp
  | _ :: _, [], h => by rw [SameSeq] at h; exact absurd h id; all_goals simp
  | t :: l, x :: m, h => by
    rw [SameSeq] at h
    simp [sameSeq_length h.2]

mutual
theorem fromState_ok (itemsize : Bytes → Nat) : ∀ (t x : Obj), Same t x → x.Wf itemsize →
    ∃ r, fromState t (npConvert (toState x)) = .ok r ∧ skeleton r = skeleton t ∧ ∀ p, r.leafAt p = (x.leafAt p).map npLeaf
  | .leaf a, .leaf l, _, _ => by
    rw [toState, npConvert, fromState, ofState]
    refine ⟨_, rfl, by rw [skeleton, skeleton], fun p => ?_⟩
    cases p with
    | nil => rw [Obj.leafAt, Obj.leafAt]; rfl
    | cons s p => rw [Obj.leafAt, Obj.leafAt]; rfl; all_goals simp
  | .leaf _, .dict _, h, _ => by rw [Same] at h; exact absurd h id; all_goals simp
  | .leaf _, .seq _ _, h, _ => by rw [Same] at h; exact absurd h id; all_goals simp
  | .dict _, .leaf _, h, _ => by rw [Same] at h; exact absurd h id; all_goals simp
  | .dict _, .seq _ _, h, _ => by rw [Same] at h; exact absurd h id; all_goals simp
  | .seq _ _, .leaf _, h, _ => by rw [Same] at h; exact absurd h id; all_goals simp
  | .seq _ _, .dict _, h, _ => by rw [Same] at h; exact absurd h id; all_goals simp
  | .dict l, .dict m, h, hw => by
    rw [Same] at h
    rw [Obj.Wf] at hw
    obtain ⟨hperm, hs⟩ := h
    obtain ⟨r, e1, e2, e3, e4⟩ := fromStateItems_ok itemsize l m hs hw.1.1 hw.2
    rw [toState, npConvert, fromState, npConvertItems_keys, toStateItems_keys, if_pos, e1]
    · refine ⟨.dict r, rfl, by rw [skeleton, skeleton, e3], fun p => ?_⟩
      match p with
      | [] => rw [Obj.leafAt, Obj.leafAt]; rfl; all_goals simp
      | .idx i :: p => rw [Obj.leafAt, Obj.leafAt]; rfl; all_goals simp
      | .key k :: p =>
        rw [Obj.leafAt, Obj.leafAt]
        by_cases hk : k ∈ l.map Prod.fst
        · exact e4 k hk p
        · rw [itemsAt_none m k p (fun h => hk (hperm.mem_iff.2 h)), itemsAt_none r k p (by rw [e2]; exact hk)]
          rfl
    · rw [List.all_eq_true]
      intro q hq
      simp only [decide_eq_true_eq]
      exact hperm.mem_iff.1 (List.mem_map.2 ⟨q, hq, rfl⟩)
  | .seq t l, .seq t' m, h, hw => by
    rw [Same] at h
    rw [Obj.Wf] at hw
    obtain ⟨r, e1, e2, e3⟩ := fromStateSeq_ok itemsize l m 0 (npConvertItems (toStateSeq 0 m)) h hw (fun j x hj => lookup_seq m 0 j x hj)
    rw [toState, npConvert, fromState, length_toStateSeq, if_pos (sameSeq_length h).symm, e1]
    refine ⟨.seq t r, rfl, by rw [skeleton, skeleton, e2], fun p => ?_⟩
    match p with
    | [] => rw [Obj.leafAt, Obj.leafAt]; rfl; all_goals simp
    | .key i :: p => rw [Obj.leafAt, Obj.leafAt]; rfl; all_goals simp
    | .idx k :: p =>
      rw [Obj.leafAt, Obj.leafAt]
      exact e3 k p
theorem fromStateItems_ok (itemsize : Bytes → Nat) : ∀ (l m : List (Bytes × Obj)), SameItems l m → (m.map Prod.fst).Nodup →
    ObjWfItems itemsize m →
    ∃ r, fromStateItems l (npConvertItems (toStateItems m)) = .ok r ∧ r.map Prod.fst = l.map Prod.fst ∧ skeletonItems r = skeletonItems l ∧
      ∀ k ∈ l.map Prod.fst, ∀ p, itemsAt r k p = (itemsAt m k p).map npLeaf
  | [], m, _, _, _ => by
    rw [fromStateItems]
    exact ⟨[], rfl, rfl, rfl, by simp⟩
  | (k, t) :: l, m, h, hn, hw => by
    rw [SameItems] at h
    obtain ⟨⟨x, hx, hsame⟩, hl⟩ := h
    obtain ⟨r, e1, e2, e3, e4⟩ := fromStateItems_ok itemsize l m hl hn hw
    obtain ⟨y, f1, f2, f3⟩ := fromState_ok itemsize t x hsame (objWfItems_mem hw k x hx)
    obtain ⟨g1, g2⟩ := lookup_items m hn k x hx
    rw [fromStateItems, g1]
    change ∃ r', (fromState t (npConvert (toState x)) >>= _ : Except PyErr _) = .ok r' ∧ _
    rw [f1]
    change ∃ r', (fromStateItems l (npConvertItems (toStateItems m)) >>= _ : Except PyErr _) = .ok r' ∧ _
    rw [e1]
    refine ⟨(k, y) :: r, rfl, by simp [e2], by rw [skeletonItems, skeletonItems, f2, e3], ?_⟩
    intro k' hk' p
    rw [itemsAt]
    by_cases hk : k = k'
    · subst hk
      rw [if_pos rfl, f3 p, g2 p]
    · rw [if_neg hk]
      refine e4 k' ?_ p
      rw [List.map_cons, List.mem_cons] at hk'
      rcases hk' with h | h
      · exact absurd h.symm hk
      · exact h
theorem fromStateSeq_ok (itemsize : Bytes → Nat) : ∀ (l m : List Obj) (i : Nat) (M : List (Bytes × State)), SameSeq l m → ObjWfSeq itemsize m →
    (∀ j x, m[j]? = some x → lookup (indexKey (i + j)) M = .ok (npConvert (toState x))) →
    ∃ r, fromStateSeq i l M = .ok r ∧ skeletonSeq r = skeletonSeq l ∧ ∀ j p, seqAt r j p = (seqAt m j p).map npLeaf
  | [], [], i, M, _, _, _ => by
    rw [fromStateSeq]
    refine ⟨[], rfl, rfl, fun j p => ?_⟩
    rw [seqAt]
    rfl
  | [], _ :: _, _, _, h, _, _ => by rw [SameSeq] at h; exact absurd h id; all_goals simp
  | _ :: _, [], _, _, h, _, _ => by rw [SameSeq] at h; exact absurd h id; all_goals simp
  | t :: l, x :: m, i, M, h, hw, hM => by
    rw [SameSeq] at h
    rw [ObjWfSeq] at hw
    obtain ⟨r, e1, e2, e3⟩ := fromStateSeq_ok itemsize l m (i + 1) M h.2 hw.2 (fun j y hy => by
      rw [show i + 1 + j = i + (j + 1) by omega]
      exact hM (j + 1) y (by simpa using hy))
    obtain ⟨y, f1, f2, f3⟩ := fromState_ok itemsize t x h.1 hw.1
    rw [fromStateSeq, show lookup (indexKey i) M = .ok (npConvert (toState x)) from hM 0 x rfl]
    change ∃ r', (fromState t (npConvert (toState x)) >>= _ : Except PyErr _) = .ok r' ∧ _
    rw [f1]
    change ∃ r', (fromStateSeq (i + 1) l M >>= _ : Except PyErr _) = .ok r' ∧ _
    rw [e1]
    refine ⟨y :: r, rfl, by rw [skeletonSeq, skeletonSeq, f2, e2], ?_⟩
    intro j p
    cases j with
    | zero => rw [seqAt, seqAt]; exact f3 p
    | succ j => rw [seqAt, seqAt]; exact e3 j p
end

/-! ### The property -/

/-- Whatever bytes `to_bytes` returns for a tree, `from_bytes` with any target of the same structure gives back the leaves of the tree (JAX arrays
as NumPy arrays), each in its place, in the containers of the target. -/
theorem C107_round_trip (itemsize : Bytes → Nat) (maxSize : Nat) (x : Obj) (hx : x.Wf itemsize) (b : Bytes)
    (h : toBytes itemsize maxSize x = .ok b) (t : Obj) (ht : Same t x) :
    ∃ r, fromBytes itemsize t b = .ok r ∧ skeleton r = skeleton t ∧ ∀ p, r.leafAt p = (x.leafAt p).map npLeaf := by
  have h1 := restore_serialize itemsize maxSize (toState x) (wf_toState itemsize x hx) b h
  obtain ⟨r, e1, e2, e3⟩ := fromState_ok itemsize t x ht hx
  refine ⟨r, ?_, e2, e3⟩
  unfold fromBytes
  rw [h1]
  exact e1


/-- Without a target, the tree comes back with dicts in the place of lists and tuples. -/
theorem C107_without_target (itemsize : Bytes → Nat) (maxSize : Nat) (x : Obj) (hx : x.Wf itemsize) (b : Bytes)
    (h : toBytes itemsize maxSize x = .ok b) : restoreState itemsize b = .ok (npConvert (toState x)) :=
  restore_serialize itemsize maxSize (toState x) (wf_toState itemsize x hx) b h

/-- Two trees of the same structure with the same bytes have the same leaves: no information is lost. -/
theorem C107_injective (itemsize : Bytes → Nat) (maxSize : Nat) (x y : Obj) (hx : x.Wf itemsize) (hy : y.Wf itemsize) (b : Bytes)
    (h : toBytes itemsize maxSize x = .ok b) (h' : toBytes itemsize maxSize y = .ok b) (hxx : Same x x) (hxy : Same x y) (p : List Step) :
    (x.leafAt p).map npLeaf = (y.leafAt p).map npLeaf := by
  obtain ⟨r, e1, _, e3⟩ := C107_round_trip itemsize maxSize x hx b h x hxx
  obtain ⟨r', f1, _, f3⟩ := C107_round_trip itemsize maxSize y hy b h' x hxy
  rw [e1] at f1
  injection f1 with f1
  subst f1
  rw [← e3 p, ← f3 p]

/-! ### Which trees can be saved -/

/-- A leaf within the limits of msgpack: numbers of 64 bits, strings below 2^32 bytes.  The number of elements of an array is not limited, only the
number of its pieces. -/
def LeafFits (itemsize : Bytes → Nat) (maxSize : Nat) : Leaf → Prop
  | .none => True
  | .bool _ => True
  | .int i => Fits i
  | .str s => s.length < 2 ^ 32
  | .bytes b => b.length < 2 ^ 32
  | .array _ x => x.shape.length < 2 ^ 20 ∧ (∀ n ∈ x.shape, n < 2 ^ 64) ∧ x.dtype.length < 2 ^ 20 ∧ itemsize x.dtype ≤ 2 ^ 31 ∧
      (subchunks maxSize (itemsize x.dtype) x).length < 2 ^ 32
  | .scalar x => x.shape.length < 2 ^ 20 ∧ (∀ n ∈ x.shape, n < 2 ^ 64) ∧ x.dtype.length < 2 ^ 20 ∧ x.elems.flatten.length < 2 ^ 31
  | .info m => MetaFits m
  | .chunks _ => False

mutual
/-- A state dict within the limits. -/
def State.Fits (itemsize : Bytes → Nat) (maxSize : Nat) : State → Prop
  | .leaf l => LeafFits itemsize maxSize l
  | .dict l => l.length < 2 ^ 32 ∧ FitsItems itemsize maxSize l
/-- The same for the items of a dict. -/
def FitsItems (itemsize : Bytes → Nat) (maxSize : Nat) : List (Bytes × State) → Prop
  | [] => True
  | (k, s) :: l => (k.length < 2 ^ 32 ∧ s.Fits itemsize maxSize) ∧ FitsItems itemsize maxSize l
end

mutual
/-- A tree within the limits: containers and keys of less than 2^32 items or bytes. -/
def Obj.Fits (itemsize : Bytes → Nat) (maxSize : Nat) : Obj → Prop
  | .leaf l => LeafFits itemsize maxSize l
  | .dict l => l.length < 2 ^ 32 ∧ ObjFitsItems itemsize maxSize l
  | .seq _ l => l.length < 2 ^ 32 ∧ ObjFitsSeq itemsize maxSize l
/-- The same for the items of a dict. -/
def ObjFitsItems (itemsize : Bytes → Nat) (maxSize : Nat) : List (Bytes × Obj) → Prop
  | [] => True
  | (k, x) :: l => (k.length < 2 ^ 32 ∧ x.Fits itemsize maxSize) ∧ ObjFitsItems itemsize maxSize l
/-- The same for the items of a list. -/
def ObjFitsSeq (itemsize : Bytes → Nat) (maxSize : Nat) : List Obj → Prop
  | [] => True
  | x :: l => x.Fits itemsize maxSize ∧ ObjFitsSeq itemsize maxSize l
end

mutual
theorem fits_toState (itemsize : Bytes → Nat) (maxSize : Nat) : ∀ x : Obj, x.Fits itemsize maxSize → (toState x).Fits itemsize maxSize
  | .leaf l, h => by
    rw [Obj.Fits] at h
    rw [toState, State.Fits]
    exact h
  | .dict l, h => by
    rw [Obj.Fits] at h
    rw [toState, State.Fits]
    have := congrArg List.length (toStateItems_keys l)
    simp only [List.length_map] at this
    rw [this]
    exact ⟨h.1, fits_toStateItems itemsize maxSize l h.2⟩
  | .seq _ l, h => by
    rw [Obj.Fits] at h
    rw [toState, State.Fits]
    have := congrArg List.length (toStateSeq_keys l 0)
    simp only [List.length_map, List.length_range'] at this
    rw [this]
    exact ⟨h.1, fits_toStateSeq itemsize maxSize l 0 (by have := h.1; omega) h.2⟩
theorem fits_toStateItems (itemsize : Bytes → Nat) (maxSize : Nat) : ∀ l : List (Bytes × Obj), ObjFitsItems itemsize maxSize l →
    FitsItems itemsize maxSize (toStateItems l)
  | [], _ => by rw [toStateItems, FitsItems]; trivial
  | (k, x) :: l, h => by
    rw [ObjFitsItems] at h
    rw [toStateItems, FitsItems]
    exact ⟨⟨h.1.1, fits_toState itemsize maxSize x h.1.2⟩, fits_toStateItems itemsize maxSize l h.2⟩
theorem fits_toStateSeq (itemsize : Bytes → Nat) (maxSize : Nat) : ∀ (l : List Obj) (i : Nat), i + l.length < 10 ^ 20 →
    ObjFitsSeq itemsize maxSize l → FitsItems itemsize maxSize (toStateSeq i l)
  | [], i, _, _ => by rw [toStateSeq, FitsItems]; trivial
  | x :: l, i, hi, h => by
    rw [ObjFitsSeq] at h
    rw [toStateSeq, FitsItems]
    rw [List.length_cons] at hi
    exact ⟨⟨lt_of_le_of_lt (length_indexKey_le (by omega)) (by norm_num), fits_toState itemsize maxSize x h.1⟩,
      fits_toStateSeq itemsize maxSize l (i + 1) (by omega) h.2⟩
end

/-- A value that can be written. -/
def Writes (s : State) : Prop := ∃ v, toVal s = .ok v ∧ ∃ b, pack v = .ok b

theorem writes_indexed (l : List State) (i : Nat) (hi : i + l.length < 10 ^ 20) (h : ∀ s ∈ l, Writes s) :
    ∃ r, toValItems (indexed i l) = .ok r ∧ r.length = l.length ∧ ∀ q ∈ r, q.1.length < 2 ^ 32 ∧ ∃ c, pack q.2 = .ok c := by
  induction l generalizing i with
  | nil => rw [indexed, toValItems]; exact ⟨[], rfl, rfl, by simp⟩
  | cons s l ih =>
    rw [List.length_cons] at hi
    obtain ⟨r, e1, e2, e3⟩ := ih (i + 1) (by omega) fun s hs => h s (by simp [hs])
    obtain ⟨v, hv, hb⟩ := h s (by simp)
    rw [indexed, toValItems, hv]
    change ∃ r', (toValItems (indexed (i + 1) l) >>= _ : Except PyErr _) = .ok r' ∧ _
    rw [e1]
    refine ⟨(indexKey i, v) :: r, rfl, by simp [e2], ?_⟩
    intro q hq
    rcases List.mem_cons.1 hq with rfl | hq
    · exact ⟨lt_of_le_of_lt (length_indexKey_le (by omega)) (by norm_num), hb⟩
    · exact e3 q hq

theorem writes_indexed_dict (l : List State) (hl : l.length < 2 ^ 32) (h : ∀ s ∈ l, Writes s) : Writes (.dict (indexed 0 l)) := by
  obtain ⟨r, e1, e2, e3⟩ := writes_indexed l 0 (by omega) h
  refine ⟨.map r, by rw [toVal, e1]; rfl, ?_⟩
  exact pack_map_ok (by rw [e2]; exact hl) e3

theorem writes_array {x : NpArray} (j : Bool) (h1 : x.shape.length < 2 ^ 20)
    (h2 : ∀ n ∈ x.shape, n < 2 ^ 64) (h3 : x.dtype.length < 2 ^ 20) (h4 : x.elems.flatten.length ≤ 2 ^ 31) :
    Writes (.leaf (.array j x)) := by
  obtain ⟨d, hd, hl⟩ := ndarrayToBytes_ok h1 h2 h3 (by omega)
  refine ⟨.ext 1 d, by rw [toVal, leafVal, hd]; rfl, pack_ext_ok (by omega)⟩

theorem writes_chunkArray (itemsize : Bytes → Nat) (maxSize : Nat) (hm : maxSize ≤ 2 ^ 31) (x : NpArray) (hx : NpOk itemsize x)
    (hf : LeafFits itemsize maxSize (.array false x)) : Writes (chunkArray itemsize maxSize x) := by
  obtain ⟨h1, h2, h3, h4, h5⟩ := hf
  obtain ⟨v1, hv1, c1, hc1⟩ := writes_indexed_dict (x.shape.map fun n => .leaf (.int (n : Nat))) (by simp; omega) (by
    intro s hs
    obtain ⟨n, hn, rfl⟩ := List.mem_map.1 hs
    obtain ⟨c, hc, _⟩ := packInt_ok (i := (n : Int)) (by omega) (by have := h2 n hn; exact_mod_cast this)
    exact ⟨.int n, by rw [toVal, leafVal], c, by rw [pack]; exact hc⟩)
  obtain ⟨v2, hv2, c2, hc2⟩ := writes_indexed_dict ((subchunks maxSize (itemsize x.dtype) x).map fun p => .leaf (.array false p))
    (by simpa using h5) (by
    intro s hs
    obtain ⟨y, hy, rfl⟩ := List.mem_map.1 hs
    obtain ⟨hz, -⟩ := C27_piece_sizes (itemsize x.dtype) maxSize x hx.2.1
    obtain ⟨-, hdt, hl⟩ := hz y hy
    have hok := npOk_subchunks hx y hy
    have hsh : y.shape = [y.elems.length] := by
      unfold subchunks at hy
      rw [List.mem_map] at hy
      obtain ⟨q, hq, rfl⟩ := hy
      rfl
    have hel : y.elems.length ≤ y.elems.flatten.length := by
      rw [length_flatten_const _ hok.2.1]
      have := hok.1
      nlinarith
    have hmx : max maxSize (itemsize x.dtype) ≤ 2 ^ 31 := max_le hm h4
    exact writes_array false (by rw [hsh]; simp) (by rw [hsh]; simp; omega) (by rw [hdt]; exact h3) (by omega))
  refine ⟨.map [(chunkedKey, .bool true), (ascii "shape", v1), (ascii "chunks", v2)], ?_, ?_⟩
  · unfold chunkArray
    rw [toVal, toValItems, toValItems, toValItems, toValItems, hv1, hv2, toVal, leafVal]
    rfl
  · apply pack_map_ok (by simp)
    intro q hq
    simp only [List.mem_cons, List.not_mem_nil, or_false] at hq
    rcases hq with rfl | rfl | rfl
    · exact ⟨by decide +kernel, [0xc3], by rw [pack]; rfl⟩
    · exact ⟨by change (ascii "shape").length < _; decide +kernel, c1, hc1⟩
    · exact ⟨by change (ascii "chunks").length < _; decide +kernel, c2, hc2⟩

theorem writes_info (m : Meta) (h : MetaFits m) : Writes (.leaf (.info m)) := by
  obtain ⟨b, hb⟩ := C26_serializes m h
  unfold serializeMeta at hb
  obtain ⟨v, hv, hb⟩ := bind_ok hb
  exact ⟨v, by rw [toVal, leafVal]; exact hv, b, hb⟩

theorem writes_leaf (itemsize : Bytes → Nat) (maxSize : Nat) (hm : maxSize ≤ 2 ^ 31) (l : Leaf) (hl : LeafOk itemsize l)
    (hf : LeafFits itemsize maxSize l) : Writes (chunkLeaves itemsize maxSize (.leaf (npLeaf l))) := by
  cases l with
  | none => rw [npLeaf, chunkLeaves]; exact ⟨.nil, by rw [toVal, leafVal], [0xc0], by rw [pack]⟩; all_goals simp
  | bool b => rw [npLeaf, chunkLeaves]; exact ⟨.bool b, by rw [toVal, leafVal], _, (pack_bool_ok b).choose_spec.1⟩; all_goals simp
  | int i =>
    obtain ⟨c, hc, _⟩ := packInt_ok hf.1 hf.2
    rw [npLeaf, chunkLeaves]
    · exact ⟨.int i, by rw [toVal, leafVal], c, by rw [pack]; exact hc⟩
    all_goals simp
  | str s =>
    obtain ⟨c, hc, _⟩ := pack_str_ok hf
    rw [npLeaf, chunkLeaves]
    · exact ⟨.str s, by rw [toVal, leafVal], c, hc⟩
    all_goals simp
  | bytes s =>
    obtain ⟨c, hc, _⟩ := pack_bin_ok hf
    rw [npLeaf, chunkLeaves]
    · exact ⟨.bin s, by rw [toVal, leafVal], c, hc⟩
    all_goals simp
  | array j x =>
    rw [npLeaf, chunkLeaves]
    split
    · exact writes_chunkArray itemsize maxSize hm x hl hf
    · rename_i hs
      refine writes_array false hf.1 hf.2.1 hf.2.2.1 ?_
      rw [length_flatten_const _ hl.2.1, Nat.mul_comm]
      omega
  | scalar x =>
    obtain ⟨h1, h2, h3, h4⟩ := hf
    obtain ⟨d, hd, hdl⟩ := ndarrayToBytes_ok h1 h2 h3 (by omega)
    rw [npLeaf, chunkLeaves]
    · exact ⟨.ext 3 d, by rw [toVal, leafVal, hd]; rfl, pack_ext_ok (by omega)⟩
    all_goals simp
  | info m =>
    rw [npLeaf, chunkLeaves]
    · exact writes_info m hf
    all_goals simp
  | chunks c => exact absurd hf id

mutual
theorem writes_state (itemsize : Bytes → Nat) (maxSize : Nat) (hm : maxSize ≤ 2 ^ 31) : ∀ s : State, s.Wf itemsize → s.Fits itemsize maxSize →
    Writes (chunkLeaves itemsize maxSize (npConvert s))
  | .leaf l, hw, hf => by
    rw [State.Wf] at hw
    rw [State.Fits] at hf
    rw [npConvert]
    exact writes_leaf itemsize maxSize hm l hw hf
  | .dict l, hw, hf => by
    rw [State.Wf] at hw
    rw [State.Fits] at hf
    rw [npConvert, chunkLeaves]
    obtain ⟨r, e1, e2, e3⟩ := writes_items itemsize maxSize hm l hw.2 hf.2
    exact ⟨.map r, by rw [toVal, e1]; rfl, pack_map_ok (by rw [e2]; exact hf.1) e3⟩
theorem writes_items (itemsize : Bytes → Nat) (maxSize : Nat) (hm : maxSize ≤ 2 ^ 31) : ∀ l : List (Bytes × State), WfItems itemsize l →
    FitsItems itemsize maxSize l →
    ∃ r, toValItems (chunkItems itemsize maxSize (npConvertItems l)) = .ok r ∧ r.length = l.length ∧
      ∀ q ∈ r, q.1.length < 2 ^ 32 ∧ ∃ c, pack q.2 = .ok c
  | [], _, _ => by
    rw [npConvertItems, chunkItems, toValItems]
    exact ⟨[], rfl, rfl, by simp⟩
  | (k, s) :: l, hw, hf => by
    rw [WfItems] at hw
    rw [FitsItems] at hf
    obtain ⟨r, e1, e2, e3⟩ := writes_items itemsize maxSize hm l hw.2 hf.2
    obtain ⟨v, hv, hb⟩ := writes_state itemsize maxSize hm s hw.1 hf.1.2
    rw [npConvertItems, chunkItems, toValItems, hv]
    change ∃ r', (toValItems (chunkItems itemsize maxSize (npConvertItems l)) >>= _ : Except PyErr _) = .ok r' ∧ _
    rw [e1]
    refine ⟨(k, v) :: r, rfl, by simp [e2], ?_⟩
    intro q hq
    rcases List.mem_cons.1 hq with rfl | hq
    · exact ⟨hf.1.1, hb⟩
    · exact e3 q hq
end

/-- Every tree within the limits is written, also if its arrays are larger than the 2^32 bytes of a msgpack value. -/
theorem C107_serializes (itemsize : Bytes → Nat) (maxSize : Nat) (hm : maxSize ≤ 2 ^ 31) (x : Obj) (hx : x.Wf itemsize)
    (hf : x.Fits itemsize maxSize) : ∃ b, toBytes itemsize maxSize x = .ok b := by
  obtain ⟨v, hv, b, hb⟩ := writes_state itemsize maxSize hm (toState x) (wf_toState itemsize x hx) (fits_toState itemsize maxSize x hf)
  refine ⟨b, ?_⟩
  unfold toBytes serializeState
  rw [hv]
  exact hb

/-! ### The file -/

/-- A tree that `save_checkpoint` wrote in a file is what `restore_checkpoint` reads from it, whatever the writer's buffers were, and without
`overwrite` only if there was no file.  A save that is interrupted leaves a file from which the previous tree is restored, or the new one. -/
theorem C107_file (itemsize : Bytes → Nat) (maxSize : Nat) (x t : Obj) (hx : x.Wf itemsize) (ht : Same t x) (pieces : List (List UInt8))
    (hb : toBytes itemsize maxSize x = .ok pieces.flatten) (fs : SaveFile.FS UInt8) (path : List Char) (ow mk : Bool)
    (hdir : mk = true ∨ fs.dirs (PyStr.dirname path) = true) :
    (fs.files path = none ∨ ow = true → ∃ fs' r, SaveFile.saveCheckpoint fs path pieces ow mk = .ok fs' ∧
      restoreCheckpoint itemsize fs' path (some t) = .ok r ∧ skeleton r = skeleton t ∧ ∀ p, r.leafAt p = (x.leafAt p).map npLeaf) ∧
    ∀ n : Nat, let fs' := (SaveFile.saveMany fs (fun _ : Unit => ⟨path, pieces⟩) ow mk (List.replicate n ())).1
      restoreCheckpoint itemsize fs' path (some t) = restoreCheckpoint itemsize fs path (some t) ∨
        ∃ r, restoreCheckpoint itemsize fs' path (some t) = .ok r ∧ skeleton r = skeleton t ∧ ∀ p, r.leafAt p = (x.leafAt p).map npLeaf := by
  obtain ⟨r, e1, e2, e3⟩ := C107_round_trip itemsize maxSize x hx pieces.flatten hb t ht
  have hread : ∀ fs' : SaveFile.FS UInt8, fs'.files path = some pieces.flatten → restoreCheckpoint itemsize fs' path (some t) = .ok r := by
    intro fs' h
    unfold restoreCheckpoint
    rw [h]
    exact e1
  constructor
  · intro h
    obtain ⟨fs', s1, s2, _⟩ := (CkptFiles.C22_success fs path pieces ow mk hdir).2 h
    exact ⟨fs', r, s1, hread fs' s2, e2, e3⟩
  · intro n
    obtain ⟨h1, _, _⟩ := CkptFiles.C22_crash_atomic fs path pieces ow mk n
    rcases h1 with h1 | h1
    · left
      unfold restoreCheckpoint
      rw [h1]
    · exact Or.inr ⟨r, hread _ h1, e2, e3⟩

/-- Several files: the result has, for each name, what restoring that file alone gives; one file that fails makes all of it fail. -/
theorem C107_multiple (itemsize : Bytes → Nat) (fs : SaveFile.FS UInt8) (files : List (List Char × Option Obj)) (out : List (List Char × Obj))
    (h : restoreMultiple itemsize fs files = .ok out) :
    out.length = files.length ∧ ∀ i (hi : i < files.length), ∃ r, restoreCheckpoint itemsize fs files[i].1 files[i].2 = .ok r ∧
      out[i]? = some (files[i].1, r) := by
  unfold restoreMultiple at h
  obtain ⟨trees, ht, h⟩ := bind_ok h
  cases h
  have key : ∀ (l : List (List Char × Option Obj)) (ts : List Obj),
      l.mapM (fun p => restoreCheckpoint itemsize fs p.1 p.2) = .ok ts →
      ((l.map Prod.fst).zip ts).length = l.length ∧ ∀ i (hi : i < l.length), ∃ r, restoreCheckpoint itemsize fs l[i].1 l[i].2 = .ok r ∧
        ((l.map Prod.fst).zip ts)[i]? = some (l[i].1, r) := by
    intro l
    induction l with
    | nil => intro ts h; cases h; simp
    | cons p l ih =>
      intro ts h
      rw [List.mapM_cons] at h
      obtain ⟨y, hy, h⟩ := bind_ok h
      obtain ⟨ys, hys, h⟩ := bind_ok h
      cases h
      obtain ⟨h1, h2⟩ := ih ys hys
      refine ⟨by simpa using h1, ?_⟩
      intro i hi
      cases i with
      | zero => exact ⟨y, hy, rfl⟩
      | succ i =>
        obtain ⟨r, a, b⟩ := h2 i (by simpa using hi)
        exact ⟨r, by simpa using a, by simpa using b⟩
  exact key files trees ht

/-! ### Other targets -/

/-- A target with a key that the file does not have, or a list of another length, is refused. -/
theorem C107_refused (l : List (Bytes × Obj)) (m : List (Bytes × State)) (k : Bytes) (hk : k ∈ l.map Prod.fst) (hm : k ∉ m.map Prod.fst) :
    fromState (.dict l) (.dict m) = .error .valueError ∧
    ∀ (t : Bool) (xs : List Obj), xs.length ≠ m.length → fromState (.seq t xs) (.dict m) = .error .valueError := by
  constructor
  · rw [fromState, if_neg]
    intro h
    rw [List.all_eq_true] at h
    obtain ⟨q, hq, rfl⟩ := List.mem_map.1 hk
    have := h q hq
    simp only [decide_eq_true_eq] at this
    exact hm this
  · intro t xs hx
    rw [fromState, if_neg (fun h => hx h.symm)]

/-- What the file has beside the keys of the target is dropped without an error: the two entries of this file are not the one of the tree that is
restored. -/
theorem C107_extra_keys_counterexample (itemsize : Bytes → Nat) :
    ∃ (x t : Obj) (b : Bytes) (r : Obj), x.Wf itemsize ∧ toBytes itemsize (2 ^ 30) x = .ok b ∧ fromBytes itemsize t b = .ok r ∧
      x.leafAt [.key [98]] = some (.int 2) ∧ r.leafAt [.key [98]] = none := by
  have hw : (Obj.dict [([97], .leaf (.int 1)), ([98], .leaf (.int 2))]).Wf itemsize := by
    simp only [Obj.Wf, ObjWfItems, LeafOk]
    decide +kernel
  have hb : ∃ b, toBytes itemsize (2 ^ 30) (Obj.dict [([97], .leaf (.int 1)), ([98], .leaf (.int 2))]) = .ok b := ⟨_, rfl⟩
  obtain ⟨b, hb⟩ := hb
  refine ⟨.dict [([97], .leaf (.int 1)), ([98], .leaf (.int 2))], .dict [([97], .leaf .none)], b, .dict [([97], .leaf (.int 1))], hw, hb, ?_, rfl, rfl⟩
  unfold fromBytes
  rw [C107_without_target itemsize _ _ hw b hb]
  rfl

/-- The shape of an array is not compared with the target: a file with three numbers is restored in the place of two. -/
theorem C107_shape_counterexample :
    ∃ (x t : Obj) (b : Bytes) (r : Obj) (y : NpArray), x.Wf (fun _ => 1) ∧ toBytes (fun _ => 1) (2 ^ 30) x = .ok b ∧
      t.leafAt [] = some (.array false ⟨[2], [98], [[1], [2]]⟩) ∧ fromBytes (fun _ => 1) t b = .ok r ∧
      r.leafAt [] = some (.array false y) ∧ y.shape = [3] := by
  have hw : (Obj.leaf (.array true ⟨[3], [98], [[7], [8], [9]]⟩)).Wf (fun _ => 1) := by simp [Obj.Wf, LeafOk, NpOk]
  have hb : ∃ b, toBytes (fun _ => 1) (2 ^ 30) (.leaf (.array true ⟨[3], [98], [[7], [8], [9]]⟩)) = .ok b := ⟨_, rfl⟩
  obtain ⟨b, hb⟩ := hb
  refine ⟨_, .leaf (.array false ⟨[2], [98], [[1], [2]]⟩), b,
    .leaf (.array false ⟨[3], [98], [[7], [8], [9]]⟩), ⟨[3], [98], [[7], [8], [9]]⟩, hw, hb, rfl, ?_, rfl, rfl⟩
  unfold fromBytes
  rw [C107_without_target _ _ _ hw b hb]
  rfl

/-- A dict with a reserved key is written, but not read again: the key of the pieces of an array makes the reader look for a shape. -/
theorem C107_reserved_key_counterexample (itemsize : Bytes → Nat) :
    ∃ (x : Obj) (b : Bytes), x = .dict [(chunkedKey, .leaf (.int 1))] ∧ toBytes itemsize (2 ^ 30) x = .ok b ∧
      restoreState itemsize b = .error .keyError := by
  have hb : ∃ b, pack (.map [(chunkedKey, .int 1)]) = .ok b := ⟨_, rfl⟩
  obtain ⟨b, hb⟩ := hb
  refine ⟨_, b, rfl, hb, ?_⟩
  unfold restoreState
  rw [unpackb_pack false _ b hb, conv_false]
  have : fromVal itemsize (.map [(chunkedKey, .int 1)]) = .ok (.dict [(chunkedKey, .leaf (.int 1))]) := by
    refine fromVal_toVal itemsize _ ?_ _ rfl
    simp only [State.PackOk, PackOkItems, LeafOk]
    exact ⟨by decide +kernel, ⟨trivial, rfl⟩, trivial⟩
  change (fromVal itemsize (.map [(chunkedKey, .int 1)]) >>= unchunkLeaves : Except PyErr _) = _
  rw [this]
  rfl

/-! ### The hypotheses can be met -/

/-- A tree with a list, a JAX array that is cut in pieces of two bytes, and a number. -/
def exampleTree : Obj :=
  .dict [([97], .seq true [.leaf (.array true ⟨[3], [98], [[7], [8], [9]]⟩), .leaf .none]), ([98], .leaf (.int 5))]

/-- A target with the keys in the other order. -/
def exampleTarget : Obj :=
  .dict [([98], .leaf .none), ([97], .seq false [.leaf .none, .leaf .none])]

theorem exampleTree_wf : exampleTree.Wf (fun _ => 1) := by
  simp only [exampleTree, Obj.Wf, ObjWfItems, ObjWfSeq, LeafOk, NpOk]
  decide +kernel

theorem exampleTarget_same : Same exampleTarget exampleTree := by
  unfold exampleTarget exampleTree
  rw [Same, SameItems, SameItems, SameItems]
  refine ⟨List.Perm.swap _ _ _, ⟨.leaf (.int 5), by simp, by rw [Same]; trivial⟩,
    ⟨.seq true [.leaf (.array true ⟨[3], [98], [[7], [8], [9]]⟩), .leaf .none], List.mem_cons_self, ?_⟩, trivial⟩
  rw [Same, SameSeq, SameSeq, SameSeq, Same, Same]
  exact ⟨trivial, trivial, trivial⟩

theorem exampleTree_fits : exampleTree.Fits (fun _ => 1) 2 := by
  simp only [exampleTree, Obj.Fits, ObjFitsItems, ObjFitsSeq, LeafFits, Ser.Fits]
  refine ⟨by simp, ⟨by simp, by simp, ⟨by simp, by simp, by simp, by simp, ?_⟩, trivial, trivial⟩, ⟨by simp, by norm_num, by norm_num⟩, trivial⟩
  simp [subchunks, pieces]

example : ∃ b, toBytes (fun _ => 1) 2 exampleTree = .ok b ∧ ∃ r, fromBytes (fun _ => 1) exampleTarget b = .ok r ∧
    r.leafAt [.key [97], .idx 0] = some (.array false ⟨[3], [98], [[7], [8], [9]]⟩) := by
  obtain ⟨b, hb⟩ := C107_serializes _ 2 (by norm_num) _ exampleTree_wf exampleTree_fits
  obtain ⟨r, h1, _, h3⟩ := C107_round_trip _ _ _ exampleTree_wf b hb _ exampleTarget_same
  exact ⟨b, hb, r, h1, by rw [h3]; rfl⟩

example : ∃ (fs : SaveFile.FS UInt8), fs.dirs (PyStr.dirname "d/c".toList) = true ∧ fs.files "d/c".toList = none :=
  ⟨⟨fun _ => none, fun _ => true⟩, rfl, rfl⟩

end Verif.Ser
