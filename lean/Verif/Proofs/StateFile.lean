import Verif.Model.StateFile
import Verif.Proofs.Serialization

/-!
Lemmas on the files of a state.
-/

namespace Verif.Ser

open Verif Msgpack

/-- A leaf that is what it says it is: array elements of the size of the dtype and as many as the shape says. -/
def LeafOk (itemsize : Bytes → Nat) : Leaf → Prop
  | .array _ x => NpOk itemsize x
  | .scalar x => NpOk itemsize x
  | .info (.sliceNdArray x) => x.items.length = x.shape.prod
  | .chunks _ => False
  | _ => True

mutual
/-- A state dict without repeated or reserved keys. -/
def State.Wf (itemsize : Bytes → Nat) : State → Prop
  | .leaf l => LeafOk itemsize l
  | .dict l => ((l.map Prod.fst).Nodup ∧ magicKey ∉ l.map Prod.fst ∧ chunkedKey ∉ l.map Prod.fst) ∧ WfItems itemsize l
/-- The same for the items of a dict. -/
def WfItems (itemsize : Bytes → Nat) : List (Bytes × State) → Prop
  | [] => True
  | (_, s) :: l => s.Wf itemsize ∧ WfItems itemsize l
end

mutual
/-- A state dict that msgpack reads back: no magic key. -/
def State.PackOk (itemsize : Bytes → Nat) : State → Prop
  | .leaf l => LeafOk itemsize l ∧ npLeaf l = l
  | .dict l => magicKey ∉ l.map Prod.fst ∧ PackOkItems itemsize l
/-- The same for the items of a dict. -/
def PackOkItems (itemsize : Bytes → Nat) : List (Bytes × State) → Prop
  | [] => True
  | (_, s) :: l => s.PackOk itemsize ∧ PackOkItems itemsize l
end

theorem map_ok {α β : Type} {f : α → β} {x : Except PyErr α} {b : β} (h : x.map f = .ok b) : ∃ a, x = .ok a ∧ f a = b := by
  cases x with
  | error e => cases h
  | ok a => exact ⟨a, rfl, by injection h⟩

theorem extPack_round_trip (itemsize : Bytes → Nat) (m : Meta) (hm : LeafOk itemsize (.info m)) (v : Val) (h : extPack m = .ok v) :
    fromVal itemsize v = .ok (.leaf (.info m)) := by
  cases m with
  | shapedArray x =>
    obtain ⟨d, hd, hv⟩ := bind_ok h
    cases hv
    rw [fromVal, extLeaf, if_neg (by decide), if_neg (by decide), extUnpack, if_pos rfl, shapedArray_round_trip x d hd]; rfl
  | slice x =>
    obtain ⟨d, hd, hv⟩ := bind_ok h
    cases hv
    rw [fromVal, extLeaf, if_neg (by decide), if_neg (by decide), extUnpack, if_neg (by decide), if_pos rfl, slice_round_trip x d hd]; rfl
  | sliceNd x =>
    obtain ⟨d, hd, hv⟩ := bind_ok h
    cases hv
    rw [fromVal, extLeaf, if_neg (by decide), if_neg (by decide), extUnpack, if_neg (by decide), if_neg (by decide), if_pos rfl,
      sliceNd_round_trip x d hd]; rfl
  | sliceNdArray x =>
    obtain ⟨d, hd, hv⟩ := bind_ok h
    cases hv
    rw [fromVal, extLeaf, if_neg (by decide), if_neg (by decide), extUnpack, if_neg (by decide), if_neg (by decide), if_neg (by decide),
      if_pos rfl, sliceNdArray_round_trip x hm d hd]; rfl
  | indexInfo x =>
    obtain ⟨d, hd, hv⟩ := bind_ok h
    cases hv
    rw [fromVal, extLeaf, if_neg (by decide), if_neg (by decide), extUnpack, if_neg (by decide), if_neg (by decide), if_neg (by decide),
      if_neg (by decide), if_pos rfl, indexInfo_round_trip x d hd]; rfl

theorem leafVal_round_trip (itemsize : Bytes → Nat) (l : Leaf) (hl : LeafOk itemsize l) (hn : npLeaf l = l) (v : Val)
    (h : leafVal l = .ok v) : fromVal itemsize v = .ok (.leaf l) := by
  cases l with
  | none => cases h; rw [fromVal]
  | bool b => cases h; rw [fromVal]
  | int i => cases h; rw [fromVal]
  | str s => cases h; rw [fromVal]
  | bytes b => cases h; rw [fromVal]
  | array j x =>
    obtain ⟨d, hd, rfl⟩ := map_ok h
    rw [fromVal, extLeaf, if_pos rfl, ndarray_round_trip itemsize x hl d hd]
    rw [← hn]
    rfl
  | scalar x =>
    obtain ⟨d, hd, rfl⟩ := map_ok h
    rw [fromVal, extLeaf, if_neg (by decide), if_pos rfl, ndarray_round_trip itemsize x hl d hd]
    rfl
  | info m => exact extPack_round_trip itemsize m hl v h
  | chunks c => exact absurd hl id

theorem toValItems_keys (l : List (Bytes × State)) (r : List (Bytes × Val)) (h : toValItems l = .ok r) :
    r.map Prod.fst = l.map Prod.fst := by
  induction l generalizing r with
  | nil => rw [toValItems] at h; cases h; rfl
  | cons p l ih =>
    obtain ⟨k, s⟩ := p
    rw [toValItems] at h
    obtain ⟨v, _, h⟩ := bind_ok h
    obtain ⟨r', hr, h⟩ := bind_ok h
    cases h
    simp [ih r' hr]

mutual
theorem fromVal_toVal (itemsize : Bytes → Nat) : ∀ (s : State) (_ : s.PackOk itemsize) (v : Val), toVal s = .ok v → fromVal itemsize v = .ok s
  | .leaf l, hs, v, h => by
    rw [toVal] at h
    rw [State.PackOk] at hs
    exact leafVal_round_trip itemsize l hs.1 hs.2 v h
  | .dict l, hs, v, h => by
    rw [toVal] at h
    rw [State.PackOk] at hs
    obtain ⟨r, hr, rfl⟩ := map_ok h
    rw [fromVal, if_neg (by rw [toValItems_keys l r hr]; exact hs.1), fromVal_toValItems itemsize l hs.2 r hr]
    rfl
theorem fromVal_toValItems (itemsize : Bytes → Nat) : ∀ (l : List (Bytes × State)) (_ : PackOkItems itemsize l) (r : List (Bytes × Val)),
    toValItems l = .ok r → fromValItems itemsize r = .ok l
  | [], _, r, h => by
    rw [toValItems] at h
    cases h
    rw [fromValItems]
  | (k, s) :: l, hs, r, h => by
    rw [toValItems] at h
    rw [PackOkItems] at hs
    obtain ⟨v, hv, h⟩ := bind_ok h
    obtain ⟨r', hr, h⟩ := bind_ok h
    cases h
    rw [fromValItems, fromVal_toVal itemsize s hs.1 v hv]
    change (fromValItems itemsize r' >>= _ : Except PyErr _) = _
    rw [fromVal_toValItems itemsize l hs.2 r' hr]
    rfl
end

/-! ### Arrays in pieces -/

theorem indexKey_inj {i j : Nat} (h : indexKey i = indexKey j) : i = j := by
  have h1 := parseKey_indexKey i
  rw [h, parseKey_indexKey] at h1
  injection h1 with h1
  exact h1.symm

theorem indexKey_ne_chunked (n : Nat) : indexKey n ≠ chunkedKey := by
  intro h
  have h1 := parseKey_indexKey n
  rw [h] at h1
  have : parseKey chunkedKey = .error .valueError := by decide +kernel
  rw [this] at h1
  cases h1

theorem lookup_indexed (l : List State) (i j : Nat) (s : State) (h : l[j]? = some s) :
    lookup (indexKey (i + j)) (indexed i l) = .ok s := by
  induction l generalizing i j with
  | nil => simp at h
  | cons x l ih =>
    cases j with
    | zero =>
      simp only [List.getElem?_cons_zero, Option.some.injEq] at h
      subst h
      simp [lookup, indexed]
    | succ j =>
      have h' : l[j]? = some s := by simpa using h
      have hne : (indexKey i == indexKey (i + (j + 1))) = false := by
        rw [beq_eq_false_iff_ne]
        intro he
        have := indexKey_inj he
        omega
      have := ih (i + 1) j h'
      unfold lookup at this ⊢
      rw [indexed, List.find?_cons]
      simp only [hne]
      rw [show i + (j + 1) = i + 1 + j by omega]
      exact this

theorem length_indexed (l : List State) (i : Nat) : (indexed i l).length = l.length := by
  induction l generalizing i with
  | nil => rfl
  | cons x l ih => simp [indexed, ih]

theorem dictToTuple_indexed (l : List State) : dictToTuple (.dict (indexed 0 l)) = .ok l := by
  rw [dictToTuple, length_indexed]
  have h := mapM_ok_map (fun i => lookup (indexKey i) (indexed 0 l)) (fun i => (l[i]?).getD (.leaf .none)) (List.range l.length) (by
    intro i hi
    rw [List.mem_range] at hi
    have := lookup_indexed l 0 i l[i] (by simp [hi])
    rw [Nat.zero_add] at this
    rw [this]
    simp [hi])
  rw [h]
  congr 1
  apply List.ext_getElem?
  intro i
  by_cases hi : i < l.length
  · simp [hi]
  · simp [hi]

theorem keys_indexed (l : List State) (i : Nat) : (indexed i l).map Prod.fst = (List.range' i l.length).map indexKey := by
  induction l generalizing i with
  | nil => rfl
  | cons x l ih => simp [indexed, ih, List.range'_succ]

theorem packOk_indexed (itemsize : Bytes → Nat) (l : List State) (i : Nat) (h : ∀ s ∈ l, s.PackOk itemsize) :
    PackOkItems itemsize (indexed i l) := by
  induction l generalizing i with
  | nil => rw [indexed, PackOkItems]; trivial
  | cons x l ih =>
    rw [indexed, PackOkItems]
    exact ⟨h x (by simp), ih (i + 1) fun s hs => h s (by simp [hs])⟩

theorem packOk_indexed_dict (itemsize : Bytes → Nat) (l : List State) (h : ∀ s ∈ l, s.PackOk itemsize) :
    (State.dict (indexed 0 l)).PackOk itemsize := by
  rw [State.PackOk, keys_indexed]
  refine ⟨?_, packOk_indexed itemsize l 0 h⟩
  intro hm
  obtain ⟨i, _, hi⟩ := List.mem_map.1 hm
  exact indexKey_ne_magic i hi

theorem npOk_subchunks {itemsize : Bytes → Nat} {maxSize : Nat} {x : NpArray} (hx : NpOk itemsize x) :
    ∀ p ∈ subchunks maxSize (itemsize x.dtype) x, NpOk itemsize p := by
  have hk : max 1 (maxSize / itemsize x.dtype) ≠ 0 := by omega
  intro p hp
  unfold subchunks at hp
  obtain ⟨q, hq, rfl⟩ := List.mem_map.1 hp
  refine ⟨hx.1, ?_, by simp⟩
  intro e he
  apply hx.2.1
  rw [← pieces_flatten hk x.elems]
  exact List.mem_flatten.2 ⟨q, hq, he⟩

theorem packOk_chunkArray (itemsize : Bytes → Nat) (maxSize : Nat) (x : NpArray) (hx : NpOk itemsize x) :
    (chunkArray itemsize maxSize x).PackOk itemsize := by
  unfold chunkArray
  rw [State.PackOk, PackOkItems, PackOkItems, PackOkItems, PackOkItems]
  have h1 : magicKey ∉ [chunkedKey, ascii "shape", ascii "chunks"] := by decide +kernel
  refine ⟨h1, ?_, ?_, ?_, trivial⟩
  · rw [State.PackOk]
    exact ⟨trivial, rfl⟩
  · apply packOk_indexed_dict
    intro s hs
    obtain ⟨n, _, rfl⟩ := List.mem_map.1 hs
    rw [State.PackOk]
    exact ⟨trivial, rfl⟩
  · apply packOk_indexed_dict
    intro s hs
    obtain ⟨p, hp, rfl⟩ := List.mem_map.1 hs
    rw [State.PackOk]
    exact ⟨npOk_subchunks hx p hp, rfl⟩

theorem unchunk_chunkArray (itemsize : Bytes → Nat) (maxSize : Nat) (x : NpArray) (hx : NpOk itemsize x) (hne : x.elems ≠ []) :
    unchunkLeaves (chunkArray itemsize maxSize x) = .ok (.leaf (.array false x)) := by
  have hk : max 1 (maxSize / itemsize x.dtype) ≠ 0 := by omega
  have hp : pieces (max 1 (maxSize / itemsize x.dtype)) x.elems ≠ [] := by
    rw [pieces_cons hne hk]
    simp
  unfold chunkArray
  rw [unchunkLeaves, if_pos (by simp)]
  unfold unchunk
  have e1 : ∀ a b c : State, lookup (ascii "shape") [(chunkedKey, a), (ascii "shape", b), (ascii "chunks", c)] = .ok b := by
    intro a b c
    have h1 : (chunkedKey == ascii "shape") = false := by decide +kernel
    simp [lookup, h1]
  have e2 : ∀ a b c : State, lookup (ascii "chunks") [(chunkedKey, a), (ascii "shape", b), (ascii "chunks", c)] = .ok c := by
    intro a b c
    have h1 : (chunkedKey == ascii "chunks") = false := by decide +kernel
    have h2 : (ascii "shape" == ascii "chunks") = false := by decide +kernel
    simp [lookup, h1, h2]
  rw [e1, e2]
  simp only [bind, Except.bind, dictToTuple_indexed, mapM_map]
  have e3 : x.shape.mapM (fun n => stateNat (.leaf (.int (n : Nat)))) = .ok x.shape := by
    have := mapM_ok_map (fun n : Nat => stateNat (.leaf (.int (n : Nat)))) id x.shape (fun a _ => by simp [stateNat])
    rw [this, List.map_id]
  have e4 : (subchunks maxSize (itemsize x.dtype) x).mapM (fun p => stateArray (.leaf (.array false p))) =
      .ok (subchunks maxSize (itemsize x.dtype) x) := by
    have := mapM_ok_map (fun p : NpArray => stateArray (.leaf (.array false p))) id (subchunks maxSize (itemsize x.dtype) x)
      (fun a _ => rfl)
    rw [this, List.map_id]
  rw [e3, e4]
  unfold subchunks
  simp only [concatenate_pieces x.dtype _ hp, pieces_flatten hk]
  rw [if_pos hx.2.2]
  rfl

mutual
theorem packOk_chunkLeaves (itemsize : Bytes → Nat) (maxSize : Nat) : ∀ (s : State), s.Wf itemsize →
    (chunkLeaves itemsize maxSize (npConvert s)).PackOk itemsize
  | .leaf l, h => by
    rw [State.Wf] at h
    rw [npConvert]
    cases l with
    | array j x =>
      rw [npLeaf, chunkLeaves]
      split
      · exact packOk_chunkArray itemsize maxSize x h
      · rw [State.PackOk]
        exact ⟨h, rfl⟩
    | none => rw [npLeaf, chunkLeaves, State.PackOk]; exact ⟨h, rfl⟩; all_goals simp
    | bool b => rw [npLeaf, chunkLeaves, State.PackOk]; exact ⟨h, rfl⟩; all_goals simp
    | int i => rw [npLeaf, chunkLeaves, State.PackOk]; exact ⟨h, rfl⟩; all_goals simp
    | str i => rw [npLeaf, chunkLeaves, State.PackOk]; exact ⟨h, rfl⟩; all_goals simp
    | bytes i => rw [npLeaf, chunkLeaves, State.PackOk]; exact ⟨h, rfl⟩; all_goals simp
    | scalar i => rw [npLeaf, chunkLeaves, State.PackOk]; exact ⟨h, rfl⟩; all_goals simp
    | info i => rw [npLeaf, chunkLeaves, State.PackOk]; exact ⟨h, rfl⟩; all_goals simp
    | chunks i => exact absurd h id
  | .dict l, h => by
    rw [State.Wf] at h
    rw [npConvert, chunkLeaves, State.PackOk]
    obtain ⟨h1, h2⟩ := packOk_chunkItems itemsize maxSize l h.2
    rw [h2]
    exact ⟨h.1.2.1, h1⟩
theorem packOk_chunkItems (itemsize : Bytes → Nat) (maxSize : Nat) : ∀ (l : List (Bytes × State)), WfItems itemsize l →
    PackOkItems itemsize (chunkItems itemsize maxSize (npConvertItems l)) ∧
      (chunkItems itemsize maxSize (npConvertItems l)).map Prod.fst = l.map Prod.fst
  | [], _ => by
    rw [npConvertItems, chunkItems, PackOkItems]
    exact ⟨trivial, rfl⟩
  | (k, s) :: l, h => by
    rw [WfItems] at h
    rw [npConvertItems, chunkItems, PackOkItems]
    obtain ⟨h1, h2⟩ := packOk_chunkItems itemsize maxSize l h.2
    exact ⟨⟨packOk_chunkLeaves itemsize maxSize s h.1, h1⟩, by simp [h2]⟩
end

mutual
theorem unchunk_chunkLeaves (itemsize : Bytes → Nat) (maxSize : Nat) : ∀ (s : State), s.Wf itemsize →
    unchunkLeaves (chunkLeaves itemsize maxSize (npConvert s)) = .ok (npConvert s)
  | .leaf l, h => by
    rw [State.Wf] at h
    rw [npConvert]
    cases l with
    | array j x =>
      rw [npLeaf, chunkLeaves]
      split
      · rename_i hs
        refine unchunk_chunkArray itemsize maxSize x h ?_
        intro he
        rw [he] at hs
        simp at hs
      · rw [unchunkLeaves]
    | none => rw [npLeaf, chunkLeaves, unchunkLeaves]; all_goals simp
    | bool b => rw [npLeaf, chunkLeaves, unchunkLeaves]; all_goals simp
    | int i => rw [npLeaf, chunkLeaves, unchunkLeaves]; all_goals simp
    | str i => rw [npLeaf, chunkLeaves, unchunkLeaves]; all_goals simp
    | bytes i => rw [npLeaf, chunkLeaves, unchunkLeaves]; all_goals simp
    | scalar i => rw [npLeaf, chunkLeaves, unchunkLeaves]; all_goals simp
    | info i => rw [npLeaf, chunkLeaves, unchunkLeaves]; all_goals simp
    | chunks i => exact absurd h id
  | .dict l, h => by
    rw [State.Wf] at h
    rw [npConvert, chunkLeaves, unchunkLeaves, if_neg, unchunk_chunkItems itemsize maxSize l h.2]
    · rfl
    · rw [(packOk_chunkItems itemsize maxSize l h.2).2]
      exact h.1.2.2
theorem unchunk_chunkItems (itemsize : Bytes → Nat) (maxSize : Nat) : ∀ (l : List (Bytes × State)), WfItems itemsize l →
    unchunkItems (chunkItems itemsize maxSize (npConvertItems l)) = .ok (npConvertItems l)
  | [], _ => by
    rw [npConvertItems, chunkItems, unchunkItems]
  | (k, s) :: l, h => by
    rw [WfItems] at h
    rw [npConvertItems, chunkItems, unchunkItems, unchunk_chunkLeaves itemsize maxSize s h.1]
    change (unchunkItems _ >>= _ : Except PyErr _) = _
    rw [unchunk_chunkItems itemsize maxSize l h.2]
    rfl
end

theorem restore_serialize (itemsize : Bytes → Nat) (maxSize : Nat) (s : State) (hs : s.Wf itemsize) (b : Bytes)
    (h : serializeState itemsize maxSize s = .ok b) : restoreState itemsize b = .ok (npConvert s) := by
  unfold serializeState at h
  obtain ⟨v, hv, h⟩ := bind_ok h
  unfold restoreState
  rw [unpackb_pack false v b h, conv_false]
  change (fromVal itemsize v >>= _ : Except PyErr _) = _
  rw [fromVal_toVal itemsize _ (packOk_chunkLeaves itemsize maxSize s hs) v hv]
  exact unchunk_chunkLeaves itemsize maxSize s hs

end Verif.Ser
