import Verif.Proofs.Serialization

/-!
# Serialization of metadata and of array chunks (C26, C27)

`SliceFits`, `NpOk` and `ChunkOk` (Verif/Proofs/Serialization.lean) are the hypotheses: numbers that
fit 64 bits, element bytes of the size of the dtype, and slices with the shape of their chunk.
-/

namespace Verif.Ser

open Verif Msgpack

/-! ## C26 -/

/-- A metadata value that msgpack can hold: numbers of at most 64 bits, sizes below 2^20. -/
def MetaFits : Meta → Prop
  | .shapedArray x => x.shape.length < 2 ^ 20 ∧ (∀ n ∈ x.shape, n < 2 ^ 64) ∧ x.dtype.length < 2 ^ 20
  | .slice x => SliceFits x
  | .sliceNd x => x.length < 2 ^ 20 ∧ ∀ s ∈ x, SliceFits s
  | .sliceNdArray x => x.shape.length < 2 ^ 20 ∧ (∀ n ∈ x.shape, n < 2 ^ 64) ∧ x.items.length < 2 ^ 20 ∧
      ∀ y ∈ x.items, y.length ≤ 64 ∧ ∀ s ∈ y, SliceFits s
  | .indexInfo x => x.globalShape.shape.length < 2 ^ 20 ∧ (∀ n ∈ x.globalShape.shape, n < 2 ^ 64) ∧
      x.globalShape.dtype.length < 2 ^ 20 ∧ x.globalSlices.length < 2 ^ 20 ∧
      (∀ y ∈ x.globalSlices, y.length ≤ 64 ∧ ∀ s ∈ y, SliceFits s) ∧
      x.shards.length < 2 ^ 20 ∧ ∀ n ∈ x.shards, n < 2 ^ 64

/-- The number of elements of an array of slices is the product of its shape. -/
def MetaOk : Meta → Prop
  | .sliceNdArray x => x.items.length = x.shape.prod
  | _ => True

/-- Whatever bytes the serialization of a metadata object returns, restoring them gives the object. -/
theorem C26_round_trip (m : Meta) (hm : MetaOk m) (b : Bytes) (h : serializeMeta m = .ok b) :
    restoreMeta b = .ok m := by
  unfold serializeMeta at h
  obtain ⟨v, hv, h⟩ := bind_ok h
  unfold restoreMeta
  rw [unpackb_pack false v b h, conv_false]
  cases m with
  | shapedArray x =>
    obtain ⟨d, hd, hv⟩ := bind_ok hv
    cases hv
    change extUnpack 4 d = _
    rw [extUnpack, if_pos rfl, shapedArray_round_trip x d hd]; rfl
  | slice x =>
    obtain ⟨d, hd, hv⟩ := bind_ok hv
    cases hv
    change extUnpack 5 d = _
    rw [extUnpack, if_neg (by decide), if_pos rfl, slice_round_trip x d hd]; rfl
  | sliceNd x =>
    obtain ⟨d, hd, hv⟩ := bind_ok hv
    cases hv
    change extUnpack 6 d = _
    rw [extUnpack, if_neg (by decide), if_neg (by decide), if_pos rfl, sliceNd_round_trip x d hd]; rfl
  | sliceNdArray x =>
    obtain ⟨d, hd, hv⟩ := bind_ok hv
    cases hv
    change extUnpack 7 d = _
    rw [extUnpack, if_neg (by decide), if_neg (by decide), if_neg (by decide), if_pos rfl,
      sliceNdArray_round_trip x hm d hd]; rfl
  | indexInfo x =>
    obtain ⟨d, hd, hv⟩ := bind_ok hv
    cases hv
    change extUnpack 8 d = _
    rw [extUnpack, if_neg (by decide), if_neg (by decide), if_neg (by decide), if_neg (by decide),
      if_pos rfl, indexInfo_round_trip x d hd]; rfl

/-- Serialization succeeds on every value that fits, so the round trip is not vacuous. -/
theorem C26_serializes (m : Meta) (h : MetaFits m) : ∃ b, serializeMeta m = .ok b := by
  have fin : ∀ (c : UInt8) (d : Bytes), d.length < 2 ^ 32 → ∃ b, pack (.ext c d) = .ok b :=
    fun c d hd => pack_ext_ok hd
  cases m with
  | shapedArray x =>
    obtain ⟨d, hd, hl⟩ := shapedArrayToBytes_ok h.1 h.2.1 h.2.2
    obtain ⟨b, hb⟩ := fin 4 d (by omega)
    exact ⟨b, by unfold serializeMeta extPack; simp only [hd]; exact hb⟩
  | slice x =>
    obtain ⟨d, hd, hl⟩ := sliceToBytes_ok h
    obtain ⟨b, hb⟩ := fin 5 d (by omega)
    exact ⟨b, by unfold serializeMeta extPack; simp only [hd]; exact hb⟩
  | sliceNd x =>
    obtain ⟨d, hd, hl⟩ := sliceNdToBytes_ok h.2 (by have := h.1; omega)
    obtain ⟨b, hb⟩ := fin 6 d (by have := h.1; omega)
    exact ⟨b, by unfold serializeMeta extPack; simp only [hd]; exact hb⟩
  | sliceNdArray x =>
    obtain ⟨d, hd, hl⟩ := sliceNdArrayToBytes_ok h.1 h.2.1 h.2.2.1 h.2.2.2
    obtain ⟨b, hb⟩ := fin 7 d (by omega)
    exact ⟨b, by unfold serializeMeta extPack; simp only [hd]; exact hb⟩
  | indexInfo x =>
    obtain ⟨h1, h2, h3, h4, h5, h6, h7⟩ := h
    obtain ⟨d, hd, hl⟩ := indexInfoToBytes_ok h1 h2 h3 h4 h5 h6 h7
    obtain ⟨b, hb⟩ := fin 8 d (by omega)
    exact ⟨b, by unfold serializeMeta extPack; simp only [hd]; exact hb⟩

/-- Different objects, also of different types, have different bytes. -/
theorem C26_injective (m m' : Meta) (hm : MetaOk m) (hm' : MetaOk m') (b : Bytes)
    (h : serializeMeta m = .ok b) (h' : serializeMeta m' = .ok b) : m = m' := by
  have h1 := C26_round_trip m hm b h
  rw [C26_round_trip m' hm' b h'] at h1
  exact (Except.ok.inj h1).symm

/-- An integer of more than 64 bits is refused instead of being truncated. -/
theorem C26_overflow (s : PySlice) (i : Int) (h : s.start = some i) (hi : i < -2 ^ 63 ∨ 2 ^ 64 ≤ i) :
    serializeMeta (.slice s) = .error .overflowError := by
  have e : packInt i = .error .overflowError := by
    rw [packInt]
    rcases hi with hi | hi
    · rw [if_pos hi]
    · rw [if_neg (by omega), if_neg (by omega), if_neg (by omega), if_neg (by omega), if_neg (by omega),
        if_neg (by omega), if_neg (by omega), if_neg (by omega), if_neg (by omega), if_neg (by omega),
        if_neg (by omega)]
  have : sliceToBytes s = .error .overflowError := by
    unfold sliceToBytes
    rw [h, optInt, pack, packList, pack, e]
    rfl
  unfold serializeMeta extPack
  simp only [this]
  rfl

/-- A slice with absent bounds and negative numbers. -/
example : MetaFits (.sliceNd [⟨none, some (-3), some 2⟩, ⟨some 0, none, none⟩, ⟨none, none, none⟩]) := by
  refine ⟨by simp, ?_⟩
  simp [SliceFits, Fits]

example : MetaFits (.indexInfo ⟨⟨[300, 2], [102, 51, 50], true⟩, [[⟨some 0, some 300, none⟩], []], [0, 70000]⟩)
    ∧ MetaOk (.sliceNdArray ⟨[2, 1], [[⟨some 0, some 1, none⟩], []]⟩) := by
  refine ⟨⟨by simp, ?_, by simp, by simp, ?_, by simp, ?_⟩, by simp [MetaOk]⟩ <;>
    simp [SliceFits, Fits]

example : serializeMeta (.slice ⟨some (2 ^ 64), none, none⟩) = .error .overflowError :=
  C26_overflow _ (2 ^ 64) rfl (by norm_num)

/-! ## C27 -/

/-- Restoring a written shard file gives, for each array index with chunks, the same list of chunks
(shape, dtype, contents, slice) in the same order, for every maximum size of the pieces; other
indices are not found. -/
theorem C27_round_trip (itemsize : Bytes → Nat) (maxSize : Nat)
    (lazy : List (Nat × List (NpArray × SliceNd))) (hn : (lazy.map Prod.fst).Nodup)
    (hok : ∀ p ∈ lazy, ∀ c ∈ p.2, ChunkOk itemsize c) (b : Bytes)
    (h : serializeChunks itemsize maxSize lazy = .ok b) :
    ∃ out, restoreChunks itemsize b = .ok out ∧
      (∀ p ∈ lazy, p.2 ≠ [] → out.iterChunks p.1 = .ok p.2) ∧
      (∀ j, (∀ p ∈ lazy, p.1 = j → p.2 = []) → out.iterChunks j = .error .keyError) := by
  unfold serializeChunks at h
  obtain ⟨v, hv, h⟩ := bind_ok h
  unfold encodeArrayChunks at hv
  obtain ⟨items, hi, hv⟩ := bind_ok hv
  cases hv
  obtain ⟨out, e, h1, h2⟩ := decode_foldlM itemsize maxSize lazy hn hok items hi ⟨[], []⟩
    (fun p _ => ⟨rfl, rfl⟩)
  refine ⟨out, ?_, ?_, ?_⟩
  · unfold restoreChunks
    rw [unpackb_pack false _ b h, conv_false]
    change (if ((magicKey, Val.bool true) :: items).any (fun p => p.1 = magicKey) then
      decodeArrayChunks itemsize ((magicKey, Val.bool true) :: items) else .error .typeError) = _
    rw [if_pos (by simp)]
    unfold decodeArrayChunks
    rw [List.foldlM_cons]
    simp only [if_true]
    exact e
  · intro p hp hne
    obtain ⟨a, b⟩ := h1 p hp hne
    unfold ArrayChunks.iterChunks
    rw [a, b]
    simp [List.zip_map']
  · intro j hj
    obtain ⟨a, b⟩ := h2 j hj
    unfold ArrayChunks.iterChunks
    rw [a, b]
    rfl

/-- Each stored piece has between one element and the larger of the maximum size and one element, and
the pieces one after the other are the elements of the chunk. -/
theorem C27_piece_sizes (itemsize maxSize : Nat) (x : NpArray)
    (h1 : ∀ e ∈ x.elems, e.length = itemsize) :
    (∀ p ∈ subchunks maxSize itemsize x, p.elems ≠ [] ∧ p.dtype = x.dtype ∧
        p.elems.flatten.length ≤ max maxSize itemsize) ∧
      ((subchunks maxSize itemsize x).map NpArray.elems).flatten = x.elems := by
  have hk : max 1 (maxSize / itemsize) ≠ 0 := by omega
  constructor
  · intro p hp
    unfold subchunks at hp
    rw [List.mem_map] at hp
    obtain ⟨q, hq, rfl⟩ := hp
    obtain ⟨a, b⟩ := pieces_length_le hk x.elems q hq
    refine ⟨?_, rfl, ?_⟩
    · rintro h
      simp only at h
      rw [h] at a
      simp at a
    · simp only
      rw [length_flatten_const (k := itemsize) q (fun e he => h1 e (by
        rw [← pieces_flatten hk x.elems]
        exact List.mem_flatten.2 ⟨q, hq, he⟩))]
      rcases le_total 1 (maxSize / itemsize) with hh | hh
      · rw [max_eq_right hh] at b
        exact le_trans (Nat.mul_le_mul_left _ b) (le_trans (Nat.mul_div_le _ _) (le_max_left _ _))
      · rw [max_eq_left hh] at b
        refine le_trans (Nat.mul_le_mul_left _ b) ?_
        rw [Nat.mul_one]; exact le_max_right _ _
  · unfold subchunks
    rw [List.map_map]
    change (List.map (fun p => p) _).flatten = _
    rw [List.map_id', pieces_flatten hk]

/-- Writing succeeds for arrays of any total size: with pieces of at most `maxSize` bytes no message
part exceeds the 2^32 bytes of msgpack, as long as there are less than 2^32 pieces per chunk and
chunks per array and arrays. -/
theorem C27_serializes (itemsize : Bytes → Nat) (maxSize : Nat)
    (lazy : List (Nat × List (NpArray × SliceNd)))
    (hm : maxSize ≤ 2 ^ 31) (hlen : lazy.length < 2 ^ 32 - 1)
    (hidx : ∀ p ∈ lazy, p.1 < 10 ^ 20) (hcs : ∀ p ∈ lazy, p.2.length < 2 ^ 32)
    (hok : ∀ p ∈ lazy, ∀ c ∈ p.2, ChunkOk itemsize c ∧ itemsize c.1.dtype ≤ 2 ^ 31 ∧
      c.1.dtype.length < 256 ∧ c.2.length ≤ 64 ∧ (∀ s ∈ c.2, SliceFits s) ∧
      (subchunks maxSize (itemsize c.1.dtype) c.1).length < 2 ^ 32) :
    ∃ b, serializeChunks itemsize maxSize lazy = .ok b := by
  have key : ∀ p ∈ lazy, ∀ c ∈ p.2, ∃ v, encodeChunk itemsize maxSize c = .ok v ∧
      ∃ w, pack v = .ok w := by
    intro p hp c hc
    obtain ⟨⟨hnp, hne, hext⟩, hi, hd, hs, hsf, hsub⟩ := hok p hp c hc
    obtain ⟨hz, -⟩ := C27_piece_sizes (itemsize c.1.dtype) maxSize c.1 hnp.2.1
    obtain ⟨parts, hparts, hpl, hpP⟩ := mapM_ok_of (P := fun d : Bytes => d.length < 2 ^ 32)
      (subchunks maxSize (itemsize c.1.dtype) c.1) (f := ndarrayToBytes) (by
        intro y hy
        obtain ⟨-, hdt, hl⟩ := hz y hy
        have hsh : y.shape = [y.elems.length] := by
          unfold subchunks at hy
          rw [List.mem_map] at hy
          obtain ⟨q, hq, rfl⟩ := hy
          rfl
        have hel : y.elems.length ≤ y.elems.flatten.length := by
          have hlen : ∀ e ∈ y.elems, e.length = itemsize c.1.dtype := by
            intro e he
            apply hnp.2.1
            obtain ⟨-, hf⟩ := C27_piece_sizes (itemsize c.1.dtype) maxSize c.1 hnp.2.1
            rw [← hf]
            exact List.mem_flatten.2 ⟨y.elems, List.mem_map.2 ⟨y, hy, rfl⟩, he⟩
          rw [length_flatten_const _ hlen]
          have := hnp.1
          nlinarith
        have hmx : max maxSize (itemsize c.1.dtype) ≤ 2 ^ 31 := max_le hm hi
        obtain ⟨d, hd', hdl⟩ := ndarrayToBytes_ok (x := y) (by rw [hsh]; simp)
          (by rw [hsh]; simp; omega) (by rw [hdt]; omega) (by omega)
        refine ⟨d, hd', ?_⟩
        rw [hsh, hdt] at hdl
        rw [List.length_singleton] at hdl
        omega)
    obtain ⟨sb, hsb, hsbl⟩ := sliceNdToBytes_ok hsf (by omega)
    refine ⟨.arr [.arr (parts.map (.ext 1)), .ext 6 sb], ?_, ?_⟩
    · unfold encodeChunk
      simp only [hparts, hsb]
      rfl
    · apply pack_arr_ok' (by simp)
      apply packList_ok'
      intro v hv
      simp only [List.mem_cons, List.not_mem_nil, or_false] at hv
      rcases hv with rfl | rfl
      · apply pack_arr_ok' (by rw [List.length_map, hpl]; exact hsub)
        apply packList_ok'
        intro v hv
        obtain ⟨d, hd, rfl⟩ := List.mem_map.1 hv
        exact pack_ext_ok (hpP d hd)
      · exact pack_ext_ok (by omega)
  obtain ⟨items, hitems, hil, hiP⟩ := mapM_ok_of
    (P := fun q : Bytes × Val => q.1.length < 2 ^ 32 ∧ ∃ w, pack q.2 = .ok w) lazy
    (f := fun p => do
      let l ← p.2.mapM (encodeChunk itemsize maxSize)
      return (indexKey p.1, Val.arr l)) (by
    intro p hp
    obtain ⟨vs, hvs, hvl, hvP⟩ := mapM_ok_of (P := fun v => ∃ w, pack v = .ok w) p.2
      (fun c hc => key p hp c hc)
    refine ⟨(indexKey p.1, .arr vs), ?_, ?_, ?_⟩
    · rw [hvs]; rfl
    · exact lt_of_le_of_lt (length_indexKey_le (hidx p hp)) (by norm_num)
    · exact pack_arr_ok' (by rw [hvl]; exact hcs p hp) (packList_ok' vs hvP))
  unfold serializeChunks encodeArrayChunks
  rw [hitems]
  change ∃ b, pack (.map ((magicKey, Val.bool true) :: items)) = .ok b
  apply pack_map_ok (by simp; omega)
  intro q hq
  rcases List.mem_cons.1 hq with rfl | hq
  · exact ⟨by decide +kernel, [0xc3], by rw [pack]; rfl⟩
  · exact hiP q hq

/-- An array without elements is written but cannot be read again: `np.concatenate` of no pieces
raises a ValueError. -/
theorem C27_empty_array_counterexample (maxSize : Nat) :
    let lazy : List (Nat × List (NpArray × SliceNd)) := [(0, [(⟨[0], [102], []⟩, [⟨some 0, some 0, none⟩])])]
    (∃ b, serializeChunks (fun _ => 4) maxSize lazy = .ok b) ∧
      ∀ b, serializeChunks (fun _ => 4) maxSize lazy = .ok b →
        restoreChunks (fun _ => 4) b = .error .valueError := by
  have e : encodeArrayChunks (fun _ => 4) maxSize
      [(0, [(⟨[0], [102], []⟩, [⟨some 0, some 0, none⟩])])] =
      .ok (.map [(magicKey, .bool true), (indexKey 0, .arr [.arr [.arr [],
        .ext 6 [0x91, 0xc4, 4, 0x93, 0, 0, 0xc0]]])]) := by
    simp only [encodeArrayChunks, List.mapM_cons, List.mapM_nil, encodeChunk, subchunks, pieces_nil,
      List.map_nil]
    rfl
  intro lazy
  unfold serializeChunks
  simp only [lazy, e]
  constructor
  · exact ⟨_, rfl⟩
  · intro b hb
    change pack _ = _ at hb
    unfold restoreChunks
    rw [unpackb_pack false _ b hb, conv_false]
    change decodeArrayChunks (fun _ => 4) [(magicKey, .bool true), (indexKey 0, .arr [.arr [.arr [],
        .ext 6 [0x91, 0xc4, 4, 0x93, 0, 0, 0xc0]]])] = _
    unfold decodeArrayChunks
    have hs : asSliceNd (.ext 6 [0x91, 0xc4, 4, 0x93, 0, 0, 0xc0]) = .ok [⟨some 0, some 0, none⟩] :=
      sliceNd_round_trip _ _ rfl
    have hd : decodeChunk (fun _ => 4) (.arr [.arr [],
        .ext 6 [0x91, 0xc4, 4, 0x93, 0, 0, 0xc0]]) = .error .valueError := by
      unfold decodeChunk
      simp only [hs, asList]
      rfl
    simp only [List.foldlM_cons, if_true, if_neg (indexKey_ne_magic 0), parseKey_indexKey, asList,
      bind, Except.bind]
    rw [List.mapM_cons, hd]
    rfl

/-- Two arrays, one in two chunks, one element larger than the maximum size of a piece. -/
example :
    let c1 : NpArray × SliceNd := (⟨[3], [102], [[1, 2], [3, 4], [5, 6]]⟩, [⟨some 0, some 3, none⟩])
    let c2 : NpArray × SliceNd := (⟨[1], [102], [[7, 8]]⟩, [⟨some 3, some 4, none⟩])
    let c3 : NpArray × SliceNd := (⟨[], [102], [[9, 9]]⟩, [])
    ChunkOk (fun _ => 2) c1 ∧ ChunkOk (fun _ => 2) c2 ∧ ChunkOk (fun _ => 2) c3 ∧
      (∃ b, serializeChunks (fun _ => 2) 5 [(3, [c1, c2]), (11, [c3])] = .ok b) ∧
      (subchunks 5 2 c1.1).map NpArray.elems = [[[1, 2], [3, 4]], [[5, 6]]] := by
  refine ⟨⟨⟨by simp, by simp, by simp⟩, by simp, rfl⟩, ⟨⟨by simp, by simp, by simp⟩, by simp, rfl⟩,
    ⟨⟨by simp, by simp, by simp⟩, by simp, rfl⟩, ?_, by decide +kernel⟩
  apply C27_serializes _ _ _ (by norm_num) (by simp) (by simp) (by simp)
  have h : ∀ p : NpArray × SliceNd, p.1.elems.length < 10 →
      (subchunks 5 2 p.1).length < 2 ^ 32 :=
    fun p hp => lt_of_le_of_lt (subchunks_count _ _ _) (by omega)
  intro p hp c hc
  simp only [List.mem_cons, List.not_mem_nil, or_false] at hp
  rcases hp with rfl | rfl <;> simp only [List.mem_cons, List.not_mem_nil, or_false] at hc
  · rcases hc with rfl | rfl
    · exact ⟨⟨⟨by simp, by simp, by simp⟩, by simp, rfl⟩, by norm_num, by simp, by simp,
        by simp [SliceFits, Fits], h _ (by simp)⟩
    · exact ⟨⟨⟨by simp, by simp, by simp⟩, by simp, rfl⟩, by norm_num, by simp, by simp,
        by simp [SliceFits, Fits], h _ (by simp)⟩
  · subst hc
    exact ⟨⟨⟨by simp, by simp, by simp⟩, by simp, rfl⟩, by norm_num, by simp, by simp,
        by simp, h _ (by simp)⟩

end Verif.Ser
