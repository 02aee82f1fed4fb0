import Verif.Model.Serialization
import Verif.Proofs.Msgpack
import Verif.Proofs.CkptPath
import Verif.Proofs.PyDict
import Mathlib.Tactic.Linarith
import Mathlib.Algebra.BigOperators.Group.List.Basic

namespace Verif.Ser

open Verif Msgpack PyStr

theorem mapM_except_cons {α β : Type} (f : α → Except PyErr β) (a : α) (l : List α) :
    (a :: l).mapM f = (do let b ← f a; let bs ← l.mapM f; return b :: bs) := by
  rw [List.mapM_cons]

theorem mapM_inv {α β : Type} {f : α → Except PyErr β} {g : β → Except PyErr α}
    (h : ∀ x b, f x = .ok b → g b = .ok x) :
    ∀ (l : List α) (bs : List β), l.mapM f = .ok bs → bs.mapM g = .ok l := by
  intro l
  induction l with
  | nil => intro bs hb; rw [List.mapM_nil] at hb; cases hb; rfl
  | cons a l ih =>
    intro bs hb
    rw [List.mapM_cons] at hb
    obtain ⟨x, hx, hb⟩ := bind_ok hb
    obtain ⟨xs, hxs, hb⟩ := bind_ok hb
    cases hb
    rw [List.mapM_cons, h a x hx]
    change (xs.mapM g >>= _) = _
    rw [ih xs hxs]; rfl

theorem mapM_inv_mem {α β : Type} {f : α → Except PyErr β} {g : β → Except PyErr α} :
    ∀ (l : List α) (bs : List β), (∀ x ∈ l, ∀ b, f x = .ok b → g b = .ok x) →
      l.mapM f = .ok bs → bs.mapM g = .ok l := by
  intro l
  induction l with
  | nil => intro bs _ hb; rw [List.mapM_nil] at hb; cases hb; rfl
  | cons a l ih =>
    intro bs h hb
    rw [List.mapM_cons] at hb
    obtain ⟨x, hx, hb⟩ := bind_ok hb
    obtain ⟨xs, hxs, hb⟩ := bind_ok hb
    cases hb
    rw [List.mapM_cons, h a (by simp) x hx]
    change (xs.mapM g >>= _) = _
    rw [ih xs (fun y hy => h y (by simp [hy])) hxs]; rfl

theorem mapM_map {α β γ : Type} (g : β → Except PyErr γ) (k : α → β) (l : List α) :
    (l.map k).mapM g = l.mapM fun a => g (k a) := by
  induction l with
  | nil => rfl
  | cons a l ih => rw [List.map_cons, List.mapM_cons, List.mapM_cons, ih]

theorem mapM_congr' {α β : Type} {f g : α → Except PyErr β} {l : List α}
    (h : ∀ a ∈ l, f a = g a) : l.mapM f = l.mapM g := by
  induction l with
  | nil => rfl
  | cons a l ih =>
    rw [List.mapM_cons, List.mapM_cons, h a (by simp), ih fun x hx => h x (by simp [hx])]

theorem mapM_ok_map {α β : Type} (g : α → Except PyErr β) (k : α → β) (l : List α)
    (h : ∀ a ∈ l, g a = .ok (k a)) : l.mapM g = .ok (l.map k) := by
  induction l with
  | nil => rfl
  | cons a l ih =>
    rw [List.mapM_cons, h a (by simp), ih fun x hx => h x (by simp [hx])]; rfl

theorem convList_bins (raw : Bool) (bs : List Bytes) : convList raw (bs.map .bin) = bs.map .bin := by
  induction bs with
  | nil => rfl
  | cons b bs ih => rw [List.map_cons, convList, ih]; rfl

theorem convList_ints (raw : Bool) (l : List Nat) :
    convList raw (l.map fun (n : Nat) => Val.int n) = l.map fun (n : Nat) => Val.int n := by
  induction l with
  | nil => rfl
  | cons b bs ih => rw [List.map_cons, convList, ih]; rfl

theorem mapM_asNat (l : List Nat) : (l.map fun (n : Nat) => Val.int n).mapM asNat = .ok l := by
  rw [mapM_map]
  have := mapM_ok_map (fun (n : Nat) => asNat (.int n)) id l (fun a _ => by simp [asNat])
  rw [this, List.map_id]

theorem asOptInt_optInt (o : Option Int) : asOptInt (optInt o) = .ok o := by cases o <;> rfl

theorem conv_optInt (raw : Bool) (o : Option Int) : conv raw (optInt o) = optInt o := by
  cases o <;> rfl

theorem slice_round_trip (x : PySlice) (b : Bytes) (h : sliceToBytes x = .ok b) :
    sliceFromBytes b = .ok x := by
  unfold sliceToBytes at h
  unfold sliceFromBytes
  rw [unpackb_pack true _ b h]
  simp only [conv, convList, conv_optInt, bind, Except.bind, pure, Except.pure, asOptInt_optInt]

theorem mapM_bins_inv {α : Type} {f : α → Except PyErr Bytes} {g : Bytes → Except PyErr α}
    (h : ∀ x b, f x = .ok b → g b = .ok x) {l : List α} {bs : List Bytes} (hl : l.mapM f = .ok bs) :
    ((bs.map Val.bin).mapM fun w => do let b ← asBytes w; g b) = .ok l := by
  rw [mapM_map]
  have : (fun a => do let b ← asBytes (Val.bin a); g b) = g := by funext a; rfl
  rw [this]
  exact mapM_inv h l bs hl

theorem sliceNd_round_trip (x : SliceNd) (b : Bytes) (h : sliceNdToBytes x = .ok b) :
    sliceNdFromBytes b = .ok x := by
  unfold sliceNdToBytes at h
  obtain ⟨parts, hp, h⟩ := bind_ok h
  unfold sliceNdFromBytes
  rw [unpackb_pack true _ b h]
  simp only [conv, convList_bins]
  exact mapM_bins_inv slice_round_trip hp

theorem sliceNdArray_round_trip (x : SliceNdArray) (hx : x.items.length = x.shape.prod) (b : Bytes)
    (h : sliceNdArrayToBytes x = .ok b) : sliceNdArrayFromBytes b = .ok x := by
  unfold sliceNdArrayToBytes at h
  obtain ⟨parts, hp, h⟩ := bind_ok h
  unfold sliceNdArrayFromBytes
  rw [unpackb_pack true _ b h]
  simp only [conv, convList, convList_bins, convList_ints]
  change (do
    let dims ← (x.shape.map fun (n : Nat) => Val.int n).mapM asNat
    let items ← (parts.map Val.bin).mapM fun w => do let b ← asBytes w; sliceNdFromBytes b
    if items.length = dims.prod then return (⟨dims, items⟩ : SliceNdArray) else .error .valueError) = _
  rw [mapM_asNat, mapM_bins_inv sliceNd_round_trip hp]
  change (if x.items.length = x.shape.prod then _ else _) = _
  rw [if_pos hx]; rfl

theorem shapedArray_round_trip (x : ShapedArray) (b : Bytes) (h : shapedArrayToBytes x = .ok b) :
    shapedArrayFromBytes b = .ok x := by
  unfold shapedArrayToBytes at h
  unfold shapedArrayFromBytes
  rw [unpackb_pack true _ b h]
  simp only [conv, convList, convList_ints, if_true]
  change (do
    let dims ← (x.shape.map fun (n : Nat) => Val.int n).mapM asNat
    return (⟨dims, x.dtype, x.weakType⟩ : ShapedArray)) = _
  rw [mapM_asNat]; rfl

theorem indexInfo_round_trip (x : IndexInfo) (b : Bytes) (h : indexInfoToBytes x = .ok b) :
    indexInfoFromBytes b = .ok x := by
  unfold indexInfoToBytes at h
  obtain ⟨g, hg, h⟩ := bind_ok h
  obtain ⟨parts, hp, h⟩ := bind_ok h
  unfold indexInfoFromBytes
  rw [unpackb_pack true _ b h]
  simp only [conv, convList, convList_bins, convList_ints]
  change (do
    let gs ← shapedArrayFromBytes g
    let slices ← (parts.map Val.bin).mapM fun w => do let b ← asBytes w; sliceNdFromBytes b
    let shs ← (x.shards.map fun (n : Nat) => Val.int n).mapM asNat
    return (⟨gs, slices, shs⟩ : IndexInfo)) = _
  rw [shapedArray_round_trip _ g hg, mapM_bins_inv sliceNd_round_trip hp, mapM_asNat]; rfl

/-! ### When packing succeeds -/

theorem packInt_ok {i : Int} (h1 : -2 ^ 63 ≤ i) (h2 : i < 2 ^ 64) :
    ∃ b, packInt i = .ok b ∧ b.length ≤ 9 := by
  rw [packInt]
  rw [if_neg (by omega)]
  by_cases a1 : i < -2 ^ 31
  · rw [if_pos a1]; exact ⟨_, rfl, by simp [length_be]⟩
  rw [if_neg a1]
  by_cases a2 : i < -2 ^ 15
  · rw [if_pos a2]; exact ⟨_, rfl, by simp [length_be]⟩
  rw [if_neg a2]
  by_cases a3 : i < -2 ^ 7
  · rw [if_pos a3]; exact ⟨_, rfl, by simp [length_be]⟩
  rw [if_neg a3]
  by_cases a4 : i < -2 ^ 5
  · rw [if_pos a4]; exact ⟨_, rfl, by simp [length_be]⟩
  rw [if_neg a4]
  by_cases a5 : i < 0
  · rw [if_pos a5]; exact ⟨_, rfl, by simp [length_be]⟩
  rw [if_neg a5]
  by_cases a6 : i < 2 ^ 7
  · rw [if_pos a6]; exact ⟨_, rfl, by simp [length_be]⟩
  rw [if_neg a6]
  by_cases a7 : i < 2 ^ 8
  · rw [if_pos a7]; exact ⟨_, rfl, by simp [length_be]⟩
  rw [if_neg a7]
  by_cases a8 : i < 2 ^ 16
  · rw [if_pos a8]; exact ⟨_, rfl, by simp [length_be]⟩
  rw [if_neg a8]
  by_cases a9 : i < 2 ^ 32
  · rw [if_pos a9]; exact ⟨_, rfl, by simp [length_be]⟩
  rw [if_neg a9, if_pos h2]
  exact ⟨_, rfl, by simp [length_be]⟩

theorem packHeaders_ok {n : Nat} (h : n < 2 ^ 32) :
    (∃ b, packStrHeader n = .ok b ∧ b.length ≤ 5) ∧ (∃ b, packBinHeader n = .ok b ∧ b.length ≤ 5) ∧
    (∃ b, packArrHeader n = .ok b ∧ b.length ≤ 5) ∧ (∃ b, packMapHeader n = .ok b ∧ b.length ≤ 5) ∧
    (∃ b, packExtHeader n = .ok b ∧ b.length ≤ 5) := by
  refine ⟨?_, ?_, ?_, ?_, ?_⟩
  · unfold packStrHeader
    split_ifs <;> first | omega | exact ⟨_, rfl, by simp [length_be]⟩
  · unfold packBinHeader
    split_ifs <;> first | omega | exact ⟨_, rfl, by simp [length_be]⟩
  · unfold packArrHeader
    split_ifs <;> first | omega | exact ⟨_, rfl, by simp [length_be]⟩
  · unfold packMapHeader
    split_ifs <;> first | omega | exact ⟨_, rfl, by simp [length_be]⟩
  · unfold packExtHeader
    split_ifs <;> first | omega | exact ⟨_, rfl, by simp [length_be]⟩

theorem pack_bin_ok {b : Bytes} (h : b.length < 2 ^ 32) :
    ∃ c, pack (.bin b) = .ok c ∧ c.length ≤ b.length + 5 := by
  obtain ⟨hd, h1, h2⟩ := (packHeaders_ok h).2.1
  refine ⟨hd ++ b, ?_, by simp; omega⟩
  rw [pack, h1]; rfl

theorem pack_str_ok {b : Bytes} (h : b.length < 2 ^ 32) :
    ∃ c, pack (.str b) = .ok c ∧ c.length ≤ b.length + 5 := by
  obtain ⟨hd, h1, h2⟩ := (packHeaders_ok h).1
  refine ⟨hd ++ b, ?_, by simp; omega⟩
  rw [pack, packStr, h1]; rfl

theorem pack_ext_ok {code : UInt8} {b : Bytes} (h : b.length < 2 ^ 32) :
    ∃ c, pack (.ext code b) = .ok c := by
  obtain ⟨hd, h1, h2⟩ := (packHeaders_ok h).2.2.2.2
  refine ⟨hd ++ code :: b, ?_⟩
  rw [pack, h1]; rfl

/-- A list packs if its items do; length bound item by item. -/
theorem packList_ok (l : List Val) (k : Nat) (h : ∀ v ∈ l, ∃ c, pack v = .ok c ∧ c.length ≤ k) :
    ∃ c, packList l = .ok c ∧ c.length ≤ k * l.length := by
  induction l with
  | nil => exact ⟨[], by rw [packList], by simp⟩
  | cons v l ih =>
    obtain ⟨a, ha, hal⟩ := h v (by simp)
    obtain ⟨b, hb, hbl⟩ := ih fun w hw => h w (by simp [hw])
    refine ⟨a ++ b, ?_, ?_⟩
    · rw [packList, ha, hb]; rfl
    · rw [List.length_append, List.length_cons, Nat.mul_succ]; omega

theorem packList_ok' (l : List Val) (h : ∀ v ∈ l, ∃ c, pack v = .ok c) : ∃ c, packList l = .ok c := by
  induction l with
  | nil => exact ⟨[], by rw [packList]⟩
  | cons v l ih =>
    obtain ⟨a, ha⟩ := h v (by simp)
    obtain ⟨b, hb⟩ := ih fun w hw => h w (by simp [hw])
    exact ⟨a ++ b, by rw [packList, ha, hb]; rfl⟩

theorem pack_arr_ok {l : List Val} (hl : l.length < 2 ^ 32) {k : Nat}
    (h : ∃ c, packList l = .ok c ∧ c.length ≤ k) : ∃ c, pack (.arr l) = .ok c ∧ c.length ≤ k + 5 := by
  obtain ⟨hd, h1, h2⟩ := (packHeaders_ok hl).2.2.1
  obtain ⟨c, hc, hcl⟩ := h
  refine ⟨hd ++ c, ?_, by rw [List.length_append]; omega⟩
  rw [pack, h1, hc]; rfl

/-- An integer that fits msgpack. -/
def Fits (i : Int) : Prop := -2 ^ 63 ≤ i ∧ i < 2 ^ 64

/-- A slice whose numbers fit. -/
def SliceFits (s : PySlice) : Prop :=
  (∀ i, s.start = some i → Fits i) ∧ (∀ i, s.stop = some i → Fits i) ∧ (∀ i, s.step = some i → Fits i)

theorem pack_optInt_ok {o : Option Int} (h : ∀ i, o = some i → Fits i) :
    ∃ c, pack (optInt o) = .ok c ∧ c.length ≤ 9 := by
  cases o with
  | none => exact ⟨[0xc0], by rw [optInt, pack], by simp⟩
  | some i =>
    rw [optInt, pack]
    exact packInt_ok (h i rfl).1 (h i rfl).2

theorem sliceToBytes_ok {s : PySlice} (h : SliceFits s) :
    ∃ b, sliceToBytes s = .ok b ∧ b.length ≤ 32 := by
  unfold sliceToBytes
  apply pack_arr_ok (k := 27) (by simp)
  obtain ⟨c, hc, hl⟩ := packList_ok [optInt s.start, optInt s.stop, optInt s.step] 9 (by
    intro v hv
    simp only [List.mem_cons, List.not_mem_nil, or_false] at hv
    rcases hv with rfl | rfl | rfl
    · exact pack_optInt_ok h.1
    · exact pack_optInt_ok h.2.1
    · exact pack_optInt_ok h.2.2)
  exact ⟨c, hc, hl⟩

theorem mapM_ok_of {α β : Type} {f : α → Except PyErr β} {P : β → Prop} (l : List α)
    (h : ∀ a ∈ l, ∃ b, f a = .ok b ∧ P b) :
    ∃ bs, l.mapM f = .ok bs ∧ bs.length = l.length ∧ ∀ b ∈ bs, P b := by
  induction l with
  | nil => exact ⟨[], rfl, rfl, by simp⟩
  | cons a l ih =>
    obtain ⟨b, hb, hP⟩ := h a (by simp)
    obtain ⟨bs, hbs, hl, hPs⟩ := ih fun x hx => h x (by simp [hx])
    refine ⟨b :: bs, ?_, by simp [hl], ?_⟩
    · rw [List.mapM_cons, hb, hbs]; rfl
    · intro c hc
      rcases List.mem_cons.1 hc with rfl | hc
      · exact hP
      · exact hPs c hc

theorem pack_bins_ok {bs : List Bytes} {k : Nat} (hn : bs.length < 2 ^ 32) (hk : k < 2 ^ 32)
    (h : ∀ b ∈ bs, b.length ≤ k) :
    ∃ c, pack (.arr (bs.map .bin)) = .ok c ∧ c.length ≤ (k + 5) * bs.length + 5 := by
  apply pack_arr_ok (by simpa using hn)
  obtain ⟨c, hc, hl⟩ := packList_ok (bs.map .bin) (k + 5) (by
    intro v hv
    simp only [List.mem_map] at hv
    obtain ⟨b, hb, rfl⟩ := hv
    obtain ⟨c, hc, hl⟩ := pack_bin_ok (b := b) (by have := h b hb; omega)
    exact ⟨c, hc, by have := h b hb; omega⟩)
  exact ⟨c, hc, by simpa using hl⟩

theorem sliceNdToBytes_ok {s : SliceNd} (h : ∀ x ∈ s, SliceFits x) (hn : s.length < 2 ^ 32) :
    ∃ b, sliceNdToBytes s = .ok b ∧ b.length ≤ 37 * s.length + 5 := by
  unfold sliceNdToBytes
  obtain ⟨bs, hbs, hl, hP⟩ := mapM_ok_of (P := fun b : Bytes => b.length ≤ 32) s
    (fun x hx => sliceToBytes_ok (h x hx))
  rw [hbs]
  obtain ⟨c, hc, hcl⟩ := pack_bins_ok (bs := bs) (k := 32) (by omega) (by norm_num) hP
  exact ⟨c, hc, by rw [hl] at hcl; omega⟩

theorem pack_nats_ok {l : List Nat} (hn : l.length < 2 ^ 32) (h : ∀ n ∈ l, n < 2 ^ 64) :
    ∃ c, pack (.arr (l.map fun (n : Nat) => .int n)) = .ok c ∧ c.length ≤ 9 * l.length + 5 := by
  apply pack_arr_ok (by simpa using hn)
  obtain ⟨c, hc, hl⟩ := packList_ok (l.map fun (n : Nat) => .int n) 9 (by
    intro v hv
    simp only [List.mem_map] at hv
    obtain ⟨n, hn, rfl⟩ := hv
    rw [pack]
    have := h n hn
    exact packInt_ok (by omega) (by omega))
  exact ⟨c, hc, by simpa using hl⟩

theorem pack_arr_ok' {l : List Val} (hl : l.length < 2 ^ 32) (h : ∃ c, packList l = .ok c) :
    ∃ c, pack (.arr l) = .ok c := by
  obtain ⟨c, hc⟩ := h
  obtain ⟨d, hd, -⟩ := pack_arr_ok hl ⟨c, hc, le_rfl⟩
  exact ⟨d, hd⟩

theorem packPairs_ok (l : List (Bytes × Val))
    (h : ∀ q ∈ l, q.1.length < 2 ^ 32 ∧ ∃ c, pack q.2 = .ok c) : ∃ c, packPairs l = .ok c := by
  induction l with
  | nil => exact ⟨[], by rw [packPairs]⟩
  | cons q l ih =>
    obtain ⟨k, v⟩ := q
    obtain ⟨hk, a, ha⟩ := h (k, v) (by simp)
    obtain ⟨b, hb⟩ := ih fun w hw => h w (by simp [hw])
    obtain ⟨hd, h1, h2⟩ := (packHeaders_ok hk).1
    simp only at h1 ha
    exact ⟨hd ++ k ++ (a ++ b), by rw [packPairs, packStr, h1, ha, hb]; rfl⟩

theorem pack_map_ok {l : List (Bytes × Val)} (hl : l.length < 2 ^ 32)
    (h : ∀ q ∈ l, q.1.length < 2 ^ 32 ∧ ∃ c, pack q.2 = .ok c) : ∃ c, pack (.map l) = .ok c := by
  obtain ⟨c, hc⟩ := packPairs_ok l h
  obtain ⟨hd, h1, h2⟩ := (packHeaders_ok hl).2.2.2.1
  exact ⟨hd ++ c, by rw [pack, h1, hc]; rfl⟩

/-- Lists whose items have different bounds. -/
theorem packList_cons_ok {v : Val} {l : List Val} {k m : Nat} (h1 : ∃ c, pack v = .ok c ∧ c.length ≤ k)
    (h2 : ∃ c, packList l = .ok c ∧ c.length ≤ m) :
    ∃ c, packList (v :: l) = .ok c ∧ c.length ≤ k + m := by
  obtain ⟨a, ha, hal⟩ := h1
  obtain ⟨b, hb, hbl⟩ := h2
  refine ⟨a ++ b, ?_, ?_⟩
  · rw [packList, ha, hb]; rfl
  · rw [List.length_append]; omega

theorem packList_nil_ok : ∃ c, packList [] = .ok c ∧ c.length ≤ 0 := ⟨[], by rw [packList], by simp⟩

theorem pack_bool_ok (x : Bool) : ∃ c, pack (.bool x) = .ok c ∧ c.length ≤ 1 := by
  cases x
  · exact ⟨[0xc2], by rw [pack]; rfl, by simp⟩
  · exact ⟨[0xc3], by rw [pack]; rfl, by simp⟩

theorem pack_nilmap_ok : ∃ c, pack (.map []) = .ok c ∧ c.length ≤ 1 :=
  ⟨[0x80], by rw [pack, packPairs]; rfl, by simp⟩

theorem shapedArrayToBytes_ok {x : ShapedArray} (h1 : x.shape.length < 2 ^ 20)
    (h2 : ∀ n ∈ x.shape, n < 2 ^ 64) (h3 : x.dtype.length < 2 ^ 20) :
    ∃ b, shapedArrayToBytes x = .ok b ∧ b.length < 2 ^ 25 := by
  unfold shapedArrayToBytes
  obtain ⟨c, hc, hl⟩ := pack_arr_ok (l := [.arr (x.shape.map fun (n : Nat) => .int n), .str x.dtype,
    .bool x.weakType, .map []]) (by simp)
    (packList_cons_ok (pack_nats_ok (by omega) h2) (packList_cons_ok (pack_str_ok (by omega))
      (packList_cons_ok (pack_bool_ok _) (packList_cons_ok pack_nilmap_ok packList_nil_ok))))
  exact ⟨c, hc, by omega⟩

theorem ndarrayToBytes_ok {x : NpArray} (h1 : x.shape.length < 2 ^ 20)
    (h2 : ∀ n ∈ x.shape, n < 2 ^ 64) (h3 : x.dtype.length < 2 ^ 20)
    (h4 : x.elems.flatten.length < 2 ^ 32) :
    ∃ b, ndarrayToBytes x = .ok b ∧
      b.length ≤ 9 * x.shape.length + x.dtype.length + x.elems.flatten.length + 20 := by
  unfold ndarrayToBytes
  obtain ⟨c, hc, hl⟩ := pack_arr_ok (l := [.arr (x.shape.map fun (n : Nat) => .int n), .str x.dtype,
    .bin x.elems.flatten]) (by simp)
    (packList_cons_ok (pack_nats_ok (by omega) h2) (packList_cons_ok (pack_str_ok (by omega))
      (packList_cons_ok (pack_bin_ok h4) packList_nil_ok)))
  exact ⟨c, hc, by omega⟩

theorem slices_ok {l : List SliceNd} (h : ∀ y ∈ l, y.length ≤ 64 ∧ ∀ s ∈ y, SliceFits s) :
    ∃ bs, l.mapM sliceNdToBytes = .ok bs ∧ bs.length = l.length ∧ ∀ b ∈ bs, b.length ≤ 2400 :=
  mapM_ok_of (P := fun b : Bytes => b.length ≤ 2400) l fun y hy => by
    obtain ⟨b, hb, hl⟩ := sliceNdToBytes_ok (h y hy).2 (by have := (h y hy).1; omega)
    exact ⟨b, hb, by have := (h y hy).1; omega⟩

theorem sliceNdArrayToBytes_ok {x : SliceNdArray} (h1 : x.shape.length < 2 ^ 20)
    (h2 : ∀ n ∈ x.shape, n < 2 ^ 64) (h3 : x.items.length < 2 ^ 20)
    (h4 : ∀ y ∈ x.items, y.length ≤ 64 ∧ ∀ s ∈ y, SliceFits s) :
    ∃ b, sliceNdArrayToBytes x = .ok b ∧ b.length < 2 ^ 32 := by
  unfold sliceNdArrayToBytes
  obtain ⟨bs, hbs, hl, hP⟩ := slices_ok h4
  rw [hbs]
  obtain ⟨c, hc, hcl⟩ := pack_arr_ok (l := [.arr (x.shape.map fun (n : Nat) => .int n),
    .arr (bs.map .bin)]) (by simp)
    (packList_cons_ok (pack_nats_ok (by omega) h2) (packList_cons_ok
      (pack_bins_ok (by omega) (by norm_num) hP) packList_nil_ok))
  exact ⟨c, hc, by rw [hl] at hcl; omega⟩

theorem indexInfoToBytes_ok {x : IndexInfo} (h1 : x.globalShape.shape.length < 2 ^ 20)
    (h2 : ∀ n ∈ x.globalShape.shape, n < 2 ^ 64) (h3 : x.globalShape.dtype.length < 2 ^ 20)
    (h4 : x.globalSlices.length < 2 ^ 20)
    (h5 : ∀ y ∈ x.globalSlices, y.length ≤ 64 ∧ ∀ s ∈ y, SliceFits s)
    (h6 : x.shards.length < 2 ^ 20) (h7 : ∀ n ∈ x.shards, n < 2 ^ 64) :
    ∃ b, indexInfoToBytes x = .ok b ∧ b.length < 2 ^ 32 := by
  unfold indexInfoToBytes
  obtain ⟨g, hg, hgl⟩ := shapedArrayToBytes_ok h1 h2 h3
  obtain ⟨bs, hbs, hl, hP⟩ := slices_ok h5
  rw [hg, hbs]
  obtain ⟨c, hc, hcl⟩ := pack_arr_ok (l := [.bin g, .arr (bs.map .bin),
    .arr (x.shards.map fun (n : Nat) => .int n)]) (by simp)
    (packList_cons_ok (pack_bin_ok (by omega)) (packList_cons_ok
      (pack_bins_ok (by omega) (by norm_num) hP) (packList_cons_ok (pack_nats_ok (by omega) h7)
        packList_nil_ok)))
  exact ⟨c, hc, by rw [hl] at hcl; omega⟩

/-! ### Pieces -/

theorem pieces_nil {α : Type} (k : Nat) : pieces k ([] : List α) = [] := by
  rw [pieces]; simp

theorem pieces_cons {α : Type} {k : Nat} {l : List α} (hl : l ≠ []) (hk : k ≠ 0) :
    pieces k l = l.take k :: pieces k (l.drop k) := by
  rw [pieces]; simp [hl, hk]

theorem pieces_induct {α : Type} {k : Nat} (hk : k ≠ 0) {P : List α → Prop} (h0 : P [])
    (h1 : ∀ l, l ≠ [] → P (l.drop k) → P l) (l : List α) : P l := by
  induction hn : l.length using Nat.strong_induction_on generalizing l with
  | _ n ih =>
    by_cases hl : l = []
    · subst hl; exact h0
    · apply h1 l hl
      refine ih (l.drop k).length ?_ _ rfl
      have : l.length ≠ 0 := fun h => hl (List.length_eq_zero_iff.1 h)
      simp; omega

theorem pieces_flatten {α : Type} {k : Nat} (hk : k ≠ 0) (l : List α) : (pieces k l).flatten = l := by
  induction l using pieces_induct hk with
  | h0 => simp [pieces_nil]
  | h1 l hl ih => rw [pieces_cons hl hk, List.flatten_cons, ih, List.take_append_drop]

theorem pieces_length_le {α : Type} {k : Nat} (hk : k ≠ 0) (l : List α) :
    ∀ p ∈ pieces k l, 1 ≤ p.length ∧ p.length ≤ k := by
  induction l using pieces_induct hk with
  | h0 => simp [pieces_nil]
  | h1 l hl ih =>
    rw [pieces_cons hl hk]
    intro p hp
    rcases List.mem_cons.1 hp with rfl | hp
    · have : l.length ≠ 0 := fun h => hl (List.length_eq_zero_iff.1 h)
      simp; omega
    · exact ih p hp

theorem pieces_count {α : Type} {k : Nat} (hk : k ≠ 0) (l : List α) :
    (pieces k l).length ≤ l.length := by
  induction l using pieces_induct hk with
  | h0 => simp [pieces_nil]
  | h1 l hl ih =>
    rw [pieces_cons hl hk]
    have : l.length ≠ 0 := fun h => hl (List.length_eq_zero_iff.1 h)
    simp only [List.length_drop, List.length_cons] at *; omega

theorem pieces_of_flatten {α : Type} {k : Nat} (hk : k ≠ 0) (L : List (List α))
    (h : ∀ p ∈ L, p.length = k) : pieces k L.flatten = L := by
  induction L with
  | nil => simp [pieces_nil]
  | cons p L ih =>
    have hp := h p (by simp)
    have hne : (p :: L).flatten ≠ [] := by
      intro h0
      have := congrArg List.length h0
      rw [List.flatten_cons, List.length_append, List.length_nil] at this; omega
    rw [pieces_cons hne hk, List.flatten_cons]
    have e1 : (p ++ L.flatten).take k = p := by rw [← hp]; simp
    have e2 : (p ++ L.flatten).drop k = L.flatten := by rw [← hp]; simp
    rw [e1, e2, ih fun q hq => h q (by simp [hq])]

/-! ### Arrays -/

/-- An array with elements of the size of its dtype, as many as its shape says. -/
def NpOk (itemsize : Bytes → Nat) (x : NpArray) : Prop :=
  0 < itemsize x.dtype ∧ (∀ e ∈ x.elems, e.length = itemsize x.dtype) ∧ x.elems.length = x.shape.prod

theorem length_flatten_const {α : Type} {k : Nat} (L : List (List α)) (h : ∀ p ∈ L, p.length = k) :
    L.flatten.length = k * L.length := by
  induction L with
  | nil => simp
  | cons p L ih =>
    rw [List.flatten_cons, List.length_append, ih fun q hq => h q (by simp [hq]), h p (by simp),
      List.length_cons, Nat.mul_succ, Nat.add_comm]

theorem ndarray_round_trip (itemsize : Bytes → Nat) (x : NpArray) (hx : NpOk itemsize x) (b : Bytes)
    (h : ndarrayToBytes x = .ok b) : ndarrayFromBytes itemsize b = .ok x := by
  obtain ⟨h0, h1, h2⟩ := hx
  unfold ndarrayToBytes at h
  unfold ndarrayFromBytes
  rw [unpackb_pack true _ b h]
  simp only [conv, convList, convList_ints, if_true]
  change (do
    let dims ← (x.shape.map fun (n : Nat) => Val.int n).mapM asNat
    if x.elems.flatten.length % itemsize x.dtype = 0 ∧
        x.elems.flatten.length / itemsize x.dtype = dims.prod then
      return (⟨dims, x.dtype, pieces (itemsize x.dtype) x.elems.flatten⟩ : NpArray)
    else Except.error PyErr.valueError) = _
  rw [mapM_asNat]
  change (if x.elems.flatten.length % itemsize x.dtype = 0 ∧
        x.elems.flatten.length / itemsize x.dtype = x.shape.prod then
      Except.ok (⟨x.shape, x.dtype, pieces (itemsize x.dtype) x.elems.flatten⟩ : NpArray)
    else Except.error PyErr.valueError) = _
  rw [length_flatten_const _ h1, if_pos ⟨Nat.mul_mod_right _ _, by
    rw [Nat.mul_div_cancel_left _ h0]; exact h2⟩, pieces_of_flatten (by omega) _ h1]

/-- A chunk that the save code produces: not empty, and its slice has its shape. -/
def ChunkOk (itemsize : Bytes → Nat) (p : NpArray × SliceNd) : Prop :=
  NpOk itemsize p.1 ∧ p.1.elems ≠ [] ∧ p.2.mapM extent = .ok p.1.shape

theorem concatenate_pieces (dtype : Bytes) (L : List (List Bytes)) (hL : L ≠ []) :
    concatenate (L.map fun p => ⟨[p.length], dtype, p⟩) = .ok ⟨[L.flatten.length], dtype, L.flatten⟩ := by
  cases L with
  | nil => exact absurd rfl hL
  | cons p L =>
    simp only [List.map_cons, concatenate]
    congr 1
    simp only [List.map_map, NpArray.mk.injEq, true_and]
    refine ⟨?_, ?_⟩
    · simp only [List.cons.injEq, and_true, List.flatten_cons, List.length_append, List.length_flatten,
        List.sum_cons]
      rfl
    · simp [Function.comp_def]

theorem decode_encode_chunk (itemsize : Bytes → Nat) (maxSize : Nat) (p : NpArray × SliceNd)
    (hp : ChunkOk itemsize p) (v : Val) (h : encodeChunk itemsize maxSize p = .ok v) :
    decodeChunk itemsize v = .ok p := by
  obtain ⟨x, s⟩ := p
  obtain ⟨⟨h0, h1, h2⟩, h3, h4⟩ := hp
  simp only at h0 h1 h2 h3 h4
  unfold encodeChunk at h
  obtain ⟨parts, hparts, h⟩ := bind_ok h
  obtain ⟨sb, hsb, h⟩ := bind_ok h
  cases h
  have hk : max 1 (maxSize / itemsize x.dtype) ≠ 0 := by omega
  have hsub : (parts.map (Val.ext 1)).mapM (asNdarray itemsize) =
      .ok (subchunks maxSize (itemsize x.dtype) x) := by
    rw [mapM_map]
    have e : (fun a => asNdarray itemsize (.ext 1 a)) = ndarrayFromBytes itemsize := by
      funext a; rfl
    rw [e]
    have hok : ∀ y ∈ subchunks maxSize (itemsize x.dtype) x, NpOk itemsize y := by
      intro y hy
      unfold subchunks at hy
      rw [List.mem_map] at hy
      obtain ⟨q, hq, rfl⟩ := hy
      refine ⟨h0, ?_, by simp⟩
      intro e he
      apply h1
      rw [← pieces_flatten hk x.elems]
      exact List.mem_flatten.2 ⟨q, hq, he⟩
    exact mapM_inv_mem _ _ (fun y hy b hb => ndarray_round_trip itemsize y (hok y hy) b hb) hparts
  have hs : asSliceNd (Val.ext 6 sb) = .ok s := sliceNd_round_trip s sb hsb
  unfold decodeChunk
  simp only [asList]
  change (do
    let ps ← (parts.map (Val.ext 1)).mapM (asNdarray itemsize)
    let s ← asSliceNd (Val.ext 6 sb)
    let flat ← concatenate ps
    let shape ← s.mapM extent
    if flat.elems.length = shape.prod then return ((⟨shape, flat.dtype, flat.elems⟩ : NpArray), s)
    else .error .valueError) = _
  rw [hsub, hs]
  change (do
    let flat ← concatenate (subchunks maxSize (itemsize x.dtype) x)
    let shape ← s.mapM extent
    if flat.elems.length = shape.prod then return ((⟨shape, flat.dtype, flat.elems⟩ : NpArray), s)
    else .error .valueError) = _
  have hne : pieces (max 1 (maxSize / itemsize x.dtype)) x.elems ≠ [] := by
    rw [pieces_cons h3 hk]; simp
  unfold subchunks
  rw [concatenate_pieces _ _ hne, h4, pieces_flatten hk]
  change (if x.elems.length = x.shape.prod then _ else _) = _
  rw [if_pos h2]
  rfl

/-! ### Keys -/

theorem foldl_map' {α β γ : Type} (f : γ → β → γ) (g : α → β) (l : List α) (a : γ) :
    (l.map g).foldl f a = l.foldl (fun acc x => f acc (g x)) a := by
  rw [List.foldl_map]

theorem natStr_lt (n : Nat) : ∀ c ∈ natStr n, 48 ≤ c.toNat ∧ c.toNat ≤ 57 := by
  intro c hc
  have := (CkptPath.isDigit_iff c).2 ((CkptPath.digits_natStr n).2 c hc)
  unfold isDigit at this
  simpa using this

theorem parseKey_indexKey (n : Nat) : parseKey (indexKey n) = .ok n := by
  unfold parseKey indexKey
  have htn : ∀ c ∈ natStr n, (UInt8.ofNat c.toNat).toNat = c.toNat := by
    intro c hc
    have := natStr_lt n c hc
    simp; omega
  rw [if_pos]
  · rw [List.foldl_map]
    have : (natStr n).foldl (fun acc c => 10 * acc + ((UInt8.ofNat c.toNat).toNat - 48)) 0 =
        parseNat (natStr n) := by
      unfold parseNat
      apply List.foldl_ext
      intro acc c hc
      rw [htn c hc]; rfl
    rw [this, CkptPath.parseNat_eq, CkptPath.value_natStr]
  · refine ⟨by simp [(CkptPath.digits_natStr n).1], ?_⟩
    rw [List.all_map, List.all_eq_true]
    intro c hc
    have := natStr_lt n c hc
    simp only [Function.comp, htn c hc, Bool.and_eq_true, decide_eq_true_eq]
    exact this

theorem indexKey_ne_magic (n : Nat) : indexKey n ≠ magicKey := by
  intro h
  have h1 := parseKey_indexKey n
  rw [h] at h1
  have : parseKey magicKey = .error .valueError := by decide +kernel
  rw [this] at h1
  cases h1

theorem length_natStr_le (k n : Nat) (h : n < 10 ^ k) (hk : 0 < k) : (natStr n).length ≤ k := by
  unfold natStr
  split
  · exact hk
  · rw [List.length_map, List.length_reverse]
    exact (Nat.digits_length_le_iff (by norm_num) n).2 h

theorem length_indexKey_le {n : Nat} (h : n < 10 ^ 20) : (indexKey n).length ≤ 20 := by
  unfold indexKey
  rw [List.length_map]
  exact length_natStr_le 20 n h (by norm_num)

theorem subchunks_count (maxSize itemsize : Nat) (x : NpArray) :
    (subchunks maxSize itemsize x).length ≤ x.elems.length := by
  unfold subchunks
  rw [List.length_map]
  exact pieces_count (by omega) _

/-! ### The whole dict -/

theorem add_chunks (out : ArrayChunks) (i : Nat) (cs : List (NpArray × SliceNd)) (j : Nat) :
    let out' := cs.foldl (fun o c => o.add i c.1 c.2) out
    (out'.chunks.get? j = if j = i ∧ cs ≠ [] then
        some ((out.chunks.get? j).getD [] ++ cs.map Prod.fst) else out.chunks.get? j) ∧
      (out'.globalSlices.get? j = if j = i ∧ cs ≠ [] then
        some ((out.globalSlices.get? j).getD [] ++ cs.map Prod.snd) else out.globalSlices.get? j) := by
  induction cs generalizing out with
  | nil => simp
  | cons c cs ih =>
    obtain ⟨h1, h2⟩ := ih (out.add i c.1 c.2)
    simp only [List.foldl_cons]
    rw [h1, h2]
    unfold ArrayChunks.add
    simp only [PyDict.get?_set]
    by_cases hj : j = i
    · subst hj
      by_cases hc : cs = []
      · subst hc; simp
      · simp [hc]
    · have hj' : ¬ i = j := fun h => hj h.symm
      simp [hj, hj']

theorem decode_foldlM (itemsize : Bytes → Nat) (maxSize : Nat)
    (lazy : List (Nat × List (NpArray × SliceNd))) (hn : (lazy.map Prod.fst).Nodup)
    (hok : ∀ p ∈ lazy, ∀ c ∈ p.2, ChunkOk itemsize c) (items : List (Bytes × Val))
    (hi : (lazy.mapM fun p => do
      let l ← p.2.mapM (encodeChunk itemsize maxSize)
      return (indexKey p.1, Val.arr l)) = .ok items) (out : ArrayChunks)
    (hout : ∀ p ∈ lazy, out.chunks.get? p.1 = none ∧ out.globalSlices.get? p.1 = none) :
    ∃ out', (items.foldlM (fun out (p : Bytes × Val) =>
      if p.1 = magicKey then Except.ok out
      else do
        let i ← parseKey p.1
        let l ← asList p.2
        let cs ← l.mapM (decodeChunk itemsize)
        return cs.foldl (fun o c => o.add i c.1 c.2) out) out) = .ok out' ∧
      (∀ p ∈ lazy, p.2 ≠ [] → out'.chunks.get? p.1 = some (p.2.map Prod.fst) ∧
        out'.globalSlices.get? p.1 = some (p.2.map Prod.snd)) ∧
      (∀ j, (∀ p ∈ lazy, p.1 = j → p.2 = []) → out'.chunks.get? j = out.chunks.get? j ∧
        out'.globalSlices.get? j = out.globalSlices.get? j) := by
  induction lazy generalizing items out with
  | nil =>
    rw [List.mapM_nil] at hi; cases hi
    exact ⟨out, rfl, by simp, by simp⟩
  | cons p lazy ih =>
    obtain ⟨i, cs⟩ := p
    rw [List.mapM_cons] at hi
    obtain ⟨it, hit, hi⟩ := bind_ok hi
    obtain ⟨its, hits, hi⟩ := bind_ok hi
    cases hi
    obtain ⟨vs, hvs, hit⟩ := bind_ok hit
    cases hit
    have hdec : vs.mapM (decodeChunk itemsize) = .ok cs := by
      have hcs : ∀ c ∈ cs, ChunkOk itemsize c := fun c hc => hok (i, cs) (by simp) c hc
      exact mapM_inv_mem _ _ (fun c hc b hb => decode_encode_chunk itemsize maxSize c (hcs c hc) b hb) hvs
    rw [List.map_cons, List.nodup_cons] at hn
    have hadd := add_chunks out i cs
    set out1 := cs.foldl (fun o c => o.add i c.1 c.2) out with hout1
    have hi0 := hout (i, cs) (by simp)
    obtain ⟨out', e, h1, h2⟩ := ih hn.2 (fun q hq => hok q (by simp [hq])) its hits out1 (by
      intro q hq
      have hne : q.1 ≠ i := by
        rintro rfl
        exact hn.1 (List.mem_map.2 ⟨q, hq, rfl⟩)
      have := hout q (by simp [hq])
      rw [(hadd q.1).1, (hadd q.1).2]
      simp [hne, this])
    refine ⟨out', ?_, ?_, ?_⟩
    · rw [List.foldlM_cons]
      simp only [if_neg (indexKey_ne_magic i), parseKey_indexKey]
      change (List.mapM (decodeChunk itemsize) vs >>= fun cs =>
        Except.ok (cs.foldl (fun o c => o.add i c.1 c.2) out)) >>= _ = _
      rw [hdec]
      exact e
    · intro q hq hqne
      rcases List.mem_cons.1 hq with rfl | hq
      · simp only at hqne ⊢
        have := h2 i (by
          rintro q hq' rfl
          exact absurd (List.mem_map.2 ⟨q, hq', rfl⟩) hn.1)
        rw [this.1, this.2, (hadd i).1, (hadd i).2]
        simp at hi0
        simp [hqne, hi0]
      · exact h1 q hq hqne
    · intro j hj
      have := h2 j fun q hq => hj q (by simp [hq])
      rw [this.1, this.2, (hadd j).1, (hadd j).2]
      by_cases hji : j = i
      · have := hj (i, cs) (by simp) hji.symm
        simp only at this
        simp [this]
      · simp [hji]

end Verif.Ser
