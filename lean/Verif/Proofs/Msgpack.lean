import Verif.Model.Msgpack
import Mathlib.Tactic.Ring

namespace Verif.Msgpack

open Verif

theorem length_be (k n : Nat) : (be k n).length = k := by
  induction k generalizing n with
  | zero => rfl
  | succ k ih => simp [be, ih]

theorem unBe_append (a : Bytes) (x : UInt8) : unBe (a ++ [x]) = 256 * unBe a + x.toNat := by
  simp [unBe, List.foldl_append]

theorem unBe_be (k n : Nat) (h : n < 256 ^ k) : unBe (be k n) = n := by
  induction k generalizing n with
  | zero => simp [be, unBe] at *; omega
  | succ k ih =>
    rw [be, unBe_append, ih (n / 256) (by rw [pow_succ] at h; omega)]
    simp
    omega

theorem be_one (n : Nat) : be 1 n = [UInt8.ofNat n] := by simp [be]

theorem takeBytes_append {k : Nat} {x : Bytes} (h : x.length = k) (r : Bytes) :
    takeBytes k (x ++ r) = .ok (x, r) := by
  unfold takeBytes
  rw [if_pos (by simp; omega)]
  subst h; simp

theorem readNat_be (k n : Nat) (h : n < 256 ^ k) (r : Bytes) : readNat k (be k n ++ r) = .ok (n, r) := by
  unfold readNat
  rw [takeBytes_append (length_be k n)]
  change Except.ok (unBe (be k n), r) = _
  rw [unBe_be k n h]

theorem unpack_fixint (raw : Bool) (fuel n : Nat) (h : n < 128) (b : Bytes) :
    unpack raw (fuel + 1) (be 1 n ++ b) = .ok (.int n, b) := by
  have e : n % 2 ^ 8 = n := Nat.mod_eq_of_lt (by omega)
  rw [be_one, List.singleton_append, unpack]
  simp only [UInt8.toNat_ofNat', e]
  rw [if_pos h]

theorem unpack_fixmap (raw : Bool) (fuel n : Nat) (h : n < 16) (b : Bytes) :
    unpack raw (fuel + 1) (be 1 (0x80 + n) ++ b) = unpackMap raw fuel n b := by
  have e : (0x80 + n) % 2 ^ 8 = 0x80 + n := Nat.mod_eq_of_lt (by omega)
  rw [be_one, List.singleton_append, unpack]
  simp only [UInt8.toNat_ofNat', e]
  rw [if_neg (by omega), if_pos (by omega), Nat.add_sub_cancel_left]

theorem unpack_fixarr (raw : Bool) (fuel n : Nat) (h : n < 16) (b : Bytes) :
    unpack raw (fuel + 1) (be 1 (0x90 + n) ++ b) = unpackArr raw fuel n b := by
  have e : (0x90 + n) % 2 ^ 8 = 0x90 + n := Nat.mod_eq_of_lt (by omega)
  rw [be_one, List.singleton_append, unpack]
  simp only [UInt8.toNat_ofNat', e]
  rw [if_neg (by omega), if_neg (by omega), if_pos (by omega), Nat.add_sub_cancel_left]

theorem unpack_fixstr (raw : Bool) (fuel n : Nat) (h : n < 32) (b : Bytes) :
    unpack raw (fuel + 1) (be 1 (0xa0 + n) ++ b) = readStr raw n b := by
  have e : (0xa0 + n) % 2 ^ 8 = 0xa0 + n := Nat.mod_eq_of_lt (by omega)
  rw [be_one, List.singleton_append, unpack]
  simp only [UInt8.toNat_ofNat', e]
  rw [if_neg (by omega), if_neg (by omega), if_neg (by omega), if_pos (by omega),
    Nat.add_sub_cancel_left]

theorem unpack_negfix (raw : Bool) (fuel n : Nat) (h : n < 256) (h' : 0xe0 ≤ n) (b : Bytes) :
    unpack raw (fuel + 1) (be 1 n ++ b) = .ok (.int ((n : Int) - 256), b) := by
  have e : n % 2 ^ 8 = n := Nat.mod_eq_of_lt (by omega)
  rw [be_one, List.singleton_append, unpack]
  simp only [UInt8.toNat_ofNat', e]
  iterate 33 rw [if_neg (by omega)]
  rw [if_pos h']

theorem unpack_tag_0xcc (raw : Bool) (fuel : Nat) (b : Bytes) :
    unpack raw (fuel + 1) (0xcc :: b) = readUnsigned 1 b := by
  rw [unpack]; simp

theorem unpack_tag_0xcd (raw : Bool) (fuel : Nat) (b : Bytes) :
    unpack raw (fuel + 1) (0xcd :: b) = readUnsigned 2 b := by
  rw [unpack]; simp

theorem unpack_tag_0xce (raw : Bool) (fuel : Nat) (b : Bytes) :
    unpack raw (fuel + 1) (0xce :: b) = readUnsigned 4 b := by
  rw [unpack]; simp

theorem unpack_tag_0xcf (raw : Bool) (fuel : Nat) (b : Bytes) :
    unpack raw (fuel + 1) (0xcf :: b) = readUnsigned 8 b := by
  rw [unpack]; simp

theorem unpack_tag_0xd0 (raw : Bool) (fuel : Nat) (b : Bytes) :
    unpack raw (fuel + 1) (0xd0 :: b) = readSigned 1 b := by
  rw [unpack]; simp

theorem unpack_tag_0xd1 (raw : Bool) (fuel : Nat) (b : Bytes) :
    unpack raw (fuel + 1) (0xd1 :: b) = readSigned 2 b := by
  rw [unpack]; simp

theorem unpack_tag_0xd2 (raw : Bool) (fuel : Nat) (b : Bytes) :
    unpack raw (fuel + 1) (0xd2 :: b) = readSigned 4 b := by
  rw [unpack]; simp

theorem unpack_tag_0xd3 (raw : Bool) (fuel : Nat) (b : Bytes) :
    unpack raw (fuel + 1) (0xd3 :: b) = readSigned 8 b := by
  rw [unpack]; simp

theorem readSigned_be (k : Nat) (i m : Int) (b : Bytes) (hk : 0 < k) (h1 : -2 ^ (8 * k - 1) ≤ i)
    (h2 : i < 0) (hm : m = i + 2 ^ (8 * k)) : readSigned k (be k m.toNat ++ b) = .ok (.int i, b) := by
  have e : (2 : Int) ^ (8 * k) = 2 * 2 ^ (8 * k - 1) := by
    rw [← pow_succ']; congr 1; omega
  have e' : (256 : Nat) ^ k = 2 ^ (8 * k) := by rw [pow_mul]; norm_num
  have hpos : 0 ≤ m := by omega
  have hc : (((2 : Nat) ^ (8 * k) : Nat) : Int) = (2 : Int) ^ (8 * k) := by push_cast; rfl
  have hc' : (((2 : Nat) ^ (8 * k - 1) : Nat) : Int) = (2 : Int) ^ (8 * k - 1) := by push_cast; rfl
  have hlt : m.toNat < 256 ^ k := by rw [e']; omega
  unfold readSigned
  rw [readNat_be k _ hlt]
  change Except.ok _ = _
  rw [if_neg (by omega)]
  congr 3
  omega

theorem readUnsigned_be (k : Nat) (i : Int) (b : Bytes) (h1 : 0 ≤ i) (h2 : i < 2 ^ (8 * k)) :
    readUnsigned k (be k i.toNat ++ b) = .ok (.int i, b) := by
  have e' : (256 : Nat) ^ k = 2 ^ (8 * k) := by rw [pow_mul]; norm_num
  have hc : (((2 : Nat) ^ (8 * k) : Nat) : Int) = (2 : Int) ^ (8 * k) := by push_cast; rfl
  unfold readUnsigned
  rw [readNat_be k _ (by rw [e']; omega)]
  change Except.ok _ = _
  congr 3
  omega

theorem unpack_int (raw : Bool) (fuel : Nat) (i : Int) (h : Bytes) (hp : packInt i = .ok h) (b : Bytes) :
    unpack raw (fuel + 1) (h ++ b) = .ok (.int i, b) := by
  rw [packInt] at hp
  by_cases h0 : i < -2 ^ 63
  · rw [if_pos h0] at hp
    cases hp
  rw [if_neg h0] at hp
  by_cases h1 : i < -2 ^ 31
  · rw [if_pos h1] at hp
    obtain rfl := Except.ok.inj hp
    exact (unpack_tag_0xd3 raw fuel _).trans
      (readSigned_be 8 i _ b (by norm_num) (by norm_num; omega) (by omega) (by norm_num))
  rw [if_neg h1] at hp
  by_cases h2 : i < -2 ^ 15
  · rw [if_pos h2] at hp
    obtain rfl := Except.ok.inj hp
    exact (unpack_tag_0xd2 raw fuel _).trans
      (readSigned_be 4 i _ b (by norm_num) (by norm_num; omega) (by omega) (by norm_num))
  rw [if_neg h2] at hp
  by_cases h3 : i < -2 ^ 7
  · rw [if_pos h3] at hp
    obtain rfl := Except.ok.inj hp
    exact (unpack_tag_0xd1 raw fuel _).trans
      (readSigned_be 2 i _ b (by norm_num) (by norm_num; omega) (by omega) (by norm_num))
  rw [if_neg h3] at hp
  by_cases h4 : i < -2 ^ 5
  · rw [if_pos h4] at hp
    obtain rfl := Except.ok.inj hp
    exact (unpack_tag_0xd0 raw fuel _).trans
      (readSigned_be 1 i _ b (by norm_num) (by norm_num; omega) (by omega) (by norm_num))
  rw [if_neg h4] at hp
  by_cases h5 : i < 0
  · rw [if_pos h5] at hp
    obtain rfl := Except.ok.inj hp
    refine (unpack_negfix _ _ _ (by omega) (by omega) _).trans ?_
    have : (((i + 2 ^ 8).toNat : Int)) - 256 = i := by omega
    rw [this]
  rw [if_neg h5] at hp
  by_cases h6 : i < 2 ^ 7
  · rw [if_pos h6] at hp
    obtain rfl := Except.ok.inj hp
    refine (unpack_fixint _ _ _ (by omega) _).trans ?_
    have : ((i.toNat : Int)) = i := by omega
    rw [this]
  rw [if_neg h6] at hp
  by_cases h7 : i < 2 ^ 8
  · rw [if_pos h7] at hp
    obtain rfl := Except.ok.inj hp
    exact (unpack_tag_0xcc raw fuel _).trans
      (readUnsigned_be 1 i b (by omega) (by norm_num; omega))
  rw [if_neg h7] at hp
  by_cases h8 : i < 2 ^ 16
  · rw [if_pos h8] at hp
    obtain rfl := Except.ok.inj hp
    exact (unpack_tag_0xcd raw fuel _).trans
      (readUnsigned_be 2 i b (by omega) (by norm_num; omega))
  rw [if_neg h8] at hp
  by_cases h9 : i < 2 ^ 32
  · rw [if_pos h9] at hp
    obtain rfl := Except.ok.inj hp
    exact (unpack_tag_0xce raw fuel _).trans
      (readUnsigned_be 4 i b (by omega) (by norm_num; omega))
  rw [if_neg h9] at hp
  by_cases h10 : i < 2 ^ 64
  · rw [if_pos h10] at hp
    obtain rfl := Except.ok.inj hp
    exact (unpack_tag_0xcf raw fuel _).trans
      (readUnsigned_be 8 i b (by omega) (by norm_num; omega))
  rw [if_neg h10] at hp
  cases hp

theorem unpack_str (raw : Bool) (fuel : Nat) (n : Nat) (h : Bytes) (hp : packStrHeader n = .ok h)
    (b : Bytes) : unpack raw (fuel + 1) (h ++ b) = readStr raw n b := by
  unfold packStrHeader at hp
  split_ifs at hp with h1 h2 h3 h4
  · cases hp
    exact unpack_fixstr _ _ _ h1 _
  · cases hp
    rw [List.cons_append, unpack]
    simp [readNat_be 1 n (by omega), bind, Except.bind]
  · cases hp
    rw [List.cons_append, unpack]
    simp [readNat_be 2 n (by omega), bind, Except.bind]
  · cases hp
    rw [List.cons_append, unpack]
    simp [readNat_be 4 n (by omega), bind, Except.bind]

theorem unpack_bin (raw : Bool) (fuel : Nat) (n : Nat) (h : Bytes) (hp : packBinHeader n = .ok h)
    (b : Bytes) : unpack raw (fuel + 1) (h ++ b) = readBin n b := by
  unfold packBinHeader at hp
  split_ifs at hp with h2 h3 h4
  · cases hp
    rw [List.cons_append, unpack]
    simp [readNat_be 1 n (by omega), bind, Except.bind]
  · cases hp
    rw [List.cons_append, unpack]
    simp [readNat_be 2 n (by omega), bind, Except.bind]
  · cases hp
    rw [List.cons_append, unpack]
    simp [readNat_be 4 n (by omega), bind, Except.bind]

theorem unpack_arr (raw : Bool) (fuel : Nat) (n : Nat) (h : Bytes) (hp : packArrHeader n = .ok h)
    (b : Bytes) : unpack raw (fuel + 1) (h ++ b) = unpackArr raw fuel n b := by
  unfold packArrHeader at hp
  split_ifs at hp with h1 h3 h4
  · cases hp
    exact unpack_fixarr _ _ _ h1 _
  · cases hp
    rw [List.cons_append, unpack]
    simp [readNat_be 2 n (by omega), bind, Except.bind]
  · cases hp
    rw [List.cons_append, unpack]
    simp [readNat_be 4 n (by omega), bind, Except.bind]

theorem unpack_map (raw : Bool) (fuel : Nat) (n : Nat) (h : Bytes) (hp : packMapHeader n = .ok h)
    (b : Bytes) : unpack raw (fuel + 1) (h ++ b) = unpackMap raw fuel n b := by
  unfold packMapHeader at hp
  split_ifs at hp with h1 h3 h4
  · cases hp
    exact unpack_fixmap _ _ _ h1 _
  · cases hp
    rw [List.cons_append, unpack]
    simp [readNat_be 2 n (by omega), bind, Except.bind]
  · cases hp
    rw [List.cons_append, unpack]
    simp [readNat_be 4 n (by omega), bind, Except.bind]

theorem unpack_ext (raw : Bool) (fuel : Nat) (n : Nat) (h : Bytes) (hp : packExtHeader n = .ok h)
    (b : Bytes) : unpack raw (fuel + 1) (h ++ b) = readExt n b := by
  unfold packExtHeader at hp
  split_ifs at hp with h1 h2 h3 h4 h5 h6 h7 h8
  · cases hp; rw [List.cons_append, unpack]; simp [h1]
  · cases hp; rw [List.cons_append, unpack]; simp [h2]
  · cases hp; rw [List.cons_append, unpack]; simp [h3]
  · cases hp; rw [List.cons_append, unpack]; simp [h4]
  · cases hp; rw [List.cons_append, unpack]; simp [h5]
  · cases hp
    rw [List.cons_append, unpack]
    simp [readNat_be 1 n (by omega), bind, Except.bind]
  · cases hp
    rw [List.cons_append, unpack]
    simp [readNat_be 2 n (by omega), bind, Except.bind]
  · cases hp
    rw [List.cons_append, unpack]
    simp [readNat_be 4 n (by omega), bind, Except.bind]

mutual
/-- What comes back: strings as bytes if `raw`. -/
def conv (raw : Bool) : Val → Val
  | .nil => .nil
  | .bool b => .bool b
  | .int i => .int i
  | .str s => if raw then .bin s else .str s
  | .bin b => .bin b
  | .arr l => .arr (convList raw l)
  | .map l => .map (convPairs raw l)
  | .ext c d => .ext c d
def convList (raw : Bool) : List Val → List Val
  | [] => []
  | v :: l => conv raw v :: convList raw l
def convPairs (raw : Bool) : List (Bytes × Val) → List (Bytes × Val)
  | [] => []
  | (k, v) :: l => (k, conv raw v) :: convPairs raw l
end

mutual
theorem conv_false : ∀ v, conv false v = v
  | .nil => rfl
  | .bool _ => rfl
  | .int _ => rfl
  | .str _ => rfl
  | .bin _ => rfl
  | .arr l => by rw [conv, convList_false l]
  | .map l => by rw [conv, convPairs_false l]
  | .ext _ _ => rfl
theorem convList_false : ∀ l, convList false l = l
  | [] => rfl
  | v :: l => by rw [convList, conv_false v, convList_false l]
theorem convPairs_false : ∀ l, convPairs false l = l
  | [] => rfl
  | (k, v) :: l => by rw [convPairs, conv_false v, convPairs_false l]
end

theorem bind_ok {α β : Type} {x : Except PyErr α} {f : α → Except PyErr β} {b : β}
    (h : (x >>= f) = .ok b) : ∃ a, x = .ok a ∧ f a = .ok b := by
  cases x with
  | error e => cases h
  | ok a => exact ⟨a, rfl, h⟩

theorem packHeader_ne_nil :
    (∀ n h, packStrHeader n = .ok h → 1 ≤ h.length) ∧ (∀ n h, packBinHeader n = .ok h → 1 ≤ h.length) ∧
    (∀ n h, packArrHeader n = .ok h → 1 ≤ h.length) ∧ (∀ n h, packMapHeader n = .ok h → 1 ≤ h.length) ∧
    (∀ n h, packExtHeader n = .ok h → 1 ≤ h.length) := by
  refine ⟨?_, ?_, ?_, ?_, ?_⟩ <;> intro n h hp
  · unfold packStrHeader at hp
    split_ifs at hp <;> cases hp <;> simp [length_be]
  · unfold packBinHeader at hp
    split_ifs at hp <;> cases hp <;> simp
  · unfold packArrHeader at hp
    split_ifs at hp <;> cases hp <;> simp [length_be]
  · unfold packMapHeader at hp
    split_ifs at hp <;> cases hp <;> simp [length_be]
  · unfold packExtHeader at hp
    split_ifs at hp <;> cases hp <;> simp

theorem packInt_ne_nil (i : Int) (h : Bytes) (hp : packInt i = .ok h) : 1 ≤ h.length := by
  have := unpack_int true 0 i h hp []
  cases h with
  | nil => rw [List.nil_append, unpack] at this; cases this
  | cons x h => simp

mutual
/-- Packing then unpacking gives the value back and leaves what follows. -/
theorem unpack_pack (raw : Bool) : ∀ (v : Val) (b : Bytes), pack v = .ok b →
    1 ≤ b.length ∧ ∀ (fuel : Nat) (rest : Bytes), 3 * b.length ≤ fuel →
      unpack raw fuel (b ++ rest) = .ok (conv raw v, rest)
  | .nil, b, h => by
    rw [pack] at h
    obtain rfl := Except.ok.inj h
    refine ⟨by simp, fun fuel rest hf => ?_⟩
    cases fuel with
    | zero => simp at hf
    | succ fuel => rw [List.singleton_append, unpack]; simp [conv]
  | .bool c, b, h => by
    rw [pack] at h
    obtain rfl := Except.ok.inj h
    refine ⟨by simp, fun fuel rest hf => ?_⟩
    cases fuel with
    | zero => simp at hf
    | succ fuel => cases c <;> (rw [List.singleton_append, unpack]; simp [conv])
  | .int i, b, h => by
    rw [pack] at h
    have hne := packInt_ne_nil i b h
    refine ⟨hne, fun fuel rest hf => ?_⟩
    obtain ⟨fuel, rfl⟩ : ∃ f, fuel = f + 1 := ⟨fuel - 1, by omega⟩
    rw [unpack_int raw fuel i b h rest]; rfl
  | .str s, b, h => by
    rw [pack, packStr] at h
    obtain ⟨hd, hh, h⟩ := bind_ok h
    obtain rfl := Except.ok.inj h
    have hne := packHeader_ne_nil.1 _ _ hh
    refine ⟨by simp; omega, fun fuel rest hf => ?_⟩
    obtain ⟨fuel, rfl⟩ : ∃ f, fuel = f + 1 := ⟨fuel - 1, by simp at hf; omega⟩
    rw [List.append_assoc, unpack_str raw fuel _ hd hh, readStr, takeBytes_append rfl]
    rfl
  | .bin s, b, h => by
    rw [pack] at h
    obtain ⟨hd, hh, h⟩ := bind_ok h
    obtain rfl := Except.ok.inj h
    have hne := packHeader_ne_nil.2.1 _ _ hh
    refine ⟨by simp; omega, fun fuel rest hf => ?_⟩
    obtain ⟨fuel, rfl⟩ : ∃ f, fuel = f + 1 := ⟨fuel - 1, by simp at hf; omega⟩
    rw [List.append_assoc, unpack_bin raw fuel _ hd hh, readBin, takeBytes_append rfl]
    rfl
  | .arr l, b, h => by
    rw [pack] at h
    obtain ⟨hd, hh, h⟩ := bind_ok h
    obtain ⟨c, hc, h⟩ := bind_ok h
    obtain rfl := Except.ok.inj h
    have hne := packHeader_ne_nil.2.2.1 _ _ hh
    refine ⟨by simp; omega, fun fuel rest hf => ?_⟩
    rw [List.length_append] at hf
    obtain ⟨fuel, rfl⟩ : ∃ f, fuel = f + 2 := ⟨fuel - 2, by omega⟩
    rw [List.append_assoc, unpack_arr raw (fuel + 1) _ hd hh, unpackArr,
      unpack_packList raw l c hc fuel rest (by omega)]
    rfl
  | .map l, b, h => by
    rw [pack] at h
    obtain ⟨hd, hh, h⟩ := bind_ok h
    obtain ⟨c, hc, h⟩ := bind_ok h
    obtain rfl := Except.ok.inj h
    have hne := packHeader_ne_nil.2.2.2.1 _ _ hh
    refine ⟨by simp; omega, fun fuel rest hf => ?_⟩
    rw [List.length_append] at hf
    obtain ⟨fuel, rfl⟩ : ∃ f, fuel = f + 2 := ⟨fuel - 2, by omega⟩
    rw [List.append_assoc, unpack_map raw (fuel + 1) _ hd hh, unpackMap,
      unpack_packPairs raw l c hc fuel rest (by omega)]
    rfl
  | .ext code data, b, h => by
    rw [pack] at h
    obtain ⟨hd, hh, h⟩ := bind_ok h
    obtain rfl := Except.ok.inj h
    have hne := packHeader_ne_nil.2.2.2.2 _ _ hh
    refine ⟨by simp; omega, fun fuel rest hf => ?_⟩
    obtain ⟨fuel, rfl⟩ : ∃ f, fuel = f + 1 := ⟨fuel - 1, by simp at hf; omega⟩
    have e : (hd ++ code :: data) ++ rest = hd ++ ([code] ++ (data ++ rest)) := by simp
    rw [e, unpack_ext raw fuel _ hd hh, readExt, takeBytes_append (k := 1) rfl]
    change (takeBytes data.length (data ++ rest) >>= _) = _
    rw [takeBytes_append rfl]
    rfl
theorem unpack_packList (raw : Bool) : ∀ (l : List Val) (b : Bytes), packList l = .ok b →
    ∀ (fuel : Nat) (rest : Bytes), 3 * b.length + 1 ≤ fuel →
      unpackItems raw fuel l.length (b ++ rest) = .ok (convList raw l, rest)
  | [], b, h, fuel, rest, hf => by
    rw [packList] at h
    obtain rfl := Except.ok.inj h
    obtain ⟨fuel, rfl⟩ : ∃ f, fuel = f + 1 := ⟨fuel - 1, by omega⟩
    rw [List.length_nil, unpackItems]; rfl
  | v :: l, b, h, fuel, rest, hf => by
    rw [packList] at h
    obtain ⟨x, hx, h⟩ := bind_ok h
    obtain ⟨y, hy, h⟩ := bind_ok h
    obtain rfl := Except.ok.inj h
    obtain ⟨h1, h2⟩ := unpack_pack raw v x hx
    rw [List.length_append] at hf
    obtain ⟨fuel, rfl⟩ : ∃ f, fuel = f + 1 := ⟨fuel - 1, by omega⟩
    rw [List.length_cons, unpackItems, List.append_assoc, h2 fuel (y ++ rest) (by omega)]
    change (unpackItems raw fuel l.length (y ++ rest) >>= _) = _
    rw [unpack_packList raw l y hy fuel rest (by omega)]
    rfl
theorem unpack_packPairs (raw : Bool) : ∀ (l : List (Bytes × Val)) (b : Bytes), packPairs l = .ok b →
    ∀ (fuel : Nat) (rest : Bytes), 3 * b.length + 1 ≤ fuel →
      unpackPairs raw fuel l.length (b ++ rest) = .ok (convPairs raw l, rest)
  | [], b, h, fuel, rest, hf => by
    rw [packPairs] at h
    obtain rfl := Except.ok.inj h
    obtain ⟨fuel, rfl⟩ : ∃ f, fuel = f + 1 := ⟨fuel - 1, by omega⟩
    rw [List.length_nil, unpackPairs]; rfl
  | (k, v) :: l, b, h, fuel, rest, hf => by
    rw [packPairs] at h
    obtain ⟨s, hs, h⟩ := bind_ok h
    obtain ⟨x, hx, h⟩ := bind_ok h
    obtain ⟨y, hy, h⟩ := bind_ok h
    obtain rfl := Except.ok.inj h
    obtain ⟨h1, h2⟩ := unpack_pack raw v x hx
    rw [packStr] at hs
    obtain ⟨hd, hh, hs⟩ := bind_ok hs
    obtain rfl := Except.ok.inj hs
    have hne := packHeader_ne_nil.1 _ _ hh
    simp only [List.length_append] at hf
    obtain ⟨fuel, rfl⟩ : ∃ f, fuel = f + 2 := ⟨fuel - 2, by omega⟩
    rw [List.length_cons, unpackPairs, List.append_assoc, List.append_assoc, unpack_str raw fuel _ hd hh,
      readStr, takeBytes_append rfl]
    simp only [bind, Except.bind, pure, Except.pure]
    rw [List.append_assoc, h2 (fuel + 1) (y ++ rest) (by omega)]
    simp only []
    rw [unpack_packPairs raw l y hy (fuel + 1) rest (by omega)]
    cases raw <;> rfl
end

theorem unpackb_pack (raw : Bool) (v : Val) (b : Bytes) (h : pack v = .ok b) :
    unpackb raw b = .ok (conv raw v) := by
  have := (unpack_pack raw v b h).2 (3 * b.length + 3) [] (by omega)
  rw [List.append_nil] at this
  unfold unpackb
  rw [this]

end Verif.Msgpack
