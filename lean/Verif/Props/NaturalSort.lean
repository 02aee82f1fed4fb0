import Verif.Proofs.NaturalSort
import Mathlib.Tactic.NormNum

/-!
C55: names are visited in the order of the numbers inside them.
-/

namespace Verif.NaturalSort

open Verif PyStr NumberedNames

/-- C55: every name is visited, and as often as it is given. -/
theorem C55_all_names (fl : ℚ → ℚ) (names : List (List Char)) : (naturalSort fl names).Perm names :=
  List.mergeSort_perm _ _

/-- C55: two names which are equal up to a number in each of them are in the order of these numbers, whatever follows:
`block_2...` is before `block_10...`.  The number must be written in digits and be separated from what is before it by
something else than a sign, a point or an exponent mark.  `float` is assumed to be strictly increasing on the integers up
to `2 ^ 53`. -/
theorem C55_numeric_order (fl : ℚ → ℚ) (hfl : ∀ a b : Nat, a < b → b ≤ 2 ^ 53 → fl a < fl b) (names : List (List Char))
    (p q1 q2 : List Char) (a b : Nat) (hp : NumberMayFollow p) (hq1 : NumberEndsBefore q1) (hq2 : NumberEndsBefore q2)
    (hab : a < b) (hb : b ≤ 2 ^ 53) :
    Before (naturalSort fl names) (p ++ natStr a ++ q1) (p ++ natStr b ++ q2) := by
  have hv : ∀ n, parseNat (natStr n) = n := fun n => by
    rw [CkptPath.parseNat_eq]
    exact CkptPath.value_natStr n
  have hd : ∀ n, natStr n ≠ [] ∧ ∀ c ∈ natStr n, Digit c := fun n =>
    ⟨(CkptPath.digits_natStr n).1, fun c hc => (CkptPath.digits_natStr n).2 c hc⟩
  apply before_of_lt
  rw [List.append_assoc, List.append_assoc]
  exact keys_lt fl hp (hd a).1 (hd b).1 (hd a).2 (hd b).2 hq1 hq2 (by rw [hv, hv]; exact hfl a b hab hb)

/-- C55: also numbers with leading zeros are compared by value. -/
theorem C55_leading_zeros (fl : ℚ → ℚ) (hfl : ∀ a b : Nat, a < b → b ≤ 2 ^ 53 → fl a < fl b) (names : List (List Char))
    (p d1 d2 q1 q2 : List Char) (hp : NumberMayFollow p) (h1 : d1 ≠ []) (h2 : d2 ≠ []) (hd1 : ∀ c ∈ d1, Digit c)
    (hd2 : ∀ c ∈ d2, Digit c) (hq1 : NumberEndsBefore q1) (hq2 : NumberEndsBefore q2)
    (hlt : parseNat d1 < parseNat d2) (hb : parseNat d2 ≤ 2 ^ 53) :
    Before (naturalSort fl names) (p ++ d1 ++ q1) (p ++ d2 ++ q2) := by
  apply before_of_lt
  rw [List.append_assoc, List.append_assoc]
  exact keys_lt fl hp h1 h2 hd1 hd2 hq1 hq2 (hfl _ _ hlt hb)

/-- C55: the comparison of two sort keys never compares a string with a number: strings are at the even places and
numbers at the odd ones. -/
theorem C55_comparable (fl : ℚ → ℚ) (s : List Char) (i : Nat) (x : Token) (h : (splitKeys fl [] s)[i]? = some x) :
    ((∃ t, x = text t) ↔ i % 2 = 0) ∧ ((∃ q, x = num q) ↔ i % 2 = 1) :=
  splitKeys_alternate fl s.length s [] (le_refl _) i x h

/-- After a minus sign the order is reversed: `block-10` is before `block-2`. -/
theorem C55_minus_counterexample : naturalSort id ["block-2".toList, "block-10".toList] =
    ["block-10".toList, "block-2".toList] := by
  have h2 : splitKeys id [] "block-2".toList = [text "block".toList, num (-2), text []] := by
    simp [splitKeys_cons, splitKeys_nil, matchNum, takeSign, mantissa, exponent, isDigit, parseNat, charDigit]
  have h10 : splitKeys id [] "block-10".toList = [text "block".toList, num (-10), text []] := by
    simp [splitKeys_cons, splitKeys_nil, matchNum, takeSign, mantissa, exponent, isDigit, parseNat, charDigit]
  have hlt : splitKeys id [] "block-10".toList < splitKeys id [] "block-2".toList := by
    rw [h2, h10]
    exact List.Lex.cons (List.Lex.rel (num_lt (by norm_num)))
  have hp := C55_all_names id ["block-2".toList, "block-10".toList]
  have key : ∀ l : List (List Char), l.Perm ["block-2".toList, "block-10".toList] → Before l "block-10".toList "block-2".toList →
      l = ["block-10".toList, "block-2".toList] := by
    intro l hl hb
    match l, hl.length_eq with
    | [x, y], _ =>
      have hx : x = "block-2".toList ∨ x = "block-10".toList := by simpa using hl.mem_iff.1 (show x ∈ [x, y] by simp)
      rcases hx with rfl | rfl
      · have hy := (List.perm_cons _).1 hl
        have : y = "block-10".toList := by simpa using hy
        subst this
        exact absurd (hb 1 0 (by simp) (by simp) rfl rfl) (by omega)
      · have hl' := hl.trans (List.Perm.swap _ _ [])
        have hy := (List.perm_cons _).1 hl'
        have : y = "block-2".toList := by simpa using hy
        subst this
        rfl
  exact key _ hp (before_of_lt id _ hlt)

/-- After a point the digits are a fraction: `v.10` is before `v.5`. -/
theorem C55_point_counterexample : splitKeys id [] "v.10".toList < splitKeys id [] "v.5".toList := by
  have h5 : splitKeys id [] "v.5".toList = [text "v".toList, num (5 / 10), text []] := by
    simp [splitKeys_cons, splitKeys_nil, matchNum, takeSign, mantissa, exponent, isDigit, parseNat, charDigit]
  have h10 : splitKeys id [] "v.10".toList = [text "v".toList, num (10 / 100), text []] := by
    simp [splitKeys_cons, splitKeys_nil, matchNum, takeSign, mantissa, exponent, isDigit, parseNat, charDigit]
    norm_num
  rw [h5, h10]
  exact List.Lex.cons (List.Lex.rel (num_lt (by norm_num)))

/-- The hypotheses of `C55_numeric_order` can be met: encoder blocks, also after a name ending in `e`. -/
example : Before (naturalSort id ["a/block_10/w".toList, "a/block_2/w".toList]) ("a/block_".toList ++ natStr 2 ++ "/w".toList)
    ("a/block_".toList ++ natStr 10 ++ "/w".toList) := by
  refine C55_numeric_order id (fun a b h _ => by simpa using h) _ _ _ _ 2 10 ?_ ?_ ?_ (by omega) (by norm_num)
  · intro u c h
    have : u = "a/block".toList ∧ c = '_' := by
      have h' : "a/block".toList ++ ['_'] = u ++ [c] := h
      obtain ⟨a, b⟩ := List.append_inj' h' rfl
      exact ⟨a.symm, (List.cons.inj b).1.symm⟩
    rw [this.2]
    simp [Digit]
  · intro c v h
    have h' : '/' :: "w".toList = c :: v := h
    rw [← (List.cons.inj h').1]
    simp [Digit]
  · intro c v h
    have h' : '/' :: "w".toList = c :: v := h
    rw [← (List.cons.inj h').1]
    simp [Digit]

end Verif.NaturalSort
