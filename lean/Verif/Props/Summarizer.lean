import Verif.Proofs.Summarizer

/-!
C53: the names of summary values identify the entries of the arrays.
-/

namespace Verif.Summarizer

open Verif FlatDict NdArray TreeSpec

/-- C53: the names made for the entries of one array are pairwise different, there is one for each entry, and each comes
with the value of this entry. -/
theorem C53_names (pre : List Char) (x : NdArray ℝ) :
    ((yieldValues pre x).map Prod.fst).Nodup ∧ (yieldValues pre x).length = x.shape.prod ∧
    ∃ name : List Nat → List Char,
      (∀ idx idx', Valid x.shape idx → Valid x.shape idx' → name idx = name idx' → idx = idx') ∧
      (∀ idx, Valid x.shape idx → pre <+: name idx) ∧
      ∀ n v, (n, v) ∈ yieldValues pre x ↔ ∃ idx, Valid x.shape idx ∧ n = name idx ∧ v = x.get idx := by
  refine ⟨?_, by simp [yieldValues, product_length], fun idx => pre ++ indexSuffix x.shape idx, ?_, ?_, ?_⟩
  · rw [yieldValues, List.map_map]
    refine (List.nodup_map_iff_inj_on (product_nodup x.shape)).2 ?_
    intro a ha b hb h
    exact indexSuffix_inj (mem_product.1 ha) (mem_product.1 hb) (List.append_cancel_left h)
  · intro idx idx' h h' e
    exact indexSuffix_inj h h' (List.append_cancel_left e)
  · intro idx _
    exact List.prefix_append _ _
  · intro n v
    unfold yieldValues
    simp only [List.mem_map, mem_product, Prod.mk.injEq]
    constructor
    · rintro ⟨idx, h, rfl, rfl⟩; exact ⟨idx, h, rfl, rfl⟩
    · rintro ⟨idx, h, rfl, rfl⟩; exact ⟨idx, h, rfl, rfl⟩

/-- C53: the name of a value tells its index: equal names for two valid indices are only possible for equal indices. -/
theorem C53_index_of_name (pre : List Char) (shape idx idx' : List Nat) (h : Valid shape idx) (h' : Valid shape idx')
    (e : pre ++ indexSuffix shape idx = pre ++ indexSuffix shape idx') : idx = idx' :=
  indexSuffix_inj h h' (List.append_cancel_left e)

/-- C53: an array with more entries than the limit after the transformations of a matching rule makes the generator fail
with `ValueError`, having yielded nothing for this rule. -/
theorem C53_limit {R : Type} (search : R → List Char → Bool) (maxValues : Nat) (key : List Char) (value : NdArray ℝ)
    (r : R) (ts : List Transform) (rules : List (R × List Transform)) (suffix : List Char) (summary : NdArray ℝ)
    (hs : search r key = true) (ht : transform [] value ts = .ok (suffix, summary)) :
    (maxValues < summary.shape.prod →
      summarize search maxValues key value ((r, ts) :: rules) = ([], some .valueError)) ∧
    (summary.shape.prod ≤ maxValues →
      (summarize search maxValues key value ((r, ts) :: rules)).1 =
        yieldValues (key ++ suffix) summary ++ (summarize search maxValues key value rules).1) := by
  constructor
  · intro h
    simp [summarize, hs, ht, h, Gen.andThen]
  · intro h
    simp [summarize, hs, ht, Nat.not_lt.2 h, Gen.andThen]

/-- C53: when the summarizer does not fail, it yields exactly the entries of the transformed arrays: one for each leaf of
the tree, rule whose pattern is found in its name, and index; none of them has more than `maxValues` entries. -/
theorem C53_complete {R : Type} (search : R → List Char → Bool) (maxValues : Nat) (rules : List (R × List Transform))
    (tree : List (Key × FlatDict.Tree (NdArray ℝ))) (hok : ItemsOk tree)
    (h : (call search maxValues rules tree).2 = none) (name : List Char) (v : ℝ) :
    (name, v) ∈ (call search maxValues rules tree).1 ↔
      ∃ path x r ts suffix summary, leafOf tree path = some x ∧ (r, ts) ∈ rules ∧ search r (join path) = true ∧
        transform [] x ts = .ok (suffix, summary) ∧ summary.shape.prod ≤ maxValues ∧
        ∃ idx, Valid summary.shape idx ∧ name = join path ++ suffix ++ indexSuffix summary.shape idx ∧
          v = summary.get idx := by
  unfold call at h ⊢
  rw [summarizeAll_mem _ _ _ _ h]
  constructor
  · rintro ⟨key, x, hkx, r, ts, hr, hs, suffix, summary, ht, hle, idx, hi, hn, hv⟩
    obtain ⟨kv, hkv, he⟩ := List.mem_filterMap.1 hkx
    rw [flatten_eq tree hok] at hkv
    obtain ⟨pv, hpv, rfl⟩ := List.mem_map.1 hkv
    obtain ⟨p, fv⟩ := pv
    cases fv with
    | empty => cases he
    | leaf w =>
      simp only [Option.some.injEq, Prod.mk.injEq] at he
      obtain ⟨rfl, rfl⟩ := he
      exact ⟨p, w, r, ts, suffix, summary, (mem_flattenItems tree hok p w).1 hpv, hr, hs, ht, hle, idx, hi, hn, hv⟩
  · rintro ⟨p, x, r, ts, suffix, summary, hl, hr, hs, ht, hle, idx, hi, hn, hv⟩
    refine ⟨join p, x, ?_, r, ts, hr, hs, suffix, summary, ht, hle, idx, hi, hn, hv⟩
    refine List.mem_filterMap.2 ⟨(join p, .leaf x), ?_, rfl⟩
    rw [flatten_eq tree hok]
    exact List.mem_map.2 ⟨(p, .leaf x), (mem_flattenItems tree hok p x).2 hl, rfl⟩

/-- C53: the shape after an operation: the reduced axes have size one and the others do not change. -/
theorem C53_reduced_shape (op : List Char) (axes : List Int) (x y : NdArray ℝ) (h : applyOp op (some axes) x = .ok y) :
    y.shape.length = x.shape.length ∧ ∀ a < x.shape.length,
      (((a : Int) ∈ axes ∨ (a : Int) - x.shape.length ∈ axes) → y.shape.getD a 0 = 1) ∧
      (¬((a : Int) ∈ axes ∨ (a : Int) - x.shape.length ∈ axes) → y.shape.getD a 0 = x.shape.getD a 0) :=
  applyOp_shape h

/-- C53: an operation without axes gives a single entry computed from all the entries, for example the norm. -/
theorem C53_norm (x : NdArray ℝ) : ∃ y, applyOp "norm".toList none x = .ok y ∧ y.shape.prod = 1 ∧
    ∀ idx, Valid y.shape idx → y.get idx = Real.sqrt ((product x.shape).map fun j => x.get j ^ 2).sum := by
  refine ⟨⟨keepShape (List.range x.shape.length) x.shape, fun idx =>
    Real.sqrt ((groupAt (List.range x.shape.length) x idx).map fun x => x ^ 2).sum⟩, ?_, ?_, fun idx _ => ?_⟩
  · have : opOf "norm".toList = some fun l => Real.sqrt (l.map fun x => x ^ 2).sum := by simp [opOf]
    unfold applyOp
    rw [this]
    rfl
  · exact keepShape_all x.shape
  · simp only [groupAt_all, List.map_map]
    rfl

/-- C53: an operation that is not known is refused. -/
theorem C53_unknown_op (suffix op : List Char) (axes : Option (List Int)) (ts : List Transform) (x : NdArray ℝ)
    (h : op ∉ ["mean", "std", "sum", "min", "max", "norm"].map String.toList) :
    transform suffix x (⟨op, axes⟩ :: ts) = .error .valueError := by
  have : opOf op = none := by
    simp only [List.map_cons, List.map_nil, List.mem_cons, List.not_mem_nil, or_false, not_or] at h
    unfold opOf
    rw [if_neg h.1, if_neg h.2.1, if_neg h.2.2.1, if_neg h.2.2.2.1, if_neg h.2.2.2.2.1, if_neg h.2.2.2.2.2]
  change (applyOp op axes x >>= _) = _
  rw [applyOp, this]
  rfl

/-- The names of different arrays can be the same: an array with a name ending in an index. -/
theorem C53_collision_counterexample :
    let tree : List (Key × FlatDict.Tree (NdArray ℝ)) :=
      [("a".toList, .leaf ⟨[2], fun idx => (idx.headD 0 : ℝ)⟩), ("a[0]".toList, .leaf ⟨[], fun _ => 7⟩)]
    let out := call (fun (_ : Unit) _ => true) 2 [((), [])] tree
    out.2 = none ∧ ("a[0]".toList, (0 : ℝ)) ∈ out.1 ∧ ("a[0]".toList, (7 : ℝ)) ∈ out.1 := by
  have e : call (fun (_ : Unit) _ => true) 2 [((), [])]
      [("a".toList, .leaf ⟨[2], fun idx => (idx.headD 0 : ℝ)⟩), ("a[0]".toList, .leaf ⟨[], fun _ => 7⟩)]
      = ([("a[0]".toList, ((0 : Nat) : ℝ)), ("a[1]".toList, ((1 : Nat) : ℝ)), ("a[0]".toList, 7)], none) := by
    have h1 : ∀ n < 2, PyStr.natStr n = [PyStr.digitChar n] := by decide
    simp [call, flatten, flattenItems, flattenAt, join, PyDict.ofItems, PyDict.set, summarizeAll, summarize, transform,
      Gen.andThen, yieldValues, product, indexSuffix, indexStr, joinWith, h1, List.range_succ]
    decide
  simp only [e]
  simp

/-- The hypotheses of `C53_complete` can be met: a kernel of shape (2, 1) summarized by its entries. -/
example : let tree : List (Key × FlatDict.Tree (NdArray ℝ)) := [("kernel".toList, .leaf ⟨[2, 1], fun idx => (idx.headD 0 : ℝ)⟩)]
    ItemsOk tree ∧ (call (fun (_ : Unit) _ => true) 2 [((), [])] tree).2 = none := by
  refine ⟨⟨by decide, by decide, trivial, trivial⟩, ?_⟩
  simp [call, flatten, flattenItems, flattenAt, join, PyDict.ofItems, PyDict.set, summarizeAll, summarize, transform,
      Gen.andThen]

end Verif.Summarizer
