import Verif.Model.PpOps
import Verif.Proofs.PyDict
import Verif.Proofs.ExceptLemmas
import Verif.Proofs.DataPipeline
import Mathlib.Tactic.Linarith
import Mathlib.Tactic.FieldSimp
import Mathlib.Tactic.Ring
import Mathlib.Tactic.NormNum
import Mathlib.Tactic.Positivity

/-!
# Preprocessing pipelines and operations (C37, C38, C65)
-/

namespace Verif.PpOps

open Verif DataPipeline

variable {V : Type}

/-- Spec: `'|'.join(parts)`. -/
def joinBar : List Str → Str
  | [] => []
  | [p] => p
  | p :: q :: ps => p ++ '|' :: joinBar (q :: ps)

theorem splitBar_ne_nil (s : Str) : splitBar s ≠ [] := by
  cases s with
  | nil => simp [splitBar]
  | cons c s =>
    rw [splitBar]
    split_ifs
    · simp
    · cases splitBar s <;> simp

theorem splitBar_append (p : Str) (hp : '|' ∉ p) (s : Str) :
    splitBar (p ++ '|' :: s) = p :: splitBar s := by
  induction p with
  | nil => simp [splitBar]
  | cons c p ih =>
    rw [List.mem_cons, not_or] at hp
    rw [List.cons_append, splitBar, if_neg (Ne.symm hp.1), ih hp.2]

theorem splitBar_single (p : Str) (hp : '|' ∉ p) : splitBar p = [p] := by
  induction p with
  | nil => simp [splitBar]
  | cons c p ih =>
    rw [List.mem_cons, not_or] at hp
    rw [splitBar, if_neg (Ne.symm hp.1), ih hp.2]

theorem splitBar_join (ps : List Str) (hne : ps ≠ []) (h : ∀ p ∈ ps, '|' ∉ p) : splitBar (joinBar ps) = ps := by
  induction ps with
  | nil => exact absurd rfl hne
  | cons p ps ih =>
    cases ps with
    | nil => exact splitBar_single p (h p (by simp))
    | cons q qs =>
      rw [joinBar, splitBar_append p (h p (by simp)), ih (by simp) fun x hx => h x (by simp [hx])]

/-- Spec: the operations one after the other, the first one first. -/
def InOrder : List (Op V) → PyDict String V → PyDict String V → Prop
  | [], d, d' => d' = d
  | f :: fs, d, d' => ∃ m, f d = .ok m ∧ InOrder fs m d'

theorem applyAll_iff (fs : List (Op V)) (d d' : PyDict String V) : applyAll fs d = .ok d' ↔ InOrder fs d d' := by
  induction fs generalizing d with
  | nil => simp [applyAll, InOrder, eq_comm]
  | cons f fs ih =>
    rw [InOrder, applyAll]
    constructor
    · intro h
      obtain ⟨m, h1, h2⟩ := ebind h
      exact ⟨m, h1, (ih m).1 h2⟩
    · rintro ⟨m, h1, h2⟩
      rw [h1]
      exact (ih m).2 h2

/-- The operations of a processing string are applied from left to right. -/
theorem C37_left_to_right (mk : Str → Except PyErr (Op V)) (ps : List Str) (hne : ps ≠ [])
    (hbar : ∀ p ∈ ps, '|' ∉ p) (ops : Str → Op V) (hmk : ∀ p ∈ ps, mk p = .ok (ops p)) :
    ∃ fn, getDataProcessFn mk (joinBar ps) = .ok fn ∧ fn .other = .error .typeError ∧
      ∀ d d', fn (.dict d) = .ok d' ↔ InOrder (ps.map ops) d d' := by
  refine ⟨composeFns (ps.map ops), ?_, rfl, fun d d' => applyAll_iff _ d d'⟩
  unfold getDataProcessFn
  rw [splitBar_join ps hne hbar, mapM_ok_eq hmk]
  rfl

/-- A string is rejected when any of its operations is, and then no data is processed. -/
theorem C37_rejects (mk : Str → Except PyErr (Op V)) (ps : List Str) (hne : ps ≠ [])
    (hbar : ∀ p ∈ ps, '|' ∉ p) (p : Str) (hp : p ∈ ps) (e : PyErr) (he : mk p = .error e) :
    ∀ fn, getDataProcessFn mk (joinBar ps) ≠ .ok fn := by
  intro fn h
  unfold getDataProcessFn at h
  rw [splitBar_join ps hne hbar] at h
  obtain ⟨ops, h1, _⟩ := ebind h
  obtain ⟨i, hi⟩ := List.mem_iff_getElem?.1 hp
  obtain ⟨b, _, h2⟩ := (mapM_getElem? h1).2 i p hi
  rw [he] at h2
  cases h2

/-- Two operations with the second one depending on the first one. -/
example :
    let mk : Str → Except PyErr (Op Nat) := fun s =>
      if s = ['a'] then .ok (copy "x" "y") else if s = ['b'] then .ok (keep ["y"]) else .error .attributeError
    ∃ fn, getDataProcessFn mk (joinBar [['a'], ['b']]) = .ok fn ∧ fn (.dict [("x", 3)]) = .ok [("y", 3)] :=
  ⟨_, rfl, rfl⟩

/-- The bar is not recognized inside of arguments: a string with a bar in a quoted argument is cut there, and
the pieces are not the operation that was written. -/
theorem C37_bar_in_argument_counterexample :
    splitBar "tokenize(pad='|')".toList = ["tokenize(pad='".toList, "')".toList] := by decide +kernel

/-- An operation with an input and an output key reads the input key and changes only the output key. -/
theorem C37_in_out (f : V → Except PyErr V) (key : Option String) (inkey outkey : String)
    (d d' : PyDict String V) (h : ikok f key inkey outkey d = .ok d') :
    ∃ x y, PyDict.get? d (keyOr key inkey) = some x ∧ f x = .ok y ∧
      PyDict.get? d' (keyOr key outkey) = some y ∧
      (∀ k, k ≠ keyOr key outkey → PyDict.get? d' k = PyDict.get? d k) ∧
      ∀ k, k ∈ PyDict.keys d' ↔ k ∈ PyDict.keys d ∨ k = keyOr key outkey := by
  unfold ikok at h
  obtain ⟨x, hx, h⟩ := ebind h
  obtain ⟨y, hy, h⟩ := ebind h
  injection h with h
  subst h
  have hg : PyDict.get? d (keyOr key inkey) = some x := by
    unfold lookup at hx
    cases hq : PyDict.get? d (keyOr key inkey) with
    | none => rw [hq] at hx; cases hx
    | some z => rw [hq] at hx; injection hx with hx; rw [hx]
  refine ⟨x, y, hg, hy, ?_, ?_, ?_⟩
  · rw [PyDict.get?_set, if_pos rfl]
  · intro k hk
    rw [PyDict.get?_set, if_neg (by tauto)]
  · intro k
    by_cases hk : k = keyOr key outkey
    · simp only [hk, or_true, iff_true]
      by_contra hc
      rw [← PyDict.get?_eq_none, PyDict.get?_set, if_pos rfl] at hc
      cases hc
    · have : PyDict.get? (PyDict.set d (keyOr key outkey) y) k = PyDict.get? d k := by
        rw [PyDict.get?_set, if_neg (by tauto)]
      have h2 := PyDict.get?_eq_none (PyDict.set d (keyOr key outkey) y) k
      have h3 := PyDict.get?_eq_none d k
      rw [this] at h2
      tauto

/-- With `key` given, the operation reads and writes that key, whatever `inkey` and `outkey` are; and a missing
input key is an error. -/
theorem C37_key (f : V → Except PyErr V) (key inkey outkey : String) (hk : key ≠ "") (d : PyDict String V) :
    ikok f (some key) inkey outkey d = ikok f none key key d ∧
    (PyDict.get? d key = none → ikok f (some key) inkey outkey d = .error .keyError) := by
  have : keyOr (some key) inkey = key ∧ keyOr (some key) outkey = key := by simp [keyOr, hk]
  constructor
  · unfold ikok
    rw [this.1, this.2]
    rfl
  · intro hn
    unfold ikok lookup
    rw [this.1, hn]
    rfl

/-- `keep` returns exactly the requested keys that are there, and the validity mask, with their values. -/
theorem C37_keep (keys : List String) (d : PyDict String V) :
    ∃ d', keep keys d = .ok d' ∧ ∀ k,
      PyDict.get? d' k = if k ∈ keys ∨ k = validKey then PyDict.get? d k else none := by
  refine ⟨_, rfl, ?_⟩
  intro k
  induction d with
  | nil => simp [PyDict.get?]
  | cons kv d ih =>
    obtain ⟨k', v⟩ := kv
    rw [List.filter_cons]
    by_cases h1 : (keys ++ [validKey]).contains k' = true
    · simp only [h1, if_true, PyDict.get?]
      by_cases h2 : k' = k
      · subst h2
        have : k' ∈ keys ∨ k' = validKey := by simpa using h1
        simp [this]
      · simp only [if_neg h2]
        exact ih
    · rw [if_neg h1]
      rw [ih]
      simp only [PyDict.get?]
      by_cases h2 : k' = k
      · subst h2
        have : ¬ (k' ∈ keys ∨ k' = validKey) := by simpa using h1
        simp [this]
      · simp only [if_neg h2]

/-- Spec: the operations that are not told to write the validity mask. -/
inductive Benign : Op V → Prop
  | ikok (f key inkey outkey) (h : keyOr key outkey ≠ validKey) : Benign (ikok f key inkey outkey)
  | copy (inkey outkey) (h : outkey ≠ validKey) : Benign (copy inkey outkey)
  | keep (keys) : Benign (keep keys)

/-- A pipeline of such operations never changes or drops the validity mask. -/
theorem C37_valid_kept (ops : List (Op V)) (hops : ∀ o ∈ ops, Benign o) (d d' : PyDict String V)
    (h : InOrder ops d d') : PyDict.get? d' validKey = PyDict.get? d validKey := by
  induction ops generalizing d with
  | nil => rw [h]
  | cons o ops ih =>
    obtain ⟨m, h1, h2⟩ := h
    rw [ih (fun o ho => hops o (by simp [ho])) m h2]
    cases hops o (by simp) with
    | ikok f key inkey outkey hk =>
      obtain ⟨_, _, _, _, _, h3, _⟩ := C37_in_out f key inkey outkey d m h1
      exact h3 _ (Ne.symm hk)
    | copy inkey outkey hk =>
      unfold copy at h1
      obtain ⟨x, _, h1⟩ := ebind h1
      injection h1 with h1
      rw [← h1, PyDict.get?_set, if_neg (by tauto)]
    | keep keys =>
      obtain ⟨m', h3, h4⟩ := C37_keep keys d
      rw [h1] at h3
      injection h3 with h3
      rw [h3, h4]
      simp

/-- `ignore_no_labels` only ever turns examples invalid, exactly those without labels. -/
theorem C37_ignore_no_labels (truth : V → Bool) (size : V → Nat) (ofBool : Bool → V)
    (hb : ∀ b, truth (ofBool b) = b) (lk vk : String) (d d' : PyDict String V)
    (h : ignoreNoLabels truth size ofBool lk vk d = .ok d') :
    ∃ labels, PyDict.get? d lk = some labels ∧
      (∃ v, PyDict.get? d' vk = some v ∧
        (truth v = true ↔ (∀ u, PyDict.get? d vk = some u → truth u = true) ∧ 0 < size labels)) ∧
      ∀ k, k ≠ vk → PyDict.get? d' k = PyDict.get? d k := by
  unfold ignoreNoLabels at h
  obtain ⟨labels, hl, h⟩ := ebind h
  injection h with h
  have hg : PyDict.get? d lk = some labels := by
    unfold lookup at hl
    cases hq : PyDict.get? d lk with
    | none => rw [hq] at hl; cases hl
    | some z => rw [hq] at hl; injection hl with hl; rw [hl]
  refine ⟨labels, hg, ?_, ?_⟩
  · rw [← h, PyDict.get?_set, if_pos rfl]
    refine ⟨_, rfl, ?_⟩
    rw [hb]
    cases PyDict.get? d vk with
    | none => simp
    | some u => simp
  · intro k hk
    rw [← h, PyDict.get?_set, if_neg (by tauto)]

/-- A decoded image with its mask through two operations. -/
example : InOrder [ikok (fun x => .ok (x + 1)) none "image" "image", keep ["image"]]
    [("image", 1), ("id", 7), (validKey, 0)] ([("image", 2), (validKey, 0)] : PyDict String Nat) :=
  ⟨_, rfl, _, rfl, rfl⟩

/-- Without clipping, `value_range` is the affine map that takes the ends of the input interval to the ends of the
output interval. -/
theorem C38_value_range_affine (vmin vmax inMin inMax : ℚ) (hin : inMin ≠ inMax) :
    valueRange vmin vmax inMin inMax false inMin = vmin ∧
    valueRange vmin vmax inMin inMax false inMax = vmax ∧
    ∀ t x y, valueRange vmin vmax inMin inMax false (t * x + (1 - t) * y) =
      t * valueRange vmin vmax inMin inMax false x + (1 - t) * valueRange vmin vmax inMin inMax false y := by
  have h : inMax - inMin ≠ 0 := sub_ne_zero.2 (Ne.symm hin)
  refine ⟨?_, ?_, ?_⟩
  · simp [valueRange]
  · simp [valueRange, div_self h]
  · intro t x y
    simp only [valueRange, Bool.false_eq_true, if_false]
    field_simp
    ring

/-- Values in the input interval are mapped into the output interval, in the same order; with clipping nothing
ever leaves the output interval, and values in the input interval are not affected by it. -/
theorem C38_value_range_bounds (vmin vmax inMin inMax : ℚ) (hin : inMin < inMax) (hv : vmin ≤ vmax) (x : ℚ) :
    (inMin ≤ x → x ≤ inMax → vmin ≤ valueRange vmin vmax inMin inMax false x ∧
      valueRange vmin vmax inMin inMax false x ≤ vmax ∧
      valueRange vmin vmax inMin inMax true x = valueRange vmin vmax inMin inMax false x) ∧
    vmin ≤ valueRange vmin vmax inMin inMax true x ∧ valueRange vmin vmax inMin inMax true x ≤ vmax := by
  have h : 0 < inMax - inMin := sub_pos.2 hin
  have hd : 0 ≤ vmax - vmin := sub_nonneg.2 hv
  refine ⟨?_, ?_, ?_⟩
  · intro h1 h2
    have a : 0 ≤ (x - inMin) / (inMax - inMin) := div_nonneg (sub_nonneg.2 h1) h.le
    have b : (x - inMin) / (inMax - inMin) ≤ 1 := (div_le_one h).2 (by linarith)
    have c : vmin ≤ vmin + (x - inMin) / (inMax - inMin) * (vmax - vmin) := by nlinarith
    have d : vmin + (x - inMin) / (inMax - inMin) * (vmax - vmin) ≤ vmax := by nlinarith
    refine ⟨c, d, ?_⟩
    simp only [valueRange, Bool.false_eq_true, if_false, if_true]
    rw [min_eq_left d, max_eq_left c]
  · simp only [valueRange, if_true]
    exact le_max_right _ _
  · simp only [valueRange, if_true]
    exact max_le (min_le_right _ _) hv

example : valueRange (-1) 1 0 255 true 255 = 1 ∧ valueRange (-1) 1 0 255 true 300 = 1 := by
  constructor <;> norm_num [valueRange]

/-- An inverted output range is mapped correctly without clipping, but with clipping every value becomes `vmin`. -/
theorem C38_inverted_clip_counterexample :
    valueRange 1 (-1) 0 255 false 255 = -1 ∧ ∀ x, valueRange 1 (-1) 0 255 true x = 1 := by
  constructor
  · norm_num [valueRange]
  · intro x
    simp only [valueRange, if_true]
    exact max_eq_right (le_trans (min_le_right _ _) (by norm_num))

/-- `central_crop` succeeds exactly if the crop is not empty and fits the image. -/
theorem C38_crop_iff (cropH cropW height width : Int) :
    (∃ r, centralCrop cropH cropW height width = .ok r) ↔
      0 < cropH ∧ cropH ≤ height ∧ 0 < cropW ∧ cropW ≤ width := by
  unfold centralCrop cropToBoundingBox
  simp only [Int.fdiv_eq_ediv_of_nonneg _ (show (0 : Int) ≤ 2 by decide)]
  constructor
  · rintro ⟨r, h⟩
    split_ifs at h with hc
    omega
  · intro h
    rw [if_pos (by omega)]
    exact ⟨_, rfl⟩

/-- The window has the requested size, is inside the image, and the margins on opposite sides differ by at most one
pixel. -/
theorem C38_crop (cropH cropW height width y x h w : Int)
    (he : centralCrop cropH cropW height width = .ok (y, x, h, w)) :
    h = cropH ∧ w = cropW ∧ 0 ≤ y ∧ y + h ≤ height ∧ 0 ≤ x ∧ x + w ≤ width ∧
    0 ≤ (height - (y + h)) - y ∧ (height - (y + h)) - y ≤ 1 ∧
    0 ≤ (width - (x + w)) - x ∧ (width - (x + w)) - x ≤ 1 := by
  unfold centralCrop cropToBoundingBox at he
  simp only [Int.fdiv_eq_ediv_of_nonneg _ (show (0 : Int) ≤ 2 by decide)] at he
  split_ifs at he with hc
  simp only [Except.ok.injEq, Prod.mk.injEq] at he
  omega

example : centralCrop 3 4 8 5 = .ok (2, 0, 3, 4) := by decide +kernel

theorem roundHalfEven_bounds (x : ℚ) : ⌊x⌋ ≤ roundHalfEven x ∧ roundHalfEven x ≤ ⌊x⌋ + 1 := by
  unfold roundHalfEven
  split_ifs <;> omega

theorem roundHalfEven_mono {x y : ℚ} (h : x ≤ y) : roundHalfEven x ≤ roundHalfEven y := by
  have hf : ⌊x⌋ ≤ ⌊y⌋ := Int.floor_le_floor h
  rcases eq_or_lt_of_le hf with he | hl
  · unfold roundHalfEven
    rw [he]
    have : x - ⌊y⌋ ≤ y - ⌊y⌋ := by linarith
    split_ifs <;> first | omega | (exfalso; linarith)
  · have h1 := (roundHalfEven_bounds x).2
    have h2 := (roundHalfEven_bounds y).1
    omega

theorem roundHalfEven_near {x : ℚ} {n : Int} (h : |x - n| < 1 / 2) : roundHalfEven x = n := by
  rw [abs_lt] at h
  have h1 := Int.floor_le x
  have h2 := Int.lt_floor_add_one x
  have : ⌊x⌋ = n ∨ ⌊x⌋ = n - 1 := by
    have a : (⌊x⌋ : ℚ) < (n : ℚ) + 1 := by linarith
    have b : (n : ℚ) - 2 < ⌊x⌋ := by linarith
    have a' : ⌊x⌋ < n + 1 := by exact_mod_cast a
    have b' : n - 2 < ⌊x⌋ := by exact_mod_cast b
    omega
  unfold roundHalfEven
  rcases this with e | e
  · rw [e, if_pos (by linarith)]
  · rw [e]
    push_cast
    rw [if_neg (by linarith), if_pos (by linarith)]
    omega

theorem roundHalfEven_dist (x : ℚ) : |(roundHalfEven x : ℚ) - x| ≤ 1 / 2 := by
  have h1 := Int.floor_le x
  have h2 := Int.lt_floor_add_one x
  unfold roundHalfEven
  rw [abs_le]
  split_ifs <;> push_cast <;> constructor <;> linarith

/-- Spec: rounding to 32-bit floats, in the range without overflow or underflow: monotone, with a relative error of
at most `2^-24`, and exact on integers up to `2^24`. -/
structure Float32 (fl : ℚ → ℚ) : Prop where
  mono : ∀ x y, x ≤ y → fl x ≤ fl y
  err : ∀ x, |fl x - x| ≤ |x| / 2 ^ 24
  exact_nat : ∀ n : Nat, n ≤ 2 ^ 24 → fl n = n

/-- Even with the rounding errors of 32-bit floats, `resize_small` makes the smaller side exactly `smaller` (less
than `2^22`), and the other side is not less. -/
theorem C38_resize_small (fl : ℚ → ℚ) (hfl : Float32 fl) (smaller h w : Nat) (hs : smaller < 2 ^ 22)
    (hh : 0 < h) (hw : 0 < w) :
    min (resizeSmall fl smaller h w).1 (resizeSmall fl smaller h w).2 = smaller ∧
    (h ≤ w → (resizeSmall fl smaller h w).1 = smaller) ∧ (w ≤ h → (resizeSmall fl smaller h w).2 = smaller) := by
  set m := min h w with hm
  have hmpos : (0 : ℚ) < (m : Nat) := by
    have : 0 < m := by omega
    exact_mod_cast this
  have hM : 0 < fl (m : Nat) := by
    have := (abs_le.1 (hfl.err (m : Nat))).1
    rw [abs_of_pos hmpos] at this
    have h3 : ((m : Nat) : ℚ) / 2 ^ 24 < (m : Nat) := by
      rw [div_lt_iff₀ (by positivity)]
      nlinarith
    linarith
  have hS : fl smaller = smaller := hfl.exact_nat smaller (le_trans hs.le (by norm_num))
  set r := fl (fl smaller / fl (m : Nat)) with hr
  have hS0 : (0 : ℚ) ≤ smaller := Nat.cast_nonneg _
  have hq0 : 0 ≤ fl smaller / fl (m : Nat) := by rw [hS]; exact div_nonneg hS0 hM.le
  have hr0 : 0 ≤ r := by
    have h0 : fl 0 = 0 := by have := hfl.exact_nat 0 (by norm_num); simpa using this
    rw [← h0]
    exact hfl.mono _ _ hq0
  have hsmall : roundHalfEven (fl (fl (m : Nat) * r)) = smaller := by
    apply roundHalfEven_near
    have e1 := hfl.err (fl smaller / fl (m : Nat))
    rw [← hr, abs_of_nonneg hq0, hS] at e1
    have e2 : |fl (m : Nat) * r - smaller| ≤ smaller / 2 ^ 24 := by
      have : fl (m : Nat) * r - smaller = fl (m : Nat) * (r - smaller / fl (m : Nat)) := by
        field_simp
      rw [this, abs_mul, abs_of_pos hM]
      calc fl (m : Nat) * |r - smaller / fl (m : Nat)|
          ≤ fl (m : Nat) * (smaller / fl (m : Nat) / 2 ^ 24) := mul_le_mul_of_nonneg_left e1 hM.le
        _ = smaller / 2 ^ 24 := by field_simp
    have e3 := hfl.err (fl (m : Nat) * r)
    rw [abs_of_nonneg (mul_nonneg hM.le hr0)] at e3
    have hsl : (smaller : ℚ) < 2 ^ 22 := by exact_mod_cast hs
    have hsl' : (smaller : ℚ) + 1 ≤ 2 ^ 22 := by exact_mod_cast hs
    rw [abs_le] at e2 e3
    rw [abs_lt]
    push_cast
    constructor <;> nlinarith
  have hbig : ∀ n : Nat, m ≤ n → (smaller : Int) ≤ roundHalfEven (fl (fl n * r)) := by
    intro n hn
    rw [← hsmall]
    apply roundHalfEven_mono
    apply hfl.mono
    apply mul_le_mul_of_nonneg_right _ hr0
    apply hfl.mono
    exact_mod_cast hn
  have h1 : h ≤ w → (resizeSmall fl smaller h w).1 = smaller := by
    intro hle
    have : m = h := min_eq_left hle
    simp only [resizeSmall]
    rw [← hm, ← hr]
    rw [← hsmall, this]
  have h2 : w ≤ h → (resizeSmall fl smaller h w).2 = smaller := by
    intro hle
    have : m = w := min_eq_right hle
    simp only [resizeSmall]
    rw [← hm, ← hr]
    rw [← hsmall, this]
  refine ⟨?_, h1, h2⟩
  rcases Nat.le_total h w with hle | hle
  · rw [h1 hle]
    apply min_eq_left
    exact hbig w (min_le_right h w)
  · rw [h2 hle]
    apply min_eq_right
    exact hbig h (min_le_left h w)

/-- In exact arithmetic the aspect ratio is kept up to half a pixel. -/
theorem C38_resize_small_ratio (smaller h w : Nat) :
    |((resizeSmall id smaller h w).1 : ℚ) - h * (smaller / (min h w : Nat))| ≤ 1 / 2 ∧
    |((resizeSmall id smaller h w).2 : ℚ) - w * (smaller / (min h w : Nat))| ≤ 1 / 2 :=
  ⟨roundHalfEven_dist _, roundHalfEven_dist _⟩

example : Float32 id := ⟨fun _ _ h => h, fun x => by simp; positivity, fun _ _ => rfl⟩

example : resizeSmall id 256 500 375 = (341, 256) := by
  norm_num [resizeSmall, roundHalfEven]

/-- A multi-hot vector is `on` exactly at the labels, however often they occur. -/
theorem C65_multi_hot (depth : Nat) (on off : ℚ) (labels : List Int) (x : List ℚ)
    (h : multiHot depth on off labels = .ok x) :
    (∀ l ∈ labels, 0 ≤ l ∧ l < depth) ∧ x.length = depth ∧
    ∀ c < depth, x[c]? = some (if (c : Int) ∈ labels then on else off) := by
  unfold multiHot scatterCounts at h
  obtain ⟨y, hy, h⟩ := ebind h
  split_ifs at hy with hall
  injection hy with hy
  injection h with h
  subst hy h
  refine ⟨?_, by simp, ?_⟩
  · intro l hl
    have := List.all_eq_true.1 hall l hl
    simpa using this
  · intro c hc
    simp only [List.map_map, List.getElem?_map, List.getElem?_range hc, Option.map_some, Function.comp]
    congr 1
    by_cases hm : (c : Int) ∈ labels
    · rw [if_pos hm]
      have : (1 : ℚ) ≤ (labels.countP fun l => decide (l = (c : Int)) : ℚ) := by
        have : 0 < labels.countP fun l => decide (l = (c : Int)) := List.countP_pos_iff.2 ⟨c, hm, by simp⟩
        exact_mod_cast this
      rw [min_eq_right this]
      norm_num
    · rw [if_neg hm]
      have : labels.countP (fun l => decide (l = (c : Int))) = 0 := by
        rw [List.countP_eq_zero]
        intro a ha
        simp only [decide_eq_true_eq]
        rintro rfl
        exact hm ha
      rw [this]
      norm_num

/-- Labels out of range are rejected by the multi-hot encoding, and give only `off` with the one-hot encoding. -/
theorem C65_out_of_range (depth : Nat) (on off : ℚ) (labels : List Int) (l : Int) (hl : l ∈ labels)
    (hout : l < 0 ∨ depth ≤ l) :
    multiHot depth on off labels = .error .valueError ∧ ∀ v ∈ oneHot depth on off l, v = off := by
  constructor
  · unfold multiHot scatterCounts
    rw [if_neg]
    · rfl
    · rw [List.all_eq_true]
      intro h
      have := h l hl
      simp only [decide_eq_true_eq] at this
      omega
  · intro v hv
    unfold oneHot at hv
    obtain ⟨c, hc, rfl⟩ := List.mem_map.1 hv
    rw [List.mem_range] at hc
    rw [if_neg (by omega)]

/-- For a single label in range both encodings agree. -/
theorem C65_single (depth : Nat) (on off : ℚ) (l : Int) (h0 : 0 ≤ l) (h1 : l < depth) :
    multiHot depth on off [l] = .ok (oneHot depth on off l) := by
  unfold multiHot scatterCounts
  rw [if_pos (by simp [h0, h1])]
  change Except.ok _ = _
  congr 1
  unfold oneHot
  rw [List.map_map]
  apply List.map_congr_left
  intro c _
  simp only [Function.comp, List.countP_cons, List.countP_nil]
  by_cases h : (c : Int) = l
  · rw [if_pos h]; simp [h]
  · rw [if_neg h]; simp [Ne.symm h]

example : multiHot 4 1 0 [2, 0, 2] = .ok [1, 0, 1, 0] := by
  simp [multiHot, scatterCounts, List.range_succ, List.countP_cons]

end Verif.PpOps
