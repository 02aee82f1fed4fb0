import Verif.Proofs.InitRules

/-!
C56 and C57: the transformations of arrays used to initialize a model from a checkpoint
(vmoe/initialization/rules.py:226-381).
-/

namespace Verif.InitRules

open Verif ArraySpec NdArray

variable {α : Type}

/-- C56: `ExpandTileTransformation` adds the axes with the given numbers of repetitions, keeps the sizes of the other axes,
and every slice along the new axes is a copy of the source. -/
theorem C56_tile_copies (x y : NdArray α) (axes : List Int) (reps : List Nat) (h : expandTile x axes reps = .ok y) :
    y.shape.length = x.shape.length + axes.length ∧ reps.length = axes.length ∧
    without (IsAxis y.shape.length axes) y.shape = x.shape ∧
    (∀ k (hk : k < axes.length) (hk' : k < reps.length) i, AxisIs y.shape.length axes[k] i → y.shape.getD i 0 = reps[k]) ∧
    ∀ idx, Valid y.shape idx →
      Valid x.shape (without (IsAxis y.shape.length axes) idx) ∧
      y.get idx = x.get (without (IsAxis y.shape.length axes) idx) := by
  obtain ⟨l, hl, hn, hr, hlen, hd, hax, hget⟩ := expandTile_spec h
  have hw : ∀ A : List Nat, without (IsAxis y.shape.length axes) A = dropAxes l 0 A := by
    intro A
    rw [dropAxes_eq, hlen]
    apply without_congr (P := IsAxis (x.shape.length + axes.length) axes) (Q := (· ∈ l)) A
    intro i _
    exact (mem_resolved hl i).symm
  simp only [hw]
  refine ⟨hlen, hr, hd, ?_, fun idx hv => ⟨(hget idx hv).2, (hget idx hv).1⟩⟩
  intro k hk hk' i hi
  rw [hlen] at hi
  have hkl : k < l.length := by have := hl.length_eq; omega
  have h1 := (List.forall₂_iff_get.1 hl).2 k hk hkl
  have h2 := (List.forall₂_iff_get.1 hax).2 k hkl hk'
  simp only [List.get_eq_getElem] at h1 h2
  rw [← h2]
  congr 1
  unfold AxisIs at h1 hi
  omega

example : ∃ y, expandTile (⟨[2, 3], fun i => i⟩ : NdArray (List Nat)) [0, -1] [4, 5] = .ok y ∧ y.shape = [4, 2, 3, 5] ∧
    y.get [3, 1, 2, 4] = [1, 2] := ⟨_, rfl, rfl, rfl⟩

/-- C56: it succeeds exactly if the numbers of axes and repetitions are the same and the axes are different axes of the
result. -/
theorem C56_tile_total (x : NdArray α) (axes : List Int) (reps : List Nat) :
    (∃ y, expandTile x axes reps = .ok y) ↔
      reps.length = axes.length ∧ ∃ l : List Nat, List.Forall₂ (AxisIs (x.shape.length + axes.length)) axes l ∧ l.Nodup := by
  constructor
  · rintro ⟨y, h⟩
    obtain ⟨l, hl, hn, hr, _⟩ := expandTile_spec h
    exact ⟨hr, l, hl, hn⟩
  · rintro ⟨hr, l, hl, hn⟩
    exact expandTile_total hl hn hr

/-- C56: with axis 0, every one of the `n` experts starts with a copy of the source. -/
theorem C56_tile_experts (x : NdArray α) (n : Nat) :
    ∃ y, expandTile x [0] [n] = .ok y ∧ y.shape = n :: x.shape ∧
      ∀ e idx, e < n → Valid x.shape idx → y.get (e :: idx) = x.get idx := by
  have hl : List.Forall₂ (AxisIs (x.shape.length + [(0 : Int)].length)) [0] [0] :=
    .cons (by unfold AxisIs; simp) .nil
  obtain ⟨y, hy⟩ := expandTile_total (reps := [n]) hl (by simp) rfl
  obtain ⟨l, hl', _, _, hlen, hd, hax, hget⟩ := expandTile_spec hy
  have : l = [0] := by
    match l, hl' with
    | [b], .cons hb .nil =>
      unfold AxisIs at hb
      simp at hb
      congr 1
      omega
  subst this
  have h0 : ∀ i (A : List Nat), 0 < i → dropAxes [0] i A = A := by
    intro i A
    induction A generalizing i with
    | nil => intro _; rfl
    | cons a A ih =>
      intro hi
      unfold dropAxes
      rw [if_neg (by simp; omega), ih _ (by omega)]
  have h1 : ∀ a (A : List Nat), dropAxes [0] 0 (a :: A) = A := by
    intro a A
    unfold dropAxes
    rw [if_pos (by simp), h0 _ _ (by omega)]
  match hsh : y.shape, hlen with
  | d :: ds, _ =>
    rw [hsh, h1] at hd
    subst hd
    cases hax with
    | cons hx _ =>
      rw [hsh] at hx
      simp at hx
      subst hx
      refine ⟨y, hy, hsh, ?_⟩
      intro e idx he hv
      have := (hget (e :: idx) (by rw [hsh]; exact .cons he hv)).1
      rw [this, h1]

example : ∃ y, expandTile (⟨[2], fun i => i.getD 0 0 + 7⟩ : NdArray Nat) [0] [3] = .ok y ∧ y.shape = [3, 2] ∧
    y.get [2, 1] = 8 := ⟨_, rfl, rfl, rfl⟩

/-- C56: `ReshapeTransformation` keeps all the entries in their row-major order. -/
theorem C56_reshape_entries (x y : NdArray α) (dims : List (Option Nat)) (h : reshape x dims = .ok y) :
    entries y = entries x :=
  entries_reshape (reshape_eq h)

/-- C56: reshaping to a given shape succeeds exactly if the number of entries is the same, otherwise it raises. -/
theorem C56_reshape_shape (x : NdArray α) (shape : List Nat) :
    (shape.prod = x.shape.prod ∧ ∃ y, reshape x (shape.map some) = .ok y ∧ y.shape = shape) ∨
    (shape.prod ≠ x.shape.prod ∧ reshape x (shape.map some) = .error .typeError) := by
  by_cases h : shape.prod = x.shape.prod
  · obtain ⟨y, hy⟩ := Partitioning.reshape_ok h
    exact .inl ⟨h, y, reshape_of hy, (Partitioning.reshape_shape hy).1⟩
  · right
    refine ⟨h, ?_⟩
    unfold reshape NdArray.reshape
    rw [Partitioning.resolve_some_error h]
    rfl

example : ∃ y, reshape (⟨[2, 3], fun i => i⟩ : NdArray (List Nat)) [some 3, none] = .ok y ∧ y.shape = [3, 2] ∧
    entries y = [[0, 0], [0, 1], [0, 2], [1, 0], [1, 1], [1, 2]] := ⟨_, rfl, rfl, rfl⟩

/-- C56: `SqueezeTransformation` removes an axis of size one and keeps all entries; it raises for an axis that does not exist
or has another size. -/
theorem C56_squeeze (x : NdArray α) (axis : Int) :
    (∃ a y, AxisIs x.shape.length axis a ∧ x.shape.getD a 0 = 1 ∧ squeeze x axis = .ok y ∧ y.shape = x.shape.eraseIdx a ∧
      ∀ idx, Valid x.shape idx → y.get (idx.eraseIdx a) = x.get idx) ∨
    ((∀ a, AxisIs x.shape.length axis a → x.shape.getD a 0 ≠ 1) ∧ squeeze x axis = .error .valueError) := by
  by_cases h : ∃ a, AxisIs x.shape.length axis a
  · obtain ⟨a, ha⟩ := h
    have hu : ∀ b, AxisIs x.shape.length axis b → b = a := by
      intro b hb
      unfold AxisIs at ha hb
      omega
    unfold squeeze
    rw [resolveAxis_axisIs.2 ha]
    change _ ∨ (_ ∧ (if x.shape.getD a 0 = 1 then _ else _) = _)
    by_cases h1 : x.shape.getD a 0 = 1
    · left
      refine ⟨a, ⟨x.shape.eraseIdx a, fun idx => x.get (idx.insertIdx a 0)⟩, ha, h1, ?_, rfl, ?_⟩
      · change (if x.shape.getD a 0 = 1 then _ else _) = _
        rw [if_pos h1]; rfl
      · intro idx hv
        change x.get ((idx.eraseIdx a).insertIdx a 0) = _
        have hl := hv.length
        have h0 := (Partitioning.valid_iff.1 hv).2 a ha.1
        rw [h1] at h0
        have : idx[a]'(by have := ha.1; omega) = 0 := by
          have h2 : idx.getD a 0 = 0 := by omega
          simpa [List.getD_eq_getElem?_getD, show a < idx.length by have := ha.1; omega] using h2
        congr 1
        conv_lhs => rw [← this]
        exact List.insertIdx_eraseIdx_getElem _
    · right
      rw [if_neg h1]
      exact ⟨fun b hb => by rw [hu b hb]; exact h1, rfl⟩
  · right
    refine ⟨fun a ha => absurd ⟨a, ha⟩ h, ?_⟩
    unfold squeeze
    have : Summarizer.resolveAxis x.shape.length axis = .error .valueError := by
      cases hr : Summarizer.resolveAxis x.shape.length axis with
      | ok a => exact absurd ⟨a, resolveAxis_axisIs.1 hr⟩ h
      | error e =>
        unfold Summarizer.resolveAxis at hr
        split at hr
        · cases hr
        · split at hr
          · cases hr
          · cases hr; rfl
    rw [this]
    rfl

example : ∃ y, squeeze (⟨[2, 1, 3], fun i => i⟩ : NdArray (List Nat)) (-2) = .ok y ∧ y.shape = [2, 3] ∧
    y.get [1, 2] = [1, 0, 2] := ⟨_, rfl, rfl, rfl⟩

/-- C56: `StackTransformation` puts the arrays along the new axis, in their order. -/
theorem C56_stack (xs : List (NdArray α)) (axis : Int) (y : NdArray α) (h : stack xs axis = .ok y) :
    ∃ a shape, (∀ x ∈ xs, x.shape = shape) ∧ AxisIs (shape.length + 1) axis a ∧ y.shape = shape.insertIdx a xs.length ∧
      ∀ k (hk : k < xs.length) idx, Valid shape idx →
        Valid y.shape (idx.insertIdx a k) ∧ y.get (idx.insertIdx a k) = xs[k].get idx := by
  unfold stack at h
  split at h
  · cases h
  · rename_i x xs
    split at h
    · rename_i hs
      obtain ⟨a, ha, h⟩ := ebind h
      cases h
      have ha := resolveAxis_axisIs.1 ha
      refine ⟨a, x.shape, ?_, ha, rfl, ?_⟩
      · intro z hz
        rcases List.mem_cons.1 hz with rfl | hz
        · rfl
        · exact hs z hz
      · intro k hk idx hv
        have hl := hv.length
        have hal : a ≤ idx.length := by have := ha.1; omega
        constructor
        · change List.Forall₂ _ _ (x.shape.insertIdx a (xs.length + 1))
          exact forall₂_insertIdx a hv (by simpa using hk)
        · simp only
          rw [List.eraseIdx_insertIdx_self]
          have : (idx.insertIdx a k).getD a 0 = k := by
            simp [List.getD_eq_getElem?_getD, List.getElem?_insertIdx_self, hal]
          rw [this]
          congr 1
          rw [List.getD_eq_getElem?_getD, List.getElem?_eq_getElem hk]
          rfl
    · cases h

/-- C56: stacking succeeds exactly for at least one array, all of one shape, and an axis of the result. -/
theorem C56_stack_total (xs : List (NdArray α)) (axis : Int) :
    (∃ y, stack xs axis = .ok y) ↔
      ∃ shape, xs ≠ [] ∧ (∀ x ∈ xs, x.shape = shape) ∧ ∃ a, AxisIs (shape.length + 1) axis a := by
  constructor
  · rintro ⟨y, h⟩
    obtain ⟨a, shape, h1, h2, _⟩ := C56_stack xs axis y h
    refine ⟨shape, ?_, h1, a, h2⟩
    rintro rfl
    cases h
  · rintro ⟨shape, hne, h1, a, ha⟩
    cases xs with
    | nil => exact absurd rfl hne
    | cons x xs =>
      have hx := h1 x (by simp)
      unfold stack
      simp only
      rw [if_pos (fun z hz => (h1 z (by simp [hz])).trans hx.symm), hx, resolveAxis_axisIs.2 ha]
      exact ⟨_, rfl⟩

example : ∃ y, stack [(⟨[2], fun i => 0 :: i⟩ : NdArray (List Nat)), ⟨[2], fun i => 1 :: i⟩, ⟨[2], fun i => 2 :: i⟩] 1 = .ok y ∧
    y.shape = [2, 3] ∧ y.get [1, 2] = [2, 1] := ⟨_, rfl, rfl, rfl⟩

/-- C57: a number of tokens is accepted exactly if it is a square, or a square plus one. `hs` holds for the square root of
floats. -/
theorem C57_accepted (sqrt : Nat → Nat) (hs : ∀ n ≤ 2 ^ 52, sqrt n = Nat.sqrt n) (n h : Nat) (hn : n ≤ 2 ^ 52) :
    (∃ r, tokAndGrid sqrt n h = .ok r) ↔ ∃ k, n = k ^ 2 ∨ n = k ^ 2 + 1 := by
  constructor
  · rintro ⟨⟨b, g⟩, e⟩
    obtain ⟨k, _, hk, _⟩ := tokAndGrid_ok hs hn e
    refine ⟨k, ?_⟩
    cases b
    · left; simpa [offset] using hk
    · right; simpa [offset] using hk
  · exact tokAndGrid_total hs hn

/-- C57: the grid is square and has, with the class token, the number of tokens; there is a class token exactly if the
number of tokens is not a square. -/
theorem C57_grid (sqrt : Nat → Nat) (hs : ∀ n ≤ 2 ^ 52, sqrt n = Nat.sqrt n) (n h : Nat) (hn : n ≤ 2 ^ 52)
    (hasTok : Bool) (grid : List Nat) (e : tokAndGrid sqrt n h = .ok (hasTok, grid)) :
    ∃ k, grid = [1, k, k, h] ∧ n = k ^ 2 + (if hasTok then 1 else 0) ∧ (hasTok = true ↔ ¬ ∃ k, n = k ^ 2) :=
  tokAndGrid_ok hs hn e

example : tokAndGrid Nat.sqrt 197 768 = .ok (true, [1, 14, 14, 768]) ∧ tokAndGrid Nat.sqrt 196 768 = .ok (false, [1, 14, 14, 768]) ∧
    tokAndGrid Nat.sqrt 198 768 = .error .valueError := by decide +kernel

/-- C57: when it succeeds, the result has the target's shape.  Its grid is the zoomed grid of the source.  Its class token,
if the target has one, is the one of the source if the source has one, otherwise the one of the target (noise if only its
shape is known). -/
theorem C57_zoom (sqrt : Nat → Nat) (hs : ∀ n ≤ 2 ^ 52, sqrt n = Nat.sqrt n) (zoom : NdArray α → List Nat → NdArray α)
    (hz : ∀ x s, (zoom x s).shape = s) (noise source y : NdArray α) (target : Option (NdArray α)) (shape : List Nat)
    (hnoise : noise.shape = [1, 1, shape.getD 2 0]) (htarget : ∀ t ∈ target, t.shape = shape)
    (hb : ∀ d ∈ source.shape, d ≤ 2 ^ 52) (hb' : ∀ d ∈ shape, d ≤ 2 ^ 52)
    (e : vitZoom sqrt zoom noise source target shape = .ok y) :
    ∃ n m h k l a b, source.shape = [1, n, h] ∧ shape = [1, m, h] ∧ y.shape = shape ∧
      n = k ^ 2 + a ∧ a ≤ 1 ∧ (a = 0 ↔ ∃ k, n = k ^ 2) ∧ m = l ^ 2 + b ∧ b ≤ 1 ∧ (b = 0 ↔ ∃ k, m = k ^ 2) ∧
      (∃ G : NdArray α, G.shape = [1, k, k, h] ∧
        (∀ i j c, i < k → j < k → c < h → G.get [0, i, j, c] = source.get [0, i * k + j + a, c]) ∧
        ∀ i j c, i < l → j < l → c < h → y.get [0, i * l + j + b, c] = (zoom G [1, l, l, h]).get [0, i, j, c]) ∧
      (b = 1 → ∀ c < h, y.get [0, 0, c] =
        if a = 1 then source.get [0, 0, c] else match target with
          | some t => t.get [0, 0, c]
          | none => noise.get [0, 0, c]) := by
  obtain ⟨n, m, h, k, l, st, tt, hsrc, rfl, e1, hn, hst, e2, hm, htt, hk, hh⟩ := vitZoom_elim hs hb hb' e
  obtain ⟨G, Z, hG1, hG2, hZ1, hZ2, he⟩ := vitZoom_eval (noise := noise) (target := target) hz hsrc e1 hn e2 hk hh
  rw [he] at e
  cases e
  have hle : ∀ b, offset b ≤ 1 := by intro b; cases b <;> simp [offset]
  have h0 : ∀ b, offset b = 0 ↔ ¬ b = true := by intro b; cases b <;> simp [offset]
  have htok : (newToken st source noise target).shape = [1, 1, h] := by
    unfold newToken
    cases st
    · cases target with
      | none => simpa using hnoise
      | some t => simp [tokens, htarget t rfl]
    · simp [tokens, hsrc]
  refine ⟨n, m, h, k, l, offset st, offset tt, hsrc, rfl, ?_, hn, hle _, by rw [h0, hst, not_not], hm, hle _,
    by rw [h0, htt, not_not], ⟨G, hG1, hG2, ?_⟩, ?_⟩
  · cases tt
    · simp [hZ1, hm, offset]
    · simp [concatTokens, htok, hZ1, hm, offset, Nat.add_comm]
  · intro i j c hi hj hc
    rw [← hZ2 i j c hi hj hc]
    cases tt
    · simp [offset]
    · simp [concatTokens, htok, offset]
  · intro hb1 c hc
    cases tt
    · simp [offset] at hb1
    · cases st
      · cases target with
        | none => simp [concatTokens, offset, newToken, hnoise]
        | some t => simp [concatTokens, offset, newToken, tokens, htarget t rfl]
      · simp [concatTokens, offset, newToken, tokens, hsrc]

/-- C57: it succeeds exactly for shapes `(1, n, h)` and `(1, m, h)` where `n` and `m` are squares, or squares plus one, and
`n` and `h` are not zero. -/
theorem C57_zoom_total (sqrt : Nat → Nat) (hs : ∀ n ≤ 2 ^ 52, sqrt n = Nat.sqrt n) (zoom : NdArray α → List Nat → NdArray α)
    (hz : ∀ x s, (zoom x s).shape = s) (noise source : NdArray α) (target : Option (NdArray α)) (shape : List Nat)
    (hb : ∀ d ∈ source.shape, d ≤ 2 ^ 52) (hb' : ∀ d ∈ shape, d ≤ 2 ^ 52) :
    (∃ y, vitZoom sqrt zoom noise source target shape = .ok y) ↔
      ∃ n m h, source.shape = [1, n, h] ∧ shape = [1, m, h] ∧ 0 < n ∧ 0 < h ∧
        (∃ k, n = k ^ 2 ∨ n = k ^ 2 + 1) ∧ (∃ k, m = k ^ 2 ∨ m = k ^ 2 + 1) := by
  constructor
  · rintro ⟨y, e⟩
    obtain ⟨n, m, h, k, l, st, tt, hsrc, rfl, e1, hn, hst, e2, hm, htt, hk, hh⟩ := vitZoom_elim hs hb hb' e
    have hn' : n ≤ 2 ^ 52 := hb n (by simp [hsrc])
    refine ⟨n, m, h, hsrc, rfl, ?_, hh, (C57_accepted sqrt hs n h hn').1 ⟨_, e1⟩,
      (C57_accepted sqrt hs m h (hb' m (by simp))).1 ⟨_, e2⟩⟩
    have : 0 < k ^ 2 := Nat.pow_pos hk
    omega
  · rintro ⟨n, m, h, hsrc, rfl, hn0, hh, hn, hm⟩
    have hn' : n ≤ 2 ^ 52 := hb n (by simp [hsrc])
    obtain ⟨⟨st, g⟩, e1⟩ := tokAndGrid_total (h := h) hs hn' hn
    obtain ⟨⟨tt, g'⟩, e2⟩ := tokAndGrid_total (h := h) hs (hb' m (by simp)) hm
    obtain ⟨k, rfl, hnk, hst⟩ := tokAndGrid_ok hs hn' e1
    obtain ⟨l, rfl, hml, _⟩ := tokAndGrid_ok hs (hb' m (by simp)) e2
    have hk : 0 < k := by
      rcases Nat.eq_zero_or_pos k with rfl | hk
      · cases st
        · simp [offset] at hnk; omega
        · exact absurd ⟨1, by simpa [offset] using hnk⟩ (hst.1 rfl)
      · exact hk
    obtain ⟨G, Z, _, _, _, _, he⟩ := vitZoom_eval (noise := noise) (target := target) hz hsrc e1 hnk e2 hk hh
    exact ⟨_, he⟩

/-- C57: with the same shape, if zooming to the same grid changes nothing, the result is the source. -/
theorem C57_zoom_same (sqrt : Nat → Nat) (hs : ∀ n ≤ 2 ^ 52, sqrt n = Nat.sqrt n) (zoom : NdArray α → List Nat → NdArray α)
    (hz : ∀ x s, (zoom x s).shape = s) (hid : ∀ x, Same (zoom x x.shape) x) (noise source y : NdArray α)
    (target : Option (NdArray α)) (hnoise : noise.shape = [1, 1, source.shape.getD 2 0])
    (htarget : ∀ t ∈ target, t.shape = source.shape) (hb : ∀ d ∈ source.shape, d ≤ 2 ^ 52)
    (e : vitZoom sqrt zoom noise source target source.shape = .ok y) : Same y source := by
  obtain ⟨n, m, h, k, l, a, b, hsrc, hsh, hy, hn, ha, ha', hm, hb1, hb', ⟨G, hG1, hG2, hG3⟩, htok⟩ :=
    C57_zoom sqrt hs zoom hz noise source y target source.shape hnoise htarget hb hb e
  rw [hsrc] at hsh
  simp only [List.cons.injEq, true_and, and_true] at hsh
  subst hsh
  have hab : a = b := by
    by_cases h : ∃ k, n = k ^ 2
    · rw [ha'.2 h, hb'.2 h]
    · have h1 := mt ha'.1 h
      have h2 := mt hb'.1 h
      omega
  subst hab
  have hkl : k = l := by
    have : k ^ 2 = l ^ 2 := by omega
    exact (Nat.pow_left_injective (n := 2) (by simp)) this
  subst hkl
  refine ⟨hy, ?_⟩
  intro idx hv
  rw [hy, hsrc] at hv
  obtain ⟨i, p, c, rfl, hi, hp, hc⟩ := valid_three_elim hv
  have hi : i = 0 := by omega
  subst hi
  by_cases hpa : p < a
  · have : a = 1 := by omega
    subst this
    have : p = 0 := by omega
    subst this
    have := htok rfl c hc
    simpa using this
  · obtain ⟨q, rfl⟩ : ∃ q, p = q + a := ⟨p - a, by omega⟩
    have hq : q < k ^ 2 := by omega
    have hk : 0 < k := by
      rcases Nat.eq_zero_or_pos k with rfl | h
      · simp at hq
      · exact h
    have hqi : q / k < k := by rw [Nat.div_lt_iff_lt_mul hk]; rwa [Nat.pow_two] at hq
    have hqj : q % k < k := Nat.mod_lt _ hk
    have hqe : q / k * k + q % k = q := by rw [Nat.mul_comm]; exact Nat.div_add_mod q k
    have h1 := hG3 _ _ c hqi hqj hc
    have h2 := hG2 _ _ c hqi hqj hc
    rw [hqe] at h1 h2
    rw [h1, ← h2]
    have h3 := hid G
    rw [hG1] at h3
    exact h3.2 _ (by rw [hz]; exact valid_four.2 ⟨by omega, hqi, hqj, hc⟩)

/-- Zooming by nearest neighbours, for the example. -/
def nearest (x : NdArray Nat) (s : List Nat) : NdArray Nat :=
  ⟨s, fun idx => x.get (List.zipWith (· / ·) (List.zipWith (· * ·) idx x.shape) s)⟩

example : ((vitZoom Nat.sqrt nearest ⟨[1, 1, 1], fun _ => 99⟩ ⟨[1, 4, 1], fun i => i.getD 1 0 + 1⟩
      (some ⟨[1, 10, 1], fun _ => 50⟩) [1, 10, 1]).toOption.map fun y => (y.shape, entries y)) =
    some ([1, 10, 1], [50, 1, 1, 2, 1, 1, 2, 3, 3, 4]) := by decide +kernel

end Verif.InitRules
