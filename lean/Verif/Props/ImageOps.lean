import Verif.Model.ImageOps
import Verif.Props.PpOps

/-!
# Shapes, types and values of processed images (C99)
-/

namespace Verif.ImageOps

open Verif PpOps DataPipeline

variable {B : Type}

/-- Spec: an 8-bit colour image that is not empty, as the decoder of images gives it. -/
structure Decoded (img : Image) : Prop where
  int8 : img.int8 = true
  h : 0 < img.h
  w : 0 < img.w
  c : img.c = 3
  range : ∀ y x k, y < img.h → x < img.w → k < img.c → 0 ≤ img.px y x k ∧ img.px y x k ≤ 255

/-- Spec: an interpolation never leaves the range of the values of the image. -/
def Interpolates (kernel : Kernel) : Prop :=
  ∀ (img : Image) (H W : Nat) (lo hi : ℚ), 0 < img.h → 0 < img.w →
    (∀ y x k, y < img.h → x < img.w → k < img.c → lo ≤ img.px y x k ∧ img.px y x k ≤ hi) →
    ∀ y x k, y < H → x < W → k < img.c → lo ≤ kernel img H W y x k ∧ kernel img H W y x k ≤ hi

/-- Spec: the boxes are inside the image and not empty, and their area is in the given range, unless the box is the
whole image. -/
def SamplerOk (sample : Sampler) : Prop :=
  ∀ (h w : Nat) (lo hi : ℚ), 0 < h → 0 < w → let b := sample h w lo hi
    0 < b.h ∧ 0 < b.w ∧ b.y + b.h ≤ h ∧ b.x + b.w ≤ w ∧
    ((b.h = h ∧ b.w = w) ∨ (lo * (h * w) ≤ b.h * b.w ∧ (b.h * b.w : ℚ) ≤ hi * (h * w)))

/-- Spec: a float image of the given shape with values in the given range. -/
structure Ready (img : Image) (H W : Nat) (lo hi : ℚ) : Prop where
  float : img.int8 = false
  h : img.h = H
  w : img.w = W
  c : img.c = 3
  range : ∀ y x k, y < H → x < W → k < 3 → lo ≤ img.px y x k ∧ img.px y x k ≤ hi

/-- Spec: the window of an image that starts at row `oy` and column `ox`. -/
def Window (whole part : Image) (oy ox : Nat) : Prop :=
  oy + part.h ≤ whole.h ∧ ox + part.w ≤ whole.w ∧ part.c = whole.c ∧ part.int8 = whole.int8 ∧
    ∀ y x k, part.px y x k = whole.px (oy + y) (ox + x) k

theorem crop_ok (b : Box) (img : Image) (h1 : b.y + b.h ≤ img.h) (h2 : b.x + b.w ≤ img.w) :
    ∃ r, crop b img = .ok r ∧ r.h = b.h ∧ r.w = b.w ∧ Window img r b.y b.x := by
  unfold crop
  rw [if_pos ⟨h1, h2⟩]
  exact ⟨_, rfl, rfl, rfl, h1, h2, rfl, rfl, fun y x k => by simp only [Nat.add_comm]⟩

theorem castTo_range (v : ℚ) (h0 : 0 ≤ v) (h1 : v ≤ 255) :
    0 ≤ castTo true v ∧ castTo true v ≤ 255 := by
  unfold castTo
  rw [if_pos rfl, if_pos h0]
  constructor
  · exact_mod_cast Int.floor_nonneg.2 h0
  · exact le_trans (Int.floor_le v) h1

/-- `resize` gives an image of exactly the requested size, with the type and the channels of its input; the values
are the interpolated ones, rounded down to an integer for an 8-bit image, so that they are less than one below. -/
theorem C99_resize (kernel : Kernel) (size : Size) (H W : Nat) (img : Image)
    (hs : size = .list [H, W] ∨ (H = W ∧ size = .int H)) (hH : 0 < H) (hW : 0 < W) (hh : 0 < img.h) (hw : 0 < img.w) :
    ∃ r, resize kernel size img = .ok r ∧ r.h = H ∧ r.w = W ∧ r.c = img.c ∧ r.int8 = img.int8 ∧
      ∀ y x k, (img.int8 = false → r.px y x k = kernel img H W y x k) ∧
        (img.int8 = true → 0 ≤ kernel img H W y x k → (∃ n : Int, r.px y x k = n) ∧
          r.px y x k ≤ kernel img H W y x k ∧ kernel img H W y x k < r.px y x k + 1) := by
  have ht : size.tuple = .ok [H, W] := by
    rcases hs with h | ⟨h1, h⟩
    · rw [h]; rfl
    · rw [h, ← h1]; rfl
  refine ⟨{ int8 := img.int8, h := H, w := W, c := img.c, px := fun y x k => castTo img.int8 (kernel img H W y x k) },
    ?_, rfl, rfl, rfl, rfl, ?_⟩
  · unfold resize
    rw [ht]
    change (tfResize kernel [H, W] img >>= _ : Except PyErr _) = _
    unfold tfResize
    simp only [hH, hW, hh, hw, and_self, if_true]
    rfl
  · intro y x k
    constructor
    · intro h
      simp [castTo, h]
    · intro h h0
      simp only [castTo, h, if_true, if_pos h0]
      exact ⟨⟨_, rfl⟩, Int.floor_le _, Int.lt_floor_add_one _⟩

/-- Nothing else is a size: `None`, lists that do not have two elements, and zeros are errors. -/
theorem C99_resize_errors (kernel : Kernel) (size : Size) (img r : Image) (h : resize kernel size img = .ok r) :
    0 < r.h ∧ 0 < r.w ∧ (size = .list [r.h, r.w] ∨ (r.h = r.w ∧ size = .int r.h)) := by
  unfold resize at h
  obtain ⟨t, h1, h⟩ := ebind h
  obtain ⟨q, h2, h⟩ := ebind h
  cases h
  unfold tfResize at h2
  split at h2
  case h_2 => cases h2
  case h_1 H W =>
    by_cases hc : 0 < H ∧ 0 < W ∧ 0 < img.h ∧ 0 < img.w
    · rw [if_pos hc] at h2
      cases h2
      refine ⟨hc.1, hc.2.1, ?_⟩
      cases size with
      | none => cases h1
      | int n =>
        simp only [Size.tuple, Except.ok.injEq, List.cons.injEq, and_true] at h1
        right
        exact ⟨h1.1.symm.trans h1.2, by rw [← h1.1]⟩
      | list l =>
        simp only [Size.tuple, Except.ok.injEq] at h1
        left
        rw [h1]
    · rw [if_neg hc] at h2
      cases h2

theorem inceptionCrop_ok (kernel : Kernel) (hk : Interpolates kernel) (sample : Sampler) (hs : SamplerOk sample)
    (s : Nat) (hpos : 0 < s) (amin amax : ℚ) (img : Image) (hd : Decoded img) :
    ∃ r, inceptionCrop kernel sample (.int s) amin amax img = .ok r ∧ Decoded r ∧ r.h = s ∧ r.w = s := by
  obtain ⟨b1, b2, b3, b4, _⟩ := hs img.h img.w (amin / 100) (amax / 100) hd.h hd.w
  obtain ⟨p, p1, p2, p3, p4⟩ := crop_ok (sample img.h img.w (amin / 100) (amax / 100)) img b3 b4
  obtain ⟨r, r1, r2, r3, r4, r5, r6⟩ := C99_resize kernel (.int s) s s p (.inr ⟨rfl, rfl⟩) hpos hpos
    (p2 ▸ b1) (p3 ▸ b2)
  refine ⟨r, ?_, ?_, r2, r3⟩
  · unfold inceptionCrop
    rw [p1]
    change (if (Size.int s).truthy then resize kernel (.int s) p else .ok p : Except PyErr _) = _
    rw [if_pos (by simp [Size.truthy]; omega), r1]
  · have hi : p.int8 = true := p4.2.2.2.1.trans hd.int8
    refine ⟨r5.trans hi, by omega, by omega, r4.trans (p4.2.2.1.trans hd.c), ?_⟩
    intro y x k hy hx hkk
    have hb := hk p s s 0 255 (p2 ▸ b1) (p3 ▸ b2) (by
      intro y x k hy hx hk
      rw [p4.2.2.2.2 y x k]
      have e1 := p4.1
      have e2 := p4.2.1
      exact hd.range _ _ _ (by omega) (by omega) (by rw [← p4.2.2.1]; exact hk)) y x k (by omega) (by omega)
        (by rw [← r4]; exact hkk)
    obtain ⟨⟨n, hn⟩, q2, q3⟩ := (r6 y x k).2 hi hb.1
    refine ⟨?_, le_trans q2 hb.2⟩
    rw [hn] at q3 ⊢
    have : (0 : ℚ) < n + 1 := lt_of_le_of_lt hb.1 q3
    have : (0 : Int) < n + 1 := by exact_mod_cast this
    have : (0 : Int) ≤ n := by omega
    exact_mod_cast this

theorem decodeJpeg_eq (dec : B → Except PyErr Image) (kernel : Kernel) (sample : Sampler) (size : Size)
    (amin amax : ℚ) (b : B) (img : Image) (h : dec b = .ok img) :
    decodeJpegAndInceptionCrop dec kernel sample size amin amax b = inceptionCrop kernel sample size amin amax img := by
  unfold decodeJpegAndInceptionCrop inceptionCrop
  rw [h]
  rfl

theorem set_set' {κ ν : Type} [DecidableEq κ] (d : PyDict κ ν) (k : κ) (v w : ν) :
    PyDict.set (PyDict.set d k v) k w = PyDict.set d k w := by
  induction d with
  | nil => simp [PyDict.set]
  | cons e d ih =>
    obtain ⟨k0, v0⟩ := e
    by_cases h : k0 = k
    · simp [PyDict.set, h]
    · simp [PyDict.set, h, ih]

theorem ikok_ok {V : Type} (f : V → Except PyErr V) (ki ko : String) (d : PyDict String V) (x y : V)
    (hx : PyDict.get? d ki = some x) (hf : f x = .ok y) :
    ikok f none ki ko d = .ok (PyDict.set d ko y) := by
  unfold ikok lookup keyOr
  simp only [hx]
  change (f x >>= _ : Except PyErr _) = _
  rw [hf]
  rfl

theorem applyAll_cons_ok {V : Type} (f : Op V) (fs : List (Op V)) (d d' : PyDict String V) (h : f d = .ok d') :
    applyAll (f :: fs) d = applyAll fs d' := by
  rw [applyAll, h]
  rfl

/-- Decoding and cropping at once is decoding, and then cropping: the two operations give the same image for the
same random choices. -/
theorem C99_decode_and_crop (dec : B → Except PyErr Image) (kernel : Kernel) (sample : Sampler) (size : Size)
    (amin amax : ℚ) (d : PyDict String (Value B)) :
    applyAll [ikok (onBytes (decodeJpegAndInceptionCrop dec kernel sample size amin amax)) none "image" "image"] d =
    applyAll [ikok (onBytes dec) none "image" "image",
      ikok (onImage (inceptionCrop kernel sample size amin amax)) none "image" "image"] d := by
  cases hg : PyDict.get? d "image" with
  | none => simp only [applyAll, ikok, lookup, keyOr, hg]; rfl
  | some v =>
    cases v with
    | bytes b =>
      cases hd : dec b with
      | error e =>
        simp only [applyAll, ikok, lookup, keyOr, hg, onBytes, decodeJpegAndInceptionCrop]
        simp only [hd, bind, Except.bind]
      | ok img =>
        rw [applyAll_cons_ok (ikok (onBytes dec) none "image" "image") _ d _
          (ikok_ok (onBytes dec) "image" "image" d (.bytes b) (.image img) hg (by simp only [onBytes, hd]; rfl))]
        simp only [applyAll, ikok, lookup, keyOr, hg, onBytes, onImage, decodeJpeg_eq dec kernel sample size amin amax b img hd,
          PyDict.get?_set, if_true, set_set', bind, Except.bind, pure, Except.pure]
    | _ => simp only [applyAll, ikok, lookup, keyOr, hg, onBytes, bind, Except.bind]

/-- The operations after the crop in the configurations: `value_range(vmin, vmax)`, `onehot` of the label, and
`keep` (vmoe/configs/vmoe_paper/vmoe_b16_imagenet21k_randaug_strong_ft_ilsvrc2012.py:44). -/
def ppCommon (B : Type) (vmin vmax : ℚ) (depth : Nat) : List (Op (Value B)) :=
  [ikok (onImage fun i => .ok (valueRangeOp vmin vmax 0 255 false i)) none "image" "image",
   ikok (onehotOp depth 1 0) none "label" "labels",
   keep ["image", "labels"]]

/-- Spec: an example that is ready for the model: an image of the given size with values in the range, the one-hot
vector of its label, the mask if there was one, and nothing else. -/
def ReadyExample (d out : PyDict String (Value B)) (s : Nat) (vmin vmax : ℚ) (depth : Nat) (l : Int) : Prop :=
  (∃ img, PyDict.get? out "image" = some (.image img) ∧ Ready img s s vmin vmax) ∧
  (∃ v, PyDict.get? out "labels" = some (.vec v) ∧ v.length = depth ∧
    ∀ c, (hc : c < v.length) → v[c] = if (c : Int) = l then 1 else 0) ∧
  PyDict.get? out validKey = PyDict.get? d validKey ∧
  ∀ k, k ≠ "image" → k ≠ "labels" → k ≠ validKey → PyDict.get? out k = none

theorem valueRangeOp_ready (img : Image) (hd : ∀ y x k, y < img.h → x < img.w → k < img.c →
    0 ≤ img.px y x k ∧ img.px y x k ≤ 255) (hc : img.c = 3) (vmin vmax : ℚ) (hv : vmin ≤ vmax) :
    Ready (valueRangeOp vmin vmax 0 255 false img) img.h img.w vmin vmax := by
  refine ⟨rfl, rfl, rfl, hc, ?_⟩
  intro y x k hy hx hk
  obtain ⟨h1, h2⟩ := hd y x k hy hx (hc ▸ hk)
  obtain ⟨h, _⟩ := C38_value_range_bounds vmin vmax 0 255 (by norm_num) hv (img.px y x k)
  exact ⟨(h h1 h2).1, (h h1 h2).2.1⟩

theorem ppCommon_ok (d0 d : PyDict String (Value B)) (img : Image) (l : Int) (depth : Nat) (vmin vmax : ℚ)
    (hv : vmin ≤ vmax) (himg : PyDict.get? d "image" = some (.image img)) (hl : PyDict.get? d "label" = some (.label l))
    (hvalid : PyDict.get? d validKey = PyDict.get? d0 validKey) (s : Nat) (hh : img.h = s) (hw : img.w = s)
    (hc : img.c = 3) (hd : ∀ y x k, y < img.h → x < img.w → k < img.c → 0 ≤ img.px y x k ∧ img.px y x k ≤ 255) :
    ∃ out, applyAll (ppCommon B vmin vmax depth) d = .ok out ∧ ReadyExample d0 out s vmin vmax depth l := by
  unfold ppCommon
  rw [applyAll_cons_ok _ _ d _ (ikok_ok _ "image" "image" d _ (.image (valueRangeOp vmin vmax 0 255 false img)) himg rfl)]
  rw [applyAll_cons_ok _ _ _ _ (ikok_ok _ "label" "labels" _ (.label l) (.vec (oneHot depth 1 0 l)) (by
    rw [PyDict.get?_set, if_neg (by decide), hl]) rfl)]
  obtain ⟨out, h1, h2⟩ := C37_keep ["image", "labels"]
    (PyDict.set (PyDict.set d "image" (Value.image (valueRangeOp vmin vmax 0 255 false img))) "labels"
      (.vec (oneHot depth 1 0 l)))
  refine ⟨out, ?_, ⟨valueRangeOp vmin vmax 0 255 false img, ?_, ?_⟩, ⟨oneHot depth 1 0 l, ?_, ?_, ?_⟩, ?_, ?_⟩
  · rw [applyAll_cons_ok _ _ _ _ h1]
    rfl
  · rw [h2, if_pos (by simp), PyDict.get?_set, if_neg (by decide), PyDict.get?_set, if_pos rfl]
  · have := valueRangeOp_ready img hd hc vmin vmax hv
    rwa [hh, hw] at this
  · rw [h2, if_pos (by simp), PyDict.get?_set, if_pos rfl]
  · simp [oneHot]
  · intro c hc
    simp [oneHot]
  · rw [h2, if_pos (by simp), PyDict.get?_set, if_neg (by decide), PyDict.get?_set, if_neg (by decide), hvalid]
  · intro k k1 k2 k3
    rw [h2, if_neg (by simp [k1, k2, k3])]

theorem flipLr_range (coin : Bool) (img : Image) (hd : Decoded img) : Decoded (flipLr coin img) := by
  unfold flipLr
  cases coin with
  | false => exact hd
  | true =>
    refine ⟨hd.int8, hd.h, hd.w, hd.c, ?_⟩
    intro y x k hy hx hk
    have : 0 < img.w := hd.w
    exact hd.range _ _ _ hy (by simp only [if_true] at hx ⊢; omega) hk

/-- Training: whatever the encoded image, the box and the flip, the operations
`decode_jpeg_and_inception_crop(s)|flip_lr|value_range|onehot|keep` do not raise, and give a float image of shape
`(s, s, 3)` with values in the range, the one-hot label, the mask if there was one, and nothing else. -/
theorem C99_train (dec : B → Except PyErr Image) (bilinear : Kernel) (hk : Interpolates bilinear) (sample : Sampler)
    (hs : SamplerOk sample) (coin : Bool) (s depth : Nat) (hpos : 0 < s) (vmin vmax : ℚ) (hv : vmin ≤ vmax)
    (amin amax : ℚ) (d : PyDict String (Value B)) (b : B) (img : Image) (l : Int)
    (hb : PyDict.get? d "image" = some (.bytes b)) (hdec : dec b = .ok img) (hd : Decoded img)
    (hl : PyDict.get? d "label" = some (.label l)) :
    ∃ out, applyAll
      ([ikok (onBytes (decodeJpegAndInceptionCrop dec bilinear sample (.int s) amin amax)) none "image" "image",
        ikok (onImage fun i => .ok (flipLr coin i)) none "image" "image"] ++ ppCommon B vmin vmax depth) d = .ok out ∧
      ReadyExample d out s vmin vmax depth l := by
  obtain ⟨r, r1, r2, r3, r4⟩ := inceptionCrop_ok bilinear hk sample hs s hpos amin amax img hd
  rw [List.cons_append, applyAll_cons_ok _ _ d _ (ikok_ok _ "image" "image" d _ (.image r) hb (by
    simp only [onBytes, decodeJpeg_eq dec bilinear sample _ amin amax b img hdec, r1]; rfl))]
  rw [List.cons_append, applyAll_cons_ok _ _ _ _ (ikok_ok _ "image" "image" _ (.image r) (.image (flipLr coin r)) (by
    rw [PyDict.get?_set, if_pos rfl]) rfl)]
  have hf := flipLr_range coin r r2
  have hsz : (flipLr coin r).h = s ∧ (flipLr coin r).w = s := by
    unfold flipLr
    cases coin <;> exact ⟨r3, r4⟩
  rw [set_set']
  exact ppCommon_ok d _ (flipLr coin r) l depth vmin vmax hv (by rw [PyDict.get?_set, if_pos rfl])
    (by rw [PyDict.get?_set, if_neg (by decide), hl]) (by rw [PyDict.get?_set, if_neg (by decide)]) s hsz.1 hsz.2
    hf.c hf.range

/-- Evaluation: `decode|resize(s)|value_range|onehot|keep` gives the same shapes and ranges. -/
theorem C99_evaluation (dec : B → Except PyErr Image) (bilinear : Kernel) (hk : Interpolates bilinear)
    (s depth : Nat) (hpos : 0 < s) (vmin vmax : ℚ) (hv : vmin ≤ vmax)
    (d : PyDict String (Value B)) (b : B) (img : Image) (l : Int)
    (hb : PyDict.get? d "image" = some (.bytes b)) (hdec : dec b = .ok img) (hd : Decoded img)
    (hl : PyDict.get? d "label" = some (.label l)) :
    ∃ out, applyAll
      ([ikok (onBytes dec) none "image" "image",
        ikok (onImage (resize bilinear (.int s))) none "image" "image"] ++ ppCommon B vmin vmax depth) d = .ok out ∧
      ReadyExample d out s vmin vmax depth l := by
  obtain ⟨r, r1, r2, r3, r4, r5, r6⟩ := C99_resize bilinear (.int s) s s img (.inr ⟨rfl, rfl⟩) hpos hpos hd.h hd.w
  rw [List.cons_append, applyAll_cons_ok _ _ d _ (ikok_ok _ "image" "image" d _ (.image img) hb (by
    simp only [onBytes, hdec]; rfl))]
  rw [List.cons_append, applyAll_cons_ok _ _ _ _ (ikok_ok _ "image" "image" _ (.image img) (.image r) (by
    rw [PyDict.get?_set, if_pos rfl]) (by simp only [onImage, r1]; rfl))]
  rw [set_set']
  refine ppCommon_ok d _ r l depth vmin vmax hv (by rw [PyDict.get?_set, if_pos rfl])
    (by rw [PyDict.get?_set, if_neg (by decide), hl]) (by rw [PyDict.get?_set, if_neg (by decide)]) s r2 r3
    (r4.trans hd.c) ?_
  intro y x k hy hx hkk
  have hb := hk img s s 0 255 hd.h hd.w hd.range y x k (by omega) (by omega) (by rw [← r4]; exact hkk)
  obtain ⟨⟨n, hn⟩, q2, q3⟩ := (r6 y x k).2 hd.int8 hb.1
  refine ⟨?_, le_trans q2 hb.2⟩
  rw [hn] at q3 ⊢
  have : (0 : ℚ) < n + 1 := lt_of_le_of_lt hb.1 q3
  have : (0 : Int) < n + 1 := by exact_mod_cast this
  have : (0 : Int) ≤ n := by omega
  exact_mod_cast this

/-- Evaluation with a central crop: `decode|resize_small(r)|central_crop(s)|value_range|onehot|keep` with
`s ≤ r` never fails for lack of pixels, even with the rounding of the sizes in 32-bit floats, and gives the same
shapes and ranges. -/
theorem C99_evaluation_crop (dec : B → Except PyErr Image) (area : Kernel) (hk : Interpolates area)
    (fl : ℚ → ℚ) (hfl : Float32 fl)
    (r s depth : Nat) (hpos : 0 < s) (hsr : s ≤ r) (hr : r < 2 ^ 22) (vmin vmax : ℚ) (hv : vmin ≤ vmax)
    (d : PyDict String (Value B)) (b : B) (img : Image) (l : Int)
    (hb : PyDict.get? d "image" = some (.bytes b)) (hdec : dec b = .ok img) (hd : Decoded img)
    (hl : PyDict.get? d "label" = some (.label l)) :
    ∃ out, applyAll
      ([ikok (onBytes dec) none "image" "image",
        ikok (onImage (resizeSmallOp fl area r)) none "image" "image",
        ikok (onImage (centralCropOp (.int s))) none "image" "image"] ++ ppCommon B vmin vmax depth) d = .ok out ∧
      ReadyExample d out s vmin vmax depth l := by
  have hm := (C38_resize_small fl hfl r img.h img.w hr hd.h hd.w).1
  obtain ⟨hz, hzdef⟩ : ∃ hz, hz = resizeSmall fl r img.h img.w := ⟨_, rfl⟩
  rw [← hzdef] at hm
  have h1 : (r : Int) ≤ hz.1 := hm ▸ min_le_left _ _
  have h2 : (r : Int) ≤ hz.2 := hm ▸ min_le_right _ _
  set q : Image := ⟨false, hz.1.toNat, hz.2.toNat, img.c, area img hz.1.toNat hz.2.toNat⟩ with hq
  have hres : resizeSmallOp fl area r img = .ok q := by
    unfold resizeSmallOp tfResize
    simp only [← hzdef]
    rw [if_pos ⟨by omega, by omega, hd.h, hd.w⟩]
  obtain ⟨⟨y, x, ch, cw⟩, hcrop⟩ := (C38_crop_iff s s q.h q.w).2 (by
    simp only [hq]
    omega)
  obtain ⟨e1, e2, e3, e4, e5, e6, _⟩ := C38_crop s s q.h q.w y x ch cw hcrop
  obtain ⟨p, p1, p2, p3, p4⟩ := crop_ok ⟨y.toNat, x.toNat, ch.toNat, cw.toNat⟩ q (by simp only; omega)
    (by simp only; omega)
  have hcc : centralCropOp (.int s) q = .ok p := by
    unfold centralCropOp
    change (centralCrop s s q.h q.w >>= _ : Except PyErr _) = _
    rw [hcrop]
    exact p1
  rw [List.cons_append, applyAll_cons_ok _ _ d _ (ikok_ok _ "image" "image" d _ (.image img) hb (by
    simp only [onBytes, hdec]; rfl))]
  rw [List.cons_append, applyAll_cons_ok _ _ _ _ (ikok_ok _ "image" "image" _ (.image img) (.image q) (by
    rw [PyDict.get?_set, if_pos rfl]) (by simp only [onImage, hres]; rfl))]
  rw [List.cons_append, applyAll_cons_ok _ _ _ _ (ikok_ok _ "image" "image" _ (.image q) (.image p) (by
    rw [PyDict.get?_set, if_pos rfl]) (by simp only [onImage, hcc]; rfl))]
  rw [set_set', set_set']
  have hps : p.h = s ∧ p.w = s := by
    rw [p2, p3]
    simp only
    omega
  refine ppCommon_ok d _ p l depth vmin vmax hv (by rw [PyDict.get?_set, if_pos rfl])
    (by rw [PyDict.get?_set, if_neg (by decide), hl]) (by rw [PyDict.get?_set, if_neg (by decide)]) s
    hps.1 hps.2 (p4.2.2.1.trans hd.c) ?_
  intro y' x' k hy hx hkk
  rw [p4.2.2.2.2]
  have f1 := p4.1
  have f2 := p4.2.1
  refine hk img _ _ 0 255 hd.h hd.w hd.range _ _ _ ?_ ?_ ?_
  · have : q.h = hz.1.toNat := rfl
    omega
  · have : q.w = hz.2.toNat := rfl
    omega
  · rw [p4.2.2.1] at hkk
    exact hkk

/-- Without a size (`None`, `0` or an empty list) the crop is not resized: it is a window of the image, of at least
`area_min` percent of its pixels, and at most `area_max` percent unless it is the whole image. -/
theorem C99_crop (kernel : Kernel) (sample : Sampler) (hs : SamplerOk sample) (size : Size)
    (hsize : size = .none ∨ size = .int 0 ∨ size = .list []) (amin amax : ℚ) (hmin : amin ≤ 100)
    (img : Image) (hh : 0 < img.h) (hw : 0 < img.w) :
    ∃ r oy ox, inceptionCrop kernel sample size amin amax img = .ok r ∧ Window img r oy ox ∧ 0 < r.h ∧ 0 < r.w ∧
      amin / 100 * (img.h * img.w) ≤ r.h * r.w ∧
      ((r.h * r.w : ℚ) ≤ amax / 100 * (img.h * img.w) ∨ (r.h = img.h ∧ r.w = img.w)) := by
  obtain ⟨b1, b2, b3, b4, b5⟩ := hs img.h img.w (amin / 100) (amax / 100) hh hw
  obtain ⟨p, p1, p2, p3, p4⟩ := crop_ok (sample img.h img.w (amin / 100) (amax / 100)) img b3 b4
  refine ⟨p, _, _, ?_, p4, p2 ▸ b1, p3 ▸ b2, ?_, ?_⟩
  · unfold inceptionCrop
    rw [p1]
    change (if size.truthy then resize kernel size p else .ok p : Except PyErr _) = _
    rw [if_neg]
    rcases hsize with h | h | h <;> subst h <;> simp [Size.truthy]
  · rw [p2, p3]
    rcases b5 with ⟨h1, h2⟩ | ⟨h1, _⟩
    · rw [h1, h2]
      have : (0 : ℚ) ≤ (img.h : ℚ) * img.w := by positivity
      have : amin / 100 ≤ 1 := by linarith
      nlinarith
    · exact h1
  · rw [p2, p3]
    rcases b5 with h | ⟨_, h2⟩
    · exact .inr h
    · exact .inl h2

/-- `flip_lr` gives the image or its mirror image: columns are exchanged, rows and channels are not, and the mirror
image of the mirror image is the image. -/
theorem C99_flip (coin : Bool) (img : Image) :
    (flipLr coin img).h = img.h ∧ (flipLr coin img).w = img.w ∧ (flipLr coin img).c = img.c ∧
    (flipLr coin img).int8 = img.int8 ∧
    (∀ y x k, x < img.w → (flipLr coin img).px y x k = if coin then img.px y (img.w - 1 - x) k else img.px y x k) ∧
    ∀ y x k, x < img.w → (flipLr coin (flipLr coin img)).px y x k = img.px y x k := by
  cases coin with
  | false => exact ⟨rfl, rfl, rfl, rfl, fun _ _ _ _ => rfl, fun _ _ _ _ => rfl⟩
  | true =>
    refine ⟨rfl, rfl, rfl, rfl, fun _ _ _ _ => rfl, ?_⟩
    intro y x k hx
    simp only [flipLr, if_true]
    congr 1
    omega

/-- Without a size two examples may have images of different shapes, which cannot be put in one batch. -/
theorem C99_no_size_counterexample (kernel : Kernel) :
    ∃ (sample : Sampler) (img img' r r' : Image), SamplerOk sample ∧ Decoded img ∧ Decoded img' ∧
      inceptionCrop kernel sample .none 5 100 img = .ok r ∧ inceptionCrop kernel sample .none 5 100 img' = .ok r' ∧
      (r.h, r.w) ≠ (r'.h, r'.w) := by
  refine ⟨fun h w _ _ => ⟨0, 0, h, w⟩, ⟨true, 2, 3, 3, fun _ _ _ => 7⟩, ⟨true, 4, 3, 3, fun _ _ _ => 7⟩, _, _, ?_, ?_, ?_,
    rfl, rfl, by decide⟩
  · intro h w lo hi hh hw
    exact ⟨hh, hw, by simp, by simp, .inl ⟨rfl, rfl⟩⟩
  · exact ⟨rfl, by decide, by decide, rfl, fun _ _ _ _ _ _ => ⟨by norm_num, by norm_num⟩⟩
  · exact ⟨rfl, by decide, by decide, rfl, fun _ _ _ _ _ _ => ⟨by norm_num, by norm_num⟩⟩

/-- The interpolation that takes the nearest pixel above and to the left. -/
def exNearest : Kernel := fun img H W y x k => img.px (y * img.h / H) (x * img.w / W) k

/-- The whole image. -/
def exSample : Sampler := fun h w _ _ => ⟨0, 0, h, w⟩

/-- An encoded image is its width: two rows, with values that grow from left to right. -/
def exDecode (n : Nat) : Except PyErr Image :=
  .ok ⟨true, 2, n + 1, 3, fun _ x _ => min (10 * x : ℚ) 255⟩

theorem exNearest_ok : Interpolates exNearest := by
  intro img H W lo hi hh hw h y x k hy hx hk
  refine h _ _ k ?_ ?_ hk
  · rw [Nat.div_lt_iff_lt_mul (by omega), Nat.mul_comm img.h H]
    exact Nat.mul_lt_mul_of_pos_right hy hh
  · rw [Nat.div_lt_iff_lt_mul (by omega), Nat.mul_comm img.w W]
    exact Nat.mul_lt_mul_of_pos_right hx hw

theorem exSample_ok : SamplerOk exSample := by
  intro h w lo hi hh hw
  exact ⟨hh, hw, by simp [exSample], by simp [exSample], .inl ⟨rfl, rfl⟩⟩

/-- The hypotheses of `C99_train`, `C99_evaluation` and `C99_evaluation_crop` hold together: an example with an id
and a mask, flipped. -/
example : ∃ out, applyAll
      ([ikok (onBytes (decodeJpegAndInceptionCrop exDecode exNearest exSample (.int 224) 5 100)) none "image" "image",
        ikok (onImage fun i => .ok (flipLr true i)) none "image" "image"] ++ ppCommon Nat (-1) 1 1000)
      [("image", .bytes 7), ("label", .label 3), ("id", .other), (validKey, .other)] = .ok out ∧
      ReadyExample [("image", .bytes 7), ("label", .label 3), ("id", .other), (validKey, .other)] out 224 (-1) 1 1000 3 :=
  C99_train exDecode exNearest exNearest_ok exSample exSample_ok true 224 1000 (by decide) (-1) 1 (by norm_num) 5 100
    _ 7 _ 3 rfl rfl
    ⟨rfl, by decide, by decide, rfl, fun y x k _ _ _ => ⟨by positivity, min_le_right _ _⟩⟩ rfl

/-- A float image is interpolated, and an 8-bit image is rounded down. -/
example : castTo false (7 / 2) = 7 / 2 ∧ castTo true (7 / 2) = 3 := by
  constructor
  · rfl
  · norm_num [castTo]

end Verif.ImageOps
