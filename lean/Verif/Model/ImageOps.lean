import Verif.Model.PpOps

/-!
# Model of the operations on images (vmoe/data/pp_ops.py:65-307,310-334,403-433)

Pixels are exact rationals: the rounding of the 32-bit floats is left out, except in the sizes of `resize_small`.
The functions of TensorFlow are parameters: the decoder of images, the sampler of boxes, and the interpolation in
`tf.image.resize`.
-/

namespace Verif.ImageOps

open Verif PpOps

/-- An image tensor of rank 3 (vmoe/data/pp_ops.py:81-85): whether its type is `uint8` (otherwise `float32`), its
height, width and number of channels, and its pixels.  `px` is only read inside the image. -/
structure Image where
  int8 : Bool
  h : Nat
  w : Nat
  c : Nat
  px : Nat → Nat → Nat → ℚ

/-- The values in the dicts that the operations change (vmoe/data/pp_ops.py:56-58): encoded images, images, one or
more labels, vectors of floats, and anything else. -/
inductive Value (B : Type) where
  | bytes (b : B)
  | image (i : Image)
  | label (l : Int)
  | labels (ls : List Int)
  | vec (v : List ℚ)
  | other

/-- The argument `resize_size` or `crop_size` (vmoe/data/pp_ops.py:70-72,117,284-286): `None`, an integer, or a
list.  Negative sizes, which TensorFlow rejects, are left out. -/
inductive Size where
  | none
  | int (n : Nat)
  | list (l : List Nat)

/-- `if resize_size:` (vmoe/data/pp_ops.py:140,202). -/
def Size.truthy : Size → Bool
  | .none => false
  | .int n => decide (n ≠ 0)
  | .list l => decide (l ≠ [])

/-- `isinstance(size, int)` and `tuple(size)` (vmoe/data/pp_ops.py:77-79,293-295). -/
def Size.tuple : Size → Except PyErr (List Nat)
  | .none => .error .typeError
  | .int n => .ok [n, n]
  | .list l => .ok l

/-- `tf.cast(image, dtype)` (vmoe/data/pp_ops.py:305) on one value: towards zero for `uint8`.  Values that do not fit
in 8 bits, for which the cast has no defined result, are not wrapped here. -/
def castTo (int8 : Bool) (v : ℚ) : ℚ :=
  if int8 then (if 0 ≤ v then (⌊v⌋ : ℚ) else (⌈v⌉ : ℚ)) else v

/-- The interpolation of `tf.image.resize` and `tf.image.resize_area` (vmoe/data/pp_ops.py:304,332): from an image
to the pixels of the image of the given height and width. -/
abbrev Kernel := Image → Nat → Nat → Nat → Nat → Nat → ℚ

/-- `tf2.image.resize(image, resize_size, ...)` (vmoe/data/pp_ops.py:304): two positive sizes, and an image that is
not empty; the result is a float image. -/
def tfResize (kernel : Kernel) (size : List Nat) (img : Image) : Except PyErr Image :=
  match size with
  | [H, W] =>
    if 0 < H ∧ 0 < W ∧ 0 < img.h ∧ 0 < img.w then
      .ok { int8 := false, h := H, w := W, c := img.c, px := kernel img H W }
    else .error .valueError
  | _ => .error .valueError

/-- `_resize` of `resize` (vmoe/data/pp_ops.py:293-305).  `kernel` is the interpolation of the given method. -/
def resize (kernel : Kernel) (size : Size) (img : Image) : Except PyErr Image := do
  let t ← size.tuple
  let r ← tfResize kernel t img
  return { r with int8 := img.int8, px := fun y x k => castTo img.int8 (r.px y x k) }

/-- The box of `tf.image.sample_distorted_bounding_box` (vmoe/data/pp_ops.py:127-137,192-198): its first row and
column, and its height and width. -/
structure Box where
  y : Nat
  x : Nat
  h : Nat
  w : Nat

/-- `tf.slice(image, begin, size)` with all channels (vmoe/data/pp_ops.py:198), and the window of
`decode_and_crop_jpeg` (vmoe/data/pp_ops.py:137-138). -/
def crop (b : Box) (img : Image) : Except PyErr Image :=
  if b.y + b.h ≤ img.h ∧ b.x + b.w ≤ img.w then
    .ok { img with h := b.h, w := b.w, px := fun y x k => img.px (y + b.y) (x + b.x) k }
  else .error .valueError

/-- `tf.image.sample_distorted_bounding_box` (vmoe/data/pp_ops.py:127-132,192-197), with its random choices made:
from the height and width of the image and the range of areas to the box. -/
abbrev Sampler := Nat → Nat → ℚ → ℚ → Box

/-- `inception_crop` (vmoe/data/pp_ops.py:173-206). -/
def inceptionCrop (kernel : Kernel) (sample : Sampler) (size : Size) (areaMin areaMax : ℚ) (img : Image) :
    Except PyErr Image := do
  let cropped ← crop (sample img.h img.w (areaMin / 100) (areaMax / 100)) img
  if size.truthy then resize kernel size cropped else .ok cropped

/-- `decode_jpeg_and_inception_crop` (vmoe/data/pp_ops.py:111-145).  `decodeJpeg` decodes the whole image with three
channels: `extract_jpeg_shape` reads its shape, and `decode_and_crop_jpeg` gives a window of it. -/
def decodeJpegAndInceptionCrop {B : Type} (decodeJpeg : B → Except PyErr Image) (bilinear : Kernel)
    (sample : Sampler) (size : Size) (areaMin areaMax : ℚ) (b : B) : Except PyErr Image := do
  let whole ← decodeJpeg b
  let image ← crop (sample whole.h whole.w (areaMin / 100) (areaMax / 100)) whole
  if size.truthy then resize bilinear size image else .ok image

/-- `flip_lr` (vmoe/data/pp_ops.py:153-159); `coin` is the random choice of `random_flip_left_right`. -/
def flipLr (coin : Bool) (img : Image) : Image :=
  if coin then { img with px := fun y x k => img.px y (img.w - 1 - x) k } else img

/-- `resize_small` (vmoe/data/pp_ops.py:310-334): the sizes, and `tf.image.resize_area`, which gives floats. -/
def resizeSmallOp (fl : ℚ → ℚ) (area : Kernel) (smaller : Nat) (img : Image) : Except PyErr Image :=
  let hw := resizeSmall fl smaller img.h img.w
  tfResize area [hw.1.toNat, hw.2.toNat] img

/-- `crop_size[0], crop_size[1]` (vmoe/data/pp_ops.py:82). -/
def firstTwo : List Nat → Except PyErr (Nat × Nat)
  | a :: b :: _ => .ok (a, b)
  | _ => .error .indexError

/-- `central_crop` (vmoe/data/pp_ops.py:65-87) on an image. -/
def centralCropOp (size : Size) (img : Image) : Except PyErr Image := do
  let t ← size.tuple
  let hw ← firstTwo t
  let r ← centralCrop hw.1 hw.2 img.h img.w
  crop ⟨r.1.toNat, r.2.1.toNat, r.2.2.1.toNat, r.2.2.2.toNat⟩ img

/-- `value_range` (vmoe/data/pp_ops.py:403-433) with scalar bounds: a float image. -/
def valueRangeOp (vmin vmax inMin inMax : ℚ) (clip : Bool) (img : Image) : Image :=
  { img with int8 := false, px := fun y x k => valueRange vmin vmax inMin inMax clip (img.px y x k) }

/-- An operation on images applied to a value (vmoe/data/pp_ops.py:57); TensorFlow raises on other values. -/
def onImage {B : Type} (f : Image → Except PyErr Image) : Value B → Except PyErr (Value B)
  | .image i => return .image (← f i)
  | _ => .error .valueError

/-- An operation on encoded images applied to a value (vmoe/data/pp_ops.py:57,104-105,125-126). -/
def onBytes {B : Type} (f : B → Except PyErr Image) : Value B → Except PyErr (Value B)
  | .bytes b => return .image (← f b)
  | _ => .error .valueError

/-- `onehot` (vmoe/data/pp_ops.py:219-245) applied to a value; `multi=False` on a vector of labels, which gives a
matrix, is left out. -/
def onehotOp {B : Type} (depth : Nat) (on off : ℚ) : Value B → Except PyErr (Value B)
  | .label l => .ok (.vec (oneHot depth on off l))
  | .labels ls => return .vec (← multiHot depth on off ls)
  | _ => .error .valueError

end Verif.ImageOps
