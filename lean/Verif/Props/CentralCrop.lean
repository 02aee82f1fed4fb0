import Verif.Props.ImageOps

/-! C99: the central crop to a height and a width. -/

namespace Verif.ImageOps

open Verif PpOps

/-- The central crop to `[H, W]`, or to an integer for squares, of an image that is at least that large has height `H` and width `W`, and its
pixels are those of the window that leaves as much above as below and as much to the left as to the right, or one less. -/
theorem C99_central_crop (size : Size) (H W : Nat) (img : Image) (hs : size = .list [H, W] ∨ (H = W ∧ size = .int H))
    (hH : 0 < H) (hW : 0 < W) (hh : H ≤ img.h) (hw : W ≤ img.w) :
    ∃ r top left, centralCropOp size img = .ok r ∧ r.h = H ∧ r.w = W ∧ r.c = img.c ∧ r.int8 = img.int8 ∧
      (∀ y x k, r.px y x k = img.px (y + top) (x + left) k) ∧
      (img.h - H - top = top ∨ img.h - H - top = top + 1) ∧ (img.w - W - left = left ∨ img.w - W - left = left + 1) := by
  have ht : size.tuple = .ok [H, W] := by
    rcases hs with h | ⟨h1, h⟩
    · rw [h]; rfl
    · rw [h, ← h1]; rfl
  have e1 : Int.fdiv ((img.h : Int) - H) 2 = (((img.h - H) / 2 : Nat) : Int) := by
    rw [Int.fdiv_eq_ediv_of_nonneg _ (by norm_num)]; omega
  have e2 : Int.fdiv ((img.w : Int) - W) 2 = (((img.w - W) / 2 : Nat) : Int) := by
    rw [Int.fdiv_eq_ediv_of_nonneg _ (by norm_num)]; omega
  have hc : centralCrop H W img.h img.w = .ok ((((img.h - H) / 2 : Nat) : Int), (((img.w - W) / 2 : Nat) : Int), (H : Int), (W : Int)) := by
    unfold centralCrop cropToBoundingBox
    simp only [e1, e2]
    rw [if_pos (by omega)]
  refine ⟨{ img with h := H, w := W, px := fun y x k => img.px (y + (img.h - H) / 2) (x + (img.w - W) / 2) k },
    (img.h - H) / 2, (img.w - W) / 2, ?_, rfl, rfl, rfl, rfl, fun _ _ _ => rfl, by omega, by omega⟩
  unfold centralCropOp
  rw [ht]
  change (centralCrop H W img.h img.w >>= _ : Except PyErr _) = _
  rw [hc]
  change crop ⟨(img.h - H) / 2, (img.w - W) / 2, H, W⟩ img = _
  unfold crop
  rw [if_pos (by simp only; omega)]

/-- An image of five rows and eight columns, cropped to two rows and five columns. -/
example : (0 < 2 ∧ 0 < 5 ∧ 2 ≤ (⟨true, 5, 8, 3, fun y x _ => y * 10 + x⟩ : Image).h ∧
    5 ≤ (⟨true, 5, 8, 3, fun y x _ => y * 10 + x⟩ : Image).w) := by decide

end Verif.ImageOps
