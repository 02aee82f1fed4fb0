import Verif.Spec.Vit
import Mathlib.Analysis.Real.Pi.Irrational

/-! Lemmas for the vision transformer. -/

namespace Verif.Vit

open Verif

theorem convSize_eq (size patch : Nat) (hp : 0 < patch) : convSize size patch = size / patch := by
  unfold convSize
  split
  · rw [Nat.div_eq_of_lt (by assumption)]
  · rename_i h
    exact (Nat.div_eq_sub_div hp (by omega)).symm

variable {ph pw D c r : Nat} {M : Type*}

theorem grid_lt {h w i j : Nat} (hi : i < h) (hj : j < w) : i * w + j < h * w := by
  have h1 : (i + 1) * w ≤ h * w := Nat.mul_le_mul_right _ hi
  rw [Nat.add_mul] at h1
  omega

theorem grid_div {w i j : Nat} (hj : j < w) : (i * w + j) / w = i := by
  rw [Nat.mul_comm, Nat.mul_add_div (by omega), Nat.div_eq_of_lt hj, Nat.add_zero]

theorem grid_mod {w i j : Nat} (hj : j < w) : (i * w + j) % w = j := by
  rw [Nat.mul_comm, Nat.mul_add_mod, Nat.mod_eq_of_lt hj]

theorem conv_eq {H W : Nat} (p : Params ph pw D c r) (img : Image H W D) (i j : Nat)
    (hi : i < H / ph) (hj : j < W / pw) :
    conv p img i j = patchToken p.kernel p.bias img i j hi hj := by
  funext f
  unfold conv patchToken
  rw [add_comm]
  congr 1
  refine Finset.sum_congr rfl fun u _ => Finset.sum_congr rfl fun v _ =>
    Finset.sum_congr rfl fun d _ => ?_
  rw [pixel, dif_pos ⟨patch_lt hi u, patch_lt hj v⟩, mul_comm]

theorem tokens_isTokens {H W : Nat} (p : Params ph pw D c r) (hph : 0 < ph) (hpw : 0 < pw)
    (classifier : List Char) (img : Image H W D) :
    IsTokens p.kernel p.bias (if classifier = "token".toList then [p.cls] else []) img
      (tokens p classifier img) := by
  have hg : ∀ i j (hi : i < H / ph) (hj : j < W / pw),
      ((List.range (H / ph * (W / pw))).map
        (fun k => conv p img (k / (W / pw)) (k % (W / pw))))[i * (W / pw) + j]? =
      some (patchToken p.kernel p.bias img i j hi hj) := by
    intro i j hi hj
    rw [List.getElem?_map, List.getElem?_range (grid_lt hi hj), Option.map_some, grid_div hj,
      grid_mod hj, conv_eq p img i j hi hj]
  unfold tokens
  simp only [convSize_eq _ _ hph, convSize_eq _ _ hpw]
  by_cases hc : classifier = "token".toList
  · rw [if_pos hc, if_pos hc]
    refine ⟨by simp [Nat.add_comm], by simp, fun i j hi hj => ?_⟩
    rw [List.length_singleton, Nat.add_comm, List.getElem?_cons_succ]
    exact hg i j hi hj
  · rw [if_neg hc, if_neg hc]
    refine ⟨by simp, by simp, fun i j hi hj => ?_⟩
    rw [List.length_nil, Nat.zero_add]
    exact hg i j hi hj

/-- The row of the model is the embedding of the specification. -/
theorem posembedRow_isSincos (temperature : ℝ) (ht : 0 < temperature) (w k : Nat) (hc : c % 4 = 0) :
    IsSincos temperature (k / w) (k % w)
      (fun ch : Fin c => (posembedRow temperature w (c / 4) k).getD ch 0) := by
  have hom : ∀ d, omega temperature (c / 4) d =
      temperature ^ (-((d : ℝ) / ((c / 4 : Nat) - 1 : ℝ))) := by
    intro d
    rw [omega, Real.rpow_neg ht.le, one_div]
  intro d hd θ hθ
  rw [← hom] at hθ
  subst hθ
  refine ⟨fun h => ?_, fun h => ?_, fun h => ?_, fun h => ?_⟩
  all_goals
    simp only [posembedRow, List.getD_eq_getElem?_getD]
  · rw [List.getElem?_append_left (by simpa using hd)]
    simp [List.getElem?_range hd]
  · rw [List.getElem?_append_right (by simp), List.getElem?_append_left (by simpa using hd)]
    simp [List.getElem?_range hd]
  · rw [List.getElem?_append_right (by simp; omega), List.getElem?_append_right (by simp; omega),
      List.getElem?_append_left (by simp; omega)]
    have : 2 * (c / 4) + d - c / 4 - c / 4 = d := by omega
    simp [this, List.getElem?_range hd]
  · rw [List.getElem?_append_right (by simp; omega), List.getElem?_append_right (by simp; omega),
      List.getElem?_append_right (by simp; omega)]
    have : 3 * (c / 4) + d - c / 4 - c / 4 - c / 4 = d := by omega
    simp [this, List.getElem?_range hd]

/-- Integers with the same sine and cosine are equal. -/
theorem nat_eq_of_sin_cos {a b : Nat} (hs : Real.sin a = Real.sin b) (hc : Real.cos a = Real.cos b) :
    a = b := by
  have h1 : Real.cos ((a : ℝ) - b) = 1 := by
    rw [Real.cos_sub, hs, hc, ← sq, ← sq, Real.cos_sq_add_sin_sq]
  obtain ⟨n, hn⟩ := (Real.cos_eq_one_iff _).1 h1
  by_contra hab
  have hn0 : n ≠ 0 := by
    rintro rfl
    simp only [Int.cast_zero, zero_mul] at hn
    apply hab
    exact_mod_cast (sub_eq_zero.1 hn.symm)
  refine irrational_pi ⟨((a : ℤ) - (b : ℤ) : ℤ) / (2 * n : ℤ), ?_⟩
  have hne : (n : ℝ) ≠ 0 := by exact_mod_cast hn0
  push_cast
  rw [← hn]
  field_simp

end Verif.Vit
