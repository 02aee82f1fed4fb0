import Verif.Model.Vit

/-!
Specification of the tokens of an image and of the two-dimensional sine and cosine position
embedding, independent of the definitions of the model (only the types are shared).
-/

namespace Verif.Vit

/-- `e` is the embedding of row `i` and column `j` of the grid: with `q = c / 4` frequencies
`temperature ^ (-d / (q - 1))`, the four quarters of the vector are the sines and cosines of the
column, and the sines and cosines of the row. -/
def IsSincos {c : Nat} (temperature : ℝ) (i j : Nat) (e : Vec c) : Prop :=
  ∀ d, d < c / 4 → ∀ θ : ℝ, θ = temperature ^ (-((d : ℝ) / ((c / 4 : Nat) - 1 : ℝ))) →
    (∀ h, e ⟨d, h⟩ = Real.sin (j * θ)) ∧ (∀ h, e ⟨c / 4 + d, h⟩ = Real.cos (j * θ)) ∧
    (∀ h, e ⟨2 * (c / 4) + d, h⟩ = Real.sin (i * θ)) ∧
    (∀ h, e ⟨3 * (c / 4) + d, h⟩ = Real.cos (i * θ))

theorem patch_lt {H ph i : Nat} (hi : i < H / ph) (u : Fin ph) : i * ph + u < H := by
  have h1 : (i + 1) * ph ≤ H / ph * ph := Nat.mul_le_mul_right _ hi
  have h2 := Nat.div_mul_le_self H ph
  have h3 := u.isLt
  rw [Nat.add_mul] at h1
  omega

/-- The token of the patch in row `i` and column `j`: a linear function of the pixels of that patch
and of nothing else. -/
noncomputable def patchToken {H W ph pw D c : Nat} (kernel : Fin ph → Fin pw → Fin D → Fin c → ℝ)
    (bias : Fin c → ℝ) (img : Image H W D) (i j : Nat) (hi : i < H / ph) (hj : j < W / pw) : Vec c :=
  fun f => bias f + ∑ u : Fin ph, ∑ v : Fin pw, ∑ d : Fin D,
    kernel u v d f * img ⟨i * ph + u, patch_lt hi u⟩ ⟨j * pw + v, patch_lt hj v⟩ d

/-- `seq` is the sequence of tokens of an image: first the tokens `first` (the class token, if there
is one), then one token for every complete patch, row by row. -/
def IsTokens {H W ph pw D c : Nat} (kernel : Fin ph → Fin pw → Fin D → Fin c → ℝ)
    (bias : Fin c → ℝ) (first : List (Vec c)) (img : Image H W D) (seq : List (Vec c)) : Prop :=
  seq.length = first.length + H / ph * (W / pw) ∧ seq.take first.length = first ∧
  ∀ i j (hi : i < H / ph) (hj : j < W / pw),
    seq[first.length + (i * (W / pw) + j)]? = some (patchToken kernel bias img i j hi hj)

end Verif.Vit
