import Verif.Model.MoeDispatch
import Verif.Proofs.MoeRouting
import Mathlib.Tactic.Linarith
import Mathlib.Algebra.Module.BigOperators

/-! Helper lemmas for the dispatch properties. -/

namespace Verif.Moe

open Verif Verif.Spec

variable {R M N : Type*} {S K E C G a b c d : Nat}

theorem flat2_rowMajor (x : Fin a → Fin b → M) (i : Fin a) (j : Fin b) :
    flat2 x (rowMajor i j) = x i j := by
  simp [flat2, rowMajor_divNat, rowMajor_modNat]

theorem flat3_rowMajor (x : Fin a → Fin b → Fin c → M) (i : Fin a) (j : Fin b) (k : Fin c) :
    flat3 x (rowMajor (rowMajor i j) k) = x i j k := by
  simp [flat3, rowMajor_divNat, rowMajor_modNat]

theorem flat4_rowMajor (x : Fin a → Fin b → Fin c → Fin d → M) (i : Fin a) (j : Fin b)
    (k : Fin c) (l : Fin d) :
    flat4 x (rowMajor (rowMajor (rowMajor i j) k) l) = x i j k l := by
  simp [flat4, rowMajor_divNat, rowMajor_modNat]

/-- Column of the exchanged array where slot `c` of group `g` ends up. -/
def exchangePos (h : G % E = 0) (b : Fin E) (j : Fin (G / E)) (l : Fin C) : Fin (G * C) :=
  (rowMajor (rowMajor j b) l).cast (by
    have : E * (G / E) = G := Nat.mul_div_cancel' (Nat.dvd_of_mod_eq_zero h)
    rw [Nat.mul_comm (G / E) E, this])

theorem div_lt_of_mod_zero (h : G % E = 0) (g : Fin G) : g.1 / (G / E) < E := by
  have hd : E * (G / E) = G := Nat.mul_div_cancel' (Nat.dvd_of_mod_eq_zero h)
  have hg : g.1 < E * (G / E) := by rw [hd]; exact g.2
  exact Nat.div_lt_of_lt_mul (by rw [Nat.mul_comm]; exact hg)

theorem quot_pos (h : G % E = 0) (g : Fin G) : 0 < G / E := by
  have hd : E * (G / E) = G := Nat.mul_div_cancel' (Nat.dvd_of_mod_eq_zero h)
  rcases Nat.eq_zero_or_pos (G / E) with h0 | h0
  · rw [h0] at hd; have := g.2; omega
  · exact h0

/-- Column of group `g`, slot `l` in both branches. -/
def column (E : Nat) (g : Fin G) (l : Fin C) : Fin (G * C) :=
  if h : G % E = 0 then
    exchangePos h ⟨g.1 / (G / E), div_lt_of_mod_zero h g⟩
      ⟨g.1 % (G / E), Nat.mod_lt _ (quot_pos h g)⟩ l
  else rowMajor g l

theorem dispatchExchange_column (x : Fin G → Fin E → Fin C → M) (g : Fin G) (e : Fin E)
    (l : Fin C) : dispatchExchange x e (column E g l) = x g e l := by
  unfold dispatchExchange column
  split
  · rename_i h
    have hd : E * (G / E) = G := Nat.mul_div_cancel' (Nat.dvd_of_mod_eq_zero h)
    simp only [unflat2, exchangePos]
    set b : Fin E := ⟨g.1 / (G / E), div_lt_of_mod_zero h g⟩ with hb
    set j : Fin (G / E) := ⟨g.1 % (G / E), Nat.mod_lt _ (quot_pos h g)⟩ with hj
    have h1 : ∀ (p : G / E * E * C = G * C) (q : E * (G * C) = E * (G / E) * E * C),
        (rowMajor e ((rowMajor (rowMajor j b) l).cast p)).cast q =
        rowMajor (rowMajor (rowMajor e j) b) l := by
      intro p q
      apply Fin.ext
      simp only [rowMajor, Fin.val_cast]
      rw [← p]
      ring
    rw [h1, flat4_rowMajor]
    simp only [unflat4]
    have h2 : (rowMajor (rowMajor (rowMajor b j) e) l).cast (size_dispatch_split h) =
        rowMajor (rowMajor g e) l := by
      apply Fin.ext
      simp only [rowMajor, Fin.val_cast, hb, hj]
      rw [Nat.div_add_mod']
    rw [h2, flat3_rowMajor]
  · rename_i h
    simp only [unflat2]
    have h1 : (rowMajor e (rowMajor g l)).cast size_rows = rowMajor (rowMajor e g) l := by
      apply Fin.ext
      simp only [rowMajor, Fin.val_cast]
      ring
    rw [h1, flat3_rowMajor]

theorem receiveExchange_column (y : Fin E → Fin (G * C) → M) (g : Fin G) (e : Fin E)
    (l : Fin C) : receiveExchange y g e l = y e (column E g l) := by
  unfold receiveExchange column
  split
  · rename_i h
    have hd : E * (G / E) = G := Nat.mul_div_cancel' (Nat.dvd_of_mod_eq_zero h)
    simp only [unflat3]
    set b : Fin E := ⟨g.1 / (G / E), div_lt_of_mod_zero h g⟩ with hb
    set j : Fin (G / E) := ⟨g.1 % (G / E), Nat.mod_lt _ (quot_pos h g)⟩ with hj
    have h2 : (rowMajor (rowMajor g e) l).cast (size_dispatch_split h).symm =
        rowMajor (rowMajor (rowMajor b j) e) l := by
      apply Fin.ext
      simp only [rowMajor, Fin.val_cast, hb, hj]
      rw [Nat.div_add_mod']
    rw [h2, flat4_rowMajor]
    simp only [unflat4]
    have h1 : (rowMajor (rowMajor (rowMajor e j) b) l).cast (size_rows_split h).symm =
        rowMajor e (exchangePos h b j l) := by
      apply Fin.ext
      simp only [rowMajor, Fin.val_cast, exchangePos]
      have p : G / E * E * C = G * C := by rw [Nat.mul_comm (G / E) E, hd]
      rw [← p]
      ring
    rw [h1, flat2_rowMajor]
  · rename_i h
    simp only [unflat3]
    have h1 : (rowMajor (rowMajor e g) l).cast size_rows.symm = rowMajor e (rowMajor g l) := by
      apply Fin.ext
      simp only [rowMajor, Fin.val_cast]
      ring
    rw [h1, flat2_rowMajor]

theorem column_injective (E : Nat) (hE : 0 < E) :
    Function.Injective (fun p : Fin G × Fin C => column E p.1 p.2) := by
  rintro ⟨g1, l1⟩ ⟨g2, l2⟩ h
  have h3 : ∀ (M : Type) (x : Fin G → Fin E → Fin C → M),
      x g1 ⟨0, hE⟩ l1 = x g2 ⟨0, hE⟩ l2 := by
    intro M x
    rw [← dispatchExchange_column x, ← dispatchExchange_column x]
    exact congrArg _ h
  have := h3 (Fin G × Fin C) (fun g _ l => (g, l))
  exact this

theorem column_surjective (E : Nat) (hE : 0 < E) :
    Function.Surjective (fun p : Fin G × Fin C => column E p.1 p.2) := by
  have hb : Function.Bijective (fun p : Fin G × Fin C => column E p.1 p.2) := by
    rw [Fintype.bijective_iff_injective_and_card]
    exact ⟨column_injective E hE, by simp⟩
  exact hb.2

/-- The columns as a bijection with (group, slot) pairs. -/
noncomputable def columnEquiv (E : Nat) (hE : 0 < E) : Fin G × Fin C ≃ Fin (G * C) :=
  Equiv.ofBijective (fun p => column E p.1 p.2) ⟨column_injective E hE, column_surjective E hE⟩

end Verif.Moe
