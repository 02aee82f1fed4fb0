import Verif.Model.MeshLog
import Verif.Proofs.Partitioning
import Verif.Proofs.Mapping
import Verif.Proofs.InitVmoe
import Verif.Proofs.Serialization

/-!
C110: the table of the logical mesh.
-/

namespace Verif.MeshLog

open Verif Verif.Partitioning

/-! ### Specification -/

/-- The numbers in a line of text, from left to right: the maximal runs of digits. -/
def readNumbers : Option Nat → List Char → List Nat
  | acc, [] => acc.toList
  | acc, c :: s =>
    if '0'.toNat ≤ c.toNat ∧ c.toNat ≤ '9'.toNat then readNumbers (some (10 * acc.getD 0 + (c.toNat - '0'.toNat))) s
    else acc.toList ++ readNumbers none s

/-- The devices of row `i` of a mesh with one or two axes. -/
def rowDevices (mesh : NdArray Device) (i : Nat) : List Device :=
  match mesh.shape with
  | [_] => [mesh.get [i]]
  | [_, c] => (List.range c).map fun j => mesh.get [i, j]
  | _ => []

/-! ### Reading numbers -/

/-- The rest of a line does not go on with a digit. -/
def NoDigit (s : List Char) : Prop := ∀ c, s.head? = some c → ¬ ('0'.toNat ≤ c.toNat ∧ c.toNat ≤ '9'.toNat)

theorem read_digits (ds rest : List Char) (h : ∀ c ∈ ds, 48 ≤ c.toNat ∧ c.toNat ≤ 57) (a : Nat) :
    readNumbers (some a) (ds ++ rest) = readNumbers (some (ds.foldl (fun acc c => 10 * acc + PyStr.charDigit c) a)) rest := by
  induction ds generalizing a with
  | nil => rfl
  | cons c ds ih =>
    rw [List.cons_append, readNumbers, if_pos (show '0'.toNat ≤ c.toNat ∧ c.toNat ≤ '9'.toNat from h c (by simp)), ih fun c hc => h c (by simp [hc])]
    rfl

theorem read_rest (a : Nat) (rest : List Char) (h : NoDigit rest) : readNumbers (some a) rest = a :: readNumbers none rest := by
  cases rest with
  | nil => rfl
  | cons c s =>
    rw [readNumbers, readNumbers, if_neg (h c rfl), if_neg (h c rfl)]
    rfl

theorem read_natStr (n : Nat) (rest : List Char) (h : NoDigit rest) : readNumbers none (PyStr.natStr n ++ rest) = n :: readNumbers none rest := by
  have hd := Ser.natStr_lt n
  have hv : PyStr.parseNat (PyStr.natStr n) = n := by rw [CkptPath.parseNat_eq, CkptPath.value_natStr]
  have hne := (CkptPath.digits_natStr n).1
  cases hs : PyStr.natStr n with
  | nil => exact absurd hs hne
  | cons c ds =>
    rw [hs] at hd hv
    rw [List.cons_append, readNumbers, if_pos (show '0'.toNat ≤ c.toNat ∧ c.toNat ≤ '9'.toNat from hd c (by simp)), read_digits ds rest fun c hc => hd c (by simp [hc])]
    rw [read_rest _ rest h]
    congr 1

theorem read_skip (p rest : List Char) (h : ∀ c ∈ p, ¬ ('0'.toNat ≤ c.toNat ∧ c.toNat ≤ '9'.toNat)) :
    readNumbers none (p ++ rest) = readNumbers none rest := by
  induction p with
  | nil => rfl
  | cons c p ih =>
    rw [List.cons_append, readNumbers, if_neg (h c (by simp)), ih fun c hc => h c (by simp [hc])]
    rfl

theorem read_rjust (w n : Nat) (rest : List Char) (h : NoDigit rest) : readNumbers none (rjust w n ++ rest) = n :: readNumbers none rest := by
  unfold rjust
  rw [List.append_assoc, read_skip, read_natStr n rest h]
  intro c hc
  rw [List.eq_of_mem_replicate hc]
  decide

theorem read_coords (coord widths : List Nat) (hl : coord.length = widths.length) (rest : List Char) (h : NoDigit rest) :
    readNumbers none (join [',', ' '] (List.zipWith (fun c w => rjust w c) coord widths) ++ rest) = coord ++ readNumbers none rest := by
  induction coord generalizing widths with
  | nil => simp [join]
  | cons c coord ih =>
    cases widths with
    | nil => simp at hl
    | cons w widths =>
      have hl' : coord.length = widths.length := by simpa using hl
      have hi := ih widths hl'
      rw [List.zipWith_cons_cons]
      cases hz : List.zipWith (fun c w => rjust w c) coord widths with
      | nil =>
        have : coord = [] := by
          have := congrArg List.length hz
          rw [List.length_zipWith] at this
          simp only [List.length_nil] at this
          apply List.length_eq_zero_iff.1
          omega
        subst this
        rw [join, read_rjust w c rest h]
        rfl
      | cons s t =>
        rw [hz] at hi
        rw [join, List.append_assoc, List.append_assoc, read_rjust w c]
        · rw [read_skip [',', ' '] _ (by decide), hi]
          rfl
        · intro x hx
          simp only [List.cons_append, List.head?_cons, Option.some.injEq] at hx
          subst hx
          decide

theorem read_cell (widths coord : List Nat) (hl : coord.length = widths.length) (w p : Nat) (rest : List Char) :
    readNumbers none ((coordStr widths coord ++ processStr w p) ++ rest) = coord ++ [p] ++ readNumbers none rest := by
  have e1 : (coordStr widths coord ++ processStr w p) ++ rest =
      ['('] ++ (join [',', ' '] (List.zipWith (fun c w => rjust w c) coord widths) ++ ([')', '['] ++ (rjust w p ++ ([']'] ++ rest)))) := by
    unfold coordStr processStr
    simp
  rw [e1, read_skip ['('] _ (by decide), read_coords coord widths hl _, read_skip [')', '['] _ (by decide), read_rjust, read_skip [']'] _ (by decide)]
  · simp
  · intro x hx
    simp only [List.cons_append, List.head?_cons, Option.some.injEq] at hx
    subst hx
    decide
  · intro x hx
    simp only [List.cons_append, List.head?_cons, Option.some.injEq] at hx
    subst hx
    decide

theorem read_row (cell : List Nat → List Char) (val : List Nat → List Nat) (indices : List (List Nat))
    (h : ∀ idx ∈ indices, ∀ rest, readNumbers none (cell idx ++ rest) = val idx ++ readNumbers none rest) (rest : List Char) :
    readNumbers none (row cell indices ++ rest) = (indices.map val).flatten ++ readNumbers none rest := by
  unfold row
  induction indices with
  | nil => rfl
  | cons i indices ih =>
    have hi := ih fun idx hm => h idx (by simp [hm])
    rw [List.map_cons]
    cases hm : indices.map cell with
    | nil =>
      have : indices = [] := by simpa using hm
      subst this
      rw [join, h i (by simp)]
      simp
    | cons s t =>
      rw [hm] at hi
      rw [join, List.append_assoc, List.append_assoc, h i (by simp), read_skip [' '] _ (by decide), hi]
      simp

/-! ### Lengths -/

theorem length_join (sep : List Char) (l l' : List (List Char)) (h : l.map List.length = l'.map List.length) :
    (join sep l).length = (join sep l').length := by
  induction l generalizing l' with
  | nil =>
    cases l' with
    | nil => rfl
    | cons => simp at h
  | cons s l ih =>
    cases l' with
    | nil => simp at h
    | cons s' l' =>
      simp only [List.map_cons, List.cons.injEq] at h
      have hi := ih l' h.2
      cases l with
      | nil =>
        cases l' with
        | nil => exact h.1
        | cons => simp at h
      | cons t l =>
        cases l' with
        | nil => simp at h
        | cons t' l' =>
          simp only [join, List.length_append] at hi ⊢
          omega

theorem length_rjust (w n : Nat) (h : (PyStr.natStr n).length ≤ w) : (rjust w n).length = w := by
  unfold rjust
  rw [List.length_append, List.length_replicate]
  omega

theorem fits (c mc : Nat) (h : c ≤ mc) : (PyStr.natStr c).length ≤ Nat.log 10 (mc + 1) + 1 := by
  apply Ser.length_natStr_le _ _ _ (by omega)
  have := Nat.lt_pow_succ_log_self (b := 10) (by norm_num) (mc + 1)
  omega

theorem foldl_max (cs : List (List Nat)) (m : List Nat) (h : ∀ x ∈ cs, x.length = m.length) :
    List.Forall₂ (· ≤ ·) m (cs.foldl (fun m x => List.zipWith max m x) m) ∧
    ∀ x ∈ cs, List.Forall₂ (· ≤ ·) x (cs.foldl (fun m x => List.zipWith max m x) m) := by
  have refl : ∀ l : List Nat, List.Forall₂ (· ≤ ·) l l := fun l => List.forall₂_same.2 fun _ _ => le_refl _
  have trans : ∀ {a b c : List Nat}, List.Forall₂ (· ≤ ·) a b → List.Forall₂ (· ≤ ·) b c → List.Forall₂ (· ≤ ·) a c := by
    intro a b c h1
    induction h1 generalizing c with
    | nil => exact id
    | cons h h1 ih =>
      intro h2
      cases h2 with
      | cons h' h2 => exact .cons (le_trans h h') (ih h2)
  have left : ∀ {a b : List Nat}, a.length = b.length → List.Forall₂ (· ≤ ·) a (List.zipWith max a b) ∧ List.Forall₂ (· ≤ ·) b (List.zipWith max a b) := by
    intro a
    induction a with
    | nil => intro b hb; cases b with
      | nil => exact ⟨.nil, .nil⟩
      | cons => simp at hb
    | cons x a ih => intro b hb; cases b with
      | nil => simp at hb
      | cons y b =>
        obtain ⟨i1, i2⟩ := ih (b := b) (by simpa using hb)
        exact ⟨.cons (le_max_left _ _) i1, .cons (le_max_right _ _) i2⟩
  induction cs generalizing m with
  | nil => exact ⟨refl m, by simp⟩
  | cons x cs ih =>
    have hx := h x (by simp)
    obtain ⟨l1, l2⟩ := left hx.symm
    have hlen : (List.zipWith max m x).length = m.length := by rw [List.length_zipWith]; omega
    obtain ⟨i1, i2⟩ := ih (List.zipWith max m x) fun y hy => by rw [hlen]; exact h y (by simp [hy])
    rw [List.foldl_cons]
    refine ⟨trans l1 i1, ?_⟩
    intro y hy
    rcases List.mem_cons.1 hy with rfl | hy
    · exact trans l2 i1
    · exact i2 y hy

theorem colMax_le (coords : List (List Nat)) (m : List Nat) (h : colMax coords = .ok m) : ∀ x ∈ coords, List.Forall₂ (· ≤ ·) x m := by
  unfold colMax at h
  cases coords with
  | nil => cases h
  | cons c cs =>
    simp only at h
    split at h
    · rename_i hc
      injection h with h
      subst h
      rw [List.all_eq_true] at hc
      obtain ⟨h1, h2⟩ := foldl_max cs c fun x hx => by simpa using hc x hx
      intro x hx
      rcases List.mem_cons.1 hx with rfl | hx
      · exact h1
      · exact h2 x hx
    · cases h

theorem rowMax_le (l : List Nat) (m : Nat) (h : rowMax l = .ok m) : ∀ x ∈ l, x ≤ m := by
  have key : ∀ (l : List Nat) (a : Nat), a ≤ l.foldl max a ∧ ∀ x ∈ l, x ≤ l.foldl max a := by
    intro l
    induction l with
    | nil => intro a; simp
    | cons y l ih =>
      intro a
      obtain ⟨i1, i2⟩ := ih (max a y)
      rw [List.foldl_cons]
      refine ⟨le_trans (le_max_left _ _) i1, ?_⟩
      intro x hx
      rcases List.mem_cons.1 hx with rfl | hx
      · exact le_trans (le_max_right _ _) i1
      · exact i2 x hx
  cases l with
  | nil => cases h
  | cons y l =>
    injection h with h
    subst h
    intro x hx
    rcases List.mem_cons.1 hx with rfl | hx
    · exact (key l x).1
    · exact (key l y).2 x hx

theorem length_cell (widths coord : List Nat) (h : List.Forall₂ (fun c w => (PyStr.natStr c).length ≤ w) coord widths) (w p : Nat)
    (hp : (PyStr.natStr p).length ≤ w) :
    (coordStr widths coord ++ processStr w p).length = (join [',', ' '] (widths.map fun w => List.replicate w ' ')).length + w + 4 := by
  have e : (List.zipWith (fun c w => rjust w c) coord widths).map List.length = (widths.map fun w => List.replicate w ' ').map List.length := by
    induction h with
    | nil => rfl
    | cons h h' ih =>
      simp only [List.zipWith_cons_cons, List.map_cons, ih, length_rjust _ _ h, List.length_replicate]
  unfold coordStr processStr
  have := length_join [',', ' '] _ _ e
  simp only [List.length_append, List.length_cons, List.length_nil, this, length_rjust _ _ hp]
  omega

theorem forall₂_left {α β : Type} {R : α → β → Prop} (l : List α) (l' : List β) (h : List.Forall₂ R l l') : ∀ x ∈ l, ∃ y ∈ l', R x y := by
  induction h with
  | nil => simp
  | cons hh _ ih =>
    intro x hx
    rcases List.mem_cons.1 hx with rfl | hx
    · exact ⟨_, by simp, hh⟩
    · obtain ⟨c, k1, k2⟩ := ih x hx
      exact ⟨c, by simp [k1], k2⟩

theorem fit_all (coord m : List Nat) (h : List.Forall₂ (· ≤ ·) coord m) (widths : List Nat)
    (hw : List.Forall₂ (fun a b => ndig (a + 1) = .ok b) m widths) : List.Forall₂ (fun c w => (PyStr.natStr c).length ≤ w) coord widths := by
  induction h generalizing widths with
  | nil => cases hw; exact .nil
  | cons hcm _ ih =>
    cases hw with
    | cons hh hw =>
      refine .cons ?_ (ih _ hw)
      unfold ndig at hh
      rw [if_neg (by omega)] at hh
      injection hh with hh
      rw [← hh]
      exact fits _ _ hcm

/-- What `log_logical_mesh` computes before it writes the table. -/
theorem cells (localCount : Nat) (mesh : NdArray Device) (lines : List (List Char)) (h : logLogicalMesh localCount mesh = .ok lines)
    (rows : List (List (List Nat))) (hr : rowIndices mesh.shape = some rows) (hv : ∀ r ∈ rows, ∀ idx ∈ r, NdArray.Valid mesh.shape idx) :
    ∃ (cell : List Nat → List Char) (n : Nat), lines = table (rows.map (row cell)) ∧
      ∀ r ∈ rows, ∀ idx ∈ r, (cell idx).length = n ∧ ∃ coord, getDeviceCoords localCount (mesh.get idx) = .ok coord ∧
        ∀ rest, readNumbers none (cell idx ++ rest) = coord ++ [(mesh.get idx).process] ++ readNumbers none rest := by
  unfold logLogicalMesh at h
  obtain ⟨coords, h1, h⟩ := ebind h
  obtain ⟨m, h2, h⟩ := ebind h
  obtain ⟨widths, h3, h⟩ := ebind h
  obtain ⟨mp, h4, h⟩ := ebind h
  obtain ⟨w, h5, h⟩ := ebind h
  simp only [hr] at h
  injection h with h
  refine ⟨_, (join [',', ' '] (widths.map fun w => List.replicate w ' ')).length + w + 4, h.symm, ?_⟩
  intro r hrm idx hidx
  have hmem : mesh.get idx ∈ (allIndices mesh.shape).map mesh.get := List.mem_map_of_mem (mem_allIndices.2 (hv r hrm idx hidx))
  obtain ⟨coord, hc1, hc2⟩ : ∃ coord ∈ coords, getDeviceCoords localCount (mesh.get idx) = .ok coord := by
    exact forall₂_left _ _ (Mapping.mapM_forall₂ h1) _ hmem
  have hle := colMax_le coords m h2 coord hc1
  have hw := Mapping.mapM_forall₂ h3
  have hfit : List.Forall₂ (fun c w => (PyStr.natStr c).length ≤ w) coord widths :=
    fit_all _ _ hle _ hw
  have hp : (PyStr.natStr (mesh.get idx).process).length ≤ w := by
    unfold ndig at h5
    rw [if_neg (by omega)] at h5
    injection h5 with h5
    rw [← h5]
    exact fits _ _ (rowMax_le _ _ h4 _ (List.mem_map_of_mem hmem))
  simp only [hc2, Except.toOption, Option.getD_some]
  exact ⟨length_cell widths coord hfit w _ hp, coord, rfl, fun rest => read_cell widths coord hfit.length_eq w _ rest⟩

/-! ### The property -/

/-- The table is a box: below its title, all lines have the same length, the first and the last are the border, and there is one line per row
of the mesh.  Line `i` shows the devices of row `i`, in order: the numbers in it are the coordinates of each device followed by its process. -/
theorem C110_table (localCount : Nat) (mesh : NdArray Device) (lines : List (List Char)) (h : logLogicalMesh localCount mesh = .ok lines)
    (r : Nat) (tail : List Nat) (hs : mesh.shape = r :: tail) (ht : tail.length ≤ 1) :
    ∃ (rows : List (List Char)) (n : Nat), lines = "Logical device mesh:".toList :: border n :: rows ++ [border n] ∧ rows.length = r ∧
      (∀ l ∈ rows, l.length = (border n).length) ∧
      ∀ i (hi : i < rows.length), ∃ coords, (rowDevices mesh i).mapM (getDeviceCoords localCount) = .ok coords ∧
        readNumbers none rows[i] = (List.zipWith (fun c d => c ++ [Device.process d]) coords (rowDevices mesh i)).flatten := by
  -- the rows as lists of indices of equal length
  obtain ⟨rows, k, hr, hlen, hk, hdev, hval⟩ : ∃ (rows : List (List (List Nat))) (k : Nat), rowIndices mesh.shape = some rows ∧ rows.length = r ∧
      (∀ x ∈ rows, x.length = k) ∧ (∀ i (hi : i < rows.length), rows[i].map mesh.get = rowDevices mesh i) ∧
      ∀ x ∈ rows, ∀ idx ∈ x, NdArray.Valid mesh.shape idx := by
    unfold rowDevices
    rw [hs]
    match tail, ht with
    | [], _ =>
      refine ⟨(List.range r).map fun i => [[i]], 1, rfl, by simp, ?_, ?_, ?_⟩
      · intro x hx
        obtain ⟨i, _, rfl⟩ := List.mem_map.1 hx
        rfl
      · intro i hi
        simp
      · intro x hx idx hidx
        obtain ⟨i, hi, rfl⟩ := List.mem_map.1 hx
        rw [List.mem_singleton] at hidx
        subst hidx
        exact .cons (List.mem_range.1 hi) .nil
    | [c], _ =>
      refine ⟨(List.range r).map fun i => (List.range c).map fun j => [i, j], c, rfl, by simp, ?_, ?_, ?_⟩
      · intro x hx
        obtain ⟨i, _, rfl⟩ := List.mem_map.1 hx
        simp
      · intro i hi
        simp
      · intro x hx idx hidx
        obtain ⟨i, hi, rfl⟩ := List.mem_map.1 hx
        obtain ⟨j, hj, rfl⟩ := List.mem_map.1 hidx
        exact .cons (List.mem_range.1 hi) (.cons (List.mem_range.1 hj) .nil)
  obtain ⟨cell, n, hlines, hcell⟩ := cells localCount mesh lines h rows hr hval
  have hrow : ∀ x ∈ rows, (row cell x).length = (join [' '] (List.replicate k (List.replicate n ' '))).length := by
    intro x hx
    unfold row
    apply length_join
    rw [List.map_map, List.map_replicate, List.length_replicate, ← hk x hx]
    rw [List.eq_replicate_iff]
    refine ⟨by simp, ?_⟩
    intro b hb
    obtain ⟨idx, hidx, rfl⟩ := List.mem_map.1 hb
    exact (hcell x hx idx hidx).1
  refine ⟨(rows.map (row cell)).map fun r => ['|', ' '] ++ r ++ [' ', '|'], ((rows.map (row cell)).headD []).length, hlines, by simpa using hlen, ?_, ?_⟩
  · intro l hl
    obtain ⟨r', hr', rfl⟩ := List.mem_map.1 hl
    obtain ⟨x, hx, rfl⟩ := List.mem_map.1 hr'
    have hhead : ((rows.map (row cell)).headD []).length = (row cell x).length := by
      cases rows with
      | nil => cases hx
      | cons y rows =>
        change (row cell y).length = _
        rw [hrow y (by simp), hrow x hx]
    rw [hhead]
    unfold border
    simp
  · intro i hi
    have hi' : i < rows.length := by simpa using hi
    simp only [List.getElem_map]
    have hx := List.getElem_mem hi'
    rw [← hdev i hi']
    generalize rows[i] = x at hx ⊢
    have hc := hcell x hx
    have e : ['|', ' '] ++ row cell x ++ [' ', '|'] = ['|', ' '] ++ (row cell x ++ [' ', '|']) := List.append_assoc _ _ _
    rw [e, read_skip ['|', ' '] _ (by decide),
      read_row cell (fun idx => (getDeviceCoords localCount (mesh.get idx)).toOption.getD [] ++ [(mesh.get idx).process]) x (by
        intro idx hidx rest
        obtain ⟨_, coord, h1, h2⟩ := hc idx hidx
        rw [h2 rest, h1]
        rfl)]
    have e2 : readNumbers none [' ', '|'] = [] := rfl
    rw [e2, List.append_nil]
    clear e hx
    induction x with
    | nil => exact ⟨[], rfl, rfl⟩
    | cons idx x ih =>
      obtain ⟨cs, i1, i2⟩ := ih fun idx hidx => hc idx (by simp [hidx])
      obtain ⟨_, coord, h1, _⟩ := hc idx (by simp)
      refine ⟨coord :: cs, ?_, ?_⟩
      · rw [List.map_cons, List.mapM_cons, h1]
        change ((x.map mesh.get).mapM (getDeviceCoords localCount) >>= _ : Except PyErr _) = _
        rw [i1]
        rfl
      · rw [List.map_cons, List.flatten_cons, i2, h1]
        rfl

/-- The table can be written for every mesh with devices, if all devices have coordinates, and equally many. -/
theorem C110_total (localCount : Nat) (mesh : NdArray Device) (hne : ∃ idx, NdArray.Valid mesh.shape idx) (k : Nat)
    (hc : ∀ idx, NdArray.Valid mesh.shape idx → ∃ c, getDeviceCoords localCount (mesh.get idx) = .ok c ∧ c.length = k) :
    ∃ lines, logLogicalMesh localCount mesh = .ok lines := by
  obtain ⟨coords, h1, h2, h3⟩ := InitVmoe.mapM_exists (getDeviceCoords localCount) ((allIndices mesh.shape).map mesh.get) (by
    intro d hd
    obtain ⟨idx, hidx, rfl⟩ := List.mem_map.1 hd
    obtain ⟨c, h, _⟩ := hc idx (mem_allIndices.1 hidx)
    exact ⟨c, h⟩)
  have hlen : ∀ c ∈ coords, c.length = k := by
    intro c hcm
    obtain ⟨d, hd, e⟩ := h2 c hcm
    obtain ⟨idx, hidx, rfl⟩ := List.mem_map.1 hd
    obtain ⟨c', h, hl⟩ := hc idx (mem_allIndices.1 hidx)
    rw [h] at e
    injection e with e
    rw [← e, hl]
  have hne' : coords ≠ [] := by
    obtain ⟨idx, hidx⟩ := hne
    obtain ⟨b, hb, _⟩ := h3 (mesh.get idx) (List.mem_map_of_mem (mem_allIndices.2 hidx))
    exact List.ne_nil_of_mem hb
  obtain ⟨m, hm⟩ : ∃ m, colMax coords = .ok m := by
    cases coords with
    | nil => exact absurd rfl hne'
    | cons c cs =>
      unfold colMax
      simp only
      rw [if_pos]
      · exact ⟨_, rfl⟩
      · rw [List.all_eq_true]
        intro x hx
        rw [beq_iff_eq, hlen x (by simp [hx]), hlen c (by simp)]
  obtain ⟨ws, hw, _⟩ := InitVmoe.mapM_exists (fun mc => ndig (mc + 1)) m fun a _ => ⟨Nat.log 10 (a + 1) + 1, if_neg (by omega)⟩
  obtain ⟨mp, hp⟩ : ∃ mp, rowMax (((allIndices mesh.shape).map mesh.get).map Device.process) = .ok mp := by
    obtain ⟨idx, hidx⟩ := hne
    cases hl : ((allIndices mesh.shape).map mesh.get).map Device.process with
    | nil =>
      have := List.mem_map_of_mem (f := Device.process) (List.mem_map_of_mem (f := mesh.get) (mem_allIndices.2 hidx))
      rw [hl] at this
      cases this
    | cons x l => exact ⟨_, rfl⟩
  have hq : ndig (mp + 1) = .ok (Nat.log 10 (mp + 1) + 1) := if_neg (by omega)
  unfold logLogicalMesh
  simp only [h1, hm, hw, hp, hq, bind, Except.bind]
  cases rowIndices mesh.shape with
  | none => exact ⟨_, rfl⟩
  | some rows => exact ⟨_, rfl⟩

/-- A TPU without the attributes is refused, and so is a mesh without devices; there is no table for a mesh with three axes or more. -/
theorem C110_errors (localCount : Nat) :
    (∀ d : Device, d.tpu = true → (d.core = none ∨ d.coords = none) → getDeviceCoords localCount d = .error .assertionError) ∧
    (∀ mesh : NdArray Device, (∀ idx, ¬ NdArray.Valid mesh.shape idx) → logLogicalMesh localCount mesh = .error .valueError) ∧
    ∀ (mesh : NdArray Device) (lines : List (List Char)), 3 ≤ mesh.shape.length → logLogicalMesh localCount mesh = .ok lines → lines = [] := by
  refine ⟨?_, ?_, ?_⟩
  · intro d hd h
    unfold getDeviceCoords getDeviceCoordsTpu
    rw [if_pos hd, if_pos hd]
    rcases h with h | h
    · rw [h]
    · rw [h]
      cases d.core <;> rfl
  · intro mesh hm
    have : allIndices mesh.shape = [] := by
      rw [List.eq_nil_iff_forall_not_mem]
      exact fun idx h => hm idx (mem_allIndices.1 h)
    unfold logLogicalMesh
    rw [this]
    rfl
  · intro mesh lines hl h
    unfold logLogicalMesh at h
    obtain ⟨_, _, h⟩ := ebind h
    obtain ⟨_, _, h⟩ := ebind h
    obtain ⟨_, _, h⟩ := ebind h
    obtain ⟨_, _, h⟩ := ebind h
    obtain ⟨_, _, h⟩ := ebind h
    have : rowIndices mesh.shape = none := by
      match hsh : mesh.shape with
      | [] => rw [hsh] at hl; simp at hl
      | [_] => rw [hsh] at hl; simp at hl
      | [_, _] => rw [hsh] at hl; simp at hl
      | _ :: _ :: _ :: _ => rfl
    simp only [this] at h
    injection h with h
    exact h.symm

/-- Two processes with twelve GPUs each. -/
def gpus : NdArray Device := { shape := [12, 2], get := fun idx => ⟨false, 12 * idx.getD 1 0 + idx.getD 0 0, idx.getD 1 0, none, none⟩ }

/-- Its hypotheses. -/
example : (∃ idx, NdArray.Valid gpus.shape idx) ∧
    (∀ idx, NdArray.Valid gpus.shape idx → ∃ c, getDeviceCoords 12 (gpus.get idx) = .ok c ∧ c.length = 2) ∧
    ∃ tail, gpus.shape = 12 :: tail ∧ tail.length ≤ 1 :=
  ⟨⟨[0, 0], .cons (by decide) (.cons (by decide) .nil)⟩, fun _ _ => ⟨_, rfl, rfl⟩, [2], rfl, by decide⟩

/-- The second line of its table. -/
example : row (fun idx => coordStr [2, 1] ((getDeviceCoords 12 (gpus.get idx)).toOption.getD []) ++ processStr 1 (gpus.get idx).process) [[1, 0], [1, 1]] =
    "( 1, 0)[0] ( 1, 1)[1]".toList ∧ readNumbers none "| ( 1, 0)[0] ( 1, 1)[1] |".toList = [1, 0, 0, 1, 1, 1] := by
  decide +kernel

end Verif.MeshLog
