import Verif.Model.InitRules
import Verif.Spec.Arrays
import Verif.Proofs.Summarizer
import Verif.Proofs.Partitioning

namespace Verif.InitRules

open Verif ArraySpec NdArray
open _root_.Verif.Summarizer (resolveAxis resolveAxis_iff)

variable {α : Type}

theorem resolveAxis_axisIs {n : Nat} {a : Int} {i : Nat} : resolveAxis n a = .ok i ↔ AxisIs n a i := by
  unfold resolveAxis AxisIs
  constructor
  · intro h
    split at h
    · cases h; omega
    · split at h
      · cases h; omega
      · cases h
  · intro h
    split
    · congr 1; omega
    · split
      · congr 1; omega
      · omega

theorem indices_eq (shape : List Nat) : indices shape = (List.range shape.prod).map (unflatIndex shape) := by
  induction shape with
  | nil => rfl
  | cons d ds ih =>
    have key : ∀ d, List.range (d * ds.prod) =
        (List.range d).flatMap fun i => (List.range ds.prod).map (i * ds.prod + ·) := by
      intro d
      induction d with
      | zero => simp
      | succ d ihd =>
        rw [Nat.succ_mul, List.range_add, ihd, List.range_succ, List.flatMap_append]
        simp
    simp only [indices, List.prod_cons]
    rw [key, List.map_flatMap, ih]
    congr 1
    funext i
    simp only [List.map_map]
    apply List.map_congr_left
    intro n hn
    have hn := List.mem_range.1 hn
    simp only [Function.comp, unflatIndex]
    rw [Nat.mul_comm i, Nat.mul_add_div (by omega), Nat.div_eq_of_lt hn, Nat.mul_add_mod, Nat.mod_eq_of_lt hn,
      Nat.add_zero]

theorem mem_indices {shape idx : List Nat} : idx ∈ indices shape ↔ Valid shape idx := by
  rw [indices_eq]
  constructor
  · rintro h
    obtain ⟨n, hn, rfl⟩ := List.mem_map.1 h
    exact valid_unflat (List.mem_range.1 hn)
  · intro h
    exact List.mem_map.2 ⟨_, List.mem_range.2 (flatIndex_lt h), unflat_flat h⟩

theorem entries_reshape {x y : NdArray α} {dims : List (Option Nat)} (h : x.reshape dims = .ok y) :
    entries y = entries x := by
  unfold NdArray.reshape at h
  cases hr : resolveShape x.shape.prod dims with
  | error e => rw [hr] at h; cases h
  | ok s =>
    have hp : s.prod = x.shape.prod := by
      have := hr
      unfold resolveShape at this
      have hk : ∀ v, (dims.map (fun d => d.getD v)).prod = knownProd dims * v ^ (dims.count none) := by
        intro v
        unfold knownProd
        clear * -
        induction dims with
        | nil => simp
        | cons d ds ih =>
          cases d with
          | none => simp [ih, pow_succ]; ring
          | some k => simp [ih]; ring
      split at this
      · rename_i h0
        split at this
        · rename_i hh
          cases this
          rw [hk, h0]; simpa using hh
        · cases this
      · rename_i h1
        split at this
        · cases this
        · split at this
          · rename_i hh
            cases this
            rw [hk, h1, pow_one]
            exact Nat.mul_div_cancel' (Nat.dvd_of_mod_eq_zero hh)
          · cases this
      · cases this
    rw [hr] at h
    cases h
    unfold entries
    simp only
    rw [indices_eq, indices_eq, hp, List.map_map, List.map_map]
    apply List.map_congr_left
    intro n hn
    have hn := List.mem_range.1 hn
    simp only [Function.comp]
    rw [flat_unflat (by omega)]

theorem dropAxes_eq (axes : List Nat) (i : Nat) (l : List Nat) :
    dropAxes axes i l = ((l.zipIdx i).filter fun p => ¬ p.2 ∈ axes).map Prod.fst := by
  induction l generalizing i with
  | nil => rfl
  | cons d ds ih =>
    unfold dropAxes
    by_cases h : i ∈ axes
    · simp only [h, if_true, List.zipIdx_cons]
      rw [ih]; simp [h]
    · simp only [h, if_false, List.zipIdx_cons]
      rw [ih]; simp [h]

theorem without_congr {P Q : Nat → Prop} [DecidablePred P] [DecidablePred Q] (l : List Nat)
    (h : ∀ i < l.length, P i ↔ Q i) : without P l = without Q l := by
  unfold without
  congr 1
  apply List.filter_congr
  intro p hp
  have := List.mem_zipIdx hp
  simp [h p.2 (by omega)]

theorem dropAxes_congr (axes : List Nat) (i : Nat) (A B : List Nat) (hl : A.length = B.length)
    (h : ∀ p, p < A.length → i + p ∉ axes → A.getD p 0 = B.getD p 0) : dropAxes axes i A = dropAxes axes i B := by
  induction A generalizing i B with
  | nil =>
    cases B with
    | nil => rfl
    | cons _ _ => simp at hl
  | cons a A ih =>
    cases B with
    | nil => simp at hl
    | cons b B =>
      have hrec := ih (i + 1) B (by simpa using hl) (fun p hp hi => by
        have := h (p + 1) (by simpa using hp) (by rwa [show i + (p + 1) = i + 1 + p by omega])
        simpa using this)
      unfold dropAxes
      by_cases hi : i ∈ axes
      · simp only [hi, if_true]; exact hrec
      · simp only [hi, if_false]
        have := h 0 (by simp) (by simpa using hi)
        simp at this
        rw [hrec, this]

theorem dropAxes_forall₂ {R : Nat → Nat → Prop} (axes : List Nat) (i : Nat) (A B : List Nat) (h : List.Forall₂ R A B) :
    List.Forall₂ R (dropAxes axes i A) (dropAxes axes i B) := by
  induction h generalizing i with
  | nil => exact .nil
  | cons hr _ ih =>
    unfold dropAxes
    by_cases hi : i ∈ axes
    · simp only [hi, if_true]; exact ih _
    · simp only [hi, if_false]; exact .cons hr (ih _)

theorem insertOnes_spec (axes : List Nat) (n i : Nat) (shape : List Nat)
    (h : ((List.range' i n).filter (fun j => j ∉ axes)).length = shape.length) :
    (insertOnes axes n i shape).length = n ∧ dropAxes axes i (insertOnes axes n i shape) = shape ∧
    ∀ p < n, i + p ∈ axes → (insertOnes axes n i shape).getD p 0 = 1 := by
  induction n generalizing i shape with
  | zero =>
    simp [insertOnes, dropAxes] at h ⊢
    exact List.length_eq_zero_iff.1 h.symm
  | succ n ih =>
    rw [List.range'_succ] at h
    unfold insertOnes
    by_cases hi : i ∈ axes
    · rw [List.filter_cons_of_neg (by simpa using hi)] at h
      obtain ⟨h1, h2, h3⟩ := ih (i + 1) shape h
      simp only [hi, if_true]
      refine ⟨by simp [h1], ?_, ?_⟩
      · simp only [dropAxes, hi, if_true]; exact h2
      · intro p hp hpi
        cases p with
        | zero => simp
        | succ p =>
          have := h3 p (by omega) (by rwa [show i + 1 + p = i + (p + 1) by omega])
          simpa using this
    · rw [List.filter_cons_of_pos (by simpa using hi)] at h
      cases shape with
      | nil => simp at h
      | cons d ds =>
        obtain ⟨h1, h2, h3⟩ := ih (i + 1) ds (by simpa using h)
        simp only [hi, if_false]
        refine ⟨by simp [h1], ?_, ?_⟩
        · simp only [dropAxes, hi, if_false]; rw [h2]
        · intro p hp hpi
          cases p with
          | zero => exact absurd (by simpa using hpi) hi
          | succ p =>
            have := h3 p (by omega) (by rwa [show i + 1 + p = i + (p + 1) by omega])
            simpa using this

theorem count_free (axes : List Nat) (n k : Nat) (hn : axes.Nodup) (hlt : ∀ a ∈ axes, a < n)
    (hk : n = k + axes.length) : ((List.range' 0 n).filter (fun j => j ∉ axes)).length = k := by
  have h1 : ((List.range n).filter (fun j => j ∈ axes)).length = axes.length := by
    apply List.Perm.length_eq
    rw [List.perm_ext_iff_of_nodup (List.nodup_range.filter _) hn]
    intro a
    simp only [List.mem_filter, List.mem_range, decide_eq_true_eq]
    exact ⟨fun h => h.2, fun h => ⟨hlt a h, h⟩⟩
  have h2 := List.length_eq_length_filter_add (l := List.range n) (fun j => decide (j ∈ axes))
  rw [List.length_range, h1] at h2
  rw [← List.range_eq_range']
  have : (List.range n).filter (fun j => decide (j ∉ axes)) = (List.range n).filter (fun j => !decide (j ∈ axes)) := by
    congr 1; funext j; simp
  rw [this]
  omega

theorem resolveAxis_getD {n : Nat} {axes : List Int} {l : List Nat} (h : axes.mapM (resolveAxis n) = .ok l) :
    List.Forall₂ (AxisIs n) axes l := by
  induction axes generalizing l with
  | nil => cases h; exact .nil
  | cons a axes ih =>
    rw [List.mapM_cons] at h
    obtain ⟨b, hb, h⟩ := ebind h
    obtain ⟨bs, hbs, h⟩ := ebind h
    cases h
    exact .cons (resolveAxis_axisIs.1 hb) (ih hbs)

theorem resolve_of_forall₂ {n : Nat} {axes : List Int} {l : List Nat} (h : List.Forall₂ (AxisIs n) axes l) :
    axes.mapM (resolveAxis n) = .ok l := by
  induction h with
  | nil => rfl
  | cons hb _ ih =>
    rw [List.mapM_cons, resolveAxis_axisIs.2 hb]
    change (List.mapM (resolveAxis n) _ >>= _) = _
    rw [ih]
    rfl

theorem mem_resolved {n : Nat} {axes : List Int} {l : List Nat} (h : List.Forall₂ (AxisIs n) axes l) (i : Nat) :
    i ∈ l ↔ IsAxis n axes i := by
  induction h with
  | nil => simp [IsAxis]
  | @cons a b axes l hb _ ih =>
    rw [List.mem_cons, ih]
    unfold IsAxis at *
    constructor
    · rintro (rfl | ⟨a', ha', h'⟩)
      · exact ⟨a, by simp, hb⟩
      · exact ⟨a', by simp [ha'], h'⟩
    · rintro ⟨a', ha', h'⟩
      rcases List.mem_cons.1 ha' with rfl | ha'
      · left
        unfold AxisIs at hb h'
        omega
      · exact .inr ⟨a', ha', h'⟩

theorem makeRepsLoop_ok (n : Nat) {axes : List Int} {l : List Nat} (h : List.Forall₂ (AxisIs n) axes l) (hn : l.Nodup)
    (out reps out' : List Nat) (ho : out.length = n) (e : makeRepsLoop out axes reps = .ok out') :
    out'.length = n ∧ (∀ p, p ∉ l → out'.getD p 0 = out.getD p 0) ∧ reps.length = axes.length ∧
    List.Forall₂ (fun i r => out'.getD i 0 = r) l reps := by
  induction h generalizing out reps with
  | nil =>
    cases reps with
    | nil => cases e; exact ⟨ho, fun _ _ => rfl, rfl, .nil⟩
    | cons _ _ => cases e
  | @cons a b axes l hb hl ih =>
    cases reps with
    | nil => cases e
    | cons r reps =>
      unfold makeRepsLoop at e
      obtain ⟨o1, e1, e2⟩ := ebind e
      unfold setItem at e1
      rw [ho, resolveAxis_axisIs.2 hb] at e1
      cases e1
      obtain ⟨i1, i2, i3, i4⟩ := ih (List.nodup_cons.1 hn).2 (out.set b r) reps (by simpa using ho) e2
      refine ⟨i1, ?_, by simp [i3], .cons ?_ i4⟩
      · intro p hp
        rw [List.mem_cons, not_or] at hp
        rw [i2 p hp.2]
        simp [List.getD_eq_getElem?_getD, Ne.symm hp.1]
      · rw [i2 b (List.nodup_cons.1 hn).1]
        simp [List.getD_eq_getElem?_getD, ho, hb.1]

theorem makeRepsLoop_total (n : Nat) {axes : List Int} {l : List Nat} (h : List.Forall₂ (AxisIs n) axes l)
    (out reps : List Nat) (ho : out.length = n) (hr : reps.length = axes.length) :
    ∃ out', makeRepsLoop out axes reps = .ok out' := by
  induction h generalizing out reps with
  | nil => cases reps with
    | nil => exact ⟨_, rfl⟩
    | cons _ _ => simp at hr
  | @cons a b axes l hb hl ih =>
    cases reps with
    | nil => simp at hr
    | cons r reps =>
      obtain ⟨o, h'⟩ := ih (out.set b r) reps (by simpa using ho) (by simpa using hr)
      refine ⟨o, ?_⟩
      unfold makeRepsLoop setItem
      rw [ho, resolveAxis_axisIs.2 hb]
      exact h'

theorem getD_zipWith (f : Nat → Nat → Nat) (A B : List Nat) (p : Nat) (h : p < A.length) (h' : p < B.length) :
    (List.zipWith f A B).getD p 0 = f (A.getD p 0) (B.getD p 0) := by
  simp [List.getD_eq_getElem?_getD, h, h']

theorem expandTile_spec {x y : NdArray α} {axes : List Int} {reps : List Nat} (h : expandTile x axes reps = .ok y) :
    ∃ l, List.Forall₂ (AxisIs (x.shape.length + axes.length)) axes l ∧ l.Nodup ∧ reps.length = axes.length ∧
      y.shape.length = x.shape.length + axes.length ∧
      dropAxes l 0 y.shape = x.shape ∧
      List.Forall₂ (fun i r => y.shape.getD i 0 = r) l reps ∧
      ∀ idx, Valid y.shape idx → y.get idx = x.get (dropAxes l 0 idx) ∧ Valid x.shape (dropAxes l 0 idx) := by
  unfold expandTile expandDims at h
  obtain ⟨z, hz, h⟩ := ebind h
  obtain ⟨l, hl, hz⟩ := ebind hz
  obtain ⟨r, hr, h⟩ := ebind h
  cases h
  have hl := resolveAxis_getD hl
  split at hz
  case isFalse => cases hz
  case isTrue hn =>
  cases hz
  set n := x.shape.length + axes.length with hnd
  have hlen : l.length = axes.length := hl.length_eq.symm
  have hlt : ∀ a ∈ l, a < n := by
    intro a ha
    obtain ⟨b, _, hb⟩ := (mem_resolved hl a).1 ha
    exact hb.1
  obtain ⟨s1, s2, s3⟩ := insertOnes_spec l n 0 x.shape (count_free l n x.shape.length hn hlt (by omega))
  simp only [Nat.zero_add] at s3
  unfold makeReps at hr
  simp only [s1] at hr
  obtain ⟨r1, r2, r3, r4⟩ := makeRepsLoop_ok n hl hn _ _ _ (by simp) hr
  set S := insertOnes l n 0 x.shape
  have hget : ∀ p < n, (List.zipWith (· * ·) r S).getD p 0 = r.getD p 0 * S.getD p 0 :=
    fun p hp => getD_zipWith _ _ _ _ (by omega) (by omega)
  have hone : ∀ p < n, p ∉ l → r.getD p 0 = 1 := by
    intro p hp hpl
    rw [r2 p hpl]
    simp [List.getD_eq_getElem?_getD, hp]
  have hdrop : dropAxes l 0 (List.zipWith (· * ·) r S) = x.shape := by
    rw [dropAxes_congr l 0 _ S (by simp [r1, s1]) ?_, s2]
    intro p hp hpl
    have hp : p < n := by simpa [r1, s1] using hp
    rw [hget p hp, hone p hp (by simpa using hpl), Nat.one_mul]
  refine ⟨l, hl, hn, r3, by simp [tile, r1, s1], hdrop, ?_, ?_⟩
  · have hb : ∀ i ∈ l, (tile ⟨S, fun idx => x.get (dropAxes l 0 idx)⟩ r).shape.getD i 0 = r.getD i 0 := by
      intro i hi
      change (List.zipWith (· * ·) r S).getD i 0 = _
      rw [hget i (hlt i hi), s3 i (hlt i hi) hi, Nat.mul_one]
    generalize (tile ⟨S, fun idx => x.get (dropAxes l 0 idx)⟩ r).shape = sh at hb ⊢
    clear * - r4 hb
    induction r4 with
    | nil => exact .nil
    | cons h1 _ ih =>
      exact .cons ((hb _ (by simp)).trans h1) (ih (fun i hi => hb i (by simp [hi])))
  · intro idx hv
    have hv' := dropAxes_forall₂ l 0 _ _ hv
    change Valid (dropAxes l 0 (List.zipWith (· * ·) r S)) _ at hv'
    rw [hdrop] at hv'
    refine ⟨?_, hv'⟩
    change x.get (dropAxes l 0 (List.zipWith (· % ·) idx S)) = _
    have hil : idx.length = n := by
      have := hv.length
      simpa [tile, r1, s1] using this
    congr 1
    apply dropAxes_congr _ _ _ _ (by simp [hil, s1])
    intro p hp hpl
    have hp : p < n := by simpa [hil, s1] using hp
    rw [getD_zipWith _ _ _ _ (by omega) (by omega)]
    apply Nat.mod_eq_of_lt
    have h3 := (Partitioning.valid_iff.1 hv).2 p (by simpa [tile, r1, s1] using hp)
    change idx.getD p 0 < (List.zipWith (· * ·) r S).getD p 0 at h3
    rwa [hget p hp, hone p hp (by simpa using hpl), Nat.one_mul] at h3

theorem expandTile_total {x : NdArray α} {axes : List Int} {reps : List Nat} {l : List Nat}
    (hl : List.Forall₂ (AxisIs (x.shape.length + axes.length)) axes l) (hn : l.Nodup) (hr : reps.length = axes.length) :
    ∃ y, expandTile x axes reps = .ok y := by
  have hlt : ∀ a ∈ l, a < x.shape.length + axes.length := by
    intro a ha
    obtain ⟨b, _, hb⟩ := (mem_resolved hl a).1 ha
    exact hb.1
  obtain ⟨s1, s2, s3⟩ := insertOnes_spec l (x.shape.length + axes.length) 0 x.shape
    (count_free l _ x.shape.length hn hlt (by have := hl.length_eq; omega))
  obtain ⟨o, ho⟩ := makeRepsLoop_total _ hl (List.replicate (x.shape.length + axes.length) 1) reps (by simp) hr
  refine ⟨tile ⟨insertOnes l (x.shape.length + axes.length) 0 x.shape, fun idx => x.get (dropAxes l 0 idx)⟩ o, ?_⟩
  unfold expandTile expandDims
  simp only []
  rw [resolve_of_forall₂ hl]
  change ((if l.Nodup then _ else _) >>= _ : Except PyErr _) = _
  rw [if_pos hn]
  change (makeReps axes reps (insertOnes l (x.shape.length + axes.length) 0 x.shape).length >>= _ : Except PyErr _) = _
  rw [s1]
  unfold makeReps
  rw [ho]
  rfl

end Verif.InitRules

namespace Verif.InitRules

open Verif ArraySpec NdArray

variable {α : Type}

theorem forall₂_insertIdx {R : Nat → Nat → Prop} {A B : List Nat} {x y : Nat} (a : Nat) (h : List.Forall₂ R A B) (hr : R x y) :
    List.Forall₂ R (A.insertIdx a x) (B.insertIdx a y) := by
  induction h generalizing a with
  | nil =>
    cases a with
    | zero => simpa using hr
    | succ a => simp
  | cons hx hxs ih =>
    cases a with
    | zero => simpa using ⟨hr, hx, hxs⟩
    | succ a => simpa using ⟨hx, ih a⟩

/-- One if there is a class token. -/
def offset (b : Bool) : Nat := if b then 1 else 0

theorem tokAndGrid_ok {sqrt : Nat → Nat} (hs : ∀ n ≤ 2 ^ 52, sqrt n = Nat.sqrt n) {n h : Nat} (hn : n ≤ 2 ^ 52)
    {b : Bool} {g : List Nat} (e : tokAndGrid sqrt n h = .ok (b, g)) :
    ∃ k, g = [1, k, k, h] ∧ n = k ^ 2 + offset b ∧ (b = true ↔ ¬ ∃ k, n = k ^ 2) := by
  unfold tokAndGrid at e
  simp only [hs n hn] at e
  split at e
  · cases e
  · rename_i hc
    split at e
    · rename_i h2
      cases e
      exact ⟨n.sqrt, rfl, by simp [offset, h2], by simp; exact ⟨_, h2.symm⟩⟩
    · rename_i h2
      cases e
      refine ⟨n.sqrt, rfl, ?_, ?_⟩
      · simp only [offset, if_true]; by_contra h3; exact hc ⟨fun h => h2 h.symm, h3⟩
      · simp only [true_iff]
        rintro ⟨k, hk⟩
        apply h2
        rw [hk, Nat.sqrt_eq']

theorem sqrt_cases {n k : Nat} (h : n = k ^ 2 ∨ n = k ^ 2 + 1) :
    n = (Nat.sqrt n) ^ 2 ∨ n = (Nat.sqrt n) ^ 2 + 1 := by
  rcases h with h | h
  · left; rw [h, Nat.pow_two, Nat.sqrt_eq, Nat.pow_two]
  · rcases Nat.eq_zero_or_pos k with rfl | hk
    · left; subst h; rfl
    · right
      have : Nat.sqrt n = k := by
        rw [h, Nat.pow_two, Nat.sqrt_add_eq]
        omega
      rw [this]; exact h

theorem tokAndGrid_total {sqrt : Nat → Nat} (hs : ∀ n ≤ 2 ^ 52, sqrt n = Nat.sqrt n) {n h : Nat} (hn : n ≤ 2 ^ 52)
    (hk : ∃ k, n = k ^ 2 ∨ n = k ^ 2 + 1) : ∃ r, tokAndGrid sqrt n h = .ok r := by
  obtain ⟨k, hk⟩ := hk
  unfold tokAndGrid
  simp only [hs n hn]
  rw [if_neg (by
    have := sqrt_cases hk
    omega)]
  split
  · exact ⟨_, rfl⟩
  · exact ⟨_, rfl⟩

theorem reshape_eq {x y : NdArray α} {dims : List (Option Nat)} (h : reshape x dims = .ok y) : x.reshape dims = .ok y := by
  unfold reshape at h
  split at h
  · rename_i h'; cases h; exact h'
  · cases h

theorem reshape_of {x y : NdArray α} {dims : List (Option Nat)} (h : x.reshape dims = .ok y) : reshape x dims = .ok y := by
  unfold reshape
  rw [h]

/-- The source's embeddings on the grid. -/
theorem source_grid {source : NdArray α} {n k h : Nat} {b : Bool} (hsh : source.shape = [1, n, h])
    (hn : n = k ^ 2 + offset b) :
    ∃ G, reshape (if b then tokens source 1 n else source) ([1, k, k, h].map some) = .ok G ∧ G.shape = [1, k, k, h] ∧
      ∀ i j c, i < k → j < k → c < h → G.get [0, i, j, c] = source.get [0, i * k + j + offset b, c] := by
  set s := (if b then tokens source 1 n else source) with hs
  have hshape : s.shape = [1, k ^ 2, h] := by
    cases b
    · simp [hs, hsh, hn, offset]
    · simp [hs, hsh, hn, offset, tokens]
  have hget : ∀ p c, p < k ^ 2 → s.get [0, p, c] = source.get [0, p + offset b, c] := by
    intro p c _
    cases b
    · simp [hs, offset]
    · simp [hs, offset, tokens]
  obtain ⟨G, hG⟩ := Partitioning.reshape_ok (x := s) (shape := [1, k, k, h]) (by rw [hshape]; simp; ring)
  have hGs := (Partitioning.reshape_shape hG).1
  refine ⟨G, reshape_of hG, hGs, ?_⟩
  intro i j c hi hj hc
  have hp : i * k + j < k ^ 2 := by nlinarith
  rw [get_reshape hG (idx' := [0, i * k + j, c]) (by rw [hshape]; exact valid_three.2 ⟨by omega, hp, hc⟩) ?_, hget _ _ hp]
  rw [hGs, hshape]
  simp [flatIndex]
  ring

theorem target_rows {out : NdArray α} {k h : Nat} (hsh : out.shape = [1, k, k, h]) (hh : 0 < h) :
    ∃ Z, reshape out [some 1, none, some (out.shape.getLastD 0)] = .ok Z ∧ Z.shape = [1, k ^ 2, h] ∧
      ∀ i j c, i < k → j < k → c < h → Z.get [0, i * k + j, c] = out.get [0, i, j, c] := by
  have hr : resolveShape out.shape.prod [some 1, none, some (out.shape.getLastD 0)] = .ok [1, k ^ 2, h] := by
    rw [hsh]
    unfold resolveShape
    have : List.count none [some 1, none, some h] = 1 := by simp
    simp [this, knownProd]
    have e : k * (k * h) = k ^ 2 * h := by ring
    rw [if_neg (by omega), if_pos (by rw [e]; exact Nat.mul_mod_left _ _), e, Nat.mul_div_cancel _ hh]
  have hZ : ∃ Z, out.reshape [some 1, none, some (out.shape.getLastD 0)] = .ok Z ∧ Z.shape = [1, k ^ 2, h] := by
    unfold NdArray.reshape
    rw [hr]
    exact ⟨_, rfl, rfl⟩
  obtain ⟨Z, hZ, hZs⟩ := hZ
  refine ⟨Z, reshape_of hZ, hZs, ?_⟩
  intro i j c hi hj hc
  apply get_reshape hZ (by rw [hsh]; exact valid_four.2 ⟨by omega, hi, hj, hc⟩)
  rw [hsh, hZs]
  simp [flatIndex]
  ring

/-- The class token of the result. -/
def newToken (st : Bool) (source noise : NdArray α) (target : Option (NdArray α)) : NdArray α :=
  if st then tokens source 0 1 else match target with
    | none => noise
    | some t => tokens t 0 1

theorem vitZoom_eval {sqrt : Nat → Nat} {zoom : NdArray α → List Nat → NdArray α} (hz : ∀ x s, (zoom x s).shape = s)
    {noise source : NdArray α} {target : Option (NdArray α)} {n m h k l : Nat} {st tt : Bool}
    (hsrc : source.shape = [1, n, h]) (e1 : tokAndGrid sqrt n h = .ok (st, [1, k, k, h])) (hn : n = k ^ 2 + offset st)
    (e2 : tokAndGrid sqrt m h = .ok (tt, [1, l, l, h])) (hk : 0 < k) (hh : 0 < h) :
    ∃ G Z, G.shape = [1, k, k, h] ∧
      (∀ i j c, i < k → j < k → c < h → G.get [0, i, j, c] = source.get [0, i * k + j + offset st, c]) ∧
      Z.shape = [1, l ^ 2, h] ∧
      (∀ i j c, i < l → j < l → c < h → Z.get [0, i * l + j, c] = (zoom G [1, l, l, h]).get [0, i, j, c]) ∧
      vitZoom sqrt zoom noise source target [1, m, h] =
        .ok (if tt then concatTokens (newToken st source noise target) Z else Z) := by
  obtain ⟨G, hG, hG1, hG2⟩ := source_grid hsrc hn
  obtain ⟨Z, hZ, hZ1, hZ2⟩ := target_rows (out := zoom G [1, l, l, h]) (hz _ _) hh
  refine ⟨G, Z, hG1, hG2, hZ1, hZ2, ?_⟩
  have hzo : zoomTo zoom G [1, l, l, h] = .ok (zoom G [1, l, l, h]) := by
    unfold zoomTo
    rw [if_neg, if_neg]
    · simp [hG1]
    · rw [hG1]; simp; omega
  unfold vitZoom
  rw [hsrc]
  simp only [ne_eq, not_true_eq_false, if_false]
  rw [e1]
  change (reshape (if st then tokens source 1 n else source) _ >>= _ : Except PyErr _) = _
  rw [hG]
  change (tokAndGrid sqrt m h >>= _ : Except PyErr _) = _
  rw [e2]
  change (zoomTo zoom G [1, l, l, h] >>= _ : Except PyErr _) = _
  rw [hzo]
  change (reshape (zoom G [1, l, l, h]) _ >>= _ : Except PyErr _) = _
  rw [hZ]
  change (if tt then (if st then _ else _ ) else _ : Except PyErr _) = _
  cases tt
  · rfl
  · cases st
    · cases target <;> rfl
    · rfl

theorem vitZoom_elim {sqrt : Nat → Nat} (hs : ∀ n ≤ 2 ^ 52, sqrt n = Nat.sqrt n)
    {zoom : NdArray α → List Nat → NdArray α}
    {noise source y : NdArray α} {target : Option (NdArray α)} {shape : List Nat}
    (hb : ∀ d ∈ source.shape, d ≤ 2 ^ 52) (hb' : ∀ d ∈ shape, d ≤ 2 ^ 52)
    (e : vitZoom sqrt zoom noise source target shape = .ok y) :
    ∃ n m h k l st tt, source.shape = [1, n, h] ∧ shape = [1, m, h] ∧
      tokAndGrid sqrt n h = .ok (st, [1, k, k, h]) ∧ n = k ^ 2 + offset st ∧ (st = true ↔ ¬ ∃ k, n = k ^ 2) ∧
      tokAndGrid sqrt m h = .ok (tt, [1, l, l, h]) ∧ m = l ^ 2 + offset tt ∧ (tt = true ↔ ¬ ∃ k, m = k ^ 2) ∧
      0 < k ∧ 0 < h := by
  unfold vitZoom at e
  split at e
  case h_2 => cases e
  case h_1 s0 n sh t0 m th hsrc =>
  rw [hsrc] at hb
  split at e
  · cases e
  rename_i h0
  split at e
  · cases e
  rename_i h1
  split at e
  · cases e
  rename_i h2
  simp only [not_not] at h0 h1 h2
  subst h0 h1 h2
  obtain ⟨⟨st, sg⟩, e1, e⟩ := ebind e
  obtain ⟨G, hG, e⟩ := ebind e
  obtain ⟨⟨tt, tg⟩, e2, e⟩ := ebind e
  obtain ⟨out, hout, e⟩ := ebind e
  obtain ⟨k, rfl, hn, hst⟩ := tokAndGrid_ok hs (hb n (by simp)) e1
  obtain ⟨l, rfl, hm, htt⟩ := tokAndGrid_ok hs (hb' m (by simp)) e2
  refine ⟨n, m, sh, k, l, st, tt, hsrc, rfl, e1, hn, hst, e2, hm, htt, ?_⟩
  obtain ⟨G', hG', hG1, _⟩ := source_grid hsrc hn
  rw [hG'] at hG
  cases hG
  unfold zoomTo at hout
  split at hout
  · cases hout
  · rename_i h0
    rw [hG1] at h0
    simp at h0
    omega

end Verif.InitRules
