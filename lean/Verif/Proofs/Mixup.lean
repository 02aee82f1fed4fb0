import Verif.Model.Mixup
import Verif.Spec.Mixing
import Verif.Proofs.NdArray
import Verif.Proofs.Partitioning
import Verif.Proofs.ExceptLemmas
import Mathlib.Data.List.Sort
import Mathlib.Data.Int.ModEq
import Mathlib.Data.Nat.ModEq
import Mathlib.Algebra.BigOperators.Ring.Finset
import Mathlib.Tactic.Ring
import Mathlib.Tactic.Linarith

/-! Helper lemmas about mixup. -/

namespace Verif.Mixup

open Verif Verif.MixSpec NdArray

theorem sortDesc_perm (l : List ℝ) : (sortDesc l).Perm l := by
  have h := (List.mergeSort_perm (l.map fun x => -x) fun a b => decide (a ≤ b)).map fun x => -x
  rw [List.map_map] at h
  have e : ((fun x : ℝ => -x) ∘ fun x => -x) = id := by funext x; simp
  rw [e, List.map_id] at h
  exact h

theorem sortDesc_sorted (l : List ℝ) : (sortDesc l).Pairwise (fun a b => b ≤ a) := by
  unfold sortDesc
  rw [List.pairwise_map]
  have h := List.pairwise_mergeSort (le := fun a b : ℝ => decide (a ≤ b))
    (by intro a b c; simp only [decide_eq_true_eq]; exact le_trans)
    (by intro a b; simp only [Bool.or_eq_true, decide_eq_true_eq]; exact le_total a b) (l.map fun x => -x)
  exact h.imp fun hab => by
    simp only [decide_eq_true_eq] at hab
    linarith

/-- The weights at a position of the batch axes. -/
noncomputable def weight (S : NdArray ℝ) (size : Nat) (b : List Nat) (i : Nat) : ℝ :=
  (sortDesc ((List.range size).map fun j => S.get (b ++ [j]))).getD i 0

theorem weight_isWeights {S : NdArray ℝ} {batch : List Nat} {size : Nat} (h : IsDirichlet S batch size) {b : List Nat}
    (hb : Valid batch b) : IsWeights (weight S size b) size := by
  obtain ⟨hnn, hsum⟩ := h.2 b hb
  set l := (List.range size).map fun j => S.get (b ++ [j]) with hl
  have hp := sortDesc_perm l
  have hlen : (sortDesc l).length = size := by rw [hp.length_eq, hl]; simp
  refine ⟨?_, ?_, ?_⟩
  · intro i
    unfold weight
    rcases Nat.lt_or_ge i (sortDesc l).length with hi | hi
    · rw [List.getD_eq_getElem _ _ hi]
      have : (sortDesc l)[i] ∈ l := hp.mem_iff.1 (List.getElem_mem hi)
      obtain ⟨j, hj, he⟩ := List.mem_map.1 this
      rw [← he]
      exact hnn j (List.mem_range.1 hj)
    · rw [List.getD_eq_default _ _ hi]
  · have h1 : ∑ i ∈ Finset.range size, weight S size b i = (sortDesc l).sum := by
      have h2 : ∑ i ∈ Finset.range size, weight S size b i = ((List.range size).map (weight S size b)).sum := by
        rw [Finset.sum_eq_multiset_sum]
        rfl
      rw [h2]
      congr 1
      apply List.ext_getElem
      · simp [hlen]
      · intro i h3 h4
        simp only [List.getElem_map, List.getElem_range]
        unfold weight
        rw [List.getD_eq_getElem _ _ h4]
    rw [h1, hp.sum_eq, ← hsum, Finset.sum_eq_multiset_sum]
    rfl
  · intro i j hij hj
    unfold weight
    have hj' : j < (sortDesc l).length := by omega
    have hi' : i < (sortDesc l).length := by omega
    rw [List.getD_eq_getElem _ _ hj', List.getD_eq_getElem _ _ hi']
    rcases hij.lt_or_eq with h | h
    · exact List.pairwise_iff_getElem.1 (sortDesc_sorted l) i j (by omega) hj' h
    · subst h; exact le_refl _

theorem moved_get {S : NdArray ℝ} {batch : List Nat} {size : Nat} (h : S.shape = batch ++ [size]) (b : List Nat) (i : Nat) :
    (moveLastFirst (sortLast S)).get (i :: b) = weight S size b i := by
  simp [moveLastFirst, sortLast, weight, h]

theorem moved_shape {S : NdArray ℝ} {batch : List Nat} {size : Nat} (h : S.shape = batch ++ [size]) :
    (moveLastFirst (sortLast S)).shape = size :: batch := by
  simp [moveLastFirst, sortLast, h]

theorem prod_ones (k : Nat) : (List.replicate k 1).prod = 1 := by
  induction k with
  | zero => rfl
  | succ k ih => simp [List.replicate_succ, ih]

theorem flatIndex_ones (s idx : List Nat) (k : Nat) (h : idx.length = s.length) :
    flatIndex (s ++ List.replicate k 1) (idx ++ List.replicate k 0) = flatIndex s idx := by
  induction s generalizing idx with
  | nil =>
    have : idx = [] := List.length_eq_zero_iff.1 (by simpa using h)
    subst this
    simp only [List.nil_append]
    induction k with
    | zero => rfl
    | succ k ih => simpa [List.replicate_succ, flatIndex] using ih
  | cons d s ih =>
    cases idx with
    | nil => simp at h
    | cons i idx =>
      simp only [List.cons_append, flatIndex, List.prod_append, prod_ones, mul_one]
      rw [ih idx (by simpa using h)]

theorem reshape_ones (x : NdArray ℝ) (k : Nat) :
    ∃ a, jreshape x ((x.shape ++ List.replicate k 1).map some) = .ok a ∧ a.shape = x.shape ++ List.replicate k 1 ∧
      ∀ idx, Valid x.shape idx → a.get (idx ++ List.replicate k 0) = x.get idx := by
  obtain ⟨y, hy⟩ := Partitioning.reshape_ok (x := x) (shape := x.shape ++ List.replicate k 1)
    (by rw [List.prod_append, prod_ones, mul_one])
  have hs := (Partitioning.reshape_shape hy).1
  refine ⟨y, by unfold jreshape; rw [hy], hs, ?_⟩
  intro idx hi
  exact get_reshape hy hi (by rw [hs, flatIndex_ones _ _ _ hi.length])

theorem broadcastRev_of {xs ys : List Nat} (h : List.Forall₂ (fun x y => x = 1 ∨ x = y) xs ys) :
    broadcastRev xs ys = some ys := by
  induction h with
  | nil => rfl
  | @cons x y xs ys hxy _ ih =>
    rw [broadcastRev]
    split
    · rename_i h1
      have : x = y := by omega
      rw [ih, this]; rfl
    · rename_i h1
      rw [if_pos (by omega), ih]; rfl

theorem broadcastShapes_of {a b : List Nat} (h : List.Forall₂ (fun x y => x = 1 ∨ x = y) a b) :
    broadcastShapes a b = .ok b := by
  unfold broadcastShapes
  rw [broadcastRev_of (List.rel_reverse h)]
  simp

theorem broadcastRev_of' {xs ys : List Nat} (h : List.Forall₂ (fun x y => y = 1 ∨ x = y) xs ys) :
    broadcastRev xs ys = some xs := by
  induction h with
  | nil => rfl
  | @cons x y xs ys hxy _ ih =>
    rw [broadcastRev, if_pos (by omega), ih]; rfl

theorem broadcastShapes_of' {a b : List Nat} (h : List.Forall₂ (fun x y => y = 1 ∨ x = y) a b) :
    broadcastShapes a b = .ok a := by
  unfold broadcastShapes
  rw [broadcastRev_of' (List.rel_reverse h)]
  simp

theorem broadcastIndex_self {shape idx : List Nat} (h : Valid shape idx) : broadcastIndex shape idx = idx := by
  unfold broadcastIndex
  rw [h.length, Nat.sub_self, List.drop_zero]
  induction h with
  | nil => rfl
  | @cons i d is ds hid _ ih =>
    rw [List.zipWith_cons_cons, ih]
    split
    · congr 1; omega
    · rfl

theorem broadcastIndex_ones (as idx rest : List Nat) (h : idx.length = as.length) :
    broadcastIndex (as ++ List.replicate rest.length 1) (idx ++ rest)
      = broadcastIndex as idx ++ List.replicate rest.length 0 := by
  unfold broadcastIndex
  simp only [List.length_append, List.length_replicate, h, Nat.sub_self, List.drop_zero]
  rw [List.zipWith_append h.symm]
  congr 1
  induction rest with
  | nil => rfl
  | cons r rest ih => simpa [List.replicate_succ] using ih

theorem broadcastIndex_valid {as bs idx : List Nat} (h : List.Forall₂ (fun x y => x = 1 ∨ x = y) as bs)
    (hi : Valid bs idx) : Valid as (broadcastIndex as idx) := by
  have hlen : idx.length = as.length := hi.length.trans h.length_eq.symm
  unfold broadcastIndex
  rw [hlen, Nat.sub_self, List.drop_zero]
  clear hlen
  induction h generalizing idx with
  | nil => cases hi; exact List.Forall₂.nil
  | @cons a b as bs hab _ ih =>
    cases hi with
    | @cons i _ is _ hib his =>
      rw [List.zipWith_cons_cons]
      refine List.Forall₂.cons ?_ (ih his)
      split
      · omega
      · omega

theorem add_fold {s : List Nat} : ∀ (ts : List (NdArray ℝ)) (t : NdArray ℝ), t.shape = s → (∀ u ∈ ts, u.shape = s) →
    ∃ y, ts.foldlM (binop (· + ·)) t = .ok y ∧ y.shape = s ∧
      ∀ idx, Valid s idx → y.get idx = t.get idx + (ts.map fun u => u.get idx).sum := by
  intro ts
  induction ts with
  | nil => intro t ht _; exact ⟨t, rfl, ht, by simp⟩
  | cons u ts ih =>
    intro t ht hts
    have hu : u.shape = s := hts u (by simp)
    have hb : broadcastShapes t.shape u.shape = .ok s := by
      rw [ht, hu]
      exact broadcastShapes_of (List.forall₂_same.2 fun _ _ => Or.inr rfl)
    obtain ⟨y, hy, hys, hyg⟩ := ih ⟨s, fun idx => t.get (broadcastIndex t.shape idx) + u.get (broadcastIndex u.shape idx)⟩
      rfl (fun v hv => hts v (by simp [hv]))
    refine ⟨y, ?_, hys, ?_⟩
    · rw [List.foldlM_cons]
      have : binop (· + ·) t u
          = .ok ⟨s, fun idx => t.get (broadcastIndex t.shape idx) + u.get (broadcastIndex u.shape idx)⟩ := by
        unfold binop; rw [hb]; rfl
      rw [this]
      exact hy
    · intro idx hi
      rw [hyg idx hi]
      simp only [List.map_cons, List.sum_cons, ht, hu]
      rw [broadcastIndex_self hi]
      ring

theorem mapM_ok {α β : Type} (f : α → Except PyErr β) (g : α → β) (l : List α) (h : ∀ a ∈ l, f a = .ok (g a)) :
    l.mapM f = .ok (l.map g) := by
  induction l with
  | nil => rfl
  | cons a l ih =>
    rw [List.mapM_cons, h a (by simp)]
    change (l.mapM f >>= _) = _
    rw [ih fun b hb => h b (by simp [hb])]
    rfl

/-- The value of one mixed array. -/
theorem mix_ok {S : NdArray ℝ} {as bs rest : List Nat} {size axis : Nat} (hS : S.shape = as ++ [size])
    (hsize : 0 < size) (hab : List.Forall₂ (fun x y => x = 1 ∨ x = y) as bs) (hax : axis < bs.length)
    (x : NdArray ℝ) (hx : x.shape = bs ++ rest) :
    ∃ y, mix (moveLastFirst (sortLast S)) as.length size axis x = .ok y ∧ y.shape = x.shape ∧
      ∀ b r, Valid bs b → Valid rest r → y.get (b ++ r) = ∑ i ∈ Finset.range size,
        weight S size (broadcastIndex as b) i * x.get (b.set axis ((b.getD axis 0 + i) % bs.getD axis 0) ++ r) := by
  have hlen : as.length = bs.length := hab.length_eq
  have hk : x.shape.length - as.length = rest.length := by rw [hx, List.length_append]; omega
  obtain ⟨a, ha, has, hag⟩ := reshape_ones (moveLastFirst (sortLast S)) rest.length
  rw [moved_shape hS] at has hag
  -- the terms
  let T : Nat → NdArray ℝ := fun i => ⟨x.shape, fun idx =>
    (item a i).get (broadcastIndex (item a i).shape idx) *
      x.get ((broadcastIndex x.shape idx).set axis
        (((broadcastIndex x.shape idx).getD axis 0 + i) % x.shape.getD axis 0))⟩
  have hT : ∀ i ∈ List.range size, (do
      let rolled ← rollBack x i axis
      binop (· * ·) (item a i) rolled : Except PyErr (NdArray ℝ)) = .ok (T i) := by
    intro i _
    have hroll : axis < x.shape.length := by rw [hx, List.length_append]; omega
    unfold rollBack
    rw [if_pos hroll]
    change binop (· * ·) (item a i) _ = _
    unfold binop
    have hb : broadcastShapes (item a i).shape x.shape = .ok x.shape := by
      apply broadcastShapes_of
      simp only [item, has, List.cons_append, List.tail_cons, hx]
      apply List.rel_append hab
      rw [List.forall₂_iff_get]
      refine ⟨by simp, ?_⟩
      intro i h1 h2
      left
      simp
    rw [hb]
    rfl
  have hmap : (List.range size).mapM (fun i => (do
      let rolled ← rollBack x i axis
      binop (· * ·) (item a i) rolled : Except PyErr (NdArray ℝ))) = .ok ((List.range size).map T) := mapM_ok _ T _ hT
  obtain ⟨n, rfl⟩ : ∃ n, size = n + 1 := ⟨size - 1, by omega⟩
  have hr : (List.range (n + 1)).map T = T 0 :: ((List.range n).map Nat.succ).map T := by
    rw [List.range_succ_eq_map]; rfl
  obtain ⟨y, hy, hys, hyg⟩ := add_fold (s := x.shape) (((List.range n).map Nat.succ).map T) (T 0) rfl (by
    intro u hu
    obtain ⟨i, _, rfl⟩ := List.mem_map.1 hu
    rfl)
  refine ⟨y, ?_, hys, ?_⟩
  · unfold mix
    rw [hk, ha]
    change (List.mapM (m := Except PyErr) _ _ >>= _) = _
    rw [hmap, hr]
    exact hy
  · intro b r hb hrv
    have hv : Valid x.shape (b ++ r) := by rw [hx]; exact List.rel_append hb hrv
    rw [hyg _ hv]
    have e1 : (T 0).get (b ++ r) + ((((List.range n).map Nat.succ).map T).map fun u => u.get (b ++ r)).sum
        = (((List.range (n + 1)).map T).map fun u => u.get (b ++ r)).sum := by
      rw [hr]; simp
    rw [e1, List.map_map, Finset.sum_eq_multiset_sum]
    change _ = ((List.range (n + 1)).map _).sum
    congr 1
    apply List.map_congr_left
    intro i hi
    have hi := List.mem_range.1 hi
    simp only [Function.comp, T]
    have hbl : b.length = as.length := hb.length.trans hlen.symm
    congr 1
    · have hsh : (item a i).shape = as ++ List.replicate rest.length 1 := by simp [item, has]
      rw [hsh, ← hrv.length, broadcastIndex_ones as b r hbl, hrv.length]
      have := hag (i :: broadcastIndex as b) (List.Forall₂.cons hi (broadcastIndex_valid hab hb))
      simp only [item]
      rw [← List.cons_append, this, moved_get hS]
    · rw [broadcastIndex_self hv]
      have hb' : axis < b.length := by rw [hb.length]; exact hax
      have g1 : (b ++ r).getD axis 0 = b.getD axis 0 := by
        simp [List.getD_eq_getElem?_getD, List.getElem?_append_left hb']
      have g2 : x.shape.getD axis 0 = bs.getD axis 0 := by
        rw [hx]
        simp [List.getD_eq_getElem?_getD, List.getElem?_append_left hax]
      rw [g1, g2, List.set_append_left _ _ hb']

theorem forM_ok {α : Type} (f : α → Except PyErr Unit) (l : List α) (h : ∀ a ∈ l, f a = .ok ()) : l.forM f = .ok () := by
  induction l with
  | nil => rfl
  | cons a l ih =>
    change (f a >>= fun _ => l.forM f) = _
    rw [h a (by simp)]
    exact ih fun b hb => h b (by simp [hb])

/-- Mixing a list of arrays. -/
theorem mixup_ok {sample : List Nat → NdArray ℝ} {arrays : List (NdArray ℝ)} {c : ℝ} {as bs : List Nat} {size axis : Nat}
    (hc : 0 < c) (hS : (sample (as ++ [size])).shape = as ++ [size]) (hsize : 0 < size)
    (hab : List.Forall₂ (fun x y => x = 1 ∨ x = y) as bs) (hax : axis < bs.length)
    (hx : ∀ x ∈ arrays, ∃ rest, x.shape = bs ++ rest) :
    ∃ f : NdArray ℝ → NdArray ℝ, mixup sample arrays c (as ++ [size]) axis = .ok (arrays.map f) ∧
      ∀ x ∈ arrays, (f x).shape = x.shape ∧ ∀ rest, x.shape = bs ++ rest → ∀ b r, Valid bs b → Valid rest r →
        (f x).get (b ++ r) = ∑ i ∈ Finset.range size, weight (sample (as ++ [size])) size (broadcastIndex as b) i *
          x.get (b.set axis ((b.getD axis 0 + i) % bs.getD axis 0) ++ r) := by
  have hlen : as.length = bs.length := hab.length_eq
  have hpos : 0 < as.length := by omega
  let f : NdArray ℝ → NdArray ℝ := fun x =>
    match mix (moveLastFirst (sortLast (sample (as ++ [size])))) as.length size axis x with
    | .ok y => y
    | .error _ => x
  have hf : ∀ x ∈ arrays, mix (moveLastFirst (sortLast (sample (as ++ [size])))) as.length size axis x = .ok (f x) := by
    intro x hm
    obtain ⟨rest, hr⟩ := hx x hm
    obtain ⟨y, hy, _⟩ := mix_ok hS hsize hab hax x hr
    simp only [f, hy]
  refine ⟨f, ?_, ?_⟩
  · unfold mixup
    rw [if_neg (by simp; omega)]
    simp only [List.length_append, List.length_singleton, Nat.add_sub_cancel, List.dropLast_concat]
    change ((arrays.forM _ : Except PyErr PUnit) >>= _) = _
    have hcheck : (arrays.forM fun x => (do
        let _ ← broadcastShapes (x.shape.take as.length) as
        if x.shape.take as.length ≠ ((arrays.head?.map NdArray.shape).getD []).take as.length then
          throw PyErr.valueError : Except PyErr PUnit)) = .ok () := by
      apply forM_ok
      intro x hm
      obtain ⟨rest, hr⟩ := hx x hm
      have ht : x.shape.take as.length = bs := by rw [hr, hlen, List.take_left]
      have hh : ((arrays.head?.map NdArray.shape).getD []).take as.length = bs := by
        cases arrays with
        | nil => simp at hm
        | cons z zs =>
          obtain ⟨rest', hr'⟩ := hx z (by simp)
          simp only [List.head?_cons, Option.map_some, Option.getD_some]
          rw [hr', hlen, List.take_left]
      rw [ht, hh, broadcastShapes_of' (hab.flip.imp (by intro a b h; omega))]
      simp
    rw [hcheck]
    have h2 : ¬ ¬ ((0 : Int) ≤ (axis : Int) ∧ (axis : Int) < (as.length : Int)) := by
      rw [not_not]
      omega
    have h3 : ¬ c ≤ 0 := not_le.2 hc
    change (if ¬ ((0 : Int) ≤ (axis : Int) ∧ (axis : Int) < (as.length : Int)) then _ else _) = _
    rw [if_neg h2]
    rw [if_neg h3]
    simp only [List.getLastD_concat, Int.toNat_natCast]
    exact mapM_ok _ f _ hf
  · intro x hm
    obtain ⟨rest, hr⟩ := hx x hm
    obtain ⟨y, hy, hys, hyg⟩ := mix_ok hS hsize hab hax x hr
    have hfx : f x = y := by simp only [f, hy]
    rw [hfx]
    refine ⟨hys, ?_⟩
    intro rest' hr'
    have : rest' = rest := by
      rw [hr] at hr'
      exact (List.append_cancel_left hr').symm
    subst this
    exact hyg

theorem count_none_some (l : List Nat) : (l.map some).count none = 0 := by
  rw [List.count_eq_zero]
  simp

theorem knownProd_some (l : List Nat) : knownProd (l.map some) = l.prod := by
  unfold knownProd
  rw [List.map_map]
  congr 1
  simp [Function.comp_def]

/-- Splitting the first axis over the devices. -/
theorem split_ok (x : NdArray ℝ) {D b : Nat} {rest : List Nat} (hx : x.shape = D * b :: rest) (hD : 0 < D)
    (hr : rest.prod ≠ 0) :
    ∃ y, jreshape x (some D :: none :: x.shape.tail.map some) = .ok y ∧ y.shape = D :: b :: rest ∧
      ∀ d j r, d < D → j < b → Valid rest r → y.get (d :: j :: r) = x.get ((d * b + j) :: r) := by
  have hk : knownProd (some D :: none :: rest.map some) = D * rest.prod := by
    have := knownProd_some rest
    unfold knownProd at this ⊢
    simp only [List.map_cons, List.prod_cons, Option.getD_some, Option.getD_none, this, one_mul]
  have hres : resolveShape x.shape.prod (some D :: none :: rest.map some) = .ok (D :: b :: rest) := by
    unfold resolveShape
    have hc : (some D :: none :: rest.map some).count none = 1 := by
      simp [count_none_some]
    rw [hc]
    simp only
    rw [hk, hx, List.prod_cons]
    have h0 : D * rest.prod ≠ 0 := Nat.mul_ne_zero hD.ne' hr
    have e : D * b * rest.prod = D * rest.prod * b := by ring
    rw [if_neg h0, e, Nat.mul_mod_right, if_pos rfl, Nat.mul_div_cancel_left _ (Nat.pos_of_ne_zero h0)]
    simp [Function.comp_def]
  have hreshape : ∃ y, x.reshape (some D :: none :: x.shape.tail.map some) = .ok y ∧ y.shape = D :: b :: rest := by
    unfold reshape
    rw [hx, List.tail_cons, ← hx, hres]
    exact ⟨_, rfl, rfl⟩
  obtain ⟨y, hy, hys⟩ := hreshape
  refine ⟨y, by unfold jreshape; rw [hy], hys, ?_⟩
  intro d j r hd hj hrv
  apply get_reshape hy
  · rw [hx]
    refine List.Forall₂.cons ?_ hrv
    calc d * b + j < d * b + b := by omega
      _ = (d + 1) * b := by ring
      _ ≤ D * b := Nat.mul_le_mul_right _ hd
  · rw [hys, hx]
    simp only [flatIndex, List.prod_cons]
    ring

/-- Merging the first two axes again. -/
theorem merge_ok (x : NdArray ℝ) {D b : Nat} {rest : List Nat} (hx : x.shape = D :: b :: rest) (hr : rest.prod ≠ 0) :
    ∃ y, jreshape x (none :: (x.shape.drop 2).map some) = .ok y ∧ y.shape = D * b :: rest ∧
      ∀ e r, e < D * b → Valid rest r → y.get (e :: r) = x.get (e / b :: e % b :: r) := by
  have hk : knownProd (none :: rest.map some) = rest.prod := by
    have := knownProd_some rest
    unfold knownProd at this ⊢
    simp only [List.map_cons, List.prod_cons, Option.getD_none, this, one_mul]
  have hres : resolveShape x.shape.prod (none :: rest.map some) = .ok (D * b :: rest) := by
    unfold resolveShape
    have hc : (none :: rest.map some).count none = 1 := by
      simp [count_none_some]
    rw [hc]
    simp only
    rw [hk, hx, List.prod_cons, List.prod_cons]
    have e : D * (b * rest.prod) = rest.prod * (D * b) := by ring
    rw [if_neg hr, e, Nat.mul_mod_right, if_pos rfl, Nat.mul_div_cancel_left _ (Nat.pos_of_ne_zero hr)]
    simp [Function.comp_def]
  have hreshape : ∃ y, x.reshape (none :: (x.shape.drop 2).map some) = .ok y ∧ y.shape = D * b :: rest := by
    unfold reshape
    rw [hx, List.drop_succ_cons, List.drop_succ_cons, List.drop_zero, ← hx, hres]
    exact ⟨_, rfl, rfl⟩
  obtain ⟨y, hy, hys⟩ := hreshape
  refine ⟨y, by unfold jreshape; rw [hy], hys, ?_⟩
  intro e r he hrv
  have hb : 0 < b := by
    rcases Nat.eq_zero_or_pos b with rfl | h
    · simp at he
    · exact h
  apply get_reshape hy
  · rw [hx]
    exact List.Forall₂.cons ((Nat.div_lt_iff_lt_mul hb).2 he) (List.Forall₂.cons (Nat.mod_lt _ hb) hrv)
  · rw [hys, hx]
    simp only [flatIndex, List.prod_cons]
    have h1 := Nat.div_add_mod e b
    calc e * rest.prod + flatIndex rest r = (b * (e / b) + e % b) * rest.prod + flatIndex rest r := by rw [h1]
      _ = _ := by ring

/-- The shape of the weights. -/
def weightBatch (g : Granularity) (D b : Nat) : List Nat :=
  match g with
  | .batch => [1, 1]
  | .device => [D, 1]
  | _ => [D, b]

theorem weightShape_ok {g : Granularity} (hg : g ≠ .other) (D b size : Nat) (ri : List Nat) :
    weightShape g (D :: b :: ri) size = .ok (weightBatch g D b ++ [size]) := by
  cases g <;> first | rfl | exact absurd rfl hg

/-- Mixing a batch. -/
theorem mixBatch_ok {sample : List Nat → NdArray ℝ} {D b size : Nat} {c : ℝ} {g : Granularity} {images labels : NdArray ℝ}
    {ri rl : List Nat} (hg : g ≠ .other) (hc : 0 < c) (hsize : 0 < size) (hD : 0 < D) (hb : 0 < b)
    (hi : images.shape = D * b :: ri) (hl : labels.shape = D * b :: rl) (hri : ri.prod ≠ 0) (hrl : rl.prod ≠ 0)
    (hS : (sample (weightBatch g D b ++ [size])).shape = weightBatch g D b ++ [size]) :
    ∃ im lb, mixBatch sample D c g size images labels = .ok (im, lb) ∧ im.shape = images.shape ∧ lb.shape = labels.shape ∧
      (∀ e r, e < D * b → Valid ri r → im.get (e :: r) = ∑ i ∈ Finset.range size,
        weight (sample (weightBatch g D b ++ [size])) size (broadcastIndex (weightBatch g D b) [e / b, e % b]) i *
          images.get ((e / b * b + (e % b + i) % b) :: r)) ∧
      (∀ e r, e < D * b → Valid rl r → lb.get (e :: r) = ∑ i ∈ Finset.range size,
        weight (sample (weightBatch g D b ++ [size])) size (broadcastIndex (weightBatch g D b) [e / b, e % b]) i *
          labels.get ((e / b * b + (e % b + i) % b) :: r)) := by
  obtain ⟨xi, hxi, hxis, hxig⟩ := split_ok images hi hD hri
  obtain ⟨xl, hxl, hxls, hxlg⟩ := split_ok labels hl hD hrl
  have hab : List.Forall₂ (fun x y => x = 1 ∨ x = y) (weightBatch g D b) [D, b] := by
    cases g <;> simp [weightBatch]
  obtain ⟨f, hf, hfg⟩ := mixup_ok (sample := sample) (arrays := [xi, xl]) (c := c) (as := weightBatch g D b)
    (bs := [D, b]) (size := size) (axis := 1) hc hS hsize hab (by simp) (by
      intro x hx
      simp only [List.mem_cons, List.not_mem_nil, or_false] at hx
      rcases hx with rfl | rfl
      · exact ⟨ri, hxis⟩
      · exact ⟨rl, hxls⟩)
  obtain ⟨hfi, hfig⟩ := hfg xi (by simp)
  obtain ⟨hfl, hflg⟩ := hfg xl (by simp)
  obtain ⟨yi, hyi, hyis, hyig⟩ := merge_ok (f xi) (hfi.trans hxis) hri
  obtain ⟨yl, hyl, hyls, hylg⟩ := merge_ok (f xl) (hfl.trans hxls) hrl
  refine ⟨yi, yl, ?_, by rw [hyis, hi], by rw [hyls, hl], ?_, ?_⟩
  · unfold mixBatch
    rw [hxi]
    change (jreshape labels _ >>= _) = _
    rw [hxl]
    change (weightShape g xi.shape size >>= _) = _
    rw [hxis, weightShape_ok hg]
    change (mixup sample [xi, xl] c (weightBatch g D b ++ [size]) ((1 : Nat) : Int) >>= _) = _
    rw [hf]
    change (jreshape (f xi) _ >>= _) = _
    rw [hyi]
    change (jreshape (f xl) _ >>= _) = _
    rw [hyl]
    rfl
  · intro e r he hr
    rw [hyig e r he hr]
    have hd : e / b < D := (Nat.div_lt_iff_lt_mul hb).2 he
    have hj : e % b < b := Nat.mod_lt _ hb
    have := hfig ri hxis [e / b, e % b] r (List.Forall₂.cons hd (List.Forall₂.cons hj List.Forall₂.nil)) hr
    simp only [List.cons_append, List.nil_append] at this
    rw [this]
    apply Finset.sum_congr rfl
    intro i _
    simp only [List.getD_cons_succ, List.getD_cons_zero, List.set_cons_succ, List.set_cons_zero, List.cons_append,
      List.nil_append]
    rw [hxig _ _ _ hd (Nat.mod_lt _ hb) hr]
  · intro e r he hr
    rw [hylg e r he hr]
    have hd : e / b < D := (Nat.div_lt_iff_lt_mul hb).2 he
    have hj : e % b < b := Nat.mod_lt _ hb
    have := hflg rl hxls [e / b, e % b] r (List.Forall₂.cons hd (List.Forall₂.cons hj List.Forall₂.nil)) hr
    simp only [List.cons_append, List.nil_append] at this
    rw [this]
    apply Finset.sum_congr rfl
    intro i _
    simp only [List.getD_cons_succ, List.getD_cons_zero, List.set_cons_succ, List.set_cons_zero, List.cons_append,
      List.nil_append]
    rw [hxlg _ _ _ hd (Nat.mod_lt _ hb) hr]

/-- A sum over a cyclic shift. -/
theorem sum_rotate (b i : Nat) (hb : 0 < b) (f : Nat → ℝ) :
    ∑ j ∈ Finset.range b, f ((j + i) % b) = ∑ j ∈ Finset.range b, f j := by
  have hmaps : Set.MapsTo (fun j => (j + i) % b) (Finset.range b : Set Nat) (Finset.range b : Set Nat) := by
    intro j _
    simp [Nat.mod_lt _ hb]
  have hinj : Set.InjOn (fun j => (j + i) % b) (Finset.range b : Set Nat) := by
    intro j hj k hk h
    simp only [Finset.coe_range, Set.mem_Iio] at hj hk
    have h' : Nat.ModEq b (j + i) (k + i) := h
    have := Nat.ModEq.add_right_cancel' i h'
    have e : j % b = k % b := this
    rwa [Nat.mod_eq_of_lt hj, Nat.mod_eq_of_lt hk] at e
  have hsurj := Finset.surjOn_of_injOn_of_card_le _ hmaps hinj (le_refl _)
  exact Finset.sum_nbij (fun j => (j + i) % b) (fun j hj => hmaps hj) hinj hsurj (fun _ _ => rfl)

/-- A sum over the batch by devices. -/
theorem sum_devices (D b : Nat) (f : Nat → ℝ) :
    ∑ e ∈ Finset.range (D * b), f e = ∑ d ∈ Finset.range D, ∑ j ∈ Finset.range b, f (d * b + j) := by
  induction D with
  | zero => simp
  | succ D ih => rw [Nat.succ_mul, Finset.sum_range_add, ih, Finset.sum_range_succ]

end Verif.Mixup
