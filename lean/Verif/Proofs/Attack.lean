import Mathlib.Algebra.Order.BigOperators.Group.Finset
import Mathlib.Algebra.Order.BigOperators.Group.List
import Mathlib.Tactic.Ring
import Mathlib.Tactic.Linarith
import Mathlib.Tactic.FieldSimp
import Mathlib.Data.Finset.Max
import Verif.Proofs.ExceptLemmas
import Verif.Model.Attack
import Verif.Spec.Attack

namespace Verif.Attack

open Verif AttackSpec

variable {K X R : Type}

/-! ### Intersection over union -/

theorem sum_zipWith (f : ℝ → ℝ → ℝ) (a b : List ℝ) (h : a.length = b.length) :
    (List.zipWith f a b).sum = ∑ e ∈ Finset.range a.length, f (a.getD e 0) (b.getD e 0) := by
  induction a generalizing b with
  | nil => simp
  | cons x a ih =>
    cases b with
    | nil => simp at h
    | cons y b =>
      simp only [List.length_cons, Nat.add_right_cancel_iff] at h
      rw [List.zipWith_cons_cons, List.sum_cons, ih b h, List.length_cons, Finset.sum_range_succ']
      simp
      ring

theorem card_used (n : Nat) (p : Nat → Prop) [DecidablePred p]
    (s : Finset Nat) (hs : ∀ e, e ∈ s ↔ e < n ∧ p e) :
    (s.card : ℝ) = ∑ e ∈ Finset.range n, if p e then (1 : ℝ) else 0 := by
  have : s = (Finset.range n).filter p := by
    ext e
    simp [hs]
  rw [this, Finset.card_filter]
  push_cast
  rfl

theorem mem_used (a : List ℝ) (e : Nat) : e ∈ used a ↔ e < a.length ∧ 0 < a.getD e 0 := by
  classical
  unfold used
  simp

theorem getD_ind (a : List ℝ) (e : Nat) :
    (a.map fun w => if w > 0 then (1 : ℝ) else 0).getD e 0 = if 0 < a.getD e 0 then 1 else 0 := by
  by_cases h : e < a.length
  · simp [h]
  · simp [h]

theorem tokenIou_eq (a b : List ℝ) (h : a.length = b.length) : tokenIou a b = iou (used a) (used b) := by
  classical
  unfold tokenIou iou
  simp only
  rw [sum_zipWith _ _ _ (by simpa using h), sum_zipWith _ _ _ (by simpa using h)]
  simp only [getD_ind, List.length_map]
  have h1 : ((used a ∩ used b).card : ℝ) =
      ∑ e ∈ Finset.range a.length, (if 0 < a.getD e 0 then (1 : ℝ) else 0) * (if 0 < b.getD e 0 then 1 else 0) := by
    rw [card_used _ (fun e => 0 < a.getD e 0 ∧ 0 < b.getD e 0)]
    · apply Finset.sum_congr rfl
      intro e _
      generalize a.getD e 0 = u
      generalize b.getD e 0 = w
      by_cases h1 : 0 < u <;> by_cases h2 : 0 < w <;> simp [h1, h2]
    · intro e
      simp only [Finset.mem_inter, mem_used, ← h]
      tauto
  have h2 : ((used a ∪ used b).card : ℝ) =
      ∑ e ∈ Finset.range a.length, ((if 0 < a.getD e 0 then (1 : ℝ) else 0) + (if 0 < b.getD e 0 then 1 else 0)) -
      ∑ e ∈ Finset.range a.length, (if 0 < a.getD e 0 then (1 : ℝ) else 0) * (if 0 < b.getD e 0 then 1 else 0) := by
    rw [← Finset.sum_sub_distrib, card_used _ (fun e => 0 < a.getD e 0 ∨ 0 < b.getD e 0)]
    · apply Finset.sum_congr rfl
      intro e _
      generalize a.getD e 0 = u
      generalize b.getD e 0 = w
      by_cases h1 : 0 < u <;> by_cases h2 : 0 < w <;> simp [h1, h2]
    · intro e
      simp only [Finset.mem_union, mem_used, ← h]
      tauto
  rw [← h2, ← h1]
  split
  · rfl
  · rename_i hn
    have h0 : ((used a ∪ used b).card : ℝ) = 0 := le_antisymm (not_lt.1 hn) (Nat.cast_nonneg _)
    rw [h0, div_zero]

theorem iou_nonneg (s t : Finset Nat) : 0 ≤ iou s t := by unfold iou; positivity

theorem iou_le_one (s t : Finset Nat) : iou s t ≤ 1 := by
  unfold iou
  refine div_le_one_of_le₀ ?_ (Nat.cast_nonneg _)
  exact_mod_cast Finset.card_le_card (fun x hx => Finset.mem_union_left _ (Finset.mem_inter.1 hx).1)

theorem iou_self (s : Finset Nat) (h : s.Nonempty) : iou s s = 1 := by
  unfold iou
  rw [Finset.inter_self, Finset.union_self, div_self]
  exact_mod_cast (Finset.card_pos.2 h).ne'

theorem tokenIou_nonneg (a b : List ℝ) : 0 ≤ tokenIou a b := by
  have h0 : ∀ l : List ℝ, (∀ x ∈ l, 0 ≤ x) → 0 ≤ l.sum := fun l h => List.sum_nonneg h
  unfold tokenIou
  simp only
  split
  · rename_i hu
    refine div_nonneg (h0 _ ?_) hu.le
    intro x hx
    obtain ⟨i, hi, rfl⟩ := List.getElem_of_mem hx
    simp only [List.getElem_zipWith, List.getElem_map]
    split <;> split <;> norm_num
  · exact le_rfl

theorem zip_sums (a b : List ℝ) (ha : ∀ x ∈ a, x = 0 ∨ x = 1) (hb : ∀ x ∈ b, x = 0 ∨ x = 1) :
    (List.zipWith (· * ·) a b).sum ≤ (List.zipWith (· + ·) a b).sum - (List.zipWith (· * ·) a b).sum := by
  induction a generalizing b with
  | nil => simp
  | cons x a ih =>
    cases b with
    | nil => simp
    | cons y b =>
      have := ih b (fun z hz => ha z (by simp [hz])) fun z hz => hb z (by simp [hz])
      simp only [List.zipWith_cons_cons, List.sum_cons]
      rcases ha x (by simp) with rfl | rfl <;> rcases hb y (by simp) with rfl | rfl <;> linarith

theorem tokenIou_le_one (a b : List ℝ) : tokenIou a b ≤ 1 := by
  unfold tokenIou
  simp only
  split
  · rename_i hu
    rw [div_le_one hu]
    refine zip_sums _ _ ?_ ?_
    · intro x hx
      obtain ⟨w, _, rfl⟩ := List.mem_map.1 hx
      split <;> simp
    · intro x hx
      obtain ⟨w, _, rfl⟩ := List.mem_map.1 hx
      split <;> simp
  · exact zero_le_one

/-! ### Masks -/

theorem maskOut_true (o : Out K) : maskOut true o = o := by
  unfold maskOut
  simp

theorem tokenIou_zero (a b : List ℝ) : tokenIou (a.map fun w => w * 0) b = 0 := by
  unfold tokenIou
  have : (List.map (fun w => if w > 0 then (1 : ℝ) else 0) (a.map fun w => w * 0)) = List.replicate a.length 0 := by
    rw [List.map_map, List.eq_replicate_iff]
    simp
  simp only [this]
  have h2 : ∀ (n : Nat) (b : List ℝ), (List.zipWith (· * ·) (List.replicate n (0 : ℝ)) b).sum = 0 := by
    intro n
    induction n with
    | zero => simp
    | succ n ih =>
      intro b
      cases b with
      | nil => simp
      | cons y b => simp [List.replicate_succ, ih]
  rw [h2]
  simp

theorem sumIou_zero (x : List (List ℝ)) (y : List (List ℝ)) :
    (List.zipWith tokenIou (x.map fun t => t.map fun w => w * 0) y).sum = 0 := by
  induction x generalizing y with
  | nil => simp
  | cons a x ih =>
    cases y with
    | nil => simp
    | cons b y => simp only [List.map_cons, List.zipWith_cons_cons, List.sum_cons, tokenIou_zero, ih]; simp

/-- The sum of something over two lists, for the examples that are not fake. -/
theorem sum_masked {M : Type} [AddCommMonoid M] (g : Out K → Out K → M) (hg : ∀ o o', g (maskOut false o) (maskOut false o') = 0)
    (f : X → Out K × Out K) (xs : List X) (v : List Bool) (h : v.length = xs.length) :
    (List.zipWith g (List.zipWith maskOut v (xs.map fun x => (f x).1)) (List.zipWith maskOut v (xs.map fun x => (f x).2))).sum =
      ((real (xs, some v)).map fun x => g (f x).1 (f x).2).sum := by
  induction xs generalizing v with
  | nil => simp [real]
  | cons x xs ih =>
    cases v with
    | nil => simp at h
    | cons b v =>
      simp only [List.length_cons, Nat.add_right_cancel_iff] at h
      simp only [List.map_cons, List.zipWith_cons_cons, List.sum_cons, ih v h, real]
      cases b with
      | false => simp [hg]
      | true => simp [maskOut_true]

end Verif.Attack

namespace Verif.Attack

open Verif AttackSpec

variable {K X R : Type}

/-- The statistics of a list of examples, none of which is fake. -/
noncomputable def totals (f : X → Out K × Out K) (T : K → Nat) (l : List X) : State K :=
  { numImages := l.length
    numChanges := (l.map fun x => if (f x).2.pred ≠ (f x).1.pred then (1 : Int) else 0).sum
    numCorrect := ((l.map fun x => (f x).1.correct).sum, (l.map fun x => (f x).2.correct).sum)
    sumLoss := ((l.map fun x => (f x).1.loss).sum, (l.map fun x => (f x).2.loss).sum)
    sumIou := fun k => (l.map fun x => (List.zipWith tokenIou ((f x).1.cw k) ((f x).2.cw k)).sum).sum / T k }

theorem totals_nil (f : X → Out K × Out K) (T : K → Nat) : totals f T [] = State.create := by
  simp [totals, State.create]

theorem totals_append (f : X → Out K × Out K) (T : K → Nat) (l l' : List X) :
    totals f T (l ++ l') = (totals f T l).add (totals f T l') := by
  simp [totals, State.add, add_div]

theorem State.create_add (s : State K) : (State.create : State K).add s = s := by
  simp [State.add, State.create]

theorem State.add_assoc (a b c : State K) : (a.add b).add c = a.add (b.add c) := by
  simp [State.add, _root_.add_assoc]

theorem zipWith_maps {A B C : Type} (g : A → B → C) (f : X → A) (f' : X → B) (xs : List X) :
    List.zipWith g (xs.map f) (xs.map f') = xs.map fun x => g (f x) (f' x) := by
  induction xs with
  | nil => rfl
  | cons x xs ih => simp

theorem masked_length (f : X → Out K) (v : List Bool) (xs : List X) (h : v.length = xs.length) :
    (List.zipWith maskOut v (xs.map f)).length = xs.length := by
  simp [h]

theorem sum_map_zip {M : Type} [AddCommMonoid M] (g : Out K → M) (hg : ∀ o, g (maskOut false o) = 0) (f : X → Out K)
    (xs : List X) (v : List Bool) (h : v.length = xs.length) :
    ((List.zipWith maskOut v (xs.map f)).map g).sum = ((real (xs, some v)).map fun x => g (f x)).sum := by
  have := sum_masked (fun o _ => g o) (fun o _ => hg o) (fun x => (f x, f x)) xs v h
  simp only at this
  rw [← this]
  congr 1
  generalize List.zipWith maskOut v (xs.map f) = l
  induction l with
  | nil => rfl
  | cons a l ih => simp only [List.zipWith_cons_cons, List.map_cons, ← ih]

theorem sum_valid (xs : List X) (v : List Bool) (h : v.length = xs.length) :
    (v.map fun b => if b then (1 : Int) else 0).sum = (real (xs, some v)).length := by
  induction xs generalizing v with
  | nil => cases v with
    | nil => simp [real]
    | cons _ _ => simp at h
  | cons x xs ih =>
    cases v with
    | nil => simp at h
    | cons b v =>
      simp only [List.length_cons, Nat.add_right_cancel_iff] at h
      have := ih v h
      cases b with
      | false => simp [real] at this ⊢; exact this
      | true => simp [real] at this ⊢; omega

theorem sumIou_eq (T : Nat) (a b : List (List (List ℝ))) (h : ∀ x ∈ a, x.length = T) :
    sumIou a b = (List.zipWith (fun x y => (List.zipWith tokenIou x y).sum) a b).sum / T := by
  cases a with
  | nil => simp [sumIou]
  | cons x a => simp [sumIou, h x (by simp)]

theorem batch_totals (f : X → Out K × Out K) (T : K → Nat) (hT : ∀ x k, ((f x).1.cw k).length = T k) (xs : List X)
    (v : List Bool) (hv : v.length = xs.length) :
    batchStats (some v) (List.zipWith maskOut v (xs.map fun x => (f x).1)) (List.zipWith maskOut v (xs.map fun x => (f x).2)) =
      totals f T (real (xs, some v)) := by
  unfold batchStats totals
  simp only
  congr 1
  · exact sum_valid xs v hv
  · exact sum_masked (fun a b => if b.pred ≠ a.pred then (1 : Int) else 0) (by intro o o'; simp [maskOut]) f xs v hv
  · exact congrArg₂ Prod.mk (sum_map_zip (·.correct) (by intro o; simp [maskOut]) _ xs v hv)
      (sum_map_zip (·.correct) (by intro o; simp [maskOut]) _ xs v hv)
  · exact congrArg₂ Prod.mk (sum_map_zip (·.loss) (by intro o; simp [maskOut]) _ xs v hv)
      (sum_map_zip (·.loss) (by intro o; simp [maskOut]) _ xs v hv)
  · funext k
    rw [sumIou_eq (T k)]
    · congr 1
      rw [List.zipWith_map]
      exact sum_masked (fun a b => (List.zipWith tokenIou (a.cw k) (b.cw k)).sum)
        (by intro o o'; simp only [maskOut]; exact sumIou_zero _ _) f xs v hv
    · intro x hx
      obtain ⟨y, hy, rfl⟩ := List.mem_map.1 hx
      obtain ⟨i, hi, rfl⟩ := List.getElem_of_mem hy
      simp only [List.getElem_zipWith, List.getElem_map, maskOut, List.length_map]
      exact hT _ k

theorem batch_totals_none (f : X → Out K × Out K) (T : K → Nat) (hT : ∀ x k, ((f x).1.cw k).length = T k) (xs : List X) :
    batchStats none (xs.map fun x => (f x).1) (xs.map fun x => (f x).2) = totals f T xs := by
  unfold batchStats totals
  simp only [List.map_map, zipWith_maps, List.length_map]
  congr 1
  funext k
  rw [sumIou_eq (T k)]
  · rw [zipWith_maps]
    rfl
  · intro x hx
    obtain ⟨y, _, rfl⟩ := List.mem_map.1 hx
    exact hT y k

theorem step_totals (attack : List X → R → List X × R) (compute : List X → R → List (Out K)) (g : X → X) (o : X → Out K)
    (T : K → Nat) (hattack : ∀ xs r, (attack xs r).1 = xs.map g) (hcompute : ∀ xs r, compute xs r = xs.map o)
    (hT : ∀ x k, ((o x).cw k).length = T k) (s : State K) (r : R) (b : List X × Option (List Bool))
    (hb : ∀ v, b.2 = some v → v.length = b.1.length) :
    statefulAttack attack compute (s, r) b.1 b.2 =
      .ok (s.add (totals (fun x => (o x, o (g x))) T (real b)), (attack b.1 r).2) := by
  obtain ⟨xs, valid⟩ := b
  have e2 : (xs.map g).map o = xs.map fun x => o (g x) := by simp
  cases valid with
  | none =>
    unfold statefulAttack
    simp only [hcompute, hattack, real, e2]
    rw [batch_totals_none (fun x => (o x, o (g x))) T hT]
  | some v =>
    have hv := hb v rfl
    simp only at hv
    unfold statefulAttack
    simp only [hcompute, hattack, List.length_map, hv, ne_eq, not_true_eq_false, or_self, if_false]
    rw [e2, batch_totals (fun x => (o x, o (g x))) T hT xs v hv]

theorem run_totals (attack : List X → R → List X × R) (compute : List X → R → List (Out K)) (g : X → X) (o : X → Out K)
    (T : K → Nat) (hattack : ∀ xs r, (attack xs r).1 = xs.map g) (hcompute : ∀ xs r, compute xs r = xs.map o)
    (hT : ∀ x k, ((o x).cw k).length = T k) (batches : List (List X × Option (List Bool)))
    (hb : ∀ b ∈ batches, ∀ v, b.2 = some v → v.length = b.1.length) (s : State K) (r : R) :
    ∃ r', batches.foldlM (fun s b => statefulAttack attack compute s b.1 b.2) (s, r) =
      .ok (s.add (totals (fun x => (o x, o (g x))) T (batches.flatMap real)), r') := by
  induction batches generalizing s r with
  | nil =>
    refine ⟨r, ?_⟩
    simp only [List.foldlM_nil, List.flatMap_nil, totals_nil]
    have : s.add State.create = s := by simp [State.add, State.create]
    rw [this]
    rfl
  | cons b batches ih =>
    obtain ⟨r', h⟩ := ih (fun c hc => hb c (by simp [hc])) (s.add (totals (fun x => (o x, o (g x))) T (real b))) (attack b.1 r).2
    refine ⟨r', ?_⟩
    rw [List.foldlM_cons, step_totals attack compute g o T hattack hcompute hT s r b (hb b (by simp))]
    change List.foldlM _ _ _ = _
    rw [h, List.flatMap_cons, totals_append, State.add_assoc]

theorem real_sub (b : List X × Option (List Bool)) : ∀ x ∈ real b, x ∈ b.1 := by
  obtain ⟨xs, valid⟩ := b
  cases valid with
  | none => intro x hx; simpa [real] using hx
  | some v =>
    induction xs generalizing v with
    | nil => simp [real]
    | cons y xs ih =>
      cases v with
      | nil => simp [real]
      | cons c v =>
        intro x hx
        unfold real at hx
        split at hx
        · rcases List.mem_cons.1 hx with rfl | hx
          · simp
          · exact List.mem_cons_of_mem _ (ih v x hx)
        · exact List.mem_cons_of_mem _ (ih v x hx)

/-- Without assumptions about the functions that are called: the statistics are those of a list of pairs that these
functions computed. -/
theorem step_pairs (attack : List X → R → List X × R) (compute : List X → R → List (Out K)) (T : K → Nat)
    (P : Out K → Prop) (hP : ∀ xs r, ∀ o ∈ compute xs r, P o ∧ ∀ k, (o.cw k).length = T k)
    (hlen : ∀ xs r, (compute xs r).length = xs.length) (hlen' : ∀ xs r, (attack xs r).1.length = xs.length)
    (s s' : State K × R) (b : List X × Option (List Bool))
    (h : statefulAttack attack compute s b.1 b.2 = .ok s') :
    ∃ l : List {p : Out K × Out K // (P p.1 ∧ ∀ k, (p.1.cw k).length = T k) ∧ P p.2 ∧ ∀ k, (p.2.cw k).length = T k},
      s'.1 = s.1.add (totals (fun p => p.1) T l) ∧ l.length = (real b).length := by
  obtain ⟨xs, valid⟩ := b
  unfold statefulAttack at h
  simp only at h
  set o0 := compute xs s.2 with ho0
  set om := compute (attack xs s.2).1 (attack xs s.2).2 with hom
  have h0 : ∀ o ∈ o0, P o ∧ ∀ k, (o.cw k).length = T k := hP _ _
  have hm : ∀ o ∈ om, P o ∧ ∀ k, (o.cw k).length = T k := hP _ _
  have hl : o0.length = om.length := by rw [ho0, hom, hlen, hlen, hlen']
  have hl0 : o0.length = xs.length := hlen _ _
  clear_value o0 om
  obtain ⟨ps, rfl, rfl⟩ : ∃ ps : List {p : Out K × Out K // (P p.1 ∧ ∀ k, (p.1.cw k).length = T k) ∧
      P p.2 ∧ ∀ k, (p.2.cw k).length = T k}, o0 = ps.map (fun p => p.1.1) ∧ om = ps.map (fun p => p.1.2) := by
    clear h hl0 ho0 hom
    induction o0 generalizing om with
    | nil =>
      have : om = [] := List.eq_nil_of_length_eq_zero hl.symm
      exact ⟨[], rfl, this⟩
    | cons a o0 ih =>
      cases om with
      | nil => simp at hl
      | cons c om =>
        simp only [List.length_cons, Nat.add_right_cancel_iff] at hl
        obtain ⟨ps, rfl, rfl⟩ := ih om (fun o ho => h0 o (by simp [ho])) (fun o ho => hm o (by simp [ho])) hl
        exact ⟨⟨(a, c), h0 a (by simp), hm c (by simp)⟩ :: ps, rfl, rfl⟩
  cases valid with
  | none =>
    simp only [Except.ok.injEq] at h
    refine ⟨ps, ?_, by simpa [real] using hl0⟩
    rw [← h, ← batch_totals_none (X := {p : Out K × Out K // (P p.1 ∧ ∀ k, (p.1.cw k).length = T k) ∧ P p.2 ∧
      ∀ k, (p.2.cw k).length = T k}) (fun p => p.1) T (fun p => p.2.1.2)]
  | some v =>
    simp only at h
    split at h
    · cases h
    · rename_i hv
      push Not at hv
      have hv' : v.length = ps.length := by simpa using hv.1
      simp only [Except.ok.injEq] at h
      refine ⟨real (ps, some v), ?_, ?_⟩
      · rw [← h, ← batch_totals (fun p => p.1) T (fun p => p.2.1.2) ps v hv']
      · have e1 := sum_valid ps v hv'
        have e2 := sum_valid xs v (by rw [hv']; simpa using hl0)
        rw [e1] at e2
        exact_mod_cast e2

theorem run_pairs (attack : List X → R → List X × R) (compute : List X → R → List (Out K)) (T : K → Nat)
    (P : Out K → Prop) (hP : ∀ xs r, ∀ o ∈ compute xs r, P o ∧ ∀ k, (o.cw k).length = T k)
    (hlen : ∀ xs r, (compute xs r).length = xs.length) (hlen' : ∀ xs r, (attack xs r).1.length = xs.length)
    (batches : List (List X × Option (List Bool))) (s s' : State K × R)
    (h : batches.foldlM (fun s b => statefulAttack attack compute s b.1 b.2) s = .ok s') :
    ∃ l : List {p : Out K × Out K // (P p.1 ∧ ∀ k, (p.1.cw k).length = T k) ∧ P p.2 ∧ ∀ k, (p.2.cw k).length = T k},
      s'.1 = s.1.add (totals (fun p => p.1) T l) ∧ l.length = (batches.flatMap real).length := by
  induction batches generalizing s with
  | nil =>
    simp only [List.foldlM_nil] at h
    cases h
    refine ⟨[], ?_, rfl⟩
    rw [totals_nil]
    simp [State.add, State.create]
  | cons b batches ih =>
    rw [List.foldlM_cons] at h
    obtain ⟨s1, h1, h2⟩ := ebind h
    obtain ⟨l1, e1, g1⟩ := step_pairs attack compute T P hP hlen hlen' s s1 b h1
    obtain ⟨l2, e2, g2⟩ := ih s1 h2
    refine ⟨l1 ++ l2, ?_, by simp [g1, g2]⟩
    rw [e2, e1, totals_append, State.add_assoc]

theorem sum_bounds (l : List ℝ) (h : ∀ x ∈ l, 0 ≤ x ∧ x ≤ 1) : 0 ≤ l.sum ∧ l.sum ≤ l.length := by
  induction l with
  | nil => simp
  | cons x l ih =>
    obtain ⟨h1, h2⟩ := ih fun y hy => h y (by simp [hy])
    obtain ⟨h3, h4⟩ := h x (by simp)
    simp only [List.sum_cons, List.length_cons]
    push_cast
    constructor <;> linarith

theorem zip_bounds (a b : List (List ℝ)) : 0 ≤ (List.zipWith tokenIou a b).sum ∧ (List.zipWith tokenIou a b).sum ≤ a.length := by
  obtain ⟨h1, h2⟩ := sum_bounds (List.zipWith tokenIou a b) (by
    intro x hx
    obtain ⟨i, hi, rfl⟩ := List.getElem_of_mem hx
    rw [List.getElem_zipWith]
    exact ⟨tokenIou_nonneg _ _, tokenIou_le_one _ _⟩)
  refine ⟨h1, h2.trans ?_⟩
  have : (List.zipWith tokenIou a b).length ≤ a.length := by simp
  exact_mod_cast this

theorem example_iou (a b : List (List ℝ)) (T : Nat) (ha : a.length = T) :
    0 ≤ (List.zipWith tokenIou a b).sum / T ∧ (List.zipWith tokenIou a b).sum / T ≤ 1 := by
  obtain ⟨h1, h2⟩ := zip_bounds a b
  rw [ha] at h2
  exact ⟨div_nonneg h1 (Nat.cast_nonneg _), div_le_one_of_le₀ h2 (Nat.cast_nonneg _)⟩

theorem sum_div (l : List X) (g : X → ℝ) (c : ℝ) : (l.map g).sum / c = (l.map fun x => g x / c).sum := by
  induction l with
  | nil => simp
  | cons x l ih => simp [add_div, ih]

theorem totals_bounds (f : X → Out K × Out K) (T : K → Nat) (l : List X)
    (h : ∀ x ∈ l, 0 ≤ (f x).1.correct ∧ (f x).1.correct ≤ 1 ∧ 0 ≤ (f x).2.correct ∧ (f x).2.correct ≤ 1 ∧
      ∀ k, ((f x).1.cw k).length = T k) :
    0 ≤ (totals f T l).numChanges ∧ (totals f T l).numChanges ≤ (totals f T l).numImages ∧
    0 ≤ (totals f T l).numCorrect.1 ∧ (totals f T l).numCorrect.1 ≤ (totals f T l).numImages ∧
    0 ≤ (totals f T l).numCorrect.2 ∧ (totals f T l).numCorrect.2 ≤ (totals f T l).numImages ∧
    ∀ k, 0 ≤ (totals f T l).sumIou k ∧ (totals f T l).sumIou k ≤ (totals f T l).numImages := by
  have c1 := sum_bounds (l.map fun x => (f x).1.correct) (by
    intro y hy; obtain ⟨x, hx, rfl⟩ := List.mem_map.1 hy; exact ⟨(h x hx).1, (h x hx).2.1⟩)
  have c2 := sum_bounds (l.map fun x => (f x).2.correct) (by
    intro y hy; obtain ⟨x, hx, rfl⟩ := List.mem_map.1 hy; exact ⟨(h x hx).2.2.1, (h x hx).2.2.2.1⟩)
  have c3 : ∀ l : List X, 0 ≤ (l.map fun x => if (f x).2.pred ≠ (f x).1.pred then (1 : Int) else 0).sum ∧
      (l.map fun x => if (f x).2.pred ≠ (f x).1.pred then (1 : Int) else 0).sum ≤ l.length := by
    intro l
    induction l with
    | nil => simp
    | cons x l ih =>
      simp only [List.map_cons, List.sum_cons, List.length_cons]
      push_cast
      split <;> omega
  have c4 : ∀ k, 0 ≤ (totals f T l).sumIou k ∧ (totals f T l).sumIou k ≤ l.length := by
    intro k
    have := sum_bounds (l.map fun x => (List.zipWith tokenIou ((f x).1.cw k) ((f x).2.cw k)).sum / T k) (by
      intro y hy
      obtain ⟨x, hx, rfl⟩ := List.mem_map.1 hy
      exact example_iou _ _ _ ((h x hx).2.2.2.2 k))
    unfold totals
    simp only
    rw [sum_div]
    simpa using this
  simp only [List.length_map] at c1 c2
  have hi : (((totals f T l).numImages : Int) : ℝ) = l.length := by simp [totals]
  refine ⟨(c3 l).1, (c3 l).2, c1.1, ?_, c2.1, ?_, ?_⟩
  · rw [hi]; exact c1.2
  · rw [hi]; exact c2.2
  · intro k
    rw [hi]
    exact c4 k


end Verif.Attack
