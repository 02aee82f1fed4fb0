import Mathlib.Tactic.IntervalCases
import Verif.Proofs.Attack

/-!
C61: the distance of an attacked image.  C62: the statistics of attacks
(vmoe/projects/adversarial_attacks/attacks.py).
-/

namespace Verif.Attack

open Verif AttackSpec

variable {ι R X K : Type}

/-! ### C61 -/

theorem pgdLoop_multiple (delta : ℝ) (grad : (ι → ℝ) → Option R → ι → ℝ) (rngs : Option (List R)) (x : ι → ℝ) (n : Nat) (p : ι) :
    ∃ z : Int, |z| ≤ n ∧ pgdLoop delta grad rngs x n p = x p + delta * z := by
  induction n with
  | zero => exact ⟨0, by simp, by simp [pgdLoop]⟩
  | succ n ih =>
    obtain ⟨z, hz, h⟩ := ih
    unfold pgdLoop pgdUpdate
    rw [h]
    generalize grad (pgdLoop delta grad rngs x n) (rngs.bind (·[n]?)) p = d
    rcases lt_trichotomy d 0 with hd | hd | hd
    · refine ⟨z - 1, ?_, ?_⟩
      · push_cast
        rw [abs_le] at hz ⊢
        constructor <;> omega
      · rw [sign_neg hd]
        push_cast
        simp
        ring
    · refine ⟨z, by push_cast; omega, ?_⟩
      rw [hd]
      simp
    · refine ⟨z + 1, ?_, ?_⟩
      · push_cast
        rw [abs_le] at hz ⊢
        constructor <;> omega
      · rw [sign_pos hd]
        push_cast
        simp
        ring

/-- C61: after any number of updates with any gradients, every entry of the images differs from the original one by at most
`max_epsilon`. -/
theorem C61_bound (split : R → Nat → List R) (maxEpsilon : ℝ) (he : 0 ≤ maxEpsilon) (n : Nat)
    (grad : (ι → ℝ) → Option R → ι → ℝ) (images images' : ι → ℝ) (rng rng' : Option R)
    (h : pgd split maxEpsilon n grad images rng = .ok (images', rng')) (p : ι) : |images' p - images p| ≤ maxEpsilon := by
  unfold pgd at h
  split at h
  · cases h
  · rename_i hn
    simp only [Except.ok.injEq, Prod.mk.injEq] at h
    obtain ⟨z, hz, e⟩ := pgdLoop_multiple (maxEpsilon / n) grad (rng.map fun r => split r (n + 1)) images n p
    rw [← h.1, e]
    have hn' : (0 : ℝ) < n := by exact_mod_cast Nat.pos_of_ne_zero hn
    have hz' : |(z : ℝ)| ≤ n := by exact_mod_cast hz
    have : images p + maxEpsilon / n * z - images p = maxEpsilon / n * z := by ring
    rw [this, abs_mul, abs_of_nonneg (div_nonneg he hn'.le)]
    calc maxEpsilon / n * |(z : ℝ)| ≤ maxEpsilon / n * n := mul_le_mul_of_nonneg_left hz' (div_nonneg he hn'.le)
      _ = maxEpsilon := by field_simp

/-- C61: the bound is attained: if the gradient keeps its sign, the entry moves by exactly `max_epsilon` in the direction of
the gradient, whatever the number of updates is. -/
theorem C61_attained (split : R → Nat → List R) (maxEpsilon : ℝ) (n : Nat)
    (grad : (ι → ℝ) → Option R → ι → ℝ) (images images' : ι → ℝ) (rng rng' : Option R)
    (h : pgd split maxEpsilon n grad images rng = .ok (images', rng')) (p : ι) (hg : ∀ x r, 0 < grad x r p) :
    images' p = images p + maxEpsilon := by
  unfold pgd at h
  split at h
  · cases h
  · rename_i hn
    simp only [Except.ok.injEq, Prod.mk.injEq] at h
    rw [← h.1]
    have key : ∀ m, pgdLoop (maxEpsilon / n) grad (rng.map fun r => split r (n + 1)) images m p = images p + maxEpsilon / n * m := by
      intro m
      induction m with
      | zero => simp [pgdLoop]
      | succ m ih =>
        unfold pgdLoop pgdUpdate
        rw [ih, sign_pos (hg _ _)]
        push_cast
        simp
        ring
    rw [key]
    have hn' : (n : ℝ) ≠ 0 := by exact_mod_cast hn
    field_simp

/-- C61: it fails only for zero updates. -/
theorem C61_total (split : R → Nat → List R) (maxEpsilon : ℝ) (n : Nat) (grad : (ι → ℝ) → Option R → ι → ℝ) (images : ι → ℝ)
    (rng : Option R) : (∃ r, pgd split maxEpsilon n grad images rng = .ok r) ↔ n ≠ 0 := by
  unfold pgd
  split
  · rename_i h
    simp [h]
  · rename_i h
    simp [h]

/-- C61: the updates use the first `n` of the `n + 1` keys split from the given key; the last one, which is not used, is
returned.  (If two functions are equal with the first `n` keys, the results are the same.) -/
theorem C61_keys (split : R → Nat → List R) (hsplit : ∀ r n, (split r n).length = n) (maxEpsilon : ℝ) (n : Nat) (hn : n ≠ 0)
    (grad grad' : (ι → ℝ) → Option R → ι → ℝ) (images : ι → ℝ) (rng : R)
    (h : ∀ x, ∀ r ∈ (split rng (n + 1)).take n, grad x (some r) = grad' x (some r)) :
    ∃ images' last, pgd split maxEpsilon n grad images (some rng) = .ok (images', some last) ∧
      pgd split maxEpsilon n grad' images (some rng) = .ok (images', some last) ∧ (split rng (n + 1))[n]? = some last := by
  have hlast : ∃ last, (split rng (n + 1)).getLast? = some last ∧ (split rng (n + 1))[n]? = some last := by
    have hl := hsplit rng (n + 1)
    rw [List.getLast?_eq_getElem?, hl]
    refine ⟨(split rng (n + 1))[n]'(by omega), ?_, ?_⟩ <;> simp [hl]
  obtain ⟨last, h1, h2⟩ := hlast
  have key : ∀ m, m ≤ n → pgdLoop (maxEpsilon / n) grad (some (split rng (n + 1))) images m =
      pgdLoop (maxEpsilon / n) grad' (some (split rng (n + 1))) images m := by
    intro m hm
    induction m with
    | zero => rfl
    | succ m ih =>
      unfold pgdLoop pgdUpdate
      rw [ih (by omega)]
      have hlt : m < (split rng (n + 1)).length := by rw [hsplit]; omega
      have he : (some (split rng (n + 1))).bind (·[m]?) = some (split rng (n + 1))[m] := by
        simp [hlt]
      rw [he, h _ _ (by
        rw [List.mem_take_iff_getElem]
        exact ⟨m, by omega, rfl⟩)]
  refine ⟨pgdLoop (maxEpsilon / n) grad (some (split rng (n + 1))) images n, last, ?_, ?_, h2⟩
  · unfold pgd
    rw [if_neg hn]
    simp [h1]
  · unfold pgd
    rw [if_neg hn, key n le_rfl]
    simp [h1]

example : ∃ r, pgd (fun (r : Nat) n => (List.range n).map (10 * r + ·)) 3 2 (fun x r (p : Fin 2) => x p - (r.getD 0 : Nat))
    (fun p => p) (some 1) = .ok r := (C61_total _ _ _ _ _ _).2 (by norm_num)

/-- C61: the attacked image can leave the range of the pixel values, even when the original is inside: it is not clipped. -/
theorem C61_range_counterexample : ∃ images', pgd (fun (_ : Unit) n => List.replicate n ()) 1 1 (fun _ _ (_ : Unit) => 1)
    (fun _ => 1) none = .ok (images', none) ∧ images' () = 2 := by
  refine ⟨_, rfl, ?_⟩
  simp [pgdLoop, pgdUpdate]
  norm_num

/-! ### C62 -/

/-- C62: if the attack and the model treat every example on its own, the statistics are the sums over all real examples of
the dataset, whatever the batches and the fake examples are. -/
theorem C62_totals (attack : List X → R → List X × R) (compute : List X → R → List (Out K)) (g : X → X) (o : X → Out K)
    (T : K → Nat) (hattack : ∀ xs r, (attack xs r).1 = xs.map g) (hcompute : ∀ xs r, compute xs r = xs.map o)
    (hT : ∀ x k, ((o x).cw k).length = T k) (hE : ∀ x k, List.Forall₂ (fun a b => a.length = b.length) ((o x).cw k) ((o (g x)).cw k))
    (rng : R) (batches : List (List X × Option (List Bool)))
    (hb : ∀ b ∈ batches, ∀ v, b.2 = some v → v.length = b.1.length) :
    ∃ s r', runAttack attack compute rng batches = .ok (s, r') ∧
      s.numImages = (batches.flatMap real).length ∧
      s.numChanges = ((batches.flatMap real).filter fun x => decide ((o (g x)).pred ≠ (o x).pred)).length ∧
      s.numCorrect = (((batches.flatMap real).map fun x => (o x).correct).sum,
        ((batches.flatMap real).map fun x => (o (g x)).correct).sum) ∧
      s.sumLoss = (((batches.flatMap real).map fun x => (o x).loss).sum, ((batches.flatMap real).map fun x => (o (g x)).loss).sum) ∧
      ∀ k, s.sumIou k = ((batches.flatMap real).map fun x =>
        (List.zipWith (fun a b => iou (used a) (used b)) ((o x).cw k) ((o (g x)).cw k)).sum / T k).sum := by
  obtain ⟨r', h⟩ := run_totals attack compute g o T hattack hcompute hT batches hb State.create rng
  rw [State.create_add] at h
  refine ⟨_, r', h, rfl, ?_, rfl, rfl, ?_⟩
  · generalize batches.flatMap real = l
    unfold totals
    simp only
    induction l with
    | nil => rfl
    | cons x l ih =>
      rw [List.map_cons, List.sum_cons, ih, List.filter_cons]
      by_cases hx : (o (g x)).pred ≠ (o x).pred
      · simp [hx]; omega
      · simp [hx]
  · intro k
    unfold totals
    simp only
    rw [sum_div]
    congr 1
    apply List.map_congr_left
    intro x _
    congr 2
    have := hE x k
    generalize (o x).cw k = a at this
    generalize (o (g x)).cw k = b at this
    induction this with
    | nil => rfl
    | cons h _ ih => rw [List.zipWith_cons_cons, List.zipWith_cons_cons, ih, tokenIou_eq _ _ h]

/-- C62: two ways of putting the same examples in batches give the same statistics. -/
theorem C62_batching (attack : List X → R → List X × R) (compute : List X → R → List (Out K)) (g : X → X) (o : X → Out K)
    (T : K → Nat) (hattack : ∀ xs r, (attack xs r).1 = xs.map g) (hcompute : ∀ xs r, compute xs r = xs.map o)
    (hT : ∀ x k, ((o x).cw k).length = T k) (rng : R) (batches batches' : List (List X × Option (List Bool)))
    (hb : ∀ b ∈ batches, ∀ v, b.2 = some v → v.length = b.1.length)
    (hb' : ∀ b ∈ batches', ∀ v, b.2 = some v → v.length = b.1.length)
    (hreal : batches.flatMap real = batches'.flatMap real) :
    ∃ s r r', runAttack attack compute rng batches = .ok (s, r) ∧ runAttack attack compute rng batches' = .ok (s, r') := by
  obtain ⟨r, h⟩ := run_totals attack compute g o T hattack hcompute hT batches hb State.create rng
  obtain ⟨r', h'⟩ := run_totals attack compute g o T hattack hcompute hT batches' hb' State.create rng
  rw [← hreal] at h'
  exact ⟨_, r, r', h, h'⟩

/-- C62: whatever the attack and the model do, the number of images is the number of real examples, and no number of correct
predictions or changes, nor the sum of the intersections over unions, exceeds it. -/
theorem C62_bounds (attack : List X → R → List X × R) (compute : List X → R → List (Out K)) (T : K → Nat)
    (hcompute : ∀ xs r, ∀ o ∈ compute xs r, (0 ≤ o.correct ∧ o.correct ≤ 1) ∧ ∀ k, (o.cw k).length = T k)
    (hlen : ∀ xs r, (compute xs r).length = xs.length) (hlen' : ∀ xs r, (attack xs r).1.length = xs.length)
    (rng : R) (batches : List (List X × Option (List Bool))) (s : State K × R)
    (h : runAttack attack compute rng batches = .ok s) :
    s.1.numImages = (batches.flatMap real).length ∧
    0 ≤ s.1.numChanges ∧ s.1.numChanges ≤ s.1.numImages ∧
    0 ≤ s.1.numCorrect.1 ∧ s.1.numCorrect.1 ≤ s.1.numImages ∧ 0 ≤ s.1.numCorrect.2 ∧ s.1.numCorrect.2 ≤ s.1.numImages ∧
    ∀ k, 0 ≤ s.1.sumIou k ∧ s.1.sumIou k ≤ s.1.numImages := by
  obtain ⟨l, h1, h2⟩ := run_pairs attack compute T (fun o => 0 ≤ o.correct ∧ o.correct ≤ 1) hcompute hlen hlen' batches _ s h
  rw [State.create_add] at h1
  rw [h1]
  refine ⟨?_, totals_bounds _ T l ?_⟩
  · rw [← h2]; rfl
  · intro x _
    obtain ⟨p, h3, h4⟩ := x
    exact ⟨h3.1.1, h3.1.2, h4.1.1, h4.1.2, h3.2⟩

/-- C62: so what is reported is between 0 and 1 if there is at least one real example. -/
theorem C62_report_bounds (attack : List X → R → List X × R) (compute : List X → R → List (Out K)) (T : K → Nat)
    (hcompute : ∀ xs r, ∀ o ∈ compute xs r, (0 ≤ o.correct ∧ o.correct ≤ 1) ∧ ∀ k, (o.cw k).length = T k)
    (hlen : ∀ xs r, (compute xs r).length = xs.length) (hlen' : ∀ xs r, (attack xs r).1.length = xs.length)
    (rng : R) (batches : List (List X × Option (List Bool))) (s : State K × R)
    (h : runAttack attack compute rng batches = .ok s) (hne : batches.flatMap real ≠ []) :
    (0 ≤ (report s.1).error0 ∧ (report s.1).error0 ≤ 1) ∧ (0 ≤ (report s.1).errorM ∧ (report s.1).errorM ≤ 1) ∧
    (0 ≤ (report s.1).predictionChanges ∧ (report s.1).predictionChanges ≤ 1) ∧
    ∀ k, 0 ≤ (report s.1).routingChanges k ∧ (report s.1).routingChanges k ≤ 1 := by
  obtain ⟨h0, h1, h2, h3, h4, h5, h6, h7⟩ := C62_bounds attack compute T hcompute hlen hlen' rng batches s h
  have hpos : (0 : ℝ) < s.1.numImages := by
    rw [h0]
    exact_mod_cast List.length_pos_iff.2 hne
  have key : ∀ x : ℝ, 0 ≤ x → x ≤ s.1.numImages → (0 ≤ x / s.1.numImages ∧ x / s.1.numImages ≤ 1) := fun x a b =>
    ⟨div_nonneg a hpos.le, (div_le_one hpos).2 b⟩
  have a1 := key _ h3 h4
  have a2 := key _ h5 h6
  have a3 := key s.1.numChanges (by exact_mod_cast h1) (by exact_mod_cast h2)
  refine ⟨?_, ?_, a3, ?_⟩
  · unfold report; constructor <;> simp only <;> linarith [a1.1, a1.2]
  · unfold report; constructor <;> simp only <;> linarith [a2.1, a2.2]
  · intro k
    have a4 := key _ (h7 k).1 (h7 k).2
    unfold report; constructor <;> simp only <;> linarith [a4.1, a4.2]

theorem sum_one_sub {β : Type} (l : List β) (f : β → ℝ) : (l.map fun x => 1 - f x).sum = l.length - (l.map f).sum := by
  induction l with
  | nil => simp
  | cons x l ih =>
    rw [List.map_cons, List.sum_cons, ih, List.map_cons, List.sum_cons, List.length_cons]
    push_cast
    ring

/-- C62: the numbers that are reported, times the number of real examples, are the sums over the real examples of: the errors
and the losses before and after the attack, the changed predictions, and one minus the mean intersection over union. -/
theorem C62_report (attack : List X → R → List X × R) (compute : List X → R → List (Out K)) (g : X → X) (o : X → Out K)
    (T : K → Nat) (hattack : ∀ xs r, (attack xs r).1 = xs.map g) (hcompute : ∀ xs r, compute xs r = xs.map o)
    (hT : ∀ x k, ((o x).cw k).length = T k) (hE : ∀ x k, List.Forall₂ (fun a b => a.length = b.length) ((o x).cw k) ((o (g x)).cw k))
    (rng : R) (batches : List (List X × Option (List Bool)))
    (hb : ∀ b ∈ batches, ∀ v, b.2 = some v → v.length = b.1.length) (l : List X) (hl : l = batches.flatMap real)
    (hne : l ≠ []) :
    ∃ s r', runAttack attack compute rng batches = .ok (s, r') ∧
      (report s).error0 * l.length = (l.map fun x => 1 - (o x).correct).sum ∧
      (report s).errorM * l.length = (l.map fun x => 1 - (o (g x)).correct).sum ∧
      (report s).loss0 * l.length = (l.map fun x => (o x).loss).sum ∧
      (report s).lossM * l.length = (l.map fun x => (o (g x)).loss).sum ∧
      (report s).predictionChanges * l.length = (l.filter fun x => decide ((o (g x)).pred ≠ (o x).pred)).length ∧
      ∀ k, (report s).routingChanges k * l.length = (l.map fun x =>
        1 - (List.zipWith (fun a b => iou (used a) (used b)) ((o x).cw k) ((o (g x)).cw k)).sum / T k).sum := by
  obtain ⟨s, r', h, h1, h2, h3, h4, h5⟩ := C62_totals attack compute g o T hattack hcompute hT hE rng batches hb
  rw [← hl] at h1 h2 h3 h4
  simp only [← hl] at h5
  have hpos : (l.length : ℝ) ≠ 0 := by exact_mod_cast (List.length_pos_iff.2 hne).ne'
  have hdiv : ∀ x : ℝ, x / (l.length : ℝ) * l.length = x := fun x => by field_simp
  have hnum : (s.numImages : ℝ) = l.length := by rw [h1]; simp
  refine ⟨s, r', h, ?_, ?_, ?_, ?_, ?_, fun k => ?_⟩ <;> unfold report <;> simp only <;> rw [hnum]
  · rw [sub_mul, hdiv, h3, sum_one_sub, one_mul]
  · rw [sub_mul, hdiv, h3, sum_one_sub, one_mul]
  · rw [hdiv, h4]
  · rw [hdiv, h4]
  · rw [hdiv, h2]
    simp
  · rw [sub_mul, hdiv, h5, sum_one_sub, one_mul]

/-- C62: an attack that changes nothing is reported as such, if for every token of a real example some expert is used. -/
theorem C62_unchanged (attack : List X → R → List X × R) (compute : List X → R → List (Out K)) (g : X → X) (o : X → Out K)
    (T : K → Nat) (hattack : ∀ xs r, (attack xs r).1 = xs.map g) (hcompute : ∀ xs r, compute xs r = xs.map o)
    (hT : ∀ x k, ((o x).cw k).length = T k) (hT' : ∀ k, 0 < T k) (rng : R) (batches : List (List X × Option (List Bool)))
    (hb : ∀ b ∈ batches, ∀ v, b.2 = some v → v.length = b.1.length) (hne : batches.flatMap real ≠ [])
    (hsame : ∀ x ∈ batches.flatMap real, o (g x) = o x)
    (hused : ∀ x ∈ batches.flatMap real, ∀ k, ∀ t ∈ (o x).cw k, (used t).Nonempty) :
    ∃ s r', runAttack attack compute rng batches = .ok (s, r') ∧ (report s).predictionChanges = 0 ∧
      ∀ k, (report s).routingChanges k = 0 := by
  obtain ⟨r', h⟩ := run_totals attack compute g o T hattack hcompute hT batches hb State.create rng
  rw [State.create_add] at h
  refine ⟨_, r', h, ?_, ?_⟩
  · unfold report totals
    simp only
    have : ((batches.flatMap real).map fun x => if (o (g x)).pred ≠ (o x).pred then (1 : Int) else 0) =
        (batches.flatMap real).map fun _ => 0 := List.map_congr_left fun x hx => by simp [hsame x hx]
    rw [this]
    simp
  · intro k
    unfold report totals
    simp only
    have : ((batches.flatMap real).map fun x => (List.zipWith tokenIou ((o x).cw k) ((o (g x)).cw k)).sum) =
        (batches.flatMap real).map fun _ => (T k : ℝ) := by
      apply List.map_congr_left
      intro x hx
      rw [hsame x hx, ← hT x k]
      have hu := hused x hx k
      generalize (o x).cw k = l at hu
      induction l with
      | nil => simp
      | cons t l ih =>
        rw [List.zipWith_cons_cons, List.sum_cons, ih fun t' ht' => hu t' (by simp [ht']), tokenIou_eq _ _ rfl,
          iou_self _ (hu t (by simp))]
        simp
        ring
    rw [this]
    have h1 : ((batches.flatMap real).length : ℝ) ≠ 0 := by exact_mod_cast (List.length_pos_iff.2 hne).ne'
    have h2 : (T k : ℝ) ≠ 0 := by exact_mod_cast (hT' k).ne'
    rw [List.map_const', List.sum_replicate, nsmul_eq_mul]
    push_cast
    field_simp
    simp

/-- What the model computes in the counterexample: one router, one token, and no expert has a positive weight. -/
def unrouted : Out Unit := { loss := 0, pred := 0, correct := 1, cw := fun _ => [[0, 0]] }

/-- C62: a token that no expert is used for, before and after the attack, counts as changed. -/
theorem C62_unrouted_counterexample : ∃ s, runAttack (fun xs (r : Unit) => (xs, r)) (fun xs _ => xs.map fun (_ : Unit) => unrouted)
    () [([()], none)] = .ok s ∧ (report s.1).predictionChanges = 0 ∧ (report s.1).routingChanges () = 1 := by
  refine ⟨_, rfl, ?_, ?_⟩
  · simp [report, batchStats, State.add, State.create]
  · simp [report, batchStats, State.add, State.create, unrouted, sumIou, tokenIou]

/-- The hypotheses of C62 are met by a run with two batches, one with a fake example; `true` is classified differently after
the attack. -/
def exOut (x : Bool) : Out Unit :=
  { loss := 1, pred := if x then 1 else 0, correct := if x then 1 else 0, cw := fun _ => [[0, 1], [if x then 1 else 0, 1]] }

example : ∃ s r', runAttack (fun xs (r : Unit) => (xs.map fun _ => false, r)) (fun xs _ => xs.map exOut) ()
    [([true, false], none), ([true, true], some [true, false])] = .ok (s, r') ∧ s.numImages = 3 ∧ s.numChanges = 2 ∧
    s.numCorrect = (2, 0) ∧ s.sumIou () = 5 / 2 := by
  obtain ⟨s, r', h, h1, h2, h3, h4, h5⟩ := C62_totals (K := Unit) (fun xs (r : Unit) => (xs.map fun _ => false, r))
    (fun xs _ => xs.map exOut) (fun _ => false) exOut (fun _ => 2) (fun _ _ => rfl) (fun _ _ => rfl) (fun _ _ => rfl)
    (fun x k => by simp [exOut]) () [([true, false], none), ([true, true], some [true, false])] (by
      intro b hb v hv
      simp only [List.mem_cons, List.not_mem_nil, or_false] at hb
      rcases hb with rfl | rfl
      · cases hv
      · cases hv; rfl)
  refine ⟨s, r', h, ?_, ?_, ?_, ?_⟩
  · rw [h1]; simp [real]
  · rw [h2]; simp [real, exOut]
  · rw [h3]; simp [real, exOut]; norm_num
  · have e1 : used [0, 1] = {1} := by
      ext e
      rw [mem_used]
      constructor
      · rintro ⟨h, h'⟩
        simp at h
        interval_cases e <;> simp at h' ⊢
      · intro h
        simp at h
        subst h
        simp
    have e2 : used [1, 1] = {0, 1} := by
      ext e
      rw [mem_used]
      constructor
      · rintro ⟨h, h'⟩
        simp at h
        interval_cases e <;> simp
      · intro h
        simp at h
        rcases h with rfl | rfl <;> simp
    rw [h5]
    simp [real, exOut, e1, e2, iou]
    norm_num

example : ∃ s r', runAttack (fun xs (r : Unit) => (xs, r)) (fun xs _ => xs.map exOut) ()
    [([true, false], some [true, false])] = .ok (s, r') ∧ (report s).predictionChanges = 0 ∧
      ∀ k, (report s).routingChanges k = 0 := by
  refine C62_unchanged (K := Unit) (fun xs (r : Unit) => (xs, r)) (fun xs _ => xs.map exOut) id exOut (fun _ => 2)
    (fun _ _ => by simp) (fun _ _ => rfl) (fun _ _ => rfl) (by simp) () _ ?_ ?_ (fun _ _ => rfl) ?_
  · intro b hb v hv
    simp only [List.mem_cons, List.not_mem_nil, or_false] at hb
    subst hb
    cases hv
    rfl
  · simp [real]
  · intro x hx k t ht
    refine ⟨1, ?_⟩
    rw [mem_used]
    simp only [exOut, List.mem_cons, List.not_mem_nil, or_false] at ht
    rcases ht with rfl | rfl <;> simp

example (s : State Unit × Unit) (h : runAttack (fun xs (r : Unit) => (xs.map fun _ => false, r)) (fun xs _ => xs.map exOut) ()
    [([true, false], none), ([true, true], some [true, false])] = .ok s) : s.1.numCorrect.1 ≤ s.1.numImages :=
  (C62_bounds _ _ (fun _ => 2) (by
    intro xs r o ho
    obtain ⟨x, _, rfl⟩ := List.mem_map.1 ho
    refine ⟨?_, fun _ => rfl⟩
    cases x <;> simp [exOut]) (by simp) (by simp) _ _ s h).2.2.2.2.1

/-- C62 (remark): the random numbers with which the attacked images of a batch are evaluated are used again to evaluate the
images of the next batch before the attack: here the loss is the number of the generator, and generator 1 gives the loss of
the first batch after the attack and of the second batch before it. -/
theorem C62_keys_reused_counterexample : ∃ s r,
    runAttack (K := Unit) (fun xs (r : ℕ) => (xs, r + 1)) (fun xs r => xs.map fun (w : ℝ) => ⟨w * r, 0, 0, fun _ => []⟩) 0
      [([2], none), ([3], none)] = .ok (s, r) ∧ s.sumLoss = (2 * 0 + 3 * 1, 2 * 1 + 3 * 2) := by
  refine ⟨_, _, rfl, ?_⟩
  simp [State.add, State.create, batchStats]

end Verif.Attack
