import Verif.Model.Attention
import Verif.Props.SoftRouter
import Mathlib.Data.List.FinRange
import Mathlib.GroupTheory.Perm.Fin
import Mathlib.Analysis.Convex.Combination

/-!
# Attention, attention pooling, and the order of the tokens (C102)
-/

namespace Verif.Attention

open Verif Verif.Vit

variable {c H K m : Nat} {M A : Type}

/-- Spec: the score of a key for a query. -/
noncomputable def score (q k : Fin K → ℝ) : ℝ := (∑ j, q j * k j) / Real.sqrt K

/-- Every head of the attention is the mean of the values of the tokens, where the weight of a token is its share of
the exponentials of the scores. -/
theorem C102_attention (eps : ℝ) (p : Mha c H K) (q : Vec c) (x : Seq m c) (f : Fin c) :
    mha eps p q (List.ofFn x) f =
      (∑ h, ∑ j, (∑ i, SoftRouter.share (fun i => score (query eps p h q) (key eps p h (x i))) i *
        ((∑ d, x i d * p.wv d h j) + p.bv h j)) * p.wo h j f) + p.bo f := by
  have hl : ∀ h t, logit eps p h q t = score (query eps p h q) (key eps p h t) := by
    intro h t
    unfold logit score
    rw [Finset.sum_div]
    refine Finset.sum_congr rfl fun j _ => ?_
    ring
  unfold mha
  congr 1
  refine Finset.sum_congr rfl fun h _ => Finset.sum_congr rfl fun j _ => ?_
  congr 1
  unfold head
  simp only [List.map_ofFn, List.sum_ofFn, Function.comp_apply]
  refine Finset.sum_congr rfl fun i _ => ?_
  unfold SoftRouter.share project
  simp only [hl]

theorem mha_perm (eps : ℝ) (p : Mha c H K) (q : Vec c) {x y : List (Vec c)} (h : x.Perm y) :
    mha eps p q x = mha eps p q y := by
  have hh : ∀ k, head eps p k q x = head eps p k q y := by
    intro k
    funext j
    unfold head
    have h1 := (h.map fun t => Real.exp (logit eps p k q t)).sum_eq
    simp only [h1]
    exact (h.map _).sum_eq
  unfold mha
  simp only [hh]

theorem total_pos (eps : ℝ) (p : Mha c H K) (k : Fin H) (q : Vec c) (x : List (Vec c)) (h : x ≠ []) :
    0 < (x.map fun t => Real.exp (logit eps p k q t)).sum := by
  refine List.sum_pos _ ?_ (by simpa using h)
  intro a ha
  obtain ⟨t, -, rfl⟩ := List.mem_map.1 ha
  exact Real.exp_pos _

/-- Every head gives a point between the values of the tokens: it is in the smallest convex set that has them. -/
theorem C102_between (eps : ℝ) (p : Mha c H K) (h : Fin H) (q : Vec c) (x : Seq m c) (hm : 0 < m) :
    head eps p h q (List.ofFn x) ∈
      convexHull ℝ (Set.range fun i j => (∑ d, x i d * p.wv d h j) + p.bv h j) := by
  have ht := total_pos eps p h q (List.ofFn x) (by
    intro e
    have := congrArg List.length e
    simp at this
    omega)
  have hs : head eps p h q (List.ofFn x) = ∑ i, (Real.exp (logit eps p h q (x i)) /
      ((List.ofFn x).map fun t => Real.exp (logit eps p h q t)).sum) •
        fun j => (∑ d, x i d * p.wv d h j) + p.bv h j := by
    funext j
    unfold head
    simp only [Finset.sum_apply, Pi.smul_apply, smul_eq_mul]
    rw [List.map_ofFn, List.sum_ofFn]
    rfl
  rw [hs]
  refine (convex_convexHull ℝ _).sum_mem ?_ ?_ ?_
  · intro i _
    exact (div_pos (Real.exp_pos _) ht).le
  · rw [← Finset.sum_div]
    rw [List.map_ofFn, List.sum_ofFn] at ht ⊢
    exact div_self ht.ne'
  · intro i _
    exact subset_convexHull ℝ _ ⟨i, rfl⟩

/-- The attention pooling does not depend on the order of the tokens. -/
theorem C102_map_head_order (eps : ℝ) (p : MapHead c H K) (x y : List (Vec c)) (h : x.Perm y) :
    mapHead eps p x = mapHead eps p y := by
  unfold mapHead
  rw [mha_perm eps p.attn p.probe h]

theorem sum_flatMap_replicate (n : Nat) (g : Vec c → ℝ) (x : List (Vec c)) :
    ((x.flatMap fun t => List.replicate n t).map g).sum = n * (x.map g).sum := by
  induction x with
  | nil => simp
  | cons t x ih =>
    rw [List.flatMap_cons, List.map_append, List.sum_append, ih, List.map_cons, List.sum_cons, List.map_replicate,
      List.sum_replicate, nsmul_eq_mul]
    ring

/-- Repeating every token the same number of times leaves the attention pooling as it is. -/
theorem C102_map_head_repeat (eps : ℝ) (p : MapHead c H K) (x : List (Vec c)) (n : Nat) (hn : 0 < n) :
    mapHead eps p (x.flatMap fun t => List.replicate n t) = mapHead eps p x := by
  have hn' : (n : ℝ) ≠ 0 := by exact_mod_cast hn.ne'
  have hh : ∀ k, head eps p.attn k p.probe (x.flatMap fun t => List.replicate n t) =
      head eps p.attn k p.probe x := by
    intro k
    funext j
    unfold head
    simp only [sum_flatMap_replicate]
    rw [← List.sum_map_mul_left]
    congr 1
    refine List.map_congr_left fun t _ => ?_
    rw [mul_comm (n : ℝ) (List.sum _), div_mul_eq_div_div, ← mul_assoc, mul_div_cancel₀ _ hn']
  unfold mapHead
  have : mha eps p.attn p.probe (x.flatMap fun t => List.replicate n t) = mha eps p.attn p.probe x := by
    unfold mha
    simp only [hh]
  rw [this]

/-- If all tokens of a sequence are the same vector, the attention pooling only sees its value: probe, queries and keys
do not matter. -/
theorem C102_map_head_equal (eps : ℝ) (p : MapHead c H K) (t : Vec c) (n : Nat) (hn : 0 < n) :
    mapHead eps p (List.replicate n t) =
      (let a : Vec c := fun f => (∑ h, ∑ j, ((∑ d, t d * p.attn.wv d h j) + p.attn.bv h j) * p.attn.wo h j f) +
        p.attn.bo f
      a + p.mlp (layerNorm eps p.scale p.bias a)) := by
  have h1 := C102_map_head_repeat eps p [t] n hn
  simp only [List.flatMap_cons, List.flatMap_nil, List.append_nil] at h1
  rw [h1]
  have ha : mha eps p.attn p.probe [t] = fun f =>
      (∑ h, ∑ j, ((∑ d, t d * p.attn.wv d h j) + p.attn.bv h j) * p.attn.wo h j f) + p.attn.bo f := by
    funext f
    unfold mha head
    simp only [List.map_cons, List.map_nil, List.sum_cons, List.sum_nil, add_zero]
    congr 1
    refine Finset.sum_congr rfl fun h _ => Finset.sum_congr rfl fun j _ => ?_
    rw [div_self (Real.exp_pos _).ne', one_mul]
    rfl
  unfold mapHead
  rw [ha]

/-- The mean of the tokens does not depend on their order. -/
theorem mean_perm {x y : List (Vec c)} (h : x.Perm y) : mean x = mean y := by
  funext f
  unfold mean
  rw [(h.map _).sum_eq, h.length_eq]

theorem foldl_max_eq (f : Fin c) (l : List (Vec c)) (a : ℝ) (b : ℝ) :
    l.foldl (fun m s => max m (s f)) a ≤ b ↔ a ≤ b ∧ ∀ s ∈ l, s f ≤ b := by
  induction l generalizing a with
  | nil => simp
  | cons s l ih =>
    rw [List.foldl_cons, ih, max_le_iff, List.forall_mem_cons, and_assoc]

theorem maximum_le (f : Fin c) (x : List (Vec c)) (hx : x ≠ []) (b : ℝ) :
    maximum x f ≤ b ↔ ∀ s ∈ x, s f ≤ b := by
  cases x with
  | nil => exact absurd rfl hx
  | cons t l =>
    unfold maximum
    rw [foldl_max_eq, List.forall_mem_cons]

theorem maximum_perm {x y : List (Vec c)} (h : x.Perm y) : maximum x = maximum y := by
  by_cases hx : x = []
  · subst hx
    rw [h.nil_eq]
  · have hy : y ≠ [] := by
      rintro rfl
      exact hx h.eq_nil
    funext f
    refine eq_of_forall_ge_iff fun b => ?_
    rw [maximum_le f x hx, maximum_le f y hy]
    exact ⟨fun g s hs => g s (h.mem_iff.2 hs), fun g s hs => g s (h.mem_iff.1 hs)⟩

theorem map_perm_eq {β : Type} (g : List (Vec c) → β) (hg : ∀ x y, x.Perm y → g x = g y)
    (x y : List (List (Vec c))) (h : List.Forall₂ List.Perm x y) : x.map g = y.map g := by
  induction h with
  | nil => rfl
  | cons h _ ih => rw [List.map_cons, List.map_cons, hg _ _ h, ih]

/-- The poolings `gap`, `gmp` and `map` of a batch do not depend on the order of the tokens of its sequences. -/
theorem C102_pooling_order (eps : ℝ) (p : MapHead c H K) (pool : List Char)
    (hp : pool ∈ ["gap".toList, "gmp".toList, "map".toList]) (x y : List (List (Vec c)))
    (h : List.Forall₂ List.Perm x y) :
    applyPooling pool (mapHead eps p) x = applyPooling pool (mapHead eps p) y ∧
      ∃ z, applyPooling pool (mapHead eps p) x = .ok z := by
  have e1 := map_perm_eq mean (fun _ _ => mean_perm) x y h
  have e2 := map_perm_eq maximum (fun _ _ => maximum_perm) x y h
  have e3 := map_perm_eq (mapHead eps p) (C102_map_head_order eps p) x y h
  simp only [List.mem_cons, List.not_mem_nil, or_false] at hp
  unfold applyPooling
  rw [← e1, ← e2, ← e3]
  rcases hp with rfl | rfl | rfl
  · refine ⟨?_, x.map mean, ?_⟩ <;> simp
  · refine ⟨?_, x.map maximum, ?_⟩ <;> simp
  · refine ⟨?_, x.map (mapHead eps p), ?_⟩ <;> simp

/-- The pooling `first` does depend on the order. -/
theorem C102_first_counterexample :
    ∃ x y : List (List (Vec 1)), List.Forall₂ List.Perm x y ∧ ∀ g : List (Vec 1) → Vec 1,
      applyPooling "first".toList g x ≠ applyPooling "first".toList g y := by
  refine ⟨[[fun _ => 0, fun _ => 1]], [[fun _ => 1, fun _ => 0]], ?_, ?_⟩
  · exact List.Forall₂.cons (List.Perm.swap _ _ _) List.Forall₂.nil
  · intro g e
    have : (fun _ : Fin 1 => (0 : ℝ)) = fun _ => 1 := by
      simpa [applyPooling] using e
    exact absurd (congrFun this 0) (by norm_num)

/-- Spec: a sequence with its tokens permuted. -/
def permuted (s : Equiv.Perm (Fin m) × Seq m c) : Seq m c := fun i => s.2 (s.1 i)

/-- Spec: a function of a batch treats the tokens as a set: if the tokens of every sequence are permuted, each sequence
of the result is permuted in the same way. -/
def Commutes (F : List (Seq m c) → Except PyErr (List (Seq m c) × M)) : Prop :=
  ∀ (s : List (Equiv.Perm (Fin m) × Seq m c)) y info, F (s.map Prod.snd) = .ok (y, info) →
    ∃ (t : List (Equiv.Perm (Fin m) × Seq m c)) (info' : M), t.map Prod.fst = s.map Prod.fst ∧ t.map Prod.snd = y ∧
      F (s.map permuted) = .ok (t.map permuted, info')

theorem attn_perm (eps : ℝ) (p : Block c H K) (s : Equiv.Perm (Fin m) × Seq m c) :
    (blockFns eps m p).attn (permuted s) = permuted (s.1, (blockFns eps m p).attn s.2) := by
  funext i
  unfold blockFns permuted
  simp only
  refine mha_perm eps p.attn _ ?_
  exact Equiv.Perm.ofFn_comp_perm s.1 fun i => layerNorm eps p.scale1 p.bias1 (s.2 i)

theorem map_fst_id {α β : Type*} (g : α → β → β) (s : List (α × β)) :
    (s.map fun q => (q.1, g q.1 q.2)).map Prod.fst = s.map Prod.fst := by
  rw [List.map_map]
  rfl

theorem attention_perm (eps : ℝ) (p : Block c H K) (s : List (Equiv.Perm (Fin m) × Seq m c)) :
    ∃ t : List (Equiv.Perm (Fin m) × Seq m c), t.map Prod.fst = s.map Prod.fst ∧
      t.map Prod.snd = Encoder.attention (blockFns eps m p) (s.map Prod.snd) ∧
      t.map permuted = Encoder.attention (blockFns eps m p) (s.map permuted) := by
  refine ⟨s.map fun q => (q.1, (blockFns eps m p).attn q.2 + q.2), ?_, ?_, ?_⟩
  · rw [List.map_map]
    rfl
  · unfold Encoder.attention
    rw [List.map_map, List.map_map]
    rfl
  · unfold Encoder.attention
    rw [List.map_map, List.map_map]
    refine List.map_congr_left fun q _ => ?_
    simp only [Function.comp_apply]
    rw [attn_perm]
    rfl

theorem map_tokens (g : Vec c → Vec c) (s : List (Equiv.Perm (Fin m) × Seq m c)) :
    ∃ t : List (Equiv.Perm (Fin m) × Seq m c), t.map Prod.fst = s.map Prod.fst ∧
      t.map Prod.snd = (s.map Prod.snd).map (fun y i => g (y i)) ∧
      t.map permuted = (s.map permuted).map (fun y i => g (y i)) := by
  refine ⟨s.map fun q => (q.1, fun i => g (q.2 i)), ?_, ?_, ?_⟩ <;> rw [List.map_map]
  · rfl
  · rw [List.map_map]; rfl
  · rw [List.map_map]; rfl

theorem zip_add (s t : List (Equiv.Perm (Fin m) × Seq m c)) (h : t.map Prod.fst = s.map Prod.fst) :
    ∃ u : List (Equiv.Perm (Fin m) × Seq m c), u.map Prod.fst = s.map Prod.fst ∧
      u.map Prod.snd = List.zipWith (· + ·) (s.map Prod.snd) (t.map Prod.snd) ∧
      u.map permuted = List.zipWith (· + ·) (s.map permuted) (t.map permuted) := by
  induction s generalizing t with
  | nil => exact ⟨[], rfl, rfl, rfl⟩
  | cons a s ih =>
    cases t with
    | nil => simp at h
    | cons b t =>
      simp only [List.map_cons, List.cons.injEq] at h
      obtain ⟨u, h1, h2, h3⟩ := ih t h.2
      refine ⟨(a.1, a.2 + b.2) :: u, ?_, ?_, ?_⟩
      · simp [h1]
      · simp [h2]
      · simp only [List.map_cons, List.zipWith_cons_cons, h3]
        congr 1
        funext i
        unfold permuted
        change a.2 (a.1 i) + b.2 (a.1 i) = a.2 (a.1 i) + b.2 (b.1 i)
        rw [h.1]

theorem dense_perm (eps : ℝ) (p : Block c H K) (mlp : Vec c → Vec c) (s : List (Equiv.Perm (Fin m) × Seq m c)) :
    ∃ t : List (Equiv.Perm (Fin m) × Seq m c), t.map Prod.fst = s.map Prod.fst ∧
      t.map Prod.snd = Encoder.denseBlock (blockFns eps m p) (fun y i => mlp (y i)) (s.map Prod.snd) ∧
      t.map permuted = Encoder.denseBlock (blockFns eps m p) (fun y i => mlp (y i)) (s.map permuted) := by
  obtain ⟨a, a1, a2, a3⟩ := attention_perm eps p s
  obtain ⟨b, b1, b2, b3⟩ := map_tokens (fun v => layerNorm eps p.scale2 p.bias2 v) a
  obtain ⟨d, d1, d2, d3⟩ := map_tokens mlp b
  obtain ⟨u, u1, u2, u3⟩ := zip_add a d (d1.trans b1)
  refine ⟨u, u1.trans a1, ?_, ?_⟩
  · rw [u2, d2, b2, a2]
    rfl
  · rw [u3, d3, b3, a3]
    rfl

theorem moe_perm (eps : ℝ) (p : Block c H K) (moe : List (Seq m c) → Except PyErr (List (Seq m c) × M))
    (hm : Commutes moe) : Commutes (Encoder.moeBlock (blockFns eps m p) moe) := by
  intro s y info h
  obtain ⟨a, a1, a2, a3⟩ := attention_perm eps p s
  obtain ⟨b, b1, b2, b3⟩ := map_tokens (fun v => layerNorm eps p.scale2 p.bias2 v) a
  have hb2 : (Encoder.attention (blockFns eps m p) (s.map Prod.snd)).map (blockFns eps m p).norm =
      b.map Prod.snd := by rw [b2, a2]; rfl
  have hb3 : (Encoder.attention (blockFns eps m p) (s.map permuted)).map (blockFns eps m p).norm =
      b.map permuted := by rw [b3, a3]; rfl
  unfold Encoder.moeBlock at h ⊢
  simp only [hb2] at h
  simp only [hb3]
  cases hr : moe (b.map Prod.snd) with
  | error e => rw [hr] at h; cases h
  | ok r =>
    rw [hr] at h
    obtain ⟨z, i⟩ := r
    obtain ⟨d, i', d1, d2, d3⟩ := hm b z i hr
    obtain ⟨u, u1, u2, u3⟩ := zip_add a d (d1.trans b1)
    refine ⟨u, i', u1.trans a1, ?_, ?_⟩
    · rw [u2, d2, a2]
      injection h with h
      exact (Prod.mk.inj h).1
    · rw [d3]
      simp only
      rw [u3, a3]

theorem loop_perm (eps : ℝ) (p : Params m c H K M) (moeLayers : List Int)
    (hm : ∀ b : Nat, (b : Int) ∈ moeLayers → Commutes (p.moe b)) (blocks : List Nat)
    (s : List (Equiv.Perm (Fin m) × Seq m c)) (d d' : PyDict (List Char) M) (y : List (Seq m c))
    (info : PyDict (List Char) M)
    (h : Encoder.loop (layers eps p) moeLayers blocks (s.map Prod.snd) d = .ok (y, info)) :
    ∃ (t : List (Equiv.Perm (Fin m) × Seq m c)) (info' : PyDict (List Char) M), t.map Prod.fst = s.map Prod.fst ∧
      t.map Prod.snd = y ∧
      Encoder.loop (layers eps p) moeLayers blocks (s.map permuted) d' = .ok (t.map permuted, info') := by
  induction blocks generalizing s d d' with
  | nil =>
    injection h with h
    exact ⟨s, d', rfl, (Prod.mk.inj h).1, rfl⟩
  | cons b rest ih =>
    unfold Encoder.loop at h ⊢
    by_cases hb : (b : Int) ∈ moeLayers
    · rw [if_pos hb] at h ⊢
      cases hr : Encoder.moeBlock ((layers eps p).fns b) ((layers eps p).moe b) (s.map Prod.snd) with
      | error e => rw [hr] at h; cases h
      | ok r =>
        rw [hr] at h
        obtain ⟨z, i⟩ := r
        obtain ⟨a, i', a1, a2, a3⟩ := moe_perm eps (p.block b) (p.moe b) (hm b hb) s z i hr
        have a3' : Encoder.moeBlock ((layers eps p).fns b) ((layers eps p).moe b) (s.map permuted) =
          .ok (a.map permuted, i') := a3
        rw [a3']
        simp only at h ⊢
        rw [← a2] at h
        obtain ⟨t, info', t1, t2, t3⟩ := ih a _ (d'.set (Encoder.blockName b) i') h
        exact ⟨t, info', t1.trans a1, t2, t3⟩
    · rw [if_neg hb] at h ⊢
      obtain ⟨a, a1, a2, a3⟩ := dense_perm eps (p.block b) (p.mlp b) s
      have h' : Encoder.loop (layers eps p) moeLayers rest (a.map Prod.snd) d = .ok (y, info) := by
        rw [a2]
        exact h
      obtain ⟨t, info', t1, t2, t3⟩ := ih a d d' h'
      refine ⟨t, info', t1.trans a1, t2, ?_⟩
      rw [← t3, a3]
      rfl

theorem mapM_perm (pre : Seq m c → Except PyErr (Seq m c))
    (hp : ∀ (σ : Equiv.Perm (Fin m)) v w, pre v = .ok w → pre (fun i => v (σ i)) = .ok fun i => w (σ i))
    (s : List (Equiv.Perm (Fin m) × Seq m c)) (x : List (Seq m c)) (h : (s.map Prod.snd).mapM pre = .ok x) :
    ∃ t : List (Equiv.Perm (Fin m) × Seq m c), t.map Prod.fst = s.map Prod.fst ∧ t.map Prod.snd = x ∧
      (s.map permuted).mapM pre = .ok (t.map permuted) := by
  induction s generalizing x with
  | nil =>
    rw [List.map_nil, List.mapM_nil] at h
    injection h with h
    exact ⟨[], rfl, h, rfl⟩
  | cons a s ih =>
    rw [List.map_cons, List.mapM_cons] at h
    cases h1 : pre a.2 with
    | error e => rw [h1] at h; cases h
    | ok w =>
      rw [h1] at h
      change ((s.map Prod.snd).mapM pre >>= fun r => Except.ok (w :: r)) = _ at h
      cases h2 : (s.map Prod.snd).mapM pre with
      | error e => rw [h2] at h; cases h
      | ok r =>
        rw [h2] at h
        injection h with h
        obtain ⟨t, t1, t2, t3⟩ := ih r h2
        refine ⟨(a.1, w) :: t, ?_, ?_, ?_⟩
        · simp [t1]
        · rw [List.map_cons, t2]
          exact h
        · rw [List.map_cons, List.mapM_cons]
          have : pre (permuted a) = .ok (permuted (a.1, w)) := hp a.1 a.2 w h1
          rw [this]
          change ((s.map permuted).mapM pre >>= fun r => Except.ok (permuted (a.1, w) :: r)) = _
          rw [t3]
          rfl

/-- The whole batch in the same order, and each sequence reversed: a layer that adds the sum of the tokens to every token
treats them as a set. -/
example : Commutes (m := 3) (c := 1) (M := Unit)
    (fun x => .ok (x.map (fun v i f => v i f + ∑ j, v j f), ())) := by
  intro s y info h
  injection h with h
  refine ⟨s.map fun q => (q.1, fun i f => q.2 i f + ∑ j, q.2 j f), (), ?_, ?_, ?_⟩
  · rw [List.map_map]
    rfl
  · rw [List.map_map, ← (Prod.mk.inj h).1, List.map_map]
    rfl
  · simp only
    rw [List.map_map, List.map_map]
    congr 2
    refine List.map_congr_left fun q _ => ?_
    funext i f
    change q.2 (q.1 i) f + ∑ j, q.2 (q.1 j) f = q.2 (q.1 i) f + ∑ j, q.2 j f
    rw [Equiv.sum_comp q.1 fun j => q.2 j f]

/-- Apart from the position embedding the encoder treats the tokens of a sequence as a set: permuting the tokens of
every sequence permutes the encoded tokens of that sequence in the same way, if this is so for what comes before the
blocks and for the MoE layers. -/
theorem C102_encoder_order [AddMonoid A] (eps : ℝ) (p : Params m c H K M) (aux : M → A)
    (pre : Seq m c → Except PyErr (Seq m c))
    (hp : ∀ (σ : Equiv.Perm (Fin m)) v w, pre v = .ok w → pre (fun i => v (σ i)) = .ok fun i => w (σ i))
    (numLayers : Nat) (moeLayers : List Int)
    (hm : ∀ b : Nat, (b : Int) ∈ moeLayers → Commutes (p.moe b)) :
    Commutes (encoder eps p aux pre numLayers moeLayers) := by
  intro s y info h
  unfold encoder Encoder.encoderMoe at h ⊢
  cases h1 : (s.map Prod.snd).mapM pre with
  | error e => rw [h1] at h; cases h
  | ok x =>
    rw [h1] at h
    simp only at h
    obtain ⟨a, a1, a2, a3⟩ := mapM_perm pre hp s x h1
    rw [a3]
    simp only
    cases h2 : Encoder.loop (layers eps p) moeLayers (List.range numLayers) x [] with
    | error e => rw [h2] at h; cases h
    | ok r =>
      rw [h2] at h
      obtain ⟨z, i⟩ := r
      rw [← a2] at h2
      obtain ⟨b, i', b1, b2, b3⟩ := loop_perm eps p moeLayers hm _ a [] [] z i h2
      rw [b3]
      simp only at h ⊢
      obtain ⟨t, t1, t2, t3⟩ := map_tokens (fun v => layerNorm eps p.scale p.bias v) b
      refine ⟨t, _, t1.trans (b1.trans a1), ?_, by rw [t3]⟩
      rw [t2, b2]
      injection h with h
      exact (Prod.mk.inj h).1

theorem list_of_fn {B : Nat} (s : List (Equiv.Perm (Fin m) × Seq m c)) (hs : s.length = B)
    (y : Fin B → Fin m → Vec c) :
    ∃ t : List (Equiv.Perm (Fin m) × Seq m c), t.map Prod.fst = s.map Prod.fst ∧ t.map Prod.snd = List.ofFn y ∧
      t.map permuted = List.ofFn fun (g : Fin B) i => y g ((s.get (g.cast hs.symm)).1 i) := by
  subst hs
  refine ⟨List.ofFn fun g => ((s.get g).1, y g), ?_, ?_, ?_⟩
  · rw [List.map_ofFn]
    refine List.ext_getElem (by simp) ?_
    intro i h1 h2
    simp
  · rw [List.map_ofFn]
    rfl
  · rw [List.map_ofFn]
    rfl

/-- The soft MoE layer without noise, with one group per sequence, treats the tokens of a sequence as a set. -/
theorem C102_soft_order {P : Type} (fl : ℚ → ℚ) (eps : ℝ) (cfg : SoftRouter.Config)
    (hdet : cfg.deterministic = true ∨ cfg.noiseStd ≤ 0) (mu : SoftRouter.Mu) (scale : ℝ)
    (rng : Option SoftRouter.Normal) (params : Fin cfg.numExperts → P) (f : P → Vec c → Vec c) :
    Commutes (m := m) (softBlock fl eps cfg mu scale rng params f) := by
  intro s y info h
  unfold softBlock at h ⊢
  -- the layer on lists of a given length
  have key : ∀ (B : Nat) (x : List (Seq m c)) (hB : x.length = B),
      SoftRouter.layer fl eps cfg mu scale rng params f (fun g : Fin x.length => x.get g) =
        (SoftRouter.layer fl eps cfg mu scale rng params f
          (fun g : Fin B => x.get (g.cast hB.symm))).map (fun y g => y (g.cast hB)) := by
    intro B x hB
    subst hB
    simp only [Fin.cast_refl, id]
    cases SoftRouter.layer fl eps cfg mu scale rng params f (fun g : Fin x.length => x.get g) <;> rfl
  have ofc : ∀ (B B' : Nat) (hB : B' = B) (y : Fin B → Fin m → Vec c),
      List.ofFn (fun g : Fin B' => y (g.cast hB)) = List.ofFn y := by
    intro B B' hB y
    subst hB
    rfl
  rw [key s.length (s.map Prod.snd) (by simp)] at h
  rw [key s.length (s.map permuted) (by simp)]
  cases hr : SoftRouter.layer fl eps cfg mu scale rng params f
      (fun g : Fin s.length => (s.map Prod.snd).get (g.cast (by simp))) with
  | error e => rw [hr] at h; cases h
  | ok z =>
    rw [hr] at h
    obtain ⟨t, t1, t2, t3⟩ := list_of_fn s rfl z
    have hz := SoftRouter.C100_permutation fl eps cfg hdet mu scale rng params f _ z
      (fun g => (s.get g).1) hr
    have hx : (fun (g : Fin s.length) i => (s.map Prod.snd).get (g.cast (by simp)) ((s.get g).1 i)) =
        fun g : Fin s.length => (s.map permuted).get (g.cast (by simp)) := by
      funext g i
      simp [permuted]
    rw [hx] at hz
    refine ⟨t, (), t1, ?_, ?_⟩
    · rw [t2]
      simp only [Except.map] at h
      injection h with h
      rw [← (Prod.mk.inj h).1, ofc]
    · rw [hz]
      simp only [Except.map]
      rw [ofc s.length _ _ fun g i => z g ((s.get g).1 i), t3]
      rfl

theorem perm_of_list {α : Type} (x y : List α) (h : x.Perm y) :
    ∃ σ : Equiv.Perm (Fin x.length), y = List.ofFn fun i => x.get (σ i) := by
  have hl := h.length_eq
  obtain ⟨σ, hσ⟩ : ∃ σ : Equiv.Perm (Fin x.length), ∀ i, x.get (σ i) = y.get (i.cast hl) := by
    induction h with
    | nil => exact ⟨Equiv.refl _, fun i => i.elim0⟩
    | cons a h ih =>
      rename_i l1 l2
      obtain ⟨σ, hs⟩ := ih h.length_eq
      refine ⟨Equiv.Perm.decomposeFin.symm (0, σ), fun i => ?_⟩
      refine Fin.cases ?_ (fun i => ?_) i
      · simp [Equiv.Perm.decomposeFin_symm_apply_zero]
      · have := hs i
        simpa [Equiv.Perm.decomposeFin_symm_apply_succ] using this
    | swap a b l =>
      refine ⟨Equiv.swap 0 1, fun i => ?_⟩
      refine Fin.cases ?_ (fun i => ?_) i
      · simp
      · refine Fin.cases ?_ (fun i => ?_) i
        · simp
        · rw [Equiv.swap_apply_of_ne_of_ne]
          · rfl
          · exact Fin.succ_ne_zero _
          · intro e
            have := congrArg Fin.val e
            simp at this
    | trans h1 h2 ih1 ih2 =>
      obtain ⟨σ, hs⟩ := ih1 h1.length_eq
      obtain ⟨τ, ht⟩ := ih2 h2.length_eq
      refine ⟨((finCongr h1.length_eq).trans (τ.trans (finCongr h1.length_eq).symm)).trans σ, fun i => ?_⟩
      have a := hs (((finCongr h1.length_eq).trans (τ.trans (finCongr h1.length_eq).symm)) i)
      have b := ht (i.cast h1.length_eq)
      simp only [Equiv.trans_apply] at a ⊢
      rw [a]
      simpa using b
  refine ⟨σ, ?_⟩
  refine List.ext_getElem (by simp [hl]) ?_
  intro i h1 h2
  have := hσ ⟨i, by simpa using h2⟩
  simpa using this.symm

theorem batch_perm (embedding : Nat → Vec c) (text text' : List (List Nat)) (hm : ∀ s ∈ text, s.length = m)
    (h : List.Forall₂ List.Perm text text') :
    ∃ s : List (Equiv.Perm (Fin m) × Seq m c),
      s.map Prod.snd = (text.map (·.map embedding)).map (fun t (i : Fin m) => t.getD i 0) ∧
      s.map permuted = (text'.map (·.map embedding)).map (fun t (i : Fin m) => t.getD i 0) := by
  induction h with
  | nil => exact ⟨[], rfl, rfl⟩
  | cons h _ ih =>
    rename_i a b l l' _
    obtain ⟨s, s1, s2⟩ := ih fun t ht => hm t (List.mem_cons_of_mem _ ht)
    have ha : a.length = m := hm a List.mem_cons_self
    subst ha
    obtain ⟨σ, hσ⟩ := perm_of_list a b h
    refine ⟨(σ, fun i => (a.map embedding).getD i 0) :: s, ?_, ?_⟩
    · rw [List.map_cons, s1]
      rfl
    · rw [List.map_cons, s2]
      simp only [List.map_cons, List.cons.injEq, and_true]
      funext i
      unfold permuted
      simp only
      have h1 : b[(i : Nat)]? = some (a.get (σ i)) := by
        rw [hσ, List.getElem?_ofFn]
        simp
      rw [List.getD_eq_getElem?_getD, List.getD_eq_getElem?_getD, List.getElem?_map, List.getElem?_map, h1,
        List.getElem?_eq_getElem (σ i).isLt]
      rfl

theorem positioned_none (pe : List (Vec c)) (v : Seq m c) :
    positioned (some (some { name := some "none".toList })) pe v = .ok v := by
  unfold positioned addPositionEmb
  simp only [Option.getD_some, if_true]
  congr 1
  funext i
  simp

theorem forall₂_perm (t : List (Equiv.Perm (Fin m) × Seq m c)) :
    List.Forall₂ List.Perm ((t.map Prod.snd).map List.ofFn) ((t.map permuted).map List.ofFn) := by
  induction t with
  | nil => exact List.Forall₂.nil
  | cons a t ih =>
    refine List.Forall₂.cons ?_ ih
    exact (Equiv.Perm.ofFn_comp_perm a.1 a.2).symm

/-- A text model without position embedding and with a pooling over the tokens is a function of the bag of words: if
the words of every text are permuted, the result is the same. -/
theorem C102_text_order [AddMonoid A] (eps : ℝ) (p : Params m c H K M) (pe : List (Vec c)) (aux : M → A)
    (numLayers : Nat) (moeLayers : List Int) (hm : ∀ b : Nat, (b : Int) ∈ moeLayers → Commutes (p.moe b))
    (q : MapHead c H K) (pool : List Char) (hp : pool ∈ ["gap".toList, "gmp".toList, "map".toList])
    (embedding : Nat → Vec c) (num_classes : Option Nat) (hd : Nat → Vec c → List ℝ)
    (text text' : List (List Nat)) (hlen : ∀ s ∈ text, s.length = m) (h : List.Forall₂ List.Perm text text')
    (out : Out c) (info : PyDict (List Char) (Encoder.Metric M A))
    (hr : textTransformer embedding pool num_classes (mapHead eps q) hd
      (some (some { name := some "none".toList })) (textEncoder eps p pe aux numLayers moeLayers) text =
        .ok (out, info)) :
    ∃ info', textTransformer embedding pool num_classes (mapHead eps q) hd
      (some (some { name := some "none".toList })) (textEncoder eps p pe aux numLayers moeLayers) text' =
        .ok (out, info') := by
  have hc := C102_encoder_order eps p aux (positioned (some (some { name := some "none".toList })) pe)
    (by
      intro σ v w hv
      rw [positioned_none] at hv ⊢
      injection hv with hv
      rw [hv]) numLayers moeLayers hm
  obtain ⟨s, s1, s2⟩ := batch_perm embedding text text' hlen h
  have hn : ¬ (some "none".toList = some "sincos2d".toList) := by decide
  unfold textTransformer at hr ⊢
  simp only [if_neg hn] at hr ⊢
  unfold textEncoder encoderLists at hr ⊢
  rw [← s1] at hr
  rw [← s2]
  cases he : encoder eps p aux (positioned (some (some { name := some "none".toList })) pe) numLayers moeLayers
      (s.map Prod.snd) with
  | error e => rw [he] at hr; cases hr
  | ok r =>
    rw [he] at hr
    obtain ⟨y, i⟩ := r
    obtain ⟨t, i', t1, t2, t3⟩ := hc s y i he
    rw [t3]
    simp only at hr ⊢
    obtain ⟨e1, z, e2⟩ := C102_pooling_order eps q pool hp _ _ (forall₂_perm t)
    rw [← e1, e2]
    rw [← t2, e2] at hr
    simp only at hr ⊢
    injection hr with hr
    exact ⟨i', by rw [← (Prod.mk.inj hr).1]⟩

theorem loop_runs (eps : ℝ) (p : Params m c H K M) (moeLayers : List Int) (hm : ∀ b x, ∃ r, p.moe b x = .ok r)
    (blocks : List Nat) (x : List (Seq m c)) (d : PyDict (List Char) M) :
    ∃ r, Encoder.loop (layers eps p) moeLayers blocks x d = .ok r := by
  induction blocks generalizing x d with
  | nil => exact ⟨_, rfl⟩
  | cons b rest ih =>
    unfold Encoder.loop
    by_cases hb : (b : Int) ∈ moeLayers
    · rw [if_pos hb]
      obtain ⟨r, hr⟩ := hm b ((Encoder.attention ((layers eps p).fns b) x).map ((layers eps p).fns b).norm)
      have : Encoder.moeBlock ((layers eps p).fns b) ((layers eps p).moe b) x =
          .ok (List.zipWith (· + ·) (Encoder.attention ((layers eps p).fns b) x) r.1, r.2) := by
        unfold Encoder.moeBlock
        simp only
        rw [show (layers eps p).moe b _ = _ from hr]
      rw [this]
      exact ih _ _
    · rw [if_neg hb]
      exact ih _ _

theorem text_runs [AddMonoid A] (eps : ℝ) (p : Params m c H K M) (pe : List (Vec c)) (aux : M → A)
    (numLayers : Nat) (moeLayers : List Int) (hm : ∀ b x, ∃ r, p.moe b x = .ok r)
    (q : MapHead c H K) (pool : List Char) (hp : pool ∈ ["gap".toList, "gmp".toList, "map".toList])
    (embedding : Nat → Vec c) (num_classes : Option Nat) (hd : Nat → Vec c → List ℝ) (text : List (List Nat)) :
    ∃ r, textTransformer embedding pool num_classes (mapHead eps q) hd
      (some (some { name := some "none".toList })) (textEncoder eps p pe aux numLayers moeLayers) text = .ok r := by
  have hn : ¬ (some "none".toList = some "sincos2d".toList) := by decide
  unfold textTransformer
  simp only [if_neg hn]
  unfold textEncoder encoderLists encoder Encoder.encoderMoe
  have hpre : ∀ x : List (Seq m c), x.mapM (positioned (some (some { name := some "none".toList })) pe) = .ok x := by
    intro x
    induction x with
    | nil => rfl
    | cons v x ih =>
      rw [List.mapM_cons, positioned_none]
      change (x.mapM _ >>= fun r => Except.ok (v :: r)) = _
      rw [ih]
      rfl
  rw [hpre]
  simp only
  obtain ⟨r, hr⟩ := loop_runs eps p moeLayers hm (List.range numLayers)
    ((text.map (·.map embedding)).map fun s (i : Fin m) => s.getD i 0) []
  rw [hr]
  simp only
  obtain ⟨-, z, hz⟩ := C102_pooling_order eps q pool hp
    ((r.1.map fun y i => layerNorm eps p.scale p.bias (y i)).map List.ofFn) _
    (List.forall₂_same.2 fun _ _ => List.Perm.refl _)
  rw [hz]
  exact ⟨_, rfl⟩

/-- Parameters of two blocks, for the examples. -/
noncomputable def exParams : Params 2 2 1 1 Unit where
  block _ := ⟨fun _ => 1, fun _ => 0, ⟨fun _ _ _ => 1, fun _ _ => 0, fun _ _ _ => 1, fun _ _ => 0, fun _ _ _ => 1,
    fun _ _ => 0, none, fun _ _ _ => 1, fun _ => 0⟩, fun _ => 1, fun _ => 0⟩
  mlp _ v := v + v
  moe _ x := .ok (x, ())
  scale _ := 1
  bias _ := 0

/-- Two words, for the examples. -/
noncomputable def exEmbedding : Nat → Vec 2
  | 0 => fun _ => 0
  | _ + 1 => fun f => if f = 0 then 1 else 0

/-- Two blocks, the second with a MoE layer: the same representation for both orders of the words. -/
example (eps : ℝ) (q : MapHead 2 1 1) : ∃ out info info',
    textTransformer exEmbedding "map".toList none (mapHead eps q) (fun _ _ => [])
      (some (some { name := some "none".toList })) (textEncoder eps exParams [] (fun _ : Unit => (0 : ℝ)) 2 [1])
        [[0, 1], [1, 1]] = .ok (out, info) ∧
    textTransformer exEmbedding "map".toList none (mapHead eps q) (fun _ _ => [])
      (some (some { name := some "none".toList })) (textEncoder eps exParams [] (fun _ : Unit => (0 : ℝ)) 2 [1])
        [[1, 0], [1, 1]] = .ok (out, info') := by
  have hm : ∀ b : Nat, (b : Int) ∈ [(1 : Int)] → Commutes (exParams.moe b) := by
    intro b _ s y info h
    injection h with h
    exact ⟨s, (), rfl, (Prod.mk.inj h).1, rfl⟩
  have hr : ∃ r, textTransformer exEmbedding "map".toList none (mapHead eps q) (fun _ _ => [])
      (some (some { name := some "none".toList })) (textEncoder eps exParams [] (fun _ : Unit => (0 : ℝ)) 2 [1])
        [[0, 1], [1, 1]] = .ok r := by
    exact text_runs eps exParams [] _ 2 [1] (fun b x => ⟨(x, ()), rfl⟩) q _ (by simp) _ _ _ _
  obtain ⟨⟨out, info⟩, hr⟩ := hr
  obtain ⟨info', h'⟩ := C102_text_order eps exParams [] (fun _ : Unit => (0 : ℝ)) 2 [1] hm q "map".toList (by simp)
    exEmbedding none (fun _ _ => []) [[0, 1], [1, 1]] [[1, 0], [1, 1]] (by simp)
    (List.Forall₂.cons (List.Perm.swap _ _ _) (List.Forall₂.cons (List.Perm.refl _) List.Forall₂.nil)) out info hr
  exact ⟨out, info, info', hr, h'⟩

/-- A position embedding, for the examples. -/
noncomputable def exPe : List (Vec 2) := [fun _ => 0, fun f => if f = 0 then 0 else 1]

theorem ex_learned (eps : ℝ) (pool : List Char) (g : List (Vec 2) → Vec 2) (a b : Nat) :
    textTransformer exEmbedding pool none g (fun _ _ => []) (some (some { name := some "learned".toList }))
      (textEncoder eps exParams exPe (fun _ : Unit => (0 : ℝ)) 0 []) [[a, b]] =
    match applyPooling pool g [[layerNorm eps (fun _ => 1) (fun _ => 0) (exEmbedding a + (fun _ => 0 : Vec 2)),
      layerNorm eps (fun _ => 1) (fun _ => 0) (exEmbedding b + (fun f => if f = 0 then 0 else 1 : Vec 2))]] with
    | .error err => .error err
    | .ok y => .ok (.features y, Encoder.finalMetrics (fun _ : Unit => (0 : ℝ)) []) := by
  have hn : ¬ (some "learned".toList = some "sincos2d".toList) := by decide
  have hn' : ¬ ("learned".toList = "none".toList) := by decide
  unfold textTransformer
  simp only [if_neg hn]
  have hpre : ∀ v : Seq 2 2, positioned (some (some { name := some "learned".toList })) exPe v =
      .ok ![v 0 + fun _ => 0, v 1 + fun f => if f = 0 then 0 else 1] := by
    intro v
    unfold positioned addPositionEmb exPe
    simp only [Option.getD_some, if_neg hn', if_true]
    congr 1
    funext i
    refine Fin.cases ?_ (fun i => ?_) i
    · simp [List.ofFn_succ]
    · have : i = 0 := Subsingleton.elim _ _
      subst this
      simp [List.ofFn_succ]
  unfold textEncoder encoderLists encoder Encoder.encoderMoe
  simp only [List.map_cons, List.map_nil, List.mapM_cons, List.mapM_nil, hpre]
  simp only [bind, Except.bind, pure, Except.pure, List.range_zero, Encoder.loop, finish, List.map_cons,
    List.map_nil, List.ofFn_succ, List.ofFn_zero]
  have h1 : [exEmbedding a, exEmbedding b].getD ((0 : Fin 2) : Nat) 0 = exEmbedding a := rfl
  have h2 : [exEmbedding a, exEmbedding b].getD ((1 : Fin 2) : Nat) 0 = exEmbedding b := rfl
  have h3 : ∀ u v : Vec 2, (![u, v] : Seq 2 2) 0 = u := fun _ _ => rfl
  have h4 : ∀ u v : Vec 2, (![u, v] : Seq 2 2) (Fin.succ 0) = v := fun _ _ => rfl
  have h5 : exParams.scale = fun _ => 1 := rfl
  have h6 : exParams.bias = fun _ => 0 := rfl
  rw [h1, h2, h3, h4, h5, h6]
  generalize applyPooling pool g _ = r
  cases r <;> rfl

/-- With a learned position embedding the order of the words matters, also for a pooling over the tokens. -/
theorem C102_position_counterexample (eps : ℝ) (he : 0 < eps) (g : List (Vec 2) → Vec 2) :
    textTransformer exEmbedding "gmp".toList none g (fun _ _ => [])
      (some (some { name := some "learned".toList })) (textEncoder eps exParams exPe (fun _ : Unit => (0 : ℝ)) 0 [])
        [[0, 1]] ≠
    textTransformer exEmbedding "gmp".toList none g (fun _ _ => [])
      (some (some { name := some "learned".toList })) (textEncoder eps exParams exPe (fun _ : Unit => (0 : ℝ)) 0 [])
        [[1, 0]] := by
  rw [ex_learned, ex_learned]
  have hp : ∀ x, applyPooling "gmp".toList g x = .ok (x.map maximum) := by
    intro x
    unfold applyPooling
    simp
  rw [hp, hp]
  intro h
  simp only [List.map_cons, List.map_nil] at h
  injection h with h
  have h1 := (Prod.mk.inj h).1
  injection h1 with h1
  have h2 := congrFun (List.cons.inj h1).1 0
  have e0 : (exEmbedding 0 : Vec 2) = fun _ => 0 := rfl
  have e1 : (exEmbedding 1 : Vec 2) = fun f => if f = 0 then 1 else 0 := rfl
  rw [e0, e1] at h2
  have hpos : 0 < 1 / Real.sqrt (1 / 4 + eps) := by positivity
  simp only [maximum, List.foldl_cons, List.foldl_nil, layerNorm, Pi.add_apply, Fin.sum_univ_two] at h2
  norm_num at h2
  have h3 : (1 : ℝ) / 2 * (Real.sqrt (1 / 4 + eps))⁻¹ > 0 := by positivity
  grind

end Verif.Attention
