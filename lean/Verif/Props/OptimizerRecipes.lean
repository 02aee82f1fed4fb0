import Verif.Model.OptimizerRecipes
import Verif.Props.Adam
import Verif.Props.DecayRules
import Verif.Props.Schedule

/-! C141: training with the optimizers of the configurations. -/

namespace Verif.OptimizerRecipes

open Verif
open Verif.FlatDict hiding Tree
open Optimizer Partitioning TreeSpec RulesSpec AdamSpec DecayRules Schedule

/-! ### What the configurations say -/

/-- Spec: the largest learning rate. -/
noncomputable def peak : Recipe → ℝ
  | .paper .S32 | .imagenet21k .S32 => 0.001
  | .paper .B32 | .imagenet21k .B32 | .paper .B16 | .imagenet21k .B16 => 0.0008
  | .paper .L32 | .imagenet21k .L32 => 0.0006
  | .paper .L16 | .imagenet21k .L16 => 0.0004
  | .paper .H14 | .imagenet21k .H14 => 0.0003
  | .light => 0.003
  | .jft _ | .laion => 0.001
  | .fineTuneB16 | .fineTuneS32 => 0.003
  | .fineTuneCifar10 => 0.0015
  | .fineTuneCifar100 => 0.005
  | .attacked => 0.03

/-- Spec: the step at which it is reached. -/
def warmup : Recipe → Nat
  | .paper _ | .imagenet21k _ | .light | .jft _ => 10000
  | .laion => 20000
  | .fineTuneB16 | .fineTuneS32 | .attacked => 500
  | .fineTuneCifar10 => 100
  | .fineTuneCifar100 => 200

/-- Spec: the training is long enough for the schedule. -/
def LongEnough : Recipe → Int → Prop
  | .paper _, _ | .imagenet21k _, _ | .light, _ => True
  | .jft _, n => 60000 ≤ n
  | .laion, n => 40000 ≤ n
  | .fineTuneB16, n | .fineTuneS32, n | .attacked, n => 500 < n
  | .fineTuneCifar10, n => 100 < n
  | .fineTuneCifar100, n => 200 < n

/-- Spec: the configurations that train with Adam, and the rule of their weight decay. -/
def adamDecay : Recipe → Option DecayRules.Recipe
  | .paper _ => some .paper
  | .imagenet21k _ | .light | .laion => some .kernels
  | .jft false => some .jft
  | .jft true => some .jftSoft
  | .fineTuneB16 | .fineTuneS32 | .fineTuneCifar10 | .fineTuneCifar100 | .attacked => none

/-! ### The learning rates -/

/-- What is said of a learning rate. -/
def Rates (pk : ℝ) (w : Nat) (total : Int) (lr : Sched) : Prop :=
  lr 0 = 0 ∧ (∀ n : Nat, 0 < n → (n : Int) < total → 0 < lr n ∧ lr n ≤ pk) ∧ ((w : Int) < total → lr w = pk) ∧
  ∀ n : Nat, n ≤ w → (n : Int) < total → lr n = pk * (n / w)

theorem warm_pos {pk : ℝ} (hp : 0 < pk) {w : Int} {n : Nat} (hn : 0 < n) (hw : (n : Int) < w) :
    0 < pk * (((n : Int) : ℝ) / w) ∧ pk * (((n : Int) : ℝ) / w) ≤ pk := by
  have h1 : (0 : ℝ) < ((n : Int) : ℝ) := by exact_mod_cast hn
  have h2 : ((n : Int) : ℝ) < w := by exact_mod_cast hw
  have hw0 : (0 : ℝ) < w := by linarith
  refine ⟨by positivity, ?_⟩
  have := (div_le_one hw0).2 h2.le
  nlinarith

theorem rates_linear (pk fin : ℝ) (hp : 0 < pk) (hf : 0 < fin) (hfp : fin ≤ pk) (w : Nat) (hw : 0 < w) (total : Int) :
    Rates pk w total (warmupPolynomialDecaySchedule pk fin 1 w total) := by
  have hww : ((w : Nat) : Int) > 0 := by omega
  have hwr : (w : ℝ) ≠ 0 := by positivity
  have warm : ∀ n : Nat, (n : Int) < w → warmupPolynomialDecaySchedule pk fin 1 w total n = pk * (((n : Int) : ℝ) / ((w : Int) : ℝ)) := by
    intro n hn
    unfold warmupPolynomialDecaySchedule
    rw [join_two, if_pos hn, linear_warmup hww (by omega) (by omega)]
  have top : (w : Int) < total → warmupPolynomialDecaySchedule pk fin 1 w total w = pk :=
    fun h => (C47_polynomial_ends pk fin 1 w total (by omega) h one_pos).2.1
  refine ⟨?_, ?_, top, ?_⟩
  · have := warm 0 (by omega)
    simpa using this
  · intro n hn ht
    by_cases h : (n : Int) < w
    · rw [warm n h]
      exact warm_pos hp hn h
    · have hb := C47_polynomial_bounds pk fin 1 w total n (by omega) (by omega) one_pos (by omega) hp.le hfp
      exact ⟨lt_of_lt_of_le hf (hb.2.1 (by omega)), hb.2.2.1⟩
  · intro n hn ht
    rcases Nat.lt_or_ge n w with h | h
    · rw [warm n (by omega)]
      simp
    · have : n = w := by omega
      subst this
      rw [top ht, div_self hwr, mul_one]

theorem rates_cosine (pk fin : ℝ) (hp : 0 < pk) (hf : 0 < fin) (hfp : fin ≤ pk) (w : Nat) (hw : 0 < w) (total : Int)
    (ht : (w : Int) < total) :
    ∃ s, warmupCosineDecaySchedule pk fin 1 w total = .ok s ∧ Rates pk w total s := by
  have hwr : (w : ℝ) ≠ 0 := by positivity
  obtain ⟨s, e, h1, h2, _, h4⟩ := (C47_cosine pk fin 1 w total (by omega) one_pos hf.le hfp).2 ht
  refine ⟨s, e, ?_, ?_, fun _ => h2, ?_⟩
  · rw [h1 0 le_rfl (by omega)]
    simp
  · intro n hn _
    by_cases h : (n : Int) < w
    · rw [h1 n (by omega) h]
      exact warm_pos hp hn h
    · obtain ⟨a, b⟩ := h4 n (by omega)
      exact ⟨by linarith, b⟩
  · intro n hn _
    rcases Nat.lt_or_ge n w with h | h
    · rw [h1 n (by omega) (by omega)]
      simp
    · have : n = w := by omega
      subst this
      rw [h2, div_self hwr, mul_one]

theorem rates_rsqrt (pk : ℝ) (hp : 0 < pk) (t w c : Nat) (hw : 0 < w) (hc : 0 < c) (htt : 0 < t) (total : Int)
    (ht : (w : Int) + c ≤ total) :
    ∃ s, bigVisionRsqrtSchedule pk total t w c = .ok s ∧ Rates pk w total s := by
  have hwr : (w : ℝ) ≠ 0 := by positivity
  obtain ⟨s, e, h1, h2, h3⟩ := rsqrt_phases pk total t w c (by omega) (by omega) ht (by omega)
  obtain ⟨s', e', _, g2, g3, _, _, _⟩ := C47_rsqrt pk total t w c (by omega) (by omega) ht (by omega) hp.le
  rw [e] at e'
  cases e'
  have tr : (0 : ℝ) < ((t : Int) : ℝ) := by exact_mod_cast htt
  have sq : ∀ n : Int, 0 ≤ n → 0 < pk / Real.sqrt (1 + (n : ℝ) / ((t : Int) : ℝ)) := by
    intro n hn
    have : 0 ≤ (n : ℝ) / ((t : Int) : ℝ) := div_nonneg (by exact_mod_cast hn) tr.le
    exact div_pos hp (Real.sqrt_pos.2 (by linarith))
  refine ⟨s, e, ?_, ?_, fun _ => g2, ?_⟩
  · rw [h1 0 le_rfl (by omega)]
    simp
  · intro n hn hnt
    refine ⟨?_, g3 n (by omega)⟩
    by_cases h : (n : Int) < w
    · rw [h1 n (by omega) h]
      exact (warm_pos hp hn h).1
    · by_cases h' : (n : Int) < total - c
      · rw [h2 n (by omega) (.inl h')]
        exact sq _ (by omega)
      · rw [h3 n (by omega) (by omega)]
        refine mul_pos (sq _ (by omega)) (div_pos ?_ (by exact_mod_cast hc))
        exact_mod_cast (by omega : 0 < total - n)
  · intro n hn _
    rcases Nat.lt_or_ge n w with h | h
    · rw [h1 n (by omega) (by omega)]
      simp
    · have : n = w := by omega
      subst this
      rw [g2, div_self hwr, mul_one]

/-- C141, learning rates.  The learning rate of the first update is zero; it rises in equal steps to its peak at the end of the
warmup, and for every later update it is positive and not above the peak.  If the training is too short for the schedule, the
optimizer is refused with `ValueError`. -/
theorem C141_rates (r : Recipe) (total : Int) :
    (LongEnough r total → ∃ lr, createLearningRateSchedule (r.config total).learningRate (r.config total).totalSteps = .ok lr ∧
      Rates (peak r) (warmup r) total lr) ∧
    (¬ LongEnough r total →
      createLearningRateSchedule (r.config total).learningRate (r.config total).totalSteps = .error .valueError) := by
  have lin : ∀ pk : ℝ, 1e-5 ≤ pk → ∃ lr, createLearningRateSchedule (.linear pk 1e-5 10000 none) total = .ok lr ∧
      Rates pk 10000 total lr := by
    intro pk hp
    exact ⟨_, rfl, rates_linear pk 1e-5 (lt_of_lt_of_le (by norm_num) hp) (by norm_num) hp 10000 (by norm_num) total⟩
  have cos : ∀ (pk : ℝ) (w : Nat), 1e-5 ≤ pk → 0 < w →
      ((w : Int) < total → ∃ lr, createLearningRateSchedule (.cosine pk 1e-5 1 w none) total = .ok lr ∧ Rates pk w total lr) ∧
      (¬ (w : Int) < total → createLearningRateSchedule (.cosine pk 1e-5 1 w none) total = .error .valueError) := by
    intro pk w hp hw
    refine ⟨fun h => rates_cosine pk 1e-5 (lt_of_lt_of_le (by norm_num) hp) (by norm_num) hp w hw total h, fun h => ?_⟩
    exact (C47_cosine pk 1e-5 1 w total (by omega) one_pos (by norm_num) hp).1 (by omega)
  have rsq : ∀ w c : Nat, 0 < w → 0 < c →
      ((w : Int) + c ≤ total → ∃ lr, createLearningRateSchedule (.rsqrt 1e-3 10000 w c none) total = .ok lr ∧
        Rates 1e-3 w total lr) ∧
      (¬ (w : Int) + c ≤ total → createLearningRateSchedule (.rsqrt 1e-3 10000 w c none) total = .error .valueError) := by
    intro w c hw hc
    refine ⟨fun h => rates_rsqrt 1e-3 (by norm_num) 10000 w c hw hc (by norm_num) total h, fun h => ?_⟩
    exact (C47_rsqrt_rejects 1e-3 total 10000 w c).1 (by omega)
  have e3 : (1e-3 : ℝ) = 0.001 := by norm_num
  cases r with
  | paper s =>
    refine ⟨fun _ => ?_, fun h => absurd trivial h⟩
    have := lin s.peak (by cases s <;> norm_num [Size.peak])
    cases s <;> exact (by norm_num [Size.peak, Recipe.config, Recipe.learningRate, peak, warmup] at this ⊢; exact this)
  | imagenet21k s =>
    refine ⟨fun _ => ?_, fun h => absurd trivial h⟩
    have := lin s.peak (by cases s <;> norm_num [Size.peak])
    cases s <;> exact (by norm_num [Size.peak, Recipe.config, Recipe.learningRate, peak, warmup] at this ⊢; exact this)
  | light =>
    refine ⟨fun _ => ?_, fun h => absurd trivial h⟩
    have := lin 3e-3 (by norm_num)
    norm_num [Recipe.config, Recipe.learningRate, peak, warmup] at this ⊢
    exact this
  | jft s =>
    have := rsq 10000 50000 (by norm_num) (by norm_num)
    rw [e3] at this
    simp only [Recipe.config, Recipe.learningRate, peak, warmup, LongEnough]
    exact this
  | laion =>
    have := rsq 20000 20000 (by norm_num) (by norm_num)
    rw [e3] at this
    simp only [Recipe.config, Recipe.learningRate, peak, warmup, LongEnough]
    exact this
  | fineTuneB16 => exact cos 0.003 500 (by norm_num) (by norm_num)
  | fineTuneS32 => exact cos 0.003 500 (by norm_num) (by norm_num)
  | fineTuneCifar10 => exact cos 0.0015 100 (by norm_num) (by norm_num)
  | fineTuneCifar100 => exact cos 0.005 200 (by norm_num) (by norm_num)
  | attacked => exact cos 0.03 500 (by norm_num) (by norm_num)

/-- The numbers of steps of the configurations are long enough. -/
theorem C141_steps (r : Recipe) (n : Nat) (h : n ∈ r.trainSteps) : LongEnough r n ∧ warmup r < n := by
  cases r <;> simp only [Recipe.trainSteps, List.mem_cons, List.not_mem_nil, or_false] at h <;>
    first | (subst h; simp [LongEnough, warmup]) | (rcases h with rfl | rfl <;> simp [LongEnough, warmup])

example : Recipe.trainSteps .fineTuneCifar10 = [1000] ∧ LongEnough .fineTuneCifar10 1000 ∧ ¬ LongEnough .fineTuneCifar10 100 := by
  simp [Recipe.trainSteps, LongEnough]

/-! ### Training -/

theorem compileRules_congr {f g : List Char → Except PyErr (Key → Bool)} :
    ∀ l : List (List Char × ℝ), (∀ r ∈ l, f r.1 = g r.1) → compileRules f l = compileRules g l
  | [], _ => rfl
  | (r, v) :: l, h => by
    unfold compileRules
    rw [h (r, v) (by simp), compileRules_congr l fun r hr => h r (by simp [hr])]

theorem decay_none_or (r : Recipe) : (r.weightDecay = .none ∧ adamDecay r = none) ∨
    ∃ d, adamDecay r = some d ∧ r.weightDecay = DecayRules.weightDecay d := by
  cases r with
  | jft soft => cases soft <;> exact .inr ⟨_, rfl, rfl⟩
  | paper => exact .inr ⟨_, rfl, rfl⟩
  | imagenet21k => exact .inr ⟨_, rfl, rfl⟩
  | light => exact .inr ⟨_, rfl, rfl⟩
  | laion => exact .inr ⟨_, rfl, rfl⟩
  | _ => exact .inl ⟨rfl, rfl⟩

/-- The optimizer is the same if invalid patterns were accepted. -/
theorem createOptimizer_eq (r : Recipe) (total : Int) :
    createOptimizer DecayRules.compile (r.config total) = createOptimizer (fun p => .ok (searchOf p)) (r.config total) := by
  have h : addDecayedWeights DecayRules.compile (r.config total).weightDecay =
      addDecayedWeights (fun p => .ok (searchOf p)) (r.config total).weightDecay := by
    show addDecayedWeights _ r.weightDecay = addDecayedWeights _ r.weightDecay
    rcases decay_none_or r with ⟨h, _⟩ | ⟨d, _, h⟩
    · rw [h]
      rfl
    · rw [h]
      cases hd : DecayRules.weightDecay d with
      | none => rfl
      | scalar x => rfl
      | rules l =>
        simp only [addDecayedWeights, compileRules_congr (g := fun p => .ok (searchOf p)) l (rules_rate d l hd).2.1]
  unfold createOptimizer
  rw [h]
  rfl

theorem clip_pos (r : Recipe) : ∀ m, r.globalNorm = some m → 0 < m := by
  intro m h
  cases r with
  | paper s => cases s <;> simp only [Recipe.globalNorm, Option.some.injEq, reduceCtorEq] at h; linarith
  | _ => simp only [Recipe.globalNorm, Option.some.injEq] at h; linarith

/-- C141, refusals.  The optimizer of a configuration is built exactly if the training is long enough. -/
theorem C141_built (r : Recipe) (total : Int) :
    (LongEnough r total → ∃ opt, createOptimizer DecayRules.compile (r.config total) = .ok opt) ∧
    (¬ LongEnough r total → createOptimizer DecayRules.compile (r.config total) = .error .valueError) := by
  rw [createOptimizer_eq]
  have h1 : gradientScaling (fun p => .ok (searchOf p)) (r.config total).gradientScale = .ok identity := rfl
  have h2 : ∃ g, gradientClipping (r.config total).clipGlobalNorm (r.config total).clipAbsolute = .ok g := by
    show ∃ g, gradientClipping r.globalNorm none = .ok g
    unfold gradientClipping
    cases truthy r.globalNorm <;> exact ⟨_, rfl⟩
  have h3 : ∃ g, baseGT (r.config total).base = .ok g := by
    cases r <;> exact ⟨_, rfl⟩
  have h4 : ∃ g, addDecayedWeights (fun p => .ok (searchOf p)) (r.config total).weightDecay = .ok g := by
    show ∃ g, addDecayedWeights _ r.weightDecay = .ok g
    have hc : ∀ l : List (List Char × ℝ), ∃ x, compileRules (fun p => .ok (searchOf p)) l = .ok x := by
      intro l
      induction l with
      | nil => exact ⟨_, rfl⟩
      | cons a l ih =>
        obtain ⟨x, hx⟩ := ih
        exact ⟨(searchOf a.1, a.2) :: x, by simp only [compileRules, hx]; rfl⟩
    unfold addDecayedWeights
    cases r.weightDecay with
    | none => exact ⟨_, rfl⟩
    | scalar x => by_cases hx : x = 0 <;> simp [hx]
    | rules l =>
      obtain ⟨x, hx⟩ := hc l
      by_cases hl : l = []
      · simp [hl]
      · simp [hl, hx]
  obtain ⟨g2, h2⟩ := h2
  obtain ⟨g3, h3⟩ := h3
  obtain ⟨g4, h4⟩ := h4
  unfold createOptimizer
  rw [h1, h2, h3, h4]
  unfold learningRateGT
  obtain ⟨a, b⟩ := C141_rates r total
  refine ⟨fun h => ?_, fun h => ?_⟩
  · obtain ⟨lr, e, _⟩ := a h
    rw [e]
    exact ⟨_, rfl⟩
  · rw [b h]
    rfl

theorem not_frozen (r : Recipe) (total : Int) (name : Key) :
    ¬ FrozenIs searchOf (r.config total).frozenPattern (r.config total).trainablePattern name := by
  rintro (⟨h, _⟩ | ⟨h, _⟩) <;> cases h

theorem decay_is (r : Recipe) (total : Int) (d : DecayRules.Recipe) (hd : adamDecay r = some d) (name : Key) :
    DecayIs searchOf (r.config total).weightDecay name (rate d name) := by
  have h : (r.config total).weightDecay = DecayRules.weightDecay d := by
    rcases decay_none_or r with ⟨_, h⟩ | ⟨d', h, h'⟩
    · rw [hd] at h
      cases h
    · rw [hd] at h
      cases h
      exact h'
  rw [h]
  cases hw : DecayRules.weightDecay d with
  | none => cases d <;> cases hw
  | scalar x =>
    cases d <;> cases hw
    rfl
  | rules l => exact (rules_rate d l hw).2.2 name

theorem adam_base (r : Recipe) (total : Int) (d : DecayRules.Recipe) (hd : adamDecay r = some d) :
    (r.config total).base = .other (Adam.scaleByAdam { b1 := 0.9, b2 := 0.999 }) := by
  cases r <;> first | rfl | cases hd

theorem sgd_base (r : Recipe) (total : Int) (hd : adamDecay r = none) :
    (r.config total).base = .sgd (some 0.9) false ∧ (r.config total).weightDecay = .none ∧
    (r.config total).clipGlobalNorm = some 10 := by
  cases r with
  | jft s => cases s <;> cases hd
  | paper => cases hd
  | imagenet21k => cases hd
  | light => cases hd
  | laion => cases hd
  | _ => exact ⟨rfl, rfl, rfl⟩

theorem sqrt_ratio : Real.sqrt ((1 - 0.9) / (1 - 0.999)) = 10 := by
  rw [show ((1 - 0.9) / (1 - 0.999) : ℝ) = 10 ^ 2 by norm_num]
  exact Real.sqrt_sq (by norm_num)

theorem train_single {opt : GT} (s : TrainState opt) (g : Params) : train s [g] = applyGradients s g := by
  unfold train
  cases h : applyGradients s g <;> rfl

theorem rate_nonneg (d : DecayRules.Recipe) (name : Key) : 0 ≤ rate d name ∧ rate d name ≤ 3 := by
  unfold rate
  cases d with
  | paper => norm_num
  | kernels => simp only []; split <;> norm_num
  | jft => simp only []; split <;> [norm_num; (split <;> norm_num)]
  | jftSoft => simp only []; split <;> [norm_num; (split <;> norm_num)]

theorem peak_small (r : Recipe) : 0 < peak r ∧ peak r ≤ 0.03 := by
  cases r with
  | paper s => cases s <;> norm_num [peak]
  | imagenet21k s => cases s <;> norm_num [peak]
  | _ => norm_num [peak]

theorem rates_range {r : Recipe} {total : Int} {lr : Sched} (h : Rates (peak r) (warmup r) total lr) (n : Nat)
    (hn : (n : Int) < total) : 0 ≤ lr n ∧ lr n ≤ peak r := by
  rcases Nat.eq_zero_or_pos n with rfl | h0
  · rw [Nat.cast_zero, h.1]
    exact ⟨le_rfl, (peak_small r).1.le⟩
  · exact ⟨(h.2.1 n h0 hn).1.le, (h.2.1 n h0 hn).2⟩

/-- C141, training from scratch.  With the optimizer of a configuration that uses Adam, training never fails, for whatever
gradients, and an entry of a parameter with weight decay never gets larger than it was at the beginning or than ten divided by the
rate of its decay: 100 for the rate 0.1, 3.4 for the head of the JFT configurations.  An entry without weight decay moves at most by
ten times the sum of the learning rates. -/
theorem C141_adam (r : Recipe) (d : DecayRules.Recipe) (hd : adamDecay r = some d) (total : Int) (ht : LongEnough r total)
    (opt : GT) (hopt : createOptimizer DecayRules.compile (r.config total) = .ok opt) (p : Params) (hp : ItemsOk p)
    (hn : NoEmptyItems p) :
    ∃ lr, Rates (peak r) (warmup r) total lr ∧
    ∃ os, opt.init p = .ok os ∧ ∀ grads : List Params, grads.length < 2 ^ 31 → (grads.length : Int) ≤ total →
      (∀ g ∈ grads, SameShape p g) → ∃ s : TrainState opt, train ⟨0, p, os⟩ grads = .ok s ∧ s.step = grads.length ∧
        SameShape p s.params ∧ ∀ path t0, leafOf p path = some t0 → ∃ t, leafOf s.params path = some t ∧ t.length = t0.length ∧
          ∀ i < t0.length,
            (0 < rate d (join path) → |t.getD i 0| ≤ max |t0.getD i 0| (10 / rate d (join path))) ∧
            (rate d (join path) = 0 → |t.getD i 0 - t0.getD i 0| ≤ 10 * ∑ n ∈ Finset.range grads.length, lr n) := by
  obtain ⟨lr, hlr, hr⟩ := (C141_rates r total).1 ht
  refine ⟨lr, hr, ?_⟩
  rw [createOptimizer_eq] at hopt
  obtain ⟨os, e0, h⟩ := Adam.C138_adam (fun p => .ok (searchOf p)) searchOf (fun _ => rfl) (r.config total) _
    (adam_base r total d hd) (by norm_num) (by norm_num) (clip_pos r) (fun m hm => by cases hm) lr hlr opt hopt p hp hn
  refine ⟨os, e0, fun grads hl hlt hg => ?_⟩
  obtain ⟨s, us, e1, e2, e3, e4⟩ := h grads hl hg
  refine ⟨s, e1, e2, e3, fun path t0 ht0 => ?_⟩
  have hdec := decay_is r total d hd (join path)
  have hrange : ∀ n < grads.length, 0 ≤ lr n ∧ lr n ≤ peak r := fun n hn => rates_range hr n (by omega)
  obtain ⟨hr0, hr3⟩ := rate_nonneg d (join path)
  rcases hr0.lt_or_eq with hpos | hz
  · obtain ⟨t, g1, g2, g3⟩ := Adam.C138_weights searchOf (r.config total) 0.9 0.999 (1 / 10 ^ 8) 0 (by norm_num) (by norm_num)
      (by norm_num) (by norm_num) le_rfl lr p s.params grads us e4 path _ hpos hdec
      (fun n hn => ⟨(hrange n hn).1, by
        have h1 := (hrange n hn).2
        have h2 := (peak_small r).2
        have h3 := (hrange n hn).1
        nlinarith⟩) t0 ht0
    refine ⟨t, g1, g2, fun i hi => ⟨fun _ => ?_, fun h0 => absurd h0 hpos.ne'⟩⟩
    have := g3 i hi
    rwa [sqrt_ratio] at this
  · rw [← hz] at hdec
    obtain ⟨t, g1, g2, g3⟩ := Adam.C138_moved searchOf (r.config total) 0.9 0.999 (1 / 10 ^ 8) 0 (by norm_num) (by norm_num)
      (by norm_num) (by norm_num) le_rfl lr p s.params grads us e4 path hdec t0 ht0
    refine ⟨t, g1, g2, fun i hi => ⟨fun h0 => absurd hz h0.ne, fun _ => ?_⟩⟩
    have := g3 i hi
    rw [sqrt_ratio] at this
    refine this.trans_eq ?_
    congr 1
    exact Finset.sum_congr rfl fun n hn => abs_of_nonneg (hrange n (Finset.mem_range.1 hn)).1

mutual
theorem sumSquares_nonneg : ∀ t : FlatDict.Tree (List ℝ), 0 ≤ sumSquares t
  | .leaf t => by
    rw [sumSquares]
    exact List.sum_nonneg (by simp only [List.mem_map]; rintro x ⟨y, _, rfl⟩; positivity)
  | .node l => by
    rw [sumSquares]
    exact sumSquaresItems_nonneg l
theorem sumSquaresItems_nonneg : ∀ l : List (Key × FlatDict.Tree (List ℝ)), 0 ≤ sumSquaresItems l
  | [] => by rw [sumSquaresItems]
  | (_, t) :: l => by
    rw [sumSquaresItems]
    exact add_nonneg (sumSquares_nonneg t) (sumSquaresItems_nonneg l)
end

theorem lookup_le (k : Key) : ∀ (l : List (Key × FlatDict.Tree (List ℝ))) (t : FlatDict.Tree (List ℝ)), lookup k l = some t →
    sumSquares t ≤ sumSquaresItems l
  | [], _, h => by cases h
  | (k', t') :: l, t, h => by
    rw [sumSquaresItems]
    unfold lookup at h
    split at h
    · cases h
      linarith [sumSquaresItems_nonneg l]
    · linarith [lookup_le k l t h, sumSquares_nonneg t']

theorem leaf_le : ∀ (path : List Key) (u : FlatDict.Tree (List ℝ)) (t : Tensor), leafAt path u = some t → ∀ x ∈ t, x ^ 2 ≤ sumSquares u
  | [], .leaf v, t, h, x, hx => by
    cases h
    rw [sumSquares]
    exact List.single_le_sum (by simp only [List.mem_map]; rintro y ⟨z, _, rfl⟩; positivity) _ (List.mem_map.2 ⟨x, hx, rfl⟩)
  | [], .node _, _, h, _, _ => by cases h
  | _ :: _, .leaf _, _, h, _, _ => by cases h
  | k :: ks, .node l, t, h, x, hx => by
    rw [sumSquares]
    unfold leafAt at h
    split at h
    · cases h
    · rename_i t' ht'
      exact (leaf_le ks t' t h x hx).trans (lookup_le k l t' ht')

/-- The entries of clipped updates are bounded. -/
theorem entry_clipped {m : ℝ} {u u' : Params} (h : Clipped (some m) none u u') (path : List Key) (t : Tensor)
    (ht : leafOf u' path = some t) : ∀ x ∈ t, |x| ≤ m := by
  intro x hx
  have h1 := leaf_le path (.node u') t ht x hx
  rw [sumSquares] at h1
  have h2 : Real.sqrt (sumSquaresItems u') ≤ m := h.1.trans_le (min_le_right _ _)
  exact (Real.abs_le_sqrt h1).trans h2

/-- C141, fine-tuning.  With the optimizer of a fine-tuning configuration, training never fails, for whatever gradients, and every
entry of every parameter stays within a hundred times the sum of the learning rates of where it was in the checkpoint. -/
theorem C141_fine_tuning (r : Recipe) (hd : adamDecay r = none) (total : Int) (ht : LongEnough r total)
    (opt : GT) (hopt : createOptimizer DecayRules.compile (r.config total) = .ok opt) (p : Params) (hp : ItemsOk p)
    (hn : NoEmptyItems p) :
    ∃ lr, Rates (peak r) (warmup r) total lr ∧
    ∃ os, opt.init p = .ok os ∧ ∀ grads : List Params, (grads.length : Int) ≤ total →
      (∀ g ∈ grads, SameShape p g) → ∃ s : TrainState opt, train ⟨0, p, os⟩ grads = .ok s ∧ s.step = grads.length ∧
        SameShape p s.params ∧ ∀ path t0, leafOf p path = some t0 → ∃ t, leafOf s.params path = some t ∧ t.length = t0.length ∧
          ∀ i < t0.length, |t.getD i 0 - t0.getD i 0| ≤ 100 * ∑ n ∈ Finset.range grads.length, lr n := by
  obtain ⟨lr, hlr, hr⟩ := (C141_rates r total).1 ht
  refine ⟨lr, hr, ?_⟩
  rw [createOptimizer_eq] at hopt
  obtain ⟨hb, hw, hcl⟩ := sgd_base r total hd
  obtain ⟨os, e0, h⟩ := C88_sgd (fun p => .ok (searchOf p)) searchOf (fun _ => rfl) (r.config total) _ _ hb
    (clip_pos r) (fun m hm => by cases hm) lr hlr opt hopt p hp hn
  refine ⟨os, e0, fun grads hlt hg => ?_⟩
  obtain ⟨s, m, e1, e2, e3, e4, e5⟩ := h grads hg
  refine ⟨s, e1, e2, e3, ?_⟩
  have hrange : ∀ n < grads.length, 0 ≤ lr n := fun n hn => (rates_range hr n (by omega)).1
  clear e1 e2
  generalize hq : s.params = q at e3 e5 ⊢
  clear hq s hlt
  rw [show Option.getD (some (0.9 : ℝ)) 0 = 0.9 from rfl] at e5
  suffices H : ∀ path t0, leafOf p path = some t0 → ∃ t tm, leafOf q path = some t ∧ leafOf m path = some tm ∧
      t.length = t0.length ∧ tm.length = t0.length ∧ (∀ x ∈ tm, |x| ≤ 100) ∧
      ∀ i < t0.length, |t.getD i 0 - t0.getD i 0| ≤ 100 * ∑ n ∈ Finset.range grads.length, lr n by
    intro path t0 h0
    obtain ⟨t, _, a, _, b, _, _, c⟩ := H path t0 h0
    exact ⟨t, a, b, c⟩
  clear e3 e4
  induction e5 with
  | start m hs hz =>
    intro path t0 h0
    obtain ⟨tm, g1, g2⟩ := hs.leaf path t0 h0
    refine ⟨t0, tm, h0, g1, rfl, g2.symm, fun x hx => ?_, fun i _ => by simp⟩
    rw [hz path tm g1 x hx]
    norm_num
  | step gs g q m q' m' _ hs ih =>
    intro path t0 h0
    obtain ⟨t, tm, g1, g2, g3, g4, g5, g6⟩ := ih (fun g hg' => hg g (by simp [hg'])) (fun n hn => hrange n (by simp; omega)) path t0 h0
    obtain ⟨scaled, u, s1, s2, s3, s4, s5, s6, s7⟩ := hs
    rw [hcl] at s6
    obtain ⟨tg, k1, k2⟩ := (hg g (by simp)).leaf path t0 h0
    obtain ⟨tu, k3, k4⟩ := s2.leaf path tg k1
    obtain ⟨tm', d, f1, f2, f3, _, f5⟩ := s7 path tu tm t k3 g2 g1
    have f6 := f5 (not_frozen r total _) 0 (by rw [hw]; rfl)
    simp only [Bool.false_eq_true, if_false] at f2
    rw [f2] at f6
    have hlen : tm'.length = t0.length := by
      rw [f1, List.length_zipWith]
      omega
    have hbound : ∀ x ∈ tm', |x| ≤ 100 := by
      intro x hx
      rw [f1] at hx
      obtain ⟨j, hj, rfl⟩ := List.getElem_of_mem hx
      rw [List.getElem_zipWith]
      have a1 := entry_clipped s6 path tu k3 (tu[j]'(by simp at hj; omega)) (List.getElem_mem _)
      have a2 := g5 (tm[j]'(by simp at hj; omega)) (List.getElem_mem _)
      have a3 := abs_add_le (tu[j]'(by simp at hj; omega)) (0.9 * tm[j]'(by simp at hj; omega))
      rw [abs_mul, abs_of_pos (by norm_num : (0 : ℝ) < 0.9)] at a3
      have : (0.9 : ℝ) * |tm[j]'(by simp at hj; omega)| ≤ 90 := by linarith
      linarith
    refine ⟨_, tm', f6, f3, ?_, hlen, hbound, fun i hi => ?_⟩
    · rw [List.length_zipWith]
      omega
    · have b1 : (List.zipWith (fun x y => x - lr gs.length * (y + 0 * x)) t tm').getD i 0 =
          t.getD i 0 - lr gs.length * tm'.getD i 0 := by
        rw [List.getD_eq_getElem _ _ (by rw [List.length_zipWith]; omega), List.getElem_zipWith,
          List.getD_eq_getElem _ _ (by omega), List.getD_eq_getElem _ _ (by omega)]
        ring
      rw [b1, List.length_append, List.length_singleton, Finset.sum_range_succ, mul_add]
      have b2 := g6 i hi
      have b3 : |lr gs.length * tm'.getD i 0| ≤ 100 * lr gs.length := by
        rw [abs_mul, abs_of_nonneg (hrange gs.length (by simp)), mul_comm]
        refine mul_le_mul_of_nonneg_right ?_ (hrange gs.length (by simp))
        rw [List.getD_eq_getElem _ _ (by omega)]
        exact hbound _ (List.getElem_mem _)
      have b4 := abs_sub_le (t.getD i 0 - lr gs.length * tm'.getD i 0) (t.getD i 0) (t0.getD i 0)
      rw [sub_sub_cancel_left, abs_neg] at b4
      linarith

/-- C141, first update.  With every configuration, the first update changes no parameter, for whatever gradients. -/
theorem C141_first (r : Recipe) (total : Int) (ht : LongEnough r total) (h1 : 1 ≤ total) (opt : GT)
    (hopt : createOptimizer DecayRules.compile (r.config total) = .ok opt) (p g : Params) (hp : ItemsOk p) (hn : NoEmptyItems p)
    (hg : SameShape p g) :
    ∃ os s, opt.init p = .ok os ∧ applyGradients (⟨0, p, os⟩ : TrainState opt) g = .ok s ∧ s.step = 1 ∧
      ∀ path, leafOf s.params path = leafOf p path := by
  have key : ∀ t t0 : Tensor, t.length = t0.length → (∀ i < t0.length, |t.getD i 0 - t0.getD i 0| ≤ 0) → t = t0 := by
    intro t t0 h1 h2
    refine List.ext_getElem h1 fun i hi hi' => ?_
    have := h2 i hi'
    rw [List.getD_eq_getElem _ _ hi, List.getD_eq_getElem _ _ hi'] at this
    linarith [abs_nonpos_iff.1 this]
  have back : ∀ q : Params, SameShape p q → (∀ path t0, leafOf p path = some t0 → leafOf q path = some t0) →
      ∀ path, leafOf q path = leafOf p path := by
    intro q hs h path
    cases hq : leafOf p path with
    | some t0 => exact h path t0 hq
    | none =>
      cases hq' : leafOf q path with
      | none => rfl
      | some t =>
        obtain ⟨t', h', _⟩ := hs.symm.leaf path t hq'
        rw [hq] at h'
        cases h'
  cases hd : adamDecay r with
  | none =>
    obtain ⟨lr, hr, os, e0, h⟩ := C141_fine_tuning r hd total ht opt hopt p hp hn
    obtain ⟨s, e1, e2, e3, e4⟩ := h [g] (by simpa using h1) (by simpa using hg)
    rw [train_single] at e1
    refine ⟨os, s, e0, e1, e2, back _ e3 fun path t0 h0 => ?_⟩
    obtain ⟨t, f1, f2, f3⟩ := e4 path t0 h0
    rw [f1, key t t0 f2 fun i hi => (f3 i hi).trans_eq (by simpa using hr.1)]
  | some d =>
    obtain ⟨lr, hlr, hr⟩ := (C141_rates r total).1 ht
    rw [createOptimizer_eq] at hopt
    obtain ⟨os, e0, h⟩ := Adam.C138_adam (fun p => .ok (searchOf p)) searchOf (fun _ => rfl) (r.config total) _
      (adam_base r total d hd) (by norm_num) (by norm_num) (clip_pos r) (fun m hm => by cases hm) lr hlr opt hopt p hp hn
    obtain ⟨s, us, e1, e2, e3, e4⟩ := h [g] (by simp) (by simpa using hg)
    rw [train_single] at e1
    refine ⟨os, s, e0, e1, e2, back _ e3 fun path t0 h0 => ?_⟩
    generalize hgs : [g] = gs at e4
    generalize s.params = q at e4
    cases e4 with
    | start => cases hgs
    | step gs us g' u q' q'' hrun hs =>
      have hnil : gs = [] := by
        have := congrArg List.length hgs
        simp at this
        exact this
      subst hnil
      have hq : q' = p := by
        generalize hgs' : ([] : List Params) = gs at hrun
        cases hrun with
        | start => rfl
        | step gs us g u q q' _ _ => simp at hgs'
      subst hq
      obtain ⟨t, f1, f2, _, _⟩ := hs.choose_spec.2.2.2.2.2 path t0 h0
      rw [f1, key t t0 f2 fun i hi => ?_]
      have := Adam.C138_bounded searchOf (r.config total) 0.9 0.999 (1 / 10 ^ 8) 0 (by norm_num) (by norm_num) (by norm_num)
        (by norm_num) le_rfl lr 0 us g' u _ q hs path t0 t h0 f1 _ (decay_is r total d hd _) i hi
      simpa [hr.1] using this

/-- The sum of the learning rates of the first updates is at most the number of updates after the first times the peak. -/
theorem C141_sum (r : Recipe) (total : Int) (lr : Sched) (h : Rates (peak r) (warmup r) total lr) (n : Nat) (hn : (n : Int) ≤ total) :
    ∑ k ∈ Finset.range n, lr k ≤ (n - 1 : Nat) * peak r := by
  cases n with
  | zero => simp
  | succ n =>
    rw [Finset.sum_range_succ', Nat.cast_zero, h.1, add_zero, Nat.add_sub_cancel]
    refine (Finset.sum_le_card_nsmul _ _ (peak r) fun k hk => ?_).trans_eq (by simp)
    exact (rates_range h (k + 1) (by have := Finset.mem_range.1 hk; push_cast; omega)).2

/-- The hypotheses can be met: a parameter of a head and its gradients, for the JFT configuration and for CIFAR-10. -/
example : adamDecay (.jft true) = some .jftSoft ∧ adamDecay .fineTuneCifar10 = none ∧ LongEnough (.jft true) 4000000 ∧
    (∃ opt, createOptimizer DecayRules.compile (Recipe.config (.jft true) 4000000) = .ok opt) ∧
    (∃ opt, createOptimizer DecayRules.compile (Recipe.config .fineTuneCifar10 1000) = .ok opt) ∧
    ItemsOk exampleParams ∧ NoEmptyItems exampleParams := by
  refine ⟨rfl, rfl, by norm_num [LongEnough], (C141_built _ _).1 (by norm_num [LongEnough]),
    (C141_built _ _).1 (by norm_num [LongEnough]), ?_⟩
  exact exampleParams_ok

end Verif.OptimizerRecipes
