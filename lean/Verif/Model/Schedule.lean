import Verif.Model.PyErr
import Mathlib.Analysis.SpecialFunctions.Pow.Real
import Mathlib.Analysis.SpecialFunctions.Trigonometric.Basic
import Mathlib.Analysis.Real.Sqrt

/-!
vmoe/train/schedule.py: learning rate schedules, over the real numbers (floating point rounding is not modelled).

The schedules of optax are modelled from its source.  Steps are natural numbers; in `join_schedules` the schedules are
also called with `step - boundary < 0`, where the result is discarded by `jnp.where`: a schedule is therefore a function
of an integer.
-/

namespace Verif.Schedule

open Verif

/-- A schedule (vmoe/train/schedule.py:25: `optax.Schedule`). -/
abbrev Sched := Int → ℝ

/-- `optax.polynomial_schedule` with `transition_begin=0` (vmoe/train/schedule.py:52-56). -/
noncomputable def polynomialSchedule (initValue endValue power : ℝ) (transitionSteps : Int) : Sched :=
  if transitionSteps ≤ 0 then fun _ => initValue
  else fun count =>
    let count : ℝ := ((max 0 (min count transitionSteps) : Int) : ℝ)
    let frac := 1 - count / (transitionSteps : ℝ)
    (initValue - endValue) * frac ^ power + endValue

/-- `optax.linear_schedule` (vmoe/train/schedule.py:50-51, 111-113). -/
noncomputable def linearSchedule (initValue endValue : ℝ) (transitionSteps : Int) : Sched :=
  polynomialSchedule initValue endValue 1 transitionSteps

/-- The loop of `optax.join_schedules` (vmoe/train/schedule.py:49-57, 122). -/
noncomputable def joinLoop (step : Int) : ℝ → List (Int × Sched) → ℝ
  | output, [] => output
  | output, (boundary, schedule) :: rest =>
    joinLoop step (if step < boundary then output else schedule (step - boundary)) rest

/-- `optax.join_schedules` (vmoe/train/schedule.py:49-57, 122): `zip` ignores boundaries without a schedule. -/
noncomputable def joinSchedules (schedules : List Sched) (boundaries : List Int) : Sched := fun step =>
  match schedules with
  | [] => 0
  | s :: rest => joinLoop step (s step) (boundaries.zip rest)

/-- `warmup_polynomial_decay_schedule` (vmoe/train/schedule.py:45-57). -/
noncomputable def warmupPolynomialDecaySchedule (peakValue endValue power : ℝ) (warmupSteps decaySteps : Int) : Sched :=
  joinSchedules
    [linearSchedule 0 peakValue warmupSteps,
     polynomialSchedule peakValue endValue power (decaySteps - warmupSteps)]
    [warmupSteps]

/-- `optax.cosine_decay_schedule` (called by `optax.warmup_cosine_decay_schedule`, vmoe/train/schedule.py:34). -/
noncomputable def cosineDecaySchedule (initValue : ℝ) (decaySteps : Int) (alpha exponent : ℝ) :
    Except PyErr Sched :=
  if decaySteps ≤ 0 then .error .valueError
  else .ok fun count =>
    let count : ℝ := ((min count decaySteps : Int) : ℝ)
    let cosineDecay := 0.5 * (1 + Real.cos (Real.pi * count / (decaySteps : ℝ)))
    let decayed := (1 - alpha) * cosineDecay ^ exponent + alpha
    initValue * decayed

/-- `optax.warmup_cosine_decay_schedule` with `init_value=0.0` (vmoe/train/schedule.py:33-34). -/
noncomputable def warmupCosineDecaySchedule (peakValue endValue exponent : ℝ) (warmupSteps decaySteps : Int) :
    Except PyErr Sched := do
  let alpha := if peakValue = 0 then 0 else endValue / peakValue
  let cosine ← cosineDecaySchedule peakValue (decaySteps - warmupSteps) alpha exponent
  return joinSchedules [linearSchedule 0 peakValue warmupSteps, cosine] [warmupSteps]

/-- `optax.exponential_decay` (called by `optax.warmup_exponential_decay_schedule`, vmoe/train/schedule.py:30). -/
noncomputable def exponentialDecay (initValue : ℝ) (transitionSteps : Int) (decayRate : ℝ) (transitionBegin : Int)
    (staircase : Bool) (endValue : Option ℝ) : Sched :=
  if transitionSteps ≤ 0 then fun _ => initValue
  else if decayRate = 0 then fun _ => initValue
  else fun count =>
    let decreased := count - max 0 transitionBegin
    let p : ℝ := if staircase then ((decreased / transitionSteps : Int) : ℝ)
      else (decreased : ℝ) / (transitionSteps : ℝ)
    let decayed := if decreased ≤ 0 then initValue else initValue * decayRate ^ p
    match endValue with
    | none => decayed
    | some e => if decayRate < 1 then max decayed e else min decayed e

/-- `optax.warmup_exponential_decay_schedule` with `init_value=0.0` (vmoe/train/schedule.py:29-30). -/
noncomputable def warmupExponentialDecaySchedule (peakValue : ℝ) (warmupSteps transitionSteps : Int) (decayRate : ℝ)
    (transitionBegin : Int) (staircase : Bool) (endValue : Option ℝ) : Sched :=
  joinSchedules
    [linearSchedule 0 peakValue warmupSteps,
     exponentialDecay peakValue transitionSteps decayRate transitionBegin staircase endValue]
    [warmupSteps]

/-- `_rsqrt` (vmoe/train/schedule.py:98-100). -/
noncomputable def rsqrtPhase (peakValue : ℝ) (timescale : Int) : Sched := fun count =>
  peakValue * (1 / Real.sqrt (1 + (count : ℝ) / (timescale : ℝ)))

/-- `_cooldown` (vmoe/train/schedule.py:102-105). -/
noncomputable def cooldownPhase (cooldownPeakValue : ℝ) (cooldownSteps : Int) : Sched := fun count =>
  cooldownPeakValue * (1 - (count : ℝ) / (cooldownSteps : ℝ))

/-- `big_vision_rsqrt_schedule` (vmoe/train/schedule.py:60-122). -/
noncomputable def bigVisionRsqrtSchedule (peakValue : ℝ) (decaySteps timescale warmupSteps cooldownSteps : Int) :
    Except PyErr Sched :=
  if decaySteps < warmupSteps + cooldownSteps then .error .valueError
  else if timescale < 0 then .error .valueError
  else if timescale = 0 then .error .zeroDivisionError
  else
    let cooldownPeakValue := peakValue /
      Real.sqrt (1 + ((decaySteps - warmupSteps - cooldownSteps : Int) : ℝ) / (timescale : ℝ))
    let warmup : List Sched := if warmupSteps > 0 then [linearSchedule 0 peakValue warmupSteps] else []
    let warmupBoundary : List Int := if warmupSteps > 0 then [warmupSteps] else []
    let cooldown : List Sched := if cooldownSteps > 0 then [cooldownPhase cooldownPeakValue cooldownSteps] else []
    .ok (joinSchedules (warmup ++ [rsqrtPhase peakValue timescale] ++ cooldown)
      (warmupBoundary ++ [decaySteps - cooldownSteps]))

/-- The arguments of the schedules supported by `create_learning_rate_schedule` (vmoe/train/schedule.py:27-40).  Missing
arguments without default raise `TypeError` in Python and are not modelled; `decaySteps = none` stands for the argument
not being given. -/
inductive Kind where
  | constant (value : ℝ)
  | exponential (peakValue : ℝ) (warmupSteps transitionSteps : Int) (decayRate : ℝ) (transitionBegin : Int)
      (staircase : Bool) (endValue : Option ℝ)
  | cosine (peakValue endValue exponent : ℝ) (warmupSteps : Int) (decaySteps : Option Int)
  | linear (peakValue endValue : ℝ) (warmupSteps : Int) (decaySteps : Option Int)
  | polynomial (peakValue endValue power : ℝ) (warmupSteps : Int) (decaySteps : Option Int)
  | rsqrt (peakValue : ℝ) (timescale warmupSteps cooldownSteps : Int) (decaySteps : Option Int)
  | unknown

/-- `create_learning_rate_schedule` (vmoe/train/schedule.py:22-42). -/
noncomputable def createLearningRateSchedule (kind : Kind) (totalSteps : Int) : Except PyErr Sched :=
  match kind with
  | .constant value => .ok fun _ => value
  | .exponential p w t r b s e => .ok (warmupExponentialDecaySchedule p w t r b s e)
  | .cosine p e x w d => warmupCosineDecaySchedule p e x w (d.getD totalSteps)
  | .linear p e w d => .ok (warmupPolynomialDecaySchedule p e 1 w (d.getD totalSteps))
  | .polynomial p e x w d => .ok (warmupPolynomialDecaySchedule p e x w (d.getD totalSteps))
  | .rsqrt p t w c d => bigVisionRsqrtSchedule p (d.getD totalSteps) t w c
  | .unknown => .error .valueError

end Verif.Schedule
