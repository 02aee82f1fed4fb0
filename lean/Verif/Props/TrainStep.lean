import Verif.Proofs.TrainStep
import Verif.Props.Trainer

/-!
Properties C82 and C83: random keys of training, and the train step (vmoe/train/trainer.py:354-366,648-684,841-968,
vmoe/utils.py:43-47,168-173).
-/

namespace Verif.TrainStep

open Verif

variable {P O I L Y G : Type} [AddCommGroup G] [Module ℝ G]

/-- What is proved for every version of the train step. -/
def StepOk (f : StepFn P O I L) : Prop :=
  ∀ s images labels log s' m log', f s images labels log = .ok (s', m, log') →
    (PyDict.keys s.rngs).Nodup → (vals s.rngs).Pairwise Incomp →
    ∃ U : Log, log' = log ++ U ∧ Sound (vals s.rngs) (used U) (vals s'.rngs) ∧
      (PyDict.keys s'.rngs).Perm (PyDict.keys s.rngs) ∧ s'.step = s.step + 1

omit [AddCommGroup G] [Module ℝ G] in
theorem compute_ok (env : Env P O I L Y G) (params : P) (i : List I) (l : List L) (r : Rngs × Log) (g : G)
    (r' : Rngs × Log) (m : List Char → ℝ) (h : compute env params i l r = .ok (g, r', m)) : Ok r r' := by
  cases h
  intro hr
  refine ⟨[slice r.1 0], rfl, ?_, keys_slice _ _, ?_⟩
  · have := sound_slices hr 1
    simpa [used, vals_slice] using this
  · intro x hx
    rw [List.mem_singleton.1 hx, keys_slice]

theorem trainStep_ok (env : Env P O I L Y G) (devices : Nat) (microsteps : Option Int) :
    StepOk (trainStep env devices microsteps) := by
  intro s images labels log s' m log' h _ hv
  unfold trainStep at h
  obtain ⟨⟨g, ⟨nr, lg⟩, ms⟩, h1, h2⟩ := ebind h
  cases h2
  obtain ⟨U, h3, h4, h5, _⟩ := accumulate_rel (Q := Ok) (fun _ _ _ a b => a.trans b) devices (compute env) microsteps
    s.params (fun i l r g r' m h => compute_ok env s.params i l r g r' m h) images labels _ _ g ms h1 hv
  exact ⟨U, h3, h4, h5 ▸ List.Perm.refl _, rfl⟩

theorem attackLoop_log (update : List I → Rngs → List I) (rngs : Rngs) (n : Nat) (images : List I) (log : Log) :
    (attackLoop update rngs n images log).2 = log ++ (List.range n).map (slice rngs) := by
  induction n with
  | zero => simp [attackLoop]
  | succ n ih => simp [attackLoop, ih, List.range_succ]

theorem wrapAttack_ok (enabled : Bool) (n : Int) (update : P → List L → List I → Rngs → List I)
    (f : StepFn P O I L) (hf : StepOk f) : StepOk (wrapAttack enabled n update f) := by
  intro s images labels log s' m log' h hk hv
  unfold wrapAttack at h
  split at h
  · exact hf s images labels log s' m log' h hk hv
  · have hs := sound_slices hv n.toNat
    obtain ⟨U, h1, h2, h3, h4⟩ := hf _ _ _ _ _ _ _ h (by rw [keys_slice]; exact hk)
      (by rw [vals_slice]; exact hs.keep)
    rw [vals_slice] at h2
    rw [keys_slice] at h3
    refine ⟨(List.range n.toNat).map (slice s.rngs) ++ U, ?_, ?_, h3, h4⟩
    · rw [h1, attackLoop_log, List.append_assoc]
    · have hu : used ((List.range n.toNat).map (slice s.rngs)) =
          (List.range n.toNat).flatMap fun i => (vals s.rngs).map (child · i) := by
        simp [used, List.flatMap_map, vals_slice]
      rw [used_append, hu]
      exact hs.trans h2

theorem remove_perm (r : Rngs) (hk : (PyDict.keys r).Nodup) (name : List Char) (k : Key)
    (h : PyDict.get? r name = some k) : r.Perm ((name, k) :: remove r name) := by
  induction r with
  | nil => cases h
  | cons e r ih =>
    have hk' : e.1 ∉ PyDict.keys r ∧ (PyDict.keys r).Nodup := List.nodup_cons.1 hk
    by_cases he : e.1 = name
    · have : k = e.2 := by
        have : PyDict.get? (e :: r) name = some e.2 := if_pos he
        rw [this] at h
        exact (Option.some.inj h).symm
      have hr : remove (e :: r) name = r := by
        have : remove (e :: r) name = remove r name := by simp [remove, he]
        rw [this, remove, List.filter_eq_self]
        intro a ha
        have : a.1 ∈ PyDict.keys r := List.mem_map_of_mem ha
        have : a.1 ≠ name := by
          rintro h'
          rw [h', ← he] at this
          exact hk'.1 this
        simpa using this
      rw [hr, this, ← he]
    · have hg : PyDict.get? r name = some k := by
        have : PyDict.get? (e :: r) name = PyDict.get? r name := if_neg he
        rwa [this] at h
      have hr : remove (e :: r) name = e :: remove r name := by simp [remove, he]
      rw [hr]
      exact ((ih hk'.2 hg).cons e).trans (List.Perm.swap _ _ _)

theorem wrapMixup_ok (enabled : Bool) (mix : Key → List I → List L → Except PyErr (List I × List L))
    (f : StepFn P O I L) (hf : StepOk f) : StepOk (wrapMixup enabled mix f) := by
  intro s images labels log s' m log' h hk hv
  unfold wrapMixup at h
  split at h
  · exact hf s images labels log s' m log' h hk hv
  · simp only at h
    split at h
    · cases h
    · rename_i key hkey
      obtain ⟨⟨im, lb⟩, _, h⟩ := ebind h
      obtain ⟨⟨s1, m1, log1⟩, h1, h2⟩ := ebind h
      cases h2
      have hp := remove_perm s.rngs hk mixupName key hkey
      have hpv : (vals s.rngs).Perm (key :: vals (remove s.rngs mixupName)) := hp.map Prod.snd
      have hpk : (PyDict.keys s.rngs).Perm (mixupName :: PyDict.keys (remove s.rngs mixupName)) :=
        hp.map Prod.fst
      have hv' := (hpv.pairwise_iff (fun h => h.symm)).1 hv
      rw [List.pairwise_cons] at hv'
      have hk' := List.nodup_cons.1 (hpk.nodup_iff.1 hk)
      obtain ⟨U, g1, g2, g3, g4⟩ := hf _ _ _ _ _ _ _ h1 hk'.2 hv'.2
      have hnot : mixupName ∉ PyDict.keys s1.rngs := fun hm => hk'.1 (g3.mem_iff.1 hm)
      have hset : PyDict.set s1.rngs mixupName (child key 1) = s1.rngs ++ [(mixupName, child key 1)] :=
        PyDict.set_of_not_mem _ _ _ hnot
      refine ⟨[(mixupName, child key 0)] :: U, ?_, ?_, ?_, g4⟩
      · rw [g1, List.append_assoc]
        rfl
      · have hs := g2.cons key hv'.1
        have : vals (PyDict.set s1.rngs mixupName (child key 1)) = vals s1.rngs ++ [child key 1] := by
          rw [hset]
          simp [vals]
        have hu : used ([(mixupName, child key 0)] :: U) = child key 0 :: used U := by
          simp [used, vals]
        rw [hu]
        change Sound _ _ (vals (PyDict.set s1.rngs mixupName (child key 1)))
        rw [this]
        exact hs.perm hpv.symm (List.Perm.refl _)
      · change (PyDict.keys (PyDict.set s1.rngs mixupName (child key 1))).Perm _
        rw [hset]
        have : PyDict.keys (s1.rngs ++ [(mixupName, child key 1)]) = PyDict.keys s1.rngs ++ [mixupName] := by
          simp [PyDict.keys]
        rw [this]
        exact ((List.perm_append_singleton _ _).trans (g3.cons _)).trans hpk.symm

theorem stepFn_ok (env : Env P O I L Y G) (cfg : Config P I L) : StepOk (stepFn env cfg) :=
  wrapMixup_ok _ _ _ (wrapAttack_ok _ _ _ _ (trainStep_ok env cfg.devices cfg.microsteps))

theorem run_ok (env : Env P O I L Y G) (cfg : Config P I L) (bs : List (List I × List L)) :
    ∀ s log s' log', run env cfg s bs log = .ok (s', log') →
      (PyDict.keys s.rngs).Nodup → (vals s.rngs).Pairwise Incomp →
      ∃ U : Log, log' = log ++ U ∧ Sound (vals s.rngs) (used U) (vals s'.rngs) ∧
        (PyDict.keys s'.rngs).Perm (PyDict.keys s.rngs) ∧ s'.step = s.step + bs.length := by
  induction bs with
  | nil =>
    intro s log s' log' h _ hv
    cases h
    exact ⟨[], by simp, Sound.refl hv, List.Perm.refl _, rfl⟩
  | cons b bs ih =>
    intro s log s' log' h hk hv
    obtain ⟨⟨s1, m1, log1⟩, h1, h2⟩ := ebind h
    obtain ⟨U, a1, a2, a3, a4⟩ := stepFn_ok env cfg _ _ _ _ _ _ _ h1 hk hv
    obtain ⟨V, b1, b2, b3, b4⟩ := ih _ _ _ _ h2 (a3.nodup_iff.2 hk) a2.keep
    refine ⟨U ++ V, by rw [b1, a1, List.append_assoc], by rw [used_append]; exact a2.trans b2, b3.trans a3, ?_⟩
    rw [b4, a4, List.length_cons]
    omega

theorem numbered_keys (seed i : Nat) (names : List (List Char)) :
    PyDict.keys (numbered seed i names) = names := by
  induction names generalizing i with
  | nil => rfl
  | cons n ns ih => simpa [numbered, PyDict.keys] using ih (i + 1)

theorem numbered_mem (seed i : Nat) (names : List (List Char)) :
    ∀ x ∈ vals (numbered seed i names), ∃ j, i ≤ j ∧ x = child [seed] j := by
  induction names generalizing i with
  | nil => simp [numbered, vals]
  | cons n ns ih =>
    intro x hx
    have : x = child [seed] i ∨ x ∈ vals (numbered seed (i + 1) ns) := by
      simpa [numbered, vals] using hx
    rcases this with rfl | hx
    · exact ⟨i, le_refl i, rfl⟩
    · obtain ⟨j, hj, rfl⟩ := ih (i + 1) x hx
      exact ⟨j, by omega, rfl⟩

theorem numbered_pairwise (seed i : Nat) (names : List (List Char)) :
    (vals (numbered seed i names)).Pairwise Incomp := by
  induction names generalizing i with
  | nil => simp [numbered, vals]
  | cons n ns ih =>
    refine List.pairwise_cons.2 ⟨?_, ih (i + 1)⟩
    intro x hx
    obtain ⟨j, hj, rfl⟩ := numbered_mem seed (i + 1) ns x hx
    exact child_incomp _ (by omega)

/-- C82 (no random key is used twice).  Initialize a model with distinct names of keys and train with any configuration of
microsteps, adversarial attack and mixup on any batches.  All keys used on the way (by the initialization of the model, by
every microstep of every step, by every update of the attack, and for the weights of mixup, under any name) are different;
keys used in the steps are not derived from one another, nor are the keys that the state keeps for the future derived from
them.  The state always has the same names of keys. -/
theorem C82_no_key_reused (env : Env P O I L Y G) (cfg : Config P I L) (init : Rngs → P × O)
    (extra : List (List Char)) (hextra : ("params".toList :: extra).Nodup) (seed : Nat)
    (batches : List (List I × List L)) (state : State P O) (log : Log)
    (h : run env cfg (initState init extra seed).1 batches (initState init extra seed).2 = .ok (state, log)) :
    (log.flatMap fun rngs => rngs.map Prod.snd).Nodup ∧
    (∃ first steps, log = first :: steps ∧ PyDict.keys first = "params".toList :: extra ∧
      ((steps.flatMap fun rngs => rngs.map Prod.snd) ++ state.rngs.map Prod.snd).Pairwise
        (fun a b => ¬ a <+: b ∧ ¬ b <+: a)) ∧
    (PyDict.keys state.rngs).Perm extra ∧ state.step = batches.length := by
  have hr : makeRngs (paramsName :: extra) seed = numbered seed 0 (paramsName :: extra) :=
    PyDict.ofItems_of_nodup _ (by rw [numbered_keys]; exact hextra)
  have hrem : remove (makeRngs (paramsName :: extra) seed) paramsName = numbered seed 1 extra := by
    rw [hr]
    have hself : remove (numbered seed 1 extra) paramsName = numbered seed 1 extra := by
      rw [remove, List.filter_eq_self]
      intro a ha
      have : a.1 ∈ PyDict.keys (numbered seed 1 extra) := List.mem_map_of_mem ha
      rw [numbered_keys] at this
      have : a.1 ≠ paramsName := by
        rintro h'
        rw [h'] at this
        exact (List.nodup_cons.1 hextra).1 this
      simpa using this
    simpa [numbered, remove] using hself
  have hs0 : (initState init extra seed).1.rngs = numbered seed 1 extra := hrem
  have hall := numbered_pairwise seed 0 (paramsName :: extra)
  obtain ⟨U, h1, h2, h3, h4⟩ := run_ok env cfg batches _ _ _ _ h
    (by rw [hs0, numbered_keys]; exact (List.nodup_cons.1 hextra).2)
    (by rw [hs0]; exact numbered_pairwise seed 1 extra)
  have hlog : log = numbered seed 0 (paramsName :: extra) :: U := by
    rw [h1]
    change [makeRngs (paramsName :: extra) seed] ++ U = _
    rw [hr]
    rfl
  rw [hs0] at h2 h3
  rw [numbered_keys] at h3
  refine ⟨?_, ⟨_, U, hlog, numbered_keys _ _ _, h2.1⟩, h3, ?_⟩
  · rw [hlog, List.flatMap_cons]
    refine List.nodup_append.2 ⟨hall.imp fun h => h.ne,
      ((List.pairwise_append.1 h2.1).1).imp fun h => h.ne, ?_⟩
    rintro a ha b hb rfl
    obtain ⟨c, hc, hp, hne⟩ := h2.2.1 a hb
    have hc' : c ∈ vals (numbered seed 0 (paramsName :: extra)) := by
      change c ∈ child [seed] 0 :: vals (numbered seed 1 extra)
      exact List.mem_cons_of_mem _ hc
    exact (hall.forall hc' ha hne).1 hp
  · rw [h4]
    exact Nat.zero_add _

/-- An environment for examples: the parameter is a number, the loss of an example is its distance to the parameter, the
auxiliary loss is the number of keys, and the optimizer subtracts the gradient. -/
noncomputable def exEnv : Env ℝ Unit ℝ ℝ (List ℝ) ℝ where
  apply := fun p x r => (x.map (· - p), fun k => if k = "auxiliary_loss".toList then [(r.length : ℝ)] else [])
  loss := fun y l => List.zipWith (· - ·) y l
  grad := fun f p => f (p + 1) - f p
  update := fun g _ _ => (-g, ())
  applyUpdates := fun p u => p + u
  norm := fun g => |g|
  normParams := fun p => |p|

/-- A configuration for examples: two microsteps, two updates of the attack and mixup. -/
def exCfg : Config ℝ ℝ ℝ where
  devices := 1
  microsteps := some 2
  attack := true
  numUpdates := 2
  attackUpdate := fun _ _ x _ => x
  mixup := true
  mix := fun _ x y => .ok (x, y)

/-- The hypotheses of `C82_no_key_reused` hold for two steps with microsteps, attack and mixup: there is such a run, with
eleven uses of keys. -/
example : ∃ s log, run exEnv exCfg (initState (fun _ => (0, ())) ["dropout".toList, "mixup".toList] 7).1
    [([1, 2], [3, 4]), ([1, 2], [3, 4])] (initState (fun _ => ((0 : ℝ), ())) ["dropout".toList, "mixup".toList] 7).2 =
      .ok (s, log) ∧ log.length = 11 := ⟨_, _, rfl, rfl⟩

/-- C82 (remark): the keys given to the initialization of the model, except `params`, are also the ones from which the keys
of the train steps are derived. -/
theorem C82_init_keys_split_counterexample : ∃ (state : State ℝ Unit) (first step : Rngs) (a b : Key),
    run exEnv { exCfg with microsteps := none, attack := false, mixup := false }
      (initState (fun _ => (0, ())) ["dropout".toList] 0).1 [([1], [3])]
      (initState (fun _ => ((0 : ℝ), ())) ["dropout".toList] 0).2 = .ok (state, [first, step]) ∧
    PyDict.get? first "dropout".toList = some a ∧ PyDict.get? step "dropout".toList = some b ∧ a <+: b ∧ a ≠ b :=
  ⟨_, _, _, [0, 1], [0, 1, 0], rfl, rfl, rfl, by decide, by decide⟩

/-! ### C83 -/

theorem iterate_slice (r : Rngs) (j : Nat) :
    (fun x => slice x 1)^[j] r = r.map fun e => (e.1, e.2 ++ List.replicate j 1) := by
  induction j with
  | zero => simp
  | succ j ih =>
    rw [Function.iterate_succ_apply', ih]
    simp [slice, child, List.replicate_succ']

/-- C83 (one train step with `m` microsteps).  Microstep `j` uses the examples in positions `j`, `j + m`, ... with keys of
its own.  Its loss is the mean loss of these examples plus the mean auxiliary loss that the model reports for them.  The
parameters change by the update that the optimizer computes from the average of the gradients of these losses, the step
advances by one, and the state keeps new keys under the same names.  The metrics are averages over the microsteps, the
total loss is the sum of the main and the auxiliary loss, and the norms are those of the gradients, the updates and the
new parameters. -/
theorem C83_train_step (env : Env P O I L Y G) (devices : Nat) (hd : 0 < devices) (m : Nat) (hm : 0 < m)
    (state : State P O) (images : List I) (labels : List L) (log : Log)
    (hlen : labels.length = images.length) (hdev : devices ∣ images.length) (hdvd : m ∣ images.length / devices)
    (keys : Nat → Rngs) (hkeys : ∀ j, keys j = state.rngs.map fun e => (e.1, e.2 ++ List.replicate j 1 ++ [0]))
    (main aux : P → Nat → ℝ)
    (hmain : ∀ p j, main p j = ((env.loss (env.apply p (BatchSpec.every m j images) (keys j)).1
        (BatchSpec.every m j labels)).sum / (env.loss (env.apply p (BatchSpec.every m j images) (keys j)).1
        (BatchSpec.every m j labels)).length))
    (haux : ∀ p j, aux p j = ((env.apply p (BatchSpec.every m j images) (keys j)).2 "auxiliary_loss".toList).sum /
      ((env.apply p (BatchSpec.every m j images) (keys j)).2 "auxiliary_loss".toList).length)
    (grads : G)
    (hgrads : grads = (1 / (m : ℝ)) • ((List.range m).map fun j =>
      env.grad (fun p => main p j + aux p j) state.params).sum) :
    ∃ state' metrics, trainStep env devices (some (m : Int)) state images labels log =
        .ok (state', metrics, log ++ (List.range m).map keys) ∧
      state'.step = state.step + 1 ∧
      state'.params = env.applyUpdates state.params (env.update grads state.opt state.params).1 ∧
      state'.opt = (env.update grads state.opt state.params).2 ∧
      state'.rngs = state.rngs.map (fun e => (e.1, e.2 ++ List.replicate m 1)) ∧
      metrics "main_loss".toList = (1 / (m : ℝ)) * ((List.range m).map (main state.params)).sum ∧
      metrics "auxiliary_loss".toList = (1 / (m : ℝ)) * ((List.range m).map (aux state.params)).sum ∧
      metrics "total_loss".toList = metrics "main_loss".toList + metrics "auxiliary_loss".toList ∧
      metrics "global_norm/grads".toList = env.norm grads ∧
      metrics "global_norm/updates".toList = env.norm (env.update grads state.opt state.params).1 ∧
      metrics "global_norm/params".toList = env.normParams state'.params ∧
      ∀ k ∉ ["main_loss".toList, "total_loss".toList, "global_norm/grads".toList, "global_norm/updates".toList,
          "global_norm/params".toList],
        metrics k = (1 / (m : ℝ)) * ((List.range m).map fun j =>
          ((env.apply state.params (BatchSpec.every m j images) (keys j)).2 k).sum /
          ((env.apply state.params (BatchSpec.every m j images) (keys j)).2 k).length).sum := by
  have hslice : ∀ j, slice ((fun x => slice x 1)^[j] state.rngs) 0 = keys j := by
    intro j
    rw [iterate_slice, hkeys]
    simp [slice, child]
  have hn1 : ¬ ("total_loss".toList = "main_loss".toList) := by decide
  have hm1 : ∀ p j, metricsOf env p (BatchSpec.every m j images) (BatchSpec.every m j labels) (keys j)
      "main_loss".toList = main p j := by
    intro p j
    simp only [metricsOf]
    rw [if_neg (by decide), if_pos trivial, hmain]
    rfl
  have hm2 : ∀ p j, metricsOf env p (BatchSpec.every m j images) (BatchSpec.every m j labels) (keys j)
      "auxiliary_loss".toList = aux p j := by
    intro p j
    simp only [metricsOf]
    rw [if_neg (by decide), if_neg (by decide), haux]
    rfl
  have hm3 : ∀ p j, metricsOf env p (BatchSpec.every m j images) (BatchSpec.every m j labels) (keys j)
      "total_loss".toList = main p j + aux p j := by
    intro p j
    rw [← hm1, ← hm2]
    simp only [metricsOf]
    rw [if_pos trivial, if_neg (by decide : ¬ ("main_loss".toList = "total_loss".toList)),
      if_neg (by decide : ¬ ("auxiliary_loss".toList = "total_loss".toList)), if_pos trivial]
  have hacc := Trainer.C48_microsteps devices hd (compute env) m hm state.params images labels hlen hdev hdvd
    (fun j => env.grad (fun p => main p j + aux p j) state.params)
    (fun j => ((fun x => slice x 1)^[j] state.rngs, log ++ (List.range j).map keys))
    (fun j => metricsOf env state.params (BatchSpec.every m j images) (BatchSpec.every m j labels) (keys j))
    (by
      intro j _
      simp only [compute, hslice]
      rw [← Function.iterate_succ_apply' (fun x => slice x 1), List.range_succ, List.map_append, ← List.append_assoc]
      have : (fun p => metricsOf env p (BatchSpec.every m j images) (BatchSpec.every m j labels) (keys j)
          "total_loss".toList) = fun p => main p j + aux p j := funext fun p => hm3 p j
      rw [this]
      rfl)
  rw [← hgrads] at hacc
  have hsum : ∀ k, ((1 / (m : ℝ)) • ((List.range m).map fun j => metricsOf env state.params
      (BatchSpec.every m j images) (BatchSpec.every m j labels) (keys j)).sum) k =
      (1 / (m : ℝ)) * ((List.range m).map fun j => metricsOf env state.params
        (BatchSpec.every m j images) (BatchSpec.every m j labels) (keys j) k).sum := by
    intro k
    rw [Pi.smul_apply, smul_eq_mul]
    congr 1
    generalize List.range m = l
    induction l with
    | nil => rfl
    | cons a l ih => simp only [List.map_cons, List.sum_cons, Pi.add_apply, ih]
  have hrun : trainStep env devices (some (m : Int)) state images labels log = .ok
      (⟨state.step + 1, env.applyUpdates state.params (env.update grads state.opt state.params).1,
        (env.update grads state.opt state.params).2, (fun x => slice x 1)^[m] state.rngs⟩,
      fun k =>
        if k = normName "params" then
          env.normParams (env.applyUpdates state.params (env.update grads state.opt state.params).1)
        else if k = normName "updates" then env.norm (env.update grads state.opt state.params).1
        else if k = normName "grads" then env.norm grads
        else ((1 / (m : ℝ)) • ((List.range m).map fun j => metricsOf env state.params
          (BatchSpec.every m j images) (BatchSpec.every m j labels) (keys j)).sum) k,
      log ++ (List.range m).map keys) := by
    unfold trainStep
    have h0 : (state.rngs, log) = ((fun x => slice x 1)^[0] state.rngs, log ++ (List.range 0).map keys) := by
      simp
    rw [h0, hacc]
    rfl
  refine ⟨_, _, hrun, rfl, rfl, rfl, iterate_slice _ _, ?_, ?_, ?_, ?_, ?_, ?_, ?_⟩
  · rw [if_neg (by decide), if_neg (by decide), if_neg (by decide), hsum]
    simp only [hm1]
  · rw [if_neg (by decide), if_neg (by decide), if_neg (by decide), hsum]
    simp only [hm2]
  · rw [if_neg (by decide), if_neg (by decide), if_neg (by decide), if_neg (by decide), if_neg (by decide),
      if_neg (by decide), if_neg (by decide), if_neg (by decide), if_neg (by decide), hsum, hsum, hsum, ← mul_add]
    simp only [hm1, hm2, hm3]
    congr 1
    generalize List.range m = l
    induction l with
    | nil => simp
    | cons a l ih =>
      simp only [List.map_cons, List.sum_cons, ih]
      ring
  · rw [if_neg (by decide), if_neg (by decide), if_pos (by decide)]
  · rw [if_neg (by decide), if_pos (by decide)]
  · rw [if_pos (by decide)]
  · intro k hk
    simp only [List.mem_cons, List.not_mem_nil, or_false, not_or] at hk
    obtain ⟨k1, k2, k3, k4, k5⟩ := hk
    rw [if_neg (by exact k5), if_neg (by exact k4), if_neg (by exact k3), hsum]
    simp only [metricsOf, if_neg k2, if_neg k1]
    rfl

/-- C83 (without microsteps): the same as one microstep. -/
theorem C83_no_microsteps (env : Env P O I L Y G) (microsteps : Option Int) (h : ∀ m, microsteps = some m → m ≤ 0)
    (devices : Nat) (hd : 0 < devices) (state : State P O) (images : List I) (labels : List L) (log : Log)
    (hlen : labels.length = images.length) (hdev : devices ∣ images.length) :
    trainStep env devices microsteps state images labels log =
      trainStep env devices (some 1) state images labels log := by
  unfold trainStep
  rw [Trainer.C48_disabled devices _ microsteps h]
  have hall : ∀ {α : Type} (xs : List α), BatchSpec.every 1 0 xs = xs := by
    intro α xs
    simp [BatchSpec.every, Nat.mod_one]
  have := Trainer.C48_microsteps devices hd (compute env) 1 (by decide) state.params images labels hlen hdev (one_dvd _)
    (fun _ => env.grad (fun p => metricsOf env p images labels (slice state.rngs 0) "total_loss".toList) state.params)
    (fun j => if j = 0 then (state.rngs, log) else (slice state.rngs 1, log ++ [slice state.rngs 0]))
    (fun _ => metricsOf env state.params images labels (slice state.rngs 0))
    (by
      intro i hi
      have : i = 0 := by omega
      subst this
      rw [hall, hall]
      rfl)
  simp only [if_true] at this
  have h1 : ((1 : Nat) : Int) = 1 := rfl
  rw [h1] at this
  rw [this]
  simp [compute]

/-- The hypotheses of `C83_train_step` hold for four examples and two microsteps. -/
example : ∃ s m log, trainStep exEnv 1 (some 2) ⟨5, 0, (), [("dropout".toList, [0])]⟩ [1, 2, 3, 4] [0, 0, 0, 0] [] =
    .ok (s, m, log) ∧ s.step = 6 ∧ log = [[("dropout".toList, [0, 0])], [("dropout".toList, [0, 1, 0])]] ∧
    m "total_loss".toList = m "main_loss".toList + m "auxiliary_loss".toList := by
  obtain ⟨s, m, h1, h2, _, _, _, _, _, h3, _⟩ := C83_train_step exEnv 1 (by decide) 2 (by decide)
    ⟨5, 0, (), [("dropout".toList, [0])]⟩ [1, 2, 3, 4] [0, 0, 0, 0] [] rfl (by decide) (by decide) _
    (fun _ => rfl) _ _ (fun _ _ => rfl) (fun _ _ => rfl) _ rfl
  exact ⟨s, m, _, h1, h2, rfl, h3⟩

end Verif.TrainStep
