import Verif.Model.Mapping
import Verif.Proofs.Unflatten
import Verif.Proofs.FlatLeaf
import Verif.Proofs.HardwareMesh
import Verif.Proofs.Mixup

namespace Verif.Mapping

open Verif FlatDict

variable {D α : Type}

/-- The action for a source name, also when the flag would raise. -/
def act (rules : List Rule) (src : Key) : Action := ((find rules src).map Rule.action).getD identity

theorem actionOf_ok {rules : List Rule} {flags : Flags} {src : Key} {a : Action} (h : actionOf rules flags src = .ok a) :
    a = act rules src ∧ (flags.raiseSource = true → find rules src ≠ none) := by
  unfold actionOf at h
  unfold act
  split at h
  · rename_i r hr
    cases h
    rw [hr]
    exact ⟨rfl, by simp⟩
  · rename_i hr
    rw [hr]
    split at h
    · cases h
    · rename_i hf
      cases h
      exact ⟨rfl, fun h => absurd h hf⟩

/-- The source goes to the target `k`. -/
def To (rules : List Rule) (k m : Key) : Prop := (act rules m).kind ≠ .drop ∧ (act rules m).rename m = k

instance (rules : List Rule) (k m : Key) : Decidable (To rules k m) := by unfold To; infer_instance

/-- The sources that go to the target `k`, in the order of the loop. -/
def srcsFor (rules : List Rule) (M : List Key) (k : Key) : List Key := M.filter fun m => To rules k m

theorem srcsFor_snoc (rules : List Rule) (M : List Key) (m k : Key) :
    srcsFor rules (M ++ [m]) k = srcsFor rules M k ++ if To rules k m then [m] else [] := by
  unfold srcsFor
  rw [List.filter_append]
  congr 1
  by_cases h : To rules k m <;> simp [h]

/-- `tx` is what the sources `ks` make for the target `t`. -/
def IsTx (rules : List Rule) (source : PyDict Key (Flat (Arr D α))) (ks : List Key) (t : Arr D α) (tx : Tx D α) : Prop :=
  (∃ k s x, ks = [k] ∧ (act rules k).kind = .single s ∧ PyDict.get? source k = some (.leaf x) ∧ tx = .single s x t) ∨
  (∃ axis xs, (∃ k ks', ks = k :: ks' ∧ (act rules k).kind = .stack axis) ∧
    (∀ k ∈ ks, (act rules k).kind.isStack = true) ∧
    List.Forall₂ (fun k x => PyDict.get? source k = some (.leaf x)) ks xs ∧ tx = .stack axis xs t)

/-- The invariant of the loop after the names `M`. -/
structure Inv (rules : List Rule) (source target : PyDict Key (Flat (Arr D α))) (M : List Key) (st : State D α) : Prop where
  keys : PyDict.keys st.used = PyDict.keys target
  used : ∀ k, k ∈ PyDict.keys target → PyDict.get? st.used k = some (decide (srcsFor rules M k ≠ []))
  dst : ∀ m ∈ M, (act rules m).kind ≠ .drop →
    ((∃ x t, PyDict.get? source m = some (.leaf x) ∧ PyDict.get? target ((act rules m).rename m) = some (.leaf t)) ∨
     (PyDict.get? source m = some .empty ∧ PyDict.get? target ((act rules m).rename m) = some .empty))
  absent : ∀ k, (∀ t, PyDict.get? target k ≠ some (.leaf t)) ∨ srcsFor rules M k = [] → PyDict.get? st.output k = none
  present : ∀ k t, PyDict.get? target k = some (.leaf t) → srcsFor rules M k ≠ [] →
    ∃ tx, PyDict.get? st.output k = some tx ∧ IsTx rules source (srcsFor rules M k) t tx
  nodup : (PyDict.keys st.output).Nodup

theorem inv_step (rules : List Rule) (flags : Flags) (source target : PyDict Key (Flat (Arr D α))) (M : List Key) (m : Key)
    (st st' : State D α) (hinv : Inv rules source target M st) (h : step rules flags source target st m = .ok st') :
    Inv rules source target (M ++ [m]) st' ∧ (flags.raiseSource = true → find rules m ≠ none) := by
  unfold step at h
  obtain ⟨a, ha, h⟩ := ebind h
  obtain ⟨rfl, hf⟩ := actionOf_ok ha
  refine ⟨?_, hf⟩
  split at h
  · rename_i hd
    cases h
    have hno : ∀ k, ¬ To rules k m := fun k hk => hk.1 hd
    have hs : ∀ k, srcsFor rules (M ++ [m]) k = srcsFor rules M k := by
      intro k
      rw [srcsFor_snoc, if_neg (hno k), List.append_nil]
    refine ⟨hinv.keys, ?_, ?_, ?_, ?_, hinv.nodup⟩
    · simpa only [hs] using hinv.used
    · intro m' hm'
      rcases List.mem_append.1 hm' with hm' | hm'
      · exact hinv.dst m' hm'
      · rw [List.mem_singleton.1 hm']
        intro h; exact absurd hd h
    · simpa only [hs] using hinv.absent
    · simpa only [hs] using hinv.present
  · rename_i hd
    unfold stepWith at h
    simp only at h
    set a := act rules m with hact
    set dst := a.rename m with hdst
    have hto : To rules dst m := ⟨hd, hdst.symm⟩
    have hother : ∀ k, k ≠ dst → ¬ To rules k m := fun k hk h => hk h.2.symm
    have hsd : srcsFor rules (M ++ [m]) dst = srcsFor rules M dst ++ [m] := by
      rw [srcsFor_snoc, if_pos hto]
    have hso : ∀ k, k ≠ dst → srcsFor rules (M ++ [m]) k = srcsFor rules M k := by
      intro k hk
      rw [srcsFor_snoc, if_neg (hother k hk), List.append_nil]
    split at h
    · cases h
    · rename_i tv htv
      have hmem : dst ∈ PyDict.keys target := by
        by_contra hc
        rw [(PyDict.get?_eq_none _ _).2 hc] at htv
        cases htv
      split at h
      · cases h
      · rename_i hchk
        have hused : ∀ k, k ∈ PyDict.keys target →
            PyDict.get? (PyDict.set st.used dst true) k = some (decide (srcsFor rules (M ++ [m]) k ≠ [])) := by
          intro k hk
          rw [PyDict.get?_set]
          by_cases e : k = dst
          · subst e; simp [hsd]
          · rw [if_neg (Ne.symm e), hso k e]
            exact hinv.used k hk
        have hkeys : PyDict.keys (PyDict.set st.used dst true) = PyDict.keys target := by
          rw [PyDict.keys_set, hinv.keys, if_pos hmem]
        have hstack : srcsFor rules M dst ≠ [] → a.kind.isStack = true := by
          intro hne
          by_contra hns
          apply hchk
          refine ⟨?_, by simpa using hns⟩
          rw [hinv.used dst hmem]
          simp [hne]
        have hdst' : ∀ (P : Prop), P →
            (P → (∃ x t, PyDict.get? source m = some (.leaf x) ∧ PyDict.get? target dst = some (.leaf t)) ∨
             (PyDict.get? source m = some .empty ∧ PyDict.get? target dst = some .empty)) →
            ∀ m' ∈ M ++ [m], (act rules m').kind ≠ .drop →
            ((∃ x t, PyDict.get? source m' = some (.leaf x) ∧ PyDict.get? target ((act rules m').rename m') = some (.leaf t)) ∨
             (PyDict.get? source m' = some .empty ∧ PyDict.get? target ((act rules m').rename m') = some .empty)) := by
          intro P hP hPP m' hm'
          rcases List.mem_append.1 hm' with hm' | hm'
          · exact hinv.dst m' hm'
          · rw [List.mem_singleton.1 hm']
            intro _; exact hPP hP
        split at h
        · cases h
        · rename_i hsrc
          cases h
          refine ⟨hkeys, hused, hdst' True trivial fun _ => .inr ⟨hsrc, htv⟩, ?_, ?_, hinv.nodup⟩
          · intro k hk
            by_cases e : k = dst
            · subst e
              exact hinv.absent _ (.inl (by rw [htv]; simp))
            · rw [hso k e] at hk
              exact hinv.absent k hk
          · intro k t hk hne
            by_cases e : k = dst
            · subst e
              rw [htv] at hk
              cases hk
            · rw [hso k e] at hne ⊢
              exact hinv.present k t hk hne
        · rename_i x t hsrc
          obtain ⟨out, hout, h⟩ := ebind h
          cases h
          have hadd : ∃ tx, out = PyDict.set st.output dst tx ∧ IsTx rules source (srcsFor rules (M ++ [m]) dst) t tx := by
            unfold addSource at hout
            rw [hsd]
            split at hout
            · rename_i axis hk
              split at hout
              · rename_i tx htx
                obtain ⟨tx', happ, hout⟩ := ebind hout
                cases hout
                refine ⟨tx', rfl, ?_⟩
                have hne : srcsFor rules M dst ≠ [] := by
                  intro hnil
                  rw [hinv.absent dst (.inr hnil)] at htx
                  cases htx
                obtain ⟨tx0, htx0, his⟩ := hinv.present dst t htv hne
                rw [htx] at htx0
                cases htx0
                rcases his with ⟨k, s, x', h1, h2, h3, rfl⟩ | ⟨ax, xs, ⟨k, ks', h1, h2⟩, h3, h4, rfl⟩
                · cases happ
                · cases happ
                  right
                  refine ⟨ax, xs ++ [x], ⟨k, ks' ++ [m], by rw [h1]; rfl, h2⟩, ?_, ?_, rfl⟩
                  · intro k' hk'
                    rcases List.mem_append.1 hk' with hk' | hk'
                    · exact h3 k' hk'
                    · rw [List.mem_singleton.1 hk', ← hact, hk]; rfl
                  · exact List.rel_append h4 (.cons hsrc .nil)
              · rename_i hnone
                cases hout
                refine ⟨_, rfl, ?_⟩
                have hnil : srcsFor rules M dst = [] := by
                  by_contra hne
                  obtain ⟨tx, htx, _⟩ := hinv.present dst t htv hne
                  rw [htx] at hnone
                  cases hnone
                rw [hnil, List.nil_append]
                right
                refine ⟨axis, [x], ⟨m, [], rfl, hk⟩, ?_, .cons hsrc .nil, rfl⟩
                intro k' hk'
                rw [List.mem_singleton.1 hk', ← hact, hk]; rfl
            · rename_i s hk
              cases hout
              refine ⟨_, rfl, ?_⟩
              have hnil : srcsFor rules M dst = [] := by
                by_contra hne
                have := hstack hne
                rw [hk] at this
                cases this
              rw [hnil, List.nil_append]
              exact .inl ⟨m, s, x, rfl, hk, hsrc, rfl⟩
            · cases hout
          obtain ⟨tx, rfl, hist⟩ := hadd
          refine ⟨hkeys, hused, hdst' True trivial fun _ => .inl ⟨x, t, hsrc, htv⟩, ?_, ?_, PyDict.nodup_keys_set _ _ _ hinv.nodup⟩
          · intro k hk
            rw [PyDict.get?_set]
            by_cases e : k = dst
            · subst e
              rcases hk with hk | hk
              · exact absurd htv (hk t)
              · rw [hsd] at hk
                simp at hk
            · rw [if_neg (Ne.symm e)]
              rw [hso k e] at hk
              exact hinv.absent k hk
          · intro k t' hk hne
            rw [PyDict.get?_set]
            by_cases e : k = dst
            · subst e
              rw [htv] at hk
              cases hk
              exact ⟨tx, by simp, hist⟩
            · rw [hso k e] at hne ⊢
              rw [if_neg (Ne.symm e)]
              exact hinv.present k t' hk hne
        · cases h

theorem inv_loop (rules : List Rule) (flags : Flags) (source target : PyDict Key (Flat (Arr D α))) (N M : List Key)
    (st st' : State D α) (hinv : Inv rules source target M st) (h : N.foldlM (step rules flags source target) st = .ok st') :
    Inv rules source target (M ++ N) st' ∧ (flags.raiseSource = true → ∀ m ∈ N, find rules m ≠ none) := by
  induction N generalizing M st with
  | nil =>
    cases h
    exact ⟨by simpa using hinv, by simp⟩
  | cons m N ih =>
    rw [List.foldlM_cons] at h
    obtain ⟨st1, h1, h2⟩ := ebind h
    obtain ⟨hi, hf⟩ := inv_step rules flags source target M m st st1 hinv h1
    obtain ⟨hi', hf'⟩ := ih (M ++ [m]) st1 hi h2
    refine ⟨by simpa using hi', ?_⟩
    intro hr m' hm'
    rcases List.mem_cons.1 hm' with rfl | hm'
    · exact hf hr
    · exact hf' hr m' hm'

theorem inv_init (rules : List Rule) (source target : PyDict Key (Flat (Arr D α))) :
    Inv rules source target [] ⟨target.map fun kv => (kv.1, false), []⟩ := by
  refine ⟨by simp [PyDict.keys], ?_, by simp, fun _ _ => rfl, by simp [srcsFor], by simp [PyDict.keys]⟩
  intro k hk
  simp only [srcsFor, List.filter_nil, ne_eq, not_true_eq_false, decide_false]
  clear * - hk
  induction target with
  | nil => simp [PyDict.keys] at hk
  | cons kv d ih =>
    simp only [List.map_cons, PyDict.get?]
    by_cases e : kv.1 = k
    · simp [e]
    · rw [if_neg e]
      apply ih
      simp [PyDict.keys] at hk ⊢
      rcases hk with hk | hk
      · exact absurd hk.symm e
      · exact hk

/-- The result of `build`. -/
structure Built (env : Env D α) (rules : List Rule) (flags : Flags) (source target : PyDict Key (Flat (Arr D α)))
    (txs : PyDict Key (Tx D α)) : Prop where
  dst : ∀ m ∈ PyDict.keys source, (act rules m).kind ≠ .drop →
    ((∃ x t, PyDict.get? source m = some (.leaf x) ∧ PyDict.get? target ((act rules m).rename m) = some (.leaf t)) ∨
     (PyDict.get? source m = some .empty ∧ PyDict.get? target ((act rules m).rename m) = some .empty))
  absent : ∀ k, (∀ t, PyDict.get? target k ≠ some (.leaf t)) ∨
    srcsFor rules (NaturalSort.naturalSort env.float (PyDict.keys source)) k = [] → PyDict.get? txs k = none
  present : ∀ k t, PyDict.get? target k = some (.leaf t) →
    srcsFor rules (NaturalSort.naturalSort env.float (PyDict.keys source)) k ≠ [] →
    ∃ tx, PyDict.get? txs k = some tx ∧
      IsTx rules source (srcsFor rules (NaturalSort.naturalSort env.float (PyDict.keys source)) k) t tx
  nodup : (PyDict.keys txs).Nodup
  strictSource : flags.raiseSource = true → ∀ m ∈ PyDict.keys source, find rules m ≠ none
  strictTarget : flags.raiseTarget = true → ∀ k t, PyDict.get? target k = some (.leaf t) →
    srcsFor rules (NaturalSort.naturalSort env.float (PyDict.keys source)) k ≠ []

theorem build_spec (env : Env D α) (rules : List Rule) (flags : Flags) (source target : PyDict Key (Flat (Arr D α)))
    (htn : (PyDict.keys target).Nodup)
    (txs : PyDict Key (Tx D α)) (h : build env rules flags source target = .ok txs) :
    Built env rules flags source target txs := by
  unfold build at h
  obtain ⟨st, hst, h⟩ := ebind h
  obtain ⟨_, hloop, h⟩ := ebind h
  cases h
  obtain ⟨hinv, hf⟩ := inv_loop rules flags source target _ [] _ _ (inv_init rules source target) hst
  rw [List.nil_append] at hinv
  have hmem : ∀ m, m ∈ NaturalSort.naturalSort env.float (PyDict.keys source) ↔ m ∈ PyDict.keys source :=
    fun m => (List.mergeSort_perm _ _).mem_iff
  refine ⟨fun m hm => hinv.dst m ((hmem m).2 hm), hinv.absent, hinv.present, hinv.nodup,
    fun hr m hm => hf hr m ((hmem m).2 hm), ?_⟩
  intro hr k t hk hnil
  have hkm : k ∈ PyDict.keys target := by
    by_contra hc
    rw [(PyDict.get?_eq_none _ _).2 hc] at hk
    cases hk
  have hu := hinv.used k hkm
  rw [hnil] at hu
  have hm : (k, false) ∈ st.used := by
    rw [← PyDict.get?_eq_some _ (by rw [hinv.keys]; exact htn)]
    simpa using hu
  generalize st.used = l at hloop hm
  clear * - hloop hm hk hr
  induction l with
  | nil => simp at hm
  | cons kv l ih =>
    rw [List.forIn_cons] at hloop
    obtain ⟨r, h1, h2⟩ := ebind hloop
    rcases List.mem_cons.1 hm with rfl | hm
    · rw [hk] at h1
      simp [hr] at h1
      cases h1
    · have : r = .yield PUnit.unit := by
        clear * - h1
        split at h1
        · split at h1
          · cases h1
          · cases h1; rfl
        · cases h1; rfl
      subst this
      exact ih h2 hm

theorem mapM_forall₂ {A B : Type} {f : A → Except PyErr B} {l : List A} {r : List B} (h : l.mapM f = .ok r) :
    List.Forall₂ (fun a b => f a = .ok b) l r := by
  induction l generalizing r with
  | nil => cases h; exact .nil
  | cons a l ih =>
    rw [List.mapM_cons] at h
    obtain ⟨b, hb, h⟩ := ebind h
    obtain ⟨bs, hbs, h⟩ := ebind h
    cases h
    exact .cons hb (ih hbs)

theorem apply_spec [DecidableEq D] (env : Env D α) (flags : Flags) (txs : PyDict Key (Tx D α))
    (target out : PyDict Key (Flat (Arr D α))) (htn : (PyDict.keys target).Nodup) (hxn : (PyDict.keys txs).Nodup)
    (h : apply env flags txs target = .ok out) :
    (PyDict.keys out).Nodup ∧ (∀ k tx, PyDict.get? txs k = some tx → ∃ w, applyTx env flags tx = .ok w) ∧
    ∀ k v, (k, v) ∈ out ↔ (PyDict.get? txs k = none ∧ (k, v) ∈ target) ∨
      ∃ tx w, PyDict.get? txs k = some tx ∧ applyTx env flags tx = .ok w ∧ v = .leaf w := by
  unfold apply at h
  obtain ⟨output, ho, h⟩ := ebind h
  cases h
  have hF := mapM_forall₂ ho
  have hperm := List.mergeSort_perm txs (fun a b => decide (a.1 ≤ b.1))
  have hkeys : output.map Prod.fst = (txs.mergeSort fun a b => decide (a.1 ≤ b.1)).map Prod.fst := by
    clear * - hF
    generalize (txs.mergeSort fun a b => decide (a.1 ≤ b.1)) = sorted at hF
    induction hF with
    | nil => rfl
    | cons h _ ih =>
      obtain ⟨w, _, h⟩ := ebind h
      cases h
      simp [ih]
  have hkn : (output.map Prod.fst).Nodup := by
    rw [hkeys]
    exact (hperm.map _).nodup_iff.2 hxn
  have hmem : ∀ k v, (k, v) ∈ output ↔ ∃ tx w, PyDict.get? txs k = some tx ∧ applyTx env flags tx = .ok w ∧ v = .leaf w := by
    intro k v
    have : ∀ l out', List.Forall₂ (fun (kt : Key × Tx D α) (b : Key × Flat (Arr D α)) => (do
          let v ← applyTx env flags kt.2
          return (kt.1, Flat.leaf v)) = Except.ok b) l out' →
        ((k, v) ∈ out' ↔ ∃ tx w, (k, tx) ∈ l ∧ applyTx env flags tx = .ok w ∧ v = .leaf w) := by
      intro l out' hF
      induction hF with
      | nil => simp
      | @cons a b l out' h _ ih =>
        obtain ⟨w, hw, h⟩ := ebind h
        cases h
        rw [List.mem_cons, ih]
        constructor
        · rintro (h | ⟨tx, w', h1, h2⟩)
          · cases h
            exact ⟨a.2, w, by simp, hw, rfl⟩
          · exact ⟨tx, w', by simp [h1], h2⟩
        · rintro ⟨tx, w', h1, h2, h3⟩
          rcases List.mem_cons.1 h1 with rfl | h1
          · left
            rw [hw] at h2
            cases h2
            rw [h3]
          · exact .inr ⟨tx, w', h1, h2, h3⟩
    rw [this _ _ hF]
    constructor
    · rintro ⟨tx, w, h1, h2⟩
      exact ⟨tx, w, (PyDict.get?_eq_some _ hxn _ _).2 (hperm.mem_iff.1 h1), h2⟩
    · rintro ⟨tx, w, h1, h2⟩
      exact ⟨tx, w, hperm.mem_iff.2 ((PyDict.get?_eq_some _ hxn _ _).1 h1), h2⟩
  have hnk : (PyDict.keys ((target.filter fun kv => (PyDict.get? txs kv.1).isNone) ++ output)).Nodup := by
    unfold PyDict.keys
    rw [List.map_append, List.nodup_append]
    refine ⟨?_, hkn, ?_⟩
    · exact htn.sublist (List.filter_sublist.map _)
    · intro a ha b hb e
      subst e
      obtain ⟨kv, h1, rfl⟩ := List.mem_map.1 ha
      have h2 := (List.mem_filter.1 h1).2
      obtain ⟨kv', h3, h4⟩ := List.mem_map.1 hb
      obtain ⟨tx, w, h5, _⟩ := (hmem kv'.1 kv'.2).1 h3
      rw [h4] at h5
      rw [h5] at h2
      cases h2
  refine ⟨?_, ?_, ?_⟩
  · rw [PyDict.foldl_set_of_nodup _ _ hnk]; exact hnk
  · intro k tx hk
    have h1 := hperm.mem_iff.2 ((PyDict.get?_eq_some _ hxn _ _).1 hk)
    clear * - hF h1
    generalize (txs.mergeSort fun a b => decide (a.1 ≤ b.1)) = sorted at hF h1
    induction hF with
    | nil => simp at h1
    | cons h _ ih =>
      rcases List.mem_cons.1 h1 with rfl | h1
      · obtain ⟨w, hw, _⟩ := ebind h
        exact ⟨w, hw⟩
      · exact ih h1
  · intro k v
    rw [PyDict.foldl_set_of_nodup _ _ hnk, List.mem_append, hmem, List.mem_filter, and_comm]
    simp

/-- The new value of the leaf at a path. -/
def newValue [DecidableEq D] (env : Env D α) (flags : Flags) (txs : PyDict Key (Tx D α)) (p : List Key) (t : Arr D α) : Arr D α :=
  match PyDict.get? txs (join p) with
  | none => t
  | some tx => ((applyTx env flags tx).toOption).getD t

theorem finish_spec [DecidableEq D] (env : Env D α) (rules : List Rule) (flags : Flags)
    (source target : List (Key × FlatDict.Tree (Arr D α))) (ht : ItemsOk target) (txs : PyDict Key (Tx D α))
    (out : PyDict Key (Flat (Arr D α))) (hb : Built env rules flags (flatten source) (flatten target) txs)
    (hout : apply env flags txs (flatten target) = .ok out) :
    (∀ k tx, PyDict.get? txs k = some tx → ∃ w, applyTx env flags tx = .ok w) ∧
    ∃ d, unflatten out = .ok d ∧ Partitioning.fromStateDict (.node target) (.node d) =
      .ok (.node (Partitioning.mapItems (newValue env flags txs) [] target)) := by
  have htn := flatten_keys_nodup target ht
  obtain ⟨h1, h2, h3⟩ := apply_spec env flags txs _ out htn hb.nodup hout
  refine ⟨h2, ?_⟩
  set f := newValue env flags txs
  have hok := Partitioning.mapItems_ok f [] target ht
  have hfm := Partitioning.flattenItems_map f [] target
  have hleaf : ∀ k tx, PyDict.get? txs k = some tx → ∃ t, PyDict.get? (flatten target) k = some (.leaf t) := by
    intro k tx hk
    by_contra hc
    push Not at hc
    rw [hb.absent k (.inl hc)] at hk
    cases hk
  have hset : ∀ k v, (k, v) ∈ out ↔
      (k, v) ∈ (flattenItems [] target).map (fun pv => (join pv.1, Partitioning.mapFlat f pv.1 pv.2)) := by
    intro k v
    rw [h3]
    constructor
    · rintro (⟨hn, hm⟩ | ⟨tx, w, hx, hw, rfl⟩)
      · rw [flatten_eq target ht] at hm
        obtain ⟨pv, hpv, he⟩ := List.mem_map.1 hm
        cases he
        refine List.mem_map.2 ⟨pv, hpv, ?_⟩
        obtain ⟨p, fv⟩ := pv
        cases fv with
        | empty => rfl
        | leaf t =>
          simp only [Partitioning.mapFlat]
          have : f p t = t := by
            simp only [f, newValue]
            rw [hn]
          rw [this]
      · obtain ⟨t, htl⟩ := hleaf k tx hx
        rw [PyDict.get?_eq_some _ htn, flatten_eq target ht] at htl
        obtain ⟨pv, hpv, he⟩ := List.mem_map.1 htl
        obtain ⟨p, fv⟩ := pv
        simp only [Prod.mk.injEq] at he
        obtain ⟨rfl, rfl⟩ := he
        refine List.mem_map.2 ⟨_, hpv, ?_⟩
        simp only [Partitioning.mapFlat]
        have : f p t = w := by
          simp only [f, newValue]
          rw [hx]
          simp only
          rw [hw]
          rfl
        rw [this]
    · intro hm
      obtain ⟨⟨p, fv⟩, hpv, he⟩ := List.mem_map.1 hm
      simp only [Prod.mk.injEq] at he
      obtain ⟨rfl, rfl⟩ := he
      have hg := get?_flatten_of_mem target ht hpv
      cases fv with
      | empty =>
        left
        refine ⟨hb.absent _ (.inl (by rw [hg]; simp)), ?_⟩
        exact (PyDict.get?_eq_some _ htn _ _).1 hg
      | leaf t =>
        cases hx : PyDict.get? txs (join p) with
        | none =>
          left
          refine ⟨rfl, ?_⟩
          have : f p t = t := by
            simp only [f, newValue]
            rw [hx]
          simp only [Partitioning.mapFlat, this]
          exact (PyDict.get?_eq_some _ htn _ _).1 hg
        | some tx =>
          right
          obtain ⟨w, hw⟩ := h2 _ tx hx
          refine ⟨tx, w, rfl, hw, ?_⟩
          have : f p t = w := by
            simp only [f, newValue]
            rw [hx]
            simp only
            rw [hw]
            rfl
          simp only [Partitioning.mapFlat, this]
  have hnd2 : ((flattenItems [] target).map (fun pv => (join pv.1, Partitioning.mapFlat f pv.1 pv.2))).Nodup := by
    have := htn
    rw [flatten_eq target ht] at this
    unfold PyDict.keys at this
    rw [List.map_map] at this
    apply List.Nodup.of_map Prod.fst
    rw [List.map_map]
    exact this
  have hp : out.Perm ((flattenItems [] target).map (fun pv => (join pv.1, Partitioning.mapFlat f pv.1 pv.2))) := by
    rw [List.perm_ext_iff_of_nodup (List.Nodup.of_map Prod.fst h1) hnd2]
    rintro ⟨k, v⟩
    exact hset k v
  have hp2 : (out.map fun kv => (split kv.1, kv.2)).Perm (flattenItems [] (Partitioning.mapItems f [] target)) := by
    rw [hfm]
    refine (hp.map _).trans (List.Perm.of_eq ?_)
    rw [List.map_map]
    apply List.map_congr_left
    intro pv hpv
    simp only [Function.comp]
    rw [split_join _ (flattenItems_paths target pv hpv) (flattenItems_sep target ht pv hpv)]
  obtain ⟨d', hd', ha⟩ := items_anyOrder _ hok (items_all _ hok) _ hp2
  have hfs := fromStateItems_approx [] target _ d'
    (Partitioning.mapItems_rel f (fun _ _ _ => True) (fun _ _ => trivial) [] target) ha
  refine ⟨d', hd', ?_⟩
  rw [Partitioning.fromStateDict, hfs]
  rfl

theorem mapStateDict_spec [DecidableEq D] (env : Env D α) (rules : List Rule) (flags : Flags)
    (source target : List (Key × FlatDict.Tree (Arr D α))) (ht : ItemsOk target) (r : FlatDict.Tree (Arr D α))
    (h : mapStateDict env rules flags source target = .ok r) :
    ∃ txs, Built env rules flags (flatten source) (flatten target) txs ∧
      (∀ k tx, PyDict.get? txs k = some tx → ∃ w, applyTx env flags tx = .ok w) ∧
      r = .node (Partitioning.mapItems (newValue env flags txs) [] target) := by
  unfold mapStateDict at h
  obtain ⟨txs, htxs, h⟩ := ebind h
  obtain ⟨out, hout, h⟩ := ebind h
  obtain ⟨d, hd, h⟩ := ebind h
  have hb := build_spec env rules flags _ _ (flatten_keys_nodup target ht) txs htxs
  obtain ⟨h2, d', hd', h3⟩ := finish_spec env rules flags source target ht txs out hb hout
  rw [hd] at hd'
  cases hd'
  rw [h] at h3
  cases h3
  exact ⟨txs, hb, h2, rfl⟩

/-- The conditions on the names under which the loop succeeds. -/
structure Compatible (rules : List Rule) (flags : Flags) (source target : PyDict Key (Flat (Arr D α))) : Prop where
  matched : flags.raiseSource = true → ∀ m ∈ PyDict.keys source, find rules m ≠ none
  dst : ∀ m ∈ PyDict.keys source, (act rules m).kind ≠ .drop →
    ((∃ x t, PyDict.get? source m = some (.leaf x) ∧ PyDict.get? target ((act rules m).rename m) = some (.leaf t) ∧
      (act rules m).kind ≠ .other) ∨
     (PyDict.get? source m = some .empty ∧ PyDict.get? target ((act rules m).rename m) = some .empty))
  once : ∀ m ∈ PyDict.keys source, ∀ m' ∈ PyDict.keys source, m ≠ m' → (act rules m).kind ≠ .drop →
    (act rules m').kind ≠ .drop → (act rules m).rename m = (act rules m').rename m' → (act rules m).kind.isStack = true
  covered : flags.raiseTarget = true → ∀ k t, PyDict.get? target k = some (.leaf t) →
    ∃ m ∈ PyDict.keys source, To rules k m

theorem step_total (rules : List Rule) (flags : Flags) (source target : PyDict Key (Flat (Arr D α))) (M : List Key) (m : Key)
    (st : State D α) (hinv : Inv rules source target M st) (hc : Compatible rules flags source target)
    (hm : m ∈ PyDict.keys source) (hM : ∀ x ∈ M, x ∈ PyDict.keys source) (hnew : m ∉ M) :
    ∃ st', step rules flags source target st m = .ok st' := by
  have ha : actionOf rules flags m = .ok (act rules m) := by
    unfold actionOf act
    cases hf : find rules m with
    | some r => rfl
    | none =>
      simp only
      rw [if_neg]
      · rfl
      · intro hr
        exact hc.matched hr m hm hf
  unfold step
  rw [ha]
  change ∃ st', (if (act rules m).kind = .drop then _ else _) = _
  by_cases hd : (act rules m).kind = .drop
  · rw [if_pos hd]; exact ⟨_, rfl⟩
  rw [if_neg hd]
  unfold stepWith
  simp only
  have hstack : ∀ m', m' ∈ srcsFor rules M ((act rules m).rename m) → (act rules m).kind.isStack = true ∧
      (act rules m').kind.isStack = true := by
    intro m' hm'
    obtain ⟨h1, h2⟩ := List.mem_filter.1 hm'
    have h2 : To rules ((act rules m).rename m) m' := by simpa using h2
    have hne : m ≠ m' := by rintro rfl; exact hnew h1
    exact ⟨hc.once m hm m' (hM _ h1) hne hd h2.1 h2.2.symm, hc.once m' (hM _ h1) m hm (Ne.symm hne) h2.1 hd h2.2⟩
  have hchk : ∀ (hmem : (act rules m).rename m ∈ PyDict.keys target),
      ¬ (PyDict.get? st.used ((act rules m).rename m) = some true ∧ (act rules m).kind.isStack = false) := by
    rintro hmem ⟨h1, h2⟩
    rw [hinv.used _ hmem] at h1
    have hne : srcsFor rules M ((act rules m).rename m) ≠ [] := by simpa using h1
    obtain ⟨m', hm'⟩ := List.exists_mem_of_ne_nil _ hne
    rw [(hstack m' hm').1] at h2
    cases h2
  have hmemOf : ∀ tv, PyDict.get? target ((act rules m).rename m) = some tv → (act rules m).rename m ∈ PyDict.keys target := by
    intro tv htv
    by_contra hcc
    rw [(PyDict.get?_eq_none _ _).2 hcc] at htv
    cases htv
  rcases hc.dst m hm hd with ⟨x, t, hx, ht, hk⟩ | ⟨hx, ht⟩
  · rw [ht]
    simp only
    rw [if_neg (hchk (hmemOf _ ht)), hx]
    simp only
    have : ∃ o, addSource (act rules m).kind ((act rules m).rename m) x t st.output = .ok o := by
      unfold addSource
      cases hkind : (act rules m).kind with
      | drop => exact absurd hkind hd
      | other => exact absurd hkind hk
      | single s => exact ⟨_, rfl⟩
      | stack axis =>
        simp only
        cases hg : PyDict.get? st.output ((act rules m).rename m) with
        | none => exact ⟨_, rfl⟩
        | some tx =>
          have hne : srcsFor rules M ((act rules m).rename m) ≠ [] := by
            intro hnil
            rw [hinv.absent _ (.inr hnil)] at hg
            cases hg
          obtain ⟨tx', htx', his⟩ := hinv.present _ t ht hne
          rw [hg] at htx'
          cases htx'
          rcases his with ⟨k, s, x', h1, h2, _⟩ | ⟨ax, xs, _, _, _, rfl⟩
          · have := (hstack k (by rw [h1]; simp)).2
            rw [h2] at this
            cases this
          · exact ⟨_, rfl⟩
    obtain ⟨o, ho⟩ := this
    rw [ho]
    exact ⟨_, rfl⟩
  · rw [ht]
    simp only
    rw [if_neg (hchk (hmemOf _ ht)), hx]
    exact ⟨_, rfl⟩

theorem loop_total (rules : List Rule) (flags : Flags) (source target : PyDict Key (Flat (Arr D α))) (N M : List Key)
    (st : State D α) (hinv : Inv rules source target M st) (hc : Compatible rules flags source target)
    (hmem : ∀ m ∈ M ++ N, m ∈ PyDict.keys source) (hnd : (M ++ N).Nodup) :
    ∃ st', N.foldlM (step rules flags source target) st = .ok st' := by
  induction N generalizing M st with
  | nil => exact ⟨_, rfl⟩
  | cons m N ih =>
    obtain ⟨st1, h1⟩ := step_total rules flags source target M m st hinv hc (hmem m (by simp))
      (fun x hx => hmem x (by simp [hx])) (by
        intro h
        exact (List.nodup_append.1 hnd).2.2 m h m (by simp) rfl)
    obtain ⟨st2, h2⟩ := ih (M ++ [m]) st1 (inv_step rules flags source target M m st st1 hinv h1).1
      (by simpa using hmem) (by simpa using hnd)
    rw [List.foldlM_cons, h1]
    exact ⟨st2, h2⟩

theorem build_total (env : Env D α) (rules : List Rule) (flags : Flags) (source target : PyDict Key (Flat (Arr D α)))
    (hsn : (PyDict.keys source).Nodup) (htn : (PyDict.keys target).Nodup) (hc : Compatible rules flags source target) :
    ∃ txs, build env rules flags source target = .ok txs := by
  have hperm : (NaturalSort.naturalSort env.float (PyDict.keys source)).Perm (PyDict.keys source) := List.mergeSort_perm _ _
  obtain ⟨st, hst⟩ := loop_total rules flags source target (NaturalSort.naturalSort env.float (PyDict.keys source)) []
    _ (inv_init rules source target) hc (fun m hm => hperm.mem_iff.1 (by simpa using hm)) (by
      rw [List.nil_append]; exact hperm.nodup_iff.2 hsn)
  obtain ⟨hinv, _⟩ := inv_loop rules flags source target _ [] _ _ (inv_init rules source target) hst
  rw [List.nil_append] at hinv
  unfold build
  rw [hst]
  have hall : ∀ kv ∈ st.used, ∀ t, PyDict.get? target kv.1 = some (.leaf t) → (!kv.2 && flags.raiseTarget) = false := by
    intro kv hkv t ht
    cases hr : flags.raiseTarget with
    | false => simp
    | true =>
      obtain ⟨m, hm, hto⟩ := hc.covered hr kv.1 t ht
      have h1 := (PyDict.get?_eq_some _ (by rw [hinv.keys]; exact htn) kv.1 kv.2).2 hkv
      have hmem : kv.1 ∈ PyDict.keys target := by
        rw [← hinv.keys]; exact List.mem_map.2 ⟨kv, hkv, rfl⟩
      rw [hinv.used _ hmem] at h1
      have hne : srcsFor rules (NaturalSort.naturalSort env.float (PyDict.keys source)) kv.1 ≠ [] := by
        intro hnil
        have : m ∈ srcsFor rules (NaturalSort.naturalSort env.float (PyDict.keys source)) kv.1 :=
          List.mem_filter.2 ⟨hperm.mem_iff.2 hm, by simpa using hto⟩
        rw [hnil] at this
        cases this
      simp only [hne, ne_eq, not_false_eq_true, decide_true, Option.some.injEq] at h1
      rw [← h1]
      rfl
  refine ⟨st.output, ?_⟩
  change ((forIn st.used PUnit.unit _) >>= _ : Except PyErr _) = _
  have hfor : ∀ l : List (Key × Bool), (∀ kv ∈ l, ∀ t, PyDict.get? target kv.1 = some (.leaf t) → (!kv.2 && flags.raiseTarget) = false) →
      (forIn l PUnit.unit fun kv _ => match PyDict.get? target kv.1 with
          | some (Flat.leaf _) =>
            if (!kv.2 && flags.raiseTarget) = true then do
              throw PyErr.valueError
              pure (ForInStep.yield PUnit.unit)
            else pure (ForInStep.yield PUnit.unit)
          | _ => pure (ForInStep.yield PUnit.unit) : Except PyErr PUnit) = .ok PUnit.unit := by
    intro l hl
    induction l with
    | nil => rfl
    | cons kv l ih =>
      rw [List.forIn_cons]
      have hrec := ih fun kv' h' => hl kv' (by simp [h'])
      cases hg : PyDict.get? target kv.1 with
      | none => exact hrec
      | some fv =>
        cases fv with
        | empty => exact hrec
        | leaf t =>
          simp only
          rw [hl kv (by simp) t hg]
          exact hrec
  have := hfor st.used hall
  exact congrArg (fun z : Except PyErr PUnit => z >>= fun _ => pure st.output) this

theorem apply_total [DecidableEq D] (env : Env D α) (flags : Flags) (txs : PyDict Key (Tx D α))
    (target : PyDict Key (Flat (Arr D α))) (h : ∀ kt ∈ txs, ∃ w, applyTx env flags kt.2 = .ok w) :
    ∃ out, apply env flags txs target = .ok out := by
  have hm : ∀ l : List (Key × Tx D α), (∀ kt ∈ l, ∃ w, applyTx env flags kt.2 = .ok w) →
      ∃ o, (l.mapM fun kt => do
        let v ← applyTx env flags kt.2
        return (kt.1, Flat.leaf v) : Except PyErr _) = .ok o := by
    intro l hl
    induction l with
    | nil => exact ⟨_, rfl⟩
    | cons kt l ih =>
      obtain ⟨w, hw⟩ := hl kt (by simp)
      obtain ⟨o, ho⟩ := ih fun kt' h' => hl kt' (by simp [h'])
      rw [List.mapM_cons, hw]
      change ∃ o', (List.mapM _ l >>= _ : Except PyErr _) = .ok o'
      rw [ho]
      exact ⟨_, rfl⟩
  obtain ⟨o, ho⟩ := hm (txs.mergeSort fun a b => decide (a.1 ≤ b.1)) (fun kt hkt =>
    h kt ((List.mergeSort_perm _ _).mem_iff.1 hkt))
  unfold apply
  simp only
  rw [ho]
  exact ⟨_, rfl⟩

end Verif.Mapping
