import Verif.Model.Encoder
import Verif.Proofs.PyDict
import Verif.Proofs.Summarizer
import Mathlib.Data.List.Nodup

/-! Helper lemmas about the encoder loops. -/

namespace Verif.Encoder

open Verif

variable {V M A : Type*}

theorem blockName_inj {a b : Nat} (h : blockName a = blockName b) : a = b := by
  unfold blockName at h
  exact Summarizer.natStr_inj (List.append_cancel_left h)

theorem blockName_ne_aux (a : Nat) : blockName a ≠ auxName := by
  unfold blockName auxName
  intro h
  have := congrArg List.head? h
  simp at this

theorem repeatRows_one (x : List V) : repeatRows 1 x = x := by
  unfold repeatRows
  induction x with
  | nil => rfl
  | cons v x ih => simp [List.flatMap_cons]

theorem repeatRows_length (n : Nat) (x : List V) : (repeatRows n x).length = n * x.length := by
  unfold repeatRows
  induction x with
  | nil => simp
  | cons v x ih => rw [List.flatMap_cons, List.length_append, ih, List.length_replicate, List.length_cons]; ring

theorem denseBlock_eq [Add V] (fns : BlockFns V) (mlp : V → V) (x : List V) :
    denseBlock fns mlp x = x.map (fun v => (fns.attn v + v) + mlp (fns.norm (fns.attn v + v))) := by
  unfold denseBlock attention
  induction x with
  | nil => rfl
  | cons v x ih => simp

/-- The entries added to the metrics. -/
def entries (f : Nat → Option M) (blocks : List Nat) : List (List Char × M) :=
  blocks.filterMap (fun i => (f i).map (fun m => (blockName i, m)))

theorem loopEnsemble_spec [Add V] (layers : Layers V M) (L : List Int) (n : Nat) :
    ∀ (cnt k : Nat) (first : Bool) (x : List V) (ms : PyDict (List Char) M) (out ms'),
      loopEnsemble layers L n (List.range' k cnt) first x ms = .ok (out, ms') →
      ∃ (xs : Nat → List V) (f : Nat → Option M), xs k = x ∧ out = xs (k + cnt) ∧
        (∀ i, k ≤ i → i < k + cnt → (i : Int) ∉ L →
          f i = none ∧ xs (i + 1) = denseBlock (layers.fns i) (layers.mlp i) (xs i)) ∧
        (∀ i, k ≤ i → i < k + cnt → (i : Int) ∈ L →
          ∃ m, f i = some m ∧ moeBlock (layers.fns i) (layers.moe i)
            (if first = true ∧ ∀ j, k ≤ j → j < i → (j : Int) ∉ L then repeatRows n (xs i) else xs i)
              = .ok (xs (i + 1), m)) ∧
        ms' = (entries f (List.range' k cnt)).foldl (fun d kv => PyDict.set d kv.1 kv.2) ms := by
  intro cnt
  induction cnt with
  | zero =>
    intro k first x ms out ms' h
    simp only [List.range'_zero, loopEnsemble, Except.ok.injEq, Prod.mk.injEq] at h
    refine ⟨fun _ => x, fun _ => none, rfl, h.1.symm, ?_, ?_, ?_⟩
    · intro i h1 h2; omega
    · intro i h1 h2; omega
    · rw [← h.2]; rfl
  | succ cnt ih =>
    intro k first x ms out ms' h
    rw [List.range'_succ, loopEnsemble] at h
    by_cases hk : (k : Int) ∈ L
    · rw [if_pos hk] at h
      simp only at h
      split at h
      · cases h
      rename_i x1 m1 hm
      obtain ⟨xs, f, e0, e1, e2, e3, e4⟩ := ih (k + 1) false x1 _ out ms' h
      refine ⟨fun i => if i = k then x else xs i, fun i => if i = k then some m1 else f i, by simp,
        ?_, ?_, ?_, ?_⟩
      · simp only [show k + (cnt + 1) ≠ k by omega, if_false]
        rw [e1]; congr 1; omega
      · intro i h1 h2 h3
        have hik : i ≠ k := by rintro rfl; exact h3 hk
        simp only [hik, if_false, show i + 1 ≠ k by omega]
        exact e2 i (by omega) (by omega) h3
      · intro i h1 h2 h3
        by_cases hik : i = k
        · subst hik
          refine ⟨m1, by simp, ?_⟩
          simp only [if_true, show i + 1 ≠ i by omega, if_false, e0]
          have : (first = true ∧ ∀ j, i ≤ j → j < i → (j : Int) ∉ L) ↔ first = true :=
            ⟨fun h => h.1, fun h => ⟨h, fun j h1 h2 => by omega⟩⟩
          simp only [this]
          exact hm
        · obtain ⟨m, hf, hmo⟩ := e3 i (by omega) (by omega) h3
          refine ⟨m, by simp [hik, hf], ?_⟩
          simp only [hik, if_false, show i + 1 ≠ k by omega]
          have hn : ¬ (first = true ∧ ∀ j, k ≤ j → j < i → (j : Int) ∉ L) :=
            fun h => h.2 k le_rfl (by omega) hk
          rw [if_neg hn]
          simpa using hmo
      · rw [List.range'_succ]
        unfold entries at e4 ⊢
        rw [List.filterMap_cons]
        simp only [if_true, Option.map_some, List.foldl_cons]
        rw [e4]
        congr 1
        apply List.filterMap_congr
        intro i hi
        rw [List.mem_range'_1] at hi
        simp [show i ≠ k by omega]
    · rw [if_neg hk] at h
      obtain ⟨xs, f, e0, e1, e2, e3, e4⟩ := ih (k + 1) first _ _ out ms' h
      refine ⟨fun i => if i = k then x else xs i, fun i => if i = k then none else f i, by simp,
        ?_, ?_, ?_, ?_⟩
      · simp only [show k + (cnt + 1) ≠ k by omega, if_false]
        rw [e1]; congr 1; omega
      · intro i h1 h2 h3
        by_cases hik : i = k
        · subst hik
          refine ⟨by simp, ?_⟩
          simp only [if_true, show i + 1 ≠ i by omega, if_false, e0]
        · simp only [hik, if_false, show i + 1 ≠ k by omega]
          exact e2 i (by omega) (by omega) h3
      · intro i h1 h2 h3
        have hik : i ≠ k := by rintro rfl; exact hk h3
        obtain ⟨m, hf, hmo⟩ := e3 i (by omega) (by omega) h3
        refine ⟨m, by simp [hik, hf], ?_⟩
        simp only [hik, if_false, show i + 1 ≠ k by omega]
        have hn : (first = true ∧ ∀ j, k ≤ j → j < i → (j : Int) ∉ L) ↔
            (first = true ∧ ∀ j, k + 1 ≤ j → j < i → (j : Int) ∉ L) := by
          constructor
          · exact fun h => ⟨h.1, fun j h1 h2 => h.2 j (by omega) h2⟩
          · refine fun h => ⟨h.1, fun j h1 h2 => ?_⟩
            by_cases hj : j = k
            · rw [hj]; exact hk
            · exact h.2 j (by omega) h2
        simp only [hn]
        exact hmo
      · rw [List.range'_succ]
        unfold entries at e4 ⊢
        rw [List.filterMap_cons]
        simp only [if_true, Option.map_none]
        rw [e4]
        congr 1
        apply List.filterMap_congr
        intro i hi
        rw [List.mem_range'_1] at hi
        simp [show i ≠ k by omega]

theorem loop_eq_ensemble [Add V] (layers : Layers V M) (L : List Int) (first : Bool) :
    ∀ (blocks : List Nat) (x : List V) (ms : PyDict (List Char) M),
      loop layers L blocks x ms = loopEnsemble layers L 1 blocks first x ms := by
  intro blocks
  induction blocks generalizing first with
  | nil => intro x ms; rfl
  | cons b rest ih =>
    intro x ms
    rw [loop, loopEnsemble]
    by_cases hb : (b : Int) ∈ L
    · rw [if_pos hb, if_pos hb]
      have : (if first = true then repeatRows 1 x else x) = x := by
        split
        · exact repeatRows_one x
        · rfl
      simp only [this]
      split
      · rfl
      · exact ih false _ _
    · rw [if_neg hb, if_neg hb]
      exact ih first _ _

theorem entries_keys_nodup (f : Nat → Option M) (blocks : List Nat) (h : blocks.Nodup) :
    (PyDict.keys (entries f blocks)).Nodup := by
  unfold PyDict.keys entries
  rw [List.map_filterMap]
  refine List.Nodup.filterMap ?_ h
  intro a b c ha hb
  simp only [Option.mem_def, Option.map_map, Option.map_eq_some_iff, Function.comp] at ha hb
  obtain ⟨_, _, ha⟩ := ha
  obtain ⟨_, _, hb⟩ := hb
  exact blockName_inj (ha.trans hb.symm)

theorem entries_get (f : Nat → Option M) (blocks : List Nat) (h : blocks.Nodup) (i : Nat)
    (hi : i ∈ blocks) : PyDict.get? (entries f blocks) (blockName i) = f i := by
  have hn := entries_keys_nodup f blocks h
  cases hf : f i with
  | none =>
    rw [PyDict.get?_eq_none]
    unfold PyDict.keys entries
    rw [List.mem_map]
    rintro ⟨kv, hkv, he⟩
    rw [List.mem_filterMap] at hkv
    obtain ⟨j, hj, hm⟩ := hkv
    rw [Option.map_eq_some_iff] at hm
    obtain ⟨m, hfj, rfl⟩ := hm
    have := blockName_inj he
    subst this
    rw [hf] at hfj
    cases hfj
  | some m =>
    rw [PyDict.get?_eq_some _ hn]
    unfold entries
    rw [List.mem_filterMap]
    exact ⟨i, hi, by rw [hf]; rfl⟩

theorem get?_map {κ ν ν' : Type*} [DecidableEq κ] (g : ν → ν') (d : PyDict κ ν) (k : κ) :
    PyDict.get? (d.map (fun kv => (kv.1, g kv.2))) k = (PyDict.get? d k).map g := by
  induction d with
  | nil => rfl
  | cons e d ih =>
    simp only [List.map_cons, PyDict.get?]
    split
    · rfl
    · exact ih

theorem entries_sum [AddMonoid A] (aux : M → A) (f : Nat → Option M) (blocks : List Nat) :
    ((entries f blocks).map (fun kv => aux kv.2)).sum =
      (blocks.filterMap (fun i => (f i).map aux)).sum := by
  unfold entries
  rw [List.map_filterMap]
  congr 1
  apply List.filterMap_congr
  intro i _
  cases f i <;> rfl

end Verif.Encoder
