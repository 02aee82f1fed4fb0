import Verif.Model.PyDict
import Mathlib.Data.List.Nodup
import Mathlib.Data.List.Basic

/-!
Helper lemmas about dictionaries.
-/

namespace Verif.PyDict

variable {κ ν : Type*} [DecidableEq κ]

theorem get?_set (d : PyDict κ ν) (k k' : κ) (v : ν) :
    get? (set d k v) k' = if k = k' then some v else get? d k' := by
  induction d with
  | nil => simp [set, get?]
  | cons e d ih =>
    obtain ⟨k0, v0⟩ := e
    simp only [set]
    by_cases h : k0 = k
    · subst h
      rw [if_pos rfl]
      simp only [get?]
      split <;> rfl
    · rw [if_neg h]
      simp only [get?]
      rw [ih]
      by_cases h1 : k0 = k'
      · subst h1; simp [Ne.symm h]
      · simp [h1]

theorem keys_set (d : PyDict κ ν) (k : κ) (v : ν) :
    keys (set d k v) = if k ∈ keys d then keys d else keys d ++ [k] := by
  induction d with
  | nil => simp [set, keys]
  | cons e d ih =>
    obtain ⟨k0, v0⟩ := e
    simp only [set]
    by_cases h : k0 = k
    · subst h; simp [keys]
    · rw [if_neg h]
      simp only [keys, List.map_cons, List.mem_cons] at ih ⊢
      rw [ih]
      by_cases h1 : k ∈ List.map Prod.fst d
      · simp [h1]
      · simp [h1, Ne.symm h]

theorem set_of_not_mem (d : PyDict κ ν) (k : κ) (v : ν) (h : k ∉ keys d) :
    set d k v = d ++ [(k, v)] := by
  induction d with
  | nil => rfl
  | cons e d ih =>
    obtain ⟨k0, v0⟩ := e
    simp only [keys, List.map_cons, List.mem_cons, not_or] at h
    simp only [set, if_neg (Ne.symm h.1), ih h.2, List.cons_append]

theorem nodup_keys_set (d : PyDict κ ν) (k : κ) (v : ν) (h : (keys d).Nodup) :
    (keys (set d k v)).Nodup := by
  rw [keys_set]
  split
  · exact h
  · rename_i hk
    rw [List.nodup_append]
    exact ⟨h, by simp, by simpa using fun a ha (e : a = k) => hk (e ▸ ha)⟩

theorem get?_eq_none (d : PyDict κ ν) (k : κ) : get? d k = none ↔ k ∉ keys d := by
  induction d with
  | nil => simp [get?, keys]
  | cons e d ih =>
    obtain ⟨k0, v0⟩ := e
    simp only [get?, keys, List.map_cons, List.mem_cons, not_or] at ih ⊢
    by_cases h : k0 = k
    · simp [h]
    · simp only [if_neg h, ih]
      exact ⟨fun h' => ⟨Ne.symm h, h'⟩, fun h' => h'.2⟩

theorem get?_eq_some (d : PyDict κ ν) (hd : (keys d).Nodup) (k : κ) (v : ν) :
    get? d k = some v ↔ (k, v) ∈ d := by
  induction d with
  | nil => simp [get?]
  | cons e d ih =>
    obtain ⟨k0, v0⟩ := e
    simp only [keys, List.map_cons, List.nodup_cons] at hd
    simp only [get?]
    by_cases h : k0 = k
    · subst h
      simp only [if_true, Option.some.injEq, List.mem_cons, Prod.mk.injEq, true_and]
      constructor
      · exact fun h => Or.inl h.symm
      · rintro (h | h)
        · exact h.symm
        · exact absurd (List.mem_map.2 ⟨_, h, rfl⟩) hd.1
    · rw [if_neg h, ih hd.2]
      simp [Ne.symm h]

theorem foldl_set_of_nodup (items d : List (κ × ν)) (h : (keys (d ++ items)).Nodup) :
    items.foldl (fun d kv => set d kv.1 kv.2) d = d ++ items := by
  induction items generalizing d with
  | nil => simp
  | cons e items ih =>
    have hk : e.1 ∉ keys d := by
      simp only [keys, List.map_append, List.map_cons] at h ⊢
      rw [List.nodup_append] at h
      intro hm
      exact h.2.2 _ hm _ (by simp) rfl
    rw [List.foldl_cons, set_of_not_mem d e.1 e.2 hk, ih]
    · simp
    · simpa using h

theorem ofItems_of_nodup (items : List (κ × ν)) (h : (keys items).Nodup) :
    ofItems items = items := by
  unfold ofItems
  rw [foldl_set_of_nodup items [] (by simpa using h)]
  rfl

end Verif.PyDict
