import Verif.Model.AttackRouting
import Verif.Spec.Attack
import Verif.Spec.Trees
import Verif.Proofs.FlatLeaf
import Verif.Proofs.Summarizer
import Verif.Proofs.EnsembleEval
import Verif.Props.MoeBlock
import Verif.Props.MoeExpertChoice

/-!
C92: the predictions and the experts of each token used in the statistics of an attack
(vmoe/projects/adversarial_attacks/restore.py).
-/

namespace Verif.AttackRouting

open Verif Moe FlatDict Spec TreeSpec AttackSpec

variable {G S K E C : Nat}

/-- The weights of the einsum dispatcher: the gates of the requests that the expert serves. -/
theorem einsumWeights_eq (hE : 0 < E) (gates : Fin G → Fin S → Fin E → ℝ) (h0 : 0 < K) (hK : K ≤ E) (cap : Nat) (bp : Bool)
    (g : Fin G) (s : Fin S) (e : Fin E) :
    einsumWeights (fun g => topExpertsEinsum (gates g) K h0 hK cap bp) g s e =
      if Kept hE bp (gates g) K cap s e then gates g s e else 0 := by
  unfold einsumWeights
  simp only [einsum_combineWeights, einsum_dispatchWeights hE]
  split
  · rename_i h
    rw [Finset.sum_eq_single_of_mem (⟨_, h.2⟩ : Fin cap) (Finset.mem_univ _)]
    · rw [if_pos ⟨h.1, rfl⟩]
    · intro i _ hi
      exact if_neg fun hh => hi (Fin.ext hh.2.symm)
  · rename_i h
    refine Finset.sum_eq_zero fun i _ => if_neg ?_
    rintro ⟨h1, h2⟩
    exact h ⟨h1, by rw [h2]; exact i.2⟩

/-- The weights of the indices dispatcher: the gates of all requests. -/
theorem indicesWeights_eq (hE : 0 < E) (gates : Fin G → Fin S → Fin E → ℝ) (h0 : 0 < K) (hK : K ≤ E) (cap : Nat) (bp : Bool)
    (g : Fin G) (s : Fin S) (e : Fin E) :
    indicesWeights (fun g => topExpertsIndices (gates g) K h0 hK cap bp) g s e =
      if Requests (gates g) K s e then gates g s e else 0 := by
  unfold indicesWeights
  simp only [indices_indices hE]
  have hc : ∀ k, (topExpertsIndices (gates g) K h0 hK cap bp).combineWeights s k = gates g s (topKIdx (gates g s) K hK k) := by
    intro k
    simp only [topExpertsIndices, common_combineWeights]
  simp only [hc]
  split
  · rename_i h
    obtain ⟨k, hk⟩ := (requests_iff_exists (gates g) hK s e).1 h
    rw [Finset.sum_eq_single_of_mem k (Finset.mem_univ _)]
    · rw [hk, if_pos rfl, one_mul]
    · intro k' _ hk'
      rw [if_neg, zero_mul]
      intro hh
      exact hk' (topKIdx_injective (gates g) hK s (by rw [hk]; exact Fin.ext (by exact_mod_cast hh)))
  · rename_i h
    refine Finset.sum_eq_zero fun k _ => ?_
    rw [if_neg, zero_mul]
    intro hh
    exact h ((requests_iff_exists (gates g) hK s e).2 ⟨k, Fin.ext (by exact_mod_cast hh)⟩)

/-- The weights of expert choice: the gates of the items that the expert selects. -/
theorem itemsWeights_eq (gates : Fin G → Fin S → Fin E → ℝ) (hC : C ≤ S) (g : Fin G) (s : Fin S) (e : Fin E) :
    einsumWeights (fun g => topItemsEinsum (gates g) C hC) g s e = if itemRank (gates g) s e < C then gates g s e else 0 := by
  unfold einsumWeights
  have hw : ∀ i, (topItemsEinsum (gates g) C hC).combineWeights s e i =
      if itemRank (gates g) s e = i then gates g s e else 0 := by
    intro i
    have := topItems_dispatchWeights (gates g) C hC s e i
    simp only [topItemsEinsum] at this ⊢
    simp only [this]
    simp
  simp only [hw]
  split
  · rename_i h
    rw [Finset.sum_eq_single_of_mem (⟨_, h⟩ : Fin C) (Finset.mem_univ _)]
    · rw [if_pos rfl]
    · intro i _ hi
      exact if_neg fun hh => hi (Fin.ext hh.symm)
  · rename_i h
    exact Finset.sum_eq_zero fun i _ => if_neg fun hh => h (by rw [hh]; exact i.2)

/-- What the statistics see of a router: for token `t` of image `b`, which is item `s` of group `g`, the row of the weights
`x g s` of the experts. -/
def Shows (out : List (List (List ℝ))) (B T : Nat) (x : Fin G → Fin S → Fin E → ℝ) : Prop :=
  out.length = B ∧ ∀ b < B, ∃ im, out[b]? = some im ∧ im.length = T ∧
    ∀ t < T, ∀ (g : Fin G) (s : Fin S), g.1 * S + s.1 = b * T + t → im[t]? = some (List.ofFn (x g s))

/-- C92: the weights are put together with the image and the token they belong to; the token of an item is the one that the
MoE layer has put there (`C92_same_items`). -/
theorem C92_tokens (x : Fin G → Fin S → Fin E → ℝ) (B T : Nat) (hB : 0 < B) (h : G * S = B * T) :
    ∃ out, perImage B (rowsOf x) = .ok out ∧ Shows out B T x := by
  have hl : (rowsOf x).length = B * T := by simp [rowsOf, h]
  unfold perImage
  rw [if_neg (by rw [hl]; simp; omega), hl, Nat.mul_div_cancel_left _ hB]
  refine ⟨_, rfl, by simp, fun b hb => ⟨((rowsOf x).drop (b * T)).take T, by simp [hb], ?_, ?_⟩⟩
  · rw [List.length_take, List.length_drop, hl]
    have : (b + 1) * T ≤ B * T := Nat.mul_le_mul_right T hb
    rw [Nat.add_mul] at this
    omega
  · intro t ht g s hgs
    rw [List.getElem?_take_of_lt ht, List.getElem?_drop, ← hgs]
    have hlt : g.1 * S + s.1 < G * S := (rowMajor g s).2
    unfold rowsOf
    rw [List.getElem?_ofFn, dif_pos hlt]
    have e : (⟨g.1 * S + s.1, hlt⟩ : Fin (G * S)) = rowMajor g s := rfl
    rw [e, rowMajor_divNat, rowMajor_modNat]

/-- C92: every item of a group is a token of an image. -/
theorem C92_items_are_tokens (B T : Nat) (h : G * S = B * T) (b t : Nat) (hb : b < B) (ht : t < T) :
    ∃ (g : Fin G) (s : Fin S), g.1 * S + s.1 = b * T + t := by
  have hlt : b * T + t < G * S := by
    have : (b + 1) * T ≤ B * T := Nat.mul_le_mul_right T hb
    rw [Nat.add_mul] at this
    omega
  have hS : 0 < S := by
    rcases Nat.eq_zero_or_pos S with h0 | h0
    · subst h0; simp at hlt
    · exact h0
  exact ⟨⟨(b * T + t) / S, Nat.div_lt_of_lt_mul (by rwa [Nat.mul_comm S G])⟩, ⟨(b * T + t) % S, Nat.mod_lt _ hS⟩,
    by simp only; rw [Nat.mul_comm]; exact Nat.div_add_mod _ _⟩

/-- C92: item `s` of group `g` of the MoE layer is the token that the statistics show for it. -/
theorem C92_same_items {M : Type*} {B T : Nat} (y : Fin B → Fin T → M) (S : Nat) (z : Fin (B * T / S) → Fin S → M)
    (hz : MoeBlock.regroup y S = .ok z) (b : Fin B) (t : Fin T) (g : Fin (B * T / S)) (s : Fin S) (h : g.1 * S + s.1 = b * T + t) :
    z g s = y b t := by
  unfold MoeBlock.regroup at hz
  split at hz
  · injection hz with hz
    rw [← hz]
    have e : ∀ hh, (rowMajor g s).cast hh = rowMajor b t := fun hh => Fin.ext h
    simp only [e, rowMajor_divNat, rowMajor_modNat]
  · cases hz

/-- C92: weights that cannot be divided among the images are an error. -/
theorem C92_uneven (x : Fin G → Fin S → Fin E → ℝ) (B : Nat) (h : ¬ B ∣ G * S) : perImage B (rowsOf x) = .error .typeError := by
  unfold perImage
  refine if_pos (Or.inr fun hh => h ?_)
  rw [show (rowsOf x).length = G * S by simp [rowsOf]] at hh
  exact Nat.dvd_of_mod_eq_zero hh

theorem mem_used_ofFn (f : Fin E → ℝ) (e : Fin E) : e.1 ∈ used (List.ofFn f) ↔ 0 < f e := by
  simp [used]

/-- C92: with the einsum dispatcher, the experts counted for a token are those that serve it. -/
theorem C92_einsum (hE : 0 < E) (gates : Fin G → Fin S → Fin E → ℝ) (hpos : ∀ g s e, 0 < gates g s e) (h0 : 0 < K) (hK : K ≤ E)
    (cap : Nat) (bp : Bool) (B T : Nat) (hB : 0 < B) (h : G * S = B * T) (d : RouterDispatcher)
    (hd : d = .einsum G S E cap (fun g => topExpertsEinsum (gates g) K h0 hK cap bp) ∨
      d = .bfloat16 (.einsum G S E cap (fun g => topExpertsEinsum (gates g) K h0 hK cap bp))) :
    ∃ rows out x, layerRows d = .ok rows ∧ perImage B rows = .ok out ∧ Shows out B T x ∧
      (∀ g s e, x g s e = if Kept hE bp (gates g) K cap s e then gates g s e else 0) ∧
      ∀ g s (e : Fin E), e.1 ∈ used (List.ofFn (x g s)) ↔ Kept hE bp (gates g) K cap s e := by
  obtain ⟨out, h1, h2⟩ := C92_tokens (einsumWeights fun g => topExpertsEinsum (gates g) K h0 hK cap bp) B T hB h
  refine ⟨_, out, _, ?_, h1, h2, einsumWeights_eq hE gates h0 hK cap bp, ?_⟩
  · rcases hd with rfl | rfl <;> rfl
  · intro g s e
    rw [mem_used_ofFn, einsumWeights_eq hE]
    split <;> simp [*]

/-- C92: with the indices dispatcher, the experts counted for a token are the selected ones, also those whose buffer is full
and which do not process the token. -/
theorem C92_indices (hE : 0 < E) (gates : Fin G → Fin S → Fin E → ℝ) (hpos : ∀ g s e, 0 < gates g s e) (h0 : 0 < K) (hK : K ≤ E)
    (cap : Nat) (bp : Bool) (B T : Nat) (hB : 0 < B) (h : G * S = B * T) (d : RouterDispatcher)
    (hd : d = .indices G S K E cap (fun g => topExpertsIndices (gates g) K h0 hK cap bp) ∨
      d = .bfloat16 (.indices G S K E cap (fun g => topExpertsIndices (gates g) K h0 hK cap bp))) :
    ∃ rows out x, layerRows d = .ok rows ∧ perImage B rows = .ok out ∧ Shows out B T x ∧
      (∀ g s e, x g s e = if Requests (gates g) K s e then gates g s e else 0) ∧
      ∀ g s (e : Fin E), e.1 ∈ used (List.ofFn (x g s)) ↔ Requests (gates g) K s e := by
  obtain ⟨out, h1, h2⟩ := C92_tokens (indicesWeights fun g => topExpertsIndices (gates g) K h0 hK cap bp) B T hB h
  refine ⟨_, out, _, ?_, h1, h2, indicesWeights_eq hE gates h0 hK cap bp, ?_⟩
  · rcases hd with rfl | rfl <;> rfl
  · intro g s e
    rw [mem_used_ofFn, indicesWeights_eq hE]
    split <;> simp [*]

/-- C92: with expert choice, the experts counted for a token are those that select it. -/
theorem C92_expert_choice (gates : Fin G → Fin S → Fin E → ℝ) (hpos : ∀ g s e, 0 < gates g s e) (hC : C ≤ S) (B T : Nat) (hB : 0 < B)
    (h : G * S = B * T) (d : RouterDispatcher) (hd : d = .einsum G S E C (fun g => topItemsEinsum (gates g) C hC) ∨
      d = .bfloat16 (.einsum G S E C (fun g => topItemsEinsum (gates g) C hC))) :
    ∃ rows out x, layerRows d = .ok rows ∧ perImage B rows = .ok out ∧ Shows out B T x ∧
      (∀ g s e, x g s e = if itemRank (gates g) s e < C then gates g s e else 0) ∧
      ∀ g s (e : Fin E), e.1 ∈ used (List.ofFn (x g s)) ↔ itemRank (gates g) s e < C := by
  obtain ⟨out, h1, h2⟩ := C92_tokens (einsumWeights fun g => topItemsEinsum (gates g) C hC) B T hB h
  refine ⟨_, out, _, ?_, h1, h2, itemsWeights_eq gates hC, ?_⟩
  · rcases hd with rfl | rfl <;> rfl
  · intro g s e
    rw [mem_used_ofFn, itemsWeights_eq]
    split <;> simp [*]

/-- C92: with enough capacity for all requests both dispatchers give the same weights. -/
theorem C92_dispatchers_agree (hE : 0 < E) (gates : Fin G → Fin S → Fin E → ℝ) (h0 : 0 < K) (hK : K ≤ E) (cap : Nat) (bp : Bool)
    (hkept : ∀ g s e, Requests (gates g) K s e → slot hE bp (gates g) K s e < cap) :
    layerRows (.einsum G S E cap (fun g => topExpertsEinsum (gates g) K h0 hK cap bp)) =
      layerRows (.indices G S K E cap (fun g => topExpertsIndices (gates g) K h0 hK cap bp)) := by
  have : einsumWeights (fun g => topExpertsEinsum (gates g) K h0 hK cap bp) =
      indicesWeights (fun g => topExpertsIndices (gates g) K h0 hK cap bp) := by
    funext g s e
    rw [einsumWeights_eq hE, indicesWeights_eq hE]
    by_cases hr : Requests (gates g) K s e
    · rw [if_pos hr, if_pos ⟨hr, hkept g s e hr⟩]
    · rw [if_neg hr, if_neg fun hh => hr hh.1]
  change Except.ok _ = Except.ok _
  rw [this]

/-- C92 is false as "the experts that process a token, whatever the dispatcher": for the same gates and capacity, a token whose
expert is full is shown with this expert by the indices dispatcher, and without it by the einsum dispatcher. -/
theorem C92_dropped_counterexample : ∃ (gates : Fin 1 → Fin 2 → Fin 1 → ℝ) (hpos : ∀ g s e, 0 < gates g s e),
    layerRows (.einsum 1 2 1 1 (fun g => topExpertsEinsum (gates g) 1 (by decide) (by decide) 1 false)) = .ok [[1], [0]] ∧
    layerRows (.indices 1 2 1 1 1 (fun g => topExpertsIndices (gates g) 1 (by decide) (by decide) 1 false)) = .ok [[1], [1]] := by
  refine ⟨fun _ _ _ => 1, fun _ _ _ => one_pos, ?_, ?_⟩
  · change Except.ok (rowsOf _) = _
    have e : einsumWeights (fun g : Fin 1 => topExpertsEinsum ((fun _ _ _ => 1 : Fin 1 → Fin 2 → Fin 1 → ℝ) g) 1 (by decide) (by decide) 1 false) =
        fun _ s _ => if s = 0 then 1 else 0 := by
      funext g s e
      rw [einsumWeights_eq (by decide)]
      have : Kept (by decide : 0 < 1) false (fun _ _ => (1 : ℝ) : Fin 2 → Fin 1 → ℝ) 1 1 s e ↔ s = 0 := by
        simp only [Kept, Requests, slot, HigherPriority, choiceRank, ItemBefore]
        fin_cases s <;> simp
      simp only [this]
    rw [e]
    simp [rowsOf, List.ofFn_succ, Fin.modNat]
  · change Except.ok (rowsOf _) = _
    have e : indicesWeights (fun g : Fin 1 => topExpertsIndices ((fun _ _ _ => 1 : Fin 1 → Fin 2 → Fin 1 → ℝ) g) 1 (by decide) (by decide) 1 false) =
        fun _ _ _ => 1 := by
      funext g s e
      rw [indicesWeights_eq (by decide)]
      refine if_pos ?_
      simp [Requests, choiceRank]
    rw [e]
    simp [rowsOf, List.ofFn_succ]

theorem mapM_keys {V W : Type} (f : Key × V → Except PyErr (Key × W)) (hf : ∀ a b, f a = .ok b → b.1 = a.1) (l : List (Key × V))
    (l' : List (Key × W)) (h : l.mapM f = .ok l') : PyDict.keys l' = PyDict.keys l := by
  induction l generalizing l' with
  | nil => cases h; rfl
  | cons a l ih =>
    rw [List.mapM_cons] at h
    obtain ⟨b, hb, h⟩ := ebind h
    obtain ⟨l'', hl, h⟩ := ebind h
    cases h
    have := ih _ hl
    unfold PyDict.keys at *
    rw [List.map_cons, List.map_cons, this, hf _ _ hb]

/-- C92: the result has a row table for each router, under its path; only the first call of a router counts.  A router that
returns something else than the two dispatchers is an error. -/
theorem C92_keys (items : List (Key × FlatDict.Tree (List RouterDispatcher))) (hi : ItemsOk items)
    (out : PyDict Key (List (List ℝ))) (h : getCombineWeights (some items) = .ok out) :
    (∀ path v, leafOf items path = some v → ∃ d rest rows, v = d :: rest ∧ layerRows d = .ok rows ∧
      PyDict.get? out (join path) = some rows) ∧
    (PyDict.keys out).Nodup ∧ ∀ k ∈ PyDict.keys out, ∃ path v, leafOf items path = some v ∧ k = join path := by
  change List.mapM _ _ = _ at h
  have hnd : (PyDict.keys (flatten items)).Nodup := flatten_keys_nodup items hi
  generalize hL : (flatten items).filterMap (fun kv => match kv.2 with
      | .leaf v => some (kv.1, v) | .empty => none) = L at h
  have hmem : ∀ k v, (k, v) ∈ L ↔ (k, Flat.leaf v) ∈ flatten items := by
    intro k v
    rw [← hL, List.mem_filterMap]
    constructor
    · rintro ⟨⟨k', fv⟩, h1, h2⟩
      cases fv with
      | leaf w => simp only [Option.some.injEq, Prod.mk.injEq] at h2; obtain ⟨rfl, rfl⟩ := h2; exact h1
      | empty => cases h2
    · intro h1
      exact ⟨_, h1, rfl⟩
  have hnL : (PyDict.keys L).Nodup := by
    have h1 := keys_filterMap_sublist (fun (_ : Key) (fv : Flat (List RouterDispatcher)) => match fv with
      | .leaf v => some v | .empty => none) (flatten items)
    have h2 := h1.nodup hnd
    rw [← hL]
    convert h2 using 4 with kv
    obtain ⟨k, fv⟩ := kv
    cases fv <;> rfl
  have hkeys : PyDict.keys out = PyDict.keys L := mapM_keys _ (by
    rintro ⟨k, v⟩ ⟨k', r⟩ hh
    cases v with
    | nil => cases hh
    | cons d rest =>
      simp only at hh
      cases hl : layerRows d with
      | error e => rw [hl] at hh; cases hh
      | ok rows => rw [hl] at hh; cases hh; rfl) L out h
  refine ⟨?_, hkeys ▸ hnL, ?_⟩
  · intro path v hv
    have h1 : (join path, Flat.leaf v) ∈ flatten items := by
      rw [flatten_eq items hi]
      exact List.mem_map.2 ⟨(path, .leaf v), (mem_flattenItems items hi path v).2 hv, rfl⟩
    obtain ⟨b, hb⟩ := Summarizer.mapM_all h _ ((hmem _ _).2 h1)
    have hb' := (Summarizer.mapM_mem h b).2 ⟨_, (hmem _ _).2 h1, hb⟩
    cases v with
    | nil => cases hb
    | cons d rest =>
      simp only at hb
      cases hl : layerRows d with
      | error e => rw [hl] at hb; cases hb
      | ok rows =>
        rw [hl] at hb
        cases hb
        exact ⟨d, rest, rows, rfl, hl, (PyDict.get?_eq_some _ (hkeys ▸ hnL) _ _).2 hb'⟩
  · intro k hk
    rw [hkeys] at hk
    obtain ⟨⟨k', v⟩, h1, rfl⟩ := List.mem_map.1 hk
    have h2 := (hmem _ _).1 h1
    rw [flatten_eq items hi] at h2
    obtain ⟨⟨path, fv⟩, h3, h4⟩ := List.mem_map.1 h2
    simp only [Prod.mk.injEq] at h4
    obtain ⟨rfl, rfl⟩ := h4
    exact ⟨path, v, (mem_flattenItems items hi path v).1 h3, rfl⟩

theorem C92_no_routers : getCombineWeights none = .ok [] := rfl

/-- C92: the prediction is the first class of the largest logit, and `correct` is its label. -/
theorem C92_prediction {n : Nat} (logits y : Fin n → ℝ) (hn : 0 < n) :
    ∃ r, predCorrect logits y = .ok (r, y r) ∧ (∀ c, logits c ≤ logits r) ∧ ∀ c < r, logits c < logits r := by
  obtain ⟨r, h1, h2, h3⟩ := EnsembleEval.argmax_spec hn logits
  refine ⟨r, ?_, h2, h3⟩
  unfold predCorrect
  rw [h1]
  simp

/-- Four tokens of two images in one group, two experts; the capacity is for three tokens. -/
example : ∃ rows out x, layerRows (.bfloat16 (.einsum 1 4 2 3 (fun _ => topExpertsEinsum (fun s e => if s.1 = 0 then (1 / 2 : ℝ) else 1 + e.1)
      1 (by decide) (by decide) 3 true))) = .ok rows ∧ perImage 2 rows = .ok out ∧ Shows (G := 1) (S := 4) (E := 2) out 2 2 x :=
  have ⟨rows, out, x, h1, h2, h3, _⟩ := C92_einsum (G := 1) (S := 4) (E := 2) (K := 1) (by decide)
    (fun _ s e => if s.1 = 0 then (1 / 2 : ℝ) else 1 + e.1) (fun _ _ _ => by positivity) (by decide) (by decide) 3 true 2 2
    (by decide) rfl _ (Or.inr rfl)
  ⟨rows, out, x, h1, h2, h3⟩

example : ∃ out, getCombineWeights (some [("Moe".toList, .node [("Router".toList, .leaf [.einsum 0 0 0 0 (fun g => g.elim0)])])]) = .ok out ∧
    PyDict.keys out = ["Moe/Router".toList] := by
  refine ⟨_, rfl, ?_⟩
  decide +kernel

end Verif.AttackRouting
