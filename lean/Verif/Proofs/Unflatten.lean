import Verif.Proofs.FlatDict
import Verif.Model.Partitioning
import Verif.Spec.Mesh
import Mathlib.Data.List.Induction

/-! `unflatten_dict` does not depend on the order of the items, up to the order of the items of the result. -/

namespace Verif.FlatDict

open Verif

variable {V W : Type}

/-- The items below the key `k`. -/
def restrict (k : Key) (L : List (List Key × Flat V)) : List (List Key × Flat V) :=
  L.filterMap fun pv => match pv.1 with
    | [] => none
    | k' :: ps => if k' = k then some (ps, pv.2) else none

theorem restrict_append (k : Key) (L M : List (List Key × Flat V)) : restrict k (L ++ M) = restrict k L ++ restrict k M :=
  List.filterMap_append

theorem restrict_perm (k : Key) {L M : List (List Key × Flat V)} (h : L.Perm M) : (restrict k L).Perm (restrict k M) :=
  h.filterMap _

theorem restrict_self (k : Key) (L : List (List Key × Flat V)) :
    restrict k (L.map fun pv => (k :: pv.1, pv.2)) = L := by
  unfold restrict
  rw [List.filterMap_map]
  conv_rhs => rw [← List.filterMap_some (l := L)]
  congr 1
  funext pv
  simp

theorem restrict_other {k k' : Key} (h : k' ≠ k) (L : List (List Key × Flat V)) :
    restrict k (L.map fun pv => (k' :: pv.1, pv.2)) = [] := by
  unfold restrict
  rw [List.filterMap_map, List.filterMap_eq_nil_iff]
  intro pv _
  simp [h]

/-- What `unflatten_dict` needs of the items below one key. -/
def Good (M : List (List Key × Flat V)) : Prop :=
  (∃ v, M = [([], v)]) ∨ ((∀ pv ∈ M, pv.1 ≠ []) ∧ ∃ s, insertAll [] M = .ok s)

theorem Good.prefix {M N : List (List Key × Flat V)} (h : Good (M ++ N)) : Good M := by
  rcases h with ⟨v, h⟩ | ⟨h1, s, h2⟩
  · cases M with
    | nil => exact .inr ⟨by simp, [], rfl⟩
    | cons a M =>
      left
      rw [List.cons_append] at h
      have h' := List.cons.inj h
      have : M = [] := (List.append_eq_nil_iff.1 h'.2).1
      exact ⟨v, by rw [this, h'.1]⟩
  · right
    refine ⟨fun pv hp => h1 pv (by simp [hp]), ?_⟩
    rw [insertAll_append] at h2
    obtain ⟨d, hd, _⟩ := ebind h2
    exact ⟨d, hd⟩

/-- The value at key `k` of a dict made from items, where `M` are the items below `k`. -/
def Holds (x : Option (Tree V)) (M : List (List Key × Flat V)) : Prop :=
  (M = [] → x = none) ∧ (∀ v, M = [([], v)] → x = some v.toTree) ∧
  (M ≠ [] → (∀ pv ∈ M, pv.1 ≠ []) → ∃ s, insertAll [] M = .ok s ∧ x = some (.node s))

theorem insertAll_good (L : List (List Key × Flat V)) (hne : ∀ pv ∈ L, pv.1 ≠ []) (hg : ∀ k, Good (restrict k L)) :
    ∃ d, insertAll [] L = .ok d ∧ ∀ k, Holds (PyDict.get? d k) (restrict k L) := by
  induction L using List.reverseRecOn with
  | nil =>
    refine ⟨[], rfl, fun k => ⟨fun _ => rfl, fun v h => ?_, fun h => ?_⟩⟩
    · simp [restrict] at h
    · simp [restrict] at h
  | append_singleton L pv ih =>
    obtain ⟨p, v⟩ := pv
    obtain ⟨d, hd, hh⟩ := ih (fun pv hp => hne pv (by simp [hp])) (fun k => (by
      have := hg k
      rw [restrict_append] at this
      exact this.prefix))
    cases p with
    | nil => exact absurd rfl (hne ([], v) (by simp))
    | cons k p =>
      have hrk : restrict k (L ++ [(k :: p, v)]) = restrict k L ++ [(p, v)] := by
        rw [restrict_append]; simp [restrict]
      have hro : ∀ k', k' ≠ k → restrict k' (L ++ [(k :: p, v)]) = restrict k' L := by
        intro k' hk'
        rw [restrict_append]
        simp [restrict, Ne.symm hk']
      have hgk := hg k
      rw [hrk] at hgk
      rw [insertAll_append, hd]
      change ∃ d', insertAll d [(k :: p, v)] = .ok d' ∧ _
      have hsuff : ∀ t, Holds (some t) (restrict k L ++ [(p, v)]) →
          insert d (k :: p) v.toTree = .ok (PyDict.set d k t) →
          ∃ d', insertAll d [(k :: p, v)] = .ok d' ∧
            ∀ k', Holds (PyDict.get? d' k') (restrict k' (L ++ [(k :: p, v)])) := by
        intro t ht hi
        refine ⟨PyDict.set d k t, ?_, ?_⟩
        · rw [insertAll, hi]; rfl
        · intro k'
          rw [PyDict.get?_set]
          by_cases e : k' = k
          · subst e
            rw [hrk]; simpa using ht
          · rw [hro k' e]
            have := hh k'
            simpa [e, Ne.symm e] using this
      have hold := hh k
      cases p with
      | nil =>
        apply hsuff v.toTree _ rfl
        have hnil : restrict k L = [] := by
          rcases hgk with ⟨w, hw⟩ | ⟨h1, _⟩
          · by_contra hne
            have := congrArg List.length hw
            have h2 := List.length_pos_iff.2 hne
            simp at this
            exact hne (this)
          · exact absurd rfl (h1 ([], v) (by simp))
        rw [hnil, List.nil_append]
        refine ⟨by simp, ?_, ?_⟩
        · intro w hw
          simp at hw
          rw [hw]
        · intro _ h
          exact absurd rfl (h ([], v) (by simp))
      | cons k2 ks =>
        rcases hgk with ⟨w, hw⟩ | ⟨h1, s, hs⟩
        · exfalso
          have h3 : (k2 :: ks, v) ∈ [(([] : List Key), w)] := by rw [← hw]; simp
          simp at h3
        have hsome : ∀ s, Holds (some (Tree.node s)) (restrict k L ++ [(k2 :: ks, v)]) ↔
            insertAll [] (restrict k L ++ [(k2 :: ks, v)]) = .ok s := by
          intro s'
          constructor
          · intro h
            obtain ⟨s2, h2, h3⟩ := h.2.2 (by simp) h1
            cases h3
            exact h2
          · intro h
            refine ⟨by simp, ?_, fun _ _ => ⟨s', h, rfl⟩⟩
            intro w hw
            exfalso
            have h3 : (k2 :: ks, v) ∈ [(([] : List Key), w)] := by rw [← hw]; simp
            simp at h3
        apply hsuff (.node s) ((hsome s).2 hs)
        rw [insertAll_append] at hs
        obtain ⟨s0, hs0, hs1⟩ := ebind hs
        rw [insertAll] at hs1
        obtain ⟨s2, hs2, hs3⟩ := ebind hs1
        cases hs3
        by_cases hnil : restrict k L = []
        · rw [hnil] at hs0
          cases hs0
          unfold insert
          rw [hold.1 hnil]
          simp only
          rw [hs2]
          rfl
        · obtain ⟨s4, h4, h5⟩ := hold.2.2 hnil (fun pv hp => h1 pv (by simp [hp]))
          rw [h4] at hs0
          cases hs0
          unfold insert
          rw [h5]
          simp only
          rw [hs2]
          rfl

mutual
/-- The second tree contains the first, up to the order of the items. -/
def Approx : Tree V → Tree V → Prop
  | .leaf v, s => s = .leaf v
  | .node l, s => ∃ d, s = .node d ∧ ItemsApprox l d
/-- The same for the items of a dict. -/
def ItemsApprox : List (Key × Tree V) → PyDict Key (Tree V) → Prop
  | [], _ => True
  | (k, t) :: l, d => (∃ s, PyDict.get? d k = some s ∧ Approx t s) ∧ ItemsApprox l d
end

theorem itemsApprox_of (l : List (Key × Tree V)) (d : PyDict Key (Tree V))
    (h : ∀ kt ∈ l, ∃ s, PyDict.get? d kt.1 = some s ∧ Approx kt.2 s) : ItemsApprox l d := by
  induction l with
  | nil => trivial
  | cons kt l ih => exact ⟨h kt (by simp), ih fun kt' h' => h kt' (by simp [h'])⟩

/-- What holds for any order of the items of a tree. -/
def AnyOrder (t : Tree V) : Prop :=
  ∀ L : List (List Key × Flat V), L.Perm (flattenAt [] t) →
    (∃ v, L = [([], v)] ∧ Approx t v.toTree) ∨
    (L ≠ [] ∧ (∀ pv ∈ L, pv.1 ≠ []) ∧ ∃ s, insertAll [] L = .ok s ∧ Approx t (.node s))

theorem restrict_flattenItems (l : List (Key × Tree V)) (hl : ItemsOk l) :
    (∀ kt ∈ l, restrict kt.1 (flattenItems [] l) = flattenAt [] kt.2) ∧
    ∀ k, k ∉ PyDict.keys l → restrict k (flattenItems [] l) = [] := by
  induction l with
  | nil => simp [flattenItems, restrict]
  | cons kt l ih =>
    obtain ⟨k, t⟩ := kt
    obtain ⟨_, hk, _, hl'⟩ := hl
    obtain ⟨ih1, ih2⟩ := ih hl'
    have hf : flattenItems [] ((k, t) :: l) = (flattenAt [] t).map (fun pv => (k :: pv.1, pv.2)) ++ flattenItems [] l := by
      rw [flattenItems, List.nil_append, flattenAt_prefix [k] t]
      rfl
    constructor
    · intro kt hkt
      rw [hf, restrict_append]
      rcases List.mem_cons.1 hkt with rfl | hkt
      · rw [restrict_self, ih2 k hk, List.append_nil]
      · have hne : k ≠ kt.1 := by
          rintro rfl
          exact hk (List.mem_map.2 ⟨kt, by assumption, rfl⟩)
        rw [restrict_other hne, List.nil_append, ih1 kt hkt]
    · intro k' hk'
      have h2 : k ≠ k' ∧ k' ∉ PyDict.keys l := by
        simp [PyDict.keys] at hk' ⊢
        exact ⟨fun h => hk'.1 h.symm, hk'.2⟩
      rw [hf, restrict_append, restrict_other h2.1, ih2 k' h2.2]
      rfl

theorem items_anyOrder (l : List (Key × Tree V)) (hl : ItemsOk l) (h : ∀ kt ∈ l, AnyOrder kt.2)
    (L : List (List Key × Flat V)) (hL : L.Perm (flattenItems [] l)) :
    ∃ d, insertAll [] L = .ok d ∧ ItemsApprox l d := by
  obtain ⟨r1, r2⟩ := restrict_flattenItems l hl
  have hcase : ∀ k, (∃ kt ∈ l, kt.1 = k) ∨ k ∉ PyDict.keys l := by
    intro k
    by_cases e : k ∈ PyDict.keys l
    · obtain ⟨kt, h1, h2⟩ := List.mem_map.1 e
      exact .inl ⟨kt, h1, h2⟩
    · exact .inr e
  have hperm : ∀ kt ∈ l, (restrict kt.1 L).Perm (flattenAt [] kt.2) := fun kt hkt => by
    rw [← r1 kt hkt]; exact restrict_perm _ hL
  obtain ⟨d, hd, hh⟩ := insertAll_good L (fun pv hp => flattenItems_paths l pv (hL.mem_iff.1 hp)) (by
    intro k
    rcases hcase k with ⟨kt, hkt, rfl⟩ | hk
    · rcases h kt hkt _ (hperm kt hkt) with ⟨v, hv, _⟩ | ⟨_, h1, s, hs, _⟩
      · exact .inl ⟨v, hv⟩
      · exact .inr ⟨h1, s, hs⟩
    · have : restrict k L = [] := by
        have := restrict_perm k hL
        rw [r2 k hk] at this
        exact this.eq_nil
      rw [this]
      exact .inr ⟨by simp, [], rfl⟩)
  refine ⟨d, hd, itemsApprox_of l d ?_⟩
  intro kt hkt
  rcases h kt hkt _ (hperm kt hkt) with ⟨v, hv, ha⟩ | ⟨h0, h1, s, hs, ha⟩
  · exact ⟨_, (hh kt.1).2.1 v hv, ha⟩
  · obtain ⟨s', hs', hx⟩ := (hh kt.1).2.2 h0 h1
    rw [hs] at hs'
    cases hs'
    exact ⟨_, hx, ha⟩

mutual
theorem tree_anyOrder (t : Tree V) (ht : t.Ok) : AnyOrder t := by
  match t with
  | .leaf v =>
    intro L hL
    rw [flattenAt] at hL
    exact .inl ⟨_, List.perm_singleton.1 hL, rfl⟩
  | .node [] =>
    intro L hL
    rw [flattenAt] at hL
    exact .inl ⟨_, List.perm_singleton.1 hL, ⟨[], rfl, trivial⟩⟩
  | .node (kt :: l) =>
    intro L hL
    rw [flattenAt] at hL
    right
    refine ⟨?_, fun pv hp => flattenItems_paths _ pv (hL.mem_iff.1 hp), ?_⟩
    · rintro rfl
      have h1 := hL.symm.eq_nil
      have h2 := flattenAt_ne_nil (.node (kt :: l))
      rw [flattenAt] at h2
      exact h2 h1
    · obtain ⟨d, hd, ha⟩ := items_anyOrder (kt :: l) ht (items_all (kt :: l) ht) L hL
      exact ⟨d, hd, d, rfl, ha⟩
theorem items_all (l : List (Key × Tree V)) (hl : ItemsOk l) : ∀ kt ∈ l, AnyOrder kt.2 := by
  match l with
  | [] => simp
  | (k, t) :: l =>
    intro kt hkt
    rcases List.mem_cons.1 hkt with rfl | hkt
    · exact tree_anyOrder t hl.2.2.1
    · exact items_all l hl.2.2.2 kt hkt
end

open MeshSpec in
mutual
/-- `from_state_dict` puts the items in the order of the target. -/
theorem fromState_approx {R : List Key → V → W → Prop} (p : List Key) (t : Tree V) (t' s : Tree W)
    (hr : TreeRel R p t t') (ha : Approx t' s) : Partitioning.fromStateDict t s = .ok t' := by
  match t, t' with
  | .leaf v, .leaf w =>
    rw [Approx] at ha
    subst ha
    rw [Partitioning.fromStateDict]
  | .node l, .node l' =>
    rw [Approx] at ha
    obtain ⟨d, rfl, ha⟩ := ha
    rw [TreeRel] at hr
    rw [Partitioning.fromStateDict, fromStateItems_approx p l l' d hr ha]
    rfl
  | .leaf v, .node l => exact absurd hr (by simp [TreeRel])
  | .node v, .leaf l => exact absurd hr (by simp [TreeRel])
theorem fromStateItems_approx {R : List Key → V → W → Prop} (p : List Key) (l : List (Key × Tree V))
    (l' : List (Key × Tree W)) (d : PyDict Key (Tree W)) (hr : ItemsRel R p l l') (ha : ItemsApprox l' d) :
    Partitioning.fromStateItems l d = .ok l' := by
  match l, l' with
  | [], [] => rw [Partitioning.fromStateItems]
  | (k, t) :: l, (k', t') :: l' =>
    rw [ItemsRel] at hr
    obtain ⟨rfl, h1, h2⟩ := hr
    rw [ItemsApprox] at ha
    obtain ⟨⟨s, hs, h3⟩, h4⟩ := ha
    rw [Partitioning.fromStateItems, hs]
    simp only
    rw [fromState_approx _ t t' s h1 h3]
    change (Partitioning.fromStateItems l d >>= _ : Except PyErr _) = _
    rw [fromStateItems_approx p l l' d h2 h4]
    rfl
  | [], _ :: _ => exact absurd hr (by simp [ItemsRel])
  | _ :: _, [] => exact absurd hr (by simp [ItemsRel])
end

end Verif.FlatDict
