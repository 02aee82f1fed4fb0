import Verif.Model.Layout
import Verif.Proofs.FineTune
import Verif.Props.Partitioning

/-! C142: the layout of the train state over the devices, with the rules of the configurations. -/

namespace Verif.Layout

open Verif
open Verif.FlatDict hiding Tree
open Partitioning MeshSpec Regex FineTune

/-- Spec: the names of the variables of experts: below a module `Mlp` of a module whose name ends with `Moe`. -/
def OfExperts (path : List Key) : Prop :=
  ∃ pre a rest, path = pre ++ a :: "Mlp".toList :: rest ∧ rest ≠ [] ∧ "Moe".toList <:+ a

theorem not_append {a x y : List Char} (ha : '/' ∉ a) (h : a = x ++ '/' :: y) : False := ha (h ▸ by simp)

theorem infix_slash {u w a J : List Char} (hu : '/' ∉ u) (ha : '/' ∉ a) :
    u ++ '/' :: w <:+: a ++ '/' :: J ↔ (u <:+ a ∧ w <+: J) ∨ u ++ '/' :: w <:+: J := by
  constructor
  · rintro ⟨x, y, h⟩
    rw [List.append_assoc, List.append_assoc, List.cons_append, ← List.append_assoc] at h
    rcases List.append_eq_append_iff.1 h with ⟨c, h1, h2⟩ | ⟨c, h1, h2⟩
    · cases c with
      | nil =>
        rw [List.append_nil] at h1
        injection h2 with _ h2
        exact .inl ⟨⟨x, h1.symm⟩, ⟨y, h2⟩⟩
      | cons d c =>
        injection h2 with h3 h2
        subst h3
        exact (not_append ha h1).elim
    · cases c with
      | nil =>
        rw [List.append_nil] at h1
        injection h2 with _ h2
        exact .inl ⟨⟨x, h1⟩, ⟨y, h2.symm⟩⟩
      | cons d c =>
        injection h2 with h3 h2
        subst h3
        rcases List.append_eq_append_iff.1 h1 with ⟨e, h4, h5⟩ | ⟨e, h4, h5⟩
        · exact (not_append hu h5).elim
        · cases e with
          | nil => exact (not_append hu (x := []) h5.symm).elim
          | cons f e =>
            injection h5 with h6 h5
            exact .inr ⟨e, y, by rw [h2, h5]; simp⟩
  · rintro (⟨⟨x, rfl⟩, ⟨y, rfl⟩⟩ | h)
    · exact ⟨x, y, by simp⟩
    · exact h.trans ((List.suffix_cons _ _).isInfix.trans (List.suffix_append _ _).isInfix)

theorem prefix_slash {v b : List Char} {r : List Key} (hv : '/' ∉ v) (hb : '/' ∉ b) :
    v ++ ['/'] <+: join (b :: r) ↔ b = v ∧ r ≠ [] := by
  cases r with
  | nil =>
    refine ⟨?_, fun h => absurd rfl h.2⟩
    rintro ⟨y, h⟩
    have : b = v ++ '/' :: y := by
      rw [show join [b] = b from rfl] at h
      rw [← h]
      simp
    exact (not_append hb this).elim
  | cons c r =>
    rw [show join (b :: c :: r) = b ++ '/' :: join (c :: r) from rfl]
    constructor
    · rintro ⟨y, h⟩
      refine ⟨?_, by simp⟩
      rw [List.append_assoc, List.singleton_append] at h
      rcases List.append_eq_append_iff.1 h with ⟨e, h1, h2⟩ | ⟨e, h1, h2⟩ <;> cases e with
      | nil => simp_all
      | cons f e =>
        injection h2 with h3 h2
        subst h3
        first | exact (not_append hb h1).elim | exact (not_append hv h1).elim
    · rintro ⟨rfl, _⟩
      exact ⟨join (c :: r), by simp⟩

theorem ofExperts_cons {a : Key} {path : List Key} :
    OfExperts (a :: path) ↔ ("Moe".toList <:+ a ∧ ∃ rest, path = "Mlp".toList :: rest ∧ rest ≠ []) ∨ OfExperts path := by
  constructor
  · rintro ⟨pre, b, rest, h, h1, h2⟩
    cases pre with
    | nil =>
      injection h with h3 h4
      subst h3
      exact .inl ⟨h2, rest, h4, h1⟩
    | cons c pre =>
      injection h with _ h4
      exact .inr ⟨pre, b, rest, h4, h1, h2⟩
  · rintro (⟨h1, rest, rfl, h2⟩ | ⟨pre, b, rest, rfl, h1, h2⟩)
    · exact ⟨[], a, rest, rfl, h2, h1⟩
    · exact ⟨a :: pre, b, rest, rfl, h1, h2⟩

theorem infix_join : ∀ path : List Key, (∀ c ∈ path, '/' ∉ c) → ("Moe/Mlp/".toList <:+: join path ↔ OfExperts path)
  | [], _ => by
    refine ⟨fun h => ?_, ?_⟩
    · exact absurd h.length_le (by decide)
    · rintro ⟨pre, a, rest, h, _⟩
      simp at h
  | [a], h => by
    refine ⟨fun hh => ?_, ?_⟩
    · exact absurd (hh.subset (by decide : '/' ∈ "Moe/Mlp/".toList)) (h a (by simp))
    · rw [ofExperts_cons]
      rintro (⟨_, rest, h, _⟩ | ⟨pre, a, rest, h, _⟩)
      · cases h
      · simp at h
  | a :: b :: r, h => by
    rw [show join (a :: b :: r) = a ++ '/' :: join (b :: r) from rfl,
      show "Moe/Mlp/".toList = "Moe".toList ++ '/' :: ("Mlp".toList ++ ['/']) by decide,
      infix_slash (by decide) (h a (by simp)), prefix_slash (by decide) (h b (by simp)), ofExperts_cons,
      ← infix_join (b :: r) fun c hc => h c (by simp [hc])]
    refine or_congr (and_congr_right fun _ => ?_) Iff.rfl
    constructor
    · rintro ⟨rfl, h'⟩
      exact ⟨r, rfl, h'⟩
    · rintro ⟨rest, h, h'⟩
      injection h with h1 h2
      exact ⟨h1, h2 ▸ h'⟩

/-- Spec: the axes of an array: the first dimension of the variables of experts is split over the experts axis; nothing else is
split, in particular no array with a single entry. -/
def Split (experts : Bool) (path : List Key) (shape : List Nat) (spec : List SpecElem) : Prop :=
  (experts = true ∧ OfExperts path ∧ 1 < shape.prod ∧ spec = [.axis "expert".toList]) ∨
  ((experts = false ∨ ¬ OfExperts path ∨ shape.prod ≤ 1) ∧ spec = [])

theorem compiled : RegexSub.compileRule "Moe/Mlp/.*".toList = .ok (chars "Moe/Mlp/".toList (.seq (.star .any) .empty)) := by
  decide +kernel

/-- C142: the pattern of the configurations is found in the name of a variable exactly when it is a variable of experts. -/
theorem C142_pattern (path : List Key) (h : ∀ c ∈ path, '/' ∉ c) :
    ∃ re, RegexSub.compileRule "Moe/Mlp/.*".toList = .ok re ∧ (RegexSub.search re (join path) = true ↔ OfExperts path) :=
  ⟨_, compiled, by rw [RegexSub.C136_search, s_chars_any (by decide), infix_join path h]⟩

mutual
theorem treeRel_mono {V W : Type} {R S : List Key → V → W → Prop}
    (hRS : ∀ p v w, (∀ c ∈ p, '/' ∉ c) → R p v w → S p v w) :
    ∀ (p : List Key) (t : FlatDict.Tree V) (t' : FlatDict.Tree W), (∀ c ∈ p, '/' ∉ c) → t.Ok → TreeRel R p t t' → TreeRel S p t t'
  | p, .leaf v, .leaf w, hp, _, h => by
    rw [TreeRel] at h ⊢
    exact hRS p v w hp h
  | p, .node l, .node l', hp, hok, h => by
    rw [TreeRel] at h ⊢
    rw [FlatDict.Tree.Ok] at hok
    exact itemsRel_mono hRS p l l' hp hok h
  | _, .leaf _, .node _, _, _, h => by simp [TreeRel] at h
  | _, .node _, .leaf _, _, _, h => by simp [TreeRel] at h
theorem itemsRel_mono {V W : Type} {R S : List Key → V → W → Prop}
    (hRS : ∀ p v w, (∀ c ∈ p, '/' ∉ c) → R p v w → S p v w) :
    ∀ (p : List Key) (l : List (Key × FlatDict.Tree V)) (l' : List (Key × FlatDict.Tree W)),
      (∀ c ∈ p, '/' ∉ c) → ItemsOk l → ItemsRel R p l l' → ItemsRel S p l l'
  | _, [], [], _, _, _ => by simp [ItemsRel]
  | p, (k, t) :: l, (k', t') :: l', hp, hok, h => by
    rw [ItemsRel] at h ⊢
    rw [ItemsOk] at hok
    refine ⟨h.1, treeRel_mono hRS (p ++ [k]) t t' ?_ hok.2.2.1 h.2.1, itemsRel_mono hRS p l l' hp hok.2.2.2 h.2.2⟩
    intro c hc
    rcases List.mem_append.1 hc with hc | hc
    · exact hp c hc
    · rw [List.mem_singleton.1 hc]
      exact hok.1
  | _, [], _ :: _, _, _, h => by simp [ItemsRel] at h
  | _, _ :: _, [], _, _, h => by simp [ItemsRel] at h
end

/-- C142: every array of the train state gets the axes described by `Split`. -/
theorem C142_layout (experts : Bool) (tree : List (Key × FlatDict.Tree (List Nat))) (hok : ItemsOk tree) :
    ∃ res, layout tree (axisResources experts) = .ok res ∧ TreeRel (Split experts) [] (.node tree) res := by
  cases experts with
  | false =>
    obtain ⟨res, h1, h2⟩ := C43_axis_resources RegexSub.search tree [] hok
    refine ⟨res, h1, treeRel_mono ?_ [] _ _ (by simp) (by rw [FlatDict.Tree.Ok]; exact hok) h2⟩
    rintro p v w _ (⟨pre, r, post, h, _⟩ | ⟨_, h⟩)
    · simp at h
    · exact .inr ⟨.inl rfl, h⟩
  | true =>
    obtain ⟨res, h1, h2⟩ := C43_axis_resources RegexSub.search tree
      [(chars "Moe/Mlp/".toList (.seq (.star .any) .empty), .tuple [.axis "expert".toList])] hok
    refine ⟨res, ?_, treeRel_mono ?_ [] _ _ (by simp) (by rw [FlatDict.Tree.Ok]; exact hok) h2⟩
    · rw [← h1]
      unfold layout axisResources
      rw [if_pos rfl, List.mapM_cons, List.mapM_nil, compiled]
      rfl
    · intro p v w hp h
      obtain ⟨re, e, hre⟩ := C142_pattern p hp
      rw [compiled] at e
      injection e with e
      subst e
      rcases h with ⟨pre, r, post, h, h3, h4, _, h5⟩ | ⟨h3, h4⟩
      · have hr : r = (chars "Moe/Mlp/".toList (.seq (.star .any) .empty), UnparsedSpec.tuple [.axis "expert".toList]) := by
          cases pre with
          | nil => exact (List.cons.inj h).1.symm
          | cons _ pre => exact absurd (List.cons.inj h).2 (by simp)
        subst hr
        refine .inl ⟨rfl, hre.1 h3, h4, ?_⟩
        cases h5
        rfl
      · refine .inr ⟨.inr ?_, h4⟩
        rcases h3 with h3 | h3
        · exact .inr h3
        · left
          intro h6
          rw [h3 _ (List.mem_singleton.2 rfl)] at hre
          exact absurd (hre.2 h6) (by simp)

/-- Spec: the tree has the leaf `v` at the path. -/
inductive At {V : Type} : FlatDict.Tree V → List Key → V → Prop
  | leaf (v : V) : At (.leaf v) [] v
  | node {l : List (Key × FlatDict.Tree V)} {k : Key} {t : FlatDict.Tree V} {p : List Key} {v : V} :
    (k, t) ∈ l → At t p v → At (.node l) (k :: p) v

theorem itemsRel_mem {V W : Type} {R : List Key → V → W → Prop} {p : List Key} :
    ∀ {l : List (Key × FlatDict.Tree V)} {l' : List (Key × FlatDict.Tree W)}, ItemsRel R p l l' →
      ∀ {k t}, (k, t) ∈ l → ∃ t', (k, t') ∈ l' ∧ TreeRel R (p ++ [k]) t t'
  | [], _, _, _, _, hm => by simp at hm
  | _ :: _, [], h, _, _, _ => by simp [ItemsRel] at h
  | (a, s) :: l, (a', s') :: l', h, k, t, hm => by
    rw [ItemsRel] at h
    rcases List.mem_cons.1 hm with e | hm
    · injection e with e1 e2
      subst e1 e2
      exact ⟨s', by simp [h.1], h.2.1⟩
    · obtain ⟨t', h1, h2⟩ := itemsRel_mem h.2.2 hm
      exact ⟨t', List.mem_cons_of_mem _ h1, h2⟩

theorem itemsRel_mem' {V W : Type} {R : List Key → V → W → Prop} {p : List Key} :
    ∀ {l : List (Key × FlatDict.Tree V)} {l' : List (Key × FlatDict.Tree W)}, ItemsRel R p l l' →
      ∀ {k t'}, (k, t') ∈ l' → ∃ t, (k, t) ∈ l ∧ TreeRel R (p ++ [k]) t t'
  | _, [], _, _, _, hm => by simp at hm
  | [], _ :: _, h, _, _, _ => by simp [ItemsRel] at h
  | (a, s) :: l, (a', s') :: l', h, k, t, hm => by
    rw [ItemsRel] at h
    rcases List.mem_cons.1 hm with e | hm
    · injection e with e1 e2
      subst e1 e2
      exact ⟨s, by simp [h.1], h.1 ▸ h.2.1⟩
    · obtain ⟨t', h1, h2⟩ := itemsRel_mem' h.2.2 hm
      exact ⟨t', List.mem_cons_of_mem _ h1, h2⟩

theorem treeRel_at {V W : Type} {R : List Key → V → W → Prop} {t : FlatDict.Tree V} {q : List Key} {v : V} (h : At t q v) :
    ∀ {p : List Key} {t' : FlatDict.Tree W}, TreeRel R p t t' → ∃ w, At t' q w ∧ R (p ++ q) v w := by
  induction h with
  | leaf v =>
    intro p t' hr
    cases t' with
    | leaf w =>
      rw [TreeRel] at hr
      exact ⟨w, .leaf w, by rwa [List.append_nil]⟩
    | node l => simp [TreeRel] at hr
  | node hm _ ih =>
    intro p t' hr
    cases t' with
    | leaf w => simp [TreeRel] at hr
    | node l' =>
      rw [TreeRel] at hr
      obtain ⟨t', h1, h2⟩ := itemsRel_mem hr hm
      obtain ⟨w, h3, h4⟩ := ih h2
      exact ⟨w, .node h1 h3, by simpa using h4⟩

theorem treeRel_at' {V W : Type} {R : List Key → V → W → Prop} {t' : FlatDict.Tree W} {q : List Key} {w : W} (h : At t' q w) :
    ∀ {p : List Key} {t : FlatDict.Tree V}, TreeRel R p t t' → ∃ v, At t q v ∧ R (p ++ q) v w := by
  induction h with
  | leaf w =>
    intro p t hr
    cases t with
    | leaf v =>
      rw [TreeRel] at hr
      exact ⟨v, .leaf v, by rwa [List.append_nil]⟩
    | node l => simp [TreeRel] at hr
  | node hm _ ih =>
    intro p t hr
    cases t with
    | leaf v => simp [TreeRel] at hr
    | node l =>
      rw [TreeRel] at hr
      obtain ⟨t, h1, h2⟩ := itemsRel_mem' hr hm
      obtain ⟨v, h3, h4⟩ := ih h2
      exact ⟨v, .node h1 h3, by simpa using h4⟩

theorem itemsOk_mem {V : Type} : ∀ {l : List (Key × FlatDict.Tree V)}, ItemsOk l → ∀ {k t}, (k, t) ∈ l → t.Ok
  | [], _, _, _, hm => by simp at hm
  | (a, s) :: l, h, k, t, hm => by
    rw [ItemsOk] at h
    rcases List.mem_cons.1 hm with e | hm
    · injection e with _ e
      exact e ▸ h.2.2.1
    · exact itemsOk_mem h.2.2.2 hm

theorem itemsOk_unique {V : Type} : ∀ {l : List (Key × FlatDict.Tree V)}, ItemsOk l →
    ∀ {k t t'}, (k, t) ∈ l → (k, t') ∈ l → t = t'
  | [], _, _, _, _, hm, _ => by simp at hm
  | (a, s) :: l, h, k, t, t', hm, hm' => by
    rw [ItemsOk] at h
    have key : ∀ {x}, (a, x) ∈ l → False := fun hx => h.2.1 (List.mem_map.2 ⟨_, hx, rfl⟩)
    rcases List.mem_cons.1 hm with e | h1 <;> rcases List.mem_cons.1 hm' with e' | h2
    · injection e with _ e
      injection e' with _ e'
      exact e.trans e'.symm
    · injection e with e _
      exact (key (e ▸ h2)).elim
    · injection e' with e' _
      exact (key (e' ▸ h1)).elim
    · exact itemsOk_unique h.2.2.2 h1 h2

theorem at_unique {V : Type} {t : FlatDict.Tree V} {q : List Key} {v w : V} (h : At t q v) (hok : t.Ok) (h' : At t q w) : v = w := by
  induction h with
  | leaf v => cases h'; rfl
  | node hm _ ih =>
    rw [FlatDict.Tree.Ok] at hok
    cases h' with
    | node hm' h' =>
      cases itemsOk_unique hok hm hm'
      exact ih (itemsOk_mem hok hm) h'

theorem ofExperts_append {pre path : List Key} (h : ∀ c ∈ pre, ¬ "Moe".toList <:+ c) : OfExperts (pre ++ path) ↔ OfExperts path := by
  induction pre with
  | nil => rfl
  | cons a pre ih =>
    rw [List.cons_append, ofExperts_cons, ih fun c hc => h c (by simp [hc])]
    exact or_iff_right fun hh => h a (by simp) hh.1

theorem split_append {experts : Bool} {pre path : List Key} {shape : List Nat} {spec : List SpecElem}
    (h : ∀ c ∈ pre, ¬ "Moe".toList <:+ c) : Split experts (pre ++ path) shape spec ↔ Split experts path shape spec := by
  unfold Split
  rw [ofExperts_append h]

theorem split_unique {experts : Bool} {path : List Key} {shape : List Nat} {a b : List SpecElem}
    (ha : Split experts path shape a) (hb : Split experts path shape b) : a = b := by
  rcases ha with ⟨h1, h2, h3, h4⟩ | ⟨h1, h4⟩ <;> rcases hb with ⟨k1, k2, k3, k4⟩ | ⟨k1, k4⟩
  · rw [h4, k4]
  · rcases k1 with k1 | k1 | k1
    · simp [h1] at k1
    · exact absurd h2 k1
    · omega
  · rcases h1 with h1 | h1 | h1
    · simp [k1] at h1
    · exact absurd k2 h1
    · omega
  · rw [h4, k4]

/-- C142: the averages that an optimizer keeps for an array are laid out like the array: arrays of the same shape whose names
differ only in the modules above (none of them an MoE layer) have the same axes. -/
theorem C142_moments (experts : Bool) (tree : List (Key × FlatDict.Tree (List Nat))) (hok : ItemsOk tree)
    (res : FlatDict.Tree (List SpecElem)) (hres : layout tree (axisResources experts) = .ok res)
    (pre pre' path : List Key) (hpre : ∀ c ∈ pre ++ pre', ¬ "Moe".toList <:+ c) (shape : List Nat)
    (h : At (.node tree) (pre ++ path) shape) (h' : At (.node tree) (pre' ++ path) shape) :
    ∃ spec, At res (pre ++ path) spec ∧ At res (pre' ++ path) spec ∧ Split experts path shape spec ∧
      ∀ other, (At res (pre ++ path) other ∨ At res (pre' ++ path) other) → other = spec := by
  obtain ⟨res', e, hr⟩ := C142_layout experts tree hok
  rw [hres] at e
  injection e with e
  subst e
  have hok' : (FlatDict.Tree.node tree).Ok := by rw [FlatDict.Tree.Ok]; exact hok
  have hp : ∀ c ∈ pre, ¬ "Moe".toList <:+ c := fun c hc => hpre c (List.mem_append_left _ hc)
  have hp' : ∀ c ∈ pre', ¬ "Moe".toList <:+ c := fun c hc => hpre c (List.mem_append_right _ hc)
  obtain ⟨a, a1, a2⟩ := treeRel_at h hr
  obtain ⟨b, b1, b2⟩ := treeRel_at h' hr
  rw [List.nil_append, split_append hp] at a2
  rw [List.nil_append, split_append hp'] at b2
  obtain rfl := split_unique a2 b2
  refine ⟨a, a1, b1, a2, ?_⟩
  rintro o (ho | ho)
  · obtain ⟨v, v1, v2⟩ := treeRel_at' ho hr
    rw [at_unique v1 hok' h, List.nil_append, split_append hp] at v2
    exact split_unique v2 a2
  · obtain ⟨v, v1, v2⟩ := treeRel_at' ho hr
    rw [at_unique v1 hok' h', List.nil_append, split_append hp'] at v2
    exact split_unique v2 a2

/-- C142: the part on each device of the variables of `n` experts: they are divided along the experts when the size of the axis
divides their number, every device has `n / size` whole experts, and the parts add up to the array. Otherwise they cannot be
placed. -/
theorem C142_parts (mesh : List Char → Nat) (path : List Key) (n : Nat) (rest : List Nat) (spec : List SpecElem)
    (h : Split true path (n :: rest) spec) (hpath : OfExperts path) (hsize : 1 < (n :: rest).prod) :
    (mesh "expert".toList ∣ n → shardShape mesh spec (n :: rest) = .ok (n / mesh "expert".toList :: rest) ∧
      mesh "expert".toList * (n / mesh "expert".toList :: rest).prod = (n :: rest).prod) ∧
    (¬ mesh "expert".toList ∣ n → shardShape mesh spec (n :: rest) = .error .valueError) := by
  obtain rfl : spec = [.axis "expert".toList] := split_unique h (.inl ⟨rfl, hpath, hsize, rfl⟩)
  generalize "expert".toList = e
  constructor
  · intro hd
    refine ⟨?_, ?_⟩
    · rw [shardShape, pieces, if_pos (Nat.mod_eq_zero_of_dvd hd), shardShape]
      rfl
    · rw [List.prod_cons, List.prod_cons, ← Nat.mul_assoc, Nat.mul_div_cancel' hd]
  · intro hd
    rw [shardShape, pieces, if_neg fun hm => hd (Nat.dvd_of_mod_eq_zero hm)]

/-- C142: with one expert per device (`num_expert_partitions = num_experts`) every device has one expert. -/
theorem C142_one_expert (mesh : List Char → Nat) (path : List Key) (n : Nat) (rest : List Nat) (spec : List SpecElem)
    (h : Split true path (n :: rest) spec) (hpath : OfExperts path) (hsize : 1 < (n :: rest).prod)
    (hmesh : mesh "expert".toList = n) : shardShape mesh spec (n :: rest) = .ok (1 :: rest) := by
  have hn : 0 < n := by
    rcases Nat.eq_zero_or_pos n with rfl | hn
    · simp at hsize
    · exact hn
  have := ((C142_parts mesh path n rest spec h hpath hsize).1 (hmesh ▸ Nat.dvd_refl _)).1
  rwa [hmesh, Nat.div_self hn] at this

/-- C142: all the other arrays are whole on every device. -/
theorem C142_whole (experts : Bool) (mesh : List Char → Nat) (path : List Key) (shape : List Nat) (spec : List SpecElem)
    (h : Split experts path shape spec) (hw : experts = false ∨ ¬ OfExperts path ∨ shape.prod ≤ 1) :
    shardShape mesh spec shape = .ok shape := by
  obtain rfl : spec = [] := split_unique h (.inr ⟨hw, rfl⟩)
  cases shape <;> rfl

/-- C142: the names of the model. In every block the variables of the experts are found; those of the router, the attention and the
MLP of dense blocks and of the head are not, whatever the model is part of. -/
theorem C142_names (pre : List Key) (hpre : ∀ c ∈ pre, ¬ "Moe".toList <:+ c) (block layer var : Key)
    (hblock : ¬ "Moe".toList <:+ block) (hlayer : ¬ "Moe".toList <:+ layer) :
    OfExperts (pre ++ ["Encoder".toList, block, "Moe".toList, "Mlp".toList, layer, var]) ∧
    ¬ OfExperts (pre ++ ["Encoder".toList, block, "Moe".toList, "Router".toList, layer, var]) ∧
    ¬ OfExperts (pre ++ ["Encoder".toList, block, "Mlp".toList, layer, var]) ∧
    ¬ OfExperts (pre ++ ["Encoder".toList, block, "SelfAttention".toList, layer, var]) ∧
    ¬ OfExperts (pre ++ ["MapHead".toList, "Mlp".toList, layer, var]) ∧
    ¬ OfExperts (pre ++ ["head".toList, var]) := by
  have nil : ¬ OfExperts [] := by
    rintro ⟨pre, a, rest, h, _⟩
    simp at h
  have one : ∀ v, ¬ OfExperts [v] := fun v h => by
    rcases ofExperts_cons.1 h with ⟨_, r, h, _⟩ | h
    · cases h
    · exact nil h
  have two : ¬ OfExperts [layer, var] := fun h => by
    rcases ofExperts_cons.1 h with ⟨h, _⟩ | h
    · exact hlayer h
    · exact one _ h
  have step : ∀ {a : Key} {l}, ¬ "Moe".toList <:+ a → ¬ OfExperts l → ¬ OfExperts (a :: l) := fun ha hl h => by
    rcases ofExperts_cons.1 h with ⟨h, _⟩ | h
    · exact ha h
    · exact hl h
  refine ⟨⟨pre ++ ["Encoder".toList, block], "Moe".toList, [layer, var], by simp, by simp, List.suffix_refl _⟩, ?_, ?_, ?_, ?_, ?_⟩ <;>
    rw [ofExperts_append hpre]
  · refine step (by decide) (step hblock fun h => ?_)
    rcases ofExperts_cons.1 h with ⟨_, r, h, _⟩ | h
    · exact absurd (List.cons.inj h).1 (by decide)
    · exact step (by decide) two h
  · exact step (by decide) (step hblock (step (by decide) two))
  · exact step (by decide) (step hblock (step (by decide) two))
  · exact step (by decide) (step (by decide) two)
  · exact step (by decide) (one _)

/-- An MoE layer with eight experts. -/
def demoLayer : List (Key × FlatDict.Tree (List Nat)) :=
  [("Moe".toList, .node [("Mlp".toList, .node [("Dense_0".toList, .node [("kernel".toList, .leaf [8, 4, 16])])]),
    ("Router".toList, .node [("dense".toList, .node [("kernel".toList, .leaf [4, 8])])])])]

/-- The layer in a train state, with the averages of the optimizer. -/
def demo : List (Key × FlatDict.Tree (List Nat)) :=
  [("step".toList, .leaf []), ("params".toList, .node demoLayer), ("opt_state".toList, .node [("mu".toList, .node demoLayer)])]

theorem demoLayer_ok : ItemsOk demoLayer := by
  simp only [demoLayer, ItemsOk, FlatDict.Tree.Ok, PyDict.keys, List.map]
  decide

theorem demo_ok : ItemsOk demo := by
  simp only [demo, ItemsOk, FlatDict.Tree.Ok, PyDict.keys, List.map, demoLayer_ok]
  decide

example : ∃ res, layout demo (axisResources true) = .ok res ∧ TreeRel (Split true) [] (.node demo) res :=
  C142_layout true demo demo_ok

example : ∃ res, layout demo (axisResources true) = .ok res ∧
    ∃ spec, At res ["params".toList, "Moe".toList, "Mlp".toList, "Dense_0".toList, "kernel".toList] spec ∧
      At res ["opt_state".toList, "mu".toList, "Moe".toList, "Mlp".toList, "Dense_0".toList, "kernel".toList] spec := by
  obtain ⟨res, h, _⟩ := C142_layout true demo demo_ok
  obtain ⟨spec, h1, h2, _⟩ := C142_moments true demo demo_ok res h ["params".toList] ["opt_state".toList, "mu".toList]
    ["Moe".toList, "Mlp".toList, "Dense_0".toList, "kernel".toList] (by decide) [8, 4, 16]
    (.node (.tail _ (.head _)) (.node (.head _) (.node (.head _) (.node (.head _) (.node (.head _) (.leaf _))))))
    (.node (.tail _ (.tail _ (.head _))) (.node (.head _) (.node (.head _) (.node (.head _) (.node (.head _) (.node (.head _) (.leaf _)))))))
  exact ⟨res, h, spec, h1, h2⟩

theorem demo_path : OfExperts ["params".toList, "Moe".toList, "Mlp".toList, "Dense_0".toList, "kernel".toList] :=
  ⟨["params".toList], "Moe".toList, ["Dense_0".toList, "kernel".toList], rfl, by simp, List.suffix_refl _⟩

example : Split true ["params".toList, "Moe".toList, "Mlp".toList, "Dense_0".toList, "kernel".toList] [8, 4, 16] [.axis "expert".toList] :=
  .inl ⟨rfl, demo_path, by decide, rfl⟩

example : shardShape (fun _ => 4) [.axis "expert".toList] [8, 4, 16] = .ok [2, 4, 16] := rfl
example : shardShape (fun _ => 3) [.axis "expert".toList] [8, 4, 16] = .error .valueError := rfl
example : shardShape (fun _ => 8) [.axis "expert".toList] [8, 4, 16] = .ok [1, 4, 16] := rfl

end Verif.Layout
