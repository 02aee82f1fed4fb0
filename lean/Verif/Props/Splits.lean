import Verif.Model.Splits
import Verif.Proofs.CkptPath
import Verif.Props.DataShare

/-! C144: the splits of the datasets of the configurations (vmoe/data/builder.py, vmoe/configs). -/

namespace Verif.Splits

open Verif PyStr CkptPath

variable {α : Type}

/-- A bound of a slice as written in a configuration: an optional sign, a number, and an optional percent sign. -/
def bound (negative : Bool) (k : Nat) (percent : Bool) : Str :=
  (if negative then ['-'] else []) ++ natStr k ++ if percent then ['%'] else []

theorem takeWhile_all {p : Char → Bool} (a b : Str) (ha : ∀ c ∈ a, p c = true) (hb : ∀ c, b.head? = some c → p c = false) :
    (a ++ b).takeWhile p = a ∧ (a ++ b).dropWhile p = b := by
  induction a with
  | nil => cases b with
    | nil => simp
    | cons c b => simp [hb c rfl]
  | cons c a ih =>
    have h := ih fun x hx => ha x (by simp [hx])
    simp [ha c (by simp), h.1, h.2]

theorem takeNumber_natStr (k : Nat) (rest : Str) (hr : ∀ c, rest.head? = some c → isDigit c = false) (negative : Bool) :
    takeNumber (natStr k ++ rest) negative = some (if negative then -(k : Int) else k, rest) := by
  have hd : ∀ c ∈ natStr k, isDigit c = true := by
    intro c hc
    exact (isDigit_iff c).2 ((digits_natStr k).2 c hc)
  have h := takeWhile_all (natStr k) rest hd hr
  rw [takeNumber, h.1, h.2, if_neg (digits_natStr k).1, parseNat_eq, value_natStr]

theorem not_digit_of_mem {c : Char} {l : Str} (h : l.head? = some c) (hl : ∀ x ∈ l, isDigit x = false) : isDigit c = false :=
  hl c (List.mem_of_mem_head? h)

theorem takeBound_bound (neg : Bool) (k : Nat) (pct : Bool) (c : Char) (rest : Str) (hc : c = ':' ∨ c = ']') :
    takeBound (bound neg k pct ++ c :: rest) = ((some (if neg then -(k : Int) else k), pct), c :: rest) := by
  have hcd : isDigit c = false := by rcases hc with rfl | rfl <;> rfl
  have hp : isDigit '%' = false := rfl
  have key : ∀ n, takeNumber (natStr k ++ ((if pct then ['%'] else []) ++ c :: rest)) n =
      some (if n then -(k : Int) else k, (if pct then ['%'] else []) ++ c :: rest) := by
    intro n
    apply takeNumber_natStr
    intro x hx
    cases pct <;> simp at hx <;> subst hx <;> assumption
  have hne : ∀ t, natStr k ++ t ≠ [] ∧ ∀ u, natStr k ++ t ≠ '-' :: u := by
    intro t
    have h1 := digits_natStr k
    obtain ⟨x, l, hx⟩ := List.exists_cons_of_ne_nil h1.1
    refine ⟨by simp [hx], ?_⟩
    intro u h
    rw [hx, List.cons_append, List.cons.injEq] at h
    have := (isDigit_iff x).2 (h1.2 x (by simp [hx]))
    rw [h.1] at this
    exact absurd this (by decide)
  have hs : takeSigned (bound neg k pct ++ c :: rest) =
      some (if neg then -(k : Int) else k, (if pct then ['%'] else []) ++ c :: rest) := by
    unfold bound
    cases neg
    · rw [if_neg (by simp), List.nil_append, List.append_assoc]
      unfold takeSigned
      split
      · rename_i t ht
        exact absurd ht ((hne _).2 t)
      · exact key false
    · rw [if_pos rfl, List.append_assoc, List.append_assoc, List.singleton_append]
      exact key true
  rw [takeBound, hs]
  cases pct
  · rcases hc with rfl | rfl <;> rfl
  · rfl

theorem takeBound_none (c : Char) (rest : Str) (hc : c = ':' ∨ c = ']') :
    takeBound (c :: rest) = ((none, false), c :: rest) := by
  rcases hc with rfl | rfl <;> rfl

/-- Spec: a name that TFDS accepts for a split: ASCII letters, digits, underscores and hyphens. -/
def IsName (name : Str) : Prop := name ≠ [] ∧ ∀ c ∈ name, CkptNames.Letter c ∨ CkptNames.Digit c ∨ c = '_' ∨ c = '-'

theorem IsName.word {name : Str} (h : IsName name) : ∀ c ∈ name, isWord c = true := by
  intro c hc
  unfold isWord
  rcases h.2 c hc with h | h | h | h
  · simp [(isLetter_iff c).2 h]
  · simp [(isDigit_iff c).2 h]
  · simp [h]
  · simp [h]

theorem parse_whole (name : Str) (h : IsName name) : parseSplit name = .ok ⟨name, none, none, false⟩ := by
  have h1 := takeWhile_all name [] h.word (by simp)
  rw [List.append_nil] at h1
  rw [parseSplit, h1.1, h1.2]
  simp [h.1]

theorem parse_to (name : Str) (h : IsName name) (neg : Bool) (k : Nat) (pct : Bool) :
    parseSplit (name ++ '[' :: ':' :: (bound neg k pct ++ [']'])) = .ok ⟨name, none, some (if neg then -(k : Int) else k), pct⟩ := by
  have h1 := takeWhile_all name ('[' :: ':' :: (bound neg k pct ++ [']'])) h.word (by
    intro c hc
    simp at hc
    subst hc
    rfl)
  rw [parseSplit, h1.1, h1.2]
  simp only [if_neg h.1, takeBound_none ':' _ (Or.inl rfl), takeBound_bound neg k pct ']' [] (Or.inr rfl)]
  rw [if_pos trivial]
  rfl

theorem parse_from (name : Str) (h : IsName name) (neg : Bool) (k : Nat) (pct : Bool) :
    parseSplit (name ++ '[' :: (bound neg k pct ++ [':', ']'])) = .ok ⟨name, some (if neg then -(k : Int) else k), none, pct⟩ := by
  have h1 := takeWhile_all name ('[' :: (bound neg k pct ++ [':', ']'])) h.word (by
    intro c hc
    simp at hc
    subst hc
    rfl)
  rw [parseSplit, h1.1, h1.2]
  simp only [if_neg h.1, takeBound_bound neg k pct ':' [']'] (Or.inl rfl), takeBound_none ']' [] (Or.inr rfl)]
  rw [if_pos trivial, Bool.or_false]

theorem parse_slice (name : Str) (h : IsName name) (n₁ : Bool) (k₁ : Nat) (n₂ : Bool) (k₂ : Nat) (pct : Bool) :
    parseSplit (name ++ '[' :: (bound n₁ k₁ pct ++ ':' :: (bound n₂ k₂ pct ++ [']']))) =
      .ok ⟨name, some (if n₁ then -(k₁ : Int) else k₁), some (if n₂ then -(k₂ : Int) else k₂), pct⟩ := by
  have h1 := takeWhile_all name ('[' :: (bound n₁ k₁ pct ++ ':' :: (bound n₂ k₂ pct ++ [']']))) h.word (by
    intro c hc
    simp at hc
    subst hc
    rfl)
  rw [parseSplit, h1.1, h1.2]
  simp only [if_neg h.1, takeBound_bound n₁ k₁ pct ':' _ (Or.inl rfl), takeBound_bound n₂ k₂ pct ']' [] (Or.inr rfl)]
  rw [if_pos trivial, Bool.or_self]

theorem position_le (round : Int → Nat → Int) (pct : Bool) (n : Nat) (b : Int) : position round pct n b ≤ n := by
  unfold position
  exact min_le_right _ _

theorem read_ok (round : Int → Nat → Int) (dataset : PyDict Str (List α)) (s : Str) (i : Instruction) (l : List α)
    (hi : parseSplit s = .ok i) (hl : PyDict.get? dataset i.name = some l) :
    readSplit round dataset s =
      .ok ((l.drop (resolve round l.length i).1).take ((resolve round l.length i).2 - (resolve round l.length i).1)) := by
  unfold readSplit
  rw [hi]
  simp only [bind, Except.bind, hl]

/-- C144: `name[:b]` and `name[b:]`, with a number, a percentage, or one of these with a minus sign, split the examples of
`name` in two parts without overlap or gap, whatever the rounding of percentages and the number of examples. -/
theorem C144_complement (round : Int → Nat → Int) (dataset : PyDict Str (List α)) (name : Str) (hn : IsName name)
    (l : List α) (hl : PyDict.get? dataset name = some l) (neg : Bool) (k : Nat) (pct : Bool) :
    ∃ a b, readSplit round dataset (name ++ "[:".toList ++ bound neg k pct ++ "]".toList) = .ok a ∧
      readSplit round dataset (name ++ "[".toList ++ bound neg k pct ++ ":]".toList) = .ok b ∧
      readSplit round dataset name = .ok l ∧ a ++ b = l := by
  have h0 := read_ok round dataset _ _ l (parse_whole name hn) hl
  have h1 := read_ok round dataset _ _ l (parse_to name hn neg k pct) hl
  have h2 := read_ok round dataset _ _ l (parse_from name hn neg k pct) hl
  have e1 : name ++ "[:".toList ++ bound neg k pct ++ "]".toList = name ++ '[' :: ':' :: (bound neg k pct ++ [']']) := by
    simp
  have e2 : name ++ "[".toList ++ bound neg k pct ++ ":]".toList = name ++ '[' :: (bound neg k pct ++ [':', ']']) := by
    simp
  rw [e1, e2]
  refine ⟨_, _, h1, h2, ?_, ?_⟩
  · rw [h0]
    simp [resolve]
  · have hp := position_le round pct l.length (if neg then -(k : Int) else k)
    simp only [resolve, List.drop_zero, Nat.sub_zero]
    rw [List.take_of_length_le (l := l.drop _) (by simp), List.take_append_drop]

theorem position_nat (round : Int → Nat → Int) (n k : Nat) : position round false n (k : Int) = min k n := by
  unfold position
  simp only [Bool.false_eq_true, if_false]
  rw [if_neg (by omega)]
  omega

theorem position_neg (round : Int → Nat → Int) (n k : Nat) : position round false n (-(k : Int)) = if k = 0 then 0 else n - k := by
  unfold position
  by_cases hk : k = 0
  · simp [hk]
  · simp only [Bool.false_eq_true, if_false, if_neg hk]
    rw [if_pos (by omega)]
    omega

/-- C144: without percent sign the bounds are positions, those with a minus sign count from the end. -/
theorem C144_positions (round : Int → Nat → Int) (dataset : PyDict Str (List α)) (name : Str) (hn : IsName name)
    (l : List α) (hl : PyDict.get? dataset name = some l) (i j : Nat) :
    readSplit round dataset (name ++ "[:".toList ++ bound false j false ++ "]".toList) = .ok (l.take j) ∧
    readSplit round dataset (name ++ "[".toList ++ bound false i false ++ ":]".toList) = .ok (l.drop i) ∧
    readSplit round dataset (name ++ "[".toList ++ bound false i false ++ ":".toList ++ bound false j false ++ "]".toList) =
      .ok ((l.take j).drop i) ∧
    (0 < i → readSplit round dataset (name ++ "[".toList ++ bound true i false ++ ":]".toList) = .ok (l.drop (l.length - i))) ∧
    (0 < j → readSplit round dataset (name ++ "[:".toList ++ bound true j false ++ "]".toList) = .ok (l.take (l.length - j))) := by
  have ht : ∀ k, l.take (min k l.length) = l.take k := by
    intro k
    rcases le_total k l.length with h | h
    · rw [min_eq_left h]
    · rw [min_eq_right h, List.take_length, List.take_of_length_le h]
  have hd : ∀ k, l.drop (min k l.length) = l.drop k := by
    intro k
    rcases le_total k l.length with h | h
    · rw [min_eq_left h]
    · rw [min_eq_right h, List.drop_length, List.drop_of_length_le h]
  have e1 : ∀ b : Str, name ++ "[:".toList ++ b ++ "]".toList = name ++ '[' :: ':' :: (b ++ [']']) := by simp
  have e2 : ∀ b : Str, name ++ "[".toList ++ b ++ ":]".toList = name ++ '[' :: (b ++ [':', ']']) := by simp
  have e3 : ∀ b c : Str, name ++ "[".toList ++ b ++ ":".toList ++ c ++ "]".toList = name ++ '[' :: (b ++ ':' :: (c ++ [']'])) := by
    simp
  rw [e1, e2, e3, e1, e2]
  refine ⟨?_, ?_, ?_, fun hi => ?_, fun hj => ?_⟩
  · rw [read_ok round dataset _ _ l (parse_to name hn false j false) hl]
    simp only [resolve, Bool.false_eq_true, if_false, position_nat, List.drop_zero, Nat.sub_zero, ht]
  · rw [read_ok round dataset _ _ l (parse_from name hn false i false) hl]
    simp only [resolve, Bool.false_eq_true, if_false, position_nat, hd]
    rw [List.take_of_length_le (by rw [List.length_drop]; omega)]
  · rw [read_ok round dataset _ _ l (parse_slice name hn false i false j false) hl]
    simp only [resolve, Bool.false_eq_true, if_false, position_nat, hd]
    congr 1
    rw [List.drop_take]
    rcases le_total i l.length with h | h
    · rcases le_total j l.length with h' | h'
      · rw [min_eq_left h, min_eq_left h']
      · rw [min_eq_left h, min_eq_right h', List.take_of_length_le (by simp), List.take_of_length_le (by simp; omega)]
    · rw [List.drop_of_length_le h]
      simp
  · rw [read_ok round dataset _ _ l (parse_from name hn true i false) hl]
    simp only [resolve, if_true, position_neg, if_neg (by omega : ¬i = 0)]
    rw [List.take_of_length_le (by simp)]
  · rw [read_ok round dataset _ _ l (parse_to name hn true j false) hl]
    simp only [resolve, if_true, position_neg, if_neg (by omega : ¬j = 0), List.drop_zero, Nat.sub_zero]

theorem closest_near (p : Int) (n : Nat) : |100 * closest p n - p * n| ≤ 50 := by
  unfold closest
  have h1 := Int.mul_ediv_add_emod (p * n) 100
  have h2 := Int.emod_nonneg (p * n) (by norm_num : (100 : Int) ≠ 0)
  have h3 := Int.emod_lt_of_pos (p * n) (by norm_num : (0 : Int) < 100)
  generalize p * n = m at *
  rw [abs_le]
  simp only
  split
  · omega
  · split
    · omega
    · have := Int.emod_two_eq (m / 100)
      rcases this with h | h <;> rw [h] <;> omega

/-- C144: with the default rounding, `name[:p%]` holds the first `p` percent of the examples up to half an example. -/
theorem C144_percent (dataset : PyDict Str (List α)) (name : Str) (hn : IsName name) (l : List α)
    (hl : PyDict.get? dataset name = some l) (p : Nat) (hp : p ≤ 100) :
    ∃ m, readSplit closest dataset (name ++ "[:".toList ++ bound false p true ++ "]".toList) = .ok (l.take m) ∧ m ≤ l.length ∧
      |(100 * m - p * l.length : Int)| ≤ 50 := by
  have e1 : name ++ "[:".toList ++ bound false p true ++ "]".toList = name ++ '[' :: ':' :: (bound false p true ++ [']']) := by
    simp
  rw [e1, read_ok closest dataset _ _ l (parse_to name hn false p true) hl]
  have hc := closest_near (p : Int) l.length
  have hle : (p : Int) * l.length ≤ 100 * l.length := by
    have : (p : Int) ≤ 100 := by exact_mod_cast hp
    have h0 : (0 : Int) ≤ l.length := by positivity
    nlinarith
  have hnn : (0 : Int) ≤ (p : Int) * l.length := by positivity
  have hpos : position closest true l.length (p : Int) = (closest p l.length).toNat := by
    rw [abs_le] at hc
    unfold position
    simp only [if_true]
    rw [if_neg (by omega)]
    omega
  refine ⟨(closest p l.length).toNat, ?_, ?_, ?_⟩
  · simp only [resolve, Bool.false_eq_true, if_false, hpos, List.drop_zero, Nat.sub_zero]
  · have := position_le closest true l.length p
    rwa [hpos] at this
  · have : ((closest p l.length).toNat : Int) = closest p l.length := by
      rw [abs_le] at hc
      omega
    rwa [this]

/-- The instructions of two variants that cannot share examples: other names, or the two parts at one bound. -/
def apart (i j : Instruction) : Bool :=
  i.name ≠ j.name || (i.percent == j.percent &&
    ((i.start == none && j.stop == none && i.stop == j.start && i.stop.isSome) ||
      (i.stop == none && j.start == none && i.start == j.stop && i.start.isSome)))

/-- For every pair of the variant `train` and another variant of the same dataset: the splits parse and are apart. -/
def separated (c : List Variant) : Bool :=
  c.all fun v => c.all fun w =>
    if v.variant = "train".toList ∧ w.variant ≠ "train".toList ∧ v.dataset = w.dataset then
      match parseSplit v.split, parseSplit w.split with
      | .ok i, .ok j => apart i j
      | _, _ => false
    else true

theorem configs_separated : ∀ c ∈ configs, separated c = true := by
  decide +kernel

theorem take_drop_sublist (l : List α) (a b : Nat) : ((l.drop a).take b).Sublist l :=
  (List.take_sublist _ _).trans (List.drop_sublist _ _)

theorem get_mem {κ ν : Type} [DecidableEq κ] {d : PyDict κ ν} {k : κ} {v : ν} (h : PyDict.get? d k = some v) : (k, v) ∈ d := by
  induction d with
  | nil => cases h
  | cons kv d ih =>
    obtain ⟨k', v'⟩ := kv
    unfold PyDict.get? at h
    split at h
    · rename_i hk
      cases h
      subst hk
      simp
    · exact List.mem_cons_of_mem _ (ih h)

theorem get_disjoint {d : PyDict Str (List α)} (hd : (d.map Prod.snd).flatten.Nodup) {k k' : Str} {l l' : List α}
    (h : PyDict.get? d k = some l) (h' : PyDict.get? d k' = some l') (hne : k ≠ k') : l.Disjoint l' := by
  induction d with
  | nil => cases h
  | cons kv d ih =>
    obtain ⟨x, v⟩ := kv
    simp only [List.map_cons, List.flatten_cons] at hd
    have hdis := List.disjoint_of_nodup_append hd
    have hsub : ∀ {y : Str} {m : List α}, PyDict.get? d y = some m → ∀ a ∈ m, a ∈ (d.map Prod.snd).flatten := by
      intro y m hm a ha
      exact List.mem_flatten.2 ⟨m, List.mem_map.2 ⟨(y, m), get_mem hm, rfl⟩, ha⟩
    unfold PyDict.get? at h h'
    split at h <;> split at h'
    · rename_i h1 h2
      exact absurd (h1.symm.trans h2) hne
    · cases h
      exact fun a ha ha' => hdis ha (hsub h' a ha')
    · cases h'
      exact fun a ha ha' => hdis ha' (hsub h a ha)
    · exact ih (List.Nodup.of_append_right hd) h h'

theorem read_inv {round : Int → Nat → Int} {dataset : PyDict Str (List α)} {s : Str} {i : Instruction} {a : List α}
    (hi : parseSplit s = .ok i) (h : readSplit round dataset s = .ok a) :
    ∃ l, PyDict.get? dataset i.name = some l ∧
      a = (l.drop (resolve round l.length i).1).take ((resolve round l.length i).2 - (resolve round l.length i).1) := by
  unfold readSplit at h
  rw [hi] at h
  simp only [bind, Except.bind] at h
  split at h
  · cases h
  · rename_i l hl
    cases h
    exact ⟨l, hl, rfl⟩

theorem nodup_get {d : PyDict Str (List α)} (hd : (d.map Prod.snd).flatten.Nodup) {k : Str} {l : List α}
    (h : PyDict.get? d k = some l) : l.Nodup :=
  (List.nodup_flatten.1 hd).1 l (List.mem_map.2 ⟨(k, l), get_mem h, rfl⟩)

theorem disjoint_take_drop {l : List α} (hl : l.Nodup) (c : Nat) : (l.take c).Disjoint (l.drop c) := by
  apply List.disjoint_of_nodup_append
  rwa [List.take_append_drop]

theorem apart_disjoint {round : Int → Nat → Int} {dataset : PyDict Str (List α)}
    (hd : (dataset.map Prod.snd).flatten.Nodup) {s t : Str} {i j : Instruction} (hi : parseSplit s = .ok i)
    (hj : parseSplit t = .ok j) (hap : apart i j = true) {a b : List α} (ha : readSplit round dataset s = .ok a)
    (hb : readSplit round dataset t = .ok b) : a.Disjoint b := by
  obtain ⟨l, hl, rfl⟩ := read_inv hi ha
  obtain ⟨m, hm, rfl⟩ := read_inv hj hb
  by_cases hne : i.name = j.name
  · have hlm : l = m := by
      rw [hne, hm] at hl
      exact (Option.some.inj hl).symm
    subst hlm
    have hnd := nodup_get hd hl
    obtain ⟨n₁, s₁, t₁, p₁⟩ := i
    obtain ⟨n₂, s₂, t₂, p₂⟩ := j
    simp only [apart, ne_eq, Bool.or_eq_true, decide_eq_true_eq, Bool.and_eq_true, beq_iff_eq] at hap hne
    rcases hap with h | ⟨hp, ⟨⟨⟨h1, h2⟩, h3⟩, h4⟩ | ⟨⟨⟨h1, h2⟩, h3⟩, h4⟩⟩
    · exact absurd hne h
    · obtain ⟨c, rfl⟩ := Option.isSome_iff_exists.1 h4
      subst h1 h2 h3 hp
      simp only [resolve, List.drop_zero, Nat.sub_zero]
      exact fun x hx hx' => disjoint_take_drop hnd _ hx (List.take_subset _ _ hx')
    · obtain ⟨c, rfl⟩ := Option.isSome_iff_exists.1 h4
      subst h1 h2 h3 hp
      simp only [resolve, List.drop_zero, Nat.sub_zero]
      exact fun x hx hx' => disjoint_take_drop hnd _ hx' (List.take_subset _ _ hx)
  · exact fun x hx hx' => get_disjoint hd hl hm hne ((take_drop_sublist _ _ _).subset hx) ((take_drop_sublist _ _ _).subset hx')

theorem share_subset (l : List α) (count index : Nat) : ∀ x ∈ DataShare.asDataset l count index, x ∈ l := by
  intro x hx
  exact (take_drop_sublist _ _ _).subset hx

/-- C144: in no configuration does a process ever train on an example that a process evaluates on: the examples of the variant
`train` and of any other variant of the same dataset are disjoint, for any content of the named splits in which no example
appears twice, any rounding of percentages, and any numbers of processes. -/
theorem C144_held_out (c : List Variant) (hc : c ∈ configs) (v w : Variant) (hv : v ∈ c) (hw : w ∈ c)
    (htrain : v.variant = "train".toList) (heval : w.variant ≠ "train".toList) (hds : v.dataset = w.dataset)
    (datasets : Str → PyDict Str (List α)) (hnd : ((datasets v.dataset).map Prod.snd).flatten.Nodup)
    (round : Int → Nat → Int) (pc pc' p q : Nat) (a b : List α)
    (ha : readShare round (datasets v.dataset) v.split pc p = .ok a)
    (hb : readShare round (datasets w.dataset) w.split pc' q = .ok b) : a.Disjoint b := by
  have h := configs_separated c hc
  simp only [separated, List.all_eq_true] at h
  have h1 := h v hv w hw
  rw [if_pos ⟨htrain, heval, hds⟩] at h1
  unfold readShare at ha hb
  cases ha' : readSplit round (datasets v.dataset) v.split with
  | error e => rw [ha'] at ha; cases ha
  | ok a' =>
    cases hb' : readSplit round (datasets w.dataset) w.split with
    | error e => rw [hb'] at hb; cases hb
    | ok b' =>
      rw [ha'] at ha
      rw [hb'] at hb
      cases ha
      cases hb
      rw [← hds] at hb'
      revert h1
      cases hi : parseSplit v.split with
      | error e => intro h1; cases hj : parseSplit w.split <;> rw [hj] at h1 <;> cases h1
      | ok i =>
        cases hj : parseSplit w.split with
        | error e => intro h1; cases h1
        | ok j =>
          intro h1
          have := apart_disjoint hnd hi hj h1 ha' hb'
          exact fun x hx hx' => this (share_subset _ _ _ x hx) (share_subset _ _ _ x hx')

theorem fewshot_apart : ∀ d ∈ fewshotDatasets,
    (match parseSplit d.2.2.1, parseSplit d.2.2.2 with | .ok i, .ok j => apart i j | _, _ => false) = true := by
  decide +kernel

/-- C144: the few-shot evaluation never tests on an example that it learned from. -/
theorem C144_fewshot (key name train test : Str) (hd : (key, name, train, test) ∈ fewshotDatasets)
    (dataset : PyDict Str (List α)) (hnd : (dataset.map Prod.snd).flatten.Nodup) (round : Int → Nat → Int) (pc pc' p q : Nat)
    (a b : List α) (ha : readShare round dataset train pc p = .ok a) (hb : readShare round dataset test pc' q = .ok b) :
    a.Disjoint b := by
  have h1 := fewshot_apart _ hd
  simp only at h1
  unfold readShare at ha hb
  cases ha' : readSplit round dataset train with
  | error e => rw [ha'] at ha; cases ha
  | ok a' =>
    cases hb' : readSplit round dataset test with
    | error e => rw [hb'] at hb; cases hb
    | ok b' =>
      rw [ha'] at ha
      rw [hb'] at hb
      cases ha
      cases hb
      revert h1
      cases hi : parseSplit train with
      | error e => intro h1; cases hj : parseSplit test <;> rw [hj] at h1 <;> cases h1
      | ok i =>
        cases hj : parseSplit test with
        | error e => intro h1; cases h1
        | ok j =>
          intro h1
          have := apart_disjoint hnd hi hj h1 ha' hb'
          exact fun x hx hx' => this (share_subset _ _ _ x hx) (share_subset _ _ _ x hx')

example : ("col_hist".toList, "colorectal_histology".toList, "train[:2000]".toList, "train[2000:]".toList) ∈ fewshotDatasets ∧
    readShare closest [("train".toList, List.range 2004)] "train[:2000]".toList 1000 3 = .ok [6, 7] ∧
    readShare closest [("train".toList, List.range 2004)] "train[2000:]".toList 2 1 = .ok [2002, 2003] := by
  decide +kernel

/-- The named splits that a configuration needs of a dataset are enough to read all of its variants of this dataset. -/
def readable (c : List Variant) : Bool :=
  c.all fun v => match parseSplit v.split with
    | .ok i => i.name ∈ ["train".toList, "validation".toList, "test".toList, "full".toList]
    | _ => false

theorem configs_readable : ∀ c ∈ configs, readable c = true := by
  decide +kernel

/-- C144: every variant of every configuration can be read from a dataset that has the usual splits, and the processes
together read each of its examples once. -/
theorem C144_readable (c : List Variant) (hc : c ∈ configs) (v : Variant) (hv : v ∈ c) (dataset : PyDict Str (List α))
    (hd : ∀ n ∈ ["train".toList, "validation".toList, "test".toList, "full".toList], (PyDict.get? dataset n).isSome)
    (round : Int → Nat → Int) (pc : Nat) (hpc : 0 < pc) :
    ∃ (l : List α) (shares : Nat → List α), readSplit round dataset v.split = .ok l ∧
      (∀ p < pc, readShare round dataset v.split pc p = .ok (shares p)) ∧ (List.range pc).flatMap shares = l := by
  have h := configs_readable c hc
  simp only [readable, List.all_eq_true] at h
  have h1 := h v hv
  cases hi : parseSplit v.split with
  | error e => rw [hi] at h1; cases h1
  | ok i =>
    rw [hi] at h1
    obtain ⟨m, hm⟩ := Option.isSome_iff_exists.1 (hd i.name (by simpa using h1))
    have hr := read_ok round dataset _ i m hi hm
    refine ⟨_, fun p => DataShare.asDataset _ pc p, hr, ?_, (DataShare.C96_shares _ pc hpc).1⟩
    intro p _
    unfold readShare
    rw [hr]
    rfl

/-- C144: a string that is not a split, and a name that the dataset does not have, are a `ValueError`. -/
theorem C144_errors (round : Int → Nat → Int) (dataset : PyDict Str (List α)) (s : Str) (e : PyErr)
    (h : readSplit round dataset s = .error e) : e = .valueError ∧
      (parseSplit s = .error .valueError ∨ ∃ i, parseSplit s = .ok i ∧ PyDict.get? dataset i.name = none) := by
  unfold readSplit at h
  cases hi : parseSplit s with
  | error e' =>
    rw [hi] at h
    cases h
    have : e = .valueError := by
      unfold parseSplit at hi
      simp only at hi
      repeat' split at hi
      all_goals cases hi
      all_goals rfl
    subst this
    exact ⟨rfl, Or.inl rfl⟩
  | ok i =>
    rw [hi] at h
    simp only [bind, Except.bind] at h
    split at h
    · rename_i hn
      cases h
      exact ⟨rfl, Or.inr ⟨i, rfl, hn⟩⟩
    · cases h

/-- Two hundred examples of training and three of test, with the names of CIFAR. -/
def cifar : PyDict Str (List Nat) := [("train".toList, List.range 200), ("test".toList, [200, 201, 202])]

example : IsName "train".toList ∧ IsName "test2015".toList ∧ IsName "test-v2_a".toList := by
  unfold IsName CkptNames.Letter CkptNames.Digit
  decide

/-- A slice is the end of a split: a string that goes on after it is refused, and so are a single position, a slice without a
name, and a bracket that is not closed. -/
theorem C144_malformed (round : Int → Nat → Int) (dataset : PyDict Str (List α)) (name : Str) (hn : IsName name) (neg : Bool) (k : Nat)
    (pct : Bool) (c : Char) (rest : Str) :
    readSplit round dataset (name ++ "[:".toList ++ bound neg k pct ++ "]".toList ++ c :: rest) = .error .valueError ∧
    readSplit round dataset (name ++ "[".toList ++ bound neg k pct ++ "]".toList ++ rest) = .error .valueError ∧
    readSplit round dataset ("[".toList ++ rest) = .error .valueError ∧
    readSplit round dataset (name ++ "[:".toList) = .error .valueError := by
  have hw : ∀ t : Str, (name ++ '[' :: t).takeWhile isWord = name ∧ (name ++ '[' :: t).dropWhile isWord = '[' :: t := by
    intro t
    refine takeWhile_all name _ hn.word (fun c hc => ?_)
    simp at hc
    subst hc
    rfl
  have key : ∀ s, parseSplit s = .error .valueError → readSplit round dataset s = .error .valueError := by
    intro s hs
    unfold readSplit
    rw [hs]
    rfl
  refine ⟨key _ ?_, key _ ?_, key _ ?_, key _ ?_⟩
  · have e : name ++ "[:".toList ++ bound neg k pct ++ "]".toList ++ c :: rest =
        name ++ '[' :: ':' :: (bound neg k pct ++ ']' :: c :: rest) := by simp
    rw [e, parseSplit, (hw _).1, (hw _).2]
    simp only [if_neg hn.1, takeBound_none ':' _ (Or.inl rfl), takeBound_bound neg k pct ']' (c :: rest) (Or.inr rfl)]
    rw [if_neg (by simp)]
  · have e : name ++ "[".toList ++ bound neg k pct ++ "]".toList ++ rest =
        name ++ '[' :: (bound neg k pct ++ ']' :: rest) := by simp
    rw [e, parseSplit, (hw _).1, (hw _).2]
    simp only [if_neg hn.1, takeBound_bound neg k pct ']' rest (Or.inr rfl)]
    rfl
  · rfl
  · have e : name ++ "[:".toList = name ++ '[' :: [':'] := by simp
    rw [e, parseSplit, (hw _).1, (hw _).2]
    simp only [if_neg hn.1, takeBound_none ':' _ (Or.inl rfl)]
    rfl

example : readSplit closest cifar "train[:98%]x".toList = .error .valueError ∧ readSplit closest cifar "train[3]".toList = .error .valueError := by
  decide +kernel

example : readSplit closest cifar "train[:98%]".toList = .ok (List.range 196) ∧
    readSplit closest cifar "train[98%:]".toList = .ok [196, 197, 198, 199] ∧
    readSplit closest cifar "test[1:]".toList = .ok [201, 202] ∧ readSplit closest cifar "test[-1:]".toList = .ok [202] ∧
    readShare closest cifar "train[98%:]".toList 3 1 = .ok [198] := by
  decide +kernel

/-- Ties go to the even position. -/
example : closest 50 5 = 2 ∧ closest 50 7 = 4 ∧ closest 99 1281167 = 1268355 := by decide

example : (cifar.map Prod.snd).flatten.Nodup := by decide +kernel

/-- The hypotheses of `C144_held_out` are met by the training and validation variants of CIFAR-10. -/
example : ∃ c ∈ configs, ∃ v ∈ c, ∃ w ∈ c, v.variant = "train".toList ∧ w.variant ≠ "train".toList ∧ v.dataset = w.dataset ∧
    readShare closest cifar v.split 2 0 = .ok (List.range 98) ∧ readShare closest cifar w.split 1 0 = .ok [196, 197, 198, 199] :=
  ⟨_, List.mem_of_getElem? (i := 4) rfl, _, List.mem_of_getElem? (i := 0) rfl, _, List.mem_of_getElem? (i := 1) rfl, rfl,
    by decide +kernel, rfl, by decide +kernel, by decide +kernel⟩

example : readSplit closest cifar "train[:98%".toList = .error .valueError ∧
    readSplit closest cifar "validation".toList = .error .valueError := by
  decide +kernel

end Verif.Splits
