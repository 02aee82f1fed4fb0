import Verif.Spec.RulesParse
import Verif.Props.Mapping
import Verif.Props.InitRules

/-!
C87: the rules of the config (vmoe/initialization/rules.py:51-120) and what they do with the arrays.
-/

namespace Verif.RulesParse

open Verif FlatDict Mapping MappingSpec RulesParseSpec ArraySpec TreeSpec MeshSpec

variable {P D α : Type}

theorem truthy_iff (v : Val) : v.truthy = false ↔ Falsy v := by
  unfold Falsy
  cases v <;> simp [Val.truthy]

theorem asInt_iff (v : Val) (i : Int) : v.asInt = some i ↔ IsInt v i := by
  unfold IsInt
  cases v with
  | bool b => cases b <;> simp [Val.asInt, eq_comm]
  | _ => simp [Val.asInt]

theorem asInt_none (v : Val) (h : v.asInt = none) (i : Int) : ¬ IsInt v i := by
  intro hi
  rw [← asInt_iff, h] at hi
  cases hi

/-- A sequence is read, or is wrong. -/
theorem parseItems_cases (compile : Key → Except PyErr P) (l : List Val) :
    (∃ r, parseItems compile l = .ok r ∧ ReadsItems compile l r) ∨
    (∃ e, parseItems compile l = .error e ∧ Wrong compile l e) := by
  match l with
  | [] => exact .inr ⟨_, rfl, .short (by simp)⟩
  | [_] => exact .inr ⟨_, rfl, .short (by simp)⟩
  | pat :: v :: tr =>
    by_cases hs : ∃ s, pat = .str s
    · obtain ⟨s, rfl⟩ := hs
      cases hc : compile s with
      | error e =>
        refine .inr ⟨e, ?_, .noRegex (by simp) hc⟩
        change (compile s >>= _ : Except PyErr _) = _
        rw [hc]; rfl
      | ok p =>
        have key : parseItems compile (.str s :: v :: tr) = (clsOf v tr >>= fun c => .ok ⟨p, c⟩) := by
          change (compile s >>= _ : Except PyErr _) = _
          rw [hc]; rfl
        rw [key]
        cases tr with
        | nil =>
          left
          cases hv : v.truthy with
          | false => exact ⟨_, by simp only [clsOf]; rw [hv]; rfl, .drop hc ((truthy_iff v).1 hv)⟩
          | true => exact ⟨_, by simp only [clsOf]; rw [hv]; rfl, .rename hc (by rw [← truthy_iff, hv]; simp)⟩
        | cons t args =>
          simp only [clsOf]
          by_cases h1 : t = .str "reshape".toList
          · subst h1
            rw [if_pos rfl]
            match args with
            | [] => exact .inl ⟨_, rfl, .reshape hc⟩
            | [_] => exact .inl ⟨_, rfl, .reshapeTo hc⟩
            | _ :: _ :: _ => exact .inr ⟨_, rfl, .reshape hc (by simp)⟩
          rw [if_neg h1]
          by_cases h2 : t = .str "squeeze".toList
          · subst h2
            rw [if_pos rfl]
            match args with
            | [] => exact .inr ⟨_, rfl, .squeeze hc (by simp)⟩
            | [a] =>
              cases ha : a.asInt with
              | some i => exact .inl ⟨_, by simp only [ha]; rfl, .squeeze hc ((asInt_iff _ _).1 ha)⟩
              | none =>
                refine .inr ⟨_, by simp only [ha]; rfl, .squeeze hc ?_⟩
                intro b i hb
                cases hb
                exact asInt_none a ha i
            | _ :: _ :: _ => exact .inr ⟨_, rfl, .squeeze hc (by simp)⟩
          rw [if_neg h2]
          by_cases h3 : t = .str "stack".toList
          · subst h3
            rw [if_pos rfl]
            match args with
            | [] => exact .inr ⟨_, rfl, .stack hc (by simp)⟩
            | [a] =>
              cases ha : a.asInt with
              | some i => exact .inl ⟨_, by simp only [ha]; rfl, .stack hc ((asInt_iff _ _).1 ha)⟩
              | none =>
                refine .inr ⟨_, by simp only [ha]; rfl, .stack hc ?_⟩
                intro b i hb
                cases hb
                exact asInt_none a ha i
            | _ :: _ :: _ => exact .inr ⟨_, rfl, .stack hc (by simp)⟩
          rw [if_neg h3]
          by_cases h4 : t = .str "expand_tile".toList
          · subst h4
            rw [if_pos rfl]
            match args with
            | [] => exact .inr ⟨_, rfl, .expandTile hc (by simp)⟩
            | [_] => exact .inr ⟨_, rfl, .expandTile hc (by simp)⟩
            | [a, n] => exact .inl ⟨_, rfl, .expandTile hc⟩
            | _ :: _ :: _ :: _ => exact .inr ⟨_, rfl, .expandTile hc (by simp)⟩
          rw [if_neg h4]
          by_cases h5 : t = .str "vit_zoom".toList
          · subst h5
            exact .inl ⟨_, rfl, .vitZoom hc⟩
          rw [if_neg h5]
          by_cases h6 : t = .str "zoom".toList
          · subst h6
            exact .inl ⟨_, rfl, .zoom hc⟩
          rw [if_neg h6]
          refine .inr ⟨_, rfl, .unknown hc ?_⟩
          intro n hn
          simp only [names, List.mem_cons, List.not_mem_nil, or_false] at hn
          rcases hn with rfl | rfl | rfl | rfl | rfl | rfl <;> assumption
    · refine .inr ⟨.typeError, ?_, .noText (by simp) (by simpa using hs)⟩
      cases pat with
      | str s => exact absurd ⟨s, rfl⟩ hs
      | _ => rfl

/-- A sequence is read as one rule only. -/
theorem parseItems_of_reads (compile : Key → Except PyErr P) (l : List Val) (r : Parsed P) (h : ReadsItems compile l r) :
    parseItems compile l = .ok r := by
  have key : ∀ {s p v tr}, compile s = .ok p →
      parseItems compile (.str s :: v :: tr) = (clsOf v tr >>= fun c => .ok ⟨p, c⟩) := by
    intro s p v tr hc
    change (compile s >>= _ : Except PyErr _) = _
    rw [hc]; rfl
  cases h with
  | rename hc hv =>
    rw [key hc]
    simp only [clsOf]
    rw [← truthy_iff] at hv
    rw [if_pos (by simpa using hv)]
    rfl
  | drop hc hv =>
    rw [key hc]
    simp only [clsOf]
    rw [← truthy_iff] at hv
    rw [if_neg (by simpa using hv)]
    rfl
  | reshape hc => rw [key hc]; rfl
  | reshapeTo hc => rw [key hc]; rfl
  | @squeeze _ _ _ a i hc ha =>
    rw [key hc]
    have := (asInt_iff a i).2 ha
    simp only [clsOf]
    rw [if_neg (by decide), if_pos trivial, this]
    rfl
  | @stack _ _ _ a i hc ha =>
    rw [key hc]
    have := (asInt_iff a i).2 ha
    simp only [clsOf]
    rw [if_neg (by decide), if_neg (by decide), if_pos trivial, this]
    rfl
  | expandTile hc => rw [key hc]; rfl
  | vitZoom hc => rw [key hc]; rfl
  | zoom hc => rw [key hc]; rfl

theorem parseItems_of_wrong (compile : Key → Except PyErr P) (l : List Val) (e : PyErr) (h : Wrong compile l e) :
    parseItems compile l = .error e := by
  have key : ∀ {s p v tr}, compile s = .ok p →
      parseItems compile (.str s :: v :: tr) = (clsOf v tr >>= fun c => .ok ⟨p, c⟩) := by
    intro s p v tr hc
    change (compile s >>= _ : Except PyErr _) = _
    rw [hc]; rfl
  cases h with
  | short h =>
    match l, h with
    | [], _ => rfl
    | [_], _ => rfl
  | @noText v l hl hv =>
    cases l with
    | nil => exact absurd rfl hl
    | cons w l =>
      cases v with
      | str s => exact absurd rfl (hv s)
      | _ => rfl
  | @noRegex pat l e hl hc =>
    cases l with
    | nil => exact absurd rfl hl
    | cons w l =>
      change (compile pat >>= _ : Except PyErr _) = _
      rw [hc]; rfl
  | unknown hc hn =>
    rw [key hc]
    simp only [clsOf]
    rw [if_neg (hn _ (by simp [names])), if_neg (hn _ (by simp [names])), if_neg (hn _ (by simp [names])),
      if_neg (hn _ (by simp [names])), if_neg (hn _ (by simp [names])), if_neg (hn _ (by simp [names]))]
    rfl
  | @reshape _ _ _ args hc ha =>
    rw [key hc]
    match args, ha with
    | _ :: _ :: _, _ => rfl
  | @squeeze _ _ _ args hc ha =>
    rw [key hc]
    match args, ha with
    | [], _ => rfl
    | [a], ha =>
      have : a.asInt = none := by
        cases h : a.asInt with
        | none => rfl
        | some i => exact absurd ((asInt_iff _ _).1 h) (ha a i rfl)
      simp only [clsOf]
      rw [if_neg (by decide), if_pos trivial, this]
      rfl
    | _ :: _ :: _, _ => rfl
  | @stack _ _ _ args hc ha =>
    rw [key hc]
    match args, ha with
    | [], _ => rfl
    | [a], ha =>
      have : a.asInt = none := by
        cases h : a.asInt with
        | none => rfl
        | some i => exact absurd ((asInt_iff _ _).1 h) (ha a i rfl)
      simp only [clsOf]
      rw [if_neg (by decide), if_neg (by decide), if_pos trivial, this]
      rfl
    | _ :: _ :: _, _ => rfl
  | @expandTile _ _ _ args hc ha =>
    rw [key hc]
    match args, ha with
    | [], _ => rfl
    | [_], _ => rfl
    | [_, _], ha => exact absurd rfl ha
    | _ :: _ :: _ :: _, _ => rfl

theorem parseOne_ok (compile : Key → Except PyErr P) (raw : Raw P) (r : Parsed P) :
    parseOne compile raw = .ok r ↔ Reads compile raw r := by
  have items : ∀ l, parseItems compile l = .ok r ↔ ReadsItems compile l r := by
    intro l
    refine ⟨?_, parseItems_of_reads compile l r⟩
    intro h
    rcases parseItems_cases compile l with ⟨r', h', hr⟩ | ⟨e, h', _⟩
    · rw [h] at h'; cases h'; exact hr
    · rw [h] at h'; cases h'
  unfold Reads
  cases raw with
  | rule r0 =>
    constructor
    · intro h; cases h; exact .inl rfl
    · rintro (h | ⟨l, hl, _⟩)
      · cases h; rfl
      · cases hl
  | items l =>
    refine (items l).trans ⟨fun h => .inr ⟨l, .items, h⟩, ?_⟩
    rintro (h | ⟨l, hl, h⟩)
    · cases h
    · cases hl; exact h
  | text s =>
    refine (items _).trans ⟨fun h => .inr ⟨_, .text, h⟩, ?_⟩
    rintro (h | ⟨l, hl, h⟩)
    · cases h
    · cases hl; exact h

theorem parseOne_error (compile : Key → Except PyErr P) (raw : Raw P) (e : PyErr) :
    parseOne compile raw = .error e ↔ ∃ l, HasItems raw l ∧ Wrong compile l e := by
  have items : ∀ l, parseItems compile l = .error e ↔ Wrong compile l e := by
    intro l
    refine ⟨?_, parseItems_of_wrong compile l e⟩
    intro h
    rcases parseItems_cases compile l with ⟨r', h', hr⟩ | ⟨e, h', he⟩
    · rw [h] at h'; cases h'
    · rw [h] at h'; cases h'; exact he
  cases raw with
  | rule r0 =>
    constructor
    · intro h; cases h
    · rintro ⟨l, hl, _⟩; cases hl
  | items l =>
    refine (items l).trans ⟨fun h => ⟨l, .items, h⟩, ?_⟩
    rintro ⟨l, hl, h⟩
    cases hl; exact h
  | text s =>
    refine (items _).trans ⟨fun h => ⟨_, .text, h⟩, ?_⟩
    rintro ⟨l, hl, h⟩
    cases hl; exact h

/-- C87: `Rules.parse` succeeds exactly if every rule of the config has one of the documented forms; the rules are then these,
in the order of the config. -/
theorem C87_accepts (compile : Key → Except PyErr P) (raws : List (Raw P)) (rs : List (Parsed P)) :
    parse compile raws = .ok rs ↔ List.Forall₂ (Reads compile) raws rs := by
  unfold parse
  induction raws generalizing rs with
  | nil =>
    constructor
    · intro h; cases h; exact .nil
    · intro h; cases h; rfl
  | cons raw raws ih =>
    rw [List.mapM_cons]
    constructor
    · intro h
      obtain ⟨r, hr, h⟩ := ebind h
      obtain ⟨rs', hrs, h⟩ := ebind h
      cases h
      exact .cons ((parseOne_ok _ _ _).1 hr) ((ih _).1 hrs)
    · intro h
      cases h with
      | cons hr hrs =>
        rw [(parseOne_ok _ _ _).2 hr]
        change (List.mapM (parseOne compile) raws >>= _ : Except PyErr _) = _
        rw [(ih _).2 hrs]
        rfl

/-- C87: otherwise the first rule that has none of the forms gives the exception. -/
theorem C87_rejects (compile : Key → Except PyErr P) (raws : List (Raw P)) (e : PyErr) :
    parse compile raws = .error e ↔ ∃ before raw after, raws = before ++ raw :: after ∧
      (∀ raw' ∈ before, ∃ r, Reads compile raw' r) ∧ ∃ l, HasItems raw l ∧ Wrong compile l e := by
  unfold parse
  induction raws with
  | nil =>
    constructor
    · intro h; cases h
    · rintro ⟨before, raw, after, h, _⟩; simp at h
  | cons raw raws ih =>
    rw [List.mapM_cons]
    cases hr : parseOne compile raw with
    | error e' =>
      constructor
      · intro h
        cases h
        exact ⟨[], raw, raws, rfl, by simp, (parseOne_error _ _ _).1 hr⟩
      · rintro ⟨before, raw', after, h, hb, hw⟩
        cases before with
        | nil =>
          cases h
          rw [← parseOne_error, hr] at hw
          cases hw
          rfl
        | cons b before =>
          cases h
          obtain ⟨r, h⟩ := hb raw (by simp)
          rw [← parseOne_ok, hr] at h
          cases h
    | ok r =>
      have key : ((Except.ok r : Except PyErr (Parsed P)) >>= fun a => do
          let l ← List.mapM (parseOne compile) raws
          pure (a :: l)) = .error e ↔ List.mapM (parseOne compile) raws = .error e := by
        change (List.mapM (parseOne compile) raws >>= _ : Except PyErr _) = _ ↔ _
        cases List.mapM (parseOne compile) raws with
        | error e' =>
          constructor
          · intro h; cases h; rfl
          · intro h; cases h; rfl
        | ok rs =>
          constructor
          · intro h; cases h
          · intro h; cases h
      rw [key, ih]
      constructor
      · rintro ⟨before, raw', after, rfl, hb, hw⟩
        refine ⟨raw :: before, raw', after, rfl, ?_, hw⟩
        intro x hx
        rcases List.mem_cons.1 hx with rfl | hx
        · exact ⟨r, (parseOne_ok _ _ _).1 hr⟩
        · exact hb x hx
      · rintro ⟨before, raw', after, h, hb, hw⟩
        cases before with
        | nil =>
          cases h
          rw [← parseOne_error, hr] at hw
          cases hw
        | cons b before =>
          cases h
          exact ⟨before, raw', after, rfl, fun x hx => hb x (by simp [hx]), hw⟩

/-- An entry of the source, converted to the type of the target. -/
def conv [DecidableEq D] (env : Env D α) (d e : D) (a : α) : α := if d = e then a else env.cast e a

/-- `v` is made from the array `x` for the target `t` as the class of the rule says.  The entries of zoomed arrays are the
subject of C57. -/
def Made [DecidableEq D] (env : Env D α) (c : Cls) (x t v : Arr D α) : Prop :=
  match c with
  | .regex _ => x.value.shape = t.value.shape ∧ ∀ idx, v.value.get idx = conv env x.dtype t.dtype (x.value.get idx)
  | .reshape _ s => entries v.value = (entries x.value).map (conv env x.dtype t.dtype) ∧
      (Falsy s → x.value.shape.prod = t.value.shape.prod) ∧
      ∀ l, s = .tuple l → l ≠ [] → List.Forall₂ (fun i n => i = -1 ∨ i = ((n : Nat) : Int)) l t.value.shape
  | .squeeze _ axis => ∃ a, AxisIs x.value.shape.length axis a ∧ x.value.shape.getD a 0 = 1 ∧
      t.value.shape = x.value.shape.eraseIdx a ∧
      ∀ idx, NdArray.Valid x.value.shape idx → v.value.get (idx.eraseIdx a) = conv env x.dtype t.dtype (x.value.get idx)
  | .expandTile _ a n => ∃ axes reps : List Int, (a = .tuple axes ∨ ∃ i, IsInt a i ∧ axes = [i]) ∧
      (n = .tuple reps ∨ ∃ i, IsInt n i ∧ reps = [i]) ∧
      without (IsAxis t.value.shape.length axes) t.value.shape = x.value.shape ∧
      List.Forall₂ (fun a r => ∀ i, AxisIs t.value.shape.length a i → ((t.value.shape.getD i 0 : Nat) : Int) = r) axes reps ∧
      ∀ idx, NdArray.Valid t.value.shape idx →
        v.value.get idx = conv env x.dtype t.dtype (x.value.get (without (IsAxis t.value.shape.length axes) idx))
  | .zoom _ => ∀ idx, v.value.get idx = conv env x.dtype t.dtype ((env.zoom x.value t.value.shape).get idx)
  | .vitZoom _ => True
  | _ => False

/-- `v` is made by stacking the arrays `xs` for the target `t`; `d` is the common type of the arrays. -/
def Stacked [DecidableEq D] (env : Env D α) (axis : Int) (xs : List (Arr D α)) (t v : Arr D α) : Prop :=
  ∃ a shape d, (∀ x ∈ xs, x.value.shape = shape) ∧ AxisIs (shape.length + 1) axis a ∧
    t.value.shape = shape.insertIdx a xs.length ∧ (∀ e, (∀ x ∈ xs, x.dtype = e) → (∀ e, env.promote e e = e) → d = e) ∧
    ∀ k (hk : k < xs.length) idx, NdArray.Valid shape idx →
      v.value.get (idx.insertIdx a k) = conv env d t.dtype (conv env xs[k].dtype d (xs[k].value.get idx))

theorem reshape_dims {x y : NdArray α} {dims : List (Option Nat)} (h : InitRules.reshape x dims = .ok y) :
    List.Forall₂ (fun d n => d = none ∨ d = some n) dims y.shape := by
  have hm : ∀ v, List.Forall₂ (fun (d : Option Nat) n => d = none ∨ d = some n) dims (dims.map fun d => d.getD v) := by
    intro v
    rw [List.forall₂_map_right_iff, List.forall₂_same]
    intro d _
    cases d <;> simp
  have h := InitRules.reshape_eq h
  unfold NdArray.reshape at h
  cases hr : NdArray.resolveShape x.shape.prod dims with
  | error e => rw [hr] at h; cases h
  | ok s =>
    rw [hr] at h
    cases h
    unfold NdArray.resolveShape at hr
    split at hr
    · split at hr
      · cases hr; exact hm 1
      · cases hr
    · split at hr
      · cases hr
      · split at hr
        · cases hr; exact hm _
        · cases hr
    · cases hr

/-- The transformation of a rule that has one source for each target. -/
def singleOf : Cls → Option Single
  | .regex _ => some .copy
  | .reshape _ s => (shapeOf s).map .reshape
  | .squeeze _ a => some (.squeeze a)
  | .expandTile _ a n => match axesOf a, repsOf n with
    | some a, some n => some (.expandTile a n)
    | _, _ => none
  | .vitZoom _ => some .vitZoom
  | .zoom _ => some .zoom
  | _ => none

theorem map_ok {A B : Type} {x : Except PyErr A} {f : A → B} {b : B} (h : x.map f = .ok b) : ∃ a, x = .ok a ∧ f a = b := by
  cases x with
  | error e => cases h
  | ok a => cases h; exact ⟨a, rfl, rfl⟩

theorem mapM_option {A B : Type} {f : A → Option B} {l : List A} {r : List B} (h : l.mapM f = some r) :
    List.Forall₂ (fun a b => f a = some b) l r := by
  induction l generalizing r with
  | nil => cases h; exact .nil
  | cons a l ih =>
    rw [List.mapM_cons] at h
    cases ha : f a with
    | none => rw [ha] at h; cases h
    | some b =>
      rw [ha] at h
      cases hl : l.mapM f with
      | none => rw [hl] at h; cases h
      | some bs => rw [hl] at h; cases h; exact .cons ha (ih hl)

theorem dim_some {i : Int} {d : Option Nat} (h : dim i = some d) : (i = -1 ∧ d = none) ∨ ∃ n : Nat, i = n ∧ d = some n := by
  unfold dim at h
  split at h
  · cases h; exact .inl ⟨by assumption, rfl⟩
  · split at h
    · cases h; exact .inr ⟨i.toNat, by omega, rfl⟩
    · cases h

theorem axesOf_some {v : Val} {l : List Int} (h : axesOf v = some l) : v = .tuple l ∨ ∃ i, IsInt v i ∧ l = [i] := by
  unfold axesOf at h
  cases v with
  | tuple l' => cases h; exact .inl rfl
  | int i => cases h; exact .inr ⟨i, .inl rfl, rfl⟩
  | bool b =>
    cases h
    refine .inr ⟨_, ?_, rfl⟩
    cases b
    · exact .inr (.inr ⟨rfl, rfl⟩)
    · exact .inr (.inl ⟨rfl, rfl⟩)
  | none => cases h
  | str s => cases h
  | other => cases h

theorem repsOf_some {v : Val} {l : List Nat} (h : repsOf v = some l) :
    ∃ reps : List Int, (v = .tuple reps ∨ ∃ i, IsInt v i ∧ reps = [i]) ∧ List.Forall₂ (fun (i : Int) (n : Nat) => (n : Int) = i) reps l := by
  unfold repsOf at h
  cases ha : axesOf v with
  | none => rw [ha] at h; cases h
  | some reps =>
    rw [ha] at h
    refine ⟨reps, axesOf_some ha, (mapM_option h).imp ?_⟩
    intro i n hn
    split at hn
    · cases hn; omega
    · cases hn

theorem shapeOf_falsy {s : Val} {o : Option (List (Option Nat))} (hs : Falsy s) (h : shapeOf s = some o) :
    o = none ∨ o = some [] := by
  rcases hs with rfl | rfl | rfl | rfl | rfl
  · cases h; exact .inl rfl
  · cases h; exact .inl rfl
  · cases h; exact .inl rfl
  · cases h; exact .inl rfl
  · cases h; exact .inr rfl

theorem entries_conv [DecidableEq D] (env : Env D α) (d e : D) (v w : NdArray α) (hs : v.shape = w.shape)
    (hg : ∀ idx, v.get idx = conv env d e (w.get idx)) : entries v = (entries w).map (conv env d e) := by
  unfold entries
  rw [hs, List.map_map]
  exact List.map_congr_left fun idx _ => hg idx

/-- One source. -/
theorem made_of_applyTx [DecidableEq D] (env : Env D α) (flags : Flags) (hf : flags.raiseShape = true) (c : Cls) (sg : Single)
    (hc : singleOf c = some sg) (x t v : Arr D α) (h : applyTx env flags (.single sg x t) = .ok v) : Made env c x t v := by
  have hw : ∃ w, (Tx.single sg x t).call env = .ok w := by
    unfold applyTx at h
    obtain ⟨w, hw, _⟩ := ebind h
    exact ⟨w, hw⟩
  obtain ⟨w, hw⟩ := hw
  obtain ⟨hs, hg⟩ := (C56_no_broadcast env flags hf _ w hw).2 v h
  have hvs : v.value.shape = t.value.shape := (C56_target_shape env flags _ v h).2
  change w.value.shape = t.value.shape at hs
  change ∀ idx, v.value.get idx = conv env w.dtype t.dtype (w.value.get idx) at hg
  cases c with
  | base => cases hc
  | drop => cases hc
  | stack _ _ => cases hc
  | vitZoom _ => trivial
  | regex _ =>
    cases hc
    cases hw
    exact ⟨hs, hg⟩
  | zoom _ =>
    cases hc
    obtain ⟨y, hy, rfl⟩ := map_ok hw
    unfold InitRules.zoomTo at hy
    split at hy
    · cases hy
    · split at hy
      · cases hy
      · cases hy; exact hg
  | squeeze _ axis =>
    cases hc
    obtain ⟨y, hy, rfl⟩ := map_ok hw
    rcases InitRules.C56_squeeze x.value axis with ⟨a, y', h1, h2, h3, h4, h5⟩ | ⟨_, h2⟩
    · rw [hy] at h3
      cases h3
      refine ⟨a, h1, h2, hs.symm.trans h4, ?_⟩
      intro idx hv
      rw [hg]
      exact congrArg _ (h5 idx hv)
    · rw [hy] at h2; cases h2
  | reshape _ s =>
    cases hso : shapeOf s with
    | none => simp only [singleOf, hso] at hc; cases hc
    | some o =>
      simp only [singleOf, hso, Option.map_some] at hc
      cases hc
      obtain ⟨y, hy, rfl⟩ := map_ok hw
      refine ⟨?_, ?_, ?_⟩
      · have := InitRules.C56_reshape_entries _ _ _ hy
        rw [← this]
        exact entries_conv env _ _ _ _ (hvs.trans hs.symm) hg
      · intro hfs
        have : InitRules.reshape x.value (t.value.shape.map some) = .ok y := by
          rcases shapeOf_falsy hfs hso with rfl | rfl <;> exact hy
        rcases InitRules.C56_reshape_shape x.value t.value.shape with ⟨h1, _⟩ | ⟨_, h2⟩
        · exact h1.symm
        · rw [this] at h2; cases h2
      · rintro l rfl hl
        have hl2 : l.mapM dim = o := by
          simp only [shapeOf] at hso
          cases hm : l.mapM dim with
          | none => rw [hm] at hso; cases hso
          | some o' => rw [hm] at hso; cases hso; rfl
        cases o with
        | none => simp only [shapeOf, hl2] at hso; cases hso
        | some o =>
          have h2 := mapM_option hl2
          cases o with
          | nil => cases h2; exact absurd rfl hl
          | cons d o =>
            have h3 : List.Forall₂ _ (d :: o) y.shape := reshape_dims hy
            have h4 : List.Forall₂ (fun (i : Int) (n : Nat) => i = -1 ∨ i = n) l y.shape := by
              have g2 := List.Forall₂.length_eq h2
              have g3 := List.Forall₂.length_eq h3
              rw [List.forall₂_iff_get] at h2 h3 ⊢
              refine ⟨by omega, ?_⟩
              intro i a1 a2
              have e1 := h2.2 i a1 (by omega)
              have e2 := h3.2 i (by omega) a2
              rcases dim_some e1 with ⟨e, _⟩ | ⟨n, e, e'⟩
              · exact .inl e
              · rw [e'] at e2
                rcases e2 with e2 | e2
                · cases e2
                · cases e2; exact .inr e
            rw [← hs]
            exact h4
  | expandTile _ a n =>
    cases ha : axesOf a with
    | none => simp only [singleOf, ha] at hc; cases hc
    | some axes =>
      cases hn : repsOf n with
      | none => simp only [singleOf, ha, hn] at hc; cases hc
      | some reps =>
        simp only [singleOf, ha, hn] at hc
        cases hc
        obtain ⟨y, hy, rfl⟩ := map_ok hw
        obtain ⟨h1, h2, h3, h4, h5⟩ := InitRules.C56_tile_copies _ _ _ _ hy
        obtain ⟨reps', hr1, hr2⟩ := repsOf_some hn
        change y.shape = _ at hs
        rw [hs] at h3 h4 h5
        refine ⟨axes, reps', axesOf_some ha, hr1, h3, ?_, ?_⟩
        · have := hr2.length_eq
          rw [List.forall₂_iff_get] at hr2 ⊢
          refine ⟨by omega, ?_⟩
          intro k a1 a2 i hi
          have e1 := hr2.2 k a2 (by omega)
          have e2 := h4 k a1 (by omega) i hi
          rw [e2]
          exact e1
        · intro idx hv
          rw [hg]
          exact congrArg _ (h5 idx hv).2

/-- Several sources. -/
theorem stacked_of_applyTx [DecidableEq D] (env : Env D α) (flags : Flags) (hf : flags.raiseShape = true) (axis : Int)
    (xs : List (Arr D α)) (t v : Arr D α) (h : applyTx env flags (.stack axis xs t) = .ok v) : Stacked env axis xs t v := by
  have hw : ∃ w, (Tx.stack axis xs t).call env = .ok w := by
    unfold applyTx at h
    obtain ⟨w, hw, _⟩ := ebind h
    exact ⟨w, hw⟩
  obtain ⟨w, hw⟩ := hw
  obtain ⟨hs, hg⟩ := (C56_no_broadcast env flags hf _ w hw).2 v h
  change w.value.shape = t.value.shape at hs
  change ∀ idx, v.value.get idx = conv env w.dtype t.dtype (w.value.get idx) at hg
  cases xs with
  | nil => cases hw
  | cons x xs =>
    obtain ⟨y, hy, rfl⟩ := map_ok hw
    have has : ∀ (d : D) (z : Arr D α), (astype env d z).value.shape = z.value.shape ∧
        ∀ idx, (astype env d z).value.get idx = conv env z.dtype d (z.value.get idx) := by
      intro d z
      unfold astype conv
      split
      · exact ⟨rfl, fun _ => rfl⟩
      · exact ⟨rfl, fun _ => rfl⟩
    obtain ⟨a, shape, h1, h2, h3, h4⟩ := InitRules.C56_stack _ _ _ hy
    refine ⟨a, shape, xs.foldl (fun d y => env.promote d y.dtype) x.dtype, ?_, h2, ?_, ?_, ?_⟩
    · intro z hz
      rw [← (has _ z).1]
      exact h1 _ (List.mem_map_of_mem hz)
    · rw [List.length_map] at h3
      exact hs.symm.trans h3
    · intro e he hp
      have : ∀ (l : List (Arr D α)), (∀ z ∈ l, z.dtype = e) → l.foldl (fun d y => env.promote d y.dtype) e = e := by
        intro l hl
        induction l with
        | nil => rfl
        | cons z l ih =>
          rw [List.foldl_cons, hl z (by simp), hp]
          exact ih fun z hz => hl z (by simp [hz])
      rw [he x (by simp)]
      exact this xs fun z hz => he z (by simp [hz])
    · intro k hk idx hv
      have h5 := (h4 k (by rwa [List.length_map]) idx hv).2
      rw [hg]
      refine congrArg _ (h5.trans ?_)
      rw [List.getElem_map]
      exact (has _ _).2 idx

/-- The rules of the mapping. -/
theorem toRule_cases (search : P → Key → Bool) (sub : P → Key → Key → Key) (r : Parsed P) (rule : Rule)
    (h : toRule search sub r = some rule) : rule.search = search r.pattern ∧
      ((r.cls = .base ∧ rule.action = ⟨id, .other⟩) ∨ (r.cls = .drop ∧ rule.action = ⟨id, .drop⟩) ∨
       ∃ s, Replaces r.cls s ∧ rule.action.rename = sub r.pattern s ∧
        ((∃ axis, r.cls = .stack (.str s) axis ∧ rule.action.kind = .stack axis) ∨
         ∃ sg, singleOf r.cls = some sg ∧ rule.action.kind = .single sg)) := by
  obtain ⟨p, c⟩ := r
  unfold Replaces
  cases c with
  | base => cases h; exact ⟨rfl, .inl ⟨rfl, rfl⟩⟩
  | drop => cases h; exact ⟨rfl, .inr (.inl ⟨rfl, rfl⟩)⟩
  | regex v =>
    cases v with
    | str s => cases h; exact ⟨rfl, .inr (.inr ⟨s, by simp, rfl, .inr ⟨_, rfl, rfl⟩⟩)⟩
    | _ => cases h
  | reshape v sh =>
    cases v with
    | str s =>
      cases ho : shapeOf sh with
      | none => simp only [toRule, ho] at h; cases h
      | some o =>
        simp only [toRule, ho, Option.map_some] at h
        cases h
        exact ⟨rfl, .inr (.inr ⟨s, by simp, rfl, .inr ⟨_, by simp only [singleOf, ho]; rfl, rfl⟩⟩)⟩
    | _ => cases h
  | squeeze v a =>
    cases v with
    | str s => cases h; exact ⟨rfl, .inr (.inr ⟨s, by simp, rfl, .inr ⟨_, rfl, rfl⟩⟩)⟩
    | _ => cases h
  | stack v a =>
    cases v with
    | str s => cases h; exact ⟨rfl, .inr (.inr ⟨s, by simp, rfl, .inl ⟨a, rfl, rfl⟩⟩)⟩
    | _ => cases h
  | expandTile v a n =>
    cases ha : axesOf a with
    | none => simp only [toRule, ha] at h; cases h
    | some axes =>
      cases hn : repsOf n with
      | none => simp only [toRule, ha, hn] at h; cases h
      | some reps =>
        simp only [toRule, ha, hn] at h
        cases v with
        | str s => cases h; exact ⟨rfl, .inr (.inr ⟨s, by simp, rfl, .inr ⟨_, by simp only [singleOf, ha, hn], rfl⟩⟩)⟩
        | _ => cases h
  | vitZoom v =>
    cases v with
    | str s => cases h; exact ⟨rfl, .inr (.inr ⟨s, by simp, rfl, .inr ⟨_, rfl, rfl⟩⟩)⟩
    | _ => cases h
  | zoom v =>
    cases v with
    | str s => cases h; exact ⟨rfl, .inr (.inr ⟨s, by simp, rfl, .inr ⟨_, rfl, rfl⟩⟩)⟩
    | _ => cases h

theorem replaces_unique {c : Cls} {s s' : Key} (h : Replaces c s) (h' : Replaces c s') : s = s' := by
  unfold Replaces at h h'
  cases c <;> simp_all

theorem reads_unique {compile : Key → Except PyErr P} {raw : Raw P} {r r' : Parsed P} (h : Reads compile raw r)
    (h' : Reads compile raw r') : r = r' := by
  rw [← parseOne_ok] at h h'
  rw [h] at h'
  cases h'
  rfl

theorem forall₂_append_right {A B : Type} {R : A → B → Prop} {l : List A} {m n : List B} (h : List.Forall₂ R l (m ++ n)) :
    ∃ a b, List.Forall₂ R a m ∧ List.Forall₂ R b n ∧ l = a ++ b := by
  induction m generalizing l with
  | nil => exact ⟨[], l, .nil, h, rfl⟩
  | cons x m ih =>
    cases h with
    | cons h1 h2 =>
      obtain ⟨a, b, ha, hb, rfl⟩ := ih h2
      exact ⟨_ :: a, b, .cons h1 ha, hb, rfl⟩

/-- The action for a name comes from a rule of the config. -/
theorem firstMatch_takes (compile : Key → Except PyErr P) (search : P → Key → Bool) (sub : P → Key → Key → Key)
    {raws : List (Raw P)} {rs : List (Parsed P)} {rules : List Rule} (h1 : List.Forall₂ (Reads compile) raws rs)
    (h2 : List.Forall₂ (fun r rule => toRule search sub r = some rule) rs rules) {k : Key} {rule : Rule}
    (h : FirstMatch rules k rule) : ∃ r, Takes compile search raws k r ∧ toRule search sub r = some rule := by
  obtain ⟨before, after, rfl, hm, hb⟩ := h
  obtain ⟨rs1, rs2, e1, e2, rfl⟩ := forall₂_append_right h2
  cases e2 with
  | @cons r _ rs2 _ e2 e3 =>
    obtain ⟨raws1, raws2, f1, f2, rfl⟩ := forall₂_append_right h1
    cases f2 with
    | @cons raw _ raws2 _ f2 f3 =>
      refine ⟨r, ⟨raws1, raw, raws2, rfl, f2, ?_, ?_⟩, e2⟩
      · rw [← (toRule_cases _ _ _ _ e2).1]; exact hm
      · intro raw' hr r' hr'
        obtain ⟨i, hi, rfl⟩ := List.getElem_of_mem hr
        have g1 := f1.length_eq
        have g2 := e1.length_eq
        rw [List.forall₂_iff_get] at f1 e1
        have := f1.2 i hi (by omega)
        have hu := reads_unique hr' this
        have h3 := e1.2 i (by omega) (by omega)
        rw [hu, ← (toRule_cases _ _ _ _ h3).1]
        exact hb _ (List.getElem_mem _)

/-- Only one rule takes a name. -/
theorem takes_unique {compile : Key → Except PyErr P} {search : P → Key → Bool} {raws : List (Raw P)} {k : Key} {r r' : Parsed P}
    (h : Takes compile search raws k r) (h' : Takes compile search raws k r') : r = r' := by
  obtain ⟨b, raw, a, rfl, h1, h2, h3⟩ := h
  obtain ⟨b', raw', a', he, h1', h2', h3'⟩ := h'
  rcases List.append_eq_append_iff.1 he with ⟨m, rfl, hm⟩ | ⟨m, rfl, hm⟩
  · cases m with
    | nil => cases hm; exact reads_unique h1 h1'
    | cons x m =>
      cases hm
      have := h3' raw (by simp) r h1
      rw [h2] at this
      cases this
  · cases m with
    | nil => cases hm; exact (reads_unique h1' h1).symm
    | cons x m =>
      cases hm
      have := h3 raw' (by simp) r' h1'
      rw [h2'] at this
      cases this

/-- C87: what `map_state_dict` does with the rules of a config, if it succeeds.  Every array of the target gets an array of its
type and shape.  It keeps its value exactly if no name of the source is sent to its name; otherwise one source is sent to it,
by a rule that is not a `stack`, and the array is made from this source as the rule says; or all the sources that are sent to
it have `stack` rules and are stacked in the natural order of their names along the axis of the first one.  Which rule is used
for a name: the first one whose pattern is found in the name. -/
theorem C87_result [DecidableEq D] (env : Env D α) (compile : Key → Except PyErr P) (search : P → Key → Bool)
    (sub : P → Key → Key → Key) (raws : List (Raw P)) (flags : Flags) (hf : flags.raiseShape = true)
    (hsrc : flags.raiseSource = true) (source target : List (Key × FlatDict.Tree (Arr D α))) (ht : ItemsOk target)
    (res : FlatDict.Tree (Arr D α)) (h : mapRaw env compile search sub raws flags source target = .ok res) :
    (∀ k ∈ PyDict.keys (flatten source), ∃ r, Takes compile search raws k r) ∧
    ∃ l, res = .node l ∧ ItemsRel (fun _ _ _ => True) [] target l ∧
      ∀ p t, leafOf target p = some t → ∃ v, leafOf l p = some v ∧ v.dtype = t.dtype ∧ v.value.shape = t.value.shape ∧
        (((∀ k ∈ PyDict.keys (flatten source), ∀ r, ¬ Sends compile search sub raws k (join p) r) ∧ v = t) ∨
         (∃ k r x, k ∈ PyDict.keys (flatten source) ∧ Sends compile search sub raws k (join p) r ∧
            (∀ k' ∈ PyDict.keys (flatten source), ∀ r', Sends compile search sub raws k' (join p) r' → k' = k) ∧
            PyDict.get? (flatten source) k = some (.leaf x) ∧ Made env r.cls x t v) ∨
         (∃ k ks r s axis xs,
            (∀ k', k' ∈ k :: ks ↔ k' ∈ PyDict.keys (flatten source) ∧ ∃ r', Sends compile search sub raws k' (join p) r') ∧
            (k :: ks).Sublist (NaturalSort.naturalSort env.float (PyDict.keys (flatten source))) ∧
            (∀ k' ∈ k :: ks, ∀ r', Sends compile search sub raws k' (join p) r' → ∃ s' axis', r'.cls = .stack s' axis') ∧
            Sends compile search sub raws k (join p) r ∧ r.cls = .stack s axis ∧
            List.Forall₂ (fun k' x => PyDict.get? (flatten source) k' = some (.leaf x)) (k :: ks) xs ∧
            Stacked env axis xs t v)) := by
  unfold mapRaw at h
  obtain ⟨rs, hrs, h⟩ := ebind h
  have h1 := (C87_accepts compile raws rs).1 hrs
  cases hr : rs.mapM (toRule search sub) with
  | none => rw [hr] at h; cases h
  | some rules =>
    rw [hr] at h
    change mapStateDict env rules flags source target = .ok res at h
    have h2 := mapM_option hr
    have hfirst := C54_strict_source env rules flags source target ht res h hsrc
    -- the rule and the action for a name
    have hact : ∀ k ∈ PyDict.keys (flatten source), ∃ r rule, FirstMatch rules k rule ∧ Takes compile search raws k r ∧
        toRule search sub r = some rule := by
      intro k hk
      obtain ⟨rule, hm⟩ := hfirst k hk
      obtain ⟨r, a, b⟩ := firstMatch_takes compile search sub h1 h2 hm
      exact ⟨r, rule, hm, a, b⟩
    -- both ways of sending a name agree
    have hsend : ∀ k ∈ PyDict.keys (flatten source), ∀ dst r, Sends compile search sub raws k dst r →
        ∃ rule, GoesTo rules k dst rule.action ∧ toRule search sub r = some rule := by
      intro k hk dst r ⟨ht, hd⟩
      obtain ⟨r', rule, hm, ht', htr⟩ := hact k hk
      cases takes_unique ht ht'
      refine ⟨rule, ⟨.inl ⟨rule, hm, rfl⟩, ?_⟩, htr⟩
      rcases (toRule_cases _ _ _ _ htr).2 with ⟨e1, e2⟩ | ⟨e1, e2⟩ | ⟨s, e1, e2, e3⟩
      · rw [e2]
        refine ⟨by simp, ?_⟩
        rcases hd with ⟨s, hd, _⟩ | ⟨_, hd⟩
        · rw [e1] at hd; unfold Replaces at hd; simp at hd
        · exact hd
      · rcases hd with ⟨s, hd, _⟩ | ⟨hd, _⟩
        · rw [e1] at hd; unfold Replaces at hd; simp at hd
        · rw [e1] at hd; cases hd
      · rw [e2]
        refine ⟨?_, ?_⟩
        · rcases e3 with ⟨a, _, e3⟩ | ⟨a, _, e3⟩ <;> rw [e3] <;> simp
        · rcases hd with ⟨s', hd, hd'⟩ | ⟨hd, _⟩
          · rw [replaces_unique e1 hd]; exact hd'
          · rw [hd] at e1; unfold Replaces at e1; simp at e1
    have hgo : ∀ k ∈ PyDict.keys (flatten source), ∀ dst a, GoesTo rules k dst a →
        ∃ r rule, Sends compile search sub raws k dst r ∧ toRule search sub r = some rule ∧ a = rule.action := by
      intro k hk dst a ⟨ha, hd, hn⟩
      obtain ⟨r, rule, hm, ht', htr⟩ := hact k hk
      have : a = rule.action := by
        rw [handledBy_iff] at ha
        rw [ha]
        exact ((handledBy_iff rules k rule.action).1 (.inl ⟨rule, hm, rfl⟩)).symm
      subst this
      refine ⟨r, rule, ⟨ht', ?_⟩, htr, rfl⟩
      rcases (toRule_cases _ _ _ _ htr).2 with ⟨e1, e2⟩ | ⟨e1, e2⟩ | ⟨s, e1, e2, e3⟩
      · rw [e2] at hn; exact .inr ⟨e1, hn⟩
      · rw [e2] at hd; exact absurd rfl hd
      · rw [e2] at hn; exact .inl ⟨s, e1, hn⟩
    refine ⟨fun k hk => let ⟨r, _, _, a, _⟩ := hact k hk; ⟨r, a⟩, ?_⟩
    obtain ⟨l, rfl, hrel, hl⟩ := C54_assignment env rules flags source target ht res h
    refine ⟨l, rfl, hrel, ?_⟩
    intro p t hp
    obtain ⟨v, hv, hcase⟩ := hl p t hp
    refine ⟨v, hv, ?_⟩
    rcases hcase with ⟨a1, rfl⟩ | ⟨k, a, s, x, a1, a2, a3, a4, a5, a6⟩ | ⟨k, ks, a, axis, xs, a1, a2, a3, a4, a5, a6, a7⟩
    · refine ⟨rfl, rfl, .inl ⟨?_, rfl⟩⟩
      intro k hk r hr
      obtain ⟨rule, hg, _⟩ := hsend k hk _ r hr
      exact a1 k hk _ hg
    · obtain ⟨b1, b2⟩ := C56_target_shape env flags _ v a6
      refine ⟨b1, b2, .inr (.inl ?_)⟩
      obtain ⟨r, rule, hs, htr, rfl⟩ := hgo k a1 _ a a2
      refine ⟨k, r, x, a1, hs, ?_, a5, ?_⟩
      · intro k' hk' r' hr'
        obtain ⟨rule', hg, _⟩ := hsend k' hk' _ r' hr'
        exact a3 k' hk' _ hg
      · rcases (toRule_cases _ _ _ _ htr).2 with ⟨_, e2⟩ | ⟨_, e2⟩ | ⟨_, _, _, ⟨_, _, e3⟩ | ⟨sg, e3, e4⟩⟩
        · rw [e2] at a4; cases a4
        · rw [e2] at a4; cases a4
        · rw [e3] at a4; cases a4
        · rw [e4] at a4
          cases a4
          exact made_of_applyTx env flags hf _ _ e3 x t v a6
    · obtain ⟨b1, b2⟩ := C56_target_shape env flags _ v a7
      refine ⟨b1, b2, .inr (.inr ?_)⟩
      have hk := ((a1 k).1 (by simp)).1
      obtain ⟨r, rule, hs, htr, rfl⟩ := hgo k hk _ a a4
      have hcls : ∀ (r : Parsed P) (rule : Rule) axis, toRule search sub r = some rule → rule.action.kind = .stack axis →
          ∃ s, r.cls = .stack s axis := by
        intro r rule axis htr hk
        rcases (toRule_cases _ _ _ _ htr).2 with ⟨_, e2⟩ | ⟨_, e2⟩ | ⟨s, _, _, ⟨_, e, e3⟩ | ⟨sg, e3, e4⟩⟩
        · rw [e2] at hk; cases hk
        · rw [e2] at hk; cases hk
        · rw [e3] at hk; cases hk; exact ⟨_, e⟩
        · rw [e4] at hk; cases hk
      obtain ⟨s, hs'⟩ := hcls r rule axis htr a5
      refine ⟨k, ks, r, s, axis, xs, ?_, a2, ?_, hs, hs', a6, stacked_of_applyTx env flags hf axis xs t v a7⟩
      · intro k'
        rw [a1 k']
        constructor
        · rintro ⟨c1, a', c2⟩
          obtain ⟨r', _, c3, _⟩ := hgo k' c1 _ a' c2
          exact ⟨c1, r', c3⟩
        · rintro ⟨c1, r', c2⟩
          obtain ⟨rule', c3, _⟩ := hsend k' c1 _ r' c2
          exact ⟨c1, _, c3⟩
      · intro k' hk' r' hr'
        obtain ⟨rule', c3, c4⟩ := hsend k' ((a1 k').1 hk').1 _ r' hr'
        obtain ⟨axis', c5⟩ := a3 k' hk' _ c3
        obtain ⟨s', c6⟩ := hcls r' rule' axis' c4 c5
        exact ⟨s', axis', c6⟩

/-- C87: a `reshape` without a shape, or with one that is false (as `None` or `()`), succeeds exactly if the source has as many
entries as the target, unless a different type raises. -/
theorem C87_reshape_default [DecidableEq D] (env : Env D α) (flags : Flags) (v s : Val) (hs : Falsy s) (sg : Single)
    (hc : singleOf (.reshape v s) = some sg) (x t : Arr D α) :
    (x.value.shape.prod = t.value.shape.prod → (flags.raiseDtype = true → x.dtype = t.dtype) →
      ∃ y, applyTx env flags (.single sg x t) = .ok y) ∧
    (x.value.shape.prod ≠ t.value.shape.prod → applyTx env flags (.single sg x t) = .error .typeError) := by
  cases hso : shapeOf s with
  | none => simp only [singleOf, hso] at hc; cases hc
  | some o =>
    simp only [singleOf, hso, Option.map_some] at hc
    cases hc
    have hcall : (Tx.single (.reshape o) x t).call env =
        (InitRules.reshape x.value (t.value.shape.map some)).map (⟨x.dtype, ·, false⟩) := by
      rcases shapeOf_falsy hs hso with rfl | rfl <;> rfl
    unfold applyTx
    rw [hcall]
    rcases InitRules.C56_reshape_shape x.value t.value.shape with ⟨h1, y, h2, h3⟩ | ⟨h1, h2⟩
    · rw [h2]
      refine ⟨?_, fun h => absurd h1.symm h⟩
      intro _ hd
      refine ⟨astype env t.dtype ⟨x.dtype, y, false⟩, ?_⟩
      have e1 : ¬ (x.dtype ≠ t.dtype ∧ flags.raiseDtype = true) := fun h => h.1 (hd h.2)
      have e2 : (astype env t.dtype (⟨x.dtype, y, false⟩ : Arr D α)).value.shape = t.value.shape := by
        unfold astype
        split <;> exact h3
      change (if _ then _ else _ : Except PyErr _) = _
      split
      · rename_i h; exact absurd h e1
      · change (if _ then _ else _ : Except PyErr _) = _
        split
        · rfl
        · rename_i h; exact absurd e2 h
    · rw [h2]
      exact ⟨fun h => absurd h.symm h1, fun _ => rfl⟩

example : ∃ y, applyTx exEnv {} (.single (.reshape none) ⟨0, ⟨[2, 3], fun i => i.sum⟩, false⟩ ⟨0, ⟨[3, 2], fun _ => 9⟩, false⟩) = .ok y ∧
    entries y.value = [0, 1, 2, 1, 2, 3] := ⟨_, rfl, rfl⟩

/-- C87: a rule whose replacement is not a string, and that is not a `DropRule`, raises `TypeError` for every name that it
matches. -/
theorem C87_no_replacement (compile : Key → Except PyErr P) (sub : P → Key → Key → Key) (pat : Key) (p : P) (v : Val)
    (args : List Val) (hc : compile pat = .ok p) (hv : ∀ s, v ≠ .str s) (ha : args = [] → ¬ Falsy v) (r : Parsed P)
    (h : Reads compile (.items (.str pat :: v :: args)) r) (key : Key) : rename sub r key = .error .typeError := by
  rcases h with h | ⟨l, hl, h⟩
  · cases h
  · cases hl
    cases h with
    | drop _ h => exact absurd h (ha rfl)
    | rename | reshape | reshapeTo | squeeze | stack | expandTile | vitZoom | zoom =>
      cases v with
      | str s => exact absurd rfl (hv s)
      | _ => rfl

/-- The documentation says that `None` as replacement discards the matched arrays.  With a transformation it does not: the rule
is accepted and raises when it matches. -/
theorem C87_none_transform_counterexample :
    parse (fun k => .ok k) [.items [.str "a".toList, .none, .str "reshape".toList]] =
      .ok [(⟨"a".toList, .reshape .none .none⟩ : Parsed Key)] ∧
    ∀ sub key, rename sub (⟨"a".toList, .reshape .none .none⟩ : Parsed Key) key = .error .typeError :=
  ⟨rfl, fun _ _ => rfl⟩

/-- The same for the empty string: the source is renamed, not discarded. -/
theorem C87_empty_transform_counterexample :
    parse (fun k => .ok k) [.items [.str "a".toList, .str [], .str "squeeze".toList, .int 0]] =
      .ok [(⟨"a".toList, .squeeze (.str []) 0⟩ : Parsed Key)] ∧
    ∀ sub key, rename sub (⟨"a".toList, .squeeze (.str []) 0⟩ : Parsed Key) key = .ok (sub "a".toList [] key) :=
  ⟨rfl, fun _ _ => rfl⟩

/-! ### A concrete case -/

/-- Three regular expressions, numbered. -/
def exCompile (k : Key) : Except PyErr Nat :=
  if k = "^a".toList then .ok 0 else if k = "^b$".toList then .ok 1 else if k = "^x".toList then .ok 2 else .error .valueError

def exSearch (p : Nat) (k : Key) : Bool :=
  match p with
  | 0 => k.head? == some 'a'
  | 1 => k == "b".toList
  | _ => k.head? == some 'x'

/-- The pattern with what follows it is the whole name. -/
def exSub (_ : Nat) (s _k : Key) : Key := s

def exRaws : List (Raw Nat) :=
  [.items [.str "^a".toList, .str "m/s".toList, .str "stack".toList, .int 0],
   .rule ⟨1, .regex (.str "m/c".toList)⟩,
   .items [.str "^x".toList, .none]]

/-- The hypotheses of `C87_result` are met. -/
example : ∃ r, mapRaw exEnv exCompile exSearch exSub exRaws exFlags exSource exTarget = .ok r := exSucceeds

example : parse exCompile exRaws =
    .ok [⟨0, .stack (.str "m/s".toList) 0⟩, ⟨1, .regex (.str "m/c".toList)⟩, ⟨2, .drop⟩] := rfl

/-- A string of two letters is a rule. -/
example : parse (fun k => .ok k) [.text "ab".toList] = .ok [(⟨"a".toList, .regex (.str "b".toList)⟩ : Parsed Key)] := rfl

/-- More arguments than needed are an error, but not for a zoom. -/
example : parse exCompile [.items [.str "^a".toList, .str "b".toList, .str "stack".toList]] = .error .assertionError ∧
    parse exCompile [.items [.str "^a".toList, .str "b".toList, .str "flip".toList]] = .error .valueError ∧
    parse exCompile [.items [.str "^a".toList, .str "b".toList, .str "zoom".toList, .int 3]] =
      .ok [⟨0, .zoom (.str "b".toList)⟩] := ⟨rfl, rfl, rfl⟩

example : Wrong exCompile [.str "^a".toList, .str "b".toList, .str "squeeze".toList, .tuple [0]] .assertionError :=
  .squeeze (p := 0) rfl (by intro a i h; cases h; simp [IsInt])

end Verif.RulesParse
