import Verif.Model.ProcessRecipes
import Verif.Proofs.ProcessText
import Verif.Props.ImageOps

/-!
# The processing strings of the configurations (C140)
-/

namespace Verif.ProcessText

open Verif PpOps ImageOps DataPipeline ProcessText.Spec
open Verif.ParseCall hiding Str

variable {B : Type}

/-- Calls are read from their text: whatever the names, the integers, the strings and the spaces before the arguments. -/
theorem C140_parse (c : CallText) (hc : c.Ok) : astParse c.text = .ok c.expr := astParse_text c hc

/-- A call with spaces, a negative number, a string with a comma and a parenthesis in it, and a keyword. -/
example : astParse "resize( -12,  \"a,b)\", key='x_1')".toList =
    .ok (.call (.name "resize".toList 6) [.sign true (.const (.int 12)), .const (.str "a,b)".toList)]
      [(some "key".toList, .const (.str "x_1".toList))]) :=
  C140_parse ⟨"resize".toList, some [⟨1, none, .neg 12⟩, ⟨2, none, .str '"' "a,b)".toList⟩, ⟨1, some "key".toList, .str '\'' "x_1".toList⟩]⟩
    ⟨⟨'r', "esize".toList, rfl, by decide, by decide⟩, by
      rintro l ⟨⟩ a ha
      simp only [List.mem_cons, List.not_mem_nil, or_false] at ha
      rcases ha with rfl | rfl | rfl
      · exact ⟨trivial, by simp⟩
      · exact ⟨by simp only [Literal.Ok]; decide, by simp⟩
      · refine ⟨by simp only [Literal.Ok]; decide, ?_⟩
        rintro k ⟨⟩
        exact ⟨'k', "ey".toList, rfl, by decide, by decide⟩, by
      rintro l ⟨⟩
      simp, by
      rintro l ⟨⟩
      simp⟩

/-- A space before the operation, a positional argument after a keyword, a repeated keyword and a string without end are errors. -/
example : astParse " decode".toList = .error .syntaxError ∧ astParse "onehot(depth=3, 4)".toList = .error .syntaxError ∧
    astParse "onehot(depth=3, depth=4)".toList = .error .syntaxError ∧ astParse "keep(\"image)".toList = .error .syntaxError := by
  refine ⟨rfl, rfl, rfl, rfl⟩

/-! ### The operations of the texts -/

/-- Positional integers. -/
def nat (n : Nat) : Argument := ⟨0, none, .nat n⟩

/-- Strings in double quotes. -/
def str (k : Nat) (kw : Option Str) (s : Str) : Argument := ⟨k, kw, .str '"' s⟩

theorem ok_of (name : Str) (args : List Argument) (hn : IsName name)
    (hv : ∀ a ∈ args, a.value.Ok ∧ ∀ k, a.keyword = some k → IsName k)
    (ho : args.Pairwise fun a b => a.keyword.isSome → b.keyword.isSome) (hd : (args.filterMap Argument.keyword).Nodup) :
    CallText.Ok ⟨name, some args⟩ :=
  ⟨hn, fun l h => (by injection h with h; subst h; exact hv), fun l h => (by injection h with h; subst h; exact ho),
    fun l h => (by injection h with h; subst h; exact hd)⟩

theorem ok_none (name : Str) (hn : IsName name) : CallText.Ok ⟨name, none⟩ :=
  ⟨hn, fun l h => (by cases h), fun l h => (by cases h), fun l h => (by cases h)⟩

theorem ok_nat (name : Str) (n : Nat) (hn : IsName name) : CallText.Ok ⟨name, some [nat n]⟩ :=
  ok_of name _ hn (by
    intro a ha
    rw [List.mem_singleton] at ha
    subst ha
    exact ⟨trivial, by simp [nat]⟩) (by simp) (by simp [nat])

theorem makeOp_text (w : World B) (c : CallText) (hc : c.Ok) :
    makeOp modules () astParse (build w) c.text =
      (parseCall modules c.text c.expr (.inr ()) >>= fun r => build w r.1 r.2.1 r.2.2) := by
  unfold makeOp
  rw [C140_parse c hc]
  rfl

theorem digits_noBar (n : Nat) : '|' ∉ Nat.toDigits 10 n := by
  intro h
  have := Nat.isDigit_of_mem_toDigits (by decide) (by decide) h
  exact absurd this (by decide)

/-- A text and the operation that it stands for. -/
def Makes (w : World B) (s : Str) (op : Op (Value B)) : Prop :=
  '|' ∉ s ∧ makeOp modules () astParse (build w) s = .ok op

theorem n_randaug : IsName "randaug".toList := ⟨'r', "andaug".toList, rfl, by decide, by decide⟩
theorem n_range : IsName "value_range".toList := ⟨'v', "alue_range".toList, rfl, by decide, by decide⟩
theorem n_keep : IsName "keep".toList := ⟨'k', "eep".toList, rfl, by decide, by decide⟩
theorem n_onehot : IsName "onehot".toList := ⟨'o', "nehot".toList, rfl, by decide, by decide⟩
theorem n_decode : IsName "decode".toList := ⟨'d', "ecode".toList, rfl, by decide, by decide⟩

theorem makes_decode (w : World B) : Makes w "decode".toList (ikok (onBytes (w.decode 3)) none "image" "image") :=
  ⟨by decide, makeOp_text w ⟨"decode".toList, none⟩ (ok_none _ n_decode)⟩

theorem makes_flip (w : World B) :
    Makes w "flip_lr".toList (ikok (onImage fun i => .ok (flipLr w.coin i)) none "image" "image") :=
  ⟨by decide, makeOp_text w ⟨"flip_lr".toList, none⟩ (ok_none _ ⟨'f', "lip_lr".toList, rfl, by decide, by decide⟩)⟩

theorem nat_text (name : Str) (n : Nat) : (CallText.mk name (some [nat n])).text = name ++ '(' :: (Nat.toDigits 10 n ++ [')']) := rfl

theorem noBar_nat (name : Str) (n : Nat) (h : '|' ∉ name) : '|' ∉ name ++ '(' :: (Nat.toDigits 10 n ++ [')']) := by
  simp [h, digits_noBar n]

theorem makes_jpeg (w : World B) (s : Nat) :
    Makes w ("decode_jpeg_and_inception_crop".toList ++ '(' :: (Nat.toDigits 10 s ++ [')']))
      (ikok (onBytes (decodeJpegAndInceptionCrop (w.decode 3) (w.interpolation "bilinear") w.sample (.int s) 5 100)) none
        "image" "image") :=
  ⟨noBar_nat _ _ (by decide), makeOp_text w ⟨"decode_jpeg_and_inception_crop".toList, some [nat s]⟩ (ok_nat _ _
    ⟨'d', "ecode_jpeg_and_inception_crop".toList, rfl, by decide, by decide⟩)⟩

theorem makes_inception (w : World B) (s : Nat) :
    Makes w ("inception_crop".toList ++ '(' :: (Nat.toDigits 10 s ++ [')']))
      (ikok (onImage (inceptionCrop (w.interpolation "bilinear") w.sample (.int s) 5 100)) none "image" "image") :=
  ⟨noBar_nat _ _ (by decide), makeOp_text w ⟨"inception_crop".toList, some [nat s]⟩ (ok_nat _ _
    ⟨'i', "nception_crop".toList, rfl, by decide, by decide⟩)⟩

theorem makes_resize (w : World B) (s : Nat) :
    Makes w ("resize".toList ++ '(' :: (Nat.toDigits 10 s ++ [')']))
      (ikok (onImage (ImageOps.resize (w.interpolation "bilinear") (.int s))) none "image" "image") :=
  ⟨noBar_nat _ _ (by decide), makeOp_text w ⟨"resize".toList, some [nat s]⟩ (ok_nat _ _
    ⟨'r', "esize".toList, rfl, by decide, by decide⟩)⟩

theorem makes_small (w : World B) (s : Nat) :
    Makes w ("resize_small".toList ++ '(' :: (Nat.toDigits 10 s ++ [')']))
      (ikok (onImage (resizeSmallOp w.fl w.area s)) none "image" "image") :=
  ⟨noBar_nat _ _ (by decide), makeOp_text w ⟨"resize_small".toList, some [nat s]⟩ (ok_nat _ _
    ⟨'r', "esize_small".toList, rfl, by decide, by decide⟩)⟩

theorem makes_central (w : World B) (s : Nat) :
    Makes w ("central_crop".toList ++ '(' :: (Nat.toDigits 10 s ++ [')']))
      (ikok (onImage (centralCropOp (.int s))) none "image" "image") :=
  ⟨noBar_nat _ _ (by decide), makeOp_text w ⟨"central_crop".toList, some [nat s]⟩ (ok_nat _ _
    ⟨'c', "entral_crop".toList, rfl, by decide, by decide⟩)⟩

theorem makes_randaug (w : World B) (a : Nat × Nat × Nat) : '|' ∉ randaugText a ∧
    makeOp modules () astParse (build w) (randaugText a) = match w.randaug with
      | none => .error .notImplementedError
      | some f => .ok (ikok (onImage (f a.2.1 a.2.2)) none "image" "image") := by
  obtain ⟨k, l, m⟩ := a
  have h0 : randaugText (k, l, m) = "randaug(".toList ++ Nat.toDigits 10 l ++ ",".toList ++ List.replicate k ' ' ++
      Nat.toDigits 10 m ++ ")".toList := rfl
  have ht : "randaug(".toList ++ Nat.toDigits 10 l ++ ",".toList ++ List.replicate k ' ' ++ Nat.toDigits 10 m ++ ")".toList =
      (CallText.mk "randaug".toList (some [nat l, ⟨k, none, .nat m⟩])).text := by
    simp [CallText.text, argumentsText, Argument.text, nat, Literal.text]
  rw [h0]
  refine ⟨?_, ?_⟩
  · simp [digits_noBar]
  rw [ht, makeOp_text w _ (ok_of _ _ n_randaug (by
    intro a ha
    simp only [List.mem_cons, List.not_mem_nil, or_false] at ha
    rcases ha with rfl | rfl
    · exact ⟨trivial, by simp [nat]⟩
    · exact ⟨trivial, by simp⟩) (by simp [nat]) (by simp [nat]))]
  obtain ⟨_, _, _, _, _, _, ra⟩ := w
  cases ra <;> rfl

theorem makes_range (w : World B) (k : Nat) :
    Makes w ("value_range(-1,".toList ++ List.replicate k ' ' ++ "1)".toList)
      (ikok (onImage fun i => .ok (valueRangeOp (-1) 1 0 255 false i)) none "image" "image") := by
  have ht : "value_range(-1,".toList ++ List.replicate k ' ' ++ "1)".toList =
      (CallText.mk "value_range".toList (some [⟨0, none, .neg 1⟩, ⟨k, none, .nat 1⟩])).text := by
    simp [CallText.text, argumentsText, Argument.text, Literal.text, Nat.toDigits_of_lt_base (b := 10) (n := 1) (by decide), show Nat.digitChar 1 = '1' from rfl]
  refine ⟨by simp, ?_⟩
  rw [ht, makeOp_text w _ (ok_of _ _ n_range (by
    intro a ha
    simp only [List.mem_cons, List.not_mem_nil, or_false] at ha
    rcases ha with rfl | rfl
    · exact ⟨trivial, by simp⟩
    · exact ⟨trivial, by simp⟩) (by simp) (by simp))]
  have : ∀ i : Image, valueRangeOp (-((1 : Int) : ℚ)) ((1 : Int) : ℚ) 0 255 false i = valueRangeOp (-1) 1 0 255 false i := by
    intro i
    norm_num
  change Except.ok (ikok (onImage fun i => .ok (valueRangeOp (-((1 : Int) : ℚ)) ((1 : Int) : ℚ) 0 255 false i)) none
    "image" "image") = _
  simp only [this]

theorem makes_keep (w : World B) (a b : String) (ha : '"' ∉ a.toList ∧ '\\' ∉ a.toList ∧ '\n' ∉ a.toList ∧ '|' ∉ a.toList)
    (hb : '"' ∉ b.toList ∧ '\\' ∉ b.toList ∧ '\n' ∉ b.toList ∧ '|' ∉ b.toList) :
    Makes w ("keep(\"".toList ++ a.toList ++ "\", \"".toList ++ b.toList ++ "\")".toList) (PpOps.keep [a, b]) := by
  have ht : "keep(\"".toList ++ a.toList ++ "\", \"".toList ++ b.toList ++ "\")".toList =
      (CallText.mk "keep".toList (some [str 0 none a.toList, str 1 none b.toList])).text := by
    simp [CallText.text, argumentsText, Argument.text, Literal.text, str]
  refine ⟨by simp [ha, hb], ?_⟩
  rw [ht, makeOp_text w _ (ok_of _ _ n_keep (by
    intro x hx
    simp only [List.mem_cons, List.not_mem_nil, or_false] at hx
    rcases hx with rfl | rfl
    · exact ⟨⟨.inl rfl, ha.1, ha.2.1, ha.2.2.1⟩, by simp [str]⟩
    · exact ⟨⟨.inl rfl, hb.1, hb.2.1, hb.2.2.1⟩, by simp [str]⟩) (by simp [str]) (by simp [str]))]
  change Except.ok (PpOps.keep [String.ofList a.toList, String.ofList b.toList]) = _
  rw [String.ofList_toList, String.ofList_toList]

theorem makes_onehot (w : World B) (n : Nat) :
    Makes w ("onehot".toList ++ '(' :: (Nat.toDigits 10 n ++ [')'])) (ikok (onehotOp n 1 0) none "labels" "labels") :=
  ⟨noBar_nat _ _ (by decide), makeOp_text w ⟨"onehot".toList, some [nat n]⟩ (ok_nat _ _
    ⟨'o', "nehot".toList, rfl, by decide, by decide⟩)⟩

theorem makes_onehot_key (w : World B) (n : Nat) (key : String)
    (hk : '"' ∉ key.toList ∧ '\\' ∉ key.toList ∧ '\n' ∉ key.toList ∧ '|' ∉ key.toList) :
    Makes w ("onehot(".toList ++ Nat.toDigits 10 n ++ ", inkey=\"".toList ++ key.toList ++ "\", outkey=\"labels\")".toList)
      (ikok (onehotOp n 1 0) none key "labels") := by
  have ht : "onehot(".toList ++ Nat.toDigits 10 n ++ ", inkey=\"".toList ++ key.toList ++ "\", outkey=\"labels\")".toList =
      (CallText.mk "onehot".toList (some [nat n, str 1 (some "inkey".toList) key.toList,
        str 1 (some "outkey".toList) "labels".toList])).text := by
    simp [CallText.text, argumentsText, Argument.text, Literal.text, str, nat]
  refine ⟨by simp [hk, digits_noBar], ?_⟩
  rw [ht, makeOp_text w _ (ok_of _ _ n_onehot (by
    intro x hx
    simp only [List.mem_cons, List.not_mem_nil, or_false] at hx
    rcases hx with rfl | rfl | rfl
    · exact ⟨trivial, by simp [nat]⟩
    · refine ⟨⟨.inl rfl, hk.1, hk.2.1, hk.2.2.1⟩, ?_⟩
      rintro k ⟨⟩
      exact ⟨'i', "nkey".toList, rfl, by decide, by decide⟩
    · refine ⟨⟨.inl rfl, by decide, by decide, by decide⟩, ?_⟩
      rintro k ⟨⟩
      exact ⟨'o', "utkey".toList, rfl, by decide, by decide⟩) (by simp [str, nat]) (by simp [str, nat]))]
  change Except.ok (ikok (onehotOp n 1 0) none (String.ofList key.toList) "labels") = _
  rw [String.ofList_toList]

theorem makes_ignore (w : World B) :
    Makes w "ignore_no_labels(labels_key=\"real_label\")".toList (ignoreNoLabels truth valueSize ofBool "real_label" validKey) := by
  refine ⟨by decide, ?_⟩
  exact makeOp_text w ⟨"ignore_no_labels".toList, some [str 0 (some "labels_key".toList) "real_label".toList]⟩ (ok_of _ _
    ⟨'i', "gnore_no_labels".toList, rfl, by decide, by decide⟩ (by
    intro x hx
    rw [List.mem_singleton] at hx
    subst hx
    refine ⟨⟨.inl rfl, by decide, by decide, by decide⟩, ?_⟩
    rintro k ⟨⟩
    exact ⟨'l', "abels_key".toList, rfl, by decide, by decide⟩) (by simp [str]) (by simp [str]))

/-! ### Whole strings -/

/-- The operations on the image. -/
def imagesOps (w : World B) (f : Nat → Nat → Image → Except PyErr Image) : Images → List (Op (Value B))
  | .train s randaug =>
    [ikok (onBytes (decodeJpegAndInceptionCrop (w.decode 3) (w.interpolation "bilinear") w.sample (.int s) 5 100)) none
        "image" "image",
     ikok (onImage fun i => .ok (flipLr w.coin i)) none "image" "image"] ++ match randaug with
      | some a => [ikok (onImage (f a.2.1 a.2.2)) none "image" "image"]
      | none => []
  | .trainSmall s =>
    [ikok (onBytes (w.decode 3)) none "image" "image",
     ikok (onImage (inceptionCrop (w.interpolation "bilinear") w.sample (.int s) 5 100)) none "image" "image",
     ikok (onImage fun i => .ok (flipLr w.coin i)) none "image" "image"]
  | .resize s =>
    [ikok (onBytes (w.decode 3)) none "image" "image",
     ikok (onImage (ImageOps.resize (w.interpolation "bilinear") (.int s))) none "image" "image"]
  | .smallCrop hi lo =>
    [ikok (onBytes (w.decode 3)) none "image" "image",
     ikok (onImage (resizeSmallOp w.fl w.area hi)) none "image" "image",
     ikok (onImage (centralCropOp (.int lo))) none "image" "image"]
  | .resizeCrop r t =>
    [ikok (onBytes (w.decode 3)) none "image" "image",
     ikok (onImage (ImageOps.resize (w.interpolation "bilinear") (.int r))) none "image" "image",
     ikok (onImage (centralCropOp (.int t))) none "image" "image"]

/-- The key of the label. -/
def Labels.key : Labels → String
  | .label => "label"
  | .realLabel | .maskedRealLabel => "real_label"
  | .labels => "labels"

/-- The other operations. -/
def labelsOps (B : Type) (n : Nat) (l : Labels) : List (Op (Value B)) :=
  (if l = .maskedRealLabel then [ignoreNoLabels truth valueSize ofBool "real_label" validKey] else []) ++
  [ikok (onImage fun i => .ok (valueRangeOp (-1) 1 0 255 false i)) none "image" "image",
   ikok (onehotOp n 1 0) none l.key "labels", PpOps.keep ["image", "labels"]]

/-- Texts, in order, with the operations that they stand for. -/
inductive MakesAll (w : World B) : List Str → List (Op (Value B)) → Prop
  | nil : MakesAll w [] []
  | cons {s op ss ops} : Makes w s op → MakesAll w ss ops → MakesAll w (s :: ss) (op :: ops)

theorem MakesAll.append {w : World B} {a b : List Str} {x y : List (Op (Value B))} (h1 : MakesAll w a x) (h2 : MakesAll w b y) :
    MakesAll w (a ++ b) (x ++ y) := by
  induction h1 with
  | nil => exact h2
  | cons h _ ih => exact .cons h ih

theorem MakesAll.mapM {w : World B} {a : List Str} {x : List (Op (Value B))} (h : MakesAll w a x) :
    (∀ p ∈ a, '|' ∉ p) ∧ a.mapM (makeOp modules () astParse (build w)) = .ok x := by
  induction h with
  | nil => exact ⟨by simp, rfl⟩
  | cons h _ ih =>
    refine ⟨?_, ?_⟩
    · intro p hp
      rcases List.mem_cons.1 hp with rfl | hp
      · exact h.1
      · exact ih.1 p hp
    · rw [List.mapM_cons, h.2, ih.2]
      rfl

theorem joinBar_cons (p : Str) (ps : List Str) (h : ps ≠ []) : joinBar (p :: ps) = p ++ '|' :: joinBar ps := by
  cases ps with
  | nil => exact absurd rfl h
  | cons q qs => rfl

theorem joinBar_append (a b : List Str) (ha : a ≠ []) (hb : b ≠ []) : joinBar (a ++ b) = joinBar a ++ '|' :: joinBar b := by
  induction a with
  | nil => exact absurd rfl ha
  | cons p a ih =>
    cases a with
    | nil => exact joinBar_cons p b hb
    | cons q a =>
      rw [List.cons_append, joinBar_cons _ _ (by simp), joinBar_cons p (q :: a) (by simp), ih (by simp), List.append_assoc]
      rfl

theorem getDataProcessFn_of (w : World B) (a : List Str) (x : List (Op (Value B))) (ha : a ≠ []) (h : MakesAll w a x) :
    getDataProcessFn w (joinBar a) = .ok (composeFns x) := by
  unfold getDataProcessFn PpOps.getDataProcessFn
  rw [splitBar_join a ha h.mapM.1, h.mapM.2]
  rfl

/-- Whether the string has RandAugment. -/
def Images.augments : Images → Bool
  | .train _ (some _) => true
  | _ => false

theorem text_train (s : Nat) : (Images.train s none).text =
    "decode_jpeg_and_inception_crop(".toList ++ Nat.toDigits 10 s ++ ")|flip_lr".toList ++ [] := rfl

theorem text_train_aug (s : Nat) (a : Nat × Nat × Nat) : (Images.train s (some a)).text =
    "decode_jpeg_and_inception_crop(".toList ++ Nat.toDigits 10 s ++ ")|flip_lr".toList ++ ("|".toList ++ randaugText a) := rfl

theorem text_trainSmall (s : Nat) : (Images.trainSmall s).text =
    "decode|inception_crop(".toList ++ Nat.toDigits 10 s ++ ")|flip_lr".toList := rfl

theorem text_resize (s : Nat) : (Images.resize s).text = "decode|resize(".toList ++ Nat.toDigits 10 s ++ ")".toList := rfl

theorem text_smallCrop (hi lo : Nat) : (Images.smallCrop hi lo).text =
    "decode|resize_small(".toList ++ Nat.toDigits 10 hi ++ ")|central_crop(".toList ++ Nat.toDigits 10 lo ++ ")".toList := rfl

theorem text_resizeCrop (r t : Nat) : (Images.resizeCrop r t).text =
    "decode|resize(".toList ++ Nat.toDigits 10 r ++ ")|central_crop(".toList ++ Nat.toDigits 10 t ++ ")".toList := rfl

theorem images_makes (w : World B) (f : Nat → Nat → Image → Except PyErr Image) (i : Images)
    (h : i.augments = true → w.randaug = some f) :
    ∃ a, a ≠ [] ∧ i.text = joinBar a ∧ MakesAll w a (imagesOps w f i) := by
  cases i with
  | train s r =>
    cases r with
    | none =>
      refine ⟨_, List.cons_ne_nil _ _, ?_, .cons (makes_jpeg w s) (.cons (makes_flip w) .nil)⟩
      rw [text_train]
      simp [joinBar]
    | some a =>
      have hr := makes_randaug w a
      rw [h rfl] at hr
      refine ⟨_, List.cons_ne_nil _ _, ?_, .cons (makes_jpeg w s) (.cons (makes_flip w) (.cons hr .nil))⟩
      rw [text_train_aug]
      simp [joinBar]
  | trainSmall s =>
    refine ⟨_, List.cons_ne_nil _ _, ?_, .cons (makes_decode w) (.cons (makes_inception w s) (.cons (makes_flip w) .nil))⟩
    rw [text_trainSmall]
    simp [joinBar]
  | resize s =>
    refine ⟨_, List.cons_ne_nil _ _, ?_, .cons (makes_decode w) (.cons (makes_resize w s) .nil)⟩
    rw [text_resize]
    simp [joinBar]
  | smallCrop hi lo =>
    refine ⟨_, List.cons_ne_nil _ _, ?_, .cons (makes_decode w) (.cons (makes_small w hi) (.cons (makes_central w lo) .nil))⟩
    rw [text_smallCrop]
    simp [joinBar]
  | resizeCrop r t =>
    refine ⟨_, List.cons_ne_nil _ _, ?_, .cons (makes_decode w) (.cons (makes_resize w r) (.cons (makes_central w t) .nil))⟩
    rw [text_resizeCrop]
    simp [joinBar]

theorem text_common (key : Str) (n : Nat) : commonText key n = "value_range(-1,1)|onehot(".toList ++ Nat.toDigits 10 n ++
    ", inkey=\"".toList ++ key ++ "\", outkey=\"labels\")|keep(\"image\", \"labels\")".toList := rfl

theorem common_makes (w : World B) (n : Nat) (key : String)
    (hk : '"' ∉ key.toList ∧ '\\' ∉ key.toList ∧ '\n' ∉ key.toList ∧ '|' ∉ key.toList) :
    ∃ a, a ≠ [] ∧ commonText key.toList n = joinBar a ∧ MakesAll w a
      [ikok (onImage fun i => .ok (valueRangeOp (-1) 1 0 255 false i)) none "image" "image",
       ikok (onehotOp n 1 0) none key "labels", PpOps.keep ["image", "labels"]] := by
  refine ⟨_, List.cons_ne_nil _ _, ?_, .cons (makes_range w 0) (.cons (makes_onehot_key w n key hk)
    (.cons (makes_keep w "image" "labels" (by decide) (by decide)) .nil))⟩
  rw [text_common]
  simp [joinBar]

theorem text_masked (n : Nat) : Labels.maskedRealLabel.text n =
    "ignore_no_labels(labels_key=\"real_label\")|".toList ++ commonText "real_label".toList n := rfl

theorem text_labels (n : Nat) : Labels.labels.text n =
    "value_range(-1,1)|onehot(".toList ++ Nat.toDigits 10 n ++ ")|keep(\"image\", \"labels\")".toList := rfl

theorem labels_makes (w : World B) (n : Nat) (l : Labels) :
    ∃ a, a ≠ [] ∧ l.text n = joinBar a ∧ MakesAll w a (labelsOps B n l) := by
  cases l with
  | label => exact common_makes w n "label" (by decide)
  | realLabel => exact common_makes w n "real_label" (by decide)
  | maskedRealLabel =>
    obtain ⟨a, h1, h2, h3⟩ := common_makes w n "real_label" (by decide)
    refine ⟨_ :: a, List.cons_ne_nil _ _, ?_, .cons (makes_ignore w) h3⟩
    rw [joinBar_cons _ _ h1, ← h2, text_masked]
    generalize commonText "real_label".toList n = c
    simp
  | labels =>
    refine ⟨_, List.cons_ne_nil _ _, ?_, .cons (makes_range w 0) (.cons (makes_onehot w n)
      (.cons (makes_keep w "image" "labels" (by decide) (by decide)) .nil))⟩
    rw [text_labels]
    simp [joinBar]

/-- The strings of the configurations are accepted, and build the operations that they name, in order, with the sizes and the
number of classes written in them.  The strings with RandAugment are accepted only if it is installed. -/
theorem C140_builds (w : World B) (i : Images) (l : Labels) (n : Nat) :
    (∀ f, (i.augments = true → w.randaug = some f) →
      getDataProcessFn w (processText i l n) = .ok (composeFns (imagesOps w f i ++ labelsOps B n l))) ∧
    (i.augments = true → w.randaug = none → ∀ fn, getDataProcessFn w (processText i l n) ≠ .ok fn) := by
  constructor
  · intro f hf
    obtain ⟨a, a1, a2, a3⟩ := images_makes w f i hf
    obtain ⟨b, b1, b2, b3⟩ := labels_makes w n l
    have : processText i l n = joinBar (a ++ b) := by
      rw [joinBar_append a b a1 b1, ← a2, ← b2]
      rfl
    rw [this]
    exact getDataProcessFn_of w _ _ (by simp [a1]) (a3.append b3)
  · intro hi hw
    cases i with
    | train s r =>
      cases r with
      | none => cases hi
      | some a =>
        obtain ⟨b, b1, b2, b3⟩ := labels_makes w n l
        have hr := makes_randaug w a
        rw [hw] at hr
        have ht : processText (.train s (some a)) l n = joinBar (["decode_jpeg_and_inception_crop".toList ++
            '(' :: (Nat.toDigits 10 s ++ [')']), "flip_lr".toList, randaugText a] ++ b) := by
          rw [joinBar_append _ b (by simp) b1, ← b2]
          unfold processText
          rw [text_train_aug]
          generalize l.text n = c
          simp [joinBar]
        rw [ht]
        refine C37_rejects _ _ (by simp) ?_ (randaugText a) (by simp) _ hr.2
        intro p hp
        simp only [List.cons_append, List.nil_append, List.mem_cons] at hp
        rcases hp with rfl | rfl | rfl | hp
        · exact noBar_nat _ _ (by decide)
        · decide
        · exact hr.1
        · exact b3.mapM.1 p hp
    | _ => cases hi

/-! ### The examples that come out -/

/-- Spec: what the other packages do: interpolations stay in the range of the image, boxes are inside of it, floats are rounded as
32-bit floats, and RandAugment gives 8-bit colour images of the same size. -/
structure WorldOk (w : World B) : Prop where
  bilinear : Interpolates (w.interpolation "bilinear")
  area : Interpolates w.area
  sample : SamplerOk w.sample
  float32 : Float32 w.fl
  randaug : ∀ f, w.randaug = some f → ∀ l m img, Decoded img → ∃ r, f l m img = .ok r ∧ Decoded r ∧ r.h = img.h ∧ r.w = img.w

/-- Spec: the size of the image that comes out. -/
def Images.size : Images → Nat
  | .train s _ | .trainSmall s | .resize s => s
  | .smallCrop _ lo => lo
  | .resizeCrop _ t => t

/-- Spec: the sizes are positive, and crops are not larger than the images that they are cut from. -/
def Images.Ok : Images → Prop
  | .train s _ | .trainSmall s | .resize s => 0 < s
  | .smallCrop hi lo => 0 < lo ∧ lo ≤ hi ∧ hi < 2 ^ 22
  | .resizeCrop r t => 0 < t ∧ t ≤ r

/-- An image with values from 0 to 255. -/
def Fits (img : Image) (s : Nat) : Prop :=
  img.h = s ∧ img.w = s ∧ img.c = 3 ∧
    ∀ y x k, y < img.h → x < img.w → k < img.c → 0 ≤ img.px y x k ∧ img.px y x k ≤ 255

theorem Fits.of {img : Image} {s : Nat} (h : Decoded img) (h1 : img.h = s) (h2 : img.w = s) : Fits img s := ⟨h1, h2, h.c, h.range⟩

theorem applyAll_append {V : Type} (a b : List (Op V)) (d d' : PyDict String V) (h : applyAll a d = .ok d') :
    applyAll (a ++ b) d = applyAll b d' := by
  induction a generalizing d with
  | nil =>
    injection h with h
    subst h
    rfl
  | cons f a ih =>
    rw [applyAll] at h
    obtain ⟨m, h1, h⟩ := ebind h
    rw [List.cons_append, applyAll_cons_ok _ _ d m h1]
    exact ih m h

/-- Steps that change the image only. -/
inductive Steps : List (Op (Value B)) → Value B → Value B → Prop
  | nil (v) : Steps [] v v
  | cons {f fs x y z} : f x = .ok y → Steps fs y z → Steps (ikok f none "image" "image" :: fs) x z

theorem Steps.apply {ops : List (Op (Value B))} {x z : Value B} (h : Steps ops x z) : ∀ d : PyDict String (Value B),
    PyDict.get? d "image" = some x → ∃ d', applyAll ops d = .ok d' ∧ PyDict.get? d' "image" = some z ∧
      ∀ k, k ≠ "image" → PyDict.get? d' k = PyDict.get? d k := by
  induction h with
  | nil v => exact fun d hd => ⟨d, rfl, hd, fun _ _ => rfl⟩
  | cons hf _ ih =>
    intro d hd
    obtain ⟨d', h1, h2, h3⟩ := ih (PyDict.set d "image" _) (by rw [PyDict.get?_set, if_pos rfl])
    refine ⟨d', ?_, h2, ?_⟩
    · rw [applyAll_cons_ok _ _ d _ (ikok_ok _ "image" "image" d _ _ hd hf)]
      exact h1
    · intro k hk
      rw [h3 k hk, PyDict.get?_set, if_neg (Ne.symm hk)]

theorem Steps.append {a b : List (Op (Value B))} {x y z : Value B} (h1 : Steps a x y) (h2 : Steps b y z) :
    Steps (a ++ b) x z := by
  induction h1 with
  | nil v => exact h2
  | cons h _ ih => exact .cons h (ih h2)

theorem onImage_ok {f : Image → Except PyErr Image} {i r : Image} (h : f i = .ok r) :
    onImage (B := B) f (.image i) = .ok (.image r) := by
  simp only [onImage, h]
  rfl

theorem onBytes_ok {f : B → Except PyErr Image} {b : B} {r : Image} (h : f b = .ok r) :
    onBytes f (.bytes b) = .ok (.image r) := by
  simp only [onBytes, h]
  rfl

theorem resize_fits (kernel : Kernel) (hk : Interpolates kernel) (s : Nat) (hs : 0 < s) (img : Image) (hd : Decoded img) :
    ∃ r, ImageOps.resize kernel (.int s) img = .ok r ∧ Decoded r ∧ r.h = s ∧ r.w = s := by
  obtain ⟨r, r1, r2, r3, r4, r5, r6⟩ := C99_resize kernel (.int s) s s img (.inr ⟨rfl, rfl⟩) hs hs hd.h hd.w
  refine ⟨r, r1, ⟨r5.trans hd.int8, by omega, by omega, r4.trans hd.c, ?_⟩, r2, r3⟩
  intro y x k hy hx hkk
  have hb := hk img s s 0 255 hd.h hd.w hd.range y x k (by omega) (by omega) (by rw [← r4]; exact hkk)
  obtain ⟨⟨n, hn⟩, q2, q3⟩ := (r6 y x k).2 hd.int8 hb.1
  refine ⟨?_, le_trans q2 hb.2⟩
  rw [hn] at q3 ⊢
  have : (0 : ℚ) < n + 1 := lt_of_le_of_lt hb.1 q3
  have : (0 : Int) < n + 1 := by exact_mod_cast this
  have : (0 : Int) ≤ n := by omega
  exact_mod_cast this

theorem crop_fits (s : Nat) (hs : 0 < s) (img : Image) (hh : s ≤ img.h) (hw : s ≤ img.w) (hc : img.c = 3)
    (hr : ∀ y x k, y < img.h → x < img.w → k < img.c → 0 ≤ img.px y x k ∧ img.px y x k ≤ 255) :
    ∃ r, centralCropOp (.int s) img = .ok r ∧ Fits r s := by
  obtain ⟨⟨y, x, ch, cw⟩, hcrop⟩ := (C38_crop_iff s s img.h img.w).2 (by omega)
  obtain ⟨e1, e2, e3, e4, e5, e6, _⟩ := C38_crop s s img.h img.w y x ch cw hcrop
  obtain ⟨p, p1, p2, p3, p4⟩ := crop_ok ⟨y.toNat, x.toNat, ch.toNat, cw.toNat⟩ img (by simp only; omega) (by simp only; omega)
  refine ⟨p, ?_, ?_, ?_, p4.2.2.1.trans hc, ?_⟩
  · unfold centralCropOp
    change (centralCrop s s img.h img.w >>= _ : Except PyErr _) = _
    rw [hcrop]
    exact p1
  · rw [p2]; simp only; omega
  · rw [p3]; simp only; omega
  · intro y' x' k hy hx hk
    rw [p4.2.2.2.2]
    have f1 := p4.1
    have f2 := p4.2.1
    rw [p4.2.2.1] at hk
    exact hr _ _ _ (by omega) (by omega) hk

theorem small_fits (fl : ℚ → ℚ) (hfl : Float32 fl) (area : Kernel) (hk : Interpolates area) (r : Nat) (hr : r < 2 ^ 22)
    (hpos : 0 < r) (img : Image) (hd : Decoded img) :
    ∃ q, resizeSmallOp fl area r img = .ok q ∧ r ≤ q.h ∧ r ≤ q.w ∧ q.c = 3 ∧
      ∀ y x k, y < q.h → x < q.w → k < q.c → 0 ≤ q.px y x k ∧ q.px y x k ≤ 255 := by
  have hm := (C38_resize_small fl hfl r img.h img.w hr hd.h hd.w).1
  obtain ⟨hz, hzdef⟩ : ∃ hz, hz = resizeSmall fl r img.h img.w := ⟨_, rfl⟩
  rw [← hzdef] at hm
  have h1 : (r : Int) ≤ hz.1 := hm ▸ min_le_left _ _
  have h2 : (r : Int) ≤ hz.2 := hm ▸ min_le_right _ _
  refine ⟨⟨false, hz.1.toNat, hz.2.toNat, img.c, area img hz.1.toNat hz.2.toNat⟩, ?_, ?_, ?_, hd.c, ?_⟩
  · unfold resizeSmallOp tfResize
    simp only [← hzdef]
    rw [if_pos ⟨by omega, by omega, hd.h, hd.w⟩]
  · simp only; omega
  · simp only; omega
  · intro y x k hy hx hkk
    exact hk img _ _ 0 255 hd.h hd.w hd.range y x k hy hx hkk

theorem images_steps (w : World B) (hw : WorldOk w) (f : Nat → Nat → Image → Except PyErr Image) (i : Images)
    (hf : i.augments = true → w.randaug = some f) (hi : i.Ok) (b : B) (whole : Image) (hb : w.decode 3 b = .ok whole)
    (hd : Decoded whole) : ∃ img, Steps (imagesOps w f i) (.bytes b) (.image img) ∧ Fits img i.size := by
  cases i with
  | train s r =>
    obtain ⟨c, c1, c2, c3, c4⟩ := inceptionCrop_ok _ hw.bilinear w.sample hw.sample s hi 5 100 whole hd
    have hfl := flipLr_range w.coin c c2
    have hsz : (flipLr w.coin c).h = s ∧ (flipLr w.coin c).w = s := by
      unfold flipLr
      cases w.coin <;> exact ⟨c3, c4⟩
    have base : Steps [ikok (onBytes (decodeJpegAndInceptionCrop (w.decode 3) (w.interpolation "bilinear") w.sample (.int s) 5
        100)) none "image" "image", ikok (onImage fun i => .ok (flipLr w.coin i)) none "image" "image"] (.bytes b)
        (.image (flipLr w.coin c)) :=
      .cons (onBytes_ok ((decodeJpeg_eq _ _ _ _ _ _ b whole hb).trans c1)) (.cons (onImage_ok rfl) (.nil _))
    cases r with
    | none => exact ⟨_, base, .of hfl hsz.1 hsz.2⟩
    | some a =>
      obtain ⟨r, r1, r2, r3, r4⟩ := hw.randaug f (hf rfl) a.2.1 a.2.2 _ hfl
      exact ⟨r, base.append (.cons (onImage_ok r1) (.nil _)), .of r2 (r3.trans hsz.1) (r4.trans hsz.2)⟩
  | trainSmall s =>
    obtain ⟨c, c1, c2, c3, c4⟩ := inceptionCrop_ok _ hw.bilinear w.sample hw.sample s hi 5 100 whole hd
    have hfl := flipLr_range w.coin c c2
    have hsz : (flipLr w.coin c).h = s ∧ (flipLr w.coin c).w = s := by
      unfold flipLr
      cases w.coin <;> exact ⟨c3, c4⟩
    exact ⟨_, .cons (onBytes_ok hb) (.cons (onImage_ok c1) (.cons (onImage_ok rfl) (.nil _))), .of hfl hsz.1 hsz.2⟩
  | resize s =>
    obtain ⟨r, r1, r2, r3, r4⟩ := resize_fits _ hw.bilinear s hi whole hd
    exact ⟨r, .cons (onBytes_ok hb) (.cons (onImage_ok r1) (.nil _)), .of r2 r3 r4⟩
  | smallCrop hi' lo =>
    obtain ⟨q, q1, q2, q3, q4, q5⟩ := small_fits w.fl hw.float32 w.area hw.area hi' hi.2.2
      (Nat.lt_of_lt_of_le hi.1 hi.2.1) whole hd
    obtain ⟨r, r1, r2⟩ := crop_fits lo hi.1 q (le_trans hi.2.1 q2) (le_trans hi.2.1 q3) q4 q5
    exact ⟨r, .cons (onBytes_ok hb) (.cons (onImage_ok q1) (.cons (onImage_ok r1) (.nil _))), r2⟩
  | resizeCrop r t =>
    obtain ⟨q, q1, q2, q3, q4⟩ := resize_fits _ hw.bilinear r (Nat.lt_of_lt_of_le hi.1 hi.2) whole hd
    obtain ⟨p, p1, p2⟩ := crop_fits t hi.1 q (q3 ▸ hi.2) (q4 ▸ hi.2) q2.c q2.range
    exact ⟨p, .cons (onBytes_ok hb) (.cons (onImage_ok q1) (.cons (onImage_ok p1) (.nil _))), p2⟩

/-- Spec: a value that holds these labels: one label, or several, which are classes. -/
def Holds (v : Value B) (n : Nat) (ls : List Int) : Prop :=
  (∃ l, v = .label l ∧ ls = [l]) ∨ (v = .labels ls ∧ ∀ l ∈ ls, 0 ≤ l ∧ l < n)

/-- Spec: an example that is ready for the model: a float image of the given size with values from -1 to 1, the vector with ones at
the labels and zeros elsewhere, perhaps a mask, and nothing else. -/
structure Processed (out : PyDict String (Value B)) (s n : Nat) (ls : List Int) : Prop where
  image : ∃ img, PyDict.get? out "image" = some (.image img) ∧ Ready img s s (-1) 1
  labels : ∃ v, PyDict.get? out "labels" = some (.vec v) ∧ v.length = n ∧
    ∀ c, (hc : c < v.length) → v[c] = if (c : Int) ∈ ls then 1 else 0
  only : ∀ k, k ≠ "image" → k ≠ "labels" → k ≠ validKey → PyDict.get? out k = none

/-- Spec: the mask: unchanged, except with `ignore_no_labels`, where it is true exactly if it was true before (or there was none)
and there are labels. -/
def Masked (l : Labels) (before after : Option (Value B)) (ls : List Int) : Prop :=
  match l with
  | .maskedRealLabel => ∃ x : ℚ, after = some (.vec [x]) ∧ (x = 0 ∨ x = 1) ∧ (x = 1 ↔ before ≠ some (.vec [0]) ∧ ls ≠ [])
  | _ => after = before

theorem onehot_holds (v : Value B) (n : Nat) (ls : List Int) (h : Holds v n ls) :
    ∃ x, onehotOp n 1 0 v = .ok (.vec x) ∧ x.length = n ∧ ∀ c, (hc : c < x.length) → x[c] = if (c : Int) ∈ ls then 1 else 0 := by
  rcases h with ⟨l, rfl, rfl⟩ | ⟨rfl, hl⟩
  · exact ⟨oneHot n 1 0 l, rfl, by simp [oneHot], fun c hc => by simp [oneHot]⟩
  · have hall : ls.all (fun l => 0 ≤ l ∧ l < n) = true := by
      rw [List.all_eq_true]
      intro l h
      simpa using hl l h
    have hex : ∃ x, multiHot n 1 0 ls = .ok x := by
      unfold multiHot scatterCounts
      rw [if_pos hall]
      exact ⟨_, rfl⟩
    obtain ⟨x, hx⟩ := hex
    obtain ⟨_, h2, h3⟩ := C65_multi_hot n 1 0 ls x hx
    refine ⟨x, ?_, h2, ?_⟩
    · simp only [onehotOp, hx]
      rfl
    · intro c hc
      have := h3 c (h2 ▸ hc)
      rw [List.getElem?_eq_getElem hc] at this
      exact Option.some.inj this

theorem common_apply (d : PyDict String (Value B)) (n s : Nat) (key : String) (hkey : key ≠ "image") (img : Image)
    (himg : PyDict.get? d "image" = some (.image img)) (hf : Fits img s) (v : Value B) (ls : List Int)
    (hv : PyDict.get? d key = some v) (hl : Holds v n ls) :
    ∃ out, applyAll [ikok (onImage fun i => .ok (valueRangeOp (-1) 1 0 255 false i)) none "image" "image",
       ikok (onehotOp n 1 0) none key "labels", PpOps.keep ["image", "labels"]] d = .ok out ∧
      Processed out s n ls ∧ PyDict.get? out validKey = PyDict.get? d validKey := by
  obtain ⟨x, x1, x2, x3⟩ := onehot_holds v n ls hl
  rw [applyAll_cons_ok _ _ d _ (ikok_ok _ "image" "image" d _ (.image (valueRangeOp (-1) 1 0 255 false img)) himg rfl)]
  rw [applyAll_cons_ok _ _ _ _ (ikok_ok _ key "labels" _ v (.vec x) (by rw [PyDict.get?_set, if_neg (Ne.symm hkey), hv]) x1)]
  obtain ⟨out, h1, h2⟩ := C37_keep ["image", "labels"]
    (PyDict.set (PyDict.set d "image" (Value.image (valueRangeOp (-1) 1 0 255 false img))) "labels" (.vec x))
  refine ⟨out, ?_, ⟨⟨valueRangeOp (-1) 1 0 255 false img, ?_, ?_⟩, ⟨x, ?_, x2, x3⟩, ?_⟩, ?_⟩
  · rw [applyAll_cons_ok _ _ _ _ h1]
    rfl
  · rw [h2, if_pos (by simp), PyDict.get?_set, if_neg (by decide), PyDict.get?_set, if_pos rfl]
  · have := valueRangeOp_ready img hf.2.2.2 hf.2.2.1 (-1) 1 (by norm_num)
    rwa [hf.1, hf.2.1] at this
  · rw [h2, if_pos (by simp), PyDict.get?_set, if_pos rfl]
  · intro k k1 k2 k3
    rw [h2, if_neg (by simp [k1, k2, k3])]
  · rw [h2, if_pos (by simp), PyDict.get?_set, if_neg (by decide), PyDict.get?_set, if_neg (by decide)]

theorem holds_size (v : Value B) (n : Nat) (ls : List Int) (h : Holds v n ls) : valueSize v = ls.length := by
  rcases h with ⟨l, rfl, rfl⟩ | ⟨rfl, _⟩ <;> rfl

/-- For every encoded image that can be decoded and every example with its label or labels under the key of the string, the
strings of the configurations do not raise, and give an example that is ready for the model: an image of the size in the string
with values from -1 to 1, the labels as a vector with as many entries as there are classes, and the mask. -/
theorem C140_examples (w : World B) (hw : WorldOk w) (i : Images) (l : Labels) (n : Nat) (hi : i.Ok)
    (ha : i.augments = true → w.randaug ≠ none) :
    ∃ fn, getDataProcessFn w (processText i l n) = .ok fn ∧ fn .other = .error .typeError ∧
      ∀ (d : PyDict String (Value B)) (b : B) (whole : Image) (v : Value B) (ls : List Int),
        PyDict.get? d "image" = some (.bytes b) → w.decode 3 b = .ok whole → Decoded whole →
        PyDict.get? d l.key = some v → Holds v n ls →
        ∃ out, fn (.dict d) = .ok out ∧ Processed out i.size n ls ∧
          Masked l (PyDict.get? d validKey) (PyDict.get? out validKey) ls := by
  obtain ⟨f, hf⟩ : ∃ f, i.augments = true → w.randaug = some f := by
    cases h : w.randaug with
    | none => exact ⟨fun _ _ _ => .error .valueError, fun hi => absurd h (ha hi)⟩
    | some f => exact ⟨f, fun _ => rfl⟩
  refine ⟨_, (C140_builds w i l n).1 f hf, rfl, ?_⟩
  intro d b whole v ls hb hdec hd hv hl
  obtain ⟨img, s1, s2⟩ := images_steps w hw f i hf hi b whole hdec hd
  obtain ⟨m, m1, m2, m3⟩ := s1.apply d hb
  have hkey : l.key ≠ "image" := by cases l <;> decide
  have hmv : PyDict.get? m l.key = some v := by rw [m3 _ hkey, hv]
  change ∃ out, applyAll (imagesOps w f i ++ labelsOps B n l) d = .ok out ∧ _
  rw [applyAll_append _ _ d m m1]
  have hvalid : PyDict.get? m validKey = PyDict.get? d validKey := m3 _ (by decide)
  cases l with
  | maskedRealLabel =>
    obtain ⟨u, hu⟩ : ∃ u, u = (truth (B := B) (match PyDict.get? m validKey with
      | some v => v
      | none => .other) && decide (0 < valueSize v)) := ⟨_, rfl⟩
    have e1 : ignoreNoLabels truth valueSize ofBool "real_label" validKey m = .ok (PyDict.set m validKey (ofBool u)) := by
      rw [hu]
      unfold ignoreNoLabels lookup
      rw [show PyDict.get? m "real_label" = some v from hmv]
      cases PyDict.get? m validKey <;> rfl
    obtain ⟨out, o1, o2, o3⟩ := common_apply (PyDict.set m validKey (ofBool u)) n i.size "real_label" (by decide) img
      (by rw [PyDict.get?_set, if_neg (by decide), m2]) s2 v ls (by rw [PyDict.get?_set, if_neg (by decide)]; exact hmv) hl
    refine ⟨out, ?_, o2, ?_⟩
    · change applyAll (ignoreNoLabels truth valueSize ofBool "real_label" validKey :: _) m = _
      rw [applyAll_cons_ok _ _ m _ e1]
      exact o1
    · rw [PyDict.get?_set, if_pos rfl] at o3
      refine ⟨if u then 1 else 0, o3, by cases u <;> simp, ?_⟩
      rw [hvalid, holds_size v n ls hl] at hu
      have h1 : ((if u then 1 else 0 : ℚ) = 1) ↔ u = true := by cases u <;> simp
      rw [h1, hu]
      cases ls with
      | nil => simp
      | cons a ls =>
        cases PyDict.get? d validKey with
        | none => simp [truth]
        | some x =>
          cases x <;> simp [truth]
  | _ =>
    obtain ⟨out, o1, o2, o3⟩ := common_apply m n i.size _ hkey img m2 s2 v ls hmv hl
    rw [hvalid] at o3
    exact ⟨out, o1, o2, o3⟩

/-- An example without its label under the key of the string raises `KeyError`: `label` and `labels` are different keys. -/
theorem C140_missing_label (w : World B) (hw : WorldOk w) (i : Images) (l : Labels) (n : Nat) (hi : i.Ok)
    (ha : i.augments = true → w.randaug ≠ none) :
    ∃ fn, getDataProcessFn w (processText i l n) = .ok fn ∧
      ∀ (d : PyDict String (Value B)) (b : B) (whole : Image),
        PyDict.get? d "image" = some (.bytes b) → w.decode 3 b = .ok whole → Decoded whole →
        PyDict.get? d l.key = none → fn (.dict d) = .error .keyError := by
  obtain ⟨f, hf⟩ : ∃ f, i.augments = true → w.randaug = some f := by
    cases h : w.randaug with
    | none => exact ⟨fun _ _ _ => .error .valueError, fun hi => absurd h (ha hi)⟩
    | some f => exact ⟨f, fun _ => rfl⟩
  refine ⟨_, (C140_builds w i l n).1 f hf, ?_⟩
  intro d b whole hb hdec hd hv
  obtain ⟨img, s1, s2⟩ := images_steps w hw f i hf hi b whole hdec hd
  obtain ⟨m, m1, m2, m3⟩ := s1.apply d hb
  have hkey : l.key ≠ "image" := by cases l <;> decide
  have hmv : PyDict.get? m l.key = none := by rw [m3 _ hkey, hv]
  change applyAll (imagesOps w f i ++ labelsOps B n l) d = _
  rw [applyAll_append _ _ d m m1]
  have hc : ∀ ops, applyAll (ikok (onImage fun i => .ok (valueRangeOp (-1) 1 0 255 false i)) none "image" "image" ::
      ikok (onehotOp n 1 0) none l.key "labels" :: ops) m = .error .keyError := by
    intro ops
    rw [applyAll_cons_ok _ _ m _ (ikok_ok _ "image" "image" m _ (.image (valueRangeOp (-1) 1 0 255 false img)) m2 rfl)]
    rw [applyAll]
    unfold ikok lookup keyOr
    simp only
    rw [PyDict.get?_set, if_neg (Ne.symm hkey), hmv]
    rfl
  cases l with
  | maskedRealLabel =>
    change (ignoreNoLabels truth valueSize ofBool "real_label" validKey m >>= _ : Except PyErr _) = _
    unfold ignoreNoLabels lookup
    rw [show PyDict.get? m "real_label" = none from hmv]
    rfl
  | _ => exact hc _

/-- The few-shot evaluation keeps the image, cut to the target size with values from -1 to 1, the label as it is, and the mask. -/
theorem C140_fewshot (w : World B) (hw : WorldOk w) (r t : Nat) (ht : 0 < t) (hr : t ≤ r) :
    ∃ fn, getDataProcessFn w (fewshotText r t) = .ok fn ∧ fn .other = .error .typeError ∧
      ∀ (d : PyDict String (Value B)) (b : B) (whole : Image),
        PyDict.get? d "image" = some (.bytes b) → w.decode 3 b = .ok whole → Decoded whole →
        ∃ out, fn (.dict d) = .ok out ∧ (∃ img, PyDict.get? out "image" = some (.image img) ∧ Ready img t t (-1) 1) ∧
          PyDict.get? out "label" = PyDict.get? d "label" ∧ PyDict.get? out validKey = PyDict.get? d validKey ∧
          ∀ k, k ≠ "image" → k ≠ "label" → k ≠ validKey → PyDict.get? out k = none := by
  obtain ⟨a, a1, a2, a3⟩ := images_makes w (fun _ _ _ => .error .valueError) (.resizeCrop r t) (by intro h; cases h)
  have b3 : MakesAll w _ _ := .cons (makes_range w 1) (.cons (makes_keep w "image" "label" (by decide) (by decide)) .nil)
  have hx : fewshotText r t = (Images.resizeCrop r t).text ++ "|value_range(-1, 1)|keep(\"image\", \"label\")".toList := rfl
  rw [hx, a2]
  have hy := getDataProcessFn_of w _ _ (by simp [a1]) (a3.append b3)
  rw [joinBar_append _ _ a1 (List.cons_ne_nil _ _)] at hy
  refine ⟨_, Eq.trans ?_ hy, rfl, ?_⟩
  · congr 1
  intro d b whole hb hdec hd
  obtain ⟨img, s1, s2⟩ := images_steps w hw (fun _ _ _ => .error .valueError) (.resizeCrop r t) (by intro h; cases h) ⟨ht, hr⟩ b
    whole hdec hd
  obtain ⟨m, m1, m2, m3⟩ := s1.apply d hb
  obtain ⟨out, h1, h2⟩ := C37_keep ["image", "label"]
    (PyDict.set m "image" (Value.image (valueRangeOp (-1) 1 0 255 false img)))
  refine ⟨out, ?_, ⟨valueRangeOp (-1) 1 0 255 false img, ?_, ?_⟩, ?_, ?_, ?_⟩
  · change applyAll (_ ++ _) d = _
    rw [applyAll_append _ _ d m m1]
    rw [applyAll_cons_ok _ _ m _ (ikok_ok _ "image" "image" m _ (.image (valueRangeOp (-1) 1 0 255 false img)) m2 rfl)]
    rw [applyAll_cons_ok _ _ _ _ h1]
    rfl
  · rw [h2, if_pos (by simp), PyDict.get?_set, if_pos rfl]
  · have := valueRangeOp_ready img s2.2.2.2 s2.2.2.1 (-1) 1 (by norm_num)
    rwa [s2.1, s2.2.1] at this
  · rw [h2, if_pos (by simp), PyDict.get?_set, if_neg (by decide), m3 _ (by decide)]
  · rw [h2, if_pos (by simp), PyDict.get?_set, if_neg (by decide), m3 _ (by decide)]
  · intro k k1 k2 k3
    rw [h2, if_neg (by simp [k1, k2, k3])]

/-- Images of ImageNet-ReaL without any label: the strings of the V-MoE configurations give them a label vector of zeros and leave
them valid, so every prediction for them counts as an error.  The string of the Soft MoE configuration masks them. -/
theorem C140_unlabelled_counterexample (w : World B) (hw : WorldOk w) (i : Images) (n : Nat) (hi : i.Ok)
    (ha : i.augments = true → w.randaug ≠ none) (d : PyDict String (Value B)) (b : B) (whole : Image)
    (hb : PyDict.get? d "image" = some (.bytes b)) (hdec : w.decode 3 b = .ok whole) (hd : Decoded whole)
    (hl : PyDict.get? d "real_label" = some (.labels [])) (hm : PyDict.get? d validKey = none) :
    (∃ fn out, getDataProcessFn w (processText i .realLabel n) = .ok fn ∧ fn (.dict d) = .ok out ∧
      PyDict.get? out "labels" = some (.vec (List.replicate n 0)) ∧ PyDict.get? out validKey = none) ∧
    (∃ fn out, getDataProcessFn w (processText i .maskedRealLabel n) = .ok fn ∧ fn (.dict d) = .ok out ∧
      PyDict.get? out validKey = some (.vec [0])) := by
  constructor
  · obtain ⟨fn, f1, _, f2⟩ := C140_examples w hw i .realLabel n hi ha
    obtain ⟨out, o1, o2, o3⟩ := f2 d b whole (.labels []) [] hb hdec hd hl (.inr ⟨rfl, by simp⟩)
    obtain ⟨v, v1, v2, v3⟩ := o2.labels
    refine ⟨fn, out, f1, o1, ?_, by rw [← hm]; exact o3⟩
    rw [v1]
    congr 2
    apply List.eq_replicate_iff.2 ⟨v2, ?_⟩
    intro x hx
    obtain ⟨c, hc, rfl⟩ := List.getElem_of_mem hx
    rw [v3 c hc]
    simp
  · obtain ⟨fn, f1, _, f2⟩ := C140_examples w hw i .maskedRealLabel n hi ha
    obtain ⟨out, o1, o2, x, o3, o4, o5⟩ := f2 d b whole (.labels []) [] hb hdec hd hl (.inr ⟨rfl, by simp⟩)
    refine ⟨fn, out, f1, o1, ?_⟩
    rw [o3]
    rcases o4 with rfl | rfl
    · rfl
    · exact absurd rfl (o5.1 rfl).2

/-! ### Examples -/

/-- An encoded image is its width; RandAugment changes nothing. -/
def exWorld : World Nat where
  decode := fun _ => exDecode
  interpolation := fun _ => exNearest
  area := exNearest
  sample := exSample
  coin := true
  fl := id
  randaug := some fun _ _ img => .ok img

theorem exWorld_ok : WorldOk exWorld where
  bilinear := exNearest_ok
  area := exNearest_ok
  sample := exSample_ok
  float32 := ⟨fun _ _ h => h, fun x => by simp [exWorld]; positivity, fun _ _ => rfl⟩
  randaug := by
    intro f h l m img hd
    injection h with h
    subst h
    exact ⟨img, rfl, hd, rfl, rfl⟩

/-- The strings of the configurations. -/
example : processText (.train 384 none) .label 1000 = ("decode_jpeg_and_inception_crop(384)|flip_lr|value_range(-1,1)|" ++
    "onehot(1000, inkey=\"label\", outkey=\"labels\")|keep(\"image\", \"labels\")").toList := by decide +kernel

example : processText (.train 224 (some (0, 2, 20))) .labels 21843 =
    ("decode_jpeg_and_inception_crop(224)|flip_lr|randaug(2,20)|value_range(-1,1)|onehot(21843)|" ++
      "keep(\"image\", \"labels\")").toList := by decide +kernel

example : processText (.smallCrop 256 224) .maskedRealLabel 1000 =
    ("decode|resize_small(256)|central_crop(224)|ignore_no_labels(labels_key=\"real_label\")|value_range(-1,1)|" ++
      "onehot(1000, inkey=\"real_label\", outkey=\"labels\")|keep(\"image\", \"labels\")").toList := by decide +kernel

example : fewshotText 256 224 =
    "decode|resize(256)|central_crop(224)|value_range(-1, 1)|keep(\"image\", \"label\")".toList := by decide +kernel

/-- The hypotheses hold: an image of 2 times 8 pixels with two labels and an id, and with RandAugment. -/
example : ∃ fn out, getDataProcessFn exWorld (processText (.train 224 (some (0, 2, 20))) .labels 21843) = .ok fn ∧
    fn (.dict [("image", .bytes 7), ("labels", .labels [5, 3]), ("id", .other)]) = .ok out ∧ Processed out 224 21843 [5, 3] := by
  obtain ⟨fn, f1, _, f2⟩ := C140_examples exWorld exWorld_ok (.train 224 (some (0, 2, 20))) .labels 21843
    (show 0 < 224 by decide) (by simp [exWorld])
  obtain ⟨out, o1, o2, _⟩ := f2 [("image", .bytes 7), ("labels", .labels [5, 3]), ("id", .other)] 7 _ (.labels [5, 3]) [5, 3]
    rfl rfl ⟨rfl, by decide, by decide, rfl, fun y x k _ _ _ => ⟨by positivity, min_le_right _ _⟩⟩ rfl
    (.inr ⟨rfl, by simp⟩)
  exact ⟨fn, out, f1, o1, o2⟩

/-- The same string with the label under `label` raises. -/
example : ∃ fn, getDataProcessFn exWorld (processText (.smallCrop 256 224) .labels 29593) = .ok fn ∧
    fn (.dict [("image", .bytes 7), ("label", .label 3)]) = .error .keyError := by
  obtain ⟨fn, f1, f2⟩ := C140_missing_label exWorld exWorld_ok (.smallCrop 256 224) .labels 29593
    (show 0 < 224 ∧ 224 ≤ 256 ∧ 256 < 2 ^ 22 by decide) (by simp [Images.augments])
  exact ⟨fn, f1, f2 _ 7 _ rfl rfl ⟨rfl, by decide, by decide, rfl, fun y x k _ _ _ => ⟨by positivity, min_le_right _ _⟩⟩ rfl⟩

/-- An image without labels. -/
example := C140_unlabelled_counterexample exWorld exWorld_ok (.resize 384) 1000 (show 0 < 384 by decide) (by simp [Images.augments])
  [("image", .bytes 7), ("real_label", .labels [])] 7 _ rfl rfl
  ⟨rfl, by decide, by decide, rfl, fun y x k _ _ _ => ⟨by positivity, min_le_right _ _⟩⟩ rfl rfl

/-- Few-shot evaluation. -/
example := C140_fewshot exWorld exWorld_ok 256 224 (by decide) (by decide)

/-- The error, if there is one. -/
def errorOf {α : Type} : Except PyErr α → Option PyErr
  | .error e => some e
  | .ok _ => none

/-- Arguments that do not fit are rejected: a missing size, too many arguments, a name that does not exist, an unknown keyword. -/
example : errorOf (makeOp modules () astParse (build exWorld) "resize".toList) = some .typeError ∧
    errorOf (makeOp modules () astParse (build exWorld) "decode(3, 4)".toList) = some .typeError ∧
    errorOf (makeOp modules () astParse (build exWorld) "resise(3)".toList) = some .attributeError ∧
    errorOf (makeOp modules () astParse (build exWorld) "onehot(10, size=3)".toList) = some .typeError := by
  decide +kernel

end Verif.ProcessText
