import Verif.Proofs.Vit

/-!
Properties C80 and C81: the vision transformer with its position embeddings
(vmoe/nn/vit_moe.py:266-383), and the text transformer
(vmoe/projects/contrastive/models.py:61-108).
-/

namespace Verif.Vit

open Verif

variable {ph pw D c r : Nat} {M : Type*}

/-- C80 (forward pass).  The encoder gets, for every image, the class token (only with the classifier
`token`) followed by one token per complete patch, row by row, and the option `position_emb` as
configured, except that a `sincos2d` embedding gets the size of the grid of patches, whatever the
configuration says about it.  The result is obtained from the output of the encoder: its first token
(`token` and `0`), the average (`gap`), or the attention pooling (`map`), then `pre_logits`, and
then the head, unless the number of classes is missing or zero. -/
theorem C80_forward {H W : Nat} (p : Params ph pw D c r) (hph : 0 < ph) (hpw : 0 < pw)
    (classifier : List Char) (num_classes : Option Nat) (position_emb : Option (Option PosEmb))
    (hpos : position_emb ≠ some none)
    (enc : Option (Option PosEmb) → List (List (Vec c)) → Except PyErr (List (List (Vec c)) × M))
    (inputs : List (Image H W D)) :
    ∃ (seqs : List (List (Vec c))) (pos : Option (Option PosEmb)),
      List.Forall₂ (IsTokens p.kernel p.bias (if classifier = "token".toList then [p.cls] else []))
        inputs seqs ∧
      (∀ d, position_emb = some (some d) → d.name = some "sincos2d".toList →
        pos = some (some { name := d.name, h := some (H / ph), w := some (W / pw),
                           temperature := d.temperature })) ∧
      ((∀ d, position_emb = some (some d) → d.name ≠ some "sincos2d".toList) → pos = position_emb) ∧
      (∀ e, enc pos seqs = .error e →
        visionTransformer p classifier num_classes position_emb enc inputs = .error e) ∧
      (∀ ys m, enc pos seqs = .ok (ys, m) →
        (classifier ∉ ["token".toList, "0".toList, "gap".toList, "map".toList] →
          visionTransformer p classifier num_classes position_emb enc inputs = .error .valueError) ∧
        (∀ pool : List (Vec c) → Vec c,
          (classifier = "token".toList ∨ classifier = "0".toList →
            ∀ y ys, pool (y :: ys) = y) →
          (classifier = "gap".toList → ∀ y, pool y = fun f => (y.map (fun t => t f)).sum / y.length) →
          (classifier = "map".toList → pool = p.mapHead) →
          classifier ∈ ["token".toList, "0".toList, "gap".toList, "map".toList] →
          (∀ y ∈ ys, y ≠ []) →
          (num_classes = none ∨ num_classes = some 0 →
            visionTransformer p classifier num_classes position_emb enc inputs =
              .ok (.features (ys.map fun y => p.preLogits (pool y)), m)) ∧
          (∀ n, num_classes = some n → 0 < n →
            visionTransformer p classifier num_classes position_emb enc inputs =
              .ok (.logits (ys.map fun y => p.head n (p.preLogits (pool y))), m)))) := by
  have hp : ∃ pos, encoderPosEmb position_emb (convSize H ph) (convSize W pw) = .ok pos ∧
      (∀ d, position_emb = some (some d) → d.name = some "sincos2d".toList →
        pos = some (some { name := d.name, h := some (H / ph), w := some (W / pw),
                           temperature := d.temperature })) ∧
      ((∀ d, position_emb = some (some d) → d.name ≠ some "sincos2d".toList) →
        pos = position_emb) := by
    rw [convSize_eq _ _ hph, convSize_eq _ _ hpw]
    match position_emb, hpos with
    | none, _ => exact ⟨none, rfl, by simp, fun _ => rfl⟩
    | some none, h => exact absurd rfl h
    | some (some d), _ =>
      by_cases hd : d.name = some "sincos2d".toList
      · refine ⟨some (some { d with h := some (H / ph), w := some (W / pw) }), ?_, ?_, ?_⟩
        · exact if_pos hd
        · intro d' hd' _
          cases hd'
          rfl
        · intro h
          exact absurd hd (h d rfl)
      · refine ⟨some (some d), if_neg hd, ?_, fun _ => rfl⟩
        intro d' hd' hn
        cases hd'
        exact absurd hn hd
  obtain ⟨pos, hpe, hp1, hp2⟩ := hp
  refine ⟨inputs.map (tokens p classifier), pos, ?_, hp1, hp2, ?_, ?_⟩
  · rw [List.forall₂_map_right_iff]
    exact List.forall₂_same.2 fun img _ => tokens_isTokens p hph hpw classifier img
  · intro e he
    simp only [visionTransformer, hpe, he]
  · intro ys m he
    refine ⟨?_, ?_⟩
    · intro hc
      simp only [List.mem_cons, List.not_mem_nil, or_false, not_or] at hc
      simp only [visionTransformer, hpe, he]
      rw [if_neg (by tauto), if_neg (by tauto), if_neg (by tauto)]
    · intro pool h1 h2 h3 hc hne
      simp only [List.mem_cons, List.not_mem_nil, or_false] at hc
      have hpool : (if classifier = "token".toList ∨ classifier = "0".toList then
            (.ok (ys.map (·.headD 0)) : Except PyErr (List (Vec c)))
          else if classifier = "gap".toList then .ok (ys.map mean)
          else if classifier = "map".toList then .ok (ys.map p.mapHead)
          else .error .valueError) = .ok (ys.map pool) := by
        by_cases ht : classifier = "token".toList ∨ classifier = "0".toList
        · rw [if_pos ht]
          refine congrArg Except.ok (List.map_congr_left fun y hy => ?_)
          cases y with
          | nil => exact absurd rfl (hne _ hy)
          | cons a as => rw [h1 ht]; rfl
        · rw [if_neg ht]
          by_cases hg : classifier = "gap".toList
          · rw [if_pos hg]
            refine congrArg Except.ok (List.map_congr_left fun y _ => ?_)
            rw [h2 hg]
            rfl
          · rw [if_neg hg, if_pos (by tauto), h3 (by tauto)]
      simp only [visionTransformer, hpe, he, hpool]
      refine ⟨?_, ?_⟩
      · rintro (rfl | rfl) <;> simp [finish]
      · rintro n rfl hn
        obtain ⟨k, rfl⟩ := Nat.exists_eq_succ_of_ne_zero (Nat.pos_iff_ne_zero.1 hn)
        simp [finish]

/-- Parameters used in the examples: patches of 2x2 pixels with one channel, 8 features, the token is
the sum of the pixels plus one, in every feature. -/
noncomputable def exParams : Params 2 2 1 8 8 where
  kernel := fun _ _ _ _ => 1
  bias := fun _ => 1
  cls := fun _ => -1
  mapHead := fun y => y.headD 0
  preLogits := id
  head := fun n x => List.replicate n (x 0)

/-- Encoder used in the examples: it adds the position embedding and returns the length of the
sequences. -/
noncomputable def exEnc (pos : Option (Option PosEmb)) (x : List (List (Vec 8))) :
    Except PyErr (List (List (Vec 8)) × Nat) :=
  match x.mapM (addPositionEmb (pos.getD none) []) with
  | .error e => .error e
  | .ok y => .ok (y, (y.headD []).length)

/-- The hypotheses of `C80_forward` hold for images of 3x5 pixels, with a class token: there are 1x2
patches, and the first token is not changed by the position embedding (an encoder without layers). -/
example (img : Image 3 5 1) :
    ∃ m, visionTransformer exParams "token".toList (some 3)
      (some (some { name := some "sincos2d".toList, h := some 7 })) exEnc [img] =
        .ok (.logits [[-1, -1, -1]], m) := by
  obtain ⟨seqs, pos, hs, h1, _, _, h4⟩ := C80_forward (M := Nat) exParams (by decide) (by decide)
    "token".toList (some 3) (some (some { name := some "sincos2d".toList, h := some 7 })) (by simp)
    exEnc [img]
  have hpos := h1 _ rfl rfl
  obtain ⟨s, hb⟩ : ∃ s, seqs = [s] := by
    have := hs.length_eq
    match seqs, this with
    | [s], _ => exact ⟨s, rfl⟩
  subst hb
  have hs := (List.forall₂_cons.1 hs).1
  rw [if_pos rfl] at hs
  obtain ⟨hlen, hfirst, _⟩ := hs
  match s, hlen, hfirst with
  | [a, b, d], _, hfirst =>
    have ha : a = exParams.cls := by simpa using hfirst
    subst ha
    have henc : exEnc pos [[exParams.cls, b, d]] = .ok ([exParams.cls ::
        List.zipWith (· + ·) [b, d] (posembed defaultTemperature 1 2 8)], 3) := by
      rw [hpos]
      simp only [exEnc, Option.getD_some, List.mapM_cons, List.mapM_nil, addPositionEmb]
      rw [if_neg (by decide), if_neg (by decide), if_pos trivial, if_neg (by decide),
        if_neg (by simp), if_pos (by simp)]
      simp [posembed, bind, Except.bind, pure, Except.pure]
    have := ((h4 _ _ henc).2 (fun y => y.headD 0) (by intro _ y ys; rfl)
      (fun h => absurd h (by decide)) (fun h => absurd h (by decide)) (by decide) (by simp)).2 3 rfl (by decide)
    refine ⟨3, this.trans ?_⟩
    simp [exParams, List.replicate]

/-- C80 (pixels outside of the complete patches).  Two batches of images that agree on the pixels of
the complete patches give the same result: the last `H % ph` rows and `W % pw` columns are ignored. -/
theorem C80_border {H W : Nat} (p : Params ph pw D c r) (hph : 0 < ph) (hpw : 0 < pw)
    (classifier : List Char) (num_classes : Option Nat) (position_emb : Option (Option PosEmb))
    (enc : Option (Option PosEmb) → List (List (Vec c)) → Except PyErr (List (List (Vec c)) × M))
    (a b : List (Image H W D))
    (h : List.Forall₂ (fun (x y : Image H W D) => ∀ (s : Fin H) (t : Fin W) (d : Fin D),
      (s : Nat) < H / ph * ph → (t : Nat) < W / pw * pw → x s t d = y s t d) a b) :
    visionTransformer p classifier num_classes position_emb enc a =
      visionTransformer p classifier num_classes position_emb enc b := by
  have ht : a.map (tokens p classifier) = b.map (tokens p classifier) := by
    induction h with
    | nil => rfl
    | @cons x y xs ys hxy _ ih =>
      rw [List.map_cons, List.map_cons, ih]
      congr 1
      have : (List.range (convSize H ph * convSize W pw)).map
            (fun k => conv p x (k / convSize W pw) (k % convSize W pw)) =
          (List.range (convSize H ph * convSize W pw)).map
            (fun k => conv p y (k / convSize W pw) (k % convSize W pw)) := by
        rw [convSize_eq _ _ hph, convSize_eq _ _ hpw]
        refine List.map_congr_left fun k hk => ?_
        have hk := List.mem_range.1 hk
        have hw : 0 < W / pw := by
          rcases Nat.eq_zero_or_pos (W / pw) with h0 | h0
          · rw [h0] at hk; simp at hk
          · exact h0
        have hi : k / (W / pw) < H / ph := (Nat.div_lt_iff_lt_mul hw).2 hk
        have hj : k % (W / pw) < W / pw := Nat.mod_lt _ hw
        rw [conv_eq p x _ _ hi hj, conv_eq p y _ _ hi hj]
        funext f
        unfold patchToken
        congr 1
        refine Finset.sum_congr rfl fun u _ => Finset.sum_congr rfl fun v _ =>
          Finset.sum_congr rfl fun d _ => ?_
        rw [hxy]
        · exact grid_lt hi u.isLt
        · exact grid_lt hj v.isLt
      unfold tokens
      simp only [this]
  unfold visionTransformer
  rw [ht]

/-- The hypotheses of `C80_border` hold for images that differ in the last row or in the last column. -/
example (img : Image 3 5 1) :
    visionTransformer exParams "gap".toList none none exEnc [img] =
      visionTransformer exParams "gap".toList none none exEnc
        [fun s t d => if s = 2 ∨ t = 4 then 0 else img s t d] := by
  apply C80_border _ (by decide) (by decide)
  refine List.Forall₂.cons ?_ List.Forall₂.nil
  intro s t d hs ht
  have h1 : s ≠ 2 := by rintro rfl; simp at hs
  have h2 : t ≠ 4 := by rintro rfl; simp at ht
  simp [h1, h2]

/-- C80 (two-dimensional position embedding of the tokens of an image).  With the size of the grid
that the vision transformer passes, the embedding is accepted exactly if the number of features is a
multiple of 4 and at least 8.  Then the token of the patch in row `i` and column `j` gets the
embedding of `(i, j)`, and the class token is unchanged. -/
theorem C80_sincos_grid {H W : Nat} (kernel : Fin ph → Fin pw → Fin D → Fin c → ℝ)
    (bias : Fin c → ℝ) (first : List (Vec c)) (hfirst : first.length ≤ 1) (img : Image H W D)
    (seq : List (Vec c)) (hseq : IsTokens kernel bias first img seq) (pe : List (Vec c))
    (temperature : Option ℝ) (ht : ∀ t, temperature = some t → 0 < t) :
    (¬ (4 ∣ c ∧ 8 ≤ c) →
      addPositionEmb (some { name := some "sincos2d".toList, h := some (H / ph), w := some (W / pw),
                             temperature := temperature }) pe seq = .error .valueError) ∧
    (4 ∣ c → 8 ≤ c → ∃ out,
      addPositionEmb (some { name := some "sincos2d".toList, h := some (H / ph), w := some (W / pw),
                             temperature := temperature }) pe seq = .ok out ∧
      out.length = seq.length ∧ out.take first.length = first ∧
      ∀ i j (hi : i < H / ph) (hj : j < W / pw), ∃ e : Vec c,
        IsSincos (temperature.getD 10000) i j e ∧
        out[first.length + (i * (W / pw) + j)]? =
          some (patchToken kernel bias img i j hi hj + e)) := by
  obtain ⟨hlen, hf, hget⟩ := hseq
  have htp : 0 < temperature.getD 10000 := by
    cases temperature with
    | none => simp
    | some t => exact ht t rfl
  have hn : ¬ ("sincos2d".toList = "none".toList) := by decide
  have hl : ¬ ("sincos2d".toList = "learned".toList) := by decide
  refine ⟨fun hc => ?_, fun hc4 hc8 => ?_⟩
  · simp only [addPositionEmb, Option.getD_some]
    rw [if_neg hn, if_neg hl, if_pos trivial, if_pos (by omega)]
  have hrun : addPositionEmb (some { name := some "sincos2d".toList, h := some (H / ph),
                                     w := some (W / pw), temperature := temperature }) pe seq =
      .ok (first ++ List.zipWith (· + ·) (seq.drop first.length)
        (posembed (temperature.getD 10000) (H / ph) (W / pw) c)) := by
    simp only [addPositionEmb, Option.getD_some]
    rw [if_neg hn, if_neg hl, if_pos trivial, if_neg (by omega)]
    match first, hfirst with
    | [], _ =>
      rw [if_pos (by simpa using hlen)]
      rfl
    | [a], _ =>
      rw [if_neg (by rw [hlen]; simp), if_pos (by rw [hlen]; simp [Nat.add_comm])]
      have : seq.take 1 = [a] := hf
      rw [this]
      rfl
    | _ :: _ :: _, h => simp at h
  refine ⟨_, hrun, ?_, ?_, ?_⟩
  · simp [posembed, hlen]
  · simp
  · intro i j hi hj
    refine ⟨fun ch => (posembedRow (temperature.getD 10000) (W / pw) (c / 4)
      (i * (W / pw) + j)).getD ch 0, ?_, ?_⟩
    · have := posembedRow_isSincos (c := c) (temperature.getD 10000) htp (W / pw)
        (i * (W / pw) + j) (by omega)
      rwa [grid_div hj, grid_mod hj] at this
    · rw [List.getElem?_append_right (by omega), Nat.add_sub_cancel_left, List.getElem?_zipWith,
        List.getElem?_drop, hget i j hi hj, posembed, List.getElem?_map,
        List.getElem?_range (grid_lt hi hj)]
      rfl

/-- The hypotheses of `C80_sincos_grid` hold for the tokens of images of 4x5 pixels. -/
example (img : Image 4 5 1) : ∃ out,
    addPositionEmb (some { name := some "sincos2d".toList, h := some 2, w := some 2 }) []
      (tokens exParams "0".toList img) = .ok out ∧ out.length = 4 := by
  have ht := tokens_isTokens exParams (by decide) (by decide) "0".toList img
  rw [if_neg (by decide)] at ht
  obtain ⟨out, h1, h2, _⟩ := (C80_sincos_grid _ _ [] (by decide) img _ ht [] none (by simp)).2
    (by decide) (by decide)
  exact ⟨out, h1, h2.trans ht.1⟩

/-- C80 (positions are told apart).  Different cells of a grid of any size have different
embeddings, for every temperature. -/
theorem C80_sincos_injective (temperature : ℝ) (hc : 8 ≤ c) (i j i' j' : Nat)
    (e e' : Vec c) (he : IsSincos temperature i j e) (he' : IsSincos temperature i' j' e')
    (heq : e = e') : i = i' ∧ j = j' := by
  subst heq
  have hθ : (1 : ℝ) = temperature ^ (-(((0 : Nat) : ℝ) / ((c / 4 : Nat) - 1 : ℝ))) := by simp
  obtain ⟨a1, a2, a3, a4⟩ := he 0 (by omega) 1 hθ
  obtain ⟨b1, b2, b3, b4⟩ := he' 0 (by omega) 1 hθ
  have h1 := (a1 (by omega)).symm.trans (b1 (by omega))
  have h2 := (a2 (by omega)).symm.trans (b2 (by omega))
  have h3 := (a3 (by omega)).symm.trans (b3 (by omega))
  have h4 := (a4 (by omega)).symm.trans (b4 (by omega))
  simp only [mul_one] at h1 h2 h3 h4
  exact ⟨nat_eq_of_sin_cos h3 h4, nat_eq_of_sin_cos h1 h2⟩

/-- Every cell has an embedding as in the hypotheses of `C80_sincos_injective` and
`C80_sincos_norm`. -/
example (i j : Nat) : ∃ e : Vec 8, IsSincos 10000 i j e := by
  have := posembedRow_isSincos (c := 8) 10000 (by norm_num) (j + 1) (i * (j + 1) + j) (by decide)
  rw [grid_div (by omega), grid_mod (by omega)] at this
  exact ⟨_, this⟩

/-- C80 (size of the embedding).  The squares of the entries of every embedding sum to half the number
of features. -/
theorem C80_sincos_norm (temperature : ℝ) (hc : 4 ∣ c) (i j : Nat) (e : Vec c)
    (he : IsSincos temperature i j e) : ∑ f, e f ^ 2 = (c : ℝ) / 2 := by
  obtain ⟨q, rfl⟩ := hc
  have hq : 4 * q / 4 = q := by omega
  set g : Nat → ℝ := fun k => if h : k < 4 * q then e ⟨k, h⟩ ^ 2 else 0 with hg
  have h1 : ∑ f, e f ^ 2 = ∑ k ∈ Finset.range (q + q + q + q), g k := by
    have hq' : q + q + q + q = 4 * q := by ring
    rw [hq', ← Fin.sum_univ_eq_sum_range g]
    refine Finset.sum_congr rfl fun f _ => ?_
    simp [hg]
  have h2 : ∀ d ∈ Finset.range q, g d + g (q + d) + g (q + q + d) + g (q + q + q + d) = 2 := by
    intro d hd
    have hd := Finset.mem_range.1 hd
    obtain ⟨a1, a2, a3, a4⟩ := he d (by omega) _ rfl
    have e1 := a1 (by omega)
    have e2 := a2 (by omega)
    have e3 := a3 (by omega)
    have e4 := a4 (by omega)
    have r2 : 4 * q / 4 + d = q + d := by omega
    have r3 : 2 * (4 * q / 4) + d = q + q + d := by omega
    have r4 : 3 * (4 * q / 4) + d = q + q + q + d := by omega
    simp only [r2, r3, r4] at e2 e3 e4
    rw [hg]
    simp only
    rw [dif_pos (by omega), dif_pos (by omega), dif_pos (by omega), dif_pos (by omega), e1, e2, e3,
      e4, Real.sin_sq_add_cos_sq, add_assoc, Real.sin_sq_add_cos_sq]
    norm_num
  rw [h1, Finset.sum_range_add, Finset.sum_range_add, Finset.sum_range_add, ← Finset.sum_add_distrib,
    ← Finset.sum_add_distrib, ← Finset.sum_add_distrib, Finset.sum_congr rfl h2]
  simp
  ring

/-- C80 (kinds of position embedding, for any sequence).  Without configuration, or without a name,
the embedding is learned: one vector per position, added to the token in that position.  `none` leaves
the sequence unchanged, `sincos2d` needs `h` and `w` and a sequence of `h * w` tokens, or one more, and
other names are errors. -/
theorem C80_position_kinds (pos : PosEmb) (pe seq : List (Vec c)) :
    addPositionEmb none pe seq = .ok (List.zipWith (· + ·) seq pe) ∧
    (pos.name = none ∨ pos.name = some "learned".toList →
      addPositionEmb (some pos) pe seq = .ok (List.zipWith (· + ·) seq pe)) ∧
    (pos.name = some "none".toList → addPositionEmb (some pos) pe seq = .ok seq) ∧
    (pos.name = some "sincos2d".toList →
      (pos.h = none ∨ pos.w = none → addPositionEmb (some pos) pe seq = .error .keyError) ∧
      (∀ h w, pos.h = some h → pos.w = some w → seq.length ≠ h * w → seq.length ≠ h * w + 1 →
        addPositionEmb (some pos) pe seq = .error .valueError)) ∧
    (∀ n, pos.name = some n → n ∉ ["none".toList, "learned".toList, "sincos2d".toList] →
      addPositionEmb (some pos) pe seq = .error .valueError) := by
  have h1 : ¬ ("learned".toList = "none".toList) := by decide
  have hn : ¬ ("sincos2d".toList = "none".toList) := by decide
  have hl : ¬ ("sincos2d".toList = "learned".toList) := by decide
  refine ⟨?_, ?_, ?_, ?_, ?_⟩
  · simp only [addPositionEmb, Option.getD_none]
    rw [if_neg h1, if_pos trivial]
  · rintro (h | h)
    · simp only [addPositionEmb, Option.getD_some, h, Option.getD_none]
      rw [if_neg h1, if_pos trivial]
    · simp only [addPositionEmb, Option.getD_some, h]
      rw [if_neg h1, if_pos trivial]
  · intro h
    simp only [addPositionEmb, Option.getD_some, h]
    rw [if_pos trivial]
  · intro h
    refine ⟨fun hw => ?_, fun a b ha hb l1 l2 => ?_⟩
    · simp only [addPositionEmb, Option.getD_some, h]
      rw [if_neg hn, if_neg hl, if_pos trivial]
      rcases hw with hw | hw
      · rw [hw]
      · rw [hw]
        cases pos.h <;> rfl
    · simp only [addPositionEmb, Option.getD_some, h, ha, hb]
      rw [if_neg hn, if_neg hl, if_pos trivial, if_neg l1, if_neg l2, ite_self]
  · intro n h hmem
    simp only [List.mem_cons, List.not_mem_nil, or_false, not_or] at hmem
    simp only [addPositionEmb, Option.getD_some, h]
    rw [if_neg hmem.1, if_neg hmem.2.1, if_neg hmem.2.2]

/-- The cases of `C80_position_kinds` are not empty. -/
example : addPositionEmb (c := 2) (some { name := some "fourier".toList }) [] [0, 1] =
    .error .valueError :=
  (C80_position_kinds { name := some "fourier".toList } [] [0, 1]).2.2.2.2 _ rfl (by decide)

/-- C80 (disagreement): the encoder accepts `position_emb=None`, its default, but the vision transformer
and the text transformer fail if the configuration has that value. -/
theorem C80_position_emb_None {H W : Nat} (p : Params ph pw D c r) (classifier : List Char)
    (num_classes : Option Nat)
    (enc : Option (Option PosEmb) → List (List (Vec c)) → Except PyErr (List (List (Vec c)) × M))
    (inputs : List (Image H W D)) (embedding : Nat → Vec c) (pool_type : List Char)
    (mapHead : List (Vec c) → Vec c) (head : Nat → Vec c → List ℝ) (text : List (List Nat)) :
    visionTransformer p classifier num_classes (some none) enc inputs = .error .attributeError ∧
    textTransformer embedding pool_type num_classes mapHead head (some none) enc text =
      .error .attributeError := ⟨rfl, rfl⟩

theorem foldl_max (ts : List (Vec c)) (f : Fin c) (m : ℝ) :
    m ≤ ts.foldl (fun m s => max m (s f)) m ∧
    (∀ s ∈ ts, s f ≤ ts.foldl (fun m s => max m (s f)) m) ∧
    (ts.foldl (fun m s => max m (s f)) m = m ∨
      ∃ s ∈ ts, ts.foldl (fun m s => max m (s f)) m = s f) := by
  induction ts generalizing m with
  | nil => simp
  | cons t ts ih =>
    obtain ⟨i1, i2, i3⟩ := ih (max m (t f))
    simp only [List.foldl_cons]
    refine ⟨(le_max_left _ _).trans i1, ?_, ?_⟩
    · intro s hs
      rcases List.mem_cons.1 hs with rfl | hs
      · exact (le_max_right _ _).trans i1
      · exact i2 s hs
    · rcases i3 with h | ⟨s, hs, h⟩
      · rcases max_choice m (t f) with hm | hm
        · left; rw [h, hm]
        · right; exact ⟨t, by simp, by rw [h, hm]⟩
      · right; exact ⟨s, by simp [hs], h⟩

/-- C81 (text transformer).  The encoder gets the embedded tokens of every text in order and the option
`position_emb` as configured.  The result is computed from the output of the encoder: its last or first
token, the average or the maximum of every feature, or the attention pooling; then the head, unless
the number of classes is missing or zero.  The embedding `sincos2d` is refused before the encoder is
run and an unknown pooling after it. -/
theorem C81_text (embedding : Nat → Vec c) (pool_type : List Char) (num_classes : Option Nat)
    (mapHead : List (Vec c) → Vec c) (head : Nat → Vec c → List ℝ)
    (position_emb : Option (Option PosEmb)) (hpos : position_emb ≠ some none)
    (enc : Option (Option PosEmb) → List (List (Vec c)) → Except PyErr (List (List (Vec c)) × M))
    (text : List (List Nat)) :
    let run := textTransformer embedding pool_type num_classes mapHead head position_emb enc text
    ((∃ d, position_emb = some (some d) ∧ d.name = some "sincos2d".toList) → run = .error .valueError) ∧
    ((∀ d, position_emb = some (some d) → d.name ≠ some "sincos2d".toList) →
      ∃ seqs : List (List (Vec c)), seqs.length = text.length ∧
        (∀ (b : Nat) (ts : List Nat), text[b]? = some ts → ∃ s, seqs[b]? = some s ∧ s.length = ts.length ∧
          ∀ (t k : Nat), ts[t]? = some k → s[t]? = some (embedding k)) ∧
        (∀ e, enc position_emb seqs = .error e → run = .error e) ∧
        (∀ ys m, enc position_emb seqs = .ok (ys, m) →
          (pool_type ∉ ["last".toList, "first".toList, "gap".toList, "gmp".toList, "map".toList] →
            run = .error .notImplementedError) ∧
          (pool_type ∈ ["last".toList, "first".toList, "gap".toList, "gmp".toList, "map".toList] →
            (∀ y ∈ ys, y ≠ []) →
            ∃ pooled : List (Vec c),
              List.Forall₂ (fun (y : List (Vec c)) (z : Vec c) =>
                (pool_type = "last".toList → y.getLast? = some z) ∧
                (pool_type = "first".toList → y.head? = some z) ∧
                (pool_type = "gap".toList → ∀ f, z f * (y.length : ℝ) = (y.map (fun t => t f)).sum) ∧
                (pool_type = "gmp".toList → ∀ f, IsGreatest {v | ∃ t ∈ y, v = t f} (z f)) ∧
                (pool_type = "map".toList → z = mapHead y)) ys pooled ∧
              (num_classes = none ∨ num_classes = some 0 → run = .ok (.features pooled, m)) ∧
              (∀ n, num_classes = some n → 0 < n →
                run = .ok (.logits (pooled.map (head n)), m))))) := by
  intro run
  refine ⟨?_, ?_⟩
  · rintro ⟨d, rfl, hd⟩
    exact if_pos hd
  intro hns
  have hrun : run = (match enc position_emb (text.map (·.map embedding)) with
      | .error err => .error err
      | .ok (x, metrics) =>
        match applyPooling pool_type mapHead x with
        | .error err => .error err
        | .ok y => .ok (finish head num_classes y, metrics)) := by
    change textTransformer embedding pool_type num_classes mapHead head position_emb enc text = _
    clear run
    match position_emb, hpos, hns with
    | none, _, _ => rfl
    | some none, h, _ => exact absurd rfl h
    | some (some d), _, hns => exact if_neg (hns d rfl)
  rw [hrun]
  refine ⟨text.map (·.map embedding), by simp, ?_, ?_, ?_⟩
  · intro b ts hb
    refine ⟨ts.map embedding, by simp [hb], by simp, fun t k hk => by simp [hk]⟩
  · intro e he
    rw [he]
  · intro ys m he
    rw [he]
    simp only
    refine ⟨?_, ?_⟩
    · intro hp
      simp only [List.mem_cons, List.not_mem_nil, or_false, not_or] at hp
      unfold applyPooling
      rw [if_neg hp.1, if_neg hp.2.1, if_neg hp.2.2.1, if_neg hp.2.2.2.1, if_neg hp.2.2.2.2]
    · intro hp hne
      simp only [List.mem_cons, List.not_mem_nil, or_false] at hp
      have hpool : ∃ pool : List (Vec c) → Vec c, applyPooling pool_type mapHead ys = .ok (ys.map pool) ∧
          ∀ y ∈ ys, (pool_type = "last".toList → y.getLast? = some (pool y)) ∧
                (pool_type = "first".toList → y.head? = some (pool y)) ∧
                (pool_type = "gap".toList → ∀ f, pool y f * (y.length : ℝ) = (y.map (fun t => t f)).sum) ∧
                (pool_type = "gmp".toList → ∀ f, IsGreatest {v | ∃ t ∈ y, v = t f} (pool y f)) ∧
                (pool_type = "map".toList → pool y = mapHead y) := by
        rcases hp with rfl | rfl | rfl | rfl | rfl
        · refine ⟨(·.getLastD 0), rfl, fun y hy => ⟨fun _ => ?_, ?_, ?_, ?_, ?_⟩⟩
          · cases y with
            | nil => exact absurd rfl (hne _ hy)
            | cons a as => simp [List.getLast?_cons]
          all_goals (intro h; exact absurd h (by decide))
        · refine ⟨(·.headD 0), rfl, fun y hy => ⟨?_, fun _ => ?_, ?_, ?_, ?_⟩⟩
          · intro h; exact absurd h (by decide)
          · cases y with
            | nil => exact absurd rfl (hne _ hy)
            | cons a as => rfl
          all_goals (intro h; exact absurd h (by decide))
        · refine ⟨mean, rfl, fun y hy => ⟨?_, ?_, fun _ f => ?_, ?_, ?_⟩⟩
          · intro h; exact absurd h (by decide)
          · intro h; exact absurd h (by decide)
          · have : (y.length : ℝ) ≠ 0 := by
              have := List.length_pos_iff.2 (hne y hy)
              exact_mod_cast this.ne'
            rw [mean, div_mul_cancel₀ _ this]
          all_goals (intro h; exact absurd h (by decide))
        · refine ⟨maximum, rfl, fun y hy => ⟨?_, ?_, ?_, fun _ f => ?_, ?_⟩⟩
          · intro h; exact absurd h (by decide)
          · intro h; exact absurd h (by decide)
          · intro h; exact absurd h (by decide)
          · cases y with
            | nil => exact absurd rfl (hne _ hy)
            | cons a as =>
              obtain ⟨i1, i2, i3⟩ := foldl_max as f (a f)
              refine ⟨?_, ?_⟩
              · rcases i3 with h | ⟨s, hs, h⟩
                · exact ⟨a, by simp, h⟩
                · exact ⟨s, by simp [hs], h⟩
              · rintro v ⟨t, ht, rfl⟩
                rcases List.mem_cons.1 ht with rfl | ht
                · exact i1
                · exact i2 t ht
          · intro h; exact absurd h (by decide)
        · refine ⟨mapHead, rfl, fun y hy => ⟨?_, ?_, ?_, ?_, fun _ => rfl⟩⟩
          all_goals (intro h; exact absurd h (by decide))
      obtain ⟨pool, hok, hspec⟩ := hpool
      rw [hok]
      refine ⟨ys.map pool, ?_, ?_, ?_⟩
      · rw [List.forall₂_map_right_iff]
        exact List.forall₂_same.2 hspec
      · rintro (rfl | rfl) <;> simp [finish]
      · rintro n rfl hn
        obtain ⟨k, rfl⟩ := Nat.exists_eq_succ_of_ne_zero (Nat.pos_iff_ne_zero.1 hn)
        simp [finish]

/-- The hypotheses of `C81_text` hold for two texts of two tokens, with the pooling of the maximum. -/
example : ∃ z : Vec 1, textTransformer (c := 1) (M := Unit) (fun k _ => k) "gmp".toList none (fun _ => 0)
      (fun _ _ => []) none (fun _ x => .ok (x, ())) [[3, 5]] = .ok (.features [z], ()) ∧ z 0 = 5 := by
  obtain ⟨seqs, hl, hs, _, h2⟩ := (C81_text (c := 1) (M := Unit) (fun k _ => k) "gmp".toList none
    (fun _ => 0) (fun _ _ => []) none (by simp) (fun _ x => .ok (x, ())) [[3, 5]]).2 (by simp)
  obtain ⟨s, hs0, hs1, hs2⟩ := hs 0 [3, 5] rfl
  match seqs, hl, hs0 with
  | [s'], _, hs0 =>
    have : s' = s := by simpa using hs0
    subst this
    match s', hs1 with
    | [a, b], _ =>
      have ha : a = fun _ => (3 : ℝ) := by simpa using hs2 0 3 rfl
      have hb : b = fun _ => (5 : ℝ) := by simpa using hs2 1 5 rfl
      obtain ⟨pooled, hp, hf, _⟩ := (h2 _ _ rfl).2 (by decide) (by simp)
      match pooled, hp with
      | [z], hp =>
        refine ⟨z, hf (Or.inl rfl), ?_⟩
        have hg := (List.forall₂_cons.1 hp).1.2.2.2.1 rfl 0
        apply le_antisymm
        · obtain ⟨t, ht, hz⟩ := hg.1
          rw [hz]
          rcases List.mem_cons.1 ht with rfl | ht
          · rw [ha]; norm_num
          · rw [List.mem_singleton.1 ht, hb]
        · exact hg.2 ⟨b, by simp, by rw [hb]⟩

end Verif.Vit
