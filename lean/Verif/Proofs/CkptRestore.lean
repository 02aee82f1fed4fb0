import Verif.Proofs.CkptSave

/-!
Helper lemmas: intersecting regions and restoring buffers.
-/

namespace Verif.Ckpt

open Verif Spec

theorem inSlice_nil (idx : List Nat) : InSlice [] idx ↔ idx = [] := by
  unfold InSlice; simp

theorem inSlice_cons (x : Slice) (s : SliceNd) (i : Nat) (idx : List Nat) :
    InSlice (x :: s) (i :: idx) ↔ (Slice.start x ≤ i ∧ i < Slice.stop x) ∧ InSlice s idx := by
  unfold InSlice; rw [List.forall₂_cons]; rfl

theorem intersect_some {g c x : SliceNd} (hl : g.length = c.length)
    (h : intersectSlicend g c = some x) :
    x.length = g.length ∧ (∀ idx, InSlice x idx ↔ InSlice g idx ∧ InSlice c idx) ∧
    ∀ i (h1 : i < x.length) (h2 : i < g.length) (h3 : i < c.length),
      Slice.start x[i] = max (Slice.start g[i]) (Slice.start c[i]) ∧
      Slice.stop x[i] = min (Slice.stop g[i]) (Slice.stop c[i]) ∧
      Slice.start x[i] < Slice.stop x[i] := by
  induction g generalizing c x with
  | nil =>
    cases c with
    | nil =>
      simp only [intersectSlicend, Option.some.injEq] at h
      subst h
      simp
    | cons b c => simp at hl
  | cons a g ih =>
    cases c with
    | nil => simp at hl
    | cons b c =>
      simp only [intersectSlicend] at h
      split at h
      · cases h
      · rename_i hlt
        cases hx : intersectSlicend g c with
        | none => rw [hx] at h; simp at h
        | some y =>
          rw [hx] at h
          simp only [Option.map_some, Option.some.injEq] at h
          subst h
          obtain ⟨h1, h2, h3⟩ := ih (by simpa using hl) hx
          refine ⟨by simp [h1], ?_, ?_⟩
          · intro idx
            cases idx with
            | nil => simp [InSlice]
            | cons i idx =>
              rw [inSlice_cons, inSlice_cons, inSlice_cons, h2]
              simp only [Slice.start, Slice.stop, Slice.mk, ofLex_toLex, max_le_iff, lt_min_iff]
              tauto
          · intro i hi1 hi2 hi3
            cases i with
            | zero =>
              simp only [List.getElem_cons_zero]
              simp only [Slice.start, Slice.stop, Slice.mk, ofLex_toLex] at *
              exact ⟨trivial, trivial, by omega⟩
            | succ i =>
              simp only [List.getElem_cons_succ]
              exact h3 i _ _ _

theorem intersect_none {g c : SliceNd} (hl : g.length = c.length)
    (h : intersectSlicend g c = none) (idx : List Nat) : ¬ (InSlice g idx ∧ InSlice c idx) := by
  induction g generalizing c idx with
  | nil =>
    cases c with
    | nil => simp [intersectSlicend] at h
    | cons b c => simp at hl
  | cons a g ih =>
    cases c with
    | nil => simp at hl
    | cons b c =>
      cases idx with
      | nil => simp [InSlice]
      | cons i idx =>
        rw [inSlice_cons, inSlice_cons]
        simp only [intersectSlicend] at h
        split at h
        · rename_i hle
          omega
        · have := ih (c := c) (by simpa using hl) (by simpa using h) idx
          tauto

/-- The test used by the code: the regions overlap, or are equal. -/
theorem slicesMatch_iff {g c : SliceNd} (hl : g.length = c.length) :
    slicesMatch g c = true ↔ g = c ∨ ∃ idx, InSlice g idx ∧ InSlice c idx := by
  unfold slicesMatch
  cases h : intersectSlicend g c with
  | none =>
    have := intersect_none hl h
    simp only [Bool.or_false, decide_eq_true_eq]
    constructor
    · exact Or.inl
    · rintro (e | ⟨idx, hi⟩)
      · exact e
      · exact absurd hi (this idx)
  | some x =>
    obtain ⟨h1, h2, h3⟩ := intersect_some hl h
    cases x with
    | nil =>
      have hg : g = [] := List.length_eq_zero_iff.1 (by simpa using h1.symm)
      have hc : c = [] := List.length_eq_zero_iff.1 (by rw [← hl, hg]; rfl)
      simp [hg, hc]
    | cons y x =>
      simp only [Bool.or_true, true_iff]
      right
      have hp : Pos (y :: x) := by
        intro z hz
        obtain ⟨i, hi, rfl⟩ := List.mem_iff_getElem.1 hz
        exact (h3 i hi (h1 ▸ hi) (hl ▸ h1 ▸ hi)).2.2
      exact ⟨_, (h2 _).1 (corner_mem hp)⟩

/-- Global position of a local position of a region. -/
def regionPos (g : SliceNd) (l : List Nat) : List Nat :=
  List.zipWith (fun i x => Slice.start x + i) l g

theorem applyChunk_ok {α : Type*} (c : Chunk α) (b : Buffer α) (hl : b.slice.length = c.slice.length)
    (hp : Pos c.slice) :
    ∃ b', applyChunk c b = .ok b' ∧ b'.slice = b.slice ∧
      ∀ l, l.length = b.slice.length → InSlice b.slice (regionPos b.slice l) →
        (InSlice c.slice (regionPos b.slice l) → ∃ l' : List Nat, l'.length = c.slice.length ∧
          regionPos c.slice l' = regionPos b.slice l ∧ b'.data l = c.data.get l') ∧
        (¬ InSlice c.slice (regionPos b.slice l) → b'.data l = b.data l) := by
  unfold applyChunk
  by_cases hm : slicesMatch b.slice c.slice = true
  · rw [if_pos hm]
    cases hx : intersectSlicend b.slice c.slice with
    | none =>
      exfalso
      rcases (slicesMatch_iff hl).1 hm with e | ⟨idx, hi⟩
      · exact intersect_none hl hx (corner c.slice) ⟨by rw [e]; exact corner_mem hp, corner_mem hp⟩
      · exact intersect_none hl hx idx hi
    | some x =>
      obtain ⟨h1, h2, h3⟩ := intersect_some hl hx
      refine ⟨copyIntersection x b c, rfl, rfl, ?_⟩
      intro l hll hin
      have hiff : (List.Forall₂ (· ≤ ·)
            (List.zipWith (fun i g => Slice.start i - Slice.start g) x b.slice) l ∧
          List.Forall₂ (· < ·) l
            (List.zipWith (fun i g => Slice.stop i - Slice.start g) x b.slice)) ↔
          InSlice c.slice (regionPos b.slice l) := by
        have e : InSlice c.slice (regionPos b.slice l) ↔ InSlice x (regionPos b.slice l) := by
          rw [h2]; tauto
        rw [e, List.forall₂_iff_get, List.forall₂_iff_get, inSlice_iff]
        simp only [List.length_zipWith, List.get_eq_getElem, List.getElem_zipWith, regionPos]
        constructor
        · rintro ⟨⟨_, q1⟩, ⟨_, q2⟩⟩
          refine ⟨by omega, fun i hi hi' => ?_⟩
          have g1 := q1 i (by omega) (by omega)
          have g2 := q2 i (by omega) (by omega)
          have g3 := h3 i hi (by omega) (by omega)
          omega
        · rintro ⟨_, q⟩
          refine ⟨⟨by omega, fun i hi hi' => ?_⟩, ⟨by omega, fun i hi hi' => ?_⟩⟩
          · have g1 := q i (by omega) (by omega)
            omega
          · have g1 := q i (by omega) (by omega)
            omega
      constructor
      · intro hc
        simp only [copyIntersection]
        rw [if_pos (hiff.2 hc)]
        refine ⟨_, ?_, ?_, rfl⟩
        · simp [h1, hl, hll]
        · simp only [regionPos]
          have hx' := (h2 (regionPos b.slice l)).2 ⟨hin, hc⟩
          rw [inSlice_iff] at hx'
          apply List.ext_getElem
          · simp [h1, hl, hll]
          · intro i hi hi'
            simp only [List.length_zipWith] at hi hi'
            have g1 := hx'.2 i (by omega) (by simp [regionPos]; omega)
            have g2 := h3 i (by omega) (by omega) (by omega)
            simp only [List.getElem_zipWith, regionPos] at g1 ⊢
            omega
      · intro hc
        simp only [copyIntersection]
        rw [if_neg (fun h => hc (hiff.1 h))]
  · rw [if_neg hm]
    refine ⟨b, rfl, rfl, ?_⟩
    intro l hll hin
    refine ⟨fun hc => ?_, fun _ => rfl⟩
    exact absurd ((slicesMatch_iff hl).2 (Or.inr ⟨_, hin, hc⟩)) hm

theorem mapM_forall₂ {β γ : Type*} {E : Type*} (f : β → Except E γ) (R : β → γ → Prop) (l : List β)
    (h : ∀ x ∈ l, ∃ y, f x = .ok y ∧ R x y) : ∃ l', l.mapM f = .ok l' ∧ List.Forall₂ R l l' := by
  induction l with
  | nil => exact ⟨[], rfl, List.Forall₂.nil⟩
  | cons x l ih =>
    obtain ⟨y, hy, hr⟩ := h x (by simp)
    obtain ⟨l', hl, hrl⟩ := ih (fun z hz => h z (List.mem_cons_of_mem _ hz))
    refine ⟨y :: l', ?_, List.Forall₂.cons hr hrl⟩
    rw [List.mapM_cons, hy, hl]
    rfl

theorem forall₂_map_eq {β γ : Type*} {f : β → γ} {l l' : List β}
    (h : List.Forall₂ (fun x y => f y = f x) l l') : l.map f = l'.map f := by
  induction h with
  | nil => rfl
  | cons e _ ih => simp [e, ih]

/-- Contents of one buffer of array `a` after applying the chunks `done`. -/
structure BufInv {α : Type*} (zero : α) (a : Leaf α) (i : Nat) (done : List (Chunk α))
    (b : Buffer α) : Prop where
  len : b.slice.length = a.value.shape.length
  hit : ∀ l, l.length = b.slice.length → InSlice b.slice (regionPos b.slice l) →
    (∃ c ∈ done, c.leaf = i ∧ InSlice c.slice (regionPos b.slice l)) →
      b.data l = a.value.get (regionPos b.slice l)
  miss : ∀ l, l.length = b.slice.length → InSlice b.slice (regionPos b.slice l) →
    (¬ ∃ c ∈ done, c.leaf = i ∧ InSlice c.slice (regionPos b.slice l)) → b.data l = zero

/-- A chunk that matches one of the leaves. -/
structure ChunkFits {α : Type*} (leaves : List (Leaf α)) (c : Chunk α) : Prop where
  fits : ∃ a, leaves[c.leaf]? = some a ∧ c.slice.length = a.value.shape.length ∧
    ∀ l : List Nat, l.length = c.slice.length →
      c.data.get l = a.value.get (regionPos c.slice l)
  pos : Pos c.slice

/-- Invariant of all the buffers. -/
structure BufsInv {α : Type*} (zero : α) (leaves : List (Leaf α)) (slices : List (List SliceNd))
    (done : List (Chunk α)) (bufs : Buffers α) : Prop where
  slices : bufs.map (fun bs => bs.map Buffer.slice) = slices
  len : bufs.length = leaves.length
  buf : ∀ i a bs, leaves[i]? = some a → bufs[i]? = some bs → ∀ b ∈ bs, BufInv zero a i done b

theorem restoreChunk_ok {α : Type*} {zero : α} {leaves : List (Leaf α)}
    {slices : List (List SliceNd)} {done : List (Chunk α)} {bufs : Buffers α} (c : Chunk α)
    (h : BufsInv zero leaves slices done bufs) (hc : ChunkFits leaves c) :
    ∃ bufs', restoreChunk bufs c = .ok bufs' ∧ BufsInv zero leaves slices (done ++ [c]) bufs' := by
  obtain ⟨a, ha, hcl, hcd⟩ := hc.fits
  have hlt : c.leaf < bufs.length := by
    rw [h.len]; exact (List.getElem?_eq_some_iff.1 ha).1
  have hbs : bufs[c.leaf]? = some bufs[c.leaf] := List.getElem?_eq_getElem hlt
  set bs := bufs[c.leaf] with hbsdef
  have hstep : ∀ b ∈ bs, ∃ b', applyChunk c b = .ok b' ∧
      (b'.slice = b.slice ∧ BufInv zero a c.leaf (done ++ [c]) b') := by
    intro b hb
    have hI := h.buf c.leaf a bs ha hbs b hb
    obtain ⟨b', h1, h2, h3⟩ := applyChunk_ok c b (by rw [hI.len, hcl]) hc.pos
    refine ⟨b', h1, h2, ?_⟩
    refine ⟨by rw [h2]; exact hI.len, ?_, ?_⟩
    · intro l hl hin hex
      rw [h2] at hl hin hex ⊢
      by_cases hcin : InSlice c.slice (regionPos b.slice l)
      · obtain ⟨l', e1, e2, e3⟩ := (h3 l hl hin).1 hcin
        rw [e3, hcd l' e1, e2]
      · rw [(h3 l hl hin).2 hcin]
        apply hI.hit l hl hin
        obtain ⟨c', hc', e1, e2⟩ := hex
        rcases List.mem_append.1 hc' with hm | hm
        · exact ⟨c', hm, e1, e2⟩
        · obtain rfl := List.mem_singleton.1 hm
          exact absurd e2 hcin
    · intro l hl hin hno
      rw [h2] at hl hin hno
      have hcin : ¬ InSlice c.slice (regionPos b.slice l) :=
        fun hh => hno ⟨c, by simp, rfl, hh⟩
      rw [(h3 l hl hin).2 hcin]
      apply hI.miss l hl hin
      rintro ⟨c', hc', e⟩
      exact hno ⟨c', by simp [hc'], e⟩
  obtain ⟨bs', hm, hR⟩ := mapM_forall₂ (applyChunk c) _ bs hstep
  refine ⟨bufs.set c.leaf bs', ?_, ?_, ?_, ?_⟩
  · unfold restoreChunk
    rw [hbs]
    simp only [hm]
  · rw [List.map_set, ← h.slices]
    have : bs'.map Buffer.slice = bs.map Buffer.slice := by
      exact (forall₂_map_eq (hR.imp (fun _ _ h => h.1))).symm
    rw [this]
    apply List.ext_getElem
    · simp
    · intro i h1 h2
      rw [List.getElem_set]
      split
      · rename_i e
        subst e
        simp [hbsdef]
      · rfl
  · simpa using h.len
  · intro i a' bsi ha' hbsi b hb
    by_cases hi : c.leaf = i
    · subst hi
      rw [ha] at ha'
      obtain rfl := Option.some.inj ha'
      rw [List.getElem?_set_self hlt] at hbsi
      obtain rfl := Option.some.inj hbsi
      obtain ⟨k, hk, rfl⟩ := List.mem_iff_getElem.1 hb
      have := (List.forall₂_iff_get.1 hR).2 k (by rw [(List.forall₂_iff_get.1 hR).1]; exact hk) hk
      exact this.2
    · rw [List.getElem?_set_ne hi] at hbsi
      have hI := h.buf i a' bsi ha' hbsi b hb
      have hex : ∀ l, (∃ c' ∈ done ++ [c], c'.leaf = i ∧ InSlice c'.slice (regionPos b.slice l)) ↔
          ∃ c' ∈ done, c'.leaf = i ∧ InSlice c'.slice (regionPos b.slice l) := by
        intro l
        constructor
        · rintro ⟨c', hc', e1, e2⟩
          rcases List.mem_append.1 hc' with hm | hm
          · exact ⟨c', hm, e1, e2⟩
          · obtain rfl := List.mem_singleton.1 hm
            exact absurd e1 hi
        · rintro ⟨c', hc', e⟩
          exact ⟨c', by simp [hc'], e⟩
      exact ⟨hI.len, fun l hl hin he => hI.hit l hl hin ((hex l).1 he),
        fun l hl hin he => hI.miss l hl hin (fun h => he ((hex l).2 h))⟩

theorem restoreFold_ok {α : Type*} {zero : α} {leaves : List (Leaf α)}
    {slices : List (List SliceNd)} (ops : List (Chunk α)) :
    ∀ (done : List (Chunk α)) (bufs : Buffers α), BufsInv zero leaves slices done bufs →
    (∀ c ∈ ops, ChunkFits leaves c) →
    ∃ bufs', ops.foldlM restoreChunk bufs = .ok bufs' ∧
      BufsInv zero leaves slices (done ++ ops) bufs' := by
  induction ops with
  | nil => intro done bufs h _; exact ⟨bufs, rfl, by simpa using h⟩
  | cons c ops ih =>
    intro done bufs h hops
    obtain ⟨b1, h1, h2⟩ := restoreChunk_ok c h (hops c (by simp))
    obtain ⟨b2, h3, h4⟩ := ih _ b1 h2 (fun x hx => hops x (List.mem_cons_of_mem _ hx))
    refine ⟨b2, ?_, by simpa using h4⟩
    rw [List.foldlM_cons, h1]
    exact h3

theorem createLocalBuffers_foldl {α : Type*} (zero : α) (shape : List Nat) (devices : List JaxIndex) :
    ∀ out : List (Buffer α), (∀ b ∈ out, (∀ l, b.data l = zero) ∧
        ∃ d, b.slice = shardIndexToSlicend d shape) →
    let r := devices.foldl (fun out d =>
      let g := shardIndexToSlicend d shape
      if out.any (fun b => b.slice = g) then out
      else out ++ [{ slice := g, data := fun _ => zero }]) out
    (∀ b ∈ r, (∀ l, b.data l = zero) ∧ ((∃ b' ∈ out, b.slice = b'.slice) ∨
      ∃ d ∈ devices, b.slice = shardIndexToSlicend d shape)) ∧
    (∀ b ∈ out, b ∈ r) ∧ ∀ d ∈ devices, ∃ b ∈ r, b.slice = shardIndexToSlicend d shape := by
  induction devices with
  | nil =>
    intro out h
    exact ⟨fun b hb => ⟨(h b hb).1, Or.inl ⟨b, hb, rfl⟩⟩, fun b hb => hb, by simp⟩
  | cons d devices ih =>
    intro out h
    simp only [List.foldl_cons]
    by_cases hany : out.any (fun b => b.slice = shardIndexToSlicend d shape) = true
    · rw [if_pos hany]
      obtain ⟨h1, h2, h3⟩ := ih out h
      refine ⟨fun b hb => ⟨(h1 b hb).1, ?_⟩, h2, ?_⟩
      · rcases (h1 b hb).2 with h | ⟨d', hd', e⟩
        · exact Or.inl h
        · exact Or.inr ⟨d', List.mem_cons_of_mem _ hd', e⟩
      · intro d' hd'
        rcases List.mem_cons.1 hd' with rfl | hd'
        · rw [List.any_eq_true] at hany
          obtain ⟨b, hb, e⟩ := hany
          exact ⟨b, h2 b hb, by simpa using e⟩
        · exact h3 d' hd'
    · rw [if_neg hany]
      obtain ⟨h1, h2, h3⟩ := ih (out ++ [{ slice := shardIndexToSlicend d shape, data := fun _ => zero }])
        (by
          intro b hb
          rcases List.mem_append.1 hb with hb | hb
          · exact h b hb
          · obtain rfl := List.mem_singleton.1 hb
            exact ⟨fun _ => rfl, d, rfl⟩)
      refine ⟨fun b hb => ⟨(h1 b hb).1, ?_⟩, fun b hb => h2 b (by simp [hb]), ?_⟩
      · rcases (h1 b hb).2 with ⟨b', hb', e⟩ | ⟨d', hd', e⟩
        · rcases List.mem_append.1 hb' with hb' | hb'
          · exact Or.inl ⟨b', hb', e⟩
          · obtain rfl := List.mem_singleton.1 hb'
            exact Or.inr ⟨d, by simp, e⟩
        · exact Or.inr ⟨d', List.mem_cons_of_mem _ hd', e⟩
      · intro d' hd'
        rcases List.mem_cons.1 hd' with rfl | hd'
        · exact ⟨_, h2 { slice := shardIndexToSlicend d' shape, data := fun _ => zero }
            (by simp), rfl⟩
        · exact h3 d' hd'

theorem createLocalBuffers_ok {α : Type*} (zero : α) (shape : List Nat) (devices : List JaxIndex) :
    (∀ b ∈ createLocalBuffers zero devices shape, (∀ l, b.data l = zero) ∧
      ∃ d ∈ devices, b.slice = shardIndexToSlicend d shape) ∧
    ∀ d ∈ devices, ∃ b ∈ createLocalBuffers zero devices shape,
      b.slice = shardIndexToSlicend d shape := by
  obtain ⟨h1, _, h3⟩ := createLocalBuffers_foldl zero shape devices [] (by simp)
  refine ⟨fun b hb => ⟨(h1 b hb).1, ?_⟩, h3⟩
  rcases (h1 b hb).2 with ⟨b', hb', _⟩ | h
  · simp at hb'
  · exact h

theorem regionPos_globalPos {d : JaxIndex} {shape l : List Nat} (hd : d.length = shape.length) :
    regionPos (shardIndexToSlicend d shape) l = globalPos d l := by
  unfold regionPos globalPos shardIndexToSlicend
  apply List.ext_getElem
  · simp [hd]
  · intro i h1 h2
    simp [Slice.start, Slice.mk]

/-- Restoring from any sequence of correct chunks that covers every needed position. -/
theorem restore_ok {α : Type*} (zero : α) (leaves : List (Leaf α)) (targets : List (List JaxIndex))
    (infos : List IndexInfo) (ops : List (Chunk α)) (ht : targets.length = leaves.length)
    (hi : infos.map IndexInfo.shape = leaves.map (fun a => a.value.shape))
    (hrank : ∀ i a d, leaves[i]? = some a → d ∈ targets.getD i [] → d.length = a.value.shape.length)
    (hops : ∀ c ∈ ops, ChunkFits leaves c)
    (hcov : ∀ i a d, leaves[i]? = some a → d ∈ targets.getD i [] →
      ∀ idx, InIndex d a.value.shape idx → ∃ c ∈ ops, c.leaf = i ∧ InSlice c.slice idx) :
    ∃ bufs, restoreBuffers zero targets infos ops = .ok bufs ∧
      ∀ i a d, leaves[i]? = some a → d ∈ targets.getD i [] →
        ∃ b, bufferFor bufs i d a.value.shape = .ok b ∧
          ∀ l, l.length = d.length → InIndex d a.value.shape (globalPos d l) →
            b.data l = a.value.get (globalPos d l) := by
  have hlen : infos.length = leaves.length := by
    have := congrArg List.length hi
    simpa using this
  set bufs0 := List.zipWith (fun d (i : IndexInfo) => createLocalBuffers zero d i.shape) targets infos
    with hb0
  have hget : ∀ i a, leaves[i]? = some a → bufs0[i]? =
      some (createLocalBuffers zero (targets.getD i []) a.value.shape) := by
    intro i a ha
    obtain ⟨hlt, he⟩ := List.getElem?_eq_some_iff.1 ha
    rw [hb0, List.getElem?_zipWith, List.getElem?_eq_getElem (by omega),
      List.getElem?_eq_getElem (by omega)]
    have h2 : infos[i].shape = a.value.shape := by
      have : (infos.map IndexInfo.shape)[i]'(by simp; omega) =
        (leaves.map (fun a => a.value.shape))[i]'(by simp; omega) := by simp only [hi]
      simpa [he] using this
    have h3 : targets.getD i [] = targets[i] := by
      rw [List.getD_eq_getElem?_getD, List.getElem?_eq_getElem (by omega)]; rfl
    rw [h3]
    simp [h2]
  have hinv0 : BufsInv zero leaves (bufs0.map (fun bs => bs.map Buffer.slice)) [] bufs0 := by
    refine ⟨rfl, by simp [hb0, ht, hlen], ?_⟩
    intro i a bs ha hbs b hb
    rw [hget i a ha] at hbs
    obtain rfl := Option.some.inj hbs
    obtain ⟨hz, d, hd, e⟩ := (createLocalBuffers_ok zero a.value.shape (targets.getD i [])).1 b hb
    refine ⟨?_, by simp, fun l _ _ _ => hz l⟩
    have := hrank i a d ha hd
    rw [e]
    simp [shardIndexToSlicend, this]
  obtain ⟨bufs, hr, hI⟩ := restoreFold_ok ops [] bufs0 hinv0 hops
  refine ⟨bufs, ?_, ?_⟩
  · unfold restoreBuffers
    rw [if_pos (by omega)]
    exact hr
  · intro i a d ha hd
    have hdl := hrank i a d ha hd
    have hlt : i < bufs.length := by
      rw [hI.len]; exact (List.getElem?_eq_some_iff.1 ha).1
    have hbi : bufs[i]? = some bufs[i] := List.getElem?_eq_getElem hlt
    have hbD : bufs.getD i [] = bufs[i] := by
      rw [List.getD_eq_getElem?_getD, hbi]; rfl
    have hsl : bufs[i].map Buffer.slice =
        (createLocalBuffers zero (targets.getD i []) a.value.shape).map Buffer.slice := by
      have e1 : (bufs.map (fun bs => bs.map Buffer.slice))[i]? =
          (bufs0.map (fun bs => bs.map Buffer.slice))[i]? := by rw [hI.slices]
      rw [List.getElem?_map, List.getElem?_map, hbi, hget i a ha] at e1
      simpa using e1
    obtain ⟨b0, hb0m, hb0s⟩ :=
      (createLocalBuffers_ok zero a.value.shape (targets.getD i [])).2 d hd
    have hmem : shardIndexToSlicend d a.value.shape ∈ bufs[i].map Buffer.slice := by
      rw [hsl]; exact List.mem_map.2 ⟨b0, hb0m, hb0s⟩
    obtain ⟨b1, hb1, hb1s⟩ := List.mem_map.1 hmem
    cases hf : bufs[i].find? (fun b => b.slice = shardIndexToSlicend d a.value.shape) with
    | none =>
      exact absurd hb1s (by simpa using (List.find?_eq_none.1 hf) b1 hb1)
    | some b =>
      have hbm := List.mem_of_find?_eq_some hf
      have hbs : b.slice = shardIndexToSlicend d a.value.shape := by simpa using List.find?_some hf
      refine ⟨b, ?_, ?_⟩
      · unfold bufferFor
        rw [hbD, hf]
      · intro l hll hin
        have hB := hI.buf i a _ ha hbi b hbm
        have hpos : regionPos b.slice l = globalPos d l := by rw [hbs, regionPos_globalPos hdl]
        have hlb : l.length = b.slice.length := by rw [hB.len, hll, hdl]
        have := hB.hit l hlb (by rw [hpos, hbs, inSlice_region hdl]; exact hin)
        rw [hpos] at this
        apply this
        simpa using hcov i a d ha hd _ hin

end Verif.Ckpt
