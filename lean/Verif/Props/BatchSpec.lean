import Verif.Model.BatchSpec
import Verif.Model.DataPipeline
import Verif.Proofs.PyDict
import Verif.Props.Prefetch

/-!
C106: the arrays that a dataset announces are those that it delivers.
-/

namespace Verif.BatchSpec

open Verif Verif.FlatDict Verif.Prefetch

variable {D R : Type}

/-- An array is of the kind that a spec describes: its type, its known dimensions, and as many rows as its first dimension says. -/
def Fits (s : LeafSpec D) (x : Host D R) : Prop :=
  ∃ shape rows, x = .array shape s.dtype rows ∧
    List.Forall₂ (fun o n => o = none ∨ o = some n) s.shape shape ∧ ∀ n ∈ shape.head?, rows.length = n

/-- A cluster of `P` processes that see `perProcess` devices of the mesh each. -/
def Cluster (mesh : List Device) (P perProcess : Nat) : Prop :=
  mesh.Nodup ∧ (∀ d ∈ mesh, d.process < P) ∧ (∀ p < P, (localDevices mesh p).length = perProcess) ∧
    mesh.length = P * perProcess ∧ 0 < P ∧ 0 < perProcess

theorem structOf_ok {mesh : Mesh} {P : Nat} {x : LeafSpec D} {s : Struct D} (h : structOf mesh P x = .ok s) :
    ∃ n r, x.shape = some n :: r ∧ s = ⟨some (n * P) :: r, x.dtype, batchSharding mesh⟩ := by
  unfold structOf at h
  split at h
  · cases h
  · cases h
  · rename_i n r hs
    injection h with h
    exact ⟨n, r, hs, h.symm⟩

/-- For a feature of numbers or booleans, the array that a process delivers is the announced one: the announced sizes (where they
are known), the announced type as JAX stores it, the announced sharding.  It has as many rows as its shape says, the rows of the
batches of all the processes, and all devices hold the same number of them. -/
theorem C106_agree (ty : Types D) (mesh : Mesh) (P perProcess : Nat) (hc : Cluster mesh.devices P perProcess) (spec : LeafSpec D)
    (hty : ty.numeric spec.dtype = true) (s : Struct D) (hs : structOf mesh P spec = .ok s)
    (xs : Nat → Host D R) (hfit : ∀ q < P, Fits spec (xs q)) (p : Nat) (hp : p < P) (o : Out D R)
    (ho : toGlobal ty mesh P p xs = .ok o) :
    ∃ n r rows, o = .global (n :: r) (ty.canon s.dtype) s.sharding rows ∧
      s.shape.head? = some (some n) ∧ List.Forall₂ (fun o n => o = none ∨ o = some n) s.shape (n :: r) ∧
      rows.length = n ∧ rows.Perm ((List.range P).flatMap fun q => (xs q).rows) ∧
      ∃ buf : Device → List R, rows = mesh.devices.flatMap buf ∧ ∀ d ∈ mesh.devices, (buf d).length * mesh.devices.length = n := by
  obtain ⟨b, r', hsh, rfl⟩ := structOf_ok hs
  obtain ⟨hnd, hpr, _, _, _, _⟩ := hc
  have hrows : ∀ q < P, ((xs q).rows).length = b := by
    intro q hq
    obtain ⟨shape, rows, hx, hf, hl⟩ := hfit q hq
    rw [hsh] at hf
    cases hf with
    | cons h1 h2 =>
      rcases h1 with h1 | h1
      · cases h1
      · injection h1 with h1
        rw [hx]
        change rows.length = b
        rw [h1]
        exact hl _ rfl
  obtain ⟨shape, rows, hx, hf, hl⟩ := hfit p hp
  rw [hsh] at hf
  unfold toGlobal at ho
  rw [hx] at ho
  simp only [hty, if_true] at ho
  cases hf with
  | cons h1 h2 =>
    rename_i n r
    have hn : b = n := by
      rcases h1 with h1 | h1
      · cases h1
      · injection h1 with h1
    subst hn
    change (globalArray mesh.devices P (fun q => (xs q).rows) >>= _ : Except PyErr _) = _ at ho
    cases hg : globalArray mesh.devices P (fun q => (xs q).rows) with
    | error e => rw [hg] at ho; cases ho
    | ok out =>
      rw [hg] at ho
      injection ho with ho
      obtain ⟨hlen, hperm, buf, hout, hbuf, _⟩ := C36_global mesh.devices hnd P hpr (fun q => (xs q).rows) b hrows out hg
      exact ⟨b * P, r, out, ho.symm, rfl, List.Forall₂.cons (Or.inr rfl) h2, hlen, hperm, buf, hout, hbuf⟩

/-- The features of a dataset of `get_dataset` have the batch size of a process as the first dimension.  If the batch size passed
the check there, all of them are announced with the configured batch size under their names, and every array of numbers is delivered. -/
theorem C106_batch_size (ty : Types D) (mesh : Mesh) (P perProcess : Nat) (hc : Cluster mesh.devices P perProcess)
    (batchSize b : Nat) (hb : DataPipeline.batchSizePerProcess batchSize P mesh.devices.length = .ok b)
    (spec : PyDict Key (LeafSpec D)) (hspec : ∀ kv ∈ spec, ∃ r, kv.2.shape = some b :: r) (active : Mesh) :
    ∃ structs, announced (some mesh) active P spec = .ok structs ∧ structs.map Prod.fst = spec.map Prod.fst ∧
      (∀ kv ∈ structs, kv.2.shape.head? = some (some batchSize) ∧ kv.2.sharding = batchSharding mesh) ∧
      (∀ k x, PyDict.get? spec k = some x → ∃ s, PyDict.get? structs k = some s ∧ structOf mesh P x = .ok s) ∧
      ∀ kv ∈ spec, ty.numeric kv.2.dtype = true → ∀ xs : Nat → Host D R, (∀ q < P, Fits kv.2 (xs q)) →
        ∀ p < P, ∃ o, toGlobal ty mesh P p xs = .ok o := by
  have hc' := hc
  obtain ⟨hnd, hpr, hloc, hlen, hP, hpp⟩ := hc
  unfold DataPipeline.batchSizePerProcess at hb
  split at hb
  · cases hb
  rename_i hdiv
  push Not at hdiv
  injection hb with hb
  have hbP : b * P = batchSize := by rw [← hb]; exact Nat.div_mul_cancel (Nat.dvd_of_mod_eq_zero hdiv.1)
  have hne : mesh.devices ≠ [] := by
    intro h
    rw [h] at hlen
    simp only [List.length_nil] at hlen
    have := Nat.mul_pos hP hpp
    omega
  have hu : useMesh (some mesh) active = .ok mesh := by
    unfold useMesh
    exact if_neg hne
  have hmap : ∀ l : List (Key × LeafSpec D), (∀ kv ∈ l, ∃ r, kv.2.shape = some b :: r) →
      ∃ structs : List (Key × Struct D), l.mapM (fun kv => (structOf mesh P kv.2).map fun s => (kv.1, s)) = .ok structs ∧
        structs.map Prod.fst = l.map Prod.fst ∧
        (∀ kv ∈ structs, kv.2.shape.head? = some (some batchSize) ∧ kv.2.sharding = batchSharding mesh) ∧
        ∀ k x, PyDict.get? l k = some x → ∃ s, PyDict.get? structs k = some s ∧ structOf mesh P x = .ok s := by
    intro l
    induction l with
    | nil => exact fun _ => ⟨[], rfl, rfl, by simp, by simp [PyDict.get?]⟩
    | cons kv l ih =>
      intro h
      obtain ⟨st, e1, e2, e3, e4⟩ := ih fun kv hkv => h kv (List.mem_cons_of_mem _ hkv)
      obtain ⟨r, hr⟩ := h kv List.mem_cons_self
      have hs : structOf mesh P kv.2 = .ok ⟨some batchSize :: r, kv.2.dtype, batchSharding mesh⟩ := by
        unfold structOf
        rw [hr, ← hbP]
      refine ⟨(kv.1, ⟨some batchSize :: r, kv.2.dtype, batchSharding mesh⟩) :: st, ?_, ?_, ?_, ?_⟩
      · rw [List.mapM_cons, hs, e1]
        rfl
      · simp [e2]
      · intro kv' hkv'
        rcases List.mem_cons.1 hkv' with h' | h'
        · subst h'
          exact ⟨rfl, rfl⟩
        · exact e3 _ h'
      · intro k x hx
        obtain ⟨k0, x0⟩ := kv
        by_cases hk : k0 = k
        · subst hk
          have : x0 = x := by simpa [PyDict.get?] using hx
          subst this
          exact ⟨_, by simp [PyDict.get?], hs⟩
        · have hx' : PyDict.get? l k = some x := by simpa [PyDict.get?, hk] using hx
          obtain ⟨s, g1, g2⟩ := e4 k x hx'
          exact ⟨s, by simpa [PyDict.get?, hk] using g1, g2⟩
  obtain ⟨st, e1, e2, e3, e4⟩ := hmap spec hspec
  refine ⟨st, ?_, e2, e3, e4, ?_⟩
  · unfold announced
    rw [hu]
    exact e1
  · intro kv hkv hty xs hfit p hp
    obtain ⟨r, hr⟩ := hspec kv hkv
    have hrows : ∀ q < P, ((xs q).rows).length = b := by
      intro q hq
      obtain ⟨shape, rows, hx, hf, hl⟩ := hfit q hq
      rw [hr] at hf
      cases hf with
      | cons h1 h2 =>
        rcases h1 with h1 | h1
        · cases h1
        · injection h1 with h1
          rw [hx]
          change rows.length = b
          rw [h1]
          exact hl _ rfl
    have hdvd : perProcess ∣ b := by
      have h1 : P * perProcess ∣ P * b := by
        rw [← hlen, Nat.mul_comm P b, hbP]
        exact Nat.dvd_of_mod_eq_zero hdiv.2
      exact Nat.dvd_of_mul_dvd_mul_left hP h1
    obtain ⟨out, hg⟩ := C36_global_exists mesh.devices P perProcess hpp hloc hlen (fun q => (xs q).rows) b hrows hdvd
    obtain ⟨shape, rows, hx, hf, hl⟩ := hfit p hp
    rw [hr] at hf
    cases hf with
    | cons h1 h2 =>
      unfold toGlobal
      rw [hx]
      simp only [hty, if_true, hg]
      exact ⟨_, rfl⟩

/-- A dataset is announced exactly if there is a mesh with devices and every feature has a first dimension of known size; the model is
initialized exactly if there also is an image. -/
theorem C106_errors (given : Option Mesh) (active : Mesh) (P : Nat) (spec : PyDict Key (LeafSpec D)) :
    ((∃ structs, announced given active P spec = .ok structs) ↔
      (given.getD active).devices ≠ [] ∧ ∀ kv ∈ spec, ∃ n r, kv.2.shape = some n :: r) ∧
    ((given.getD active).devices = [] → announced given active P spec = .error .assertionError) ∧
    (∀ x : LeafSpec D, ∀ m, x.shape = [] → structOf m P x = .error .indexError) ∧
    (∀ x : LeafSpec D, ∀ m r, x.shape = none :: r → structOf m P x = .error .typeError) ∧
    ((∃ s, imageStruct given active P spec = .ok s) ↔
      (∃ structs, announced given active P spec = .ok structs) ∧ "image".toList ∈ spec.map Prod.fst) := by
  have hmap : ∀ (m : Mesh) (l : List (Key × LeafSpec D)),
      (∀ structs, l.mapM (fun kv => (structOf m P kv.2).map fun s => (kv.1, s)) = .ok structs →
        (∀ kv ∈ l, ∃ n r, kv.2.shape = some n :: r) ∧ structs.map Prod.fst = l.map Prod.fst) ∧
      ((∀ kv ∈ l, ∃ n r, kv.2.shape = some n :: r) →
        ∃ structs, l.mapM (fun kv => (structOf m P kv.2).map fun s => (kv.1, s)) = .ok structs) := by
    intro m l
    induction l with
    | nil => exact ⟨fun st h => by cases h; simp, fun _ => ⟨_, rfl⟩⟩
    | cons kv l ih =>
      constructor
      · intro st h
        rw [List.mapM_cons] at h
        cases hs : structOf m P kv.2 with
        | error e => rw [hs] at h; cases h
        | ok s =>
          rw [hs] at h
          change (l.mapM _ >>= _ : Except PyErr _) = _ at h
          cases hl : l.mapM (fun kv => (structOf m P kv.2).map fun s => (kv.1, s)) with
          | error e => rw [hl] at h; cases h
          | ok st' =>
            rw [hl] at h
            injection h with h
            subst h
            obtain ⟨h1, h2⟩ := ih.1 st' hl
            obtain ⟨n, r, hsh, _⟩ := structOf_ok hs
            refine ⟨?_, by simp [h2]⟩
            intro kv' hkv'
            rcases List.mem_cons.1 hkv' with h' | h'
            · subst h'
              exact ⟨n, r, hsh⟩
            · exact h1 _ h'
      · intro h
        obtain ⟨st, hst⟩ := ih.2 fun kv hkv => h kv (List.mem_cons_of_mem _ hkv)
        obtain ⟨n, r, hr⟩ := h kv List.mem_cons_self
        refine ⟨(kv.1, ⟨some (n * P) :: r, kv.2.dtype, batchSharding m⟩) :: st, ?_⟩
        have hs : structOf m P kv.2 = .ok ⟨some (n * P) :: r, kv.2.dtype, batchSharding m⟩ := by
          unfold structOf
          rw [hr]
        rw [List.mapM_cons, hs, hst]
        rfl
  have hann : (given.getD active).devices ≠ [] → announced given active P spec =
      spec.mapM (fun kv => (structOf (given.getD active) P kv.2).map fun s => (kv.1, s)) := by
    intro h
    unfold announced useMesh
    simp only [h, if_false]
    rfl
  have hann' : (given.getD active).devices = [] → announced given active P spec = .error .assertionError := by
    intro h
    unfold announced useMesh
    simp only [h, if_true]
    rfl
  refine ⟨⟨?_, ?_⟩, hann', ?_, ?_, ?_⟩
  · rintro ⟨st, h⟩
    by_cases hd : (given.getD active).devices = []
    · rw [hann' hd] at h
      cases h
    · rw [hann hd] at h
      exact ⟨hd, ((hmap _ _).1 st h).1⟩
  · rintro ⟨hd, h⟩
    rw [hann hd]
    exact (hmap _ _).2 h
  · intro x m h
    unfold structOf
    rw [h]
  · intro x m r h
    unfold structOf
    rw [h]
  · cases ha : announced given active P spec with
    | error e =>
      have : imageStruct given active P spec = .error e := by
        unfold imageStruct
        rw [ha]
        rfl
      rw [this]
      constructor
      · rintro ⟨_, h⟩
        cases h
      · rintro ⟨⟨_, h⟩, _⟩
        cases h
    | ok st =>
      have hk : st.map Prod.fst = spec.map Prod.fst := by
        by_cases hd : (given.getD active).devices = []
        · rw [hann' hd] at ha
          cases ha
        · rw [hann hd] at ha
          exact ((hmap _ _).1 st ha).2
      have hi : imageStruct given active P spec =
          (match PyDict.get? st "image".toList with | some x => .ok x | none => .error .keyError) := by
        unfold imageStruct
        rw [ha]
        rfl
      rw [hi, ← hk]
      cases hg : PyDict.get? st "image".toList with
      | none =>
        constructor
        · rintro ⟨_, h⟩
          cases h
        · rintro ⟨_, h⟩
          have := (PyDict.get?_eq_none st "image".toList).1 hg
          exact absurd h this
      | some x =>
        refine ⟨fun _ => ⟨⟨_, rfl⟩, ?_⟩, fun _ => ⟨x, rfl⟩⟩
        by_contra h
        have := (PyDict.get?_eq_none st "image".toList).2 h
        rw [hg] at this
        cases this

/-- A ragged feature and a feature of another type, such as text, are announced as global arrays, but delivered as what the process
read. -/
theorem C106_others (ty : Types D) (mesh : Mesh) (P p : Nat) (xs : Nat → Host D R) :
    (∀ d, xs p = .ragged d → toGlobal ty mesh P p xs = .ok (.host (.ragged d))) ∧
    (∀ shape d rows, xs p = .array shape d rows → ty.numeric d = false →
      toGlobal ty mesh P p xs = .ok (.host (.array shape d rows))) := by
  constructor
  · intro d h
    unfold toGlobal
    rw [h]
  · intro shape d rows h hd
    unfold toGlobal
    rw [h]
    simp [hd]

/-- The announced and the delivered arrays are not always the same: for a feature of text, two processes with one row each announce an
array of two rows, and the first process delivers an array of one. -/
theorem C106_text_counterexample :
    ∃ (mesh : Mesh) (ty : Types Bool) (spec : LeafSpec Bool) (xs : Nat → Host Bool Nat) (s : Struct Bool) (rows : List Nat),
      Cluster mesh.devices 2 1 ∧ (∀ q < 2, Fits spec (xs q)) ∧ structOf mesh 2 spec = .ok s ∧ s.shape = [some 2] ∧
      toGlobal ty mesh 2 0 xs = .ok (.host (.array [1] false rows)) := by
  refine ⟨⟨["d".toList], [⟨0, 0⟩, ⟨1, 1⟩]⟩, ⟨id, id⟩, ⟨[some 1], false, false⟩, fun q => .array [1] false [q], _, [0], ?_, ?_, rfl, rfl, rfl⟩
  · refine ⟨by decide, by decide, ?_, rfl, by decide, by decide⟩
    decide
  · intro q _
    exact ⟨[1], [q], rfl, List.Forall₂.cons (Or.inr rfl) List.Forall₂.nil, by simp⟩

/-- The hypotheses of `C106_agree` and `C106_batch_size` hold for two processes with one device each and images of two rows. -/
example : ∃ o, toGlobal (R := List Nat) ⟨fun d : Bool => d, id⟩ ⟨["d".toList], [⟨0, 0⟩, ⟨1, 1⟩]⟩ 2 1
    (fun q => .array [1, 2] true [[q, q + 5]]) = .ok o ∧
    o = .global [2, 2] true (batchSharding ⟨["d".toList], [⟨0, 0⟩, ⟨1, 1⟩]⟩) [[0, 5], [1, 6]] := by
  refine ⟨_, ?_, rfl⟩
  rfl

example : DataPipeline.batchSizePerProcess 2 2 2 = .ok 1 ∧ Cluster [⟨0, 0⟩, ⟨1, 1⟩] 2 1 := by
  refine ⟨by decide, by decide, by decide, ?_, rfl, by decide, by decide⟩
  decide

/-- A dataset of images is announced. -/
example : imageStruct none ⟨["d".toList], [⟨0, 0⟩, ⟨1, 1⟩]⟩ 2 [("image".toList, (⟨[some 1, some 2], true, false⟩ : LeafSpec Bool))] =
    .ok ⟨[some 2, some 2], true, batchSharding ⟨["d".toList], [⟨0, 0⟩, ⟨1, 1⟩]⟩⟩ := by
  rfl

end Verif.BatchSpec
