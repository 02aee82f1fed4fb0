import Verif.Props.TrainStart

/-! C98: each name of an initialization reads its own kind of checkpoint. -/

namespace Verif.TrainStart

open Verif FlatDict

variable {D α V : Type}

/-- The configured name decides how the checkpoint is read: if reading it that way fails, the initialization fails with the same error,
and what reading it in another way would give does not matter. -/
theorem C98_methods [DecidableEq D] (env : Mapping.Env D α) (np : Numpy D α) (reader : Reader D α V) (str : V → Option Key)
    (target : Arrays D α) (kwargs : PyDict Key V) (v : V) (name : Key) (method : Method)
    (hown : ∀ k ∈ PyDict.keys kwargs, k ∉ ["train_state".toList, "mesh".toList, "thread_pool".toList, "target".toList])
    (hv : PyDict.get? kwargs "name".toList = some v) (hs : str v = some name)
    (hm : (name, method) ∈ [("initialize_from_vmoe".toList, Method.vmoe), ("initialize_from_vit".toList, .vit),
      ("initialize_from_orbax".toList, .orbax)]) :
    (∀ o e, reader.options (kwargs.filter fun kv => kv.1 ≠ "name".toList) = .ok o →
      reader.read method (kwargs.filter fun kv => kv.1 ≠ "name".toList) target = .error e →
      initializeTrainState env np reader str target kwargs = .error e) ∧
    ∀ reader' : Reader D α V, reader'.options = reader.options → reader'.read method = reader.read method →
      initializeTrainState env np reader' str target kwargs = initializeTrainState env np reader str target kwargs := by
  have hn : ¬ (ownArgs.any fun k => decide (k ∈ PyDict.keys kwargs)) = true := by
    intro h
    obtain ⟨k, h1, h2⟩ := List.any_eq_true.1 h
    exact hown k (of_decide_eq_true h2) (List.mem_append_left ["target".toList] h1)
  have ht : "target".toList ∉ PyDict.keys kwargs := fun h => hown _ h (.tail _ (.tail _ (.tail _ (.head _))))
  have hname : methodOf name = .ok method := by
    simp only [List.mem_cons, List.not_mem_nil, or_false, Prod.mk.injEq] at hm
    rcases hm with ⟨rfl, rfl⟩ | ⟨rfl, rfl⟩ | ⟨rfl, rfl⟩ <;> decide +kernel
  have key : ∀ r : Reader D α V, initializeTrainState env np r str target kwargs =
      initializeFrom env np r method (kwargs.filter fun kv => kv.1 ≠ "name".toList) target := by
    intro r
    rw [initializeTrainState, if_neg hn, hv]
    simp only [hs, hname, bind, Except.bind, if_neg ht]
  refine ⟨fun o e ho he => ?_, fun reader' h1 h2 => ?_⟩
  · rw [key, initializeFrom, ho]
    simp only [bind, Except.bind, source, he]
  · rw [key, key]
    unfold initializeFrom source
    rw [h1, h2]

/-- A configuration that names the initialization from orbax. -/
example : PyDict.get? [("name".toList, "initialize_from_orbax".toList), ("prefix".toList, "x".toList)] "name".toList =
      some "initialize_from_orbax".toList ∧
    ∀ k ∈ PyDict.keys [("name".toList, "initialize_from_orbax".toList), ("prefix".toList, "x".toList)],
      k ∉ ["train_state".toList, "mesh".toList, "thread_pool".toList, "target".toList] := by
  decide +kernel

end Verif.TrainStart
