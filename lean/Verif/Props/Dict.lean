import Verif.Lemmas.Dict

/-! # C07: flattening and unflattening nested dictionaries -/

namespace GPX.Props
open GPX Spec

/-- C07, full statement: for every nested dictionary whose keys are not empty and do not contain
the separator, unflattening the flattened dictionary gives the dictionary back (leaves mapped by
`map_value`). It is false of the code, see `C07_roundtrip_false`. -/
def C07_full : Prop :=
  ∀ (d : Dict Nat), d.KeysDistinct → WellKeyed d →
    unflattenDict (flattenDict 0 id [] d) = some d

/-- C07. Round trip for every nesting, under one extra hypothesis that the code needs: no
one-character dictionary name reappears as the name of a leaf below it (`subk is keys[-1]` compares
object identity, and CPython shares one-character strings). -/
theorem C07_roundtrip_partial {α β : Type} (pyNone : β) (mv : α → β) (d : Dict α)
    (hk : d.KeysDistinct) (hw : WellKeyed d) (hs : NoShortShadow d) :
    unflattenDict (flattenDict pyNone mv [] d) = some (d.map mv) := by
  by_cases hd : d = .nil
  · subst hd; rfl
  · rw [flattenDict_eq _ _ _ _ hd, unflattenDict]
    have h := flattenItems_paths pyNone mv d hw hk [] (by simp)
    simp only [joinPath, List.nil_append] at h
    rw [h, unflattenLoop_join _ _ (fun q hq => ⟨paths_ne_nil pyNone mv d q hq,
      paths_colon_free pyNone mv d hw q hq⟩), walkPaths_paths pyNone mv d hw hk hs _ (by simp [Dict.keys])]
    rfl

/-- A two-kernel parameter tree with an empty sub-dictionary satisfies the hypotheses. -/
example :
    let d : Dict Nat := .node "kernel_params".toList
      (.node "kernel1".toList (.leaf "lengthscale".toList 3 .nil)
        (.node "kernel2".toList .nil .nil)) (.leaf "sigma".toList 5 .nil)
    d.KeysDistinct ∧ WellKeyed d ∧ NoShortShadow d := by
  simp only [Dict.KeysDistinct, Dict.keys, WellKeyed, NoShortShadow, leafKeys, goodKey]
  refine ⟨?_, ?_, ?_⟩ <;> simp

/-- C07 is false of the code: `{"x": {"y": {"x": 7}}}` flattens to `{"x:y:x": 7}` and unflattens to
`{"x": 7, "y": {"x": 7}}`. -/
theorem C07_roundtrip_false : ¬ C07_full := by
  intro h
  have h1 := h (.node ['x'] (.node ['y'] (.leaf ['x'] 7 .nil) .nil) .nil)
    (by simp [Dict.KeysDistinct, Dict.keys]) (by simp [WellKeyed, goodKey])
  exact absurd h1 (by decide)

/-- What the code returns instead on that dictionary. -/
theorem C07_roundtrip_counterexample :
    unflattenDict (flattenDict 0 id []
      (.node ['x'] (.node ['y'] (.leaf ['x'] 7 .nil) .nil) .nil)) =
      some (Dict.leaf ['x'] 7 (.node ['y'] (.leaf ['x'] 7 .nil) .nil)) := by decide

end GPX.Props
