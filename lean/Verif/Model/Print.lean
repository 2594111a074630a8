import Verif.Model.Params

/-!
# Model of `ModelState.print_params` (`gpx/parameters/model_state.py:195-239`)

The table printed by `model.print()` (`models/base.py:163-165`, `gpr_td.py:1162-1163`,
`rbfnet.py:327-328`). A row is modelled by the objects whose text it shows; turning them into text
(`str`, `np.array2string`, `tabulate`) is not modelled.
-/

namespace GPX
noncomputable section

/-- One row of the table: the columns of `model_state.py:202-211`. `trainable` … `value` are the
objects whose text is shown (`get_info`, `model_state.py:219-229`). -/
structure ParamRow where
  name : Key
  trainable : Bool
  bijector : Bijector
  prior : PriorObj
  dtype : Key
  shape : List Nat
  value : List ℝ

/-- A row for one parameter: `[name] + list(get_info(p))`, `model_state.py:219-229, 235, 241`. -/
def ParamRow.of (name : Key) (p : Param) : ParamRow :=
  ⟨name, p.trainable, p.bijector, p.prior, p.value.dtype, p.value.shape, p.value.data⟩

namespace Dict
variable {α : Type}

/-- The leaves with their key paths below `pre`, in the order the items are listed. -/
def leavesWithPath (pre : List Key) : Dict α → List (List Key × α)
  | nil => []
  | leaf k a r => (pre ++ [k], a) :: r.leavesWithPath pre
  | node k s r => s.leavesWithPath (pre ++ [k]) ++ r.leavesWithPath pre

/-- `jax.tree_util.tree_leaves_with_path(d)`, `model_state.py:232`: keys are visited in sorted order. -/
def treeLeavesWithPath (d : Dict α) : List (List Key × α) := d.sortKeys.leavesWithPath []

/-- What is left of a dictionary after `d.pop(k)`, `model_state.py:200`. -/
def without (k : Key) : Dict α → Dict α
  | nil => nil
  | leaf k' a r => if k = k' then r else leaf k' a (r.without k)
  | node k' s r => if k = k' then r else node k' s (r.without k)

end Dict

/-- `":".join(path)`, `model_state.py:233`. -/
def colonJoin : List Key → Key
  | [] => []
  | [k] => k
  | k :: ks => k ++ ':' :: colonJoin ks

/-- `"kernel "`, the first word of the rows of kernel parameters, `model_state.py:233`. -/
def kernelWord : Key := "kernel ".toList

/-- The loop over the parameters outside `kernel_params`, `model_state.py:237-241`. A sub-dictionary has
no attribute `value`. (Entries that are `None` are skipped by the code; the model's dictionaries hold
no `None`.) -/
def otherRows : Dict Param → Except Err (List ParamRow)
  | .nil => .ok []
  | .leaf k p r => do
      let rows ← otherRows r
      pure (ParamRow.of k p :: rows)
  | .node _ _ _ => .error .attributeError

/-- `ModelState.print_params`, `model_state.py:195-244`: the rows of the printed table. `params.copy()`
and `pop` work on a copy, so the state itself is not touched. A `kernel_params` entry that is itself a
parameter is a leaf with the empty path. -/
def ModelState.printParams {K M C : Type} (s : ModelState K M C) : Except Err (List ParamRow) :=
  match s.params.get? kernelParamsKey with
  | none => .error .keyError
  | some (.inl p) => do
      let rows ← otherRows (s.params.without kernelParamsKey)
      pure (ParamRow.of kernelWord p :: rows)
  | some (.inr kp) => do
      let rows ← otherRows (s.params.without kernelParamsKey)
      pure (kp.treeLeavesWithPath.map (fun q => ParamRow.of (kernelWord ++ colonJoin q.1) q.2) ++ rows)

end
end GPX
