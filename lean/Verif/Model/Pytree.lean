import Verif.Model.Params

/-!
# The pytree protocol and copies of `Parameter` and `ModelState`

`jax.tree_util` splits an object into arrays and a static description, and rebuilds an object of the same description
from other arrays. `jax.lax.stop_gradient` is the identity on values. JAX also rebuilds objects from placeholders that
are not arrays; this is not modelled.
-/

namespace GPX
noncomputable section
variable {K M C : Type}

/-- `Parameter.tree_flatten`, `parameters/parameter.py:57-64`. -/
def Param.treeFlatten (p : Param) : List Arr × (Bool × Bijector × PriorObj) :=
  ([p.value], (p.trainable, p.bijector, p.prior))

/-- `Parameter.tree_unflatten`, `parameters/parameter.py:66-68`: `cls(*children, *aux_data)` has five arguments or
more, or only three, when there is not exactly one child. -/
def Param.treeUnflatten (aux : Bool × Bijector × PriorObj) : List Arr → Except Err Param
  | [v] => Param.new v aux.1 aux.2.1 aux.2.2
  | _ => .error .typeError

/-- `Parameter.copy`, `parameters/parameter.py:94-102`. -/
def Param.copy (p : Param) : Except Err Param := (p.update {}).1

/-- The static description of a `ModelState`: the structure of the parameter dictionary is represented by the
dictionary itself, whose values are not read. -/
structure StateAux (K M C : Type) where
  kernel : K
  meanFn : M
  structure_ : Dict Param
  opts : List (Key × OptVal C)

/-- `ModelState.tree_flatten`, `parameters/model_state.py:146-167`. -/
def ModelState.treeFlatten (s : ModelState K M C) : List Arr × StateAux K M C :=
  (s.params.treeLeaves.map (·.value), ⟨s.kernel, s.meanFn, s.params, s.opts⟩)

/-- `ModelState.tree_unflatten`, `parameters/model_state.py:169-173`. -/
def ModelState.treeUnflatten (aux : StateAux K M C) (children : List Arr) : Except Err (ModelState K M C) := do
  let params ← rebuildParams aux.structure_ children
  ModelState.new aux.kernel aux.meanFn params aux.opts

/-- `jax.tree_util.tree_map(f, state)`, for a function of arrays that does not raise. -/
def ModelState.treeMap (f : Arr → Arr) (s : ModelState K M C) : Except Err (ModelState K M C) :=
  ModelState.treeUnflatten s.treeFlatten.2 (s.treeFlatten.1.map f)

/-- `ModelState.copy`, `parameters/model_state.py:192-196`. -/
def ModelState.copy (s : ModelState K M C) : Except Err (ModelState K M C) := (s.update {}).1

end
end GPX
