import Verif.Model.Bijectors
import Verif.Model.Priors
import Verif.Model.Dict

/-!
# Model of `gpx/parameters/parameter.py`, `gpx/parameters/model_state.py` and
`gpx/optimizers/utils.py`

An array is its shape, its dtype (an opaque name) and its entries in row-major order. A model state
holds a kernel, a mean function, a nested dictionary of parameters and a list of registered options.
-/

namespace GPX
noncomputable section

/-- Python exceptions that the modelled code raises. -/
inductive Err where
  | valueError
  | typeError
  | runtimeError
  | nameError
  | attributeError
  | keyError
  | indexError
deriving DecidableEq, Repr

/-- A numeric array: shape, dtype name, entries in row-major order. -/
structure Arr where
  shape : List Nat
  dtype : Key
  data : List ℝ

/-- The entries fill the shape (an invariant of every real array). -/
def Arr.WF (a : Arr) : Prop := a.data.length = a.shape.prod

/-- Apply a function elementwise. -/
def Arr.map (f : ℝ → ℝ) (a : Arr) : Arr := { a with data := a.data.map f }

/-- A prior object: a distribution with a `shape` and a `dtype` (`priors.py:141-290`). -/
structure PriorObj where
  dist : Prior
  shape : List Nat
  dtype : Key

/-- `Parameter`, `parameters/parameter.py:33-48`. -/
structure Param where
  value : Arr
  trainable : Bool
  bijector : Bijector
  prior : PriorObj

/-- `Parameter.__init__`, `parameters/parameter.py:34-48`: the value is stored, then shape and dtype
are compared with those of the prior (`parameters/utils.py:26-37`). `jnp.array(value)` is modelled as
the identity (no dtype promotion). -/
def Param.new (value : Arr) (trainable : Bool) (bijector : Bijector) (prior : PriorObj) :
    Except Err Param :=
  if value.shape ≠ prior.shape then .error .valueError
  else if value.dtype ≠ prior.dtype then .error .valueError
  else .ok ⟨value, trainable, bijector, prior⟩

/-- The dictionary accepted by `Parameter.update`: the four recognised entries (anything else is
ignored by the code and is not represented). -/
structure ParamUpdate where
  value : Option Arr := none
  trainable : Option Bool := none
  bijector : Option Bijector := none
  prior : Option PriorObj := none

/-- `Parameter.update`, `parameters/parameter.py:70-92`. Second component: the caller's dictionary
after the call, from which the recognised entries have been popped. -/
def Param.update (p : Param) (u : ParamUpdate) : Except Err Param × ParamUpdate :=
  (Param.new (u.value.getD p.value) (u.trainable.getD p.trainable) (u.bijector.getD p.bijector)
    (u.prior.getD p.prior), {})

/-- `Parameter.sample_prior`, `parameters/parameter.py:104-110`, for a draw of the prior. -/
def Param.samplePrior (p : Param) (draw : Arr) : Except Err Param :=
  (p.update { value := some (draw.map p.bijector.forward) }).1

/-- A registered option of a model state (`model_state.py:53-58`). -/
inductive OptVal (C : Type) where
  | none
  | bool (b : Bool)
  | number (dtype : Key) (x : ℝ)
  | arr (a : Arr)
  | callable (c : C)

/-- `if _is_numeric(value): value = jnp.asarray(value)`, `model_state.py:55-56`: Python numbers
become zero-dimensional arrays, arrays, booleans, `None` and callables are kept. -/
def OptVal.norm {C : Type} : OptVal C → OptVal C
  | .number dt x => .arr ⟨[], dt, [x]⟩
  | v => v

/-- `ModelState`, `model_state.py:41-58`; `K`, `M`, `C` are the types of kernels, mean functions
and callable options. -/
structure ModelState (K M C : Type) where
  kernel : K
  meanFn : M
  params : Dict Param
  opts : List (Key × OptVal C)

variable {K M C : Type}

/-- Apply a fallible function to all leaves, in listing order. -/
def Dict.mapE {α β : Type} (f : α → Except Err β) : Dict α → Except Err (Dict β)
  | .nil => .ok .nil
  | .leaf k a r => do
      let b ← f a
      let r' ← Dict.mapE f r
      pure (.leaf k b r')
  | .node k s r => do
      let s' ← Dict.mapE f s
      let r' ← Dict.mapE f r
      pure (.node k s' r')

/-- `ModelState.__init__`, `model_state.py:42-58` with the `params` setter `model_state.py:93-103`:
the parameters are rebuilt with `tree_unflatten`, i.e. with sorted keys and through
`Parameter.__init__` (`stop_gradient` is the identity on values). Keyword arguments arrive in order. -/
def ModelState.new (kernel : K) (meanFn : M) (params : Dict Param) (kwargs : List (Key × OptVal C)) :
    Except Err (ModelState K M C) := do
  let params' ← params.sortKeys.mapE
    (fun p => Param.new p.value p.trainable p.bijector p.prior)
  pure ⟨kernel, meanFn, params', kwargs.map (fun kv => (kv.1, kv.2.norm))⟩

/-- The dictionary accepted by `ModelState.update`: the three reserved keys and the other entries in
insertion order. -/
structure StateUpdate (K M C : Type) where
  kernel : Option K := none
  meanFn : Option M := none
  params : Option (Dict Param) := none
  opts : List (Key × OptVal C) := []

/-- `ModelState.update`, `model_state.py:175-190`. Second component: the caller's dictionary after the
call (`kernel`, `mean_function` and `params` have been popped). -/
def ModelState.update (s : ModelState K M C) (u : StateUpdate K M C) :
    Except Err (ModelState K M C) × StateUpdate K M C :=
  (ModelState.new (u.kernel.getD s.kernel) (u.meanFn.getD s.meanFn) (u.params.getD s.params)
    (u.opts.foldl (fun acc kv => assocSet kv.1 kv.2 acc) s.opts),
   { opts := u.opts })

/-! ### save / load -/

/-- What `np.savez` stores under a name: an array, or a pickled 0-d object array (`None`/`bool`). -/
inductive Dumped where
  | none
  | bool (b : Bool)
  | arr (a : Arr)

def kernelParamsKey : Key := "kernel_params".toList
def paramsKey : Key := "params".toList
def sep : Char := ':'

/-- The options written by `save`, `model_state.py:283-290`: callables are skipped. -/
def dumpOpts : List (Key × OptVal C) → List (Key × Dumped)
  | [] => []
  | (k, .none) :: r => (k, .none) :: dumpOpts r
  | (k, .bool b) :: r => (k, .bool b) :: dumpOpts r
  | (k, .number dt x) :: r => (k, .arr ⟨[], dt, [x]⟩) :: dumpOpts r
  | (k, .arr a) :: r => (k, .arr a) :: dumpOpts r
  | (_, .callable _) :: r => dumpOpts r

/-- `ModelState.save`, `model_state.py:246-295`: the flat dictionary that is written (and returned).
The file system write itself is not modelled: the file is this dictionary. -/
def ModelState.save (s : ModelState K M C) : Except Err (List (Key × Dumped)) :=
  match popNode kernelParamsKey s.params with
  | Option.none => .error .keyError
  | some (kp, others) =>
    let kflat := flattenDict Dumped.none (fun p : Param => Dumped.arr p.value)
      (paramsKey ++ sep :: kernelParamsKey) kp
    let pflat := flattenDict Dumped.none (fun p : Param => Dumped.arr p.value) paramsKey others
    -- params |= kernel_params
    let joined := kflat.foldl (fun acc kv => assocSet kv.1 kv.2 acc) pflat
    .ok ((dumpOpts s.opts).foldl (fun acc kv => assocSet kv.1 kv.2 acc) joined)

/-- `load` turns the 0-d object arrays back into `bool` and `None`, `model_state.py:335-342`. -/
def loadOpt : Dumped → OptVal C
  | .none => .none
  | .bool b => .bool b
  | .arr a => .arr a

/-- The loop over `dumped_dict.items()` of `model_state.py:335-342`, once `"params"` has been popped:
`value.dtype` raises `AttributeError` when the entry is a nested dictionary. -/
def topItems {α : Type} : Dict α → Except Err (List (Key × α))
  | .nil => .ok []
  | .leaf k a r => do
      let r' ← topItems r
      pure ((k, a) :: r')
  | .node _ _ _ => .error .attributeError

/-- `jnp.array(v)` for a stored entry: an array of objects cannot be converted. -/
def Dumped.toArr : Dumped → Except Err Arr
  | .arr a => .ok a
  | .bool b => .ok ⟨[], "bool".toList, [if b then 1 else 0]⟩
  | .none => .error .typeError

/-- `[p.update({"value": v}) for p, v in zip(params, new_values)]`, `model_state.py:329`. -/
def updateValues : List Param → List Dumped → Except Err (List Param)
  | p :: ps, v :: vs => do
      let a ← v.toArr
      let p' ← (p.update { value := some a }).1
      let ps' ← updateValues ps vs
      pure (p' :: ps')
  | _, _ => .ok []

/-- `ModelState.load`, `model_state.py:297-347`, on the content of the file. -/
def ModelState.load (s : ModelState K M C) (file : List (Key × Dumped)) :
    Except Err (ModelState K M C) :=
  match unflattenDict file with
  | Option.none => .error .typeError
  | some dumped =>
    match popNode paramsKey dumped with
    | Option.none => .error .keyError
    | some (dumpedParams, rest) =>
      if dumpedParams.treeLeaves.length ≠ s.params.treeLeaves.length then .error .valueError
      else do
        let params ← updateValues s.params.treeLeaves dumpedParams.treeLeaves
        match s.params.treeUnflatten params with
        | Option.none => .error .valueError
        | some p => do
          let items ← topItems rest
          (s.update { params := some p, opts := items.map (fun kv => (kv.1, loadOpt kv.2)) }).1

/-! ### randomize / transform -/

/-- The loop of `randomize`, `model_state.py:374-382`. `nxt` is the second component of
`jax.random.split`, the only one the code keeps (the first, `subkey`, is discarded);
`sample` is `prior.sample`. Returns the new values and the final key. -/
def randomizeLoop {R : Type} (nxt : R → R) (sample : PriorObj → R → Arr) :
    List Param → R → List Arr × R
  | [], key => ([], key)
  | p :: ps, key =>
    if p.trainable then
      let key' := nxt key
      let v := (sample p.prior key').map p.bijector.forward
      let (vs, kf) := randomizeLoop nxt sample ps key'
      (v :: vs, kf)
    else
      let (vs, kf) := randomizeLoop nxt sample ps key
      (p.value :: vs, kf)

/-- `tree_unflatten(treedef, values)` where the leaves are `Parameter` nodes with one child. -/
def rebuildParams (struct : Dict Param) (values : List Arr) : Except Err (Dict Param) :=
  if values.length ≠ struct.treeLeaves.length then .error .valueError
  else do
    let ps ← (struct.treeLeaves.zip values).mapM
      (fun pv => Param.new pv.2 pv.1.trainable pv.1.bijector pv.1.prior)
    match struct.treeUnflatten ps with
    | Option.none => .error .valueError
    | some d => .ok d

/-- `ModelState.randomize`, `model_state.py:349-389`. -/
def ModelState.randomize {R : Type} (nxt : R → R) (sample : PriorObj → R → Arr)
    (s : ModelState K M C) (key : R) (opt : List (Key × OptVal C)) : Except Err (ModelState K M C) := do
  let state ← (s.update {}).1
  let newParams ← rebuildParams state.params
    (randomizeLoop nxt sample state.params.treeLeaves key).1
  (state.update { params := some newParams, opts := opt }).1

/-- `ModelState.transform`, `model_state.py:391-404`. -/
def ModelState.transform (s : ModelState K M C) (mode : Key) : Except Err (ModelState K M C) :=
  if mode = "forward".toList then do
    let newParams ← rebuildParams s.params
      (s.params.treeLeaves.map (fun p => p.value.map p.bijector.forward))
    (s.update { params := some newParams }).1
  else if mode = "backward".toList then do
    let newParams ← rebuildParams s.params
      (s.params.treeLeaves.map (fun p => p.value.map p.bijector.backward))
    (s.update { params := some newParams }).1
  else .error .valueError

/-! ### `optimizers/utils.py` -/

/-- `ravel_backward_trainables`, `optimizers/utils.py:73-94`: the trainable leaves, unconstrained,
concatenated into one vector. -/
def ravelBackward (params : Dict Param) : List ℝ :=
  (params.treeLeaves.filter (·.trainable)).flatMap
    (fun p => p.value.data.map p.bijector.backward)

/-- The function returned by JAX's `ravel_pytree` (`optimizers/utils.py:93`): cut the vector into
pieces of the original sizes; a vector of another length is refused. -/
def unravelChunks : List Nat → List ℝ → Except Err (List (List ℝ))
  | [], [] => .ok []
  | [], _ :: _ => .error .valueError
  | n :: ns, xs =>
    if xs.length < n then .error .valueError
    else do
      let rest ← unravelChunks ns (xs.drop n)
      pure (xs.take n :: rest)

/-- `tree_map(lambda p0, p: p if p0.trainable else p0, params, trainable_tree)`,
`optimizers/utils.py:119-128`, on the leaves: trainable leaves take the next piece (constrained by the
bijector), frozen leaves are kept. -/
def mergeTrainables : List Param → List (List ℝ) → Except Err (List Param)
  | [], _ => .ok []
  | p :: ps, chunks =>
    if p.trainable then
      match chunks with
      | [] => .error .valueError
      | c :: cs => do
        let p' ← Param.new { p.value with data := c.map p.bijector.forward } p.trainable p.bijector p.prior
        let ps' ← mergeTrainables ps cs
        pure (p' :: ps')
    else do
      let ps' ← mergeTrainables ps chunks
      pure (p :: ps')

/-- `unravel_forward_trainables(...)(xt)`, `optimizers/utils.py:97-131`. -/
def unravelForward (params : Dict Param) (xt : List ℝ) : Except Err (Dict Param) := do
  let chunks ← unravelChunks
    ((params.treeLeaves.filter (·.trainable)).map (fun p => p.value.data.length)) xt
  let leaves ← mergeTrainables params.treeLeaves chunks
  match params.treeUnflatten leaves with
  | Option.none => .error .valueError
  | some d => .ok d

/-! ### Type checks of `models/utils.py` and `log_prior` -/

/-- `_check_recursive_dict_type`, `models/utils.py:44-52`; `isParam` is `isinstance(·, ref_type)`. -/
def checkRecursive {α : Type} (isParam : α → Bool) : Dict α → Except Err Unit
  | .nil => .ok ()
  | .leaf _ a r => if isParam a then checkRecursive isParam r else .error .valueError
  | .node _ s r => do
      checkRecursive isParam s
      checkRecursive isParam r

/-- `init + p.prior.logpdf(p.value)` of `models/gpr.py:180` as an array addition. Broadcasting is
modelled for scalar operands and equal shapes; two different non-scalar shapes are refused (JAX also
broadcasts axes of size one, which is not modelled). The dtype of the left operand is kept. -/
def Arr.add (a b : Arr) : Except Err Arr :=
  if a.shape = b.shape then .ok { a with data := List.zipWith (· + ·) a.data b.data }
  else match a.shape, a.data, b.shape, b.data with
    | [], [x], _, _ => .ok { b with data := b.data.map (x + ·) }
    | _, _, [], [y] => .ok { a with data := a.data.map (· + y) }
    | _, _, _, _ => .error .typeError

/-- `log_prior`, `models/gpr.py:177-184`: a reduction over the leaves in sorted key order, starting from
`0.0`. -/
def logPrior (params : Dict Param) : Except Err Arr :=
  params.treeLeaves.foldlM (fun acc p => acc.add (p.value.map p.prior.dist.logpdf))
    ⟨[], "float".toList, [0]⟩

/-- `log_posterior`, `models/gpr.py:187-215`, given the value of the log marginal likelihood
(a scalar array). -/
def logPosterior (lml : Arr) (params : Dict Param) : Except Err Arr := do
  let lp ← logPrior params
  lml.add lp

/-- `neg_log_posterior` and `neg_log_marginal_likelihood` (`models/gpr.py:303-325`, `251-273`). -/
def Arr.neg (a : Arr) : Arr := a.map (fun x => -x)

end
end GPX
