import Verif.Model.Pytree

/-!
# Parameter objects and states in memory

`Model/Params.lean` treats parameters and states as values. In Python they are objects: the attributes of a
`Parameter` can be assigned, the dictionary returned by `state.params` is the one the state holds, and
`state.params[...] = p`, `state.kernel = k` change a state in place (`examples/map_estimate.ipynb`, cell 9, does the
former on a copy of a state). Here is the memory: parameters are referred to by their address, a number. JAX arrays are
immutable, so the value of a parameter is a value also here. A dictionary of a state is referred to from that state
only: the constructor and the `params` setter rebuild it with all its sub-dictionaries (`tree_unflatten`,
`model_state.py:93-103`). Assigning a whole sub-dictionary in place is not modelled.
-/

namespace GPX
noncomputable section
variable {K M C : Type}

/-- A `ModelState` object, `model_state.py:42-58, 93-103`. `snapshot` is `_params_structure`: keys, nesting, flags,
bijectors and priors at the time the parameters were last set as a whole (its values are never read). -/
structure StateObj (K M C : Type) where
  kernel : K
  meanFn : M
  params : Dict ℕ
  snapshot : Dict Param
  opts : List (Key × OptVal C)

/-- The memory: the content of the parameter at each address, the first unused address, and the states that have been
made, in order. -/
structure Heap (K M C : Type) where
  cells : ℕ → Param
  next : ℕ
  states : List (StateObj K M C)

/-- Make a new `Parameter` object for every leaf of a dictionary: the dictionary of addresses, the memory afterwards and
the next unused address. -/
def allocDict : Dict Param → (ℕ → Param) → ℕ → Dict ℕ × (ℕ → Param) × ℕ
  | .nil, cells, n => (.nil, cells, n)
  | .leaf k p r, cells, n =>
    let q := allocDict r (Function.update cells n p) (n + 1)
    (.leaf k n q.1, q.2.1, q.2.2)
  | .node k s r, cells, n =>
    let q := allocDict s cells n
    let q' := allocDict r q.2.1 q.2.2
    (.node k q.1 q'.1, q'.2.1, q'.2.2)

/-- What a state shows: the content of its parameters now. -/
def Heap.view (H : Heap K M C) (s : StateObj K M C) : ModelState K M C :=
  ⟨s.kernel, s.meanFn, s.params.map H.cells, s.opts⟩

/-- Store a state that has just been built: its parameters are new objects (`tree_unflatten`, which calls
`Parameter.__init__`, `model_state.py:102`, `parameter.py:66-68`). -/
def Heap.store (H : Heap K M C) (s : ModelState K M C) : Heap K M C :=
  let q := allocDict s.params H.cells H.next
  ⟨q.2.1, q.2.2, H.states ++ [⟨s.kernel, s.meanFn, q.1, s.params, s.opts⟩]⟩

/-- The dictionary given to `update`; parameters are given by their objects. -/
structure HeapUpdate (K M C : Type) where
  kernel : Option K := none
  meanFn : Option M := none
  params : Option (Dict ℕ) := none
  opts : List (Key × OptVal C) := []

/-- `d[k1]...[kn] = p`: an item of a nested dictionary is assigned. -/
def assignItem (p : ℕ) : List Key → Dict ℕ → Except Err (Dict ℕ)
  | [], _ => .error .typeError
  | k :: ks, d =>
    if ks = [] then .ok (d.setLeaf k p)
    else match d.get? k with
      | none => .error .keyError
      | some (.inl _) => .error .typeError
      | some (.inr s) => do
        let s' ← assignItem p ks s
        pure (Dict.setNode k s' d)

/-- What a program can do with parameters and states. -/
inductive HeapOp (K M C : Type) where
  /-- `Parameter(value, trainable, bijector, prior)` -/
  | newParam (p : Param)
  /-- `ModelState(kernel, mean_function, params, **kwargs)` -/
  | newState (kernel : K) (meanFn : M) (params : Dict ℕ) (kw : List (Key × OptVal C))
  /-- `state.update(...)`; with an empty dictionary it is `state.copy()` -/
  | update (s : ℕ) (u : HeapUpdate K M C)
  /-- `jax.tree_util.tree_map(f, state)`, and every other passage of a state through a JAX transformation -/
  | treeMap (s : ℕ) (f : Arr → Arr)
  /-- a method that reads the state and returns a new one: `randomize`, `transform`, `load`, a fit, an optimiser -/
  | derive (s : ℕ) (f : ModelState K M C → Except Err (ModelState K M C))
  /-- `p.value = ...`, `p.trainable = ...`, `p.bijector = ...`, `p.prior = ...` -/
  | setAttr (r : ℕ) (p : Param)
  /-- `state.params[k1]...[kn] = p` -/
  | assign (s : ℕ) (path : List Key) (r : ℕ)
  /-- `state.params = d` -/
  | setParams (s : ℕ) (params : Dict ℕ)
  /-- `state.kernel = k` -/
  | setKernel (s : ℕ) (kernel : K)
  /-- `state.mean_function = m` -/
  | setMean (s : ℕ) (meanFn : M)
  /-- `state.name = value` for a name of an option -/
  | setOpt (s : ℕ) (name : Key) (v : OptVal C)

/-- The state `s` is replaced by `o`. -/
def Heap.setState (H : Heap K M C) (s : ℕ) (o : StateObj K M C) : Heap K M C := { H with states := H.states.set s o }

/-- The effect of an operation on the memory. `newParam`: `parameter.py:34-48`. `newState`: `model_state.py:42-58`.
`update`: `model_state.py:175-190` (the `self.params` passed on are the objects the state holds). `treeMap`:
`model_state.py:146-173`, with the stored `_params_structure`. `setParams`: `model_state.py:93-103`. An operation on a
state that does not exist is a `NameError` of the calling program. An attribute that is not registered as an option is
not part of what the states show. -/
def Heap.step (H : Heap K M C) : HeapOp K M C → Except Err (Heap K M C)
  | .newParam p => do
    let p' ← Param.new p.value p.trainable p.bijector p.prior
    pure ⟨Function.update H.cells H.next p', H.next + 1, H.states⟩
  | .newState k m d kw => do
    let s ← ModelState.new k m (d.map H.cells) kw
    pure (H.store s)
  | .update i u =>
    match H.states[i]? with
    | none => .error .nameError
    | some o => do
      let s ← ((H.view o).update ⟨u.kernel, u.meanFn, u.params.map (fun d => d.map H.cells), u.opts⟩).1
      pure (H.store s)
  | .treeMap i f =>
    match H.states[i]? with
    | none => .error .nameError
    | some o => do
      let s ← ModelState.treeUnflatten ⟨o.kernel, o.meanFn, o.snapshot, o.opts⟩
        ((H.view o).params.treeLeaves.map (fun p => f p.value))
      pure (H.store s)
  | .derive i f =>
    match H.states[i]? with
    | none => .error .nameError
    | some o => do
      let s ← f (H.view o)
      pure (H.store s)
  | .setAttr r p => .ok { H with cells := Function.update H.cells r p }
  | .assign i path r =>
    match H.states[i]? with
    | none => .error .nameError
    | some o => do
      let d ← assignItem r path o.params
      pure (H.setState i { o with params := d })
  | .setParams i d =>
    match H.states[i]? with
    | none => .error .nameError
    | some o => do
      let s ← ModelState.new o.kernel o.meanFn (d.map H.cells) o.opts
      let q := allocDict s.params H.cells H.next
      pure ⟨q.2.1, q.2.2, H.states.set i { o with params := q.1, snapshot := s.params }⟩
  | .setKernel i k =>
    match H.states[i]? with
    | none => .error .nameError
    | some o => .ok (H.setState i { o with kernel := k })
  | .setMean i m =>
    match H.states[i]? with
    | none => .error .nameError
    | some o => .ok (H.setState i { o with meanFn := m })
  | .setOpt i name v =>
    match H.states[i]? with
    | none => .error .nameError
    | some o =>
      if (assocGet name o.opts).isSome then .ok (H.setState i { o with opts := assocSet name v o.opts }) else .ok H

end
end GPX
