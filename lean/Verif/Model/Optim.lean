import Verif.Model.PyFloat
import Mathlib.Data.Nat.Digits.Defs

/-!
# Model of `gpx/optimizers/*.py`

External: SciPy's `minimize`, NLopt, the optax optimiser, `pso_jax.PSO` and JAX's gradients. Each is a
parameter; where it matters it may raise.
-/

namespace GPX
noncomputable section
variable {K M C O : Type}

/-! ### `scipy_optimize.py` -/

/-- `scipy_minimize`, `scipy_optimize.py:35-87` (`scipy_minimize_derivs` and `scipy_minimize_ol`, 90-167,
only fix further arguments of the loss). `solve` is SciPy's `minimize`: it receives the objective and the
starting vector and returns the final vector `optres.x` together with `optres`. The gradient is not
represented. -/
def scipyMinimize (solve : (List ℝ → Except Err ℝ) → List ℝ → Except Err (List ℝ × O))
    (lossFn : ModelState K M C → Except Err ℝ) (state : ModelState K M C) :
    Except Err (ModelState K M C × O) := do
  let x0 := ravelBackward state.params
  let loss := fun xt => do
    let params ← unravelForward state.params xt
    let ustate ← (state.update { params := some params }).1
    lossFn ustate
  let optres ← solve loss x0
  let params ← unravelForward state.params optres.1
  let s ← (state.update { params := some params }).1
  pure (s, optres.2)

/-- `NLoptWrapper`, `nlopt_optimize.py:85-153`: parameters are rebuilt on the state given to the
constructor (`orig`), everything else is taken from the state given to `optimize`. -/
def nloptOptimize (solve : (List ℝ → Except Err ℝ) → List ℝ → Except Err (List ℝ × O))
    (orig : ModelState K M C) (lossFn : ModelState K M C → Except Err ℝ) (state : ModelState K M C) :
    Except Err (ModelState K M C × O) := do
  let x0 := ravelBackward state.params
  let loss := fun xt => do
    let params ← unravelForward orig.params xt
    let ustate ← (state.update { params := some params }).1
    lossFn ustate
  let optres ← solve loss x0
  let params ← unravelForward orig.params optres.1
  let s ← (state.update { params := some params }).1
  pure (s, optres.2)

/-! ### `StateCheckpointer` -/

/-- Split at the last occurrence of a character: what precedes it, and the rest starting with it;
`none` if the character does not occur. -/
def splitLast (c : Char) : List Char → Option (List Char × List Char)
  | [] => none
  | x :: xs =>
    match splitLast c xs with
    | some (a, b) => some (x :: a, b)
    | none => if x = c then some ([], x :: xs) else none

/-- `os.path.splitext` (POSIX), used at `scipy_optimize.py:222`: the extension starts at the last dot of
the last path component, unless only dots precede it in that component. -/
def splitext (p : List Char) : List Char × List Char :=
  let (dir, base) := match splitLast '/' p with
    | some (a, b) => (a ++ b.take 1, b.drop 1)
    | none => ([], p)
  let lead := base.takeWhile (· = '.')
  let rest := base.dropWhile (· = '.')
  match splitLast '.' rest with
  | some (a, ext) => (dir ++ lead ++ a, ext)
  | none => (p, [])

/-- Decimal digits of a number, most significant first (`0` gives the empty list here; `"{:03d}"` pads). -/
def decimal (n : ℕ) : List Char := ((Nat.digits 10 n).map Nat.digitChar).reverse

/-- `"{:03d}".format(n)`: decimal representation padded with zeros on the left to width three. -/
def format03d (n : ℕ) : List Char := List.replicate (3 - (decimal n).length) '0' ++ decimal n

/-- `(name + ".{:03d}" + ext).format(n)`, `scipy_optimize.py:223, 228`. `str.format` also interprets braces
of the user's file name: a doubled brace stands for one brace; any other use of braces raises (a second
replacement field exhausts the single argument or mixes numbering styles, a lone brace is a syntax
error). Raised exceptions (`ValueError`, `IndexError`, `KeyError`) are not distinguished. -/
def unescapeBraces : List Char → Except Err (List Char)
  | [] => .ok []
  | '{' :: '{' :: r => do
      let r' ← unescapeBraces r
      pure ('{' :: r')
  | '}' :: '}' :: r => do
      let r' ← unescapeBraces r
      pure ('}' :: r')
  | c :: r => if c = '{' ∨ c = '}' then .error .valueError else do
      let r' ← unescapeBraces r
      pure (c :: r')

/-- The name produced for the checkpoint with number `n`. -/
def chkName (chkFile : List Char) (n : ℕ) : Except Err (List Char) := do
  let name ← unescapeBraces (splitext chkFile).1
  let ext ← unescapeBraces (splitext chkFile).2
  pure (name ++ '.' :: format03d n ++ ext)

/-- `np.savez(file, …)` appends `.npz` unless the name already ends with it. -/
def savezName (f : List Char) : List Char :=
  if ".npz".toList <:+ f then f else f ++ ".npz".toList

/-- The file system, as far as checkpoints are concerned: name and content, in order of creation. -/
abbrev Files := List (Key × List (Key × Dumped))

/-- `StateCheckpointer.__call__`, `scipy_optimize.py:225-229`, with counter `n`. -/
def checkpoint (state : ModelState K M C) (chkFile : List Char) (n : ℕ) (x : List ℝ) (fs : Files) :
    Except Err Files := do
  let params ← unravelForward state.params x
  let ustate ← (state.update { params := some params }).1
  let f ← chkName chkFile n
  let content ← ustate.save
  pure (assocSet (savezName f) content fs)

/-- Successive calls of one checkpointer object; the counter starts at `n` (`0` for a new object,
`scipy_optimize.py:206`) and grows by one per call (`:229`). -/
def checkpoints (state : ModelState K M C) (chkFile : List Char) :
    ℕ → List (List ℝ) → Files → Except Err Files
  | _, [], fs => .ok fs
  | n, x :: xs, fs => do
      let fs' ← checkpoint state chkFile n x fs
      checkpoints state chkFile (n + 1) xs fs'

/-! ### `optax_optimize.py` -/

/-- An optax optimiser together with JAX's gradient: `init` (`optax_optimize.py:122`), and one step
`updates, opt_state = optimizer.update(grads, opt_state)` given the gradient of the (constrained) loss at
the state; the updates are one array per parameter, in tree order. -/
structure Optimizer (K M C O : Type) where
  init : ModelState K M C → O
  update : ModelState K M C → O → List Arr × O

/-- Elementwise sum of two arrays of the same shape. -/
def Arr.plus (a b : Arr) : Arr := { a with data := List.zipWith (· + ·) a.data b.data }

/-- `optax.apply_updates(state, updates)`, `optax_optimize.py:106, 149`: add to every leaf. -/
def applyUpdates (s : ModelState K M C) (us : List Arr) : Except Err (ModelState K M C) := do
  let params ← rebuildParams s.params (List.zipWith (fun p u => Arr.plus p.value u) s.params.treeLeaves us)
  (s.update { params := some params }).1

/-- `_step` / `_step_with_validation`, `optax_optimize.py:93-108, 133-151`: losses are evaluated at the state
before the update. `losses` evaluates the training loss (and the validation loss, if any). -/
def optaxStep {L : Type} (opt : Optimizer K M C O) (losses : ModelState K M C → Except Err L)
    (o : O) (s : ModelState K M C) : Except Err (O × ModelState K M C × L) := do
  let l ← losses s
  let (us, o') := opt.update s o
  let s' ← applyUpdates s us
  pure (o', s', l)

/-- The training loop, `optax_optimize.py:125-129, 170-177`; returns the appended history. -/
def optaxLoop {L : Type} (opt : Optimizer K M C O) (losses : ModelState K M C → Except Err L) :
    ℕ → O → ModelState K M C → Except Err (ModelState K M C × O × List L)
  | 0, o, s => .ok (s, o, [])
  | n + 1, o, s => do
      let (o', s', l) ← optaxStep opt losses o s
      let (sf, of, ls) ← optaxLoop opt losses n o' s'
      pure (sf, of, l :: ls)

/-- `train_with_constrained_parameters(loop)`, `optax_optimize.py:72-88`, around the loop: go to the
unconstrained space, train with the loss of the constrained state, come back. -/
def constrainedTrain {L : Type} (opt : Optimizer K M C O) (losses : ModelState K M C → Except Err L)
    (nsteps : ℕ) (state : ModelState K M C) : Except Err (ModelState K M C × O × List L) := do
  let s0 ← state.transform "backward".toList
  let (sf, o, ls) ← optaxLoop opt (fun s => do
    let b ← s.transform "forward".toList
    losses b) nsteps (opt.init s0) s0
  let r ← sf.transform "forward".toList
  pure (r, o, ls)

/-- The two histories returned by `optax_minimize`: `valid_loss` only exists with validation data. -/
structure OptaxHistory where
  train : List ℝ
  valid : Option (List ℝ)

/-- `optax_minimize`, `optax_optimize.py:205-250` with `_check_validation` (189-202). `loss d s` is the loss of
the state on the data set `d`; `X`, `Y` are the types of inputs and targets. -/
def optaxMinimize {X Y : Type} (opt : Optimizer K M C O)
    (loss : X → Y → ModelState K M C → Except Err ℝ) (x : X) (y : Y) (xval : Option X) (yval : Option Y)
    (nsteps : ℕ) (state : ModelState K M C) : Except Err (ModelState K M C × O × OptaxHistory) :=
  match xval, yval with
  | some xv, some yv => do
      let (s, o, ls) ← constrainedTrain opt (fun s => do
        let a ← loss x y s
        let b ← loss xv yv s
        pure (a, b)) nsteps state
      pure (s, o, ⟨ls.map Prod.fst, some (ls.map Prod.snd)⟩)
  | none, none => do
      let (s, o, ls) ← constrainedTrain opt (loss x y) nsteps state
      pure (s, o, ⟨ls, none⟩)
  | _, _ => .error .valueError

/-! ### `pso_optimize.py` -/

/-- The loop over repetitions, `pso_optimize.py:105-112`: `fn` starts at infinity, `optres` unbound (`none`);
they are replaced by strictly smaller values, `nan` being smaller than nothing. `pso r` is the result of
repetition `r` (`seed=r`): point and value. -/
def psoLoop (pso : ℕ → List ℝ × FVal) : ℕ → ℕ → Option (List ℝ × FVal) → Option (List ℝ × FVal)
  | 0, _, best => best
  | n + 1, r, best =>
    let t := pso r
    let fn := match best with
      | none => FVal.inf
      | some b => b.2
    psoLoop pso n (r + 1) (if t.2.lt fn then some t else best)

/-- `tree_map(lambda op, fp: op.update(dict(value=fp.value)), state.params, fake_state.params)`,
`pso_optimize.py:116-121`, on the leaves. -/
def copyValues : List Param → List Param → Except Err (List Param)
  | p :: ps, q :: qs => do
      let p' ← (p.update { value := some q.value }).1
      let ps' ← copyValues ps qs
      pure (p' :: ps')
  | [], [] => .ok []
  | _, _ => .error .valueError

/-- `pso_minimize`, `pso_optimize.py:45-127`, for `localopt=False`; `search` is `pso_jax.PSO` applied to the
objective built at lines 99-103. `optres` is unbound when no repetition reports a value below infinity, in
particular when `repeat=0` (`UnboundLocalError`). -/
def psoMinimize (search : (List ℝ → Except Err ℝ) → ℕ → List ℝ × FVal)
    (lossFn : ModelState K M C → Except Err ℝ) (rep : ℕ) (state : ModelState K M C) :
    Except Err (ModelState K M C) := do
  let fakeParams ← state.params.sortKeys.mapE (fun p => (p.update { bijector := some .identity }).1)
  let fake ← (state.update { params := some fakeParams }).1
  let loss := fun xt => do
    let params ← unravelForward fake.params xt
    let ustate ← (fake.update { params := some params }).1
    lossFn ustate
  match psoLoop (search loss) rep 0 none with
  | none => .error .nameError
  | some best => do
    let params ← unravelForward fake.params best.1
    let fake' ← (fake.update { params := some params }).1
    let leaves ← copyValues state.params.treeLeaves fake'.params.treeLeaves
    match state.params.treeUnflatten leaves with
    | none => .error .valueError
    | some optim => (state.update { params := some optim }).1

/-- `pso_minimize` with `localopt=True` (the default), `pso_optimize.py:124-127`: the swarm's state is handed
to `scipy_minimize`, whose optimiser result is dropped. -/
def psoMinimizeLocal (search : (List ℝ → Except Err ℝ) → ℕ → List ℝ × FVal)
    (solve : (List ℝ → Except Err ℝ) → List ℝ → Except Err (List ℝ × O))
    (lossFn : ModelState K M C → Except Err ℝ) (rep : ℕ) (state : ModelState K M C) :
    Except Err (ModelState K M C) := do
  let s ← psoMinimize search lossFn rep state
  let r ← scipyMinimize solve lossFn s
  pure r.1

end
end GPX
