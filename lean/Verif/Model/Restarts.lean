import Verif.Model.PyFloat

/-!
# Model of `gpx/models/utils.py` (restarts) and of `gpx/models/base.py` (fit control flow)

The minimiser is external. It is a function of the state it starts from and of a hidden external state
`W` (an NLopt object, a call counter, …), it may raise, and it returns the minimised state and the
optimiser's result `O`. The data arguments `x, y, jacobian, …` are passed through unchanged by the
code, so minimiser and loss are modelled as already applied to them: the three functions
`randomized_minimization`, `randomized_minimization_derivs` and `randomized_minimization_ol` are then
the same function.
-/

namespace GPX
noncomputable section

/-- Python `min(l)` on a list of numbers: the first element, replaced whenever a later one is
strictly smaller; `ValueError` on the empty list. -/
def pyMin : List ℝ → Except Err ℝ
  | [] => .error .valueError
  | x :: xs => .ok (xs.foldl (fun m y => if y < m then y else m) x)

/-- Python `l.index(v)`: position of the first element equal to `v`, `ValueError` if there is none. -/
def pyIndex (v : ℝ) : List ℝ → Except Err Nat
  | [] => .error .valueError
  | x :: xs => if x = v then .ok 0 else do
      let i ← pyIndex v xs
      pure (i + 1)

/-- Python `l[i]`. -/
def pyGet {α : Type} (l : List α) (i : Nat) : Except Err α :=
  match l[i]? with
  | some a => .ok a
  | Option.none => .error .indexError

/-- `_check_random_key`, `models/utils.py:90-95`. -/
def checkRandomKey {R : Type} (key : Option R) (numRestarts : Nat) : Except Err Unit :=
  if numRestarts > 0 ∧ key.isNone then .error .valueError else .ok ()

/-! The same on floating-point values. The loss values are objects: `min` returns one of the objects of the
list, `index` finds the first element that *is* this object or compares equal to it (the identity test
comes first and makes `index` succeed on `nan`). Objects of one list are distinguished by their position. -/

/-- The loop of Python's `min`: position and value of the object held, position of the next element. -/
def pyMinLoopF : ℕ × FVal → ℕ → List FVal → ℕ × FVal
  | m, _, [] => m
  | m, i, y :: ys => pyMinLoopF (if y.lt m.2 then (i, y) else m) (i + 1) ys

/-- Python `min(l)`: position and value of the object returned. -/
def pyMinF : List FVal → Except Err (ℕ × FVal)
  | [] => .error .valueError
  | x :: xs => .ok (pyMinLoopF (0, x) 1 xs)

/-- Python `l.index(m)` for an object `m` of the list, from position `i` on. -/
def pyIndexF (m : ℕ × FVal) : ℕ → List FVal → Except Err ℕ
  | _, [] => .error .valueError
  | i, x :: xs => if i = m.1 ∨ x.eq m.2 then .ok i else pyIndexF m (i + 1) xs

variable {S O W R L : Type}

/-- The `for _restart in range(num_restarts)` loop, `models/utils.py:147-158` (`221-242`, `325-352`).
Result: the states, losses and optimiser results appended by the loop, in order; and the external
state. `nxt` is the second component of `jax.random.split`; splitting `None` raises `TypeError`. -/
def restartLoop (minim : W → S → Except Err (S × O) × W) (randomize : R → S → Except Err S)
    (loss : S → L) (nxt : R → R) :
    Nat → Option R → S → W → Except Err (List (S × L × O)) × W
  | 0, _, _, w => (.ok [], w)
  | n + 1, key, s, w =>
    match key with
    | Option.none => (.error .typeError, w)
    | some k =>
      match randomize (nxt k) s with
      | .error e => (.error e, w)
      | .ok s0 =>
        match minim w s0 with
        | (.error e, w') => (.error e, w')
        | (.ok (s1, o), w') =>
          match restartLoop minim randomize loss nxt n (some (nxt k)) s1 w' with
          | (.error e, w'') => (.error e, w'')
          | (.ok rs, w'') => (.ok ((s1, loss s1, o) :: rs), w'')

/-- `idx = losses.index(min(losses)); state = states[idx]; optres = opt_info[idx]` and the return
value, `models/utils.py:160-167` (`244-251`, `354-361`). -/
def pickBest (runs : List (S × ℝ × O)) (returnHistory : Bool) :
    Except Err (S × O × Option (List S × List ℝ)) := do
  let m ← pyMin (runs.map (fun r => r.2.1))
  let idx ← pyIndex m (runs.map (fun r => r.2.1))
  let state ← pyGet (runs.map (fun r => r.1)) idx
  let optres ← pyGet (runs.map (fun r => r.2.2)) idx
  pure (state, optres,
    if returnHistory then some (runs.map (fun r => r.1), runs.map (fun r => r.2.1)) else Option.none)

/-- `randomized_minimization` (`models/utils.py:98-167`), `randomized_minimization_derivs` (`170-251`),
`randomized_minimization_ol` (`254-361`). -/
def randomizedMinimization (minim : W → S → Except Err (S × O) × W) (randomize : R → S → Except Err S)
    (loss : S → ℝ) (nxt : R → R) (key : Option R) (state : S) (numRestarts : Nat)
    (returnHistory : Bool) (w : W) : Except Err (S × O × Option (List S × List ℝ)) × W :=
  match checkRandomKey key numRestarts with
  | .error e => (.error e, w)
  | .ok _ =>
    match minim w state with
    | (.error e, w') => (.error e, w')
    | (.ok (s1, o), w') =>
      match restartLoop minim randomize loss nxt numRestarts key s1 w' with
      | (.error e, w'') => (.error e, w'')
      | (.ok rs, w'') => (pickBest ((s1, loss s1, o) :: rs) returnHistory, w'')

/-- `pickBest` on floating-point losses, `models/utils.py:160-167` (`244-251`, `354-361`). -/
def pickBestF (runs : List (S × FVal × O)) (returnHistory : Bool) :
    Except Err (S × O × Option (List S × List FVal)) := do
  let m ← pyMinF (runs.map (fun r => r.2.1))
  let idx ← pyIndexF m 0 (runs.map (fun r => r.2.1))
  let state ← pyGet (runs.map (fun r => r.1)) idx
  let optres ← pyGet (runs.map (fun r => r.2.2)) idx
  pure (state, optres,
    if returnHistory then some (runs.map (fun r => r.1), runs.map (fun r => r.2.1)) else Option.none)

/-- `randomized_minimization` and its variants (`models/utils.py:98-361`) on floating-point losses, which may
be `nan` or infinite. -/
def randomizedMinimizationF (minim : W → S → Except Err (S × O) × W) (randomize : R → S → Except Err S)
    (loss : S → FVal) (nxt : R → R) (key : Option R) (state : S) (numRestarts : Nat)
    (returnHistory : Bool) (w : W) : Except Err (S × O × Option (List S × List FVal)) × W :=
  match checkRandomKey key numRestarts with
  | .error e => (.error e, w)
  | .ok _ =>
    match minim w state with
    | (.error e, w') => (.error e, w')
    | (.ok (s1, o), w') =>
      match restartLoop minim randomize loss nxt numRestarts key s1 w' with
      | (.error e, w'') => (.error e, w'')
      | (.ok rs, w'') => (pickBestF ((s1, loss s1, o) :: rs) returnHistory, w'')

/-- What a model object (`BaseGP` instance) holds: the state and the attributes set by `fit`. -/
structure GPObj (S O : Type) where
  state : S
  optimizeResults : Option O := Option.none
  statesHistory : Option (List S) := Option.none
  lossesHistory : Option (List ℝ) := Option.none

/-- `BaseGP.fit`, `models/base.py:389-485` (`fit_derivs` 487-589, `fit_ol` 591-661 and `fit_nlopt`
663-709 have the same control flow). `fitFun` is the model's `_fit_fun`, already applied to the data and
keyword arguments. Result: what is returned or raised, the object after the call, the external state.
The local variable `history` is only bound when `minimize` is true: reading it otherwise raises
`UnboundLocalError`, a `NameError`. The warning for an unsuccessful optimisation has no effect on the
state and is not modelled. -/
def baseFit (minim : W → S → Except Err (S × O) × W) (randomize : R → S → Except Err S)
    (loss : S → ℝ) (nxt : R → R) (fitFun : S → Except Err S) (m : GPObj S O) (minimize : Bool)
    (numRestarts : Nat) (key : Option R) (returnHistory : Bool) (w : W) :
    Except Err Unit × GPObj S O × W :=
  let afterMin : Except Err (Option (Option (List S × List ℝ))) × GPObj S O × W :=
    if minimize then
      match randomizedMinimization minim randomize loss nxt key m.state numRestarts returnHistory w with
      | (.error e, w') => (.error e, m, w')
      | (.ok (s, o, h), w') => (.ok (some h), { m with state := s, optimizeResults := some o }, w')
    else (.ok Option.none, m, w)
  match afterMin with
  | (.error e, m', w') => (.error e, m', w')
  | (.ok history, m', w') =>
    match fitFun m'.state with
    | .error e => (.error e, m', w')
    | .ok s =>
      let m'' := { m' with state := s }
      if returnHistory then
        match history with
        | Option.none => (.error .nameError, m'', w')
        | some Option.none => (.error .indexError, m'', w')
        | some (some (ss, ls)) =>
          (.ok (), { m'' with statesHistory := some ss, lossesHistory := some ls }, w')
      else (.ok (), m'', w')

end
end GPX
