import Verif.Model.Restarts
import Verif.Model.Optim

/-!
# Model of the estimator interface: `gpx/models/base.py` and the state-level functions of `gpx/models/gpr.py`

The numerical functions (`_fit_dense`, `_predict_dense`, …) are modelled in `Model/GPR.lean`; here they are a record
of functions on arrays that may raise, because this file is about which of them is called, on what, and what is
stored.
-/

namespace GPX
noncomputable section
variable {K M C O W R Out : Type}

def isFittedKey : Key := "is_fitted".toList
def isFittedDerivsKey : Key := "is_fitted_derivs".toList
def xTrainKey : Key := "x_train".toList
def yTrainKey : Key := "y_train".toList
def yDerivsTrainKey : Key := "y_derivs_train".toList
def jacobianTrainKey : Key := "jacobian_train".toList
def jaccoefKey : Key := "jaccoef".toList
def cKey : Key := "c".toList
def muKey : Key := "mu".toList
def lossFnKey : Key := "loss_fn".toList

/-- `getattr(state, name)` for a registered option, `model_state.py:57`. -/
def ModelState.attr (s : ModelState K M C) (name : Key) : Except Err (OptVal C) :=
  match assocGet name s.opts with
  | some v => .ok v
  | Option.none => .error .attributeError

open Classical in
/-- The truth value Python gives to an option in `if state.is_fitted`. -/
def OptVal.truthy : OptVal C → Except Err Bool
  | .none => .ok false
  | .bool b => .ok b
  | .number _ x => .ok (decide (x ≠ 0))
  | .arr a => match a.data with
    | [x] => .ok (decide (x ≠ 0))
    | _ => .error .valueError
  | .callable _ => .ok true

/-- The numerical functions called by the state-level functions of `models/gpr.py`. `params` is the whole parameter
dictionary; coefficients are arrays, the mean is an option value (a number or an array). -/
structure Numerics (K M C Out : Type) where
  /-- `_fit_dense` / `_fit_iter`, gpr.py 417-428 -/
  fit : K → M → Dict Param → (x y : Arr) → (iterative : Bool) → (nPivots : Option ℕ) → Except Err (Arr × OptVal C)
  /-- `_fit_derivs_dense` / `_fit_derivs_iter`, gpr.py 461-474 -/
  fitDerivs : K → Dict Param → (x y jacobian : Arr) → (iterative : Bool) → (nPivots : Option ℕ) →
    Except Err (Arr × OptVal C)
  /-- `jnp.einsum("sv,sfv->sf", c.reshape(ns, nv), jacobian)`, gpr.py 475-476 -/
  jaccoef : (c jacobian : Arr) → Except Err Arr
  /-- `_fit_ol`, gpr.py 514-522 -/
  fitOl : K → M → Dict Param → (x y yDerivs jacobian : Arr) → Except Err (Arr × OptVal C)
  /-- `_predict_dense` / `_predict_iter`, gpr.py 576-593 -/
  predict : K → Dict Param → (xTrain : OptVal C) → (x : Arr) → (c mu : OptVal C) → (fullCovariance iterative : Bool) →
    Except Err Out
  /-- `_predict_derivs_dense` / `_predict_derivs_iter`, gpr.py 633-657; `jaccoef` is `none` for `None` -/
  predictDerivs : K → Dict Param → (xTrain jacobianTrain : OptVal C) → (x jacobian : Arr) → (c : OptVal C) →
    (jaccoef : OptVal C) → (fullCovariance iterative : Bool) → Except Err Out
  /-- `_predict_y_derivs_dense` / `_predict_y_derivs_iter`, gpr.py 695-717 -/
  predictYDerivs : K → Dict Param → (xTrain jacobianTrain : OptVal C) → (x : Arr) → (c mu : OptVal C) →
    (jaccoef : OptVal C) → (fullCovariance iterative : Bool) → Except Err Out
  /-- `_predict_ol`, gpr.py 748-757 -/
  predictOl : K → Dict Param → (xTrain : OptVal C) → (x jacobian : Arr) → (c mu : OptVal C) →
    (fullCovariance : Bool) → Except Err Out

/-- `init`, gpr.py 905-917 (the argument checks are modelled in `Model/Params.lean`). -/
def gprInit (kernel : K) (meanFn : M) (params : Dict Param) (lossFn : C) : Except Err (ModelState K M C) :=
  ModelState.new kernel meanFn params
    [(xTrainKey, .none), (yTrainKey, .none), (lossFnKey, .callable lossFn), (isFittedKey, .bool false),
      (isFittedDerivsKey, .bool false), (cKey, .none), (muKey, .none)]

/-- `GPR._init_default`, gpr.py 926. -/
def gprInitDefault : List (Key × OptVal C) :=
  [(isFittedKey, .bool false), (isFittedDerivsKey, .bool false), (cKey, .none), (muKey, .none)]

/-- `fit`, gpr.py 397-434. -/
def gprFit (num : Numerics K M C Out) (x y : Arr) (iterative : Bool) (nPivots : Option ℕ)
    (s : ModelState K M C) : Except Err (ModelState K M C) := do
  let r ← num.fit s.kernel s.meanFn s.params x y iterative nPivots
  (s.update { opts := [(xTrainKey, .arr x), (yTrainKey, .arr y), (cKey, .arr r.1), (muKey, r.2),
    (isFittedKey, .bool true), (isFittedDerivsKey, .bool false)] }).1

/-- `fit_derivs`, gpr.py 437-489. -/
def gprFitDerivs (num : Numerics K M C Out) (x y jacobian : Arr) (iterative : Bool) (nPivots : Option ℕ)
    (s : ModelState K M C) : Except Err (ModelState K M C) := do
  let r ← num.fitDerivs s.kernel s.params x y jacobian iterative nPivots
  let jaccoef ← num.jaccoef r.1 jacobian
  (s.update { opts := [(xTrainKey, .arr x), (yTrainKey, .arr y), (jacobianTrainKey, .arr jacobian),
    (jaccoefKey, .arr jaccoef), (cKey, .arr r.1), (muKey, r.2), (isFittedKey, .bool false),
    (isFittedDerivsKey, .bool true)] }).1

/-- `fit_ol`, gpr.py 492-536. -/
def gprFitOl (num : Numerics K M C Out) (x y yDerivs jacobian : Arr) (s : ModelState K M C) :
    Except Err (ModelState K M C) := do
  let r ← num.fitOl s.kernel s.meanFn s.params x y yDerivs jacobian
  (s.update { opts := [(xTrainKey, .arr x), (yTrainKey, .arr y), (yDerivsTrainKey, .arr yDerivs),
    (jacobianTrainKey, .arr jacobian), (cKey, .arr r.1), (muKey, r.2), (isFittedKey, .bool true),
    (isFittedDerivsKey, .bool false)] }).1

/-- `predict`, gpr.py 542-593. -/
def gprPredict (num : Numerics K M C Out) (s : ModelState K M C) (x : Arr) (fullCovariance iterative : Bool) :
    Except Err Out := do
  let fitted ← (← s.attr isFittedKey).truthy
  if !fitted then throw .runtimeError
  let derivs ← (← s.attr isFittedDerivsKey).truthy
  if derivs then throw .runtimeError
  if fullCovariance && iterative then throw .runtimeError
  num.predict s.kernel s.params (← s.attr xTrainKey) x (← s.attr cKey) (← s.attr muKey) fullCovariance iterative

/-- `predict_derivs`, gpr.py 596-657. -/
def gprPredictDerivs (num : Numerics K M C Out) (s : ModelState K M C) (x jacobian : Arr)
    (fullCovariance iterative : Bool) : Except Err Out := do
  let derivs ← (← s.attr isFittedDerivsKey).truthy
  if !derivs then throw .runtimeError
  let fitted ← (← s.attr isFittedKey).truthy
  if fitted then throw .runtimeError
  if fullCovariance && iterative then throw .runtimeError
  let jaccoef ← if iterative || fullCovariance then .ok .none else s.attr jaccoefKey
  num.predictDerivs s.kernel s.params (← s.attr xTrainKey) (← s.attr jacobianTrainKey) x jacobian (← s.attr cKey)
    jaccoef fullCovariance iterative

/-- `predict_y_derivs`, gpr.py 660-717. -/
def gprPredictYDerivs (num : Numerics K M C Out) (s : ModelState K M C) (x : Arr)
    (fullCovariance iterative : Bool) : Except Err Out := do
  let derivs ← (← s.attr isFittedDerivsKey).truthy
  if !derivs then throw .runtimeError
  let fitted ← (← s.attr isFittedKey).truthy
  if fitted then throw .runtimeError
  if fullCovariance && iterative then throw .runtimeError
  let jaccoef ← if iterative || fullCovariance then .ok .none else s.attr jaccoefKey
  num.predictYDerivs s.kernel s.params (← s.attr xTrainKey) (← s.attr jacobianTrainKey) x (← s.attr cKey)
    (← s.attr muKey) jaccoef fullCovariance iterative

/-- `predict_ol`, gpr.py 720-757. -/
def gprPredictOl (num : Numerics K M C Out) (s : ModelState K M C) (x jacobian : Arr) (fullCovariance : Bool) :
    Except Err Out := do
  let fitted ← (← s.attr isFittedKey).truthy
  if !fitted then throw .runtimeError
  num.predictOl s.kernel s.params (← s.attr xTrainKey) x jacobian (← s.attr cKey) (← s.attr muKey) fullCovariance

/-- `BaseGP._check_is_fitted`, base.py 381-387. `self.is_fitted_derivs` is a bound method, whose truth value is
`True`, so the condition is never met. -/
def checkIsFitted (s : ModelState K M C) : Except Err Unit :=
  let isFitted : Bool := (assocGet cKey s.opts).isSome
  let isFittedDerivsMethod : Bool := true
  if !isFitted && !isFittedDerivsMethod then .error .runtimeError else .ok ()

/-- `GPR.predict`, base.py 167-187. -/
def GPObj.predict (num : Numerics K M C Out) (m : GPObj (ModelState K M C) O) (x : Arr)
    (fullCovariance iterative : Bool) : Except Err Out := do
  checkIsFitted m.state
  gprPredict num m.state x fullCovariance iterative

/-- `GPR.predict_derivs`, base.py 189-215. -/
def GPObj.predictDerivs (num : Numerics K M C Out) (m : GPObj (ModelState K M C) O) (x jacobian : Arr)
    (fullCovariance iterative : Bool) : Except Err Out := do
  checkIsFitted m.state
  gprPredictDerivs num m.state x jacobian fullCovariance iterative

/-- `GPR.predict_y_derivs`, base.py 217-240. -/
def GPObj.predictYDerivs (num : Numerics K M C Out) (m : GPObj (ModelState K M C) O) (x : Arr)
    (fullCovariance iterative : Bool) : Except Err Out := do
  checkIsFitted m.state
  gprPredictYDerivs num m.state x fullCovariance iterative

/-- `GPR.predict_ol`, base.py 242-264. -/
def GPObj.predictOl (num : Numerics K M C Out) (m : GPObj (ModelState K M C) O) (x jacobian : Arr)
    (fullCovariance : Bool) : Except Err Out := do
  checkIsFitted m.state
  gprPredictOl num m.state x jacobian fullCovariance

/-- `BaseGP.randomize`, base.py 91-97 with `from_state` (67-72): a new object that holds only the new state. -/
def GPObj.randomize (nxt : R → R) (sample : PriorObj → R → Arr) (initDefault : List (Key × OptVal C))
    (m : GPObj (ModelState K M C) O) (key : R) (reset : Bool) : Except Err (GPObj (ModelState K M C) O) := do
  let s ← m.state.randomize nxt sample key (if reset then initDefault else [])
  pure { state := s }

/-- `BaseGP.load`, base.py 78-81. -/
def GPObj.load (m : GPObj (ModelState K M C) O) (file : List (Key × Dumped)) :
    Except Err (GPObj (ModelState K M C) O) := do
  let s ← m.state.load file
  pure { m with state := s }

/-! ### Keyword calls -/

/-- The signature of a Python function without `*args` and `**kwargs`: names of its parameters in order and whether
they have a default. -/
structure Sig where
  params : List (Key × Bool)

/-- Binding of a call with `npos` positional arguments and the keyword arguments `kw` (Python language reference,
"Calls"): `TypeError` when there are too many positional arguments, when a parameter is given twice, when a keyword is
unknown and when a parameter without default is missing. -/
def Sig.bind (f : Sig) (npos : ℕ) (kw : List Key) : Except Err Unit :=
  if f.params.length < npos then .error .typeError
  else if kw.any (fun k => (f.params.take npos).any (fun p => decide (p.1 = k))) then .error .typeError
  else if kw.any (fun k => !(f.params.any (fun p => decide (p.1 = k)))) then .error .typeError
  else if (f.params.drop npos).any (fun p => !p.2 && !(kw.any (fun k => decide (k = p.1)))) then .error .typeError
  else .ok ()

/-- The functions a model class registers for fitting. -/
structure FitFuns where
  fit : Sig
  fitDerivs : Sig
  fitOl : Option Sig

def sig (required optional : List String) : Sig :=
  ⟨required.map (fun s => (s.toList, false)) ++ optional.map (fun s => (s.toList, true))⟩

/-- gpr.py 397-404, 437-445, 492-498, registered at 964-966. -/
def gprFuns : FitFuns :=
  { fit := sig ["state", "x", "y"] ["iterative", "n_pivots", "key_precond"]
    fitDerivs := sig ["state", "x", "y", "jacobian"] ["iterative", "n_pivots", "key_precond"]
    fitOl := some (sig ["state", "x", "y", "y_derivs", "jacobian"] []) }

/-- sgpr.py 309-314, 340-346, registered at 794-795. -/
def sgprFuns : FitFuns :=
  { fit := sig ["state", "x", "y"] ["iterative"]
    fitDerivs := sig ["state", "x", "y", "jacobian"] ["iterative"]
    fitOl := Option.none }

/-- sgpr_rpchol.py 312-317, 352-358, registered at 801-802. -/
def sgprRpcholFuns : FitFuns :=
  { fit := sig ["state", "x", "y"] ["iterative"]
    fitDerivs := sig ["state", "x", "y", "jacobian"] ["iterative"]
    fitOl := Option.none }

/-- The call of `self._fit_fun` in `BaseGP.fit`, base.py 471-478: one positional argument and five keywords. -/
def callFit (cls : FitFuns) (body : ModelState K M C → Except Err (ModelState K M C)) (s : ModelState K M C) :
    Except Err (ModelState K M C) := do
  cls.fit.bind 1 ["x".toList, "y".toList, "iterative".toList, "n_pivots".toList, "key_precond".toList]
  body s

/-- The call of `self._fit_derivs_fun` in `BaseGP.fit_derivs`, base.py 574-582. -/
def callFitDerivs (cls : FitFuns) (body : ModelState K M C → Except Err (ModelState K M C)) (s : ModelState K M C) :
    Except Err (ModelState K M C) := do
  cls.fitDerivs.bind 1 ["x".toList, "y".toList, "jacobian".toList, "iterative".toList, "n_pivots".toList,
    "key_precond".toList]
  body s

/-- The call of `self._fit_ol_fun` in `BaseGP.fit_ol`, base.py 652-654; a class that does not register the function
raises `AttributeError`. -/
def callFitOl (cls : FitFuns) (body : ModelState K M C → Except Err (ModelState K M C)) (s : ModelState K M C) :
    Except Err (ModelState K M C) :=
  match cls.fitOl with
  | Option.none => .error .attributeError
  | some f => do
    f.bind 1 ["x".toList, "y".toList, "y_derivs".toList, "jacobian".toList]
    body s

/-- The call of `self._fit_fun` in `BaseGP.fit_nlopt`, base.py 703. -/
def callFitNlopt (cls : FitFuns) (body : ModelState K M C → Except Err (ModelState K M C)) (s : ModelState K M C) :
    Except Err (ModelState K M C) := do
  cls.fit.bind 1 ["x".toList, "y".toList, "iterative".toList]
  body s

/-- `RBFNet.fit`, rbfnet.py 331-359: the call of `randomized_minimization` (utils.py 98-108) without `loss_fn`.
`rest` is everything after that call. -/
def rbfnetFit (rest : ModelState K M C → Except Err (ModelState K M C)) (s : ModelState K M C) :
    Except Err (ModelState K M C) × ModelState K M C :=
  match (s.update { opts := [("k_mean".toList, .none)] }).1 with
  | .error e => (.error e, s)
  | .ok s1 =>
    match (sig ["key", "state", "x", "y", "loss_fn"]
        ["minimization_function", "num_restarts", "return_history", "opt_kwargs"]).bind 0
        ["key".toList, "state".toList, "x".toList, "y".toList, "minimization_function".toList,
          "num_restarts".toList, "return_history".toList] with
    | .error e => (.error e, s1)
    | .ok _ => match rest s1 with
      | .error e => (.error e, s1)
      | .ok s2 => (.ok s2, s2)

end
end GPX
