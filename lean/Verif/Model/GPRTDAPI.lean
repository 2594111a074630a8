import Verif.Model.API

/-!
# Model of the class `GPR_TD`, `gpx/models/gpr_td.py` 950-1170

As in `Model/API.lean` the numerical functions (modelled in `Model/GPRTD.lean`) are a record of functions on arrays that
may raise. Some parameters of a GPR_TD may be Python's `None` (`sigma_derivs2` of a model for one set of derivatives).
For JAX a `None` is an empty subtree, so the parameters of the model state are the others, and the names of those that are
`None` are kept beside it: no method of the class changes which ones they are.
-/

namespace GPX
noncomputable section
variable {K M C O P Out : Type}

def sigmaTargetsKey : Key := "sigma_targets".toList
def sigmaDerivsKey : Key := "sigma_derivs".toList
def sigmaDerivs2Key : Key := "sigma_derivs2".toList
def jacobianTrain2Key : Key := "jacobian_train_2".toList
def jaccoef2Key : Key := "jaccoef_2".toList
def yDerivsTrain2Key : Key := "y_derivs_train_2".toList
def cTargetsKey : Key := "c_targets".toList

/-- An argument that may be `None`, as the value of an option. -/
def optArr : Option Arr → OptVal C
  | Option.none => .none
  | some a => .arr a

/-- The parameters that are not `None`, in the order of the dictionary of gpr_td.py 963-968. -/
def tdParams (kernelParams : Option (Dict Param)) (sigmaTargets sigmaDerivs sigmaDerivs2 : Option Param) : Dict Param :=
  let addLeaf (k : Key) (p : Option Param) (rest : Dict Param) : Dict Param :=
    match p with
    | some p => .leaf k p rest
    | Option.none => rest
  let sigmas := addLeaf sigmaTargetsKey sigmaTargets (addLeaf sigmaDerivsKey sigmaDerivs
    (addLeaf sigmaDerivs2Key sigmaDerivs2 .nil))
  match kernelParams with
  | some kp => .node kernelParamsKey kp sigmas
  | Option.none => sigmas

/-- The names of the parameters that are `None`. -/
def tdMissing (kernelParams : Option (Dict Param)) (sigmaTargets sigmaDerivs sigmaDerivs2 : Option Param) : List Key :=
  (if kernelParams.isNone then [kernelParamsKey] else []) ++ (if sigmaTargets.isNone then [sigmaTargetsKey] else []) ++
    (if sigmaDerivs.isNone then [sigmaDerivsKey] else []) ++ (if sigmaDerivs2.isNone then [sigmaDerivs2Key] else [])

/-- `GPR_TD.__init__`, gpr_td.py 951-984: no argument is checked or given a default. -/
def tdInit (kernel : K) (meanFn : M) (params : Dict Param) (lossFn : C) : Except Err (ModelState K M C) :=
  ModelState.new kernel meanFn params
    [(lossFnKey, .callable lossFn), (xTrainKey, .none), (jacobianTrainKey, .none), (jacobianTrain2Key, .none),
      (jaccoefKey, .none), (jaccoef2Key, .none), (yTrainKey, .none), (yDerivsTrainKey, .none),
      (yDerivsTrain2Key, .none), (isFittedKey, .bool false), (cKey, .none), (cTargetsKey, .none), (muKey, .none)]

/-- The arguments of `GPR_TD.fit` that reach the linear fit, gpr_td.py 986-1001. -/
structure TDFitArgs (P : Type) where
  x : Arr
  y : Arr
  jacobian : Arr
  yDerivs : Arr
  jacobian2 : Option Arr := none
  yDerivs2 : Option Arr := none
  iterative : Bool := false
  nPivots : Option ℕ := none
  keyPrecond : Option P := none
  cGuess : Option Arr := none

/-- The numerical functions called by the class. -/
structure TDNumerics (K M C P Out : Type) where
  /-- `_fit_dense`, gpr_td.py 638-681 -/
  fitDense : K → M → Dict Param → (x y jacobian yDerivs : Arr) → (jacobian2 yDerivs2 : Option Arr) →
    Except Err (Arr × OptVal C)
  /-- `_fit_iter`, gpr_td.py 684-745 -/
  fitIter : K → M → Dict Param → (x y jacobian yDerivs : Arr) → (jacobian2 yDerivs2 : Option Arr) →
    (nPivots : Option ℕ) → (key : P) → (cGuess : Option Arr) → Except Err (Arr × OptVal C)
  /-- `c[:ns].reshape(-1)`, gpr_td.py 1074 -/
  cTargets : (c jacobian : Arr) → Except Err Arr
  /-- the contraction of the coefficients of the first derivatives with `jacobian`, gpr_td.py 1075-1076 -/
  jaccoef : (c jacobian : Arr) → Except Err Arr
  /-- the contraction of the coefficients of the second derivatives with `jacobian_2`, gpr_td.py 1077-1082 -/
  jaccoef2 : (c jacobian jacobian2 : Arr) → Except Err Arr
  /-- `_predict_dense` / `_predict_iter`, gpr_td.py 748-845 -/
  predict : K → Dict Param → (xTrain jacobianTrain jacobianTrain2 : OptVal C) → (x jacobian : Arr) →
    (jacobian2 : Option Arr) → (c mu : OptVal C) → (iterative : Bool) → Except Err Out

/-- `params["sigma_targets"].value`, `params["sigma_derivs"].value` and, with a second set, `params["sigma_derivs2"].value`
(gpr_td.py 66-70, 184-185 and 196): an `AttributeError` when one of them is `None`. In the iterative fit the selection of
pivots comes first and may raise something else. -/
def tdNeeds (missing : List Key) (jacobian2 : Option Arr) : Except Err Unit :=
  if sigmaTargetsKey ∈ missing ∨ sigmaDerivsKey ∈ missing ∨ (jacobian2.isSome ∧ sigmaDerivs2Key ∈ missing) then
    .error .attributeError
  else .ok ()

/-- The call of the fit function, gpr_td.py 1050-1071. The random key is that of the defaults, `gpxargs.key_precond`: the
argument `key_precond` of `fit` is not used. -/
def tdFitCoefs (num : TDNumerics K M C P Out) (missing : List Key) (gpxKey : P) (a : TDFitArgs P) (s : ModelState K M C) :
    Except Err (Arr × OptVal C) := do
  tdNeeds missing a.jacobian2
  if a.iterative then
    num.fitIter s.kernel s.meanFn s.params a.x a.y a.jacobian a.yDerivs a.jacobian2 a.yDerivs2 a.nPivots gpxKey a.cGuess
  else num.fitDense s.kernel s.meanFn s.params a.x a.y a.jacobian a.yDerivs a.jacobian2 a.yDerivs2

/-- `GPR_TD.fit` after the optimisation, gpr_td.py 1050-1098. The optimisation and the histories (gpr_td.py 1017-1049 and
1100-1102) are those of `BaseGP.fit`, so that the whole method is `baseFit` with this function. -/
def tdFit (num : TDNumerics K M C P Out) (missing : List Key) (gpxKey : P) (a : TDFitArgs P) (s : ModelState K M C) :
    Except Err (ModelState K M C) :=
  match tdFitCoefs num missing gpxKey a s with
  | .error e => .error e
  | .ok (c, mu) => do
    let cTargets ← num.cTargets c a.jacobian
    let jaccoef ← num.jaccoef c a.jacobian
    let jaccoef2 ← match a.jacobian2 with
      | some j2 => (num.jaccoef2 c a.jacobian j2).map .arr
      | Option.none => .ok .none
    (s.update { opts := [(xTrainKey, .arr a.x), (yTrainKey, .arr a.y), (jacobianTrainKey, .arr a.jacobian),
      (jacobianTrain2Key, optArr a.jacobian2), (jaccoefKey, .arr jaccoef), (jaccoef2Key, jaccoef2),
      (yDerivsTrainKey, .arr a.yDerivs), (yDerivsTrain2Key, optArr a.yDerivs2), (cKey, .arr c),
      (cTargetsKey, .arr cTargets), (muKey, mu), (isFittedKey, .bool true)] }).1

/-- `GPR_TD.predict`, gpr_td.py 1106-1160. -/
def tdPredictState (num : TDNumerics K M C P Out) (s : ModelState K M C) (x jacobian : Arr) (jacobian2 : Option Arr)
    (iterative : Bool) : Except Err Out := do
  let fitted ← (← s.attr isFittedKey).truthy
  if !fitted then throw .runtimeError
  num.predict s.kernel s.params (← s.attr xTrainKey) (← s.attr jacobianTrainKey) (← s.attr jacobianTrain2Key) x jacobian
    jacobian2 (← s.attr cKey) (← s.attr muKey) iterative

/-- `GPR_TD.save`, gpr_td.py 1165-1166 with `ModelState.save`, model_state.py 246-295: the values of all parameters are read
(`None.keys()` for the kernel parameters, `None.value` for the others raise `AttributeError`) before anything is
written. -/
def tdSave (missing : List Key) (s : ModelState K M C) : Except Err (List (Key × Dumped)) :=
  if missing = [] then s.save else .error .attributeError

/-- `GPR_TD.load`, gpr_td.py 1168-1170: the parameters of `self` that are `None` stay so. -/
def tdLoad (s : ModelState K M C) (file : List (Key × Dumped)) : Except Err (ModelState K M C) := s.load file

end
end GPX
