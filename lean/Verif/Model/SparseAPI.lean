import Verif.Model.Posterior

/-!
# Model of the state-level functions of `gpx/models/sgpr.py` and `gpx/models/sgpr_rpchol.py`

`fit`, `fit_derivs`, `predict`, `predict_derivs`, `predict_y_derivs` and `init`. As in `Model/API.lean` the numerical
functions are a record of functions on arrays that may raise: this file is about which of them is called, on what, and
what is stored. The two models differ in where the inducing points live: SGPR keeps them among its parameters,
SGPR_RPChol selects them in each fit and keeps them as options of the state.
-/

namespace GPX
noncomputable section
variable {K M C O R Out : Type}

def xLocsKey : Key := "x_locs".toList
def jacobianLocsKey : Key := "jacobian_locs".toList
def nLocsKey : Key := "n_locs".toList
def keyKey : Key := "key".toList
def yMeanKey : Key := "y_mean".toList

/-- The numerical functions called by `models/sgpr.py`. -/
structure SgprNumerics (K M C Out : Type) where
  /-- `_fit_dense` / `_fit_iter`, sgpr.py 325-333 -/
  fit : K → M → Dict Param → (xLocs x y : Arr) → (iterative : Bool) → Except Err (Arr × OptVal C)
  /-- `_fit_derivs_dense` / `_fit_derivs_iter`, sgpr.py 361-371, with `mean_function=zero_mean` -/
  fitDerivs : K → Dict Param → (xLocs jacobianLocs x y jacobian : Arr) → (iterative : Bool) → Except Err (Arr × OptVal C)
  /-- `jnp.einsum("sv,sfv->sf", c.reshape(ns, nv), jac_locs)`, sgpr.py 374-375 -/
  jaccoef : (c jacobianLocs : Arr) → Except Err Arr
  /-- `_predict_dense` / `_predict_iter`, sgpr.py 424-441 -/
  predict : K → Dict Param → (xLocs x : Arr) → (c mu : OptVal C) → (fullCovariance iterative : Bool) → Except Err Out
  /-- `_predict_derivs_dense` / `_predict_derivs_iter`, sgpr.py 481-502, with `mu=0.0` -/
  predictDerivs : K → Dict Param → (xLocs jacobianLocs x jacobian : Arr) → (c jaccoef : OptVal C) →
    (fullCovariance iterative : Bool) → Except Err Out
  /-- `_predict_y_derivs_dense` / `_predict_y_derivs_iter`, sgpr.py 541-560 -/
  predictYDerivs : K → Dict Param → (xLocs jacobianLocs x : Arr) → (c mu jaccoef : OptVal C) →
    (fullCovariance iterative : Bool) → Except Err Out

/-- `init`, sgpr.py 687-741 (the argument checks are in `Model/Params.lean`); `params` holds the kernel parameters,
`sigma`, `x_locs` and possibly `jacobian_locs`. -/
def sgprInit (kernel : K) (meanFn : M) (params : Dict Param) (lossFn : C) : Except Err (ModelState K M C) :=
  ModelState.new kernel meanFn params
    [(lossFnKey, .callable lossFn), (isFittedKey, .bool false), (isFittedDerivsKey, .bool false), (cKey, .none),
      (muKey, .none)]

/-- `SGPR._init_default`, sgpr.py 751, and `SGPR_RPChol._init_default`, sgpr_rpchol.py 757. -/
def sparseInitDefault : List (Key × OptVal C) :=
  [(isFittedKey, .bool false), (isFittedDerivsKey, .bool false), (cKey, .none), (yMeanKey, .none)]

/-- `fit`, sgpr.py 309-337. -/
def sgprFit (num : SgprNumerics K M C Out) (x y : Arr) (iterative : Bool) (s : ModelState K M C) :
    Except Err (ModelState K M C) := do
  let xLocs ← paramValue s xLocsKey
  let r ← num.fit s.kernel s.meanFn s.params xLocs x y iterative
  (s.update { opts := [(xTrainKey, .arr x), (yTrainKey, .arr y), (cKey, .arr r.1), (muKey, r.2),
    (isFittedKey, .bool true), (isFittedDerivsKey, .bool false)] }).1

/-- `fit_derivs`, sgpr.py 340-388. -/
def sgprFitDerivs (num : SgprNumerics K M C Out) (x y jacobian : Arr) (iterative : Bool) (s : ModelState K M C) :
    Except Err (ModelState K M C) := do
  let xLocs ← paramValue s xLocsKey
  let jacobianLocs ← paramValue s jacobianLocsKey
  let r ← num.fitDerivs s.kernel s.params xLocs jacobianLocs x y jacobian iterative
  let jaccoef ← num.jaccoef r.1 jacobianLocs
  (s.update { opts := [(xTrainKey, .arr x), (yTrainKey, .arr y), (jacobianTrainKey, .arr jacobian),
    (jaccoefKey, .arr jaccoef), (cKey, .arr r.1), (muKey, r.2), (isFittedKey, .bool false),
    (isFittedDerivsKey, .bool true)] }).1

/-- The checks at the beginning of `predict`, sgpr.py 411-423 and sgpr_rpchol.py 424-436. -/
def guardTargets (s : ModelState K M C) (fullCovariance iterative : Bool) : Except Err Unit := do
  let fitted ← (← s.attr isFittedKey).truthy
  if !fitted then throw .runtimeError
  let derivs ← (← s.attr isFittedDerivsKey).truthy
  if derivs then throw .runtimeError
  if fullCovariance && iterative then throw .runtimeError

/-- The checks at the beginning of `predict_derivs` and `predict_y_derivs`, sgpr.py 466-478 and 527-539,
sgpr_rpchol.py 479-491 and 540-552. -/
def guardDerivs (s : ModelState K M C) (fullCovariance iterative : Bool) : Except Err Unit := do
  let derivs ← (← s.attr isFittedDerivsKey).truthy
  if !derivs then throw .runtimeError
  let fitted ← (← s.attr isFittedKey).truthy
  if fitted then throw .runtimeError
  if fullCovariance && iterative then throw .runtimeError

/-- `predict`, sgpr.py 391-441. -/
def sgprStatePredict (num : SgprNumerics K M C Out) (s : ModelState K M C) (x : Arr) (fullCovariance iterative : Bool) :
    Except Err Out := do
  guardTargets s fullCovariance iterative
  num.predict s.kernel s.params (← paramValue s xLocsKey) x (← s.attr cKey) (← s.attr muKey) fullCovariance iterative

/-- `predict_derivs`, sgpr.py 444-502. The contracted jacobian is looked up before the branch on `iterative`, and
passed on only in the dense case. -/
def sgprStatePredictDerivs (num : SgprNumerics K M C Out) (s : ModelState K M C) (x jacobian : Arr)
    (fullCovariance iterative : Bool) : Except Err Out := do
  guardDerivs s fullCovariance iterative
  let jaccoef ← if fullCovariance then .ok .none else s.attr jaccoefKey
  num.predictDerivs s.kernel s.params (← paramValue s xLocsKey) (← paramValue s jacobianLocsKey) x jacobian
    (← s.attr cKey) (if iterative then .none else jaccoef) fullCovariance iterative

/-- `predict_y_derivs`, sgpr.py 505-560. -/
def sgprStatePredictYDerivs (num : SgprNumerics K M C Out) (s : ModelState K M C) (x : Arr)
    (fullCovariance iterative : Bool) : Except Err Out := do
  guardDerivs s fullCovariance iterative
  let jaccoef ← if fullCovariance then .ok .none else s.attr jaccoefKey
  num.predictYDerivs s.kernel s.params (← paramValue s xLocsKey) (← paramValue s jacobianLocsKey) x (← s.attr cKey)
    (← s.attr muKey) (if iterative then .none else jaccoef) fullCovariance iterative

/-- The numerical functions called by `models/sgpr_rpchol.py`. `key` and `n_locs` are options of the state (`int(…)` of the
latter is left to the numerical functions). -/
structure RpcNumerics (K M C Out : Type) where
  /-- `_fit_dense` / `_fit_iter`, sgpr_rpchol.py 328-337: coefficients, mean, selected inducing points -/
  fit : K → M → Dict Param → (x y : Arr) → (key nLocs : OptVal C) → (iterative : Bool) →
    Except Err (Arr × OptVal C × Arr)
  /-- `_fit_derivs_dense` / `_fit_derivs_iter`, sgpr_rpchol.py 373-383, with `mean_function=zero_mean`: also the jacobians of
  the selected points -/
  fitDerivs : K → Dict Param → (x y jacobian : Arr) → (key nLocs : OptVal C) → (iterative : Bool) →
    Except Err (Arr × OptVal C × Arr × Arr)
  /-- `jnp.einsum("sv,sfv->sf", c.reshape(ns, nv), jacobian_locs)`, sgpr_rpchol.py 385-386 -/
  jaccoef : (c jacobianLocs : Arr) → Except Err Arr
  /-- `_predict_dense` / `_predict_iter`, sgpr_rpchol.py 436-454 -/
  predict : K → Dict Param → (xLocs : OptVal C) → (x : Arr) → (c mu : OptVal C) → (fullCovariance iterative : Bool) →
    Except Err Out
  /-- `_predict_derivs_dense` / `_predict_derivs_iter`, sgpr_rpchol.py 491-515, with `mu=0.0` -/
  predictDerivs : K → Dict Param → (xLocs jacobianLocs : OptVal C) → (x jacobian : Arr) → (c jaccoef : OptVal C) →
    (fullCovariance iterative : Bool) → Except Err Out
  /-- `_predict_y_derivs_dense` / `_predict_y_derivs_iter`, sgpr_rpchol.py 551-575 -/
  predictYDerivs : K → Dict Param → (xLocs jacobianLocs : OptVal C) → (x : Arr) → (c mu jaccoef : OptVal C) →
    (fullCovariance iterative : Bool) → Except Err Out

/-- `jax.random.PRNGKey(seed)` called with a Python float, as in sgpr_rpchol.py 735: JAX accepts integer seeds only and
raises TypeError. -/
def prngKeyOfFloat (_seed : ℝ) : Except Err (OptVal C) := .error .typeError

/-- `init`, sgpr_rpchol.py 700-749. `key = none` stands for the default `None`; `now` is `time.time()`. -/
def rpcInit (kernel : K) (nLocs : OptVal C) (key : Option (OptVal C)) (meanFn : M) (params : Dict Param) (lossFn : C)
    (now : ℝ) : Except Err (ModelState K M C) := do
  let key ← match key with
    | some k => .ok k
    | Option.none => prngKeyOfFloat now
  ModelState.new kernel meanFn params
    [(lossFnKey, .callable lossFn), (isFittedKey, .bool false), (isFittedDerivsKey, .bool false), (cKey, .none),
      (muKey, .none), (nLocsKey, nLocs), (keyKey, key)]

/-- `fit`, sgpr_rpchol.py 312-349. -/
def rpcFit (num : RpcNumerics K M C Out) (x y : Arr) (iterative : Bool) (s : ModelState K M C) :
    Except Err (ModelState K M C) := do
  let key ← s.attr keyKey
  let nLocs ← s.attr nLocsKey
  let r ← num.fit s.kernel s.meanFn s.params x y key nLocs iterative
  (s.update { opts := [(xTrainKey, .arr x), (yTrainKey, .arr y), (cKey, .arr r.1), (muKey, r.2.1),
    (isFittedKey, .bool true), (isFittedDerivsKey, .bool false), (xLocsKey, .arr r.2.2)] }).1

/-- `fit_derivs`, sgpr_rpchol.py 352-401. -/
def rpcFitDerivs (num : RpcNumerics K M C Out) (x y jacobian : Arr) (iterative : Bool) (s : ModelState K M C) :
    Except Err (ModelState K M C) := do
  let key ← s.attr keyKey
  let nLocs ← s.attr nLocsKey
  let r ← num.fitDerivs s.kernel s.params x y jacobian key nLocs iterative
  let jaccoef ← num.jaccoef r.1 r.2.2.2
  (s.update { opts := [(xTrainKey, .arr x), (yTrainKey, .arr y), (jacobianTrainKey, .arr jacobian),
    (jaccoefKey, .arr jaccoef), (cKey, .arr r.1), (muKey, r.2.1), (isFittedKey, .bool false),
    (isFittedDerivsKey, .bool true), (xLocsKey, .arr r.2.2.1), (jacobianLocsKey, .arr r.2.2.2)] }).1

/-- `predict`, sgpr_rpchol.py 404-454. -/
def rpcPredict (num : RpcNumerics K M C Out) (s : ModelState K M C) (x : Arr) (fullCovariance iterative : Bool) :
    Except Err Out := do
  guardTargets s fullCovariance iterative
  num.predict s.kernel s.params (← s.attr xLocsKey) x (← s.attr cKey) (← s.attr muKey) fullCovariance iterative

/-- `predict_derivs`, sgpr_rpchol.py 457-515. -/
def rpcPredictDerivs (num : RpcNumerics K M C Out) (s : ModelState K M C) (x jacobian : Arr)
    (fullCovariance iterative : Bool) : Except Err Out := do
  guardDerivs s fullCovariance iterative
  let jaccoef ← if iterative || fullCovariance then .ok .none else s.attr jaccoefKey
  num.predictDerivs s.kernel s.params (← s.attr xLocsKey) (← s.attr jacobianLocsKey) x jacobian
    (← s.attr cKey) jaccoef fullCovariance iterative

/-- `predict_y_derivs`, sgpr_rpchol.py 518-575. -/
def rpcPredictYDerivs (num : RpcNumerics K M C Out) (s : ModelState K M C) (x : Arr)
    (fullCovariance iterative : Bool) : Except Err Out := do
  guardDerivs s fullCovariance iterative
  let jaccoef ← if iterative || fullCovariance then .ok .none else s.attr jaccoefKey
  num.predictYDerivs s.kernel s.params (← s.attr xLocsKey) (← s.attr jacobianLocsKey) x (← s.attr cKey)
    (← s.attr muKey) jaccoef fullCovariance iterative

end
end GPX
