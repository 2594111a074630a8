import Verif.Model.API

/-!
# State-level likelihoods and posteriors of `models/gpr.py`, `models/sgpr.py` and `models/sgpr_rpchol.py`

As in `Model/API.lean` the numerical functions (`_lml_dense`, `_lml_iter`, …, modelled in `Model/GPR.lean` and
`Model/SGPR.lean`) are records of functions that may raise: this file is about which of them is called and with which
arguments. They return a zero-dimensional array, represented by its number.
-/

namespace GPX
noncomputable section
variable {K M C R : Type}

/-- The optional arguments of the likelihoods and posteriors, e.g. gpr.py 74-79. SGPR and SGPR_RPChol do not have the
last two. -/
structure LikArgs (R : Type) where
  iterative : Bool
  numEvals : ℕ
  numLanczos : ℕ
  keyLanczos : R
  nPivots : Option ℕ := none
  keyPrecond : Option R := none

/-- `_lml_dense`, `_lml_iter`, `_lml_derivs_dense`, `_lml_derivs_iter` of `models/_gpr.py`, as called in gpr.py
100-118 and 152-174. -/
structure GprLikNum (K M R : Type) where
  dense : (params : Dict Param) → (x y : Arr) → K → M → Except Err ℝ
  iter : (params : Dict Param) → (x y : Arr) → K → M → (numEvals numLanczos : ℕ) → (keyLanczos : R) →
    (nPivots : Option ℕ) → (keyPrecond : Option R) → Except Err ℝ
  derivsDense : (params : Dict Param) → (x jacobian y : Arr) → K → M → Except Err ℝ
  derivsIter : (params : Dict Param) → (x jacobian y : Arr) → K → M → (numEvals numLanczos : ℕ) → (keyLanczos : R) →
    (nPivots : Option ℕ) → (keyPrecond : Option R) → Except Err ℝ

/-- The same functions of `models/_sgpr.py` (sgpr.py 83-102, 130-153) and of `models/_sgpr_rpchol.py` (sgpr_rpchol.py
83-103, 129-152). `L` is what the inducing points are read from: the values of the parameters `x_locs` and
`jacobian_locs`, or the key and the number of pivots. -/
structure SparseLikNum (K M L R : Type) where
  dense : (params : Dict Param) → (locs : L) → (x y : Arr) → K → M → Except Err ℝ
  iter : (params : Dict Param) → (locs : L) → (x y : Arr) → K → M → (numEvals numLanczos : ℕ) → (keyLanczos : R) →
    Except Err ℝ
  derivsDense : (params : Dict Param) → (locs : L) → (x y jacobian : Arr) → K → M → Except Err ℝ
  derivsIter : (params : Dict Param) → (locs : L) → (x y jacobian : Arr) → K → M → (numEvals numLanczos : ℕ) →
    (keyLanczos : R) → Except Err ℝ

/-! ## GPR -/

/-- `log_marginal_likelihood`, gpr.py 70-118. -/
def gprLml (num : GprLikNum K M R) (s : ModelState K M C) (x y : Arr) (a : LikArgs R) : Except Err ℝ :=
  if a.iterative then
    num.iter s.params x y s.kernel s.meanFn a.numEvals a.numLanczos a.keyLanczos a.nPivots a.keyPrecond
  else num.dense s.params x y s.kernel s.meanFn

/-- `log_marginal_likelihood_derivs`, gpr.py 121-174; `zeroMean` is `zero_mean` of `mean_functions.py`. -/
def gprLmlDerivs (zeroMean : M) (num : GprLikNum K M R) (s : ModelState K M C) (x y jacobian : Arr)
    (a : LikArgs R) : Except Err ℝ :=
  if a.iterative then
    num.derivsIter s.params x jacobian y s.kernel zeroMean a.numEvals a.numLanczos a.keyLanczos a.nPivots a.keyPrecond
  else num.derivsDense s.params x jacobian y s.kernel zeroMean

/-- The sum `log_marginal_likelihood(…) + log_prior(state=state)` of a number and an array, gpr.py 205-215. The first
summand is evaluated first. -/
def plusPrior (lml : Except Err ℝ) (params : Dict Param) : Except Err Arr := do
  let l ← lml
  logPosterior ⟨[], "float".toList, [l]⟩ params

/-- Unary minus on the result of a call, gpr.py 264, 288, 314, 340. -/
def negResult (r : Except Err Arr) : Except Err Arr := do
  let a ← r
  pure a.neg

/-- Unary minus on a zero-dimensional result. -/
def negNumber (r : Except Err ℝ) : Except Err ℝ := do
  let a ← r
  pure (-a)

/-- `log_posterior`, gpr.py 187-215. -/
def gprLogPosterior (num : GprLikNum K M R) (s : ModelState K M C) (x y : Arr) (a : LikArgs R) : Except Err Arr :=
  plusPrior (gprLml num s x y
    { iterative := a.iterative, numEvals := a.numEvals, numLanczos := a.numLanczos,
      keyLanczos := a.keyLanczos, nPivots := a.nPivots, keyPrecond := a.keyPrecond }) s.params

/-- `log_posterior_derivs`, gpr.py 218-248. -/
def gprLogPosteriorDerivs (zeroMean : M) (num : GprLikNum K M R) (s : ModelState K M C) (x y jacobian : Arr)
    (a : LikArgs R) : Except Err Arr :=
  plusPrior (gprLmlDerivs zeroMean num s x y jacobian
    { iterative := a.iterative, numEvals := a.numEvals, numLanczos := a.numLanczos,
      keyLanczos := a.keyLanczos, nPivots := a.nPivots, keyPrecond := a.keyPrecond })
    s.params

/-- `neg_log_marginal_likelihood`, gpr.py 251-273. -/
def gprNegLml (num : GprLikNum K M R) (s : ModelState K M C) (x y : Arr) (a : LikArgs R) : Except Err ℝ :=
  negNumber (gprLml num s x y
    { iterative := a.iterative, numEvals := a.numEvals, numLanczos := a.numLanczos,
      keyLanczos := a.keyLanczos, nPivots := a.nPivots, keyPrecond := a.keyPrecond })

/-- `neg_log_marginal_likelihood_derivs`, gpr.py 276-300. -/
def gprNegLmlDerivs (zeroMean : M) (num : GprLikNum K M R) (s : ModelState K M C) (x y jacobian : Arr)
    (a : LikArgs R) : Except Err ℝ :=
  negNumber (gprLmlDerivs zeroMean num s x y jacobian
    { iterative := a.iterative, numEvals := a.numEvals, numLanczos := a.numLanczos,
      keyLanczos := a.keyLanczos, nPivots := a.nPivots, keyPrecond := a.keyPrecond })

/-- `neg_log_posterior`, gpr.py 303-325. -/
def gprNegLogPosterior (num : GprLikNum K M R) (s : ModelState K M C) (x y : Arr) (a : LikArgs R) :
    Except Err Arr :=
  negResult (gprLogPosterior num s x y
    { iterative := a.iterative, numEvals := a.numEvals, numLanczos := a.numLanczos,
      keyLanczos := a.keyLanczos, nPivots := a.nPivots, keyPrecond := a.keyPrecond })

/-- `neg_log_posterior_derivs`, gpr.py 328-352. -/
def gprNegLogPosteriorDerivs (zeroMean : M) (num : GprLikNum K M R) (s : ModelState K M C) (x y jacobian : Arr)
    (a : LikArgs R) : Except Err Arr :=
  negResult (gprLogPosteriorDerivs zeroMean num s x y jacobian
    { iterative := a.iterative, numEvals := a.numEvals, numLanczos := a.numLanczos,
      keyLanczos := a.keyLanczos, nPivots := a.nPivots, keyPrecond := a.keyPrecond })

/-! ## SGPR and SGPR_RPChol

The two modules have the same text except for the arguments read from the state: `locs` and `locsDerivs` are those
readers. -/

/-- `state.params[name].value`, e.g. sgpr.py 86: `KeyError` when the name is missing, `AttributeError` when it is a
dictionary. -/
def paramValue (s : ModelState K M C) (name : Key) : Except Err Arr :=
  match s.params.get? name with
  | some (.inl p) => .ok p.value
  | some (.inr _) => .error .attributeError
  | none => .error .keyError

/-- The inducing points of SGPR, sgpr.py 86 and 96. -/
def sgprLocs (s : ModelState K M C) : Except Err (Arr × Option Arr) := do
  let xLocs ← paramValue s "x_locs".toList
  pure (xLocs, none)

/-- The inducing points and their jacobians, sgpr.py 133-134 and 146-147. -/
def sgprLocsDerivs (s : ModelState K M C) : Except Err (Arr × Option Arr) := do
  let xLocs ← paramValue s "x_locs".toList
  let jacobianLocs ← paramValue s "jacobian_locs".toList
  pure (xLocs, some jacobianLocs)

/-- `key=state.key, n_locs=int(state.n_locs)`, sgpr_rpchol.py 88-89, 99-100, 134-135, 147-148 (the conversion to `int`
is left to the numerical function). -/
def rpcLocs (s : ModelState K M C) : Except Err (OptVal C × OptVal C) := do
  let key ← s.attr "key".toList
  let nLocs ← s.attr "n_locs".toList
  pure (key, nLocs)

variable {L : Type}

/-- `log_marginal_likelihood`, sgpr.py 62-103 and sgpr_rpchol.py 63-106. -/
def sparseLml (locs : ModelState K M C → Except Err L) (num : SparseLikNum K M L R) (s : ModelState K M C) (x y : Arr)
    (a : LikArgs R) : Except Err ℝ := do
  let l ← locs s
  if a.iterative then num.iter s.params l x y s.kernel s.meanFn a.numEvals a.numLanczos a.keyLanczos
  else num.dense s.params l x y s.kernel s.meanFn

/-- `log_marginal_likelihood_derivs`, sgpr.py 106-153 and sgpr_rpchol.py 109-156. -/
def sparseLmlDerivs (zeroMean : M) (locsDerivs : ModelState K M C → Except Err L) (num : SparseLikNum K M L R)
    (s : ModelState K M C) (x y jacobian : Arr) (a : LikArgs R) : Except Err ℝ := do
  let l ← locsDerivs s
  if a.iterative then
    num.derivsIter s.params l x y jacobian s.kernel zeroMean a.numEvals a.numLanczos a.keyLanczos
  else num.derivsDense s.params l x y jacobian s.kernel zeroMean

/-- `log_posterior`, sgpr.py 166-189 and sgpr_rpchol.py 169-192: `key_lanczos` is not passed on, the likelihood is
called with its default `gpxargs.key_lanczos`. -/
def sparseLogPosterior (gpxargsKeyLanczos : R) (locs : ModelState K M C → Except Err L) (num : SparseLikNum K M L R)
    (s : ModelState K M C) (x y : Arr) (a : LikArgs R) : Except Err Arr :=
  plusPrior (sparseLml locs num s x y
    { iterative := a.iterative, numEvals := a.numEvals, numLanczos := a.numLanczos,
      keyLanczos := gpxargsKeyLanczos }) s.params

/-- `log_posterior_derivs`, sgpr.py 192-218 and sgpr_rpchol.py 195-221. -/
def sparseLogPosteriorDerivs (zeroMean : M) (locsDerivs : ModelState K M C → Except Err L)
    (num : SparseLikNum K M L R) (s : ModelState K M C) (x y jacobian : Arr) (a : LikArgs R) : Except Err Arr :=
  plusPrior (sparseLmlDerivs zeroMean locsDerivs num s x y jacobian
    { iterative := a.iterative, numEvals := a.numEvals, numLanczos := a.numLanczos,
      keyLanczos := a.keyLanczos }) s.params

/-- `neg_log_marginal_likelihood`, sgpr.py 221-239 and sgpr_rpchol.py 224-242. -/
def sparseNegLml (locs : ModelState K M C → Except Err L) (num : SparseLikNum K M L R) (s : ModelState K M C)
    (x y : Arr) (a : LikArgs R) : Except Err ℝ :=
  negNumber (sparseLml locs num s x y
    { iterative := a.iterative, numEvals := a.numEvals, numLanczos := a.numLanczos,
      keyLanczos := a.keyLanczos })

/-- `neg_log_marginal_likelihood_derivs`, sgpr.py 242-262 and sgpr_rpchol.py 245-265. -/
def sparseNegLmlDerivs (zeroMean : M) (locsDerivs : ModelState K M C → Except Err L) (num : SparseLikNum K M L R)
    (s : ModelState K M C) (x y jacobian : Arr) (a : LikArgs R) : Except Err ℝ :=
  negNumber (sparseLmlDerivs zeroMean locsDerivs num s x y jacobian
    { iterative := a.iterative, numEvals := a.numEvals, numLanczos := a.numLanczos,
      keyLanczos := a.keyLanczos })

/-- `neg_log_posterior`, sgpr.py 265-283 and sgpr_rpchol.py 268-286. -/
def sparseNegLogPosterior (gpxargsKeyLanczos : R) (locs : ModelState K M C → Except Err L)
    (num : SparseLikNum K M L R) (s : ModelState K M C) (x y : Arr) (a : LikArgs R) : Except Err Arr :=
  negResult (sparseLogPosterior gpxargsKeyLanczos locs num s x y
    { iterative := a.iterative, numEvals := a.numEvals, numLanczos := a.numLanczos,
      keyLanczos := a.keyLanczos })

/-- `neg_log_posterior_derivs`, sgpr.py 286-306 and sgpr_rpchol.py 289-309. -/
def sparseNegLogPosteriorDerivs (zeroMean : M) (locsDerivs : ModelState K M C → Except Err L)
    (num : SparseLikNum K M L R) (s : ModelState K M C) (x y jacobian : Arr) (a : LikArgs R) : Except Err Arr :=
  negResult (sparseLogPosteriorDerivs zeroMean locsDerivs num s x y jacobian
    { iterative := a.iterative, numEvals := a.numEvals, numLanczos := a.numLanczos,
      keyLanczos := a.keyLanczos })

end
end GPX
