import Verif.Model.API
import Verif.Model.GPR

/-!
# Methods of `BaseGP` that pass arguments on: `is_fitted`, the iterative fits and the likelihoods

`n_pivots` and `key_precond` are optional arguments whose default is `None`, so here they are options; what the
numerical functions do with a number of pivots and a key is modelled in `Model/GPR.lean`.
-/

namespace GPX
noncomputable section

/-! ## Fit status -/

section
variable {K M C O : Type}

/-- `BaseGP.is_fitted`, models/base.py 375-376: `hasattr(self.state, "c")`. The attributes of a state are its options
(model_state.py 57); none of its own attributes is called `c`. -/
def GPObj.isFitted (m : GPObj (ModelState K M C) O) : Bool := (assocGet cKey m.state.opts).isSome

/-- `BaseGP.is_fitted_derivs`, models/base.py 378-379. -/
def GPObj.isFittedDerivs (m : GPObj (ModelState K M C) O) : Bool := (assocGet cKey m.state.opts).isSome

end

/-! ## Iterative solvers of GPR with optional arguments -/

variable {d n o v : ℕ} {Key : Type}

/-- The exceptions of `rpcholesky` among all exceptions. -/
def RpcErr.toErr : RpcErr → Err
  | .indexError => .indexError

/-- The arguments `n_pivots` and `key` of `_precond_rpcholesky` and `_precond_rpcholesky_derivs` (models/_gpr.py
180-256) when they may be `None`: `jnp.zeros((n, None))` (kernels/approximations.py 81 and 187) and
`random.split(None)` (100 and 209) raise `TypeError`. The loop is traced for any number of pivots, so that the second
exception does not depend on it. -/
def pivotArgs (nPivots : Option ℕ) (key : Option Key) : Except Err (ℕ × Key) :=
  match nPivots, key with
  | some p, some k => .ok (p, k)
  | _, _ => .error .typeError

/-- The random generator and the solvers used by the numerical functions of GPR. -/
structure GprTools (n v : ℕ) (Key : Type) where
  la : LinAlg
  cg : CG
  split : Key → Key × Key
  choice : Key → (Fin n → ℝ) → Fin n
  choiceDerivs : Key → (Fin (n * v) → ℝ) → Fin (n * v)
  /-- `lanczos_logdet` with its number of evaluations, number of Lanczos steps and key -/
  logdet : ℕ → ℕ → Key → (Mat n 1 → Mat n 1) → ℝ
  logdetDerivs : ℕ → ℕ → Key → (Mat (n * v) 1 → Mat (n * v) 1) → ℝ

/-- What `fit` of models/gpr.py computes before it stores it, 417-428. -/
def gprFitValues (t : GprTools n v Key) (θ : GPParams) (κ : KernelObj d) (mf : MeanFun) (x : Batch n d) (y : Mat n o)
    (iterative : Bool) (nPivots : Option ℕ) (keyPrecond : Option Key) : Except Err (Mat n o × ℝ) :=
  if iterative then
    match pivotArgs nPivots keyPrecond with
    | .error e => .error e
    | .ok a => (fitIter t.la t.cg t.split t.choice θ κ mf x y a.1 a.2).mapError RpcErr.toErr
  else .ok (fitDense t.la θ κ mf x y)

/-- What `fit_derivs` of models/gpr.py computes before it stores it, 461-474 (the mean function is `zero_mean`). -/
def gprFitDerivsValues (t : GprTools n v Key) (θ : GPParams) (κ : KernelObj d) (x : Batch n d) (J : Jac n d v)
    (y : Mat n v) (iterative : Bool) (nPivots : Option ℕ) (keyPrecond : Option Key) :
    Except Err (Mat (n * v) 1 × ℝ) :=
  if iterative then
    match pivotArgs nPivots keyPrecond with
    | .error e => .error e
    | .ok a => .ok (fitDerivsIter t.la t.cg t.split t.choiceDerivs θ κ zeroMean x J y a.1 a.2)
  else .ok (fitDerivsDense t.la θ κ zeroMean x J y)

/-- `log_marginal_likelihood`, models/gpr.py 70-118. -/
def gprLmlValue (t : GprTools n v Key) (θ : GPParams) (κ : KernelObj d) (mf : MeanFun) (x : Batch n d) (y : Mat n o)
    (iterative : Bool) (numEvals numLanczos : ℕ) (keyLanczos : Key) (nPivots : Option ℕ) (keyPrecond : Option Key) :
    Except Err ℝ :=
  if iterative then
    match pivotArgs nPivots keyPrecond with
    | .error e => .error e
    | .ok a => (lmlIter t.la t.cg t.split t.choice (t.logdet numEvals numLanczos keyLanczos) θ κ mf x y a.1
        a.2).mapError RpcErr.toErr
  else .ok (lmlDense t.la θ κ mf x y)

/-- `log_marginal_likelihood_derivs`, models/gpr.py 121-175. -/
def gprLmlDerivsValue (t : GprTools n v Key) (θ : GPParams) (κ : KernelObj d) (x : Batch n d) (J : Jac n d v)
    (y : Mat n v) (iterative : Bool) (numEvals numLanczos : ℕ) (keyLanczos : Key) (nPivots : Option ℕ)
    (keyPrecond : Option Key) : Except Err ℝ :=
  if iterative then
    match pivotArgs nPivots keyPrecond with
    | .error e => .error e
    | .ok a => .ok (lmlDerivsIter t.la t.cg t.split t.choiceDerivs (t.logdetDerivs numEvals numLanczos keyLanczos) θ
        κ zeroMean x J y a.1 a.2)
  else .ok (lmlDerivsDense t.la θ κ zeroMean x J y)

/-! ## The methods -/

/-- The coefficients computed by `GPR.fit(…, minimize=False)`, models/base.py 471-478: the key of the preconditioner
is `gpxargs.key_precond` (`keyPrecond0`), the number of pivots is the argument of `fit`, by default `None`. -/
def methodFit (keyPrecond0 : Key) (t : GprTools n v Key) (θ : GPParams) (κ : KernelObj d) (mf : MeanFun)
    (x : Batch n d) (y : Mat n o) (iterative : Bool) (nPivots : Option ℕ) : Except Err (Mat n o × ℝ) :=
  gprFitValues t θ κ mf x y iterative nPivots (some keyPrecond0)

/-- The same for `GPR.fit_derivs`, models/base.py 574-582. -/
def methodFitDerivs (keyPrecond0 : Key) (t : GprTools n v Key) (θ : GPParams) (κ : KernelObj d) (x : Batch n d)
    (J : Jac n d v) (y : Mat n v) (iterative : Bool) (nPivots : Option ℕ) : Except Err (Mat (n * v) 1 × ℝ) :=
  gprFitDerivsValues t θ κ x J y iterative nPivots (some keyPrecond0)

/-- The same for `GPR.fit_nlopt(…, minimize=False)`, models/base.py 703: `iterative` is the only option passed on. -/
def methodFitNlopt (t : GprTools n v Key) (θ : GPParams) (κ : KernelObj d) (mf : MeanFun) (x : Batch n d)
    (y : Mat n o) (iterative : Bool) : Except Err (Mat n o × ℝ) :=
  gprFitValues t θ κ mf x y iterative none none

/-- `GPR.log_marginal_likelihood`, models/base.py 266-302. -/
def methodLml (t : GprTools n v Key) (θ : GPParams) (κ : KernelObj d) (mf : MeanFun) (x : Batch n d) (y : Mat n o)
    (returnNegative iterative : Bool) (numEvals numLanczos : ℕ) (keyLanczos : Key) : Except Err ℝ := do
  let lml ← gprLmlValue t θ κ mf x y iterative numEvals numLanczos keyLanczos none none
  if returnNegative then pure (-lml) else pure lml

/-- `GPR.log_marginal_likelihood_derivs`, models/base.py 304-343. -/
def methodLmlDerivs (t : GprTools n v Key) (θ : GPParams) (κ : KernelObj d) (x : Batch n d) (J : Jac n d v)
    (y : Mat n v) (returnNegative iterative : Bool) (numEvals numLanczos : ℕ) (keyLanczos : Key) : Except Err ℝ := do
  let lml ← gprLmlDerivsValue t θ κ x J y iterative numEvals numLanczos keyLanczos none none
  if returnNegative then pure (-lml) else pure lml

end
end GPX
