import Verif.Model.API

/-!
# How the fitting methods call the loss: models/base.py, models/utils.py, optimizers/*.py

A loss is a Python function stored in the state; what matters here is its signature and the value it returns once the
arguments are accepted. Values of keyword arguments are of any type `V`.
-/

namespace GPX

variable {V α : Type}

/-- The dictionary `loss_kwargs` after models/base.py 447-453 (`fit`), 537-542 (`fit_derivs`) and models/gpr_td.py
1017-1021 (`GPR_TD.fit`). It is the caller's dictionary, changed in place, unless it was `None`. -/
def fitLossKwargs (kw : Option (List (Key × V))) (iterative nPivots keyPrecond : V) : List (Key × V) :=
  let kw := kw.getD []
  let kw := assocSet "iterative".toList iterative kw
  let kw := assocSet "n_pivots".toList nPivots kw
  assocSet "key_precond".toList keyPrecond kw

/-- The same in `fit_nlopt`, models/base.py 676-679. -/
def nloptLossKwargs (kw : Option (List (Key × V))) (iterative : V) : List (Key × V) :=
  assocSet "iterative".toList iterative (kw.getD [])

/-- `loss_fn_with_args`, models/utils.py 77-82, and the call of the resulting `partial` object with `npos` positional
arguments and the keywords `more` (a keyword given again replaces the one in the `partial`). -/
def callPartial (loss : Sig) (kw : List (Key × V)) (more : List Key) (npos : ℕ) (body : Except Err α) : Except Err α :=
  match loss.bind npos (kw.map (fun e => e.1) ++ more) with
  | .error e => .error e
  | .ok _ => body

/-- The fitting methods that train hyperparameters. -/
inductive FitMethod where
  | fit
  | fitDerivs
  | fitOl
  | fitNlopt
  | fitTD
deriving DecidableEq

/-- The keywords added by the minimisation functions: `scipy_minimize` none, `scipy_minimize_derivs`
(optimizers/scipy_optimize.py 121) the jacobian, `scipy_minimize_ol` (160-166) four of them. -/
def FitMethod.dataKw : FitMethod → List Key
  | .fit | .fitNlopt => []
  | .fitDerivs => ["jacobian".toList]
  | .fitOl | .fitTD => ["y_derivs".toList, "y_derivs_2".toList, "jacobian".toList, "jacobian_2".toList]

/-- The keyword arguments bound to the loss before minimising; `fit_ol` passes `self.state.loss_fn` as it is
(models/base.py 633) and has no argument `loss_kwargs`. -/
def FitMethod.lossKw (m : FitMethod) (kw : Option (List (Key × V))) (iterative nPivots keyPrecond : V) :
    List (Key × V) :=
  match m with
  | .fit | .fitDerivs | .fitTD => fitLossKwargs kw iterative nPivots keyPrecond
  | .fitNlopt => nloptLossKwargs kw iterative
  | .fitOl => []

/-- The evaluation of the loss inside the minimiser: `loss_fn(ustate, x, y)`, optimizers/scipy_optimize.py 76 and
optimizers/nlopt_optimize.py 131. -/
def FitMethod.trainCall (m : FitMethod) (loss : Sig) (kw : Option (List (Key × V))) (iterative nPivots keyPrecond : V)
    (body : Except Err α) : Except Err α :=
  callPartial loss (m.lossKw kw iterative nPivots keyPrecond) m.dataKw 3 body

/-- The evaluation of the loss after a minimisation, models/utils.py 138, 210 and 316-324: all keywords. -/
def FitMethod.finalCall (m : FitMethod) (loss : Sig) (kw : Option (List (Key × V))) (iterative nPivots keyPrecond : V)
    (body : Except Err α) : Except Err α :=
  callPartial loss (m.lossKw kw iterative nPivots keyPrecond)
    ("state".toList :: "x".toList :: "y".toList :: m.dataKw) 0 body

/-- `neg_log_marginal_likelihood` and `neg_log_posterior` of models/gpr.py, 251-261 and 303-313. -/
def gprLoss : Sig := sig ["state", "x", "y"]
  ["iterative", "num_evals", "num_lanczos", "key_lanczos", "n_pivots", "key_precond"]

/-- Their `_derivs` variants, models/gpr.py 276-287 and 328-339. -/
def gprLossDerivs : Sig := sig ["state", "x", "y", "jacobian"]
  ["iterative", "num_evals", "num_lanczos", "key_lanczos", "n_pivots", "key_precond"]

/-- `mse_loss`, models/gpr.py 355-364. -/
def gprMseLoss : Sig := sig ["state", "x", "y", "jacobian", "y_derivs"] ["coeff", "y_derivs_2", "jacobian_2"]

/-- `neg_log_marginal_likelihood` and `neg_log_posterior` of models/sgpr.py 221-229, 265-273 and of
models/sgpr_rpchol.py 224-232, 268-276. -/
def sgprLoss : Sig := sig ["state", "x", "y"] ["iterative", "num_evals", "num_lanczos", "key_lanczos"]

/-- Their `_derivs` variants, models/sgpr.py 242-251, 286-295 and models/sgpr_rpchol.py 245-254, 289-298. -/
def sgprLossDerivs : Sig := sig ["state", "x", "y", "jacobian"]
  ["iterative", "num_evals", "num_lanczos", "key_lanczos"]

/-- `neg_log_marginal_likelihood` of models/gpr_td.py 914-928. -/
def tdLoss : Sig := sig ["state", "x", "y", "jacobian", "y_derivs"]
  ["jacobian_2", "y_derivs_2", "iterative", "num_evals", "num_lanczos", "key_lanczos", "n_pivots", "key_precond"]

/-- The classes with a loss. -/
inductive GPClass where
  | gpr
  | sgpr
  | sgprRpchol
  | gprTD
deriving DecidableEq

/-- The default of the argument `loss_fn`: models/gpr.py 934, sgpr.py 761, sgpr_rpchol.py 767, gpr_td.py 956. -/
def GPClass.defaultLoss : GPClass → Sig
  | .gpr => gprLoss
  | .sgpr | .sgprRpchol => sgprLoss
  | .gprTD => tdLoss

/-- The losses a module offers. -/
def GPClass.losses : GPClass → List Sig
  | .gpr => [gprLoss, gprLossDerivs, gprMseLoss]
  | .sgpr | .sgprRpchol => [sgprLoss, sgprLossDerivs]
  | .gprTD => [tdLoss]

/-- The fitting methods a class has; `fit_ol` needs the registered function of GPR (models/gpr.py 966). -/
def GPClass.methods : GPClass → List FitMethod
  | .gpr => [.fit, .fitDerivs, .fitOl, .fitNlopt]
  | .sgpr | .sgprRpchol => [.fit, .fitDerivs, .fitNlopt]
  | .gprTD => [.fitTD]

end GPX
