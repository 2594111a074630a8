import Verif.Model.API

/-!
# The methods of `gpx/models/base.py` and the functions they are forwarded to

`GPR`, `SGPR` and `SGPR_RPChol` inherit their methods from `BaseGP`; a method calls a function that the class registers under
a private attribute. This file is about which function is called and which value each of its parameters gets. The values
are opaque; defaults are represented by their source text.
-/

namespace GPX

/-- A value during a call: one passed by the user, the state of the object, or the value of an expression of the library's
source (a default, or `gpxargs.key_precond`). -/
inductive ArgVal (V : Type) where
  | given (v : V)
  | state
  | text (source : String)
  deriving DecidableEq

/-- A signature with the source of the defaults; no function here has `*args` or `**kwargs`. -/
structure PySig where
  params : List (String × Option String)

/-- The names of the parameters. -/
def PySig.names (f : PySig) : List String := f.params.map Prod.fst

/-- Names and defaults as in `Sig`. -/
def PySig.toSig (f : PySig) : Sig := ⟨f.params.map fun p => (p.1.toList, p.2.isSome)⟩

/-- The value of the parameter `p` in a call with positional arguments `pos` and keyword arguments `kw` (Python language
reference, "Calls"): by position, by keyword, or the default. -/
def PySig.value {V : Type} (f : PySig) (pos : List (ArgVal V)) (kw : List (String × ArgVal V)) (p : String) :
    Option (ArgVal V) :=
  if f.names.idxOf p < pos.length then pos[f.names.idxOf p]?
  else match kw.lookup p with
    | some v => some v
    | none => match f.params.lookup p with
      | some (some d) => some (.text d)
      | _ => none

/-- A call: `TypeError` when the arguments do not fit the signature, otherwise the values of the parameters. -/
def PySig.bindVals {V : Type} (f : PySig) (pos : List (ArgVal V)) (kw : List (String × ArgVal V)) :
    Except Err (String → Option (ArgVal V)) := do
  f.toSig.bind pos.length (kw.map fun a => a.1.toList)
  pure (f.value pos kw)

/-- A parameter without and with a default. -/
def pReq (name : String) : String × Option String := (name, none)
def pOpt (name default : String) : String × Option String := (name, some default)

/-- The classes that inherit from `BaseGP`: gpr.py 925, sgpr.py 750, sgpr_rpchol.py 756. -/
inductive ModelClass where
  | gpr | sgpr | sgprRpchol
  deriving DecidableEq, Repr

/-- The optional parameters of the likelihoods, gpr.py 74-77. -/
def lmlOpts : List (String × Option String) :=
  [pOpt "iterative" "False", pOpt "num_evals" "gpxargs.num_evals", pOpt "num_lanczos" "gpxargs.num_lanczos",
    pOpt "key_lanczos" "gpxargs.key_lanczos"]

/-- The functions that the three classes have in common up to their module, and the signatures of the methods:
gpr.py 542, 596, 660, 761, 783, 809, 835, 863; sgpr.py 391, 444, 505, 564, 592, 622, 648, 676; sgpr_rpchol.py 404, 457, 518,
577, 605, 635, 661, 689. Registered at gpr.py 957-976, sgpr.py 788-804, sgpr_rpchol.py 795-811. -/
def commonAttrs : List (String × String × PySig) :=
  [("_default_params_fun", "default_params", ⟨[]⟩),
    ("_predict_fun", "predict", ⟨[pReq "state", pReq "x", pOpt "full_covariance" "False", pOpt "iterative" "False"]⟩),
    ("_predict_derivs_fun", "predict_derivs",
      ⟨[pReq "state", pReq "x", pReq "jacobian", pOpt "full_covariance" "False", pOpt "iterative" "False"]⟩),
    ("_predict_y_derivs_fun", "predict_y_derivs",
      ⟨[pReq "state", pReq "x", pOpt "full_covariance" "False", pOpt "iterative" "False"]⟩),
    ("_sample_prior_fun", "sample_prior", ⟨[pReq "key", pReq "state", pReq "x", pOpt "n_samples" "1"]⟩),
    ("_sample_posterior_fun", "sample_posterior", ⟨[pReq "key", pReq "state", pReq "x", pOpt "n_samples" "1"]⟩),
    ("_sample_prior_derivs_fun", "sample_prior_derivs",
      ⟨[pReq "key", pReq "state", pReq "x", pReq "jacobian", pOpt "n_samples" "1"]⟩),
    ("_sample_posterior_derivs_fun", "sample_posterior_derivs",
      ⟨[pReq "key", pReq "state", pReq "x", pReq "jacobian", pOpt "n_samples" "1"]⟩)]

/-- gpr.py 70, 121, 355, 397, 437, 492, 720 and 873, registered at 957-976. -/
def gprAttrs : List (String × String × PySig) :=
  [("_init_fun", "init", ⟨[pReq "kernel", pOpt "mean_function" "data_mean", pOpt "kernel_params" "None", pOpt "sigma" "None",
      pOpt "loss_fn" "neg_log_marginal_likelihood"]⟩),
    ("_lml_fun", "log_marginal_likelihood",
      ⟨[pReq "state", pReq "x", pReq "y"] ++ lmlOpts ++ [pOpt "n_pivots" "None", pOpt "key_precond" "None"]⟩),
    ("_lml_derivs_fun", "log_marginal_likelihood_derivs",
      ⟨[pReq "state", pReq "x", pReq "y", pReq "jacobian"] ++ lmlOpts ++ [pOpt "n_pivots" "None", pOpt "key_precond" "None"]⟩),
    ("_mse_fun", "mse_loss", ⟨[pReq "state", pReq "x", pReq "y", pReq "jacobian", pReq "y_derivs", pOpt "coeff" "1.0",
      pOpt "y_derivs_2" "None", pOpt "jacobian_2" "None"]⟩),
    ("_fit_fun", "fit", ⟨[pReq "state", pReq "x", pReq "y", pOpt "iterative" "False", pOpt "n_pivots" "None",
      pOpt "key_precond" "None"]⟩),
    ("_fit_derivs_fun", "fit_derivs", ⟨[pReq "state", pReq "x", pReq "y", pReq "jacobian", pOpt "iterative" "False",
      pOpt "n_pivots" "None", pOpt "key_precond" "None"]⟩),
    ("_fit_ol_fun", "fit_ol", ⟨[pReq "state", pReq "x", pReq "y", pReq "y_derivs", pReq "jacobian"]⟩),
    ("_predict_ol_fun", "predict_ol", ⟨[pReq "state", pReq "x", pReq "jacobian", pOpt "full_covariance" "False"]⟩)]

/-- sgpr.py 62, 106, 309, 340 and sgpr_rpchol.py 63, 109, 312, 352, registered at sgpr.py 791-795 and
sgpr_rpchol.py 798-802. -/
def sparseAttrs : List (String × String × PySig) :=
  [("_lml_fun", "log_marginal_likelihood", ⟨[pReq "state", pReq "x", pReq "y"] ++ lmlOpts⟩),
    ("_lml_derivs_fun", "log_marginal_likelihood_derivs",
      ⟨[pReq "state", pReq "x", pReq "y", pReq "jacobian"] ++ lmlOpts⟩),
    ("_fit_fun", "fit", ⟨[pReq "state", pReq "x", pReq "y", pOpt "iterative" "False"]⟩),
    ("_fit_derivs_fun", "fit_derivs", ⟨[pReq "state", pReq "x", pReq "y", pReq "jacobian", pOpt "iterative" "False"]⟩)]

/-- The function attributes of a class; `init` of sgpr.py 687 and sgpr_rpchol.py 700. -/
def ModelClass.attrs : ModelClass → List (String × String × PySig)
  | .gpr => commonAttrs ++ gprAttrs
  | .sgpr => commonAttrs ++ sparseAttrs ++
    [("_init_fun", "init", ⟨[pReq "kernel", pOpt "mean_function" "data_mean", pOpt "x_locs" "None", pOpt "jacobian_locs" "None",
      pOpt "kernel_params" "None", pOpt "sigma" "None", pOpt "loss_fn" "neg_log_marginal_likelihood"]⟩)]
  | .sgprRpchol => commonAttrs ++ sparseAttrs ++
    [("_init_fun", "init", ⟨[pReq "kernel", pReq "n_locs", pOpt "key" "None", pOpt "mean_function" "data_mean",
      pOpt "kernel_params" "None", pOpt "sigma" "None", pOpt "loss_fn" "neg_log_marginal_likelihood"]⟩)]

/-- The constructors, gpr.py 928-935, sgpr.py 753-762, sgpr_rpchol.py 759-768, without `self`. -/
def ModelClass.ctor : ModelClass → PySig
  | .gpr => ⟨[pReq "kernel", pOpt "mean_function" "data_mean", pOpt "kernel_params" "None", pOpt "sigma" "None",
      pOpt "loss_fn" "neg_log_marginal_likelihood"]⟩
  | .sgpr => ⟨[pReq "kernel", pOpt "mean_function" "data_mean", pOpt "x_locs" "None", pOpt "jacobian_locs" "None",
      pOpt "kernel_params" "None", pOpt "sigma" "None", pOpt "loss_fn" "neg_log_marginal_likelihood"]⟩
  | .sgprRpchol => ⟨[pReq "kernel", pReq "n_locs", pReq "key", pOpt "mean_function" "data_mean", pOpt "kernel_params" "None",
      pOpt "sigma" "None", pOpt "loss_fn" "neg_log_marginal_likelihood"]⟩

/-- The public methods of `BaseGP` that forward to a function of the class; `sample` and `sample_derivs` are listed once for
each value of `kind`. -/
inductive GPMethod where
  | construct | defaultParams | samplePrior | samplePosterior | samplePriorDerivs | samplePosteriorDerivs | predict
  | predictDerivs | predictYDerivs | predictOl | lml | lmlDerivs | mseLoss | fit | fitDerivs | fitOl | fitNlopt
  deriving DecidableEq, Repr

/-- The optional parameters of `BaseGP.fit` and `fit_derivs`, base.py 393-400, 492-499. -/
def fitOpts : List (String × Option String) :=
  [pOpt "minimize" "True", pOpt "num_restarts" "0", pOpt "key" "None", pOpt "return_history" "False", pOpt "iterative" "False",
    pOpt "loss_kwargs" "None", pOpt "opt_kwargs" "None", pOpt "n_pivots" "None"]

/-- The signatures of the methods, without `self`: base.py 87, 99-105, 130-137, 167-172, 189-195, 217-222, 242-247, 266-275,
304-314, 345-352, 389-401, 487-500, 591-601, 663-675. -/
def GPMethod.sig (cls : ModelClass) : GPMethod → PySig
  | .construct => cls.ctor
  | .defaultParams => ⟨[]⟩
  | .samplePrior | .samplePosterior => ⟨[pReq "key", pReq "x", pOpt "n_samples" "1", pOpt "kind" "'prior'"]⟩
  | .samplePriorDerivs | .samplePosteriorDerivs =>
    ⟨[pReq "key", pReq "x", pReq "jacobian", pOpt "n_samples" "1", pOpt "kind" "'prior'"]⟩
  | .predict | .predictYDerivs => ⟨[pReq "x", pOpt "full_covariance" "False", pOpt "iterative" "False"]⟩
  | .predictDerivs => ⟨[pReq "x", pReq "jacobian", pOpt "full_covariance" "False", pOpt "iterative" "False"]⟩
  | .predictOl => ⟨[pReq "x", pReq "jacobian", pOpt "full_covariance" "False"]⟩
  | .lml => ⟨[pReq "x", pReq "y", pOpt "return_negative" "False"] ++ lmlOpts⟩
  | .lmlDerivs => ⟨[pReq "x", pReq "y", pReq "jacobian", pOpt "return_negative" "False"] ++ lmlOpts⟩
  | .mseLoss => ⟨[pReq "x", pReq "y", pReq "jacobian", pReq "y_derivs", pOpt "coeff" "1.0"]⟩
  | .fit => ⟨[pReq "x", pReq "y"] ++ fitOpts⟩
  | .fitDerivs => ⟨[pReq "x", pReq "y", pReq "jacobian"] ++ fitOpts⟩
  | .fitOl => ⟨[pReq "x", pReq "y", pReq "jacobian", pReq "y_derivs", pOpt "minimize" "True", pOpt "num_restarts" "0",
      pOpt "key" "None", pOpt "return_history" "False"]⟩
  | .fitNlopt => ⟨[pReq "x", pReq "y", pReq "opt", pOpt "minimize" "True", pOpt "key" "None", pOpt "num_restarts" "0",
      pOpt "return_history" "False", pOpt "iterative" "False", pOpt "loss_kwargs" "None", pOpt "opt_kwargs" "None"]⟩

/-- An argument of the call in the body of a method: a local variable, `self.state`, or another expression. -/
inductive CallArg where
  | var (name : String)
  | selfState
  | text (source : String)
  deriving DecidableEq

/-- A keyword argument `name=name`. -/
def kwSame (name : String) : String × CallArg := (name, .var name)

/-- The attribute that a method calls, its positional and its keyword arguments: gpr.py 948-954, sgpr.py 777-785,
sgpr_rpchol.py 784-792 and base.py 89, 117-124, 150-157, 185-187, 209-215, 235-240, 259-264, 290-298, 330-339, 366-373, 471-478,
574-582, 652-654, 703. The constructors name the module's `init` directly. `mse_loss` looks up `self.mse_fun`. -/
def GPMethod.call (cls : ModelClass) : GPMethod → String × List CallArg × List (String × CallArg)
  | .construct => ("_init_fun", [], match cls with
    | .gpr => [kwSame "kernel", kwSame "mean_function", kwSame "kernel_params", kwSame "sigma", kwSame "loss_fn"]
    | .sgpr => [kwSame "kernel", kwSame "mean_function", kwSame "kernel_params", kwSame "sigma", kwSame "x_locs",
        kwSame "jacobian_locs", kwSame "loss_fn"]
    | .sgprRpchol => [kwSame "kernel", kwSame "n_locs", kwSame "key", kwSame "mean_function", kwSame "kernel_params", kwSame "sigma",
        kwSame "loss_fn"])
  | .defaultParams => ("_default_params_fun", [], [])
  | .samplePrior => ("_sample_prior_fun", [.var "key"], [("state", .selfState), kwSame "x", kwSame "n_samples"])
  | .samplePosterior => ("_sample_posterior_fun", [.var "key"], [("state", .selfState), kwSame "x", kwSame "n_samples"])
  | .samplePriorDerivs =>
    ("_sample_prior_derivs_fun", [.var "key"], [("state", .selfState), kwSame "x", kwSame "jacobian", kwSame "n_samples"])
  | .samplePosteriorDerivs =>
    ("_sample_posterior_derivs_fun", [.var "key"], [("state", .selfState), kwSame "x", kwSame "jacobian", kwSame "n_samples"])
  | .predict => ("_predict_fun", [.selfState], [kwSame "x", kwSame "full_covariance", kwSame "iterative"])
  | .predictDerivs =>
    ("_predict_derivs_fun", [.selfState], [kwSame "x", kwSame "jacobian", kwSame "full_covariance", kwSame "iterative"])
  | .predictYDerivs => ("_predict_y_derivs_fun", [.selfState], [kwSame "x", kwSame "full_covariance", kwSame "iterative"])
  | .predictOl => ("_predict_ol_fun", [.selfState], [kwSame "x", kwSame "jacobian", kwSame "full_covariance"])
  | .lml => ("_lml_fun", [.selfState], [kwSame "x", kwSame "y", kwSame "iterative", kwSame "num_evals", kwSame "num_lanczos",
      kwSame "key_lanczos"])
  | .lmlDerivs => ("_lml_derivs_fun", [.selfState], [kwSame "x", kwSame "jacobian", kwSame "y", kwSame "iterative",
      kwSame "num_evals", kwSame "num_lanczos", kwSame "key_lanczos"])
  | .mseLoss => ("mse_fun", [.selfState], [kwSame "x", kwSame "y", kwSame "jacobian", kwSame "y_derivs", kwSame "coeff"])
  | .fit => ("_fit_fun", [.selfState], [kwSame "x", kwSame "y", kwSame "iterative", kwSame "n_pivots",
      ("key_precond", .text "gpxargs.key_precond")])
  | .fitDerivs => ("_fit_derivs_fun", [.selfState], [kwSame "x", kwSame "y", kwSame "jacobian", kwSame "iterative", kwSame "n_pivots",
      ("key_precond", .text "gpxargs.key_precond")])
  | .fitOl => ("_fit_ol_fun", [.selfState], [kwSame "x", kwSame "y", kwSame "y_derivs", kwSame "jacobian"])
  | .fitNlopt => ("_fit_fun", [.selfState], [kwSame "x", kwSame "y", kwSame "iterative"])

/-- The value of an argument in the body of a method whose parameters have the values `env`; a name that is not a parameter
raises `NameError` in Python and has the value `none` here. -/
def CallArg.eval {V : Type} (env : String → Option (ArgVal V)) : CallArg → Option (ArgVal V)
  | .var name => env name
  | .selfState => some .state
  | .text s => some (.text s)

/-- The value, or Python's `NameError` (no variable of the methods here is unbound; `Err` has no such case and
`AttributeError` stands for it). -/
def orNameError {α : Type} : Option α → Except Err α
  | some v => .ok v
  | none => .error .attributeError

/-- A call of a method with positional arguments `pos` and keyword arguments `kw`: the name of the function of the class's
module that runs and the values of its parameters, or what is raised before. For the fitting methods this is the call after
the optimisation; `_check_is_fitted` (`checkIsFitted`) never raises. -/
def callMethod {V : Type} (cls : ModelClass) (m : GPMethod) (pos : List V) (kw : List (String × V)) :
    Except Err (String × (String → Option (ArgVal V))) := do
  let env ← (m.sig cls).bindVals (pos.map .given) (kw.map fun a => (a.1, .given a.2))
  match cls.attrs.lookup (m.call cls).1 with
  | none => throw .attributeError
  | some (name, f) =>
    let posArgs ← (m.call cls).2.1.mapM fun a => orNameError (a.eval env)
    let kwArgs ← (m.call cls).2.2.mapM fun a => orNameError ((a.2.eval env).map fun v => (a.1, v))
    let vals ← f.bindVals posArgs kwArgs
    pure (name, vals)

/-- `BaseGP.init(*args, **kwargs)`, base.py 83-85: the arguments are handed on as they are. -/
def callInit {V : Type} (cls : ModelClass) (pos : List V) (kw : List (String × V)) :
    Except Err (String × (String → Option (ArgVal V))) :=
  match cls.attrs.lookup "_init_fun" with
  | none => throw .attributeError
  | some (name, f) => do
    let vals ← f.bindVals (pos.map .given) (kw.map fun a => (a.1, .given a.2))
    pure (name, vals)

end GPX
