import Verif.Model.Params
import Verif.Model.KernelClasses
import Verif.Model.GPR

/-!
# Default parameters and the constructors of the models

`kernels/kernels.py` `default_params` of every kernel class, `default_params` and `init` of `models/gpr.py` and
`models/sgpr.py`, and how the numerical functions read the parameters of a state.
-/

namespace GPX
variable {d : ℕ}

/-- `jnp.float64`, the dtype of the default priors (priors.py 191, 242) and, with 64-bit arithmetic enabled
(gpx/__init__.py), of `jnp.array(1.0)`. -/
def float64 : Key := "float64".toList

/-- `jnp.array(x)` of a Python float. -/
def scalarArr (x : ℝ) : Arr := ⟨[], float64, [x]⟩

/-- `GammaPrior()`, priors.py 241-248. -/
def gammaPrior : PriorObj := ⟨.gamma 1 1, [], float64⟩

/-- `NormalPrior(loc=0.0, scale=1.0)`, priors.py 190-197. -/
def normalPrior : PriorObj := ⟨.normal 0 1, [], float64⟩

/-- `default_params` of the kernel classes: `Constant` 1524-1532, `Linear` 1561-1562, `Polynomial` 1606-1620,
`SquaredExponential` 1650-1658, `Matern12` 1678-1686, `Matern32` 1706-1714, `Matern52` 1746-1754,
`ExpSinSquared` 1777-1791, `Sum` 1843-1848, `Prod` 1937-1942, of kernels/kernels.py. -/
noncomputable def KExpr.defaultParams : KExpr d → Except Err (Dict Param)
  | .constant _ => do
      let variance ← Param.new (scalarArr 1) true .softplus gammaPrior
      pure (.leaf "variance".toList variance .nil)
  | .linear _ => pure .nil
  | .polynomial _ _ => do
      let degree ← Param.new (scalarArr 2) false .softplus gammaPrior
      let offset ← Param.new (scalarArr 1) false .identity normalPrior
      pure (.leaf "degree".toList degree (.leaf "offset".toList offset .nil))
  | .squaredExponential _ => do
      let lengthscale ← Param.new (scalarArr 1) true .softplus gammaPrior
      pure (.leaf "lengthscale".toList lengthscale .nil)
  | .matern12 _ => do
      let lengthscale ← Param.new (scalarArr 1) true .softplus gammaPrior
      pure (.leaf "lengthscale".toList lengthscale .nil)
  | .matern32 _ => do
      let lengthscale ← Param.new (scalarArr 1) true .softplus gammaPrior
      pure (.leaf "lengthscale".toList lengthscale .nil)
  | .matern52 _ => do
      let lengthscale ← Param.new (scalarArr 1) true .softplus gammaPrior
      pure (.leaf "lengthscale".toList lengthscale .nil)
  | .expSinSquared _ => do
      let lengthscale ← Param.new (scalarArr 1) true .softplus gammaPrior
      let periodicity ← Param.new (scalarArr (2 * Real.pi)) false .softplus gammaPrior
      pure (.leaf "lengthscale".toList lengthscale (.leaf "periodicity".toList periodicity .nil))
  | .sum k1 k2 => do
      let p1 ← k1.defaultParams
      let p2 ← k2.defaultParams
      pure (.node "kernel1".toList p1 (.node "kernel2".toList p2 .nil))
  | .prod k1 k2 => do
      let p1 ← k1.defaultParams
      let p2 ← k2.defaultParams
      pure (.node "kernel1".toList p1 (.node "kernel2".toList p2 .nil))

/-- The parameters of `GPR(kernel)`, models/gpr.py 863-870 (`default_params`) and 889-906 (`init`), with neither
`kernel_params` nor `sigma` given. -/
noncomputable def gprInitParams (e : KExpr d) : Except Err (Dict Param) := do
  let kernelParams ← e.defaultParams
  let sigma ← Param.new (scalarArr 1) true .softplus gammaPrior
  pure (.node "kernel_params".toList kernelParams (.leaf "sigma".toList sigma .nil))

/-- The parameters of `SGPR(kernel, x_locs=…, jacobian_locs=…)`, models/sgpr.py 676-684 (`default_params`) and
703-733 (`init`); the same in models/sgpr_rpchol.py 689-697. -/
noncomputable def sgprInitParams (e : KExpr d) (xLocs : Param) (jacobianLocs : Option Param) :
    Except Err (Dict Param) := do
  let kernelParams ← e.defaultParams
  let sigma ← Param.new (scalarArr 1) true .softplus normalPrior
  match jacobianLocs with
  | some j => pure (.node "kernel_params".toList kernelParams (.leaf "sigma".toList sigma
      (.leaf "x_locs".toList xLocs (.leaf "jacobian_locs".toList j .nil))))
  | none => pure (.node "kernel_params".toList kernelParams (.leaf "sigma".toList sigma
      (.leaf "x_locs".toList xLocs .nil)))

/-- `params[k1][k2]…`: indexing a dictionary of parameters by a path of keys. -/
def Dict.at? : List Key → Dict Param → Option Param
  | [], _ => none
  | k :: ks, d =>
    match d.get? k with
    | some (.inl p) => if ks = [] then some p else none
    | some (.inr s) => Dict.at? ks s
    | none => none

/-- `params[…].value` of a scalar parameter. A missing key is a `KeyError` in the code; here it reads as `none`. -/
def Dict.scalarAt? (d : Dict Param) (path : List Key) : Option ℝ :=
  (d.at? path).bind fun p => p.value.data.head?

/-- An entry of the array `params[…].value`, counted in row-major order. -/
def Dict.entryAt? (d : Dict Param) (path : List Key) (k : ℕ) : Option ℝ :=
  (d.at? path).bind fun p => p.value.data[k]?

/-- `state.params["x_locs"].value`, as `sgpr.py` reads it for `_sgpr.py` (e.g. lines 87 and 98): an array of shape
`(l, d)`. Entries that do not exist (another shape) read as zero. -/
noncomputable def Dict.xLocs (D : Dict Param) (l d : ℕ) : Batch l d := fun i j =>
  (D.entryAt? ["x_locs".toList] (i.val * d + j.val)).getD 0

/-- How `_gpr.py` reads `params["kernel_params"]` and `params["sigma"]`, e.g. lines 54-55. The kernels index
`kernel_params` further by the names of their parameters. Missing keys read as zero: see `C86_present`. -/
noncomputable def GPParams.ofDict (d : Dict Param) : GPParams where
  kernelParams := fun path => (d.scalarAt? ("kernel_params".toList :: path.map String.toList)).getD 0
  sigma := (d.scalarAt? ["sigma".toList]).getD 0

end GPX
