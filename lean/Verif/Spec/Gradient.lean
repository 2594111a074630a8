import Verif.Spec.Kernels
import Verif.Model.GPRTD
import Mathlib.Analysis.Calculus.Deriv.Basic

/-!
# Specification vocabulary: quantities that vary differentiably

`E` is any normed space of settings; with `E = ℝ` the settings move along a curve, with `E = Fin q → ℝ` they are the
`q` trainable numbers of a model.
-/

namespace GPX.Spec
open GPX

variable {E : Type} [NormedAddCommGroup E] [NormedSpace ℝ E]

/-- Hyperparameters and noise that vary differentiably with `t`. -/
structure DiffParams (θ : E → GPParams) : Prop where
  sigma : Differentiable ℝ fun t => (θ t).sigma
  kernel : ∀ path, Differentiable ℝ fun t => (θ t).kernelParams path

/-- A dataset (or a kernel matrix) all entries of which vary differentiably with `t`. -/
def DiffEntries {n m : ℕ} (A : E → Fin n → Fin m → ℝ) : Prop := ∀ i j, Differentiable ℝ fun t => A t i j

/-- A matrix all entries of which vary differentiably with `t`. -/
def DiffMat {n m : ℕ} (A : E → Mat n m) : Prop := ∀ i j, Differentiable ℝ fun t => A t i j

/-- A mean function that varies differentiably when the targets do. -/
def DiffMean (E : Type) [NormedAddCommGroup E] [NormedSpace ℝ E] (mf : MeanFun) : Prop :=
  ∀ (n o : ℕ) (y : E → Mat n o), DiffMat y → Differentiable ℝ fun t => mf (y t)

/-- `A'` holds the derivatives of the entries of `A` along the curve, at `t`. -/
def EntryDerivs {n m : ℕ} (A : ℝ → Mat n m) (A' : Mat n m) (t : ℝ) : Prop :=
  ∀ i j, HasDerivAt (fun s => A s i j) (A' i j) t

/-- Jacobians all entries of which vary differentiably with `t`. -/
def DiffJac {n d v : ℕ} (J : E → Jac n d v) : Prop := ∀ i f u, Differentiable ℝ fun t => J t i f u

/-- Hyperparameters and noises of a joint model that vary differentiably with `t`. -/
structure DiffTDParams (θ : E → TDParams) : Prop where
  targets : Differentiable ℝ fun t => (θ t).sigmaTargets
  derivs : Differentiable ℝ fun t => (θ t).sigmaDerivs
  derivs2 : Differentiable ℝ fun t => (θ t).sigmaDerivs2
  kernel : ∀ path, Differentiable ℝ fun t => (θ t).kernelParams path

/-- The kernel and the derivative kernels contracted with jacobians vary differentiably when the hyperparameters, the
datasets and the jacobians do. -/
structure DiffKernel {d : ℕ} (κ : KernelObj d) (p : E → KPar) : Prop where
  k : ∀ {n m : ℕ} {x1 : E → Batch n d} {x2 : E → Batch m d}, DiffEntries x1 → DiffEntries x2 →
    ∀ i j, Differentiable ℝ fun t => κ.k (p t) (x1 t) (x2 t) i j
  d0kj : ∀ {n m v : ℕ} {x1 : E → Batch n d} {x2 : E → Batch m d} {J : E → Jac n d v}, DiffEntries x1 →
    DiffEntries x2 → DiffJac J → ∀ r j, Differentiable ℝ fun t => κ.d0kj (p t) (x1 t) (x2 t) (J t) r j
  d1kj : ∀ {n m v : ℕ} {x1 : E → Batch n d} {x2 : E → Batch m d} {J : E → Jac m d v}, DiffEntries x1 →
    DiffEntries x2 → DiffJac J → ∀ i r, Differentiable ℝ fun t => κ.d1kj (p t) (x1 t) (x2 t) (J t) i r
  d01kj : ∀ {n m v w : ℕ} {x1 : E → Batch n d} {x2 : E → Batch m d} {J1 : E → Jac n d v} {J2 : E → Jac m d w},
    DiffEntries x1 → DiffEntries x2 → DiffJac J1 → DiffJac J2 →
    ∀ r s, Differentiable ℝ fun t => κ.d01kj (p t) (x1 t) (x2 t) (J1 t) (J2 t) r s

/-- A stationary point of the training objective `f`: along every differentiable curve of admissible hyperparameters
and noise through `θ₀`, the objective has derivative zero there. -/
def StationaryPoint {d : ℕ} (e : KExpr d) (f : GPParams → ℝ) (θ₀ : GPParams) : Prop :=
  ∀ θ : ℝ → GPParams, DiffParams θ → (∀ t, Admissible e (θ t).kernelParams) → θ 0 = θ₀ →
    HasDerivAt (fun t => f (θ t)) 0 0

end GPX.Spec
