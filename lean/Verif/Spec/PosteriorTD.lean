import Verif.Spec.NormalLaw
import Verif.Spec.GPRTD
import Verif.Spec.SGPR

/-!
# Specification vocabulary: observations of targets and derivatives as random vectors
-/

namespace GPX.Spec

variable {n v v' : ℕ}

/-- The prior mean of an observation: the constant `mu` for targets, zero for derivatives. -/
def priorMean1 (mu : ℝ) : Obs1 n v → ℝ
  | .inl _ => mu
  | .inr _ => 0

/-- The same with two sets of derivatives. -/
def priorMean2 (mu : ℝ) : Obs2 n v v' → ℝ
  | .inl a => priorMean1 mu a
  | .inr _ => 0

/-- The targets among the observations, in the shape the models ask for. -/
def targetsOf (y : Obs1 n v → ℝ) : Mat n 1 := Matrix.of fun i _ => y (.inl i)

/-- The derivatives among the observations, in the shape the models ask for. -/
def derivsOf (y : Obs1 n v → ℝ) : Mat n v := Matrix.of fun i u => y (.inr (i, u))

/-- The second set of derivatives among the observations. -/
def derivs2Of (y : Obs2 n v v' → ℝ) : Mat n v' := Matrix.of fun i u => y (.inr (i, u))

/-- Predicted targets and derivatives as one vector. -/
def predicted1 (r : Mat n 1 × Mat n v) : Obs1 n v → ℝ
  | .inl i => r.1 i 0
  | .inr (i, u) => r.2 i u

/-- Predicted targets and two sets of derivatives as one vector. -/
def predicted2 (r : Mat n 1 × Mat n v × Mat n v') : Obs2 n v v' → ℝ
  | .inl a => predicted1 (r.1, r.2.1) a
  | .inr (i, u) => r.2.2 i u

/-- The covariance `k(x, l) (K_ll + 1e-10/sigma² I)⁻¹ k(l, x')` of the sparse process with inducing points `l`, between
the points `x` and `x'`. -/
noncomputable def sparsePrior {d m k : ℕ} (κ : KernelObj d) (θ : GPParams) (xl : Batch m d) (x : Batch n d) (x' : Batch k d) :
    Matrix (Fin n) (Fin k) ℝ :=
  (Matrix.of (κ.k θ.kernelParams xl x) : Mat m n).transpose *
    (Matrix.of (κ.k θ.kernelParams xl xl) + (1 / 10 ^ 10 / θ.sigma ^ 2) • (1 : Mat m m))⁻¹ *
    (Matrix.of (κ.k θ.kernelParams xl x') : Mat m k)

/-- The same for derivatives, with derivatives at the inducing points. -/
noncomputable def sparseDerivsPrior {d m k u w : ℕ} (κ : KernelObj d) (θ : GPParams) (xl : Batch m d) (Jl : Jac m d u)
    (x : Batch n d) (J : Jac n d v) (x' : Batch k d) (J' : Jac k d w) : Matrix (Fin (n * v)) (Fin (k * w)) ℝ :=
  (Matrix.of (κ.d01kj θ.kernelParams xl x Jl J) : Mat (m * u) (n * v)).transpose *
    (Matrix.of (κ.d01kj θ.kernelParams xl xl Jl Jl) + (1 / 10 ^ 10 / θ.sigma ^ 2) • (1 : Mat (m * u) (m * u)))⁻¹ *
    (Matrix.of (κ.d01kj θ.kernelParams xl x' Jl J') : Mat (m * u) (k * w))

end GPX.Spec
