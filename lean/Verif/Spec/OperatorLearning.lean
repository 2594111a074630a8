import Verif.Model.GPR
import Verif.Spec.Kernels

/-!
# Operator learning: one function fitted to targets and derivatives
-/

namespace GPX.Spec
open GPX

variable {d n v : ℕ}

/-- The squared errors that `fit_ol` is documented to minimise: coefficients `c` of the functions
`f(z) = ∑ j, c j * k(z, x j)` are asked to satisfy `f(x i) + (σ² + 1e-10) c i = y i - μ` and
`∂f(x i) = y_derivs i`. -/
noncomputable def olErrors (κ : KernelObj d) (θ : GPParams) (x : Batch n d) (J : Jac n d v) (y : Mat n 1) (mu : ℝ)
    (yDerivs : Mat n v) (c : Mat n 1) : ℝ :=
  ∑ i, (∑ j, κ.k θ.kernelParams x x i j * c j 0 + (θ.sigma ^ 2 + 1 / 10 ^ 10) * c i 0 - (y i 0 - mu)) ^ 2 +
    ∑ i, ∑ u, (∑ j, κ.d0kj θ.kernelParams x x J (flat i u) j * c j 0 - yDerivs i u) ^ 2

/-- The covariance documented for `predict_ol`: `K_nn - K_nm (K_mm + σ²I)⁻¹ K_mn`, `S` being the matrix inverted
(the library adds `1e-10` to the noise variance). -/
def OlCovariance {m : ℕ} (κ : KernelObj d) (θ : GPParams) (xTrain : Batch m d) (x : Batch n d)
    (cov : Mat n n) : Prop :=
  ∃ S : Mat m m, (∀ i j, S i j = κ.k θ.kernelParams xTrain xTrain i j +
      if i = j then θ.sigma ^ 2 + 1 / 10 ^ 10 else 0) ∧ IsUnit S.det ∧
    ∀ i j, cov i j = κ.k θ.kernelParams x x i j -
      ∑ a, ∑ b, κ.k θ.kernelParams xTrain x a i * S⁻¹ a b * κ.k θ.kernelParams xTrain x b j

end GPX.Spec
