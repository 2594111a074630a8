import Verif.Model.SGPR
import Verif.Spec.Kernels

/-!
# Specification vocabulary for the sparse models
-/

namespace GPX.Spec
open GPX

variable {d m n v w : ℕ}

/-- Entry `(a, b)` of `sigma² K_mm + K_mn K_nm + 1e-10 I`. -/
noncomputable def sparseEntry (κ : KernelObj d) (θ : GPParams) (xl : Batch m d) (x : Batch n d)
    (a b : Fin m) : ℝ :=
  θ.sigma ^ 2 * κ.k θ.kernelParams xl xl a b +
    ∑ i, κ.k θ.kernelParams xl x a i * κ.k θ.kernelParams xl x b i +
    if a = b then 1 / 10 ^ 10 else 0

/-- The same for the jacobian-contracted Hessian kernel. -/
noncomputable def sparseDerivsEntry (κ : KernelObj d) (θ : GPParams) (xl : Batch m d) (Jl : Jac m d v)
    (x : Batch n d) (J : Jac n d w) (a b : Fin (m * v)) : ℝ :=
  θ.sigma ^ 2 * κ.d01kj θ.kernelParams xl xl Jl Jl a b +
    ∑ i, κ.d01kj θ.kernelParams xl x Jl J a i * κ.d01kj θ.kernelParams xl x Jl J b i +
    if a = b then 1 / 10 ^ 10 else 0

/-- The covariance `K_xx - K_xm (K_mm + 1e-10)⁻¹ K_mx + sigma² K_xm (sigma² K_mm + K_mt K_tm + 1e-10)⁻¹ K_mx` of
the projected process with inducing points `xl` and training inputs `t`, at the points `x`. -/
noncomputable def projectedCov (κ : KernelObj d) (θ : GPParams) (xl : Batch m d) {N : ℕ} (t : Batch N d)
    (x : Batch n d) : Mat n n :=
  let Kmx : Mat m n := Matrix.of (κ.k θ.kernelParams xl x)
  let Kmm : Mat m m := Matrix.of (κ.k θ.kernelParams xl xl)
  Matrix.of (κ.k θ.kernelParams x x) -
    Kmx.transpose * (Kmm + (1 / 10 ^ 10 : ℝ) • (1 : Mat m m))⁻¹ * Kmx +
    θ.sigma ^ 2 • (Kmx.transpose * (Matrix.of (sparseEntry κ θ xl t))⁻¹ * Kmx)

/-- The covariance `K_nm (K_mm + 1e-10)⁻¹ K_mn + sigma² + 1e-10` of the targets in the sparse likelihood. -/
noncomputable def sparseCov (κ : KernelObj d) (θ : GPParams) (xl : Batch m d) (x : Batch n d) : Mat n n :=
  (Matrix.of (κ.k θ.kernelParams xl x) : Mat m n).transpose *
    (Matrix.of (κ.k θ.kernelParams xl xl) + (1 / 10 ^ 10 : ℝ) • (1 : Mat m m))⁻¹ *
    Matrix.of (κ.k θ.kernelParams xl x) + (θ.sigma ^ 2 + 1 / 10 ^ 10) • (1 : Mat n n)

end GPX.Spec
