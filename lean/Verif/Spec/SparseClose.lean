import Verif.Model.SGPR
import Verif.Spec.Kernels

/-! # Specification vocabulary: what the inducing points leave unexplained -/

namespace GPX.Spec
open GPX

variable {d m n u v : ℕ}

/-- `k(x, x) - k(x, L) (K_LL + c)⁻¹ k(L, x)` at the sample `x j`: the part of the prior variance at `x j` that the values at the
inducing points `L` do not determine. -/
noncomputable def unexplained (κ : KernelObj d) (p : KPar) (c : ℝ) (xl : Batch m d) (x : Batch n d) (j : Fin n) : ℝ :=
  κ.k p x x j j - ∑ a, ∑ b, κ.k p xl x a j * ((Matrix.of (κ.k p xl xl) : Mat m m) + c • (1 : Mat m m))⁻¹ a b * κ.k p xl x b j

/-- The same for the derivative `q` of the sample `x j`, with derivatives at the inducing points. -/
noncomputable def unexplainedDerivs (κ : KernelObj d) (p : KPar) (c : ℝ) (xl : Batch m d) (Jl : Jac m d u) (x : Batch n d)
    (J : Jac n d v) (j : Fin n) (q : Fin v) : ℝ :=
  κ.d01kj p x x J J (flat j q) (flat j q) - ∑ a, ∑ b, κ.d01kj p xl x Jl J a (flat j q) *
    ((Matrix.of (κ.d01kj p xl xl Jl Jl) : Mat (m * u) (m * u)) + c • (1 : Mat (m * u) (m * u)))⁻¹ a b *
    κ.d01kj p xl x Jl J b (flat j q)

end GPX.Spec
