import Verif.Model.GPR

/-!
# Specification vocabulary for Gaussian process regression
-/

namespace GPX.Spec
open GPX

variable {n o v : ℕ}

/-- The density at `r` of the normal distribution with mean zero and covariance `C`. -/
noncomputable def gaussDensity (C : Mat n n) (r : Fin n → ℝ) : ℝ :=
  Real.exp (-(1 / 2) * ∑ i, ∑ j, r i * C⁻¹ i j * r j) / Real.sqrt ((2 * Real.pi) ^ n * C.det)

/-- A conjugate gradient routine that solves every positive definite system. -/
def CGExact (cg : CG) : Prop :=
  ∀ {n o : ℕ} (A : Mat n n) (b : Mat n o) (M : Mat n o → Mat n o), A.PosDef →
    A * cg (fun z : Mat n o => A * z) b M = b

/-- A mean function that does not look at the order of the samples. -/
def MeanFun.OrderFree (mf : MeanFun) : Prop :=
  ∀ {n o : ℕ} (y : Mat n o) (π : Equiv.Perm (Fin n)), mf (y.submatrix π id) = mf y

/-- A mean function that is linear in the targets. -/
def MeanFun.Linear (mf : MeanFun) : Prop :=
  ∀ {n o : ℕ} (a b : ℝ) (y y' : Mat n o), mf (a • y + b • y') = a * mf y + b * mf y'

end GPX.Spec
