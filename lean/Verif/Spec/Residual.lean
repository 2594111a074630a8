import Verif.Spec.GPR

/-!
# Solvers that stop at a tolerance

`jax.scipy.sparse.linalg.cg(A, b, tol, atol)` stops when `‖b - A x‖² ≤ max(tol² ‖b‖², atol²)`.
-/

namespace GPX.Spec
open GPX

variable {n o : ℕ}

/-- The sum of the squares of all entries. -/
def sumSq (A : Mat n o) : ℝ := ∑ i, ∑ a, A i a ^ 2

/-- The largest squared residual at which the conjugate gradient routine stops. -/
noncomputable def cgTarget (tol atol : ℝ) (b : Mat n o) : ℝ := max (tol ^ 2 * sumSq b) (atol ^ 2)

/-- A routine whose result on positive definite systems satisfies its own stopping rule. Nothing is said about how
it depends on the preconditioner, nor about systems that are not positive definite. -/
def CGStops (cg : CG) (tol atol : ℝ) : Prop :=
  ∀ {n o : ℕ} (A : Mat n n) (b : Mat n o) (M : Mat n o → Mat n o), A.PosDef →
    sumSq (b - A * cg (fun z : Mat n o => A * z) b M) ≤ cgTarget tol atol b

end GPX.Spec
