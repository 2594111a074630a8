import Verif.Model.GPR

/-!
# Specification vocabulary for pivoted Cholesky
-/

namespace GPX.Spec
open GPX

variable {N r : ℕ}

/-- What is left of entry `(a, b)` of `K` after subtracting the contribution of the first `t` columns of `F`. -/
noncomputable def resid (K : Mat N N) (F : Mat N r) (t : ℕ) (a b : Fin N) : ℝ :=
  K a b - ∑ l : Fin r, if l.val < t then F a l * F b l else 0

/-- `F` is the factor of the pivoted Cholesky decomposition of `K` for the pivots `piv`: column `j` is the row of
the current resid at pivot `j`, divided by the square root of its pivot entry plus the jitter `1e-6`. -/
def IsPivotedCholesky (K : Mat N N) (F : Mat N r) (piv : Fin r → ℕ) : Prop :=
  ∀ j : Fin r, ∃ s : Fin N, piv j = s.val ∧
    ∀ a, F a j = resid K F j.val s a / (Real.sqrt (resid K F j.val s s) + 1 / 10 ^ 6)

end GPX.Spec
