import Verif.Spec.Kernels

/-! # Specification vocabulary: kernels that are polynomials -/

namespace GPX.Spec
open GPX

variable {d n k : ℕ}

/-- Kernels made of `Constant`, `Linear` and `Polynomial` by sums and products. -/
def PolyExpr : KExpr d → Prop
  | .constant _ => True
  | .linear _ => True
  | .polynomial _ _ => True
  | .sum e1 e2 => PolyExpr e1 ∧ PolyExpr e2
  | .prod e1 e2 => PolyExpr e1 ∧ PolyExpr e2
  | _ => False

/-- The degree of such a kernel in each of its arguments. -/
noncomputable def polyDegree : KExpr d → KPar → ℕ
  | .linear _, _ => 1
  | .polynomial _ _, p => ⌊p.val "degree"⌋₊
  | .sum e1 e2, p => max (polyDegree e1 (p.sub "kernel1")) (polyDegree e2 (p.sub "kernel2"))
  | .prod e1 e2, p => polyDegree e1 (p.sub "kernel1") + polyDegree e2 (p.sub "kernel2")
  | _, _ => 0

/-- The objective of ridge regression with the penalty `s`: `Σ_i (r_i - Σ_f w_f Φ_if)² + s Σ_f w_f²`. -/
noncomputable def ridgeLoss (s : ℝ) (Φ : Fin n → Fin k → ℝ) (r : Fin n → ℝ) (w : Fin k → ℝ) : ℝ :=
  ∑ i, (r i - ∑ f, w f * Φ i f) ^ 2 + s * ∑ f, w f ^ 2

end GPX.Spec
