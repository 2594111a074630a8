import Verif.Spec.Transfer

/-! # Specification vocabulary: shifts by periods -/

namespace GPX.Spec
open GPX

variable {d n : ℕ}

/-- Shifts of the features the kernel should not notice: whole periods in the active features of an `ExpSinSquared`, nothing
in the active features of the other kernels; `Constant` ignores the samples. -/
def Periods : KExpr d → KPar → (Fin d → ℝ) → Prop
  | .constant _, _, _ => True
  | .expSinSquared a, p, δ => ∀ b, ∃ z : ℤ, δ ((Dims.resolve a).idx b) = z * p.val "periodicity"
  | .linear a, _, δ => ∀ b, δ ((Dims.resolve a).idx b) = 0
  | .polynomial a _, _, δ => ∀ b, δ ((Dims.resolve a).idx b) = 0
  | .squaredExponential a, _, δ => ∀ b, δ ((Dims.resolve a).idx b) = 0
  | .matern12 a, _, δ => ∀ b, δ ((Dims.resolve a).idx b) = 0
  | .matern32 a, _, δ => ∀ b, δ ((Dims.resolve a).idx b) = 0
  | .matern52 a, _, δ => ∀ b, δ ((Dims.resolve a).idx b) = 0
  | .sum e1 e2, p, δ => Periods e1 (p.sub "kernel1") δ ∧ Periods e2 (p.sub "kernel2") δ
  | .prod e1 e2, p, δ => Periods e1 (p.sub "kernel1") δ ∧ Periods e2 (p.sub "kernel2") δ

/-- Every sample is shifted by periods, different samples by different ones. -/
def Shifted (e : KExpr d) (p : KPar) (x x' : Batch n d) : Prop := ∀ i, Periods e p fun f => x' i f - x i f

end GPX.Spec
