import Verif.Spec.Decay

/-!
# How fast a kernel changes

Read off the kernel expression: a bound on the values of the kernel, and for every feature a bound on how fast the kernel tells two samples
apart when they are moved along that feature.
-/

namespace GPX.Spec
open GPX

variable {d n : ℕ}

/-- The squared distance of two samples as the kernel sees them, `k(x, x) - k(x, x') - k(x', x) + k(x', x')`. -/
def kernelDist (κ : KernelObj d) (p : KPar) (x : Batch n d) (i j : Fin n) : ℝ :=
  κ.k p x x i i - κ.k p x x i j - κ.k p x x j i + κ.k p x x j j

/-- How often a feature is named in `active_dims` (once for `None`). -/
def uses (a : Option (Dims d)) (f : Fin d) : ℕ := (Finset.univ.filter fun b => (Dims.resolve a).idx b = f).card

/-- Every kernel but `Matern12`, whose values have a kink, and `Polynomial`, whose slope is unbounded; `Linear` in sums only. -/
def SlopedExpr : KExpr d → Prop
  | .polynomial _ _ => False
  | .matern12 _ => False
  | .sum e1 e2 => SlopedExpr e1 ∧ SlopedExpr e2
  | .prod e1 e2 => (SlopedExpr e1 ∧ SlopedExpr e2) ∧ BoundedExpr e1 ∧ BoundedExpr e2
  | _ => True

/-- The largest value of a kernel made of constants and stationary kernels. -/
noncomputable def peak : KExpr d → KPar → ℝ
  | .constant _, p => p.val "variance"
  | .sum e1 e2, p => peak e1 (p.sub "kernel1") + peak e2 (p.sub "kernel2")
  | .prod e1 e2, p => peak e1 (p.sub "kernel1") * peak e2 (p.sub "kernel2")
  | _, _ => 1

/-- The slope of a kernel along a feature: the squared distance of two samples is at most `Σ_f slope f (x_f - x'_f)²`. -/
noncomputable def kslope : KExpr d → KPar → Fin d → ℝ
  | .constant _, _, _ => 0
  | .linear a, _, f => uses a f
  | .squaredExponential a, p, f => 2 * uses a f / p.val "lengthscale" ^ 2
  | .matern32 a, p, f => 3 * uses a f / p.val "lengthscale" ^ 2
  | .matern52 a, p, f => 5 / 3 * uses a f / p.val "lengthscale" ^ 2
  | .expSinSquared a, p, f => 8 * Real.pi ^ 2 * uses a f / (p.val "lengthscale" * p.val "periodicity" ^ 2)
  | .sum e1 e2, p, f => kslope e1 (p.sub "kernel1") f + kslope e2 (p.sub "kernel2") f
  | .prod e1 e2, p, f =>
    peak e1 (p.sub "kernel1") * kslope e2 (p.sub "kernel2") f + peak e2 (p.sub "kernel2") * kslope e1 (p.sub "kernel1") f
  | .polynomial _ _, _, _ => 0
  | .matern12 _, _, _ => 0

end GPX.Spec
