import Verif.Spec.Kernels

/-! # Specification vocabulary: which inputs a kernel tells apart -/

namespace GPX.Spec
open GPX

variable {d n : ℕ}

/-- `x` and `y` agree in the active features. -/
def SameFeatures (a : Option (Dims d)) (x y : Fin d → ℝ) : Prop :=
  ∀ b, x ((Dims.resolve a).idx b) = y ((Dims.resolve a).idx b)

/-- `x` and `y` agree in the active features up to whole periods. -/
def SameModulo (a : Option (Dims d)) (per : ℝ) (x y : Fin d → ℝ) : Prop :=
  ∀ b, ∃ z : ℤ, x ((Dims.resolve a).idx b) - y ((Dims.resolve a).idx b) = z * per

/-- `Resolves e p R`: the kernel tells apart inputs that are not related by `R`. A squared exponential or Matern
kernel tells apart inputs that differ in an active feature, a periodic kernel those that differ by more than periods;
a positive constant and a polynomial with a positive offset tell nothing apart, but can be a factor. A sum tells apart
what one of its terms does, a product what one of its factors does. -/
inductive Resolves : KExpr d → KPar → ((Fin d → ℝ) → (Fin d → ℝ) → Prop) → Prop
  | squaredExponential {a p} : 0 < p.val "lengthscale" → Resolves (.squaredExponential a) p (SameFeatures a)
  | matern12 {a p} : 0 < p.val "lengthscale" → Resolves (.matern12 a) p (SameFeatures a)
  | matern32 {a p} : 0 < p.val "lengthscale" → Resolves (.matern32 a) p (SameFeatures a)
  | matern52 {a p} : 0 < p.val "lengthscale" → Resolves (.matern52 a) p (SameFeatures a)
  | expSinSquared {a p} : 0 < p.val "lengthscale" → 0 < p.val "periodicity" →
      Resolves (.expSinSquared a) p (SameModulo a (p.val "periodicity"))
  | constant {a p} : 0 < p.val "variance" → Resolves (.constant a) p fun _ _ => True
  | polynomial {a} {p : KPar} : (∃ q : ℕ, p.val "degree" = q) → 0 < p.val "offset" →
      Resolves (.polynomial a false) p fun _ _ => True
  | sum_left {e1 e2 p R} : Resolves e1 (p.sub "kernel1") R → Admissible e2 (p.sub "kernel2") → Resolves (.sum e1 e2) p R
  | sum_right {e1 e2 p R} : Admissible e1 (p.sub "kernel1") → Resolves e2 (p.sub "kernel2") R → Resolves (.sum e1 e2) p R
  | prod {e1 e2 p R S} : Resolves e1 (p.sub "kernel1") R → Resolves e2 (p.sub "kernel2") S →
      Resolves (.prod e1 e2) p fun x y => R x y ∧ S x y

/-- The kernel tells the samples of `x` apart from each other. -/
def TellsApart (e : KExpr d) (p : KPar) (x : Batch n d) : Prop :=
  ∃ R, Resolves e p R ∧ ∀ i j, R (x i) (x j) → i = j

end GPX.Spec
