import Verif.Spec.Joint
import Mathlib.Analysis.Calculus.Deriv.Basic

/-!
# Derivatives along a path

What it means for the derivatives computed by the package to be the derivatives a user thinks of: the samples depend
on a coordinate, the jacobian passed by the user holds the derivatives of the features with respect to it, and the
quantity the package returns is the derivative, with respect to that coordinate, of the quantity it predicts.
-/

namespace GPX.Spec
open GPX

variable {d n m v w : ℕ}

/-- At the value `t` of a coordinate `s` on which the dataset depends, component `u` of `jacobian` holds the derivative
of each feature of each sample with respect to that coordinate. -/
def Moves (x : ℝ → Batch n d) (t : ℝ) (jacobian : Jac n d v) (u : Fin v) : Prop :=
  ∀ i f, HasDerivAt (fun s => x s i f) (jacobian i f u) t

/-- The jacobian-contracted kernels of `κ` are derivatives along every path of either dataset. -/
structure PathTrue (κ : KernelObj d) (p : KPar) : Prop where
  d0 : ∀ {n m v : ℕ} (x1 : ℝ → Batch n d) (x2 : Batch m d) (t : ℝ) (J : Jac n d v) (u : Fin v), Moves x1 t J u →
    ∀ i j, HasDerivAt (fun s => κ.k p (x1 s) x2 i j) (κ.d0kj p (x1 t) x2 J (flat i u) j) t
  d1 : ∀ {n m v : ℕ} (x1 : Batch n d) (x2 : ℝ → Batch m d) (t : ℝ) (J : Jac m d v) (u : Fin v), Moves x2 t J u →
    ∀ i j, HasDerivAt (fun s => κ.k p x1 (x2 s) i j) (κ.d1kj p x1 (x2 t) J i (flat j u)) t
  d01 : ∀ {n m v w : ℕ} (x1 : Batch n d) (J1 : Jac n d v) (x2 : ℝ → Batch m d) (t : ℝ) (J2 : Jac m d w)
    (u : Fin w), Moves x2 t J2 u → ∀ i q j, HasDerivAt (fun s => κ.d0kj p x1 (x2 s) J1 (flat i q) j)
      (κ.d01kj p x1 (x2 t) J1 J2 (flat i q) (flat j u)) t

/-- The same up to a factor: the derivatives of the kernel are `ε` times what `d0kj` and `d1kj` return, and the
derivatives of `d0kj` are `1 / ε` times what `d01kj` returns. -/
structure PathScaled (ε : ℝ) (κ : KernelObj d) (p : KPar) : Prop where
  d0 : ∀ {n m v : ℕ} (x1 : ℝ → Batch n d) (x2 : Batch m d) (t : ℝ) (J : Jac n d v) (u : Fin v), Moves x1 t J u →
    ∀ i j, HasDerivAt (fun s => κ.k p (x1 s) x2 i j) (ε * κ.d0kj p (x1 t) x2 J (flat i u) j) t
  d1 : ∀ {n m v : ℕ} (x1 : Batch n d) (x2 : ℝ → Batch m d) (t : ℝ) (J : Jac m d v) (u : Fin v), Moves x2 t J u →
    ∀ i j, HasDerivAt (fun s => κ.k p x1 (x2 s) i j) (ε * κ.d1kj p x1 (x2 t) J i (flat j u)) t
  d01 : ∀ {n m v w : ℕ} (x1 : Batch n d) (J1 : Jac n d v) (x2 : ℝ → Batch m d) (t : ℝ) (J2 : Jac m d w)
    (u : Fin w), Moves x2 t J2 u → ∀ i q j, HasDerivAt (fun s => κ.d0kj p x1 (x2 s) J1 (flat i q) j)
      (ε⁻¹ * κ.d01kj p x1 (x2 t) J1 J2 (flat i q) (flat j u)) t

/-- `SquaredExponential` and `Constant` kernels, their sums, and their products with a `Constant`. -/
inductive Gaussian : KExpr d → Prop
  | squaredExponential {a} : Gaussian (.squaredExponential a)
  | constant {a} : Gaussian (.constant a)
  | sum {e1 e2} : Gaussian e1 → Gaussian e2 → Gaussian (.sum e1 e2)
  | scaleLeft {a e} : Gaussian e → Gaussian (.prod (.constant a) e)
  | scaleRight {a e} : Gaussian e → Gaussian (.prod e (.constant a))

end GPX.Spec
