import Verif.Spec.Transfer

/-!
# Specification of repeated features in `active_dims`

A list of active features that names a feature twice reads the feature twice. The same can be written without a repetition by
giving the kernel several copies of every feature and naming a different copy at each place of the list.
-/

namespace GPX.Spec
open GPX

variable {d d' : ℕ}

/-- `K + 1` copies of every feature: feature `g` of the result is a copy of feature `g / (K + 1)`. -/
def copies (K : ℕ) (x : Fin d → ℝ) : Fin (d * (K + 1)) → ℝ := fun g => x g.divNat

/-- The list of active features whose entry number `c` names copy number `c` of the feature it named before. -/
def copyDims (K : ℕ) (a : Option (Dims d)) : Option (Dims (d * (K + 1))) :=
  some ⟨(Dims.resolve a).k, fun c => flat ((Dims.resolve a).idx c) (Fin.ofNat (K + 1) c)⟩

/-- The same expression reading the copies. -/
def onCopies (K : ℕ) : KExpr d → KExpr (d * (K + 1))
  | .constant a => .constant (copyDims K a)
  | .linear a => .linear (copyDims K a)
  | .polynomial a b => .polynomial (copyDims K a) b
  | .squaredExponential a => .squaredExponential (copyDims K a)
  | .matern12 a => .matern12 (copyDims K a)
  | .matern32 a => .matern32 (copyDims K a)
  | .matern52 a => .matern52 (copyDims K a)
  | .expSinSquared a => .expSinSquared (copyDims K a)
  | .sum e1 e2 => .sum (onCopies K e1) (onCopies K e2)
  | .prod e1 e2 => .prod (onCopies K e1) (onCopies K e2)

/-- The length of the longest list of active features in the expression. -/
def longest : KExpr d → ℕ
  | .constant a => (Dims.resolve a).k
  | .linear a => (Dims.resolve a).k
  | .polynomial a _ => (Dims.resolve a).k
  | .squaredExponential a => (Dims.resolve a).k
  | .matern12 a => (Dims.resolve a).k
  | .matern32 a => (Dims.resolve a).k
  | .matern52 a => (Dims.resolve a).k
  | .expSinSquared a => (Dims.resolve a).k
  | .sum e1 e2 => max (longest e1) (longest e2)
  | .prod e1 e2 => max (longest e1) (longest e2)

/-- Two kernels whose values and contracted derivatives agree when the samples and the jacobians of the first are mapped
by `T`. -/
structure SameKernels (κ : KernelObj d) (κ' : KernelObj d') (p : KPar) (T : (Fin d → ℝ) → (Fin d' → ℝ)) : Prop where
  k : ∀ {n l : ℕ} (x1 : Batch n d) (x2 : Batch l d), κ'.k p (mapBatch T x1) (mapBatch T x2) = κ.k p x1 x2
  d0kj : ∀ {n l v : ℕ} (x1 : Batch n d) (x2 : Batch l d) (J : Jac n d v),
    κ'.d0kj p (mapBatch T x1) (mapBatch T x2) (mapJac T J) = κ.d0kj p x1 x2 J
  d1kj : ∀ {n l v : ℕ} (x1 : Batch n d) (x2 : Batch l d) (J : Jac l d v),
    κ'.d1kj p (mapBatch T x1) (mapBatch T x2) (mapJac T J) = κ.d1kj p x1 x2 J
  d01kj : ∀ {n l v w : ℕ} (x1 : Batch n d) (x2 : Batch l d) (J1 : Jac n d v) (J2 : Jac l d w),
    κ'.d01kj p (mapBatch T x1) (mapBatch T x2) (mapJac T J1) (mapJac T J2) = κ.d01kj p x1 x2 J1 J2

end GPX.Spec
