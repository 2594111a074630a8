import Verif.Model.KernelClasses
import Mathlib.LinearAlgebra.Matrix.PosDef

/-!
# Which of two priors is the less certain (C166)

A prior is at least as uncertain as another one when, for every weighted combination of values (or of derivatives), its
variance under the first is at least its variance under the second.
-/

namespace GPX.Spec
open GPX

variable {d : ℕ}

/-- Every weighted sum of values at any inputs has at least the variance under `κ', p'` that it has under `κ, p`. -/
def LessCertain (κ : KernelObj d) (p : KPar) (κ' : KernelObj d) (p' : KPar) : Prop :=
  ∀ (n : ℕ) (x : Batch n d) (w : Fin n → ℝ),
    ∑ i, ∑ j, w i * κ.k p x x i j * w j ≤ ∑ i, ∑ j, w i * κ'.k p' x x i j * w j

/-- The same for weighted sums of derivatives along any directions. -/
def LessCertainDerivs (κ : KernelObj d) (p : KPar) (κ' : KernelObj d) (p' : KPar) : Prop :=
  ∀ (n v : ℕ) (x : Batch n d) (J : Jac n d v) (w : Fin (n * v) → ℝ),
    ∑ i, ∑ j, w i * κ.d01kj p x x J J i j * w j ≤ ∑ i, ∑ j, w i * κ'.d01kj p' x x J J i j * w j

end GPX.Spec
