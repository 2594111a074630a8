import Verif.Spec.Frames

/-! # Specification: two sets of derivatives put side by side -/

namespace GPX.Spec
open GPX

variable {d n v w : ℕ}

/-- The jacobians of two sets of derivatives side by side: the components of the first set, then those of the
second. -/
def joinJac (J : Jac n d v) (J' : Jac n d w) : Jac n d (v + w) := fun i f => Fin.append (J i f) (J' i f)

/-- Derivatives of two sets side by side. -/
def joinCols (y : Mat n v) (y' : Mat n w) : Mat n (v + w) := Matrix.of fun i => Fin.append (y i) (y' i)

end GPX.Spec
