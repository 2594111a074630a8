import Verif.Spec.Kernels
import Verif.Model.GPR

/-!
# Specification: derivatives expressed in other coordinates

The derivative components of a sample refer to some coordinates (for example the cartesian coordinates of the atoms of a
molecule). Expressed in other coordinates, each sample with its own change of coordinates, the jacobian of a sample
and its observed derivatives are multiplied by the same matrix.
-/

namespace GPX.Spec
open GPX

variable {d n v v' : ℕ}

/-- The jacobians expressed in new coordinates: that of sample `i` is multiplied by `R i`. -/
def inFrames (R : Fin n → Mat v v') (J : Jac n d v) : Jac n d v' := fun i f u => ∑ t, J i f t * R i t u

/-- Derivatives (observed or predicted) expressed in new coordinates: those of sample `i` are multiplied by `R i`. -/
def readIn (R : Fin n → Mat v v') (y : Mat n v) : Mat n v' := Matrix.of fun i u => ∑ t, y i t * R i t u

/-- The changes of coordinates preserve lengths: the old coordinate axes become orthonormal vectors. Rotations,
reflections and permutations of the coordinates are of this kind, and so is adding components that are always zero. -/
def Frames (R : Fin n → Mat v v') : Prop :=
  ∀ i t t', ∑ u, R i t u * R i t' u = if t = t' then 1 else 0

end GPX.Spec
