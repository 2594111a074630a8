import Verif.Model.KernelClasses
import Verif.Spec.Decay

/-!
# Stretching all lengthscales of a kernel (C167)
-/

namespace GPX.Spec
open GPX

/-- The hyperparameters `p` with every lengthscale, at any depth of a sum or product, multiplied by `s`. -/
noncomputable def stretch (p : KPar) (s : ℝ) : KPar :=
  fun path => if path.getLast? = some "lengthscale" then s * p path else p path

end GPX.Spec
