import Verif.Spec.Transfer

/-!
# Symmetries of kernels (C169)
-/

namespace GPX.Spec
open GPX

variable {d : ℕ}

/-- `T` is a motion of the inputs, `L` the corresponding motion of derivatives, that the kernels in `e` do not notice: a rotation,
reflection or permutation of features with or without a translation (`Q` orthogonal), or a translation. -/
inductive Unnoticed (e : KExpr d) : (T L : (Fin d → ℝ) → (Fin d → ℝ)) → Prop
  | rigid (he : Isotropic e) (Q : Matrix (Fin d) (Fin d) ℝ) (hQ : Q.transpose * Q = 1) (b : Fin d → ℝ) :
      Unnoticed e (affine Q b) (affine Q 0)
  | rotation (he : RotationInvariant e) (Q : Matrix (Fin d) (Fin d) ℝ) (hQ : Q.transpose * Q = 1) :
      Unnoticed e (affine Q 0) (affine Q 0)
  | translation (he : TranslationInvariant e) (b : Fin d → ℝ) : Unnoticed e (fun x f => x f + b f) (fun u => u)

end GPX.Spec
