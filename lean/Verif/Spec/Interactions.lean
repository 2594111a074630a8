import Verif.Spec.Kernels

/-! # Specification vocabulary: which features a kernel reads, and which it lets interact -/

namespace GPX.Spec
open GPX

variable {d : ℕ}

/-- The feature is named in `active_dims` (every feature for `None`). -/
def named (a : Option (Dims d)) (f : Fin d) : Prop := ∃ b, (Dims.resolve a).idx b = f

/-- Some part of the kernel other than a `Constant` reads the feature. -/
def readsFeature : KExpr d → Fin d → Prop
  | .constant _, _ => False
  | .linear a, f => named a f
  | .polynomial a _, f => named a f
  | .squaredExponential a, f => named a f
  | .matern12 a, f => named a f
  | .matern32 a, f => named a f
  | .matern52 a, f => named a f
  | .expSinSquared a, f => named a f
  | .sum e1 e2, f => readsFeature e1 f ∨ readsFeature e2 f
  | .prod e1 e2, f => readsFeature e1 f ∨ readsFeature e2 f

/-- Two features interact if one part reads both (`Linear` only adds them), or the factors of a product read one each. -/
def interact : KExpr d → Fin d → Fin d → Prop
  | .linear _, _, _ => False
  | .sum e1 e2, f, g => interact e1 f g ∨ interact e2 f g
  | .prod e1 e2, f, g => interact e1 f g ∨ interact e2 f g ∨ (readsFeature e1 f ∧ readsFeature e2 g) ∨ (readsFeature e1 g ∧ readsFeature e2 f)
  | e, f, g => readsFeature e f ∧ readsFeature e g

/-- The sample `x` with other values of two features, as a batch of one sample. -/
def withFeatures (x : Fin d → ℝ) (f g : Fin d) (s t : ℝ) : Batch 1 d := fun _ => Function.update (Function.update x f s) g t

end GPX.Spec
