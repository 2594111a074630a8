import Verif.Model.StateGrad
import Verif.Spec.Params

/-!
# Specification vocabulary: gradients with respect to a state
-/

namespace GPX.Spec
open GPX
variable {K M C : Type}

/-- `r` is the state `s` except that entry `k` (row-major) of the parameter at `path` is greater by `t`. -/
def MovedBy (s : ModelState K M C) (path : List Key) (k : ℕ) (t : ℝ) (r : ModelState K M C) : Prop :=
  r.kernel = s.kernel ∧ r.meanFn = s.meanFn ∧
  (∀ name, (assocGet name r.opts).map OptVal.norm = (assocGet name s.opts).map OptVal.norm) ∧
  (∀ path', path' ≠ path → lookup path' r.params = lookup path' s.params) ∧
  ∀ p, lookup path s.params = some (.inl p) → ∃ p', lookup path r.params = some (.inl p') ∧
    p'.trainable = p.trainable ∧ p'.bijector = p.bijector ∧ p'.prior = p.prior ∧ p'.value.shape = p.value.shape ∧
    p'.value.dtype = p.value.dtype ∧ p'.value.data.length = p.value.data.length ∧
    ∀ j, j < p.value.data.length → p'.value.data[j]? = (p.value.data[j]?).map fun v => if j = k then v + t else v

/-- All entries are zero. -/
def AllZero (g : List Arr) : Prop := ∀ a ∈ g, ∀ x ∈ a.data, x = 0

end GPX.Spec
