import Verif.Model.Sampling

/-!
# Specification vocabulary for sampling
-/

namespace GPX.Spec
open GPX

/-- A finitely additive expectation on functions of a random key. -/
structure Expectation (Key : Type) where
  E : (Key → ℝ) → ℝ
  add : ∀ f g : Key → ℝ, E (fun k => f k + g k) = E f + E g
  smul : ∀ (c : ℝ) (f : Key → ℝ), E (fun k => c * f k) = c * E f
  const : ∀ c : ℝ, E (fun _ => c) = c

/-- Under `E`, the array `z` has uncorrelated standard entries. -/
def Standard {Key : Type} (E : Expectation Key) {r n : ℕ} (z : Key → Arr2 r n) : Prop :=
  (∀ s i, E.E (fun k => z k s i) = 0) ∧
  ∀ s i t j, E.E (fun k => z k s i * z k t j) = if s = t ∧ i = j then 1 else 0

end GPX.Spec
