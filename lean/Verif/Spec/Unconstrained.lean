import Verif.Model.Optim
import Verif.Model.Arrays

/-!
# Specification vocabulary: the objective an external minimiser sees
-/

namespace GPX.Spec
open GPX

/-- An external minimiser that evaluates the objective it is given at the vector `xt` and stops there, reporting the
value. -/
def evaluateAt (xt : List ℝ) (objective : List ℝ → Except Err ℝ) (_start : List ℝ) : Except Err (List ℝ × ℝ) := do
  let v ← objective xt
  pure (xt, v)

/-- `f` is the objective SciPy's minimiser sees when the loss `loss` is minimised from the state `s`: at every vector
`u` of as many numbers as there are in the starting vector the evaluation succeeds with the value `f u`. -/
def SeenBySciPy {K M C : Type} (loss : ModelState K M C → Except Err ℝ) (s : ModelState K M C)
    (f : (Fin (ravelBackward s.params).length → ℝ) → ℝ) : Prop :=
  ∀ u, ∃ r, scipyMinimize (evaluateAt (List.ofFn u)) loss s = .ok (r, f u)

/-- The posterior is an array; `jax.value_and_grad` of the loss (`scipy_optimize.py:78`) accepts a zero-dimensional one,
of which the minimiser sees the number, and refuses all others with `TypeError`. -/
def scalarResult (r : Except Err Arr) : Except Err ℝ :=
  match r with
  | .error e => .error e
  | .ok ⟨[], _, [v]⟩ => .ok v
  | .ok _ => .error .typeError

/-- The rows of a two-dimensional array one after the other: the entries of the array in memory. -/
def rowMajor {l d : ℕ} (X : Batch l d) : List ℝ := (List.ofFn fun i => List.ofFn (X i)).flatten

end GPX.Spec
