import Verif.Model.Approximations
import Mathlib.MeasureTheory.Integral.IntervalIntegral.Basic

/-!
# Specification: an ideal generator

`jax.random.choice(key, arange(n), p=prob)` draws one uniform number and inverts the cumulative weights. Here the
key is the list of the uniform numbers still to be drawn (headed by one that is already spent), `split` moves on to
the next one, `choice` inverts the cumulative weights, and the expected value of a result is its average over all
lists of independent uniform numbers in `(0, 1]`.
-/

namespace GPX.Spec
open GPX

variable {n : ℕ}

/-- The first index whose cumulative weight reaches `u`. -/
noncomputable def invCdf [NeZero n] (w : Fin n → ℝ) (u : ℝ) : Fin n :=
  if h : (Finset.univ.filter fun s : Fin n => u ≤ ∑ b ∈ Finset.Iic s, w b).Nonempty
  then (Finset.univ.filter fun s : Fin n => u ≤ ∑ b ∈ Finset.Iic s, w b).min' h
  else 0

/-- `random.split` of the ideal generator: go on to the next uniform number. -/
def drawSplit (key : List ℝ) : List ℝ × List ℝ := (key.tail, key.tail)

/-- `jax.random.choice` of the ideal generator, on the uniform number at the head of the key. -/
noncomputable def drawChoice [NeZero n] (key : List ℝ) (w : Fin n → ℝ) : Fin n := invCdf w (key.headD 1)

/-- The average of `f` over `k` independent numbers, uniform between `0` and `1`. -/
noncomputable def unifMean : (k : ℕ) → (List ℝ → ℝ) → ℝ
  | 0, f => f []
  | k + 1, f => ∫ u in (0 : ℝ)..1, unifMean k fun us => f (u :: us)

end GPX.Spec
