import Verif.Model.Arrays
import Mathlib.Data.Real.Basic
import Mathlib.Analysis.SpecialFunctions.Exp

/-!
# Floating-point numbers and rounding

Numbers with 53 significant bits, as in IEEE 754 double precision; overflow and underflow are left out (the exponent is
unbounded). `Nearest` is rounding to a nearest such number, whatever is done with ties. `RelErr` is the only consequence
most results use, so they also hold for other precisions.
-/

namespace GPX.Spec

/-- A number with at most 53 significant bits. -/
def IsFloat (x : ℝ) : Prop := ∃ q e : ℤ, |q| < 2 ^ 53 ∧ x = q * (2 : ℝ) ^ e

/-- `rd x` is a number with 53 bits and none is closer to `x`. -/
def Nearest (rd : ℝ → ℝ) : Prop := ∀ x, IsFloat (rd x) ∧ ∀ f, IsFloat f → |rd x - x| ≤ |f - x|

/-- The relative error of one rounding is at most `u`. -/
def RelErr (rd : ℝ → ℝ) (u : ℝ) : Prop := 0 ≤ u ∧ ∀ x, |rd x - x| ≤ u * |x|

/-- The relative error of a computed exponential is at most `u`. -/
def ExpErr (fexp : ℝ → ℝ) (u : ℝ) : Prop := ∀ t, |fexp t - Real.exp t| ≤ u * Real.exp t

end GPX.Spec
