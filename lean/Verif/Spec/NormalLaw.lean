import Mathlib.Probability.Distributions.Gaussian.Multivariate
import Mathlib.Probability.Independence.Basic
import Mathlib.Probability.Kernel.CondDistrib

/-!
# Specification vocabulary: Gaussian laws

Mathlib's multivariate Gaussian distribution, on plain vectors.
-/

namespace GPX.Spec
open MeasureTheory ProbabilityTheory

variable {ι Ω : Type} [Fintype ι] [DecidableEq ι] [MeasurableSpace Ω]

/-- The Gaussian distribution with mean `μ` and covariance matrix `S`. -/
noncomputable def normalLaw (μ : ι → ℝ) (S : Matrix ι ι ℝ) : Measure (ι → ℝ) :=
  (multivariateGaussian (WithLp.toLp 2 μ) S).map WithLp.ofLp

/-- The random vector `Y` is Gaussian with mean `μ` and covariance matrix `S`. -/
def IsNormal (P : Measure Ω) (Y : Ω → ι → ℝ) (μ : ι → ℝ) (S : Matrix ι ι ℝ) : Prop :=
  Measurable Y ∧ P.map Y = normalLaw μ S

/-- The rows of the random array `z` are independent and consist of independent standard normal numbers. -/
def IsStandardNormal {r n : ℕ} (P : Measure Ω) (z : Ω → Fin r → Fin n → ℝ) : Prop :=
  Measurable z ∧ P.map z = Measure.pi fun _ => Measure.pi fun _ => gaussianReal 0 1

/-- The rows of the random array `r` are independent draws from the Gaussian with mean `μ` and covariance `S`. -/
def IndependentDraws {r : ℕ} (P : Measure Ω) (a : Ω → Fin r → ι → ℝ) (μ : ι → ℝ) (S : Matrix ι ι ℝ) : Prop :=
  (∀ s, IsNormal P (fun ω => a ω s) μ S) ∧ iIndepFun (fun s ω => a ω s) P

/-- The random vector `Y` consists of observations of the values `f` of a Gaussian process at some points, each with
its own independent Gaussian error of variance `noise i`: the values `f` and `g` of the process at these and at other
points are jointly Gaussian with mean `μ` and covariance `S`. -/
def NoisyObservations {κ : Type} [Fintype κ] [DecidableEq κ] (P : Measure Ω) (Y : Ω → ι → ℝ) (g : Ω → κ → ℝ)
    (μ : ι ⊕ κ → ℝ) (S : Matrix (ι ⊕ κ) (ι ⊕ κ) ℝ) (noise : ι → ℝ) : Prop :=
  ∃ (f ε : Ω → ι → ℝ), IsNormal P (fun ω => Sum.elim (f ω) (g ω)) μ S ∧
    IsNormal P ε 0 (Matrix.diagonal noise) ∧ IndepFun (fun ω => Sum.elim (f ω) (g ω)) ε P ∧ ∀ ω i, Y ω i = f ω i + ε ω i

/-- The Gaussian with mean `f y` and covariance `C` is what is known about `g` after observing `Y = y`: it is the
conditional distribution of `g` given `Y`; `f Y` is the conditional expectation of `g` given `Y`; the error made by
predicting `f Y` is Gaussian with mean zero and covariance `C`, and independent of `Y`. -/
structure PosteriorLaw {κ : Type} [Fintype κ] [DecidableEq κ] (P : Measure Ω) [IsFiniteMeasure P] (Y : Ω → ι → ℝ)
    (g : Ω → κ → ℝ) (f : (ι → ℝ) → κ → ℝ) (C : Matrix κ κ ℝ) : Prop where
  observable : Measurable Y
  estimator : Measurable f
  covariance : C.PosSemidef
  conditional : ∀ᵐ y ∂P.map Y, condDistrib g Y P y = normalLaw (f y) C
  expectation : ∀ j, P[fun ω => g ω j | MeasurableSpace.comap Y inferInstance] =ᵐ[P] fun ω => f (Y ω) j
  error : IsNormal P (fun ω => g ω - f (Y ω)) 0 C
  independent : IndepFun Y (fun ω => g ω - f (Y ω)) P

/-- A vector as an array with one column, the shape the models ask for. -/
def column {n : ℕ} (y : Fin n → ℝ) : Matrix (Fin n) (Fin 1) ℝ := Matrix.of fun i _ => y i

end GPX.Spec
