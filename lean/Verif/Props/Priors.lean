import Verif.Model.Priors
import Mathlib.Probability.Distributions.Gaussian.Real
import Mathlib.Probability.Distributions.Gamma
import Mathlib.Tactic.Linarith
import Mathlib.Tactic.FieldSimp
import Mathlib.Tactic.Positivity
import Mathlib.Tactic.Ring
import Mathlib.Tactic.NormNum

/-!
# C05–C06: priors

The reference densities and measures are Mathlib's `gaussianPDFReal`/`gaussianReal` and
`gammaPDFReal`/`gammaMeasure`.
-/

namespace GPX.Props
open GPX MeasureTheory ProbabilityTheory
open scoped NNReal ENNReal

/-- C05. `exp (NormalPrior.logpdf x)` is the normal density with mean `loc` and variance `scale²`. -/
theorem C05_normal_density (x loc : ℝ) (scale : ℝ≥0) (hs : 0 < scale) :
    Real.exp ((Prior.normal loc scale).logpdf x) = gaussianPDFReal loc (scale ^ 2) x := by
  have hs' : (0:ℝ) < scale := hs
  have hpi : (0:ℝ) < 2 * Real.pi := by positivity
  simp only [Prior.logpdf, normalLogpdf, gaussianPDFReal, NNReal.coe_pow]
  rw [Real.exp_sub, Real.exp_sub, Real.exp_neg, Real.exp_log hs',
    Real.sqrt_mul hpi.le, Real.sqrt_sq hs'.le, mul_comm (0.5:ℝ) (Real.log _),
    Real.exp_mul, Real.exp_log hpi, Real.sqrt_eq_rpow]
  have e : (0.5:ℝ) * (1.0 / (scale:ℝ) ^ 2) * (x - loc) ^ 2 = (x - loc) ^ 2 / (2 * (scale:ℝ) ^ 2) := by
    field_simp; norm_num; ring
  rw [e, neg_div, Real.exp_neg, show (0.5:ℝ) = 1 / 2 by norm_num]
  field_simp

/-- C05. The normal density integrates to one (so `logpdf` is normalised). -/
theorem C05_normal_integral_one (loc : ℝ) (scale : ℝ≥0) (hs : 0 < scale) :
    ∫ x, Real.exp ((Prior.normal loc scale).logpdf x) = 1 := by
  simp_rw [C05_normal_density _ _ _ hs]
  exact integral_gaussianPDFReal_eq_one loc (by positivity)

/-- C05. `exp (GammaPrior.logpdf x)` is the gamma density for `x > 0`. -/
theorem C05_gamma_density (x a r : ℝ) (ha : 0 < a) (hr : 0 < r) (hx : 0 < x) :
    Real.exp ((Prior.gamma a r).logpdf x) = gammaPDFReal a r x := by
  simp only [Prior.logpdf, gammaLogpdf, gammaPDFReal, if_pos hx.le]
  rw [Real.exp_sub, Real.exp_add, Real.exp_sub, mul_comm a, Real.exp_mul, Real.exp_log hr,
    Real.exp_log (Real.Gamma_pos_of_pos ha), mul_comm (a - 1.0), Real.exp_mul, Real.exp_log hx,
    Real.exp_neg, show (1.0:ℝ) = 1 by norm_num]
  field_simp

/-- C05. The gamma density integrates to one over the positive half line, its support. -/
theorem C05_gamma_integral_one (a r : ℝ) (ha : 0 < a) (hr : 0 < r) :
    ∫⁻ x in Set.Ioi 0, ENNReal.ofReal (Real.exp ((Prior.gamma a r).logpdf x)) = 1 := by
  have h : ∫⁻ x in Set.Ioi 0, ENNReal.ofReal (Real.exp ((Prior.gamma a r).logpdf x)) =
      ∫⁻ x in Set.Ioi 0, gammaPDF a r x := by
    apply setLIntegral_congr_fun measurableSet_Ioi
    intro x hx
    simp only [C05_gamma_density x a r ha hr hx, gammaPDF]
  have h1 := lintegral_gammaPDF_eq_one ha hr
  rw [← lintegral_add_compl _ (measurableSet_Ici (a := (0:ℝ))),
    Set.compl_Ici, lintegral_gammaPDF_of_nonpos le_rfl, add_zero] at h1
  rw [h, setLIntegral_congr Ioi_ae_eq_Ici, h1]

example : (0:ℝ≥0) < 2 ∧ (0:ℝ) < 3 / 2 ∧ (0:ℝ) < 5 := by norm_num

/-- C06. If the library draw is standard normal, `NormalPrior.sample` has law `N(loc, scale²)`. -/
theorem C06_normal_sample_law {Ω : Type*} [MeasurableSpace Ω] (P : Measure Ω) (draw : Ω → ℝ)
    (hdraw : HasLaw draw (gaussianReal 0 1) P) (loc : ℝ) (scale : ℝ≥0) :
    HasLaw (fun ω => (Prior.normal loc scale).sample (draw ω)) (gaussianReal loc (scale ^ 2)) P := by
  have h := gaussianReal_const_add (gaussianReal_const_mul hdraw (scale:ℝ)) loc
  have e1 : (scale:ℝ) * 0 + loc = loc := by ring
  have e2 : NNReal.mk ((scale:ℝ) ^ 2) (sq_nonneg _) * 1 = scale ^ 2 := by
    rw [mul_one]; apply NNReal.coe_injective; simp
  rw [e1, e2] at h
  exact h

/-- Non-vacuity: the identity on `(ℝ, N(0,1))` is such a draw. -/
example : HasLaw (id : ℝ → ℝ) (gaussianReal 0 1) (gaussianReal 0 1) :=
  ⟨aemeasurable_id, Measure.map_id⟩

/-- C06. If the library draw has law Gamma(a, 1), `GammaPrior.sample` has law Gamma(a, rate). -/
theorem C06_gamma_sample_law {Ω : Type*} [MeasurableSpace Ω] (P : Measure Ω) (draw : Ω → ℝ)
    (a r : ℝ) (ha : 0 < a) (hr : 0 < r) (hdraw : HasLaw draw (gammaMeasure a 1) P) :
    HasLaw (fun ω => (Prior.gamma a r).sample (draw ω)) (gammaMeasure a r) P := by
  have hmap : (gammaMeasure a 1).map (fun z => z / r) = gammaMeasure a r := by
    have hpdf : ∀ z, gammaPDF a 1 z = ENNReal.ofReal |r⁻¹| * gammaPDF a r (z / r) := by
      intro z
      rw [gammaPDF, gammaPDF, ← ENNReal.ofReal_mul (abs_nonneg _), abs_of_pos (inv_pos.mpr hr)]
      congr 1
      simp only [gammaPDFReal]
      by_cases hz : 0 ≤ z
      · rw [if_pos hz, if_pos (div_nonneg hz hr.le), Real.div_rpow hz hr.le, Real.one_rpow,
          Real.rpow_sub_one hr.ne', mul_div_cancel₀ _ hr.ne', one_mul]
        have := (Real.rpow_pos_of_pos hr a).ne'
        field_simp
      · have : ¬ 0 ≤ z / r := by
          rw [not_le] at hz ⊢; exact div_neg_of_neg_of_pos hz hr
        rw [if_neg hz, if_neg this, mul_zero]
    ext s hs
    have hm : Measurable (fun z : ℝ => z / r) := by fun_prop
    rw [Measure.map_apply hm hs, gammaMeasure, gammaMeasure, withDensity_apply _ (hm hs),
      withDensity_apply _ hs]
    have himg : (fun z : ℝ => z / r) '' ((fun z : ℝ => z / r) ⁻¹' s) = s :=
      Set.image_preimage_eq _ (fun y => ⟨y * r, by field_simp⟩)
    have hcv := lintegral_image_eq_lintegral_abs_deriv_mul (hm hs)
      (f := fun z : ℝ => z / r) (f' := fun _ => r⁻¹)
      (fun x _ => by simpa [div_eq_mul_inv] using
        ((hasDerivAt_id x).mul_const r⁻¹).hasDerivWithinAt)
      (fun x _ y _ h => by simpa [hr.ne'] using h) (gammaPDF a r)
    rw [himg] at hcv
    rw [hcv]
    simp_rw [hpdf]
  refine ⟨?_, ?_⟩
  · exact (measurable_id.div_const r).comp_aemeasurable hdraw.aemeasurable
  · rw [← hmap, ← hdraw.map_eq]
    rw [AEMeasurable.map_map_of_aemeasurable (by fun_prop) hdraw.aemeasurable]
    rfl

/-- Non-vacuity: the identity on `(ℝ, Gamma(2,1))` is such a draw. -/
example : HasLaw (id : ℝ → ℝ) (gammaMeasure 2 1) (gammaMeasure 2 1) :=
  ⟨aemeasurable_id, Measure.map_id⟩

end GPX.Props
