import Verif.Lemmas.NormalLaw
import Verif.Spec.GPR
import Mathlib.MeasureTheory.Integral.Pi
import Mathlib.MeasureTheory.Measure.Lebesgue.Basic

/-!
# Gaussian laws: density
-/

namespace GPX
open GPX.Spec MeasureTheory ProbabilityTheory Matrix

variable {ι : Type} [Fintype ι] [DecidableEq ι]

/-- The density of independent standard normal numbers. -/
theorem stdPi_density :
    stdPi ι = volume.withDensity fun z => ENNReal.ofReal (∏ i, gaussianPDFReal 0 1 (z i)) := by
  unfold stdPi
  refine Measure.pi_eq fun s hs => ?_
  rw [withDensity_apply _ (MeasurableSet.univ_pi hs), volume_pi, Measure.restrict_pi_pi,
    ← ofReal_integral_eq_lintegral_ofReal]
  · rw [integral_fintype_prod_eq_prod (f := fun _ x => gaussianPDFReal 0 1 x), ENNReal.ofReal_prod_of_nonneg]
    · exact Finset.prod_congr rfl fun i _ => (gaussianReal_apply_eq_integral 0 one_ne_zero (s i)).symm
    · intro i _
      exact integral_nonneg fun x => gaussianPDFReal_nonneg 0 1 x
  · exact Integrable.fintype_prod fun i => (integrable_gaussianPDFReal 0 1).restrict
  · exact Filter.Eventually.of_forall fun z => Finset.prod_nonneg fun i _ => gaussianPDFReal_nonneg 0 1 _

/-- The density of an affine image with an invertible matrix. -/
theorem normalLaw_density (μ : ι → ℝ) (L : Matrix ι ι ℝ) (hL : L.det ≠ 0) :
    normalLaw μ (L * L.transpose) = volume.withDensity fun y =>
      ENNReal.ofReal (|L.det|⁻¹ * ∏ i, gaussianPDFReal 0 1 ((L⁻¹ *ᵥ (y - μ)) i)) := by
  have hunit : IsUnit L.det := isUnit_iff_ne_zero.mpr hL
  have hρ : Measurable fun y : ι → ℝ => ENNReal.ofReal (∏ i, gaussianPDFReal 0 1 ((L⁻¹ *ᵥ (y - μ)) i)) := by
    refine ENNReal.measurable_ofReal.comp (Finset.measurable_prod _ fun i _ => ?_)
    refine (measurable_gaussianPDFReal 0 1).comp ?_
    have := (measurable_pi_apply i).comp (measurable_affine (-(L⁻¹ *ᵥ μ)) L⁻¹)
    have e : ((fun f : ι → ℝ => f i) ∘ fun z => -(L⁻¹ *ᵥ μ) + L⁻¹ *ᵥ z) = fun y => (L⁻¹ *ᵥ (y - μ)) i := by
      funext y
      simp only [Function.comp_apply, Matrix.mulVec_sub, Pi.add_apply, Pi.neg_apply, Pi.sub_apply]
      ring
    rw [e] at this
    exact this
  have hvol : (volume : Measure (ι → ℝ)).map (fun z => μ + L *ᵥ z) = ENNReal.ofReal |L.det⁻¹| • volume := by
    have h1 := Real.map_matrix_volume_pi_eq_smul_volume_pi hL
    have h2 : (fun z : ι → ℝ => μ + L *ᵥ z) = (fun v => μ + v) ∘ (Matrix.toLin' L) := by
      funext z; simp
    have h4 : Measurable (Matrix.toLin' L) := by
      have := measurable_affine (0 : ι → ℝ) L
      simp only [zero_add] at this
      exact this
    rw [h2, ← Measure.map_map (measurable_const_add μ) h4, h1, Measure.map_smul, map_add_left_eq_self]
  rw [← normalLaw_affine, stdPi_density]
  ext s hs
  rw [Measure.map_apply (measurable_affine _ _) hs, withDensity_apply _ (measurable_affine _ _ hs),
    withDensity_apply _ hs]
  have h3 : ∀ z : ι → ℝ, ENNReal.ofReal (∏ i, gaussianPDFReal 0 1 (z i)) =
      (fun y : ι → ℝ => ENNReal.ofReal (∏ i, gaussianPDFReal 0 1 ((L⁻¹ *ᵥ (y - μ)) i))) (μ + L *ᵥ z) := by
    intro z
    simp [Matrix.mulVec_mulVec, Matrix.nonsing_inv_mul _ hunit]
  rw [funext h3]
  rw [← setLIntegral_map hs hρ (measurable_affine μ L), hvol, Measure.restrict_smul, lintegral_smul_measure, smul_eq_mul,
    ← lintegral_const_mul _ hρ]
  refine lintegral_congr fun y => ?_
  rw [← ENNReal.ofReal_mul (abs_nonneg _), abs_inv]

/-- The Gaussian density, over any finite index set. -/
noncomputable def normalDensity (A : Matrix ι ι ℝ) (r : ι → ℝ) : ℝ :=
  Real.exp (-(1 / 2) * ∑ i, ∑ j, r i * A⁻¹ i j * r j) / Real.sqrt ((2 * Real.pi) ^ Fintype.card ι * A.det)

theorem normalDensity_fin {n : ℕ} (A : Mat n n) (r : Fin n → ℝ) : normalDensity A r = gaussDensity A r := by
  unfold normalDensity gaussDensity
  rw [Fintype.card_fin]

theorem normalDensity_pos {A : Matrix ι ι ℝ} (hA : A.PosDef) (r : ι → ℝ) : 0 < normalDensity A r := by
  have := hA.det_pos
  unfold normalDensity
  positivity

theorem normalDensity_reindex {κ : Type} [Fintype κ] [DecidableEq κ] (σ : ι ≃ κ) (A : Matrix κ κ ℝ) (r : κ → ℝ) :
    normalDensity (A.submatrix σ σ) (r ∘ σ) = normalDensity A r := by
  unfold normalDensity
  rw [Matrix.det_submatrix_equiv_self, Fintype.card_congr σ, Matrix.inv_submatrix_equiv]
  simp only [Matrix.submatrix_apply, Function.comp_apply]
  rw [Equiv.sum_comp σ fun i => ∑ j, r i * A⁻¹ i (σ j) * r (σ j)]
  congr 3
  exact Finset.sum_congr rfl fun i _ => Equiv.sum_comp σ fun j => r i * A⁻¹ i j * r j

/-- The Gaussian law has the Gaussian density, over any finite index set. -/
theorem normalLaw_normalDensity (μ : ι → ℝ) {A : Matrix ι ι ℝ} (hA : A.PosDef) :
    normalLaw μ A = volume.withDensity fun y => ENNReal.ofReal (normalDensity A (y - μ)) := by
  obtain ⟨L, hL⟩ := exists_root hA.posSemidef
  have hd : A.det = L.det ^ 2 := by rw [← hL, Matrix.det_mul, Matrix.det_transpose, sq]
  have hL0 : L.det ≠ 0 := by
    intro h0
    have := hA.det_pos
    rw [hd, h0] at this
    norm_num at this
  rw [← hL, normalLaw_density μ L hL0, hL]
  congr 1
  funext y
  congr 1
  have hq : ∑ i, ∑ j, (y - μ) i * A⁻¹ i j * (y - μ) j = ∑ i, (L⁻¹ *ᵥ (y - μ)) i ^ 2 := by
    have h1 : A⁻¹ = (L⁻¹).transpose * L⁻¹ := by rw [← hL, Matrix.mul_inv_rev, Matrix.transpose_nonsing_inv]
    have h2 : ∑ i, ∑ j, (y - μ) i * A⁻¹ i j * (y - μ) j = (y - μ) ⬝ᵥ (A⁻¹ *ᵥ (y - μ)) := by
      simp only [dotProduct, Matrix.mulVec, Finset.mul_sum]
      exact Finset.sum_congr rfl fun i _ => Finset.sum_congr rfl fun j _ => by ring
    rw [h2, h1, ← Matrix.mulVec_mulVec, Matrix.dotProduct_mulVec, Matrix.vecMul_transpose]
    simp only [dotProduct, sq]
  unfold normalDensity
  rw [hq, hd, Real.sqrt_mul (by positivity), Real.sqrt_sq_eq_abs]
  simp only [gaussianPDFReal, Finset.prod_mul_distrib, NNReal.coe_one, mul_one, sub_zero, Finset.prod_const,
    Finset.card_univ, ← Real.exp_sum]
  generalize Fintype.card ι = n
  have h3 : Real.sqrt ((2 * Real.pi) ^ n) = Real.sqrt (2 * Real.pi) ^ n := by
    rw [Real.sqrt_eq_iff_mul_self_eq (by positivity) (by positivity), ← mul_pow, Real.mul_self_sqrt (by positivity)]
  have h4 : ∑ i, -(L⁻¹ *ᵥ (y - μ)) i ^ 2 / 2 = -(1 / 2) * ∑ i, (L⁻¹ *ᵥ (y - μ)) i ^ 2 := by
    rw [Finset.mul_sum]
    exact Finset.sum_congr rfl fun i _ => by ring
  have h5 : Real.sqrt (2 * Real.pi) ^ n ≠ 0 := by positivity
  have h6 : |L.det| ≠ 0 := abs_ne_zero.mpr hL0
  rw [h3, h4, inv_pow]
  generalize Real.exp _ = t
  field_simp

/-- The Gaussian law has the Gaussian density. -/
theorem normalLaw_gaussDensity {n : ℕ} (μ : Fin n → ℝ) {A : Mat n n} (hA : A.PosDef) :
    normalLaw μ A = volume.withDensity fun y => ENNReal.ofReal (gaussDensity A (y - μ)) := by
  rw [normalLaw_normalDensity μ hA]
  simp only [normalDensity_fin]

theorem gaussDensity_pos {n : ℕ} {A : Mat n n} (hA : A.PosDef) (r : Fin n → ℝ) : 0 < gaussDensity A r := by
  have := hA.det_pos
  unfold gaussDensity
  positivity

end GPX
