import Verif.Lemmas.NormalDensity
import Mathlib.MeasureTheory.Function.L2Space

/-!
# Gaussian laws: moments, comparison of densities, best prediction
-/

namespace GPX
open GPX.Spec MeasureTheory ProbabilityTheory Matrix

variable {ι κ Ω : Type} [Fintype ι] [DecidableEq ι] [Fintype κ] [DecidableEq κ] [MeasurableSpace Ω]

theorem memLp_normalLaw (μ : ι → ℝ) (S : Matrix ι ι ℝ) (i : ι) : MemLp (fun v => v i) 2 (normalLaw μ S) := by
  unfold normalLaw
  refine (memLp_map_measure_iff (measurable_pi_apply i).aestronglyMeasurable (by fun_prop)).mpr ?_
  exact IsGaussian.memLp_dual (multivariateGaussian (WithLp.toLp 2 μ) S) (EuclideanSpace.proj (𝕜 := ℝ) i) 2 (by simp)

theorem covariance_normalLaw (μ : ι → ℝ) {S : Matrix ι ι ℝ} (hS : S.PosSemidef) (i j : ι) :
    cov[fun v => v i, fun v => v j; normalLaw μ S] = S i j := by
  unfold normalLaw
  rw [covariance_map (measurable_pi_apply i).aestronglyMeasurable (measurable_pi_apply j).aestronglyMeasurable
    (by fun_prop)]
  exact covariance_eval_multivariateGaussian hS i j

/-- The law determines the mean and the covariance. -/
theorem normalLaw_inj {μ ν : ι → ℝ} {A B : Matrix ι ι ℝ} (hA : A.PosSemidef) (hB : B.PosSemidef)
    (h : normalLaw μ A = normalLaw ν B) : μ = ν ∧ A = B := by
  constructor
  · funext i
    rw [← integral_normalLaw μ A i, h, integral_normalLaw]
  · ext i j
    rw [← covariance_normalLaw μ hA i j, h, covariance_normalLaw ν hB]

/-- Each coordinate of a Gaussian vector is Gaussian. -/
theorem normalLaw_eval (μ : ι → ℝ) {S : Matrix ι ι ℝ} (hS : S.PosSemidef) (i : ι) :
    (normalLaw μ S).map (fun v => v i) = gaussianReal (μ i) (S i i).toNNReal := by
  unfold normalLaw
  rw [Measure.map_map (measurable_pi_apply i) (by fun_prop)]
  exact (measurePreserving_eval_multivariateGaussian hS (i := i)).map_eq

/-- The logarithm of a Gaussian density has a finite expectation under any Gaussian law. -/
theorem integrable_log_density (μ ν : ι → ℝ) {A B : Matrix ι ι ℝ} (hA : A.PosDef) (hB : B.PosDef) :
    Integrable (fun y => Real.log (normalDensity B (y - ν))) (normalLaw μ A) := by
  have := normalLaw_prob μ hA.posSemidef
  have hd := hB.det_pos
  have e : (fun y : ι → ℝ => Real.log (normalDensity B (y - ν))) = fun y =>
      (-(1 / 2) * ∑ i, ∑ j, (y i - ν i) * B⁻¹ i j * (y j - ν j)) -
        Real.log (Real.sqrt ((2 * Real.pi) ^ Fintype.card ι * B.det)) := by
    funext y
    unfold normalDensity
    rw [Real.log_div (Real.exp_pos _).ne' (by positivity), Real.log_exp]
    rfl
  rw [e]
  have hm : ∀ i, MemLp (fun y : ι → ℝ => y i - ν i) 2 (normalLaw μ A) := fun i =>
    (memLp_normalLaw μ A i).sub (memLp_const _)
  refine Integrable.sub (Integrable.const_mul (integrable_finset_sum _ fun i _ => integrable_finset_sum _ fun j _ => ?_)
    _) (integrable_const _)
  have := ((hm i).integrable_mul (hm j)).const_mul (B⁻¹ i j)
  refine this.congr (Filter.Eventually.of_forall fun y => ?_)
  simp only [Pi.mul_apply]
  ring

/-- Gibbs' inequality for Gaussian densities. -/
theorem gibbs (μ ν : ι → ℝ) {A B : Matrix ι ι ℝ} (hA : A.PosDef) (hB : B.PosDef) :
    ∫ y, Real.log (normalDensity B (y - ν)) ∂normalLaw μ A ≤ ∫ y, Real.log (normalDensity A (y - μ)) ∂normalLaw μ A ∧
    (∫ y, Real.log (normalDensity B (y - ν)) ∂normalLaw μ A = ∫ y, Real.log (normalDensity A (y - μ)) ∂normalLaw μ A →
      ν = μ ∧ B = A) := by
  have iA := integrable_log_density μ μ hA hA
  have iB := integrable_log_density μ ν hA hB
  have pA := normalLaw_prob μ hA.posSemidef
  have pB := normalLaw_prob ν hB.posSemidef
  set p : (ι → ℝ) → ℝ := fun y => normalDensity A (y - μ) with hp
  set q : (ι → ℝ) → ℝ := fun y => normalDensity B (y - ν) with hq
  have p0 : ∀ y, 0 < p y := fun y => normalDensity_pos hA _
  have q0 : ∀ y, 0 < q y := fun y => normalDensity_pos hB _
  have hmeas : ∀ (C : Matrix ι ι ℝ) (a : ι → ℝ), Measurable fun y : ι → ℝ => normalDensity C (y - a) := by
    intro C a
    unfold normalDensity
    refine Measurable.div_const (Real.measurable_exp.comp (Measurable.const_mul ?_ _)) _
    refine Finset.measurable_sum _ fun i _ => Finset.measurable_sum _ fun j _ => ?_
    exact (((measurable_pi_apply i).sub_const _).mul_const _).mul ((measurable_pi_apply j).sub_const _)
  have mp : Measurable p := hmeas A μ
  have mq : Measurable q := hmeas B ν
  have eA : normalLaw μ A = volume.withDensity fun y => ENNReal.ofReal (p y) := normalLaw_normalDensity μ hA
  have eB : normalLaw ν B = volume.withDensity fun y => ENNReal.ofReal (q y) := normalLaw_normalDensity ν hB
  -- the ratio has expectation one
  have hl : ∫⁻ y, ENNReal.ofReal (q y / p y) ∂normalLaw μ A = 1 := by
    have mr : Measurable fun y => ENNReal.ofReal (q y / p y) := (mq.div mp).ennreal_ofReal
    rw [eA, lintegral_withDensity_eq_lintegral_mul _ mp.ennreal_ofReal mr]
    have : ∫⁻ y, ((fun y => ENNReal.ofReal (p y)) * fun y => ENNReal.ofReal (q y / p y)) y =
        ∫⁻ y, ENNReal.ofReal (q y) := by
      refine lintegral_congr fun y => ?_
      simp only [Pi.mul_apply]
      rw [← ENNReal.ofReal_mul (p0 y).le, mul_div_cancel₀ _ (p0 y).ne']
    rw [this]
    have h1 := pB.measure_univ
    rw [eB, withDensity_apply _ MeasurableSet.univ, Measure.restrict_univ] at h1
    exact h1
  have hr : Integrable (fun y => q y / p y) (normalLaw μ A) := by
    refine ⟨(mq.div mp).aestronglyMeasurable, ?_⟩
    rw [hasFiniteIntegral_iff_ofReal (Filter.Eventually.of_forall fun y => (div_pos (q0 y) (p0 y)).le)]
    rw [hl]
    exact ENNReal.one_lt_top
  have hr1 : ∫ y, q y / p y ∂normalLaw μ A = 1 := by
    rw [integral_eq_lintegral_of_nonneg_ae (Filter.Eventually.of_forall fun y => (div_pos (q0 y) (p0 y)).le)
      (mq.div mp).aestronglyMeasurable, hl]
    rfl
  set F : (ι → ℝ) → ℝ := fun y => (q y / p y - 1) - (Real.log (q y) - Real.log (p y)) with hF
  have hF0 : ∀ y, 0 ≤ F y := by
    intro y
    have := Real.log_le_sub_one_of_pos (div_pos (q0 y) (p0 y))
    rw [Real.log_div (q0 y).ne' (p0 y).ne'] at this
    simp only [hF]
    linarith
  have hFi : Integrable F (normalLaw μ A) := (hr.sub (integrable_const _)).sub (iB.sub iA)
  have hFint : ∫ y, F y ∂normalLaw μ A =
      ∫ y, Real.log (p y) ∂normalLaw μ A - ∫ y, Real.log (q y) ∂normalLaw μ A := by
    have h1 : ∫ y, F y ∂normalLaw μ A = ∫ y, (q y / p y - 1) ∂normalLaw μ A -
        ∫ y, (Real.log (q y) - Real.log (p y)) ∂normalLaw μ A :=
      integral_sub (hr.sub (integrable_const _)) (iB.sub iA)
    have h2 : ∫ y, (q y / p y - 1) ∂normalLaw μ A = 0 := by
      rw [integral_sub hr (integrable_const _), hr1]
      simp
    have h3 : ∫ y, (Real.log (q y) - Real.log (p y)) ∂normalLaw μ A =
        ∫ y, Real.log (q y) ∂normalLaw μ A - ∫ y, Real.log (p y) ∂normalLaw μ A := integral_sub iB iA
    rw [h1, h2, h3]
    ring
  have hge : 0 ≤ ∫ y, F y ∂normalLaw μ A := integral_nonneg hF0
  refine ⟨by linarith, fun heq => ?_⟩
  have hz : ∫ y, F y ∂normalLaw μ A = 0 := by rw [hFint, heq, sub_self]
  have hae : F =ᵐ[normalLaw μ A] 0 := (integral_eq_zero_iff_of_nonneg hF0 hFi).mp hz
  have hpq : ∀ᵐ y ∂normalLaw μ A, q y = p y := by
    filter_upwards [hae] with y hy
    by_contra hne
    have hne' : q y / p y ≠ 1 := fun h => hne ((div_eq_one_iff_eq (p0 y).ne').mp h)
    have := Real.log_lt_sub_one_of_pos (div_pos (q0 y) (p0 y)) hne'
    rw [Real.log_div (q0 y).ne' (p0 y).ne'] at this
    have hy' : (q y / p y - 1) - (Real.log (q y) - Real.log (p y)) = 0 := hy
    linarith
  have hvol : ∀ᵐ y, q y = p y := by
    rw [eA, ae_withDensity_iff mp.ennreal_ofReal] at hpq
    filter_upwards [hpq] with y hy
    exact hy (by simpa using p0 y)
  refine normalLaw_inj hB.posSemidef hA.posSemidef ?_
  rw [eA, eB]
  exact withDensity_congr_ae (by filter_upwards [hvol] with y hy; rw [hy])

/-- The expected squared error of the conditional mean, and why it is the smallest. -/
theorem _root_.GPX.Spec.PosteriorLaw.mean_square {P : Measure Ω} [IsProbabilityMeasure P] {Y : Ω → ι → ℝ} {g : Ω → κ → ℝ}
    {f : (ι → ℝ) → κ → ℝ} {C : Matrix κ κ ℝ} (h : PosteriorLaw P Y g f C) (j : κ) :
    MemLp (fun ω => g ω j - f (Y ω) j) 2 P ∧ ∫ ω, (g ω j - f (Y ω) j) ^ 2 ∂P = C j j ∧
    ∀ u : (ι → ℝ) → ℝ, Measurable u → MemLp (fun ω => g ω j - u (Y ω)) 2 P →
      ∫ ω, (g ω j - u (Y ω)) ^ 2 ∂P = C j j + ∫ ω, (f (Y ω) j - u (Y ω)) ^ 2 ∂P ∧
      Integrable (fun ω => (f (Y ω) j - u (Y ω)) ^ 2) P := by
  obtain ⟨hm, hlaw⟩ := h.error
  have hmj : Measurable fun ω => g ω j - f (Y ω) j := (measurable_pi_apply j).comp hm
  have hL : MemLp (fun ω => g ω j - f (Y ω) j) 2 P := by
    have := memLp_normalLaw (0 : κ → ℝ) C j
    rw [← hlaw] at this
    exact (memLp_map_measure_iff (measurable_pi_apply j).aestronglyMeasurable hm.aemeasurable).mp this
  have h0 : ∫ ω, (g ω j - f (Y ω) j) ∂P = 0 := by
    have := integral_normalLaw (0 : κ → ℝ) C j
    rw [← hlaw, integral_map (f := fun v : κ → ℝ => v j) hm.aemeasurable
      (measurable_pi_apply j).aestronglyMeasurable] at this
    exact this
  have hv : ∫ ω, (g ω j - f (Y ω) j) ^ 2 ∂P = C j j := by
    have h1 := covariance_normalLaw (0 : κ → ℝ) h.covariance j j
    rw [← hlaw, covariance_map (measurable_pi_apply j).aestronglyMeasurable
      (measurable_pi_apply j).aestronglyMeasurable hm.aemeasurable] at h1
    have h2 : cov[fun ω => g ω j - f (Y ω) j, fun ω => g ω j - f (Y ω) j; P] = C j j := h1
    rw [covariance_self hmj.aemeasurable, variance_of_integral_eq_zero hmj.aemeasurable h0] at h2
    exact h2
  refine ⟨hL, hv, fun u hu hLu => ?_⟩
  have hD : MemLp (fun ω => f (Y ω) j - u (Y ω)) 2 P := by
    refine (hLu.sub hL).ae_eq (Filter.Eventually.of_forall fun ω => ?_)
    simp only [Pi.sub_apply]
    ring
  have hDm : Measurable fun y : ι → ℝ => f y j - u y := ((measurable_pi_apply j).comp h.estimator).sub hu
  have hind : IndepFun (fun ω => g ω j - f (Y ω) j) (fun ω => f (Y ω) j - u (Y ω)) P :=
    (h.independent.comp hDm (measurable_pi_apply j)).symm
  have hcross : ∫ ω, (g ω j - f (Y ω) j) * (f (Y ω) j - u (Y ω)) ∂P = 0 := by
    have := hind.integral_mul_eq_mul_integral hmj.aestronglyMeasurable (hDm.comp h.observable).aestronglyMeasurable
    refine this.trans ?_
    rw [h0, zero_mul]
  have i1 : Integrable (fun ω => (g ω j - f (Y ω) j) ^ 2) P := hL.integrable_sq
  have i2 : Integrable (fun ω => (f (Y ω) j - u (Y ω)) ^ 2) P := hD.integrable_sq
  have i3 : Integrable (fun ω => (g ω j - f (Y ω) j) * (f (Y ω) j - u (Y ω))) P := hL.integrable_mul hD
  refine ⟨?_, i2⟩
  have e : ∀ ω, (g ω j - u (Y ω)) ^ 2 = (g ω j - f (Y ω) j) ^ 2 + (f (Y ω) j - u (Y ω)) ^ 2 +
      2 * ((g ω j - f (Y ω) j) * (f (Y ω) j - u (Y ω))) := fun ω => by ring
  have h3 := integral_add (i1.add i2) (i3.const_mul 2)
  have h4 := integral_add i1 i2
  simp only [Pi.add_apply] at h3 h4
  rw [integral_congr_ae (Filter.Eventually.of_forall e), h3, h4, integral_const_mul, hcross, hv]
  ring

/-- The error of the conditional mean, one coordinate at a time. -/
theorem _root_.GPX.Spec.PosteriorLaw.error_eval {P : Measure Ω} [IsProbabilityMeasure P] {Y : Ω → ι → ℝ} {g : Ω → κ → ℝ}
    {f : (ι → ℝ) → κ → ℝ} {C : Matrix κ κ ℝ} (h : PosteriorLaw P Y g f C) (j : κ) :
    P.map (fun ω => g ω j - f (Y ω) j) = gaussianReal 0 (C j j).toNNReal := by
  obtain ⟨hm, hlaw⟩ := h.error
  refine Eq.trans ?_ (normalLaw_eval 0 h.covariance j)
  rw [← hlaw, Measure.map_map (measurable_pi_apply j) hm]
  rfl

/-- How often the truth lies within a multiple of the predicted standard deviation. -/
theorem _root_.GPX.Spec.PosteriorLaw.coverage {P : Measure Ω} [IsProbabilityMeasure P] {Y : Ω → ι → ℝ} {g : Ω → κ → ℝ}
    {f : (ι → ℝ) → κ → ℝ} {C : Matrix κ κ ℝ} (h : PosteriorLaw P Y g f C) (j : κ) (z : ℝ) :
    (0 < C j j → P {ω | |g ω j - f (Y ω) j| ≤ z * Real.sqrt (C j j)} = gaussianReal 0 1 (Set.Icc (-z) z)) ∧
    (C j j = 0 → ∀ᵐ ω ∂P, g ω j = f (Y ω) j) := by
  have hm : Measurable fun ω => g ω j - f (Y ω) j := (measurable_pi_apply j).comp h.error.1
  have hl := h.error_eval j
  constructor
  · intro hpos
    have hs : 0 < Real.sqrt (C j j) := Real.sqrt_pos.mpr hpos
    have hset : MeasurableSet {t : ℝ | |t| ≤ z * Real.sqrt (C j j)} := measurableSet_le measurable_id.abs measurable_const
    have h1 : P {ω | |g ω j - f (Y ω) j| ≤ z * Real.sqrt (C j j)} =
        (P.map fun ω => g ω j - f (Y ω) j) {t | |t| ≤ z * Real.sqrt (C j j)} := by
      rw [Measure.map_apply hm hset]
      rfl
    have h2 : (gaussianReal 0 1).map (fun t => Real.sqrt (C j j) * t) = gaussianReal 0 (C j j).toNNReal := by
      rw [gaussianReal_map_const_mul]
      congr 1
      · ring
      · ext
        rw [NNReal.coe_mul, NNReal.coe_one, mul_one, Real.coe_toNNReal _ hpos.le]
        exact Real.sq_sqrt hpos.le
    rw [h1, hl, ← h2, Measure.map_apply (measurable_const_mul _) hset]
    congr 1
    ext t
    simp only [Set.mem_preimage, Set.mem_setOf_eq, Set.mem_Icc, abs_mul, abs_of_pos hs, ← abs_le]
    rw [mul_comm z]
    exact mul_le_mul_iff_right₀ hs
  · intro h0
    rw [h0] at hl
    simp only [Real.toNNReal_zero, gaussianReal_zero_var] at hl
    have : ∀ᵐ t ∂P.map (fun ω => g ω j - f (Y ω) j), t = 0 := by
      rw [hl, ae_dirac_eq]
      exact rfl
    filter_upwards [ae_of_ae_map hm.aemeasurable this] with ω hω
    exact sub_eq_zero.mp hω

/-- Every covariance and noise is that of some noisy observations. -/
theorem exists_noisyObservations (μ : ι ⊕ κ → ℝ) {S : Matrix (ι ⊕ κ) (ι ⊕ κ) ℝ} (hS : S.PosSemidef) {noise : ι → ℝ}
    (hn : ∀ i, 0 ≤ noise i) :
    ∃ (Ω : Type) (_ : MeasurableSpace Ω) (P : Measure Ω) (_ : IsProbabilityMeasure P) (Y : Ω → ι → ℝ) (g : Ω → κ → ℝ),
      NoisyObservations P Y g μ S noise := by
  have h1 := normalLaw_prob μ hS
  have h2 := normalLaw_prob (0 : ι → ℝ) (Matrix.posSemidef_diagonal_iff.mpr hn)
  refine ⟨(ι ⊕ κ → ℝ) × (ι → ℝ), inferInstance, (normalLaw μ S).prod (normalLaw 0 (Matrix.diagonal noise)),
    inferInstance, fun ω i => ω.1 (Sum.inl i) + ω.2 i, fun ω j => ω.1 (Sum.inr j), fun ω i => ω.1 (Sum.inl i),
    fun ω => ω.2, ?_, ⟨measurable_snd, Measure.map_snd_prod.trans (by simp)⟩, ?_, fun ω i => rfl⟩
  · have e : (fun ω : (ι ⊕ κ → ℝ) × (ι → ℝ) => Sum.elim (fun i => ω.1 (Sum.inl i)) fun j => ω.1 (Sum.inr j)) =
        Prod.fst := by
      funext ω a
      rcases a with a | a <;> rfl
    rw [e]
    exact ⟨measurable_fst, Measure.map_fst_prod.trans (by simp)⟩
  · have e : (fun ω : (ι ⊕ κ → ℝ) × (ι → ℝ) => Sum.elim (fun i => ω.1 (Sum.inl i)) fun j => ω.1 (Sum.inr j)) =
        Prod.fst := by
      funext ω a
      rcases a with a | a <;> rfl
    rw [e, indepFun_iff_map_prod_eq_prod_map_map measurable_fst.aemeasurable measurable_snd.aemeasurable,
      Measure.map_fst_prod, Measure.map_snd_prod]
    simp

end GPX
