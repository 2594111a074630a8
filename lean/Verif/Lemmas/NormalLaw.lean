import Verif.Spec.NormalLaw
import Mathlib.Probability.Kernel.CondDistrib
import Mathlib.Probability.Distributions.Gaussian.CharFun
import Mathlib.LinearAlgebra.Matrix.SchurComplement
import Mathlib.MeasureTheory.Constructions.Pi
import Mathlib.Probability.Independence.Basic
import Mathlib.Analysis.Matrix.Order
import Mathlib.Data.Matrix.ColumnRowPartitioned
import Mathlib.Analysis.CStarAlgebra.Matrix

/-!
# Gaussian laws: affine images and conditional laws
-/

namespace GPX
open GPX.Spec MeasureTheory ProbabilityTheory Matrix
open scoped RealInnerProductSpace

variable {ι κ : Type} [Fintype ι] [DecidableEq ι] [Fintype κ] [DecidableEq κ]

/-- Independent standard normal numbers. -/
noncomputable def stdPi (κ : Type) [Fintype κ] : Measure (κ → ℝ) := Measure.pi fun _ => gaussianReal 0 1

instance : IsProbabilityMeasure (stdPi κ) := by unfold stdPi; infer_instance

theorem posSemidef_mul_transpose (L : Matrix ι κ ℝ) : (L * L.transpose).PosSemidef := by
  have := Matrix.posSemidef_self_mul_conjTranspose L
  rwa [Matrix.conjTranspose_eq_transpose_of_trivial] at this

theorem normalLaw_affine (μ : ι → ℝ) (L : Matrix ι κ ℝ) :
    (stdPi κ).map (fun z => μ + L *ᵥ z) = normalLaw μ (L * L.transpose) := by
  have hm : Measurable fun z : κ → ℝ => μ + L *ᵥ z := by
    refine measurable_pi_iff.mpr fun i => ?_
    simp only [Pi.add_apply, Matrix.mulVec, dotProduct]
    fun_prop
  have key : ((stdPi κ).map (fun z => μ + L *ᵥ z)).map (WithLp.toLp 2) =
      multivariateGaussian (WithLp.toLp 2 μ) (L * L.transpose) := by
    have : IsProbabilityMeasure (((stdPi κ).map (fun z => μ + L *ᵥ z)).map (WithLp.toLp 2)) := by
      have := Measure.isProbabilityMeasure_map (μ := stdPi κ) hm.aemeasurable
      exact Measure.isProbabilityMeasure_map (by fun_prop)
    apply Measure.ext_of_charFun
    ext t
    rw [charFun_multivariateGaussian (posSemidef_mul_transpose L)]
    have hstd := charFun_stdGaussian (E := EuclideanSpace ℝ κ) (WithLp.toLp 2 (L.transpose *ᵥ t.ofLp))
    rw [← map_pi_eq_stdGaussian, charFun_apply, integral_map (by fun_prop) (by fun_prop)] at hstd
    rw [charFun_apply, integral_map (by fun_prop) (by fun_prop), integral_map hm.aemeasurable (by fun_prop)]
    have e1 : ∀ z : κ → ℝ, Complex.exp (⟪WithLp.toLp 2 (μ + L *ᵥ z), t⟫ * Complex.I) =
        Complex.exp (⟪WithLp.toLp 2 μ, t⟫ * Complex.I) *
          Complex.exp (⟪WithLp.toLp 2 z, WithLp.toLp 2 (L.transpose *ᵥ t.ofLp)⟫ * Complex.I) := by
      intro z
      rw [← Complex.exp_add]
      congr 1
      rw [← add_mul]
      congr 1
      norm_cast
      simp only [EuclideanSpace.inner_eq_star_dotProduct, star_trivial]
      rw [dotProduct_add, Matrix.mulVec_transpose, ← Matrix.dotProduct_mulVec]
    simp only [e1]
    rw [integral_const_mul, show stdPi κ = Measure.pi fun _ => gaussianReal 0 1 from rfl, hstd, ← Complex.exp_add]
    congr 1
    rw [sub_eq_add_neg, real_inner_comm]
    congr 1
    rw [neg_div]
    congr 2
    norm_cast
    rw [EuclideanSpace.real_norm_sq_eq]
    rw [← Matrix.mulVec_mulVec, Matrix.dotProduct_mulVec, ← Matrix.mulVec_transpose]
    simp [dotProduct, sq]
  rw [normalLaw, ← key, Measure.map_map (by fun_prop) (by fun_prop)]
  simp [Function.comp_def]

open scoped MatrixOrder Matrix.Norms.L2Operator in
theorem exists_root {S : Matrix ι ι ℝ} (hS : S.PosSemidef) : ∃ L : Matrix ι ι ℝ, L * L.transpose = S := by
  obtain ⟨B, hB⟩ := CStarAlgebra.nonneg_iff_eq_star_mul_self.mp hS.nonneg
  rw [Matrix.star_eq_conjTranspose] at hB
  refine ⟨B.transpose, ?_⟩
  rw [hB, Matrix.transpose_transpose, Matrix.conjTranspose_eq_transpose_of_trivial]

theorem measurable_affine (μ : ι → ℝ) (L : Matrix ι κ ℝ) : Measurable fun z : κ → ℝ => μ + L *ᵥ z := by
  refine measurable_pi_iff.mpr fun i => ?_
  simp only [Pi.add_apply, Matrix.mulVec, dotProduct]
  fun_prop

theorem normalLaw_prob (μ : ι → ℝ) {S : Matrix ι ι ℝ} (hS : S.PosSemidef) : IsProbabilityMeasure (normalLaw μ S) := by
  obtain ⟨L, rfl⟩ := exists_root hS
  rw [← normalLaw_affine]
  exact Measure.isProbabilityMeasure_map (measurable_affine μ L).aemeasurable

/-- The conditional law, as a family of measures. -/
noncomputable def condGauss (μ₁ : ι → ℝ) (μ₂ : κ → ℝ) (G : Matrix κ ι ℝ) (S : Matrix κ κ ℝ) (hS : S.PosSemidef) :
    Kernel (ι → ℝ) (κ → ℝ) where
  toFun y := normalLaw (μ₂ + G *ᵥ (y - μ₁)) S
  measurable' := by
    obtain ⟨L, rfl⟩ := exists_root hS
    refine Measure.measurable_of_measurable_coe _ fun s hs => ?_
    have hm : Measurable fun p : (ι → ℝ) × (κ → ℝ) => (μ₂ + G *ᵥ (p.1 - μ₁)) + L *ᵥ p.2 := by
      refine measurable_pi_iff.mpr fun i => ?_
      simp only [Pi.add_apply, Matrix.mulVec, dotProduct, Pi.sub_apply]
      fun_prop
    have := measurable_measure_prodMk_left (ν := stdPi κ) (hm hs)
    have e : (fun y => normalLaw (μ₂ + G *ᵥ (y - μ₁)) (L * L.transpose) s) = fun y => stdPi κ (Prod.mk y ⁻¹'
        ((fun p : (ι → ℝ) × (κ → ℝ) => (μ₂ + G *ᵥ (p.1 - μ₁)) + L *ᵥ p.2) ⁻¹' s)) := by
      funext y
      rw [← normalLaw_affine, Measure.map_apply (measurable_affine _ L) hs]
      rfl
    rw [e]
    exact this

theorem condGauss_apply (μ₁ : ι → ℝ) (μ₂ : κ → ℝ) (G : Matrix κ ι ℝ) (S : Matrix κ κ ℝ) (hS : S.PosSemidef) (y : ι → ℝ) :
    condGauss μ₁ μ₂ G S hS y = normalLaw (μ₂ + G *ᵥ (y - μ₁)) S := rfl

instance (μ₁ : ι → ℝ) (μ₂ : κ → ℝ) (G : Matrix κ ι ℝ) (S : Matrix κ κ ℝ) (hS : S.PosSemidef) :
    IsMarkovKernel (condGauss μ₁ μ₂ G S hS) := ⟨fun _ => normalLaw_prob _ hS⟩

/-- The joint Gaussian law in two stages. -/
theorem normalLaw_stages (μ₁ : ι → ℝ) (μ₂ : κ → ℝ) {A : Matrix ι ι ℝ} (hA : A.PosDef) (B : Matrix ι κ ℝ) (D : Matrix κ κ ℝ)
    (hC : (D - B.transpose * A⁻¹ * B).PosSemidef) :
    (normalLaw (Sum.elim μ₁ μ₂) (Matrix.fromBlocks A B B.transpose D)).map (fun v => (v ∘ Sum.inl, v ∘ Sum.inr)) =
      normalLaw μ₁ A ⊗ₘ condGauss μ₁ μ₂ (B.transpose * A⁻¹) (D - B.transpose * A⁻¹ * B) hC := by
  obtain ⟨L, hL⟩ := exists_root hA.posSemidef
  obtain ⟨R, hR⟩ := exists_root hC
  have hdet : IsUnit A.det := (Matrix.isUnit_iff_isUnit_det A).mp hA.isUnit
  have hAs : A.transpose = A := by
    have := hA.isHermitian.eq
    rwa [Matrix.conjTranspose_eq_transpose_of_trivial] at this
  have hAis : (A⁻¹).transpose = A⁻¹ := by rw [Matrix.transpose_nonsing_inv, hAs]
  set G := B.transpose * A⁻¹ with hG
  have hGA : G * A = B.transpose := by rw [hG, Matrix.mul_assoc, Matrix.nonsing_inv_mul _ hdet, Matrix.mul_one]
  have hAG : A * G.transpose = B := by
    rw [hG, Matrix.transpose_mul, hAis, Matrix.transpose_transpose, ← Matrix.mul_assoc, Matrix.mul_nonsing_inv _ hdet,
      Matrix.one_mul]
  set Λ : Matrix (ι ⊕ κ) (ι ⊕ κ) ℝ := Matrix.fromBlocks L 0 (G * L) R with hΛ
  have hΛΛ : Λ * Λ.transpose = Matrix.fromBlocks A B B.transpose D := by
    rw [hΛ, Matrix.fromBlocks_transpose, Matrix.fromBlocks_multiply]
    simp only [Matrix.transpose_zero, Matrix.mul_zero, Matrix.zero_mul, add_zero, Matrix.transpose_mul]
    rw [hL, hR, ← Matrix.mul_assoc L, hL, hAG, Matrix.mul_assoc G, hL, hGA, Matrix.mul_assoc G L, ← Matrix.mul_assoc L, hL,
      hAG]
    congr 1
    abel
  rw [← hΛΛ, ← normalLaw_affine]
  ext s hs
  have hpair : Measurable fun v : ι ⊕ κ → ℝ => (v ∘ Sum.inl, v ∘ Sum.inr) := by
    refine Measurable.prodMk ?_ ?_ <;> exact measurable_pi_iff.mpr fun i => measurable_pi_apply _
  have := normalLaw_prob μ₁ hA.posSemidef
  rw [Measure.map_map hpair (measurable_affine _ _), Measure.map_apply (hpair.comp (measurable_affine _ _)) hs,
    Measure.compProd_apply hs]
  have : normalLaw μ₁ A = (stdPi ι).map fun z => μ₁ + L *ᵥ z := by rw [normalLaw_affine, hL]
  rw [this, lintegral_map (Kernel.measurable_kernel_prodMk_left hs) (measurable_affine _ _)]
  have hmp := measurePreserving_sumPiEquivProdPi_symm (X := fun _ : ι ⊕ κ => ℝ) (fun _ => gaussianReal 0 1)
  have e1 : stdPi (ι ⊕ κ) = ((stdPi ι).prod (stdPi κ)).map (MeasurableEquiv.sumPiEquivProdPi fun _ : ι ⊕ κ => ℝ).symm :=
    hmp.map_eq.symm
  rw [e1, Measure.map_apply (MeasurableEquiv.measurable _) (hpair.comp (measurable_affine _ _) hs), Measure.prod_apply]
  · refine lintegral_congr fun z => ?_
    rw [condGauss_apply, ← hR, ← normalLaw_affine, Measure.map_apply (measurable_affine _ _)
      (measurable_prodMk_left hs)]
    congr 1
    ext w
    have hp : ∀ z w, (MeasurableEquiv.sumPiEquivProdPi fun _ : ι ⊕ κ => ℝ).symm (z, w) = Sum.elim z w := fun z w => rfl
    simp only [Set.mem_preimage, Function.comp_apply, hp]
    have h1 : (Sum.elim μ₁ μ₂ + Λ *ᵥ Sum.elim z w) ∘ Sum.inl = μ₁ + L *ᵥ z := by
      rw [hΛ, Matrix.fromBlocks_mulVec]
      funext i
      simp
    have h2 : (Sum.elim μ₁ μ₂ + Λ *ᵥ Sum.elim z w) ∘ Sum.inr = μ₂ + G *ᵥ (μ₁ + L *ᵥ z - μ₁) + R *ᵥ w := by
      rw [hΛ, Matrix.fromBlocks_mulVec, add_sub_cancel_left, Matrix.mulVec_mulVec]
      funext i
      simp [add_assoc]
    rw [h1, h2]
  · exact (MeasurableEquiv.measurable _) (hpair.comp (measurable_affine _ _) hs)

/-- The conditional law of one part of a Gaussian vector given the other. -/
theorem cond_normal {Ω : Type} [MeasurableSpace Ω] (P : Measure Ω) [IsFiniteMeasure P] (Y : Ω → ι → ℝ) (F : Ω → κ → ℝ)
    (μ₁ : ι → ℝ) (μ₂ : κ → ℝ) {A : Matrix ι ι ℝ} (hA : A.PosDef) (B : Matrix ι κ ℝ) (D : Matrix κ κ ℝ)
    (hC : (D - B.transpose * A⁻¹ * B).PosSemidef)
    (h : IsNormal P (fun ω => Sum.elim (Y ω) (F ω)) (Sum.elim μ₁ μ₂) (Matrix.fromBlocks A B B.transpose D)) :
    IsNormal P Y μ₁ A ∧ ∀ᵐ y ∂P.map Y, condDistrib F Y P y =
      normalLaw (μ₂ + (B.transpose * A⁻¹) *ᵥ (y - μ₁)) (D - B.transpose * A⁻¹ * B) := by
  obtain ⟨hm, hlaw⟩ := h
  have hpair : Measurable fun v : ι ⊕ κ → ℝ => (v ∘ Sum.inl, v ∘ Sum.inr) := by
    refine Measurable.prodMk ?_ ?_ <;> exact measurable_pi_iff.mpr fun i => measurable_pi_apply _
  have hYF := hpair.comp hm
  have hY : Measurable Y := hYF.fst
  have hF : Measurable F := hYF.snd
  have hjoint : P.map (fun ω => (Y ω, F ω)) =
      normalLaw μ₁ A ⊗ₘ condGauss μ₁ μ₂ (B.transpose * A⁻¹) (D - B.transpose * A⁻¹ * B) hC := by
    rw [← normalLaw_stages μ₁ μ₂ hA B D hC, ← hlaw, Measure.map_map hpair hm]
    rfl
  have := normalLaw_prob μ₁ hA.posSemidef
  have hmarg : P.map Y = normalLaw μ₁ A := by
    have h1 : (P.map fun ω => (Y ω, F ω)).fst = P.map Y := Measure.fst_map_prodMk hF
    rw [← h1, hjoint, Measure.fst_compProd]
  refine ⟨⟨hY, hmarg⟩, ?_⟩
  have := condDistrib_ae_eq_of_measure_eq_compProd (μ := P) Y hF.aemeasurable
    (κ := condGauss μ₁ μ₂ (B.transpose * A⁻¹) (D - B.transpose * A⁻¹ * B) hC) (by rw [hmarg]; exact hjoint)
  exact this

/-- The rows of an affine image of independent standard numbers are independent Gaussian draws. -/
theorem draws_affine {Ω : Type} [MeasurableSpace Ω] {P : Measure Ω} [IsProbabilityMeasure P] {r n : ℕ}
    {z : Ω → Fin r → Fin n → ℝ} (hz : IsStandardNormal P z) (μ : ι → ℝ) (L : Matrix ι (Fin n) ℝ) :
    IndependentDraws P (fun ω s => μ + L *ᵥ z ω s) μ (L * L.transpose) := by
  obtain ⟨hm, hlaw⟩ := hz
  have hrow : ∀ s, Measurable fun ω => z ω s := fun s => (measurable_pi_apply s).comp hm
  have hmeas : ∀ s, Measurable fun ω => μ + L *ᵥ z ω s := fun s => (measurable_affine μ L).comp (hrow s)
  have hall : P.map (fun ω s => μ + L *ᵥ z ω s) = Measure.pi fun _ : Fin r => normalLaw μ (L * L.transpose) := by
    have h1 : P.map (fun ω s => μ + L *ᵥ z ω s) = (P.map z).map fun Z s => μ + L *ᵥ Z s := by
      rw [Measure.map_map _ hm]
      · rfl
      · exact measurable_pi_iff.mpr fun s => (measurable_affine μ L).comp (measurable_pi_apply s)
    have hp : IsProbabilityMeasure ((stdPi (Fin n)).map fun z => μ + L *ᵥ z) :=
      Measure.isProbabilityMeasure_map (measurable_affine μ L).aemeasurable
    have h3 : P.map z = Measure.pi fun _ : Fin r => stdPi (Fin n) := hlaw
    rw [h1, h3, Measure.pi_map_pi (μ := fun _ => stdPi (Fin n)) (f := fun _ z => μ + L *ᵥ z)
      fun _ => (measurable_affine μ L).aemeasurable]
    simp only [normalLaw_affine]
  have hp := normalLaw_prob μ (posSemidef_mul_transpose L)
  have hone : ∀ s, P.map (fun ω => μ + L *ᵥ z ω s) = normalLaw μ (L * L.transpose) := by
    intro s
    have h2 : P.map (fun ω => μ + L *ᵥ z ω s) =
        (P.map (fun ω s => μ + L *ᵥ z ω s)).map (Function.eval s) := by
      rw [Measure.map_map (measurable_pi_apply s) (measurable_pi_iff.mpr hmeas)]
      rfl
    rw [h2, hall, (measurePreserving_eval _ s).map_eq]
  refine ⟨fun s => ⟨hmeas s, hone s⟩, ?_⟩
  rw [iIndepFun_iff_map_fun_eq_pi_map fun s => (hmeas s).aemeasurable]
  simp only [hone]
  exact hall

/-- Independent noise adds its variance to the covariance of the observations. -/
theorem noisy_joint {Ω : Type} [MeasurableSpace Ω] {P : Measure Ω} [IsProbabilityMeasure P] {Y : Ω → ι → ℝ}
    {g : Ω → κ → ℝ} {μ : ι ⊕ κ → ℝ} {S : Matrix (ι ⊕ κ) (ι ⊕ κ) ℝ} (hS : S.PosSemidef) {c : ι → ℝ} (hc : ∀ i, 0 ≤ c i)
    (h : NoisyObservations P Y g μ S c) :
    IsNormal P (fun ω => Sum.elim (Y ω) (g ω)) μ
      (S + Matrix.fromBlocks (Matrix.diagonal c) 0 0 (0 : Matrix κ κ ℝ)) := by
  obtain ⟨f, ε, ⟨hG, hGl⟩, ⟨hε, hεl⟩, hind, hY⟩ := h
  obtain ⟨L, hL⟩ := exists_root hS
  set E : Matrix (ι ⊕ κ) ι ℝ := Matrix.fromRows (Matrix.diagonal fun i => Real.sqrt (c i)) 0 with hE
  set Λ : Matrix (ι ⊕ κ) ((ι ⊕ κ) ⊕ ι) ℝ := Matrix.fromCols L E with hΛ
  have hsq : (Matrix.diagonal fun i => Real.sqrt (c i)) * (Matrix.diagonal fun i => Real.sqrt (c i)).transpose = Matrix.diagonal c := by
    rw [Matrix.diagonal_transpose, Matrix.diagonal_mul_diagonal]
    simp only [Real.mul_self_sqrt (hc _)]
  have hΛΛ : Λ * Λ.transpose = S + Matrix.fromBlocks (Matrix.diagonal c) 0 0 (0 : Matrix κ κ ℝ) := by
    rw [hΛ, Matrix.transpose_fromCols, Matrix.fromCols_mul_fromRows, hL, hE, Matrix.transpose_fromRows,
      Matrix.fromRows_mul_fromCols, hsq]
    simp
  have hlin : Measurable fun p : (ι ⊕ κ → ℝ) × (ι → ℝ) => p.1 + Sum.elim p.2 (0 : κ → ℝ) := by
    refine measurable_pi_iff.mpr fun i => ?_
    rcases i with i | i
    · exact ((measurable_pi_apply _).comp measurable_fst).add ((measurable_pi_apply _).comp measurable_snd)
    · simp only [Pi.add_apply, Sum.elim_inr, Pi.zero_apply, add_zero]
      exact (measurable_pi_apply (Sum.inr i)).comp measurable_fst
  have hYG : (fun ω => Sum.elim (Y ω) (g ω)) =
      (fun p : (ι ⊕ κ → ℝ) × (ι → ℝ) => p.1 + Sum.elim p.2 (0 : κ → ℝ)) ∘ fun ω => (Sum.elim (f ω) (g ω), ε ω) := by
    funext ω i
    rcases i with i | i
    · simp [hY]
    · simp
  have hpair : Measurable fun ω => (Sum.elim (f ω) (g ω), ε ω) := hG.prodMk hε
  refine ⟨by rw [hYG]; exact hlin.comp hpair, ?_⟩
  have hε' : P.map ε = (stdPi ι).map fun z => 0 + (Matrix.diagonal fun i => Real.sqrt (c i)) *ᵥ z := by
    rw [normalLaw_affine, hsq, hεl]
  have hG' : P.map (fun ω => Sum.elim (f ω) (g ω)) = (stdPi (ι ⊕ κ)).map fun z => μ + L *ᵥ z := by
    rw [normalLaw_affine, hL, hGl]
  have hmp := measurePreserving_sumPiEquivProdPi_symm (X := fun _ : (ι ⊕ κ) ⊕ ι => ℝ) (fun _ => gaussianReal 0 1)
  have e1 : stdPi ((ι ⊕ κ) ⊕ ι) = ((stdPi (ι ⊕ κ)).prod (stdPi ι)).map
      (MeasurableEquiv.sumPiEquivProdPi fun _ : (ι ⊕ κ) ⊕ ι => ℝ).symm := hmp.map_eq.symm
  rw [hYG, ← Measure.map_map hlin hpair,
    (indepFun_iff_map_prod_eq_prod_map_map hG.aemeasurable hε.aemeasurable).mp hind, hG', hε',
    Measure.map_prod_map _ _ (measurable_affine _ _) (measurable_affine _ _),
    Measure.map_map hlin ((measurable_affine _ _).prodMap (measurable_affine _ _)), ← hΛΛ, ← normalLaw_affine, e1,
    Measure.map_map (measurable_affine _ _) (MeasurableEquiv.measurable _)]
  congr 1
  funext p
  obtain ⟨z, w⟩ := p
  have hp : (MeasurableEquiv.sumPiEquivProdPi fun _ : (ι ⊕ κ) ⊕ ι => ℝ).symm (z, w) = Sum.elim z w := rfl
  simp only [Function.comp_apply, hp, Prod.map_apply, hΛ, Matrix.fromCols_mulVec, hE, Matrix.fromRows_mulVec,
    Matrix.zero_mulVec, zero_add, add_assoc]
  rfl

theorem integrable_normalLaw (μ : ι → ℝ) (S : Matrix ι ι ℝ) (i : ι) : Integrable (fun v => v i) (normalLaw μ S) := by
  unfold normalLaw
  refine (integrable_map_measure (measurable_pi_apply i).aestronglyMeasurable (by fun_prop)).mpr ?_
  have h : Integrable id (multivariateGaussian (WithLp.toLp 2 μ) S) := IsGaussian.integrable_id
  have := (EuclideanSpace.proj (𝕜 := ℝ) i).integrable_comp h
  exact this

theorem integral_normalLaw (μ : ι → ℝ) (S : Matrix ι ι ℝ) (i : ι) : ∫ v, v i ∂normalLaw μ S = μ i := by
  unfold normalLaw
  rw [integral_map (f := fun v : ι → ℝ => v i) (by fun_prop) (measurable_pi_apply i).aestronglyMeasurable]
  have h : Integrable id (multivariateGaussian (WithLp.toLp 2 μ) S) := IsGaussian.integrable_id
  have := (EuclideanSpace.proj (𝕜 := ℝ) i).integral_comp_comm h
  simp only [id, integral_id_multivariateGaussian] at this
  exact this

/-- The deviation from the conditional mean is Gaussian and independent of the observations. -/
theorem residual_normal {Ω : Type} [MeasurableSpace Ω] (P : Measure Ω) [IsProbabilityMeasure P] (Y : Ω → ι → ℝ)
    (F : Ω → κ → ℝ) (μ₁ : ι → ℝ) (μ₂ : κ → ℝ) {A : Matrix ι ι ℝ} (hA : A.PosDef) (B : Matrix ι κ ℝ) (D : Matrix κ κ ℝ)
    (hC : (D - B.transpose * A⁻¹ * B).PosSemidef)
    (h : IsNormal P (fun ω => Sum.elim (Y ω) (F ω)) (Sum.elim μ₁ μ₂) (Matrix.fromBlocks A B B.transpose D)) :
    IsNormal P (fun ω => F ω - (μ₂ + (B.transpose * A⁻¹) *ᵥ (Y ω - μ₁))) 0 (D - B.transpose * A⁻¹ * B) ∧
      IndepFun Y (fun ω => F ω - (μ₂ + (B.transpose * A⁻¹) *ᵥ (Y ω - μ₁))) P := by
  obtain ⟨hm, hlaw⟩ := h
  obtain ⟨R, hR⟩ := exists_root hC
  have hpair : Measurable fun v : ι ⊕ κ → ℝ => (v ∘ Sum.inl, v ∘ Sum.inr) := by
    refine Measurable.prodMk ?_ ?_ <;> exact measurable_pi_iff.mpr fun i => measurable_pi_apply _
  have hYF := hpair.comp hm
  have hY : Measurable Y := hYF.fst
  have hF : Measurable F := hYF.snd
  have hjoint : P.map (fun ω => (Y ω, F ω)) =
      normalLaw μ₁ A ⊗ₘ condGauss μ₁ μ₂ (B.transpose * A⁻¹) (D - B.transpose * A⁻¹ * B) hC := by
    rw [← normalLaw_stages μ₁ μ₂ hA B D hC, ← hlaw, Measure.map_map hpair hm]
    rfl
  have hp1 := normalLaw_prob μ₁ hA.posSemidef
  have hp2 := normalLaw_prob (0 : κ → ℝ) hC
  set G := B.transpose * A⁻¹ with hG
  have hmean : Measurable fun y : ι → ℝ => μ₂ + G *ᵥ (y - μ₁) := by
    have := measurable_affine (μ₂ - G *ᵥ μ₁) G
    have e : (fun z : ι → ℝ => μ₂ - G *ᵥ μ₁ + G *ᵥ z) = fun y => μ₂ + G *ᵥ (y - μ₁) := by
      funext y
      rw [Matrix.mulVec_sub]
      abel
    rwa [e] at this
  have hE : Measurable fun ω => F ω - (μ₂ + G *ᵥ (Y ω - μ₁)) := hF.sub (hmean.comp hY)
  have hT : Measurable fun p : (ι → ℝ) × (κ → ℝ) => (p.1, p.2 - (μ₂ + G *ᵥ (p.1 - μ₁))) :=
    measurable_fst.prodMk (measurable_snd.sub (hmean.comp measurable_fst))
  have hprod : P.map (fun ω => (Y ω, F ω - (μ₂ + G *ᵥ (Y ω - μ₁)))) =
      (normalLaw μ₁ A).prod (normalLaw 0 (D - G * B)) := by
    have h1 : P.map (fun ω => (Y ω, F ω - (μ₂ + G *ᵥ (Y ω - μ₁)))) =
        (P.map fun ω => (Y ω, F ω)).map fun p => (p.1, p.2 - (μ₂ + G *ᵥ (p.1 - μ₁))) := by
      rw [Measure.map_map hT (hY.prodMk hF)]
      rfl
    rw [h1, hjoint]
    ext s hs
    rw [Measure.map_apply hT hs, Measure.compProd_apply (hT hs), Measure.prod_apply hs]
    refine lintegral_congr fun y => ?_
    rw [condGauss_apply, ← hR, ← normalLaw_affine, ← normalLaw_affine,
      Measure.map_apply (measurable_affine _ _) (measurable_prodMk_left (hT hs)),
      Measure.map_apply (measurable_affine _ _) (measurable_prodMk_left hs)]
    congr 1
    ext w
    simp [hG]
  have hmY : P.map Y = normalLaw μ₁ A := by
    have h1 : (P.map fun ω => (Y ω, F ω - (μ₂ + G *ᵥ (Y ω - μ₁)))).fst = P.map Y := Measure.fst_map_prodMk hE
    rw [← h1, hprod, Measure.fst_prod]
  have hmE : P.map (fun ω => F ω - (μ₂ + G *ᵥ (Y ω - μ₁))) = normalLaw 0 (D - G * B) := by
    have h1 : (P.map fun ω => (Y ω, F ω - (μ₂ + G *ᵥ (Y ω - μ₁)))).snd =
      P.map fun ω => F ω - (μ₂ + G *ᵥ (Y ω - μ₁)) := Measure.snd_map_prodMk hY
    rw [← h1, hprod, Measure.snd_prod]
  refine ⟨⟨hE, hmE⟩, ?_⟩
  rw [indepFun_iff_map_prod_eq_prod_map_map hY.aemeasurable hE.aemeasurable, hprod, hmY, hmE]

end GPX
