import Verif.Lemmas.NormalInfo
import Verif.Props.Sampling
import Verif.Props.Likelihood
import Verif.Props.GPRTD
import Verif.Spec.PosteriorTD

/-!
# C149-C151: the Gaussian laws behind samples, predictions and the likelihood
-/

namespace GPX.Props
open GPX GPX.Spec MeasureTheory ProbabilityTheory Matrix

variable {d m n o v w v' w' N : ℕ} {Key Ω : Type} {la : LinAlg} [MeasurableSpace Key] [MeasurableSpace Ω]

/-! ## C149 -/

theorem sample_law (ex : la.Exact) (split : Key → Key × Key) (normal : Key → (r n : ℕ) → Arr2 r n)
    (P : Measure Key) [IsProbabilityMeasure P] (nS : ℕ) (mean : Mat n (o + 1)) (cov : Mat n n) (hc : cov.PosDef)
    (hz : IsStandardNormal P fun k => normal ((fun k => (split k).2)^[o + 1] k) nS n) :
    ∃ r : Key → Arr2 nS n, (∀ k, sample la split normal k mean cov nS = .ok (r k)) ∧
      IndependentDraws P r (fun i => mean i (Fin.last o)) cov := by
  have h := draws_affine hz (fun i => mean i (Fin.last o)) (la.cholesky cov)
  rw [(ex.cholesky cov hc).2.2] at h
  exact ⟨_, fun k => sample_succ la split normal k mean cov nS, h⟩

/-- **C149**, prior of GPR. Whenever the normal generator delivers independent standard normal numbers, the samples
returned by `sample(kind='prior')` are independent draws from the Gaussian with mean zero and covariance
`K + (sigma² + 1e-10) I`. -/
theorem C149_gpr_prior (ex : la.Exact) (e : KExpr (d + 1)) (θ : GPParams) (h : Admissible e θ.kernelParams)
    (split : Key → Key × Key) (normal : Key → (r n : ℕ) → Arr2 r n) (P : Measure Key) [IsProbabilityMeasure P]
    (x : Batch n (d + 1)) (nS : ℕ)
    (hz : IsStandardNormal P fun k => normal ((fun k => (split k).2)^[d + 1] k) nS n) :
    ∃ r : Key → Arr2 nS n, (∀ k, gprSamplePrior la split normal θ e.obj k x nS = .ok (r k)) ∧
      IndependentDraws P r 0
        (Matrix.of (e.obj.k θ.kernelParams x x) + (θ.sigma ^ 2 + 1 / 10 ^ 10) • (1 : Mat n n)) :=
  sample_law ex split normal P nS (0 : Mat n (d + 1)) _ (aLhsNoise_posDef e θ h x) hz

/-- **C149**, posterior of GPR with one output: mean and covariance are those returned by
`predict(full_covariance=True)`, with `1e-10` added to the diagonal. -/
theorem C149_gpr_posterior (ex : la.Exact) (e : KExpr d) (θ : GPParams) (h : Admissible e θ.kernelParams)
    (split : Key → Key × Key) (normal : Key → (r n : ℕ) → Arr2 r n) (P : Measure Key) [IsProbabilityMeasure P]
    (xt : Batch m d) (c : Mat m 1) (mu : ℝ) (x : Batch n d) (nS : ℕ)
    (hz : IsStandardNormal P fun k => normal (split k).2 nS n) :
    ∃ r : Key → Arr2 nS n,
      (∀ k, gprSamplePosterior la split normal θ e.obj true xt c mu k x nS = .ok (r k)) ∧
      IndependentDraws P r (fun i => predictDense θ e.obj xt x c mu i 0)
        (predictDenseCov la θ e.obj xt x + (1 / 10 ^ 10 : ℝ) • (1 : Mat n n)) :=
  sample_law ex split normal P nS (predictDense θ e.obj xt x c mu) _
    (psd_add_jitter (C33_posterior_covariance ex e θ h xt x).1) hz

/-- **C149**, posterior of SGPR with one output. -/
theorem C149_sgpr_posterior (ex : la.Exact) (e : KExpr d) (θ : GPParams) (h : Admissible e θ.kernelParams)
    (split : Key → Key × Key) (normal : Key → (r n : ℕ) → Arr2 r n) (P : Measure Key) [IsProbabilityMeasure P]
    (xl : Batch m d) (c : Mat m 1) (mu : ℝ) (x : Batch n d) (nS : ℕ)
    (hz : IsStandardNormal P fun k => normal (split k).2 nS n) :
    ∃ r : Key → Arr2 nS n,
      (∀ k, sgprSamplePosterior la split normal θ e.obj true xl c mu k x nS = .ok (r k)) ∧
      IndependentDraws P r (fun i => sgprPredict θ e.obj xl x c mu i 0)
        (sgprPredictCov la θ e.obj xl x + (1 / 10 ^ 10 : ℝ) • (1 : Mat n n)) :=
  sample_law ex split normal P nS (sgprPredict θ e.obj xl x c mu) _
    (psd_add_jitter (C49_covariance_posSemidef ex e θ h xl x).1) hz

/-- **C149**, posterior of GPR fitted on derivatives, for any number of components, whenever the joint derivative Gram
matrix is positive semidefinite (C65). -/
theorem C149_gpr_posterior_derivs (ex : la.Exact) (κ : KernelObj d) (θ : GPParams)
    (split : Key → Key × Key) (normal : Key → (r n : ℕ) → Arr2 r n) (P : Measure Key) [IsProbabilityMeasure P]
    (xt : Batch m d) (Jt : Jac m d w) (c : Mat (m * w) 1) (x : Batch n d) (J : Jac n d v) (nS : ℕ)
    (h : (Matrix.fromBlocks (Matrix.of (κ.d01kj θ.kernelParams xt xt Jt Jt))
      (Matrix.of (κ.d01kj θ.kernelParams xt x Jt J)) (Matrix.of (κ.d01kj θ.kernelParams xt x Jt J)).transpose
      (Matrix.of (κ.d01kj θ.kernelParams x x J J))).PosSemidef)
    (hz : IsStandardNormal P fun k => normal (split k).2 nS (n * v)) :
    ∃ r : Key → Arr2 nS (n * v),
      (∀ k, gprSamplePosteriorDerivs la split normal θ κ true xt Jt c k x J nS = .ok (r k)) ∧
      IndependentDraws P r (fun a => predictDerivsDense θ κ xt Jt x J c 0 a.divNat a.modNat)
        (predictDerivsDenseCov la θ κ xt Jt x J + (1 / 10 ^ 10 : ℝ) • (1 : Mat (n * v) (n * v))) := by
  have hK : (Matrix.of (κ.d01kj θ.kernelParams xt xt Jt Jt)).PosSemidef := h.submatrix (Sum.inl : Fin (m * w) → _)
  have hp : (aDerivsLhsNoise θ κ xt Jt xt Jt).PosDef := posDef_add_smul_one hK (noise_pos θ)
  have hc : (predictDerivsDenseCov la θ κ xt Jt x J).PosSemidef := by
    unfold predictDerivsDenseCov
    simp only
    rw [ex.gram hp]
    exact schur_psd hp _ _ (blocks_noise (noise_pos θ).le h)
  have hm : (fun a => predictDerivsDense θ κ xt Jt x J c 0 a.divNat a.modNat) =
      fun a => predictDerivsFlat θ κ xt Jt x J c 0 a 0 := by
    funext a
    have := finProdFinEquiv.apply_symm_apply a
    simp only [predictDerivsDense, unflatCol, Matrix.of_apply]
    exact congrArg (fun r => predictDerivsFlat θ κ xt Jt x J c 0 r 0) this
  rw [hm]
  exact sample_law ex split normal P nS (predictDerivsFlat θ κ xt Jt x J c 0) _ (psd_add_jitter hc) hz

/-- Non-vacuity: keys that are themselves independent standard normal numbers. -/
example : IsProbabilityMeasure (Measure.pi fun _ : Fin 3 => Measure.pi fun _ : Fin 2 => gaussianReal 0 1) ∧
    IsStandardNormal (Measure.pi fun _ : Fin 3 => Measure.pi fun _ : Fin 2 => gaussianReal 0 1)
      (fun k => (fun (k : Fin 3 → Fin 2 → ℝ) (r n : ℕ) (s : Fin r) (i : Fin n) =>
        if h : s.val < 3 ∧ i.val < 2 then k ⟨s, h.1⟩ ⟨i, h.2⟩ else 0) ((fun k => (k, k)) k).2 3 2) := by
  refine ⟨inferInstance, ?_⟩
  have : (fun k => (fun (k : Fin 3 → Fin 2 → ℝ) (r n : ℕ) (s : Fin r) (i : Fin n) =>
        if h : s.val < 3 ∧ i.val < 2 then k ⟨s, h.1⟩ ⟨i, h.2⟩ else 0) ((fun k => (k, k)) k).2 3 2) =
      (id : (Fin 3 → Fin 2 → ℝ) → _) := by
    funext k s i
    have h : s.val < 3 ∧ i.val < 2 := ⟨s.isLt, i.isLt⟩
    simp only [h, and_self, dif_pos, id]
  rw [this]
  exact ⟨measurable_id, Measure.map_id⟩

/-! ## C150 -/

variable {I J : Type} [Fintype I] [DecidableEq I] [Fintype J] [DecidableEq J]

/-- Noisy observations of a Gaussian process: the law of the observations, the conditional law of other values given
the observations, its mean as a conditional expectation, and the law of the deviation from it. -/
theorem posterior {K : Matrix I I ℝ} {B : Matrix I J ℝ} {D : Matrix J J ℝ} {c : I → ℝ} (hc : ∀ i, 0 ≤ c i)
    (hS : (Matrix.fromBlocks K B B.transpose D).PosSemidef) (hA : (K + Matrix.diagonal c).PosDef) (P : Measure Ω)
    [IsProbabilityMeasure P] {Y : Ω → I → ℝ} {g : Ω → J → ℝ} {μ₁ : I → ℝ} {μ₂ : J → ℝ}
    (h : NoisyObservations P Y g (Sum.elim μ₁ μ₂) (Matrix.fromBlocks K B B.transpose D) c)
    {f : (I → ℝ) → J → ℝ} (hf : ∀ y, f y = μ₂ + (B.transpose * (K + Matrix.diagonal c)⁻¹) *ᵥ (y - μ₁))
    {C : Matrix J J ℝ} (hC : C = D - B.transpose * (K + Matrix.diagonal c)⁻¹ * B) :
    PosteriorLaw P Y g f C := by
  have hb : Matrix.fromBlocks K B B.transpose D + Matrix.fromBlocks (Matrix.diagonal c) 0 0 0 =
      Matrix.fromBlocks (K + Matrix.diagonal c) B B.transpose D := by
    rw [Matrix.fromBlocks_add]
    simp
  have hj := noisy_joint hS hc h
  rw [hb] at hj
  have hn : (Matrix.fromBlocks (Matrix.diagonal c) 0 0 (0 : Matrix J J ℝ)).PosSemidef := by
    have : Matrix.fromBlocks (Matrix.diagonal c) 0 0 (0 : Matrix J J ℝ) =
        Matrix.diagonal (Sum.elim c fun _ => 0) := by
      rw [← Matrix.fromBlocks_diagonal]
      simp
    rw [this, Matrix.posSemidef_diagonal_iff]
    rintro (i | i)
    · exact hc i
    · exact le_rfl
  have hCp : (D - B.transpose * (K + Matrix.diagonal c)⁻¹ * B).PosSemidef := by
    have hS2 : (Matrix.fromBlocks (K + Matrix.diagonal c) B B.transpose D).PosSemidef := by rw [← hb]; exact hS.add hn
    have : Invertible (K + Matrix.diagonal c) :=
      Matrix.invertibleOfIsUnitDet _ ((Matrix.isUnit_iff_isUnit_det _).mp hA.isUnit)
    rw [← Matrix.conjTranspose_eq_transpose_of_trivial] at hS2 ⊢
    exact (Matrix.PosDef.fromBlocks₁₁ B D hA).1 hS2
  obtain ⟨h1, h2⟩ := cond_normal P Y g μ₁ μ₂ hA B D hCp hj
  obtain ⟨h3, h4⟩ := residual_normal P Y g μ₁ μ₂ hA B D hCp hj
  subst hC
  have hY : Measurable Y := h1.1
  have hg : Measurable g := by
    have := hj.1
    exact measurable_pi_iff.mpr fun j => (measurable_pi_apply (Sum.inr j)).comp this
  have h2' : ∀ᵐ y ∂P.map Y, condDistrib g Y P y =
      normalLaw (f y) (D - B.transpose * (K + Matrix.diagonal c)⁻¹ * B) := by
    filter_upwards [h2] with y hy
    rw [hy, hf]
  refine ⟨hY, ?_, hCp, h2', fun j => ?_, ?_, ?_⟩
  · rw [funext hf]
    have := measurable_affine (μ₂ - (B.transpose * (K + Matrix.diagonal c)⁻¹) *ᵥ μ₁)
      (B.transpose * (K + Matrix.diagonal c)⁻¹)
    refine (congrArg Measurable (funext fun y => ?_)).mp this
    rw [Matrix.mulVec_sub]
    abel
  · have hint : Integrable (fun ω => g ω j) P := by
      have hje : P.map (fun ω => Sum.elim (Y ω) (g ω)) = _ := hj.2
      have hi := integrable_normalLaw (Sum.elim μ₁ μ₂) (Matrix.fromBlocks (K + Matrix.diagonal c) B B.transpose D)
        (Sum.inr j)
      rw [← hje] at hi
      exact (integrable_map_measure (measurable_pi_apply (Sum.inr j)).aestronglyMeasurable hj.1.aemeasurable).mp hi
    have := condExp_ae_eq_integral_condDistrib (μ := P) hY hg.aemeasurable
      (f := fun v : J → ℝ => v j) (measurable_pi_apply j).stronglyMeasurable hint
    refine this.trans ?_
    have h5 := ae_of_ae_map hY.aemeasurable h2'
    filter_upwards [h5] with ω hω
    rw [hω, integral_normalLaw]
  · simp only [hf]; exact h3
  · simp only [hf]; exact h4

/-- The law of the noisy observations themselves. -/
theorem observations_law {K : Matrix I I ℝ} {B : Matrix I J ℝ} {D : Matrix J J ℝ} {c : I → ℝ} (hc : ∀ i, 0 ≤ c i)
    (hS : (Matrix.fromBlocks K B B.transpose D).PosSemidef) (hA : (K + Matrix.diagonal c).PosDef) (P : Measure Ω)
    [IsProbabilityMeasure P] {Y : Ω → I → ℝ} {g : Ω → J → ℝ} {μ₁ : I → ℝ} {μ₂ : J → ℝ}
    (h : NoisyObservations P Y g (Sum.elim μ₁ μ₂) (Matrix.fromBlocks K B B.transpose D) c) :
    IsNormal P Y μ₁ (K + Matrix.diagonal c) := by
  have hb : Matrix.fromBlocks K B B.transpose D + Matrix.fromBlocks (Matrix.diagonal c) 0 0 0 =
      Matrix.fromBlocks (K + Matrix.diagonal c) B B.transpose D := by
    rw [Matrix.fromBlocks_add]
    simp
  have hj := noisy_joint hS hc h
  rw [hb] at hj
  have hn : (Matrix.fromBlocks (Matrix.diagonal c) 0 0 (0 : Matrix J J ℝ)).PosSemidef := by
    have : Matrix.fromBlocks (Matrix.diagonal c) 0 0 (0 : Matrix J J ℝ) =
        Matrix.diagonal (Sum.elim c fun _ => 0) := by
      rw [← Matrix.fromBlocks_diagonal]
      simp
    rw [this, Matrix.posSemidef_diagonal_iff]
    rintro (i | i)
    · exact hc i
    · exact le_rfl
  have hS2 : (Matrix.fromBlocks (K + Matrix.diagonal c) B B.transpose D).PosSemidef := by rw [← hb]; exact hS.add hn
  have : Invertible (K + Matrix.diagonal c) :=
    Matrix.invertibleOfIsUnitDet _ ((Matrix.isUnit_iff_isUnit_det _).mp hA.isUnit)
  rw [← Matrix.conjTranspose_eq_transpose_of_trivial] at hS2
  have hCp := (Matrix.PosDef.fromBlocks₁₁ B D hA).1 hS2
  rw [Matrix.conjTranspose_eq_transpose_of_trivial] at hCp
  exact (cond_normal P Y g μ₁ μ₂ hA B D hCp hj).1

/-- **C150**, GPR with one output and a constant mean function. Let the targets be noisy observations of a Gaussian
process with the kernel as covariance, at the training inputs, with noise variance `sigma² + 1e-10`. Then what
`predict(full_covariance=True)` returns after `fit` on these targets is the mean and the covariance of the conditional
distribution of the process at the new inputs given the targets. -/
theorem C150_gpr (ex : la.Exact) (e : KExpr d) (θ : GPParams) (h : Admissible e θ.kernelParams) (mf : MeanFun) (mu : ℝ)
    (hmf : ∀ y : Mat m 1, mf y = mu) (xt : Batch m d) (x : Batch n d) (P : Measure Ω) [IsProbabilityMeasure P]
    (Y : Ω → Fin m → ℝ) (g : Ω → Fin n → ℝ)
    (hP : NoisyObservations P Y g (fun _ => mu)
      (Matrix.fromBlocks (Matrix.of (e.obj.k θ.kernelParams xt xt)) (Matrix.of (e.obj.k θ.kernelParams xt x))
        (Matrix.of (e.obj.k θ.kernelParams xt x)).transpose (Matrix.of (e.obj.k θ.kernelParams x x)))
      fun _ => θ.sigma ^ 2 + 1 / 10 ^ 10) :
    PosteriorLaw P Y g
      (fun y j => predictDense θ e.obj xt x (fitDense la θ e.obj mf xt (column y)).1
        (fitDense la θ e.obj mf xt (column y)).2 j 0)
      (predictDenseCov la θ e.obj xt x) := by
  have hp := aLhsNoise_posDef e θ h xt
  have hA : aLhsNoise θ e.obj xt xt =
      Matrix.of (e.obj.k θ.kernelParams xt xt) + Matrix.diagonal fun _ => θ.sigma ^ 2 + 1 / 10 ^ 10 := by
    rw [← Matrix.smul_one_eq_diagonal]
    rfl
  have hμ : (fun _ : Fin m ⊕ Fin n => mu) = Sum.elim (fun _ => mu) fun _ => mu := by
    funext a
    rcases a with a | a <;> rfl
  rw [hμ] at hP
  refine posterior (fun _ => by positivity) (joint_psd e θ.kernelParams h xt x) (by rw [← hA]; exact hp) P hP ?_ ?_
  · intro y
    funext j
    rw [← hA]
    have hc : centerBy (column y) mu = column (y - fun _ => mu) := rfl
    simp only [predictDense, fitDense, hmf, addScalar, Matrix.of_apply, hc, ex.solve_eq (posDef_isUnit hp),
      ← Matrix.mul_assoc]
    simp [Matrix.mul_apply, Matrix.mulVec, dotProduct, column, aLhs]
  · rw [← hA]
    exact predictDenseCov_eq ex e θ h xt x

/-- **C150**, GPR fitted on derivatives: the same for the derivatives of the process. -/
theorem C150_gpr_derivs (ex : la.Exact) (e : KExpr d) (θ : GPParams)
    (h : DerivSmooth e θ.kernelParams) (mf : MeanFun) (hmf : ∀ y : Mat (m * w) 1, mf y = 0) (xt : Batch m d)
    (Jt : Jac m d w) (x : Batch n d) (J : Jac n d v) (P : Measure Ω) [IsProbabilityMeasure P]
    (Y : Ω → Fin (m * w) → ℝ) (g : Ω → Fin (n * v) → ℝ)
    (hP : NoisyObservations P Y g 0
      (Matrix.fromBlocks (Matrix.of (e.obj.d01kj θ.kernelParams xt xt Jt Jt))
        (Matrix.of (e.obj.d01kj θ.kernelParams xt x Jt J)) (Matrix.of (e.obj.d01kj θ.kernelParams xt x Jt J)).transpose
        (Matrix.of (e.obj.d01kj θ.kernelParams x x J J)))
      fun _ => θ.sigma ^ 2 + 1 / 10 ^ 10) :
    PosteriorLaw P Y g
      (fun y a => predictDerivsDense θ e.obj xt Jt x J
        (fitDerivsDense la θ e.obj mf xt Jt (Matrix.of fun i u => y (flat i u))).1 0 a.divNat a.modNat)
      (predictDerivsDenseCov la θ e.obj xt Jt x J) := by
  have hp := C65_fit_well_posed_partial e θ h xt Jt
  have hA : aDerivsLhsNoise θ e.obj xt Jt xt Jt =
      Matrix.of (e.obj.d01kj θ.kernelParams xt xt Jt Jt) + Matrix.diagonal fun _ => θ.sigma ^ 2 + 1 / 10 ^ 10 := by
    rw [← Matrix.smul_one_eq_diagonal]
    rfl
  have hμ : (0 : Fin (m * w) ⊕ Fin (n * v) → ℝ) = Sum.elim (0 : Fin (m * w) → ℝ) (0 : Fin (n * v) → ℝ) := by
    funext a
    rcases a with a | a <;> rfl
  rw [hμ] at hP
  refine posterior (fun _ => by positivity) (C65_two_datasets_partial e θ.kernelParams h xt Jt x J)
    (by rw [← hA]; exact hp) P hP ?_ ?_
  · intro y
    funext a
    rw [← hA]
    have hc : centerBy (flatCol (Matrix.of fun i u => y (flat i u))) 0 = column (y - 0) := by
      ext a b
      simp [centerBy, flatCol, column, flat_eta]
    have h1 : ∀ M : Mat (n * v) 1, unflatCol M a.divNat a.modNat = M a 0 := fun M => by
      simp only [unflatCol, Matrix.of_apply]
      exact congrArg (fun r => M r 0) (finProdFinEquiv.apply_symm_apply a)
    simp only [predictDerivsDense, h1, predictDerivsFlat, fitDerivsDense, hmf, addScalar, Matrix.of_apply, hc,
      ex.solve_eq (posDef_isUnit hp), ← Matrix.mul_assoc]
    simp [Matrix.mul_apply, Matrix.mulVec, dotProduct, column, aDerivsLhs]
  · rw [← hA]
    unfold predictDerivsDenseCov
    simp only
    rw [ex.gram hp]
    rfl

/-- Coefficients that solve the system give the conditional mean. -/
theorem mean_of_system {A : Matrix I I ℝ} (hA : A.PosDef) (B : Matrix I J ℝ) (c r : I → ℝ)
    (h : ∀ a, ∑ b, A a b * c b = r a) (b : J) : ∑ a, B a b * c a = ((B.transpose * A⁻¹) *ᵥ r) b := by
  have h1 : A *ᵥ c = r := funext h
  have h2 : c = A⁻¹ *ᵥ r := by
    rw [← h1, Matrix.mulVec_mulVec, Matrix.nonsing_inv_mul _ ((Matrix.isUnit_iff_isUnit_det _).mp hA.isUnit),
      Matrix.one_mulVec]
  rw [← Matrix.mulVec_mulVec, ← h2]
  rfl

/-- The covariance of training and new observations together. -/
theorem joint_observations (e : KExpr d) (p : KPar) (h : JointSmooth e p) (xt : Batch m d)
    (Jt : Jac m d v) (Jt' : Jac m d v') (x : Batch n d) (J : Jac n d w) (J' : Jac n d w') :
    (Matrix.fromBlocks (Matrix.of (cov2 e.obj p xt Jt Jt' xt Jt Jt')) (Matrix.of (cov2 e.obj p xt Jt Jt' x J J'))
      (Matrix.of (cov2 e.obj p xt Jt Jt' x J J')).transpose (Matrix.of (cov2 e.obj p x J J' x J J'))).PosSemidef ∧
    (Matrix.fromBlocks (Matrix.of (cov1 e.obj p xt Jt xt Jt)) (Matrix.of (cov1 e.obj p xt Jt x J))
      (Matrix.of (cov1 e.obj p xt Jt x J)).transpose (Matrix.of (cov1 e.obj p x J x J))).PosSemidef := by
  obtain ⟨E, hE, hk, h0, h1, h01⟩ := joint_expr e p h
  have h2 : (Matrix.fromBlocks (Matrix.of (cov2 e.obj p xt Jt Jt' xt Jt Jt'))
      (Matrix.of (cov2 e.obj p xt Jt Jt' x J J'))
      (Matrix.of (cov2 e.obj p xt Jt Jt' x J J')).transpose (Matrix.of (cov2 e.obj p x J J' x J J'))).PosSemidef := by
    have := hE.gram (I := Obs2 m v v' ⊕ Obs2 n w w') fun q => match q with
      | .inl (.inl (.inl i)) => (xt i, none)
      | .inl (.inl (.inr (i, u))) => (xt i, some fun f => Jt i f u)
      | .inl (.inr (i, u)) => (xt i, some fun f => Jt' i f u)
      | .inr (.inl (.inl i)) => (x i, none)
      | .inr (.inl (.inr (i, u))) => (x i, some fun f => J i f u)
      | .inr (.inr (i, u)) => (x i, some fun f => J' i f u)
    convert this using 1
    ext s t
    rcases s with ((i | ⟨i, u⟩) | ⟨i, u⟩) | ((i | ⟨i, u⟩) | ⟨i, u⟩) <;>
      rcases t with ((j | ⟨j, t⟩) | ⟨j, t⟩) | ((j | ⟨j, t⟩) | ⟨j, t⟩) <;>
      simp only [Matrix.of_apply, Matrix.fromBlocks_apply₁₁, Matrix.fromBlocks_apply₁₂, Matrix.fromBlocks_apply₂₁,
        Matrix.fromBlocks_apply₂₂, Matrix.transpose_apply, cov2, cov1, hk, h0, h1, h01] <;>
      first | rfl | exact hE.symm _ _
  refine ⟨h2, ?_⟩
  have := h2.submatrix (Sum.map (Sum.inl : Obs1 m v → Obs2 m v v') (Sum.inl : Obs1 n w → Obs2 n w w'))
  convert this using 1
  ext s t
  rcases s with s | s <;> rcases t with t | t <;> rfl

/-- **C150**, GPR_TD with one set of derivatives and a constant mean function: if targets and derivatives are noisy
observations of a Gaussian process and its derivatives, with the noise of each kind, the predicted targets and
derivatives are the mean of their conditional distribution. -/
theorem C150_gpr_td1 (ex : la.Exact) (e : KExpr d) (θ : TDParams)
    (h : JointSmooth e θ.kernelParams) (mf : MeanFun) (mu : ℝ) (hmf : ∀ y : Mat m 1, mf y = mu) (xt : Batch m d)
    (Jt : Jac m d v) (x : Batch n d) (J : Jac n d w) (P : Measure Ω) [IsProbabilityMeasure P]
    (Y : Ω → Obs1 m v → ℝ) (g : Ω → Obs1 n w → ℝ)
    (hP : NoisyObservations P Y g (Sum.elim (priorMean1 mu) (priorMean1 mu))
      (Matrix.fromBlocks (Matrix.of (cov1 e.obj θ.kernelParams xt Jt xt Jt))
        (Matrix.of (cov1 e.obj θ.kernelParams xt Jt x J)) (Matrix.of (cov1 e.obj θ.kernelParams xt Jt x J)).transpose
        (Matrix.of (cov1 e.obj θ.kernelParams x J x J)))
      (noise1 θ)) :
    PosteriorLaw P Y g
      (fun y => predicted1 (tdPredictDense1 θ e.obj xt Jt x J
        (tdFitDense1 la θ e.obj mf xt (targetsOf y) Jt (derivsOf y)).1
        (tdFitDense1 la θ e.obj mf xt (targetsOf y) Jt (derivsOf y)).2))
      (Matrix.of (cov1 e.obj θ.kernelParams x J x J) - (Matrix.of (cov1 e.obj θ.kernelParams xt Jt x J)).transpose *
        (Matrix.of (dataCov1 e.obj θ xt Jt))⁻¹ * Matrix.of (cov1 e.obj θ.kernelParams xt Jt x J)) := by
  have hK := (C78_joint_partial e θ.kernelParams h xt Jt Jt).1
  have hp := C52_posDef1 e.obj θ xt Jt hK
  have hA : (Matrix.of (dataCov1 e.obj θ xt Jt) : Matrix (Obs1 m v) (Obs1 m v) ℝ) =
      Matrix.of (cov1 e.obj θ.kernelParams xt Jt xt Jt) + Matrix.diagonal (noise1 θ) := by
    ext a b
    simp [dataCov1, Matrix.diagonal_apply]
  have hAp : (Matrix.of (cov1 e.obj θ.kernelParams xt Jt xt Jt) + Matrix.diagonal (noise1 θ)).PosDef := by
    rw [add_comm]
    exact (Matrix.posDef_diagonal_iff.2 (noise1_pos θ)).add_posSemidef hK
  refine posterior (fun a => (noise1_pos θ a).le) (joint_observations e θ.kernelParams h xt Jt Jt x J J).2 hAp P hP
    ?_ (by rw [hA])
  intro y
  have hf := C76_fit1 ex e.obj θ mf xt (targetsOf y) Jt (derivsOf y) hp
  simp only at hf
  obtain ⟨hmu, hsys, -⟩ := hf
  rw [hmf] at hmu
  have hr : ∀ a, residual1 mu (targetsOf y) (derivsOf y) a = y a - priorMean1 mu a := by
    rintro (i | ⟨i, u⟩) <;> simp [residual1, priorMean1, targetsOf, derivsOf]
  rw [hmu] at hsys ⊢
  have hmean := mean_of_system hAp (Matrix.of (cov1 e.obj θ.kernelParams xt Jt x J))
    (fun b => (tdFitDense1 la θ e.obj mf xt (targetsOf y) Jt (derivsOf y)).1 (pos1 b) 0) (y - priorMean1 mu)
    fun a => by
      rw [← hA]
      exact (hsys a).trans (hr a)
  obtain ⟨p1, p2, -⟩ := C76_predict1 e θ xt Jt x J (tdFitDense1 la θ e.obj mf xt (targetsOf y) Jt (derivsOf y)).1 mu
  funext b
  rw [Pi.add_apply, ← hmean b]
  rcases b with j | ⟨j, t⟩
  · exact p1 j
  · exact (p2 j t).trans (zero_add _).symm

/-- **C150**, GPR_TD with two sets of derivatives. -/
theorem C150_gpr_td2 (ex : la.Exact) (e : KExpr d) (θ : TDParams)
    (h : JointSmooth e θ.kernelParams) (mf : MeanFun) (mu : ℝ) (hmf : ∀ y : Mat m 1, mf y = mu) (xt : Batch m d)
    (Jt : Jac m d v) (Jt' : Jac m d v') (x : Batch n d) (J : Jac n d w) (J' : Jac n d w') (P : Measure Ω)
    [IsProbabilityMeasure P] (Y : Ω → Obs2 m v v' → ℝ) (g : Ω → Obs2 n w w' → ℝ)
    (hP : NoisyObservations P Y g (Sum.elim (priorMean2 mu) (priorMean2 mu))
      (Matrix.fromBlocks (Matrix.of (cov2 e.obj θ.kernelParams xt Jt Jt' xt Jt Jt'))
        (Matrix.of (cov2 e.obj θ.kernelParams xt Jt Jt' x J J'))
        (Matrix.of (cov2 e.obj θ.kernelParams xt Jt Jt' x J J')).transpose
        (Matrix.of (cov2 e.obj θ.kernelParams x J J' x J J')))
      (noise2 θ)) :
    PosteriorLaw P Y g
      (fun y =>
        let fit := tdFitDense2 la θ e.obj mf xt (targetsOf (y ∘ Sum.inl)) Jt Jt' (derivsOf (y ∘ Sum.inl)) (derivs2Of y)
        predicted2 (tdPredictDense2 θ e.obj xt Jt Jt' x J J' fit.1 fit.2))
      (Matrix.of (cov2 e.obj θ.kernelParams x J J' x J J') -
        (Matrix.of (cov2 e.obj θ.kernelParams xt Jt Jt' x J J')).transpose *
        (Matrix.of (dataCov2 e.obj θ xt Jt Jt'))⁻¹ * Matrix.of (cov2 e.obj θ.kernelParams xt Jt Jt' x J J')) := by
  have hK := (C78_joint_partial e θ.kernelParams h xt Jt Jt').2
  have hp := C52_posDef2 e.obj θ xt Jt Jt' hK
  have hA : (Matrix.of (dataCov2 e.obj θ xt Jt Jt') : Matrix (Obs2 m v v') (Obs2 m v v') ℝ) =
      Matrix.of (cov2 e.obj θ.kernelParams xt Jt Jt' xt Jt Jt') + Matrix.diagonal (noise2 θ) := by
    ext a b
    simp [dataCov2, Matrix.diagonal_apply]
  have hAp : (Matrix.of (cov2 e.obj θ.kernelParams xt Jt Jt' xt Jt Jt') + Matrix.diagonal (noise2 θ)).PosDef := by
    rw [add_comm]
    exact (Matrix.posDef_diagonal_iff.2 (noise2_pos θ)).add_posSemidef hK
  refine posterior (fun a => (noise2_pos θ a).le) (joint_observations e θ.kernelParams h xt Jt Jt' x J J').1 hAp P hP
    ?_ (by rw [hA])
  intro y
  have hf := C76_fit2 ex e.obj θ mf xt (targetsOf (y ∘ Sum.inl)) Jt Jt' (derivsOf (y ∘ Sum.inl)) (derivs2Of y) hp
  simp only at hf
  obtain ⟨hmu, hsys, -⟩ := hf
  rw [hmf] at hmu
  have hr : ∀ a, residual2 mu (targetsOf (y ∘ Sum.inl)) (derivsOf (y ∘ Sum.inl)) (derivs2Of y) a =
      y a - priorMean2 mu a := by
    rintro ((i | ⟨i, u⟩) | ⟨i, u⟩) <;>
      simp [residual2, residual1, priorMean1, priorMean2, targetsOf, derivsOf, derivs2Of]
  simp only [hmu] at hsys ⊢
  have hmean := mean_of_system hAp (Matrix.of (cov2 e.obj θ.kernelParams xt Jt Jt' x J J'))
    (fun b => (tdFitDense2 la θ e.obj mf xt (targetsOf (y ∘ Sum.inl)) Jt Jt' (derivsOf (y ∘ Sum.inl))
      (derivs2Of y)).1 (pos2 b) 0) (y - priorMean2 mu)
    fun a => by
      rw [← hA]
      exact (hsys a).trans (hr a)
  obtain ⟨p1, p2, p3, -⟩ := C76_predict2 e θ xt Jt Jt' x J J' (tdFitDense2 la θ e.obj mf xt (targetsOf (y ∘ Sum.inl))
    Jt Jt' (derivsOf (y ∘ Sum.inl)) (derivs2Of y)).1 mu
  funext b
  rw [Pi.add_apply, ← hmean b]
  rcases b with (j | ⟨j, t⟩) | ⟨j, t⟩
  · exact p1 j
  · exact (p2 j t).trans (zero_add _).symm
  · exact (p3 j t).trans (zero_add _).symm

end GPX.Props
