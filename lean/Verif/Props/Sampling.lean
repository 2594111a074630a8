import Verif.Spec.Sampling
import Verif.Lemmas.Sampling
import Verif.Props.SGPR

/-!
# C47, C51, C74, C75: drawing samples
-/

namespace GPX.Props
open GPX GPX.Spec

variable {d m n o v w N : ℕ} {Key : Type} {la : LinAlg}

/-! ## C47 -/

/-- The full claim of C47: the array returned by `sample` has a separate entry for every requested sample, output
dimension and point, and the entries of output `c` are draws around column `c` of the mean. -/
def C47_full : Prop :=
  ∀ (la : LinAlg) (Key : Type) (split : Key → Key × Key) (normal : Key → (r n : ℕ) → Arr2 r n) (key : Key)
    (n o : ℕ) (mean : Mat n o) (cov : Mat n n) (nS : ℕ), cov.PosDef →
    ∃ (r : Arr2 nS n) (pos : Fin nS × Fin o × Fin n → Fin nS × Fin n) (keys : Fin o → Key),
      sample la split normal key mean cov nS = .ok r ∧ Function.Injective pos ∧
      ∀ s c i, r (pos (s, c, i)).1 (pos (s, c, i)).2 =
        mean i c + ∑ j, la.cholesky cov i j * normal (keys c) nS n s j

/-- What is returned for every number `o + 1` of outputs: only the draws of the last output dimension. -/
theorem C47_last_dimension (la : LinAlg) (split : Key → Key × Key) (normal : Key → (r n : ℕ) → Arr2 r n)
    (key : Key) (mean : Mat n (o + 1)) (cov : Mat n n) (nS : ℕ) :
    ∃ (r : Arr2 nS n) (key' : Key), sample la split normal key mean cov nS = .ok r ∧
      ∀ s i, r s i = mean i (Fin.last o) + ∑ j, la.cholesky cov i j * normal key' nS n s j :=
  ⟨_, _, sample_succ la split normal key mean cov nS, fun _ _ => rfl⟩

/-- Two means that agree on their last column give the same result, whatever the other columns. -/
theorem C47_other_dimensions_lost (la : LinAlg) (split : Key → Key × Key) (normal : Key → (r n : ℕ) → Arr2 r n)
    (key : Key) (mean mean' : Mat n (o + 1)) (cov : Mat n n) (nS : ℕ)
    (h : ∀ i, mean i (Fin.last o) = mean' i (Fin.last o)) :
    sample la split normal key mean cov nS = sample la split normal key mean' cov nS := by
  rw [sample_succ, sample_succ]
  simp only [h]

/-- The full claim is false: with two outputs, one sample and one point there is one entry instead of two. -/
theorem C47_false : ¬ C47_full := by
  intro h
  obtain ⟨r, pos, keys, -, hp, -⟩ := h LinAlg.ideal Unit (fun k => (k, k)) (fun _ _ _ _ _ => 0) () 1 2 0 1 1
    Matrix.PosDef.one
  have := Fintype.card_le_of_injective pos hp
  simp at this

/-- **C47** with one output dimension: `n_samples` rows, row `s` a draw around the mean. -/
theorem C47_one_output_partial (la : LinAlg) (split : Key → Key × Key) (normal : Key → (r n : ℕ) → Arr2 r n)
    (key : Key) (mean : Mat n 1) (cov : Mat n n) (nS : ℕ) :
    ∃ (r : Arr2 nS n) (pos : Fin nS × Fin 1 × Fin n → Fin nS × Fin n) (keys : Fin 1 → Key),
      sample la split normal key mean cov nS = .ok r ∧ Function.Injective pos ∧
      ∀ s c i, r (pos (s, c, i)).1 (pos (s, c, i)).2 =
        mean i c + ∑ j, la.cholesky cov i j * normal (keys c) nS n s j := by
  refine ⟨_, fun p => (p.1, p.2.2), fun _ => loopKey split key 1,
    sample_succ la split normal key mean cov nS, ?_, ?_⟩
  · rintro ⟨s, c, i⟩ ⟨s', c', i'⟩ h
    obtain ⟨rfl, rfl⟩ := Prod.mk.inj h
    rw [Subsingleton.elim c c']
  · intro s c i
    rw [Subsingleton.elim c (Fin.last 0)]

/-- A one-dimensional mean: the requested number of samples makes no difference, one draw is returned. -/
theorem C47_vector_mean (la : LinAlg) (normal : Key → (r n : ℕ) → Arr2 r n) (key : Key) (mean : Fin n → ℝ)
    (cov : Mat n n) (nS : ℕ) :
    sampleVec la normal key mean cov nS =
      .ok fun i => mean i + ∑ j, la.cholesky cov i j * normal key 1 n 0 j := by
  unfold sampleVec
  rw [multivariateNormal_ok]

/-! ## C51 -/

/-- The full claim of C51: both models draw from the prior with covariance `K + (sigma² + 1e-10) I`. -/
def C51_full : Prop :=
  ∀ (d : ℕ) (e : KExpr d), ∀ (θ : GPParams), Admissible e θ.kernelParams →
    ∀ (la : LinAlg), la.Exact → ∀ (Key : Type) (split : Key → Key × Key) (normal : Key → (r n : ℕ) → Arr2 r n)
      (key : Key) (n : ℕ) (x : Batch n d) (nS : ℕ),
      gprSamplePrior la split normal θ e.obj key x nS =
        sample la split normal key (0 : Mat n d) (Matrix.of (e.obj.k θ.kernelParams x x) +
          (θ.sigma ^ 2 + 1 / 10 ^ 10) • (1 : Mat n n)) nS ∧
      sgprSamplePrior la split normal θ e.obj key x nS =
        sample la split normal key (0 : Mat n d) (Matrix.of (e.obj.k θ.kernelParams x x) +
          (θ.sigma ^ 2 + 1 / 10 ^ 10) • (1 : Mat n n)) nS

/-- **C51** for GPR, for every kernel object and data. -/
theorem C51_gpr_partial (la : LinAlg) (κ : KernelObj d) (θ : GPParams) (split : Key → Key × Key)
    (normal : Key → (r n : ℕ) → Arr2 r n) (key : Key) (x : Batch n d) (nS : ℕ) :
    gprSamplePrior la split normal θ κ key x nS =
      sample la split normal key (0 : Mat n d) (Matrix.of (κ.k θ.kernelParams x x) +
        (θ.sigma ^ 2 + 1 / 10 ^ 10) • (1 : Mat n n)) nS := rfl

/-- What SGPR does for a non-negative `sigma`: it draws from the prior of the GPR model whose noise is the square
root of `sigma`. -/
theorem C51_sgpr_uses_sqrt (la : LinAlg) (κ : KernelObj d) (θ : GPParams) (hs : 0 ≤ θ.sigma)
    (split : Key → Key × Key) (normal : Key → (r n : ℕ) → Arr2 r n) (key : Key) (x : Batch n d) (nS : ℕ) :
    sgprSamplePrior la split normal θ κ key x nS =
      gprSamplePrior la split normal ⟨θ.kernelParams, Real.sqrt θ.sigma⟩ κ key x nS := by
  unfold sgprSamplePrior gprSamplePrior aLhsNoise GPParams.noise aLhs
  simp only
  rw [Real.sq_sqrt hs, add_smul, add_assoc]

/-- **C51** for SGPR when `sigma` is its own square. -/
theorem C51_sgpr_partial (la : LinAlg) (κ : KernelObj d) (θ : GPParams) (hs : θ.sigma ^ 2 = θ.sigma)
    (split : Key → Key × Key) (normal : Key → (r n : ℕ) → Arr2 r n) (key : Key) (x : Batch n d) (nS : ℕ) :
    sgprSamplePrior la split normal θ κ key x nS =
      sample la split normal key (0 : Mat n d) (Matrix.of (κ.k θ.kernelParams x x) +
        (θ.sigma ^ 2 + 1 / 10 ^ 10) • (1 : Mat n n)) nS := by
  unfold sgprSamplePrior
  simp only
  rw [hs, add_smul, add_assoc]
  rfl

private theorem chol_one (ex : la.Exact) {a : ℝ} (h : 0 < a) :
    la.cholesky (a • (1 : Mat 1 1)) 0 0 ^ 2 = a := by
  have hp : (a • (1 : Mat 1 1)).PosDef := Matrix.PosDef.one.smul h
  have := congrFun (congrFun (ex.cholesky _ hp).2.2 0) 0
  simpa [Matrix.mul_apply, sq] using this

/-- The full claim is false for SGPR: linear kernel, one point at the origin, `sigma = 2`, a normal draw equal to
`1`. -/
theorem C51_false : ¬ C51_full := by
  intro h
  have h1 := (h 1 (.linear none) ⟨fun _ => 1, 2⟩ trivial LinAlg.ideal LinAlg.ideal_exact Unit
    (fun k => (k, k)) (fun _ _ _ _ _ => 1) () 1 (fun _ _ => 0) 1).2
  have hk : (Matrix.of ((KExpr.linear none : KExpr 1).obj.k (fun _ => 1) (fun _ _ => 0 : Batch 1 1)
      (fun _ _ => 0 : Batch 1 1)) : Mat 1 1) = 0 := by
    ext i j
    rw [Matrix.of_apply, linear_k]
    simp
  unfold sgprSamplePrior at h1
  simp only [hk, zero_add, ← add_smul] at h1
  rw [sample_succ, sample_succ] at h1
  have h2 := congrFun (congrFun (Except.ok.inj h1) 0) 0
  simp only [Finset.univ_unique, Finset.sum_singleton, Matrix.zero_apply, zero_add, mul_one] at h2
  have e1 := chol_one LinAlg.ideal_exact (a := 2 + noiseJitter) (by unfold noiseJitter; norm_num)
  have e2 := chol_one LinAlg.ideal_exact (a := (2 : ℝ) ^ 2 + 1 / 10 ^ 10) (by norm_num)
  rw [show LinAlg.ideal.cholesky ((2 + noiseJitter) • (1 : Mat 1 1)) 0 0 =
    LinAlg.ideal.cholesky (((2 : ℝ) ^ 2 + 1 / 10 ^ 10) • (1 : Mat 1 1)) 0 0 from h2] at e1
  unfold noiseJitter at e1
  linarith

/-! ## C74 -/

theorem sample_moments (ex : la.Exact) (split : Key → Key × Key) (normal : Key → (r n : ℕ) → Arr2 r n)
    (E : Expectation Key) (nS : ℕ) (mean : Mat n (o + 1)) (cov : Mat n n) (hc : cov.PosDef)
    (hz : Standard E fun k => normal ((fun k => (split k).2)^[o + 1] k) nS n) :
    ∃ r : Key → Arr2 nS n, (∀ k, sample la split normal k mean cov nS = .ok (r k)) ∧
      (∀ s i, E.E (fun k => r k s i) = mean i (Fin.last o)) ∧
      ∀ s i t j, E.E (fun k => (r k s i - mean i (Fin.last o)) * (r k t j - mean j (Fin.last o))) =
        if s = t then cov i j else 0 := by
  have h := affine_moments E _ hz (fun i => mean i (Fin.last o)) (la.cholesky cov)
  rw [(ex.cholesky cov hc).2.2] at h
  exact ⟨_, fun k => sample_succ la split normal k mean cov nS, h.1, h.2⟩

theorem psd_add_jitter {A : Mat n n} (h : A.PosSemidef) : (A + noiseJitter • (1 : Mat n n)).PosDef :=
  posDef_add_smul_one h jitter_pos'

/-- **C74**, prior of GPR. Whenever the normal generator delivers uncorrelated standard numbers, the draws of
`sample(kind='prior')` have mean zero and covariance `K + (sigma² + 1e-10) I`, and different samples are
uncorrelated. For every kernel expression with admissible hyperparameters and every dataset. -/
theorem C74_gpr_prior (ex : la.Exact) (e : KExpr (d + 1)) (θ : GPParams) (h : Admissible e θ.kernelParams)
    (split : Key → Key × Key) (normal : Key → (r n : ℕ) → Arr2 r n) (E : Expectation Key) (x : Batch n (d + 1))
    (nS : ℕ) (hz : Standard E fun k => normal ((fun k => (split k).2)^[d + 1] k) nS n) :
    ∃ r : Key → Arr2 nS n, (∀ k, gprSamplePrior la split normal θ e.obj k x nS = .ok (r k)) ∧
      (∀ s i, E.E (fun k => r k s i) = 0) ∧
      ∀ s i t j, E.E (fun k => r k s i * r k t j) =
        if s = t then e.obj.k θ.kernelParams x x i j + (if i = j then θ.sigma ^ 2 + 1 / 10 ^ 10 else 0) else 0 := by
  obtain ⟨r, h1, h2, h3⟩ := sample_moments ex split normal E nS (0 : Mat n (d + 1)) _
    (aLhsNoise_posDef e θ h x) hz
  refine ⟨r, h1, h2, fun s i t j => ?_⟩
  have := h3 s i t j
  simp only [Matrix.zero_apply, sub_zero] at this
  rw [this]
  simp [aLhsNoise, aLhs, GPParams.noise, noiseJitter, Matrix.one_apply]

/-- **C74**, posterior of GPR with one output: mean and covariance are those returned by
`predict(full_covariance=True)`, with `1e-10` added to the diagonal. -/
theorem C74_gpr_posterior (ex : la.Exact) (e : KExpr d) (θ : GPParams) (h : Admissible e θ.kernelParams)
    (split : Key → Key × Key) (normal : Key → (r n : ℕ) → Arr2 r n) (E : Expectation Key) (xt : Batch m d)
    (c : Mat m 1) (mu : ℝ) (x : Batch n d) (nS : ℕ)
    (hz : Standard E fun k => normal (split k).2 nS n) :
    ∃ r : Key → Arr2 nS n,
      (∀ k, gprSamplePosterior la split normal θ e.obj true xt c mu k x nS = .ok (r k)) ∧
      (∀ s i, E.E (fun k => r k s i) = predictDense θ e.obj xt x c mu i 0) ∧
      ∀ s i t j, E.E (fun k => (r k s i - predictDense θ e.obj xt x c mu i 0) *
          (r k t j - predictDense θ e.obj xt x c mu j 0)) =
        if s = t then predictDenseCov la θ e.obj xt x i j + (if i = j then 1 / 10 ^ 10 else 0) else 0 := by
  obtain ⟨r, h1, h2, h3⟩ := sample_moments ex split normal E nS (predictDense θ e.obj xt x c mu) _
    (psd_add_jitter (C33_posterior_covariance ex e θ h xt x).1) hz
  refine ⟨r, h1, h2, fun s i t j => (h3 s i t j).trans ?_⟩
  simp [noiseJitter, Matrix.one_apply]

/-- **C74**, posterior of SGPR with one output. -/
theorem C74_sgpr_posterior (ex : la.Exact) (e : KExpr d) (θ : GPParams) (h : Admissible e θ.kernelParams)
    (split : Key → Key × Key) (normal : Key → (r n : ℕ) → Arr2 r n) (E : Expectation Key) (xl : Batch m d)
    (c : Mat m 1) (mu : ℝ) (x : Batch n d) (nS : ℕ)
    (hz : Standard E fun k => normal (split k).2 nS n) :
    ∃ r : Key → Arr2 nS n,
      (∀ k, sgprSamplePosterior la split normal θ e.obj true xl c mu k x nS = .ok (r k)) ∧
      (∀ s i, E.E (fun k => r k s i) = sgprPredict θ e.obj xl x c mu i 0) ∧
      ∀ s i t j, E.E (fun k => (r k s i - sgprPredict θ e.obj xl x c mu i 0) *
          (r k t j - sgprPredict θ e.obj xl x c mu j 0)) =
        if s = t then sgprPredictCov la θ e.obj xl x i j + (if i = j then 1 / 10 ^ 10 else 0) else 0 := by
  obtain ⟨r, h1, h2, h3⟩ := sample_moments ex split normal E nS (sgprPredict θ e.obj xl x c mu) _
    (psd_add_jitter (C49_covariance_posSemidef ex e θ h xl x).1) hz
  refine ⟨r, h1, h2, fun s i t j => (h3 s i t j).trans ?_⟩
  simp [noiseJitter, Matrix.one_apply]

/-- **C74**, posterior of GPR fitted on derivatives, for any number of components, whenever the joint derivative Gram
matrix is positive semidefinite (C65). -/
theorem C74_gpr_posterior_derivs (ex : la.Exact) (κ : KernelObj d) (θ : GPParams)
    (split : Key → Key × Key) (normal : Key → (r n : ℕ) → Arr2 r n) (E : Expectation Key) (xt : Batch m d)
    (Jt : Jac m d w) (c : Mat (m * w) 1) (x : Batch n d) (J : Jac n d v) (nS : ℕ)
    (h : (Matrix.fromBlocks (Matrix.of (κ.d01kj θ.kernelParams xt xt Jt Jt))
      (Matrix.of (κ.d01kj θ.kernelParams xt x Jt J)) (Matrix.of (κ.d01kj θ.kernelParams xt x Jt J)).transpose
      (Matrix.of (κ.d01kj θ.kernelParams x x J J))).PosSemidef)
    (hz : Standard E fun k => normal (split k).2 nS (n * v)) :
    ∃ r : Key → Arr2 nS (n * v),
      (∀ k, gprSamplePosteriorDerivs la split normal θ κ true xt Jt c k x J nS = .ok (r k)) ∧
      (∀ s i u, E.E (fun k => r k s (flat i u)) = predictDerivsDense θ κ xt Jt x J c 0 i u) ∧
      ∀ s i t j, E.E (fun k => (r k s i - predictDerivsFlat θ κ xt Jt x J c 0 i 0) *
          (r k t j - predictDerivsFlat θ κ xt Jt x J c 0 j 0)) =
        if s = t then predictDerivsDenseCov la θ κ xt Jt x J i j + (if i = j then 1 / 10 ^ 10 else 0) else 0 := by
  have hK : (Matrix.of (κ.d01kj θ.kernelParams xt xt Jt Jt)).PosSemidef := h.submatrix (Sum.inl : Fin (m * w) → _)
  have hp : (aDerivsLhsNoise θ κ xt Jt xt Jt).PosDef := posDef_add_smul_one hK (noise_pos θ)
  have hc : (predictDerivsDenseCov la θ κ xt Jt x J).PosSemidef := by
    unfold predictDerivsDenseCov
    simp only
    rw [ex.gram hp]
    exact schur_psd hp _ _ (blocks_noise (noise_pos θ).le h)
  obtain ⟨r, h1, h2, h3⟩ := sample_moments ex split normal E nS (predictDerivsFlat θ κ xt Jt x J c 0) _
    (psd_add_jitter hc) hz
  refine ⟨r, h1, fun s i u => (h2 s (flat i u)).trans ?_, fun s i t j => (h3 s i t j).trans ?_⟩
  · simp only [predictDerivsDense, unflatCol, Matrix.of_apply, prod_flat]
    rfl
  · simp [noiseJitter, Matrix.one_apply]

/-- A draw whose covariance has as many rows as the mean after a renaming of the size. -/
theorem sample_moments_cast (ex : la.Exact) (split : Key → Key × Key) (normal : Key → (r n : ℕ) → Arr2 r n)
    (E : Expectation Key) (nS : ℕ) (mean : Mat n (o + 1)) (cov : Mat N N) (hN : n = N) (hc : cov.PosDef)
    (hz : Standard E fun k => normal ((fun k => (split k).2)^[o + 1] k) nS n) :
    ∃ r : Key → Arr2 nS n, (∀ k, sample la split normal k mean cov nS = .ok (r k)) ∧
      (∀ s i, E.E (fun k => r k s i) = mean i (Fin.last o)) ∧
      ∀ s i t j, E.E (fun k => (r k s i - mean i (Fin.last o)) * (r k t j - mean j (Fin.last o))) =
        if s = t then cov (Fin.cast hN i) (Fin.cast hN j) else 0 := by
  subst hN
  exact sample_moments ex split normal E nS mean cov hc hz

theorem cast_flat_zero (i : Fin n) : Fin.cast (mul_one n).symm i = flat i (0 : Fin 1) := by
  apply Fin.ext
  simp [flat]

/-- **C74**, derivatives of one component drawn from the prior of GPR: mean zero, and the covariance of the
derivatives plus `sigma² + 1e-10` on the diagonal. -/
theorem C74_gpr_prior_derivs (ex : la.Exact) (κ : KernelObj (d + 1)) (θ : GPParams)
    (split : Key → Key × Key) (normal : Key → (r n : ℕ) → Arr2 r n) (E : Expectation Key) (x : Batch n (d + 1))
    (J : Jac n (d + 1) 1) (nS : ℕ) (h : (Matrix.of (κ.d01kj θ.kernelParams x x J J)).PosSemidef)
    (hz : Standard E fun k => normal ((fun k => (split k).2)^[d + 1] k) nS n) :
    ∃ r : Key → Arr2 nS n, (∀ k, gprSamplePriorDerivs la split normal θ κ k x J nS = .ok (r k)) ∧
      (∀ s i, E.E (fun k => r k s i) = 0) ∧
      ∀ s i t j, E.E (fun k => r k s i * r k t j) =
        if s = t then κ.d01kj θ.kernelParams x x J J (flat i 0) (flat j 0) +
          (if i = j then θ.sigma ^ 2 + 1 / 10 ^ 10 else 0) else 0 := by
  obtain ⟨r, h1, h2, h3⟩ := sample_moments_cast ex split normal E nS (0 : Mat n (d + 1))
    (aDerivsLhsNoise θ κ x J x J) (mul_one n).symm (posDef_add_smul_one h (noise_pos θ)) hz
  refine ⟨r, h1, h2, fun s i t j => ?_⟩
  have := h3 s i t j
  simp only [Matrix.zero_apply, sub_zero] at this
  rw [this, cast_flat_zero, cast_flat_zero]
  have hf : (flat i (0 : Fin 1) = flat j (0 : Fin 1)) ↔ i = j := by
    constructor
    · intro hij
      simpa using congrArg Fin.divNat hij
    · rintro rfl; rfl
  simp [aDerivsLhsNoise, aDerivsLhs, GPParams.noise, noiseJitter, Matrix.one_apply, hf]

/-- What SGPR draws from the prior of the derivatives of one component: the noise is `sigma + 1e-10`, not
`sigma² + 1e-10` (the same defect as C51). -/
theorem C51_sgpr_derivs (ex : la.Exact) (κ : KernelObj (d + 1)) (θ : GPParams) (hs : 0 ≤ θ.sigma)
    (split : Key → Key × Key) (normal : Key → (r n : ℕ) → Arr2 r n) (E : Expectation Key) (x : Batch n (d + 1))
    (J : Jac n (d + 1) 1) (nS : ℕ) (h : (Matrix.of (κ.d01kj θ.kernelParams x x J J)).PosSemidef)
    (hz : Standard E fun k => normal ((fun k => (split k).2)^[d + 1] k) nS n) :
    ∃ r : Key → Arr2 nS n, (∀ k, sgprSamplePriorDerivs la split normal θ κ k x J nS = .ok (r k)) ∧
      (∀ s i, E.E (fun k => r k s i) = 0) ∧
      ∀ s i t j, E.E (fun k => r k s i * r k t j) =
        if s = t then κ.d01kj θ.kernelParams x x J J (flat i 0) (flat j 0) +
          (if i = j then θ.sigma + 1 / 10 ^ 10 else 0) else 0 := by
  have hp : ((Matrix.of (κ.d01kj θ.kernelParams x x J J) : Mat (n * 1) (n * 1)) +
      θ.sigma • (1 : Mat (n * 1) (n * 1)) + noiseJitter • (1 : Mat (n * 1) (n * 1))).PosDef := by
    rw [add_assoc, ← add_smul]
    exact posDef_add_smul_one h (by unfold noiseJitter; positivity)
  obtain ⟨r, h1, h2, h3⟩ := sample_moments_cast ex split normal E nS (0 : Mat n (d + 1))
    _ (mul_one n).symm hp hz
  refine ⟨r, h1, h2, fun s i t j => ?_⟩
  have := h3 s i t j
  simp only [Matrix.zero_apply, sub_zero] at this
  rw [this, cast_flat_zero, cast_flat_zero]
  have hf : (flat i (0 : Fin 1) = flat j (0 : Fin 1)) ↔ i = j := by
    constructor
    · intro hij
      simpa using congrArg Fin.divNat hij
    · rintro rfl; rfl
  by_cases hij : i = j <;> simp [noiseJitter, hf, hij, add_assoc]

/-- **C74**, derivatives of one component drawn from the posterior of SGPR fitted on derivatives: mean and covariance
are those returned by `predict_derivs(full_covariance=True)`, with `1e-10` added to the diagonal. -/
theorem C74_sgpr_posterior_derivs (ex : la.Exact) (κ : KernelObj d) (θ : GPParams)
    (split : Key → Key × Key) (normal : Key → (r n : ℕ) → Arr2 r n) (E : Expectation Key) (xl : Batch m d)
    (Jl : Jac m d 1) (c : Mat (m * 1) 1) (x : Batch n d) (J : Jac n d 1) (nS : ℕ)
    (h : (Matrix.fromBlocks (Matrix.of (κ.d01kj θ.kernelParams xl xl Jl Jl))
      (Matrix.of (κ.d01kj θ.kernelParams xl x Jl J)) (Matrix.of (κ.d01kj θ.kernelParams xl x Jl J)).transpose
      (Matrix.of (κ.d01kj θ.kernelParams x x J J))).PosSemidef)
    (hz : Standard E fun k => normal (split k).2 nS n) :
    ∃ (C : Mat (n * 1) (n * 1)) (r : Key → Arr2 nS n), sgprPredictDerivsCov la θ κ xl Jl x J = .ok C ∧
      (∀ k, sgprSamplePosteriorDerivs la split normal θ κ true xl Jl c k x J nS = .ok (r k)) ∧
      (∀ s i, E.E (fun k => r k s i) = sgprPredictDerivs θ κ xl Jl x J c 0 i 0) ∧
      ∀ s i t j, E.E (fun k => (r k s i - sgprPredictDerivs θ κ xl Jl x J c 0 i 0) *
          (r k t j - sgprPredictDerivs θ κ xl Jl x J c 0 j 0)) =
        if s = t then C (flat i 0) (flat j 0) + (if i = j then 1 / 10 ^ 10 else 0) else 0 := by
  obtain ⟨⟨C, hC, hCp⟩, -⟩ := C72_one_component_partial ex κ θ zeroMean xl Jl x J 0 h
  obtain ⟨r, h1, h2, h3⟩ := sample_moments_cast ex split normal E nS (sgprPredictDerivs θ κ xl Jl x J c 0)
    _ (mul_one n).symm (psd_add_jitter hCp) hz
  refine ⟨C, r, hC, fun k => ?_, h2, fun s i t j => (h3 s i t j).trans ?_⟩
  · unfold sgprSamplePosteriorDerivs
    rw [hC]
    exact h1 k
  · rw [cast_flat_zero, cast_flat_zero]
    have hf : (flat i (0 : Fin 1) = flat j (0 : Fin 1)) ↔ i = j := by
      constructor
      · intro hij
        simpa using congrArg Fin.divNat hij
      · rintro rfl; rfl
    simp [noiseJitter, Matrix.one_apply, hf]

/-- **C74**, unfitted models: sampling from the posterior raises, and so does an unknown kind. -/
theorem C74_unfitted (la : LinAlg) (κ : KernelObj d) (θ : GPParams) (split : Key → Key × Key)
    (normal : Key → (r n : ℕ) → Arr2 r n) (xt : Batch m d) (c : Mat m o) (mu : ℝ) (key : Key) (x : Batch n d)
    (nS : ℕ) (kind : String) (prior : Except Err (Arr2 nS n)) (hk : kind ≠ "prior") :
    ∃ err, sampleKind kind prior (gprSamplePosterior la split normal θ κ false xt c mu key x nS) = .error err ∧
      sampleKind kind prior (sgprSamplePosterior la split normal θ κ false xt c mu key x nS) = .error err ∧
      (err = .runtimeError ↔ kind = "posterior") := by
  by_cases h : kind = "posterior"
  · subst h
    exact ⟨.runtimeError, rfl, rfl, by simp⟩
  · exact ⟨.valueError, by simp [sampleKind, hk, h], by simp [sampleKind, hk, h], by simp [h]⟩

/-- Non-vacuity of the moment hypothesis: a fair coin giving `±1`. -/
noncomputable def coin : Expectation Bool where
  E f := (f true + f false) / 2
  add f g := by ring
  smul c f := by ring
  const c := by ring

example : Standard coin (fun k => (fun (b : Bool) (r n : ℕ) (_ : Fin r) (_ : Fin n) => if b then (1 : ℝ) else -1)
    ((fun k : Bool => ((k, k).2))^[3] k) 1 1) := by
  constructor
  · intro s i; simp [coin]
  · intro s i t j; simp [coin, Subsingleton.elim s t, Subsingleton.elim i j]

/-! ## C75 -/

/-- The full claim of C75: derivatives can be sampled from the prior and, for a fitted model, from the posterior. -/
def C75_full : Prop :=
  ∀ (d : ℕ) (e : KExpr (d + 1)), ∀ (θ : GPParams), Admissible e θ.kernelParams →
    ∀ (la : LinAlg), la.Exact → ∀ (Key : Type) (split : Key → Key × Key) (normal : Key → (r n : ℕ) → Arr2 r n)
      (key : Key) (m n v : ℕ) (xt : Batch m (d + 1)) (Jt : Jac m (d + 1) v) (c : Mat (m * v) 1)
      (x : Batch n (d + 1)) (J : Jac n (d + 1) v) (nS : ℕ), 2 ≤ n → 1 ≤ v →
      (∃ r, gprSamplePriorDerivs la split normal θ e.obj key x J nS = .ok r) ∧
      (∃ r, gprSamplePosteriorDerivs la split normal θ e.obj true xt Jt c key x J nS = .ok r) ∧
      (∃ r, sgprSamplePriorDerivs la split normal θ e.obj key x J nS = .ok r) ∧
      (∃ r, sgprSamplePosteriorDerivs la split normal θ e.obj true xt Jt c key x J nS = .ok r)

/-- What happens with two or more components: prior sampling raises for both models, and so does posterior sampling
of SGPR, for every kernel and data. -/
theorem C75_raises (la : LinAlg) (κ : KernelObj (d + 1)) (θ : GPParams) (split : Key → Key × Key)
    (normal : Key → (r n : ℕ) → Arr2 r n) (key : Key) (xl : Batch m (d + 1)) (Jl : Jac m (d + 1) w)
    (c : Mat (m * w) 1) (x : Batch n (d + 1)) (J : Jac n (d + 1) v) (nS : ℕ) (hn : 2 ≤ n) (hv : 2 ≤ v) :
    gprSamplePriorDerivs la split normal θ κ key x J nS = .error .valueError ∧
    sgprSamplePriorDerivs la split normal θ κ key x J nS = .error .valueError ∧
    ∃ err, sgprSamplePosteriorDerivs la split normal θ κ true xl Jl c key x J nS = .error err := by
  have h : n ≠ n * v := by nlinarith
  refine ⟨sample_shape _ _ _ _ _ _ _ h, sample_shape _ _ _ _ _ _ _ h, ?_⟩
  unfold sgprSamplePosteriorDerivs
  rcases hC : sgprPredictDerivsCov la θ κ xl Jl x J with err | C
  · exact ⟨err, by simp⟩
  · obtain ⟨v', rfl⟩ : ∃ v', v = v' + 1 := ⟨v - 1, by omega⟩
    refine ⟨.valueError, ?_⟩
    simp only [Bool.not_true, Bool.false_eq_true, if_false]
    exact sample_shape _ _ _ _ _ _ _ h

theorem C75_false : ¬ C75_full := by
  intro h
  obtain ⟨⟨r, hr⟩, -⟩ := h 0 (.linear none) ⟨fun _ => 1, 1⟩ trivial LinAlg.ideal LinAlg.ideal_exact Unit
    (fun k => (k, k)) (fun _ _ _ _ _ => 1) () 2 2 2 (fun _ _ => 1) (fun _ _ _ => 1) 0 (fun _ _ => 1)
    (fun _ _ _ => 1) 1 le_rfl (by norm_num)
  have := (C75_raises LinAlg.ideal (KExpr.linear none : KExpr 1).obj ⟨fun _ => 1, 1⟩ (fun k : Unit => (k, k))
    (fun _ _ _ _ _ => 1) () (fun _ _ => 1 : Batch 2 1) (fun _ _ _ => 1 : Jac 2 1 2) 0 (fun _ _ => 1 : Batch 2 1)
    (fun _ _ _ => 1 : Jac 2 1 2) 1 le_rfl le_rfl).1
  rw [this] at hr
  cases hr

/-- **C75** for the posterior of GPR: derivatives of any number of components are sampled, one value per sample and
component (see C74 for their moments). -/
theorem C75_gpr_posterior_partial (la : LinAlg) (κ : KernelObj d) (θ : GPParams) (split : Key → Key × Key)
    (normal : Key → (r n : ℕ) → Arr2 r n) (key : Key) (xt : Batch m d) (Jt : Jac m d w)
    (c : Mat (m * w) 1) (x : Batch n d) (J : Jac n d v) (nS : ℕ) :
    ∃ r : Arr2 nS (n * v), gprSamplePosteriorDerivs la split normal θ κ true xt Jt c key x J nS = .ok r :=
  ⟨_, sample_succ la split normal key _ _ nS⟩

/-- **C75** with one component: all samplers return a value. -/
theorem C75_one_component_partial (la : LinAlg) (κ : KernelObj (d + 1)) (θ : GPParams) (split : Key → Key × Key)
    (normal : Key → (r n : ℕ) → Arr2 r n) (key : Key) (xl : Batch m (d + 1)) (Jl : Jac m (d + 1) 1)
    (c : Mat (m * 1) 1) (x : Batch n (d + 1)) (J : Jac n (d + 1) 1) (nS : ℕ) :
    (∃ r, gprSamplePriorDerivs la split normal θ κ key x J nS = .ok r) ∧
    (∃ r, sgprSamplePriorDerivs la split normal θ κ key x J nS = .ok r) ∧
    (∃ r, sgprSamplePosteriorDerivs la split normal θ κ true xl Jl c key x J nS = .ok r) := by
  have key1 : ∀ {o N : ℕ} (mean : Mat n (o + 1)) (cov : Mat N N), n = N →
      ∃ r, sample la split normal key mean cov nS = .ok r := by
    intro o N mean cov h
    subst h
    exact ⟨_, sample_succ la split normal key mean cov nS⟩
  refine ⟨key1 _ _ (mul_one n).symm, key1 _ _ (mul_one n).symm, ?_⟩
  unfold sgprSamplePosteriorDerivs sgprPredictDerivsCov addEye
  simp only [mul_one, if_true, Bool.not_true, Bool.false_eq_true, if_false]
  exact key1 _ _ (mul_one n).symm

end GPX.Props
