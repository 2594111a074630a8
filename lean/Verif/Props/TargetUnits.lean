import Verif.Props.Bounded
import Verif.Props.Likelihood

/-!
# C141: the units of the targets, and C142: repeated measurements
-/

namespace GPX.Props
open GPX GPX.Spec

variable {d m n o r : ℕ} {la : LinAlg}

/-! ### C141 -/

/-- The parameters of a kernel `Constant() * k` when targets are multiplied by `s`: the variance is multiplied by
`s²`. -/
noncomputable def inTargetUnits (s : ℝ) (p : KPar) : KPar :=
  fun path => if path = ["kernel1", "variance"] then s ^ 2 * p path else p path

/-- A mean function that follows the units of the targets. -/
def MeanFun.Homogeneous (mf : MeanFun) : Prop := ∀ {n o : ℕ} (s : ℝ) (y : Mat n o), mf (s • y) = s * mf y

theorem homogeneous_zero : MeanFun.Homogeneous zeroMean := fun _ _ => by simp [zeroMean]

theorem homogeneous_data : MeanFun.Homogeneous dataMean := fun s y => by
  simp only [dataMean, Matrix.smul_apply, smul_eq_mul, ← Finset.mul_sum]
  ring

/-- **C141**, the full claim: a model whose kernel has a variance factor, trained on targets expressed in other units
(multiplied by `s`), with the variance multiplied by `s²` and the noise by `s`, predicts the same in the new units. -/
def C141_full : Prop :=
  ∀ (d : ℕ) (la : LinAlg), la.Exact → ∀ (a : Option (Dims d)) (e : KExpr d) (θ : GPParams),
    Admissible (.prod (.constant a) e) θ.kernelParams → ∀ s : ℝ, 0 < s → ∀ (m n o : ℕ) (xt : Batch m d) (y : Mat m o)
    (x : Batch n d),
    let E : KExpr d := .prod (.constant a) e
    let θ' : GPParams := ⟨inTargetUnits s θ.kernelParams, s * θ.sigma⟩
    let predict := fun (θ : GPParams) (y : Mat m o) =>
      predictDense θ E.obj xt x (fitDense la θ E.obj zeroMean xt y).1 (fitDense la θ E.obj zeroMean xt y).2
    predict θ' (s • y) = s • predict θ y

theorem k_in_units (a : Option (Dims d)) (e : KExpr d) (s : ℝ) (p : KPar) (x1 : Batch m d) (x2 : Batch n d) (i : Fin m)
    (j : Fin n) : (KExpr.prod (.constant a) e).obj.k (inTargetUnits s p) x1 x2 i j =
      s ^ 2 * (KExpr.prod (.constant a) e).obj.k p x1 x2 i j := by
  have h2 : (inTargetUnits s p).sub "kernel2" = p.sub "kernel2" := by
    funext path
    simp [KPar.sub, inTargetUnits]
  have h1 : ((inTargetUnits s p).sub "kernel1").val "variance" = s ^ 2 * (p.sub "kernel1").val "variance" := by
    simp [KPar.sub, KPar.val, inTargetUnits]
  simp only [KExpr.obj, KernelObj.prod, prodKernels, Arr2.mul, KernelObj.constant, constantK, h1, h2]
  ring

theorem admissible_in_units {a : Option (Dims d)} {e : KExpr d} {p : KPar} (s : ℝ)
    (h : Admissible (.prod (.constant a) e) p) : Admissible (.prod (.constant a) e) (inTargetUnits s p) := by
  have h2 : (inTargetUnits s p).sub "kernel2" = p.sub "kernel2" := by
    funext path
    simp [KPar.sub, inTargetUnits]
  have h1 : ((inTargetUnits s p).sub "kernel1").val "variance" = s ^ 2 * (p.sub "kernel1").val "variance" := by
    simp [KPar.sub, KPar.val, inTargetUnits]
  refine ⟨?_, ?_⟩
  · have := h.1
    simp only [Admissible] at this ⊢
    rw [h1]
    positivity
  · rw [h2]; exact h.2

theorem centerBy_smul (s mu : ℝ) (y : Mat n o) : centerBy (s • y) (s * mu) = s • centerBy y mu := by
  ext i c
  simp [centerBy]
  ring

/-- **C141**, part: the claim holds exactly when the noise with its jitter is what scales,
`sigma'² + 1e-10 = s² (sigma² + 1e-10)`: predictions are multiplied by `s`, the posterior covariance by `s²`, and the
log marginal likelihood per sample changes by `-log s` (the density of the rescaled targets). Missing: with
`sigma' = s sigma` the jitter does not scale. -/
theorem C141_units_partial (ex : la.Exact) (a : Option (Dims d)) (e : KExpr d) (θ θ' : GPParams)
    (h : Admissible (.prod (.constant a) e) θ.kernelParams) (s : ℝ) (hs : 0 < s)
    (hp : θ'.kernelParams = inTargetUnits s θ.kernelParams)
    (hσ : θ'.sigma ^ 2 + 1 / 10 ^ 10 = s ^ 2 * (θ.sigma ^ 2 + 1 / 10 ^ 10)) (mf : MeanFun)
    (hmf : MeanFun.Homogeneous mf) (xt : Batch m d) (y : Mat m o) (x : Batch n d) :
    let E : KExpr d := .prod (.constant a) e
    let predict := fun (θ : GPParams) (y : Mat m o) =>
      predictDense θ E.obj xt x (fitDense la θ E.obj mf xt y).1 (fitDense la θ E.obj mf xt y).2
    predict θ' (s • y) = s • predict θ y ∧
    predictDenseCov la θ' E.obj xt x = s ^ 2 • predictDenseCov la θ E.obj xt x ∧
    (0 < m → lmlDense la θ' E.obj mf xt (s • y) = lmlDense la θ E.obj mf xt y - Real.log s) := by
  intro E predict
  have h' : Admissible E θ'.kernelParams := hp ▸ admissible_in_units s h
  have hn : θ'.noise = s ^ 2 * θ.noise := by rw [noise_val, noise_val, hσ]
  have hK : ∀ {m n : ℕ} (x1 : Batch m d) (x2 : Batch n d), aLhs θ' E.obj x1 x2 = s ^ 2 • aLhs θ E.obj x1 x2 := by
    intro m n x1 x2
    ext i j
    simp only [aLhs, Matrix.of_apply, Matrix.smul_apply, smul_eq_mul, hp]
    exact k_in_units a e s θ.kernelParams x1 x2 i j
  have hA : aLhsNoise θ' E.obj xt xt = s ^ 2 • aLhsNoise θ E.obj xt xt := by
    unfold aLhsNoise
    rw [hK, hn, smul_add, smul_smul]
  have hpos := aLhsNoise_posDef E θ h xt
  have hpos' := aLhsNoise_posDef E θ' h' xt
  have hs2 : s ^ 2 ≠ 0 := by positivity
  have hmu : mf (s • y) = s * mf y := hmf s y
  have hinv : (aLhsNoise θ' E.obj xt xt)⁻¹ = (s ^ 2)⁻¹ • (aLhsNoise θ E.obj xt xt)⁻¹ := by
    rw [hA]
    refine Matrix.inv_eq_right_inv ?_
    rw [Matrix.smul_mul, Matrix.mul_smul, smul_smul, mul_inv_cancel₀ hs2, one_smul,
      Matrix.mul_nonsing_inv _ (posDef_isUnit hpos)]
  refine ⟨?_, ?_, fun hm => ?_⟩
  · have hc : (fitDense la θ' E.obj mf xt (s • y)).1 = s⁻¹ • (fitDense la θ E.obj mf xt y).1 := by
      refine solve_unique (posDef_isUnit hpos') (ex.solve _ _ (posDef_isUnit hpos')) ?_
      have h1 : aLhsNoise θ E.obj xt xt * (fitDense la θ E.obj mf xt y).1 = centerBy y (mf y) :=
        ex.solve _ _ (posDef_isUnit hpos)
      rw [hA, Matrix.smul_mul, Matrix.mul_smul, h1, smul_smul]
      change _ = centerBy (s • y) (mf (s • y))
      rw [hmu, centerBy_smul]
      congr 1
      field_simp
    ext j b
    have e1 : predict θ' (s • y) j b = mf (s • y) +
        ((aLhs θ' E.obj xt x).transpose * (fitDense la θ' E.obj mf xt (s • y)).1) j b := rfl
    have e2 : (s • predict θ y) j b = s * (mf y +
        ((aLhs θ E.obj xt x).transpose * (fitDense la θ E.obj mf xt y).1) j b) := rfl
    rw [e1, e2, hc, hK, hmu, Matrix.transpose_smul, Matrix.smul_mul, Matrix.mul_smul, smul_smul, Matrix.smul_apply,
      smul_eq_mul]
    field_simp
  · rw [predictDenseCov_eq ex E θ' h', predictDenseCov_eq ex E θ h, hK, hK, hinv, Matrix.transpose_smul]
    simp only [Matrix.smul_mul, Matrix.mul_smul, smul_smul, smul_sub]
    congr 2
    field_simp
  · have hm' : (m : ℝ) ≠ 0 := by positivity
    have l1 := lmlTail_eq hpos' ex (centerBy (s • y) (mf (s • y)))
    have l2 := lmlTail_eq hpos ex (centerBy y (mf y))
    have hdet : Real.log (aLhsNoise θ' E.obj xt xt).det = m * (2 * Real.log s) +
        Real.log (aLhsNoise θ E.obj xt xt).det := by
      rw [hA, Matrix.det_smul, Real.log_mul (by positivity) hpos.det_pos.ne', Fintype.card_fin, Real.log_pow,
        Real.log_pow]
      norm_num
    have hq : ∀ c i j, centerBy (s • y) (mf (s • y)) i c * (aLhsNoise θ' E.obj xt xt)⁻¹ i j *
        centerBy (s • y) (mf (s • y)) j c =
        centerBy y (mf y) i c * (aLhsNoise θ E.obj xt xt)⁻¹ i j * centerBy y (mf y) j c := by
      intro c i j
      rw [hmu, centerBy_smul, hinv]
      simp only [Matrix.smul_apply, smul_eq_mul]
      field_simp
    simp only [hq, hdet] at l1
    have l3 : (m : ℝ) * lmlDense la θ' E.obj mf xt (s • y) = m * (lmlDense la θ E.obj mf xt y - Real.log s) := by
      change (m : ℝ) * lmlTail la (aLhsNoise θ' E.obj xt xt) (centerBy (s • y) (mf (s • y))) =
        m * (lmlTail la (aLhsNoise θ E.obj xt xt) (centerBy y (mf y)) - Real.log s)
      rw [mul_sub, l2]
      refine l1.trans ?_
      ring
    exact mul_left_cancel₀ hm' l3

/-- Predictions with two noises. -/
theorem predict_noise_diff (ex : la.Exact) (e : KExpr d) (θ : GPParams) (h : Admissible e θ.kernelParams)
    (mf : MeanFun) (xt : Batch m d) (y : Mat m o) (x : Batch n d) (j : Fin n) (b : Fin o) (z : ℝ) (hz : 0 < z) (c : Mat m o)
    (hc : (aLhs θ e.obj xt xt + z • (1 : Mat m m)) * c = centerBy y (mf y)) :
    ((mf y + ((aLhs θ e.obj xt x).transpose * c) j b) -
      predictDense θ e.obj xt x (fitDense la θ e.obj mf xt y).1 (fitDense la θ e.obj mf xt y).2 j b) ^ 2 ≤
    e.obj.k θ.kernelParams x x j j * (θ.noise - z) ^ 2 * (∑ i, (y i b - mf y) ^ 2) / (4 * θ.noise * z ^ 2) := by
  have hK := C22_gram_posSemidef e θ.kernelParams h xt
  have hn := noise_pos θ
  have hkx : 0 ≤ e.obj.k θ.kernelParams x x j j := (C22_gram_posSemidef e θ.kernelParams h x).diag_nonneg (i := j)
  have f1 := fit_column ex e θ h mf xt y b
  have g : ∀ i, (∑ l, (Matrix.of (e.obj.k θ.kernelParams xt xt) : Mat m m) i l * c l b) + z * c i b = y i b - mf y := by
    intro i
    have := congrFun (congrFun hc i) b
    rw [Matrix.add_mul, Matrix.smul_mul, Matrix.one_mul, Matrix.add_apply, Matrix.mul_apply] at this
    exact this
  set c0 := (fitDense la θ e.obj mf xt y).1 with hc0
  have h1 := (residual_column hK hz (fun i => c i b) (fun i => y i b - mf y) g).1
  have h2 := (residual_column hK hn (fun i => c i b - c0 i b) (fun i => (θ.noise - z) * c i b) (fun i => by
    have a1 := g i
    have a2 := f1 i
    simp only [mul_sub, Finset.sum_sub_distrib]
    linarith)).2
  have h3 := block_cauchy (joint_psd e θ.kernelParams h xt x) (fun i => c i b - c0 i b) j
  have e1 : (mf y + ((aLhs θ e.obj xt x).transpose * c) j b) -
      predictDense θ e.obj xt x c0 (fitDense la θ e.obj mf xt y).2 j b =
      ∑ i, (Matrix.of (e.obj.k θ.kernelParams xt x) : Mat m n) i j * (c i b - c0 i b) := by
    have : predictDense θ e.obj xt x c0 (fitDense la θ e.obj mf xt y).2 j b =
      mf y + ((aLhs θ e.obj xt x).transpose * c0) j b := rfl
    rw [this, Matrix.mul_apply, Matrix.mul_apply]
    simp only [mul_sub, Finset.sum_sub_distrib]
    simp only [Matrix.transpose_apply, aLhs]
    ring
  rw [e1, le_div_iff₀ (by positivity)]
  have e2 : ∑ i, ((θ.noise - z) * c i b) ^ 2 = (θ.noise - z) ^ 2 * ∑ i, c i b ^ 2 := by
    rw [Finset.mul_sum]; exact Finset.sum_congr rfl fun i _ => by ring
  rw [e2] at h2
  calc _ ≤ (e.obj.k θ.kernelParams x x j j * ∑ i, ∑ i', (c i b - c0 i b) *
          (Matrix.of (e.obj.k θ.kernelParams xt xt) : Mat m m) i i' * (c i' b - c0 i' b)) * (4 * θ.noise * z ^ 2) :=
        mul_le_mul_of_nonneg_right h3 (by positivity)
    _ = e.obj.k θ.kernelParams x x j j * z ^ 2 * (4 * θ.noise * ∑ i, ∑ i', (c i b - c0 i b) *
          (Matrix.of (e.obj.k θ.kernelParams xt xt) : Mat m m) i i' * (c i' b - c0 i' b)) := by ring
    _ ≤ e.obj.k θ.kernelParams x x j j * z ^ 2 * ((θ.noise - z) ^ 2 * ∑ i, c i b ^ 2) :=
        mul_le_mul_of_nonneg_left h2 (by positivity)
    _ = e.obj.k θ.kernelParams x x j j * (θ.noise - z) ^ 2 * (z ^ 2 * ∑ i, c i b ^ 2) := by ring
    _ ≤ _ := mul_le_mul_of_nonneg_left h1 (by positivity)

/-- **C141**, part: how wrong the claim can be. With `sigma' = s sigma`, the prediction in the new units divided by `s`
differs from the old one by at most (squares)
`k(x, x) (1e-10 (1 - 1/s²))² Σ (y - mu)² / (4 (sigma² + 1e-10) (sigma² + 1e-10/s²)²)`. -/
theorem C141_error_partial (ex : la.Exact) (a : Option (Dims d)) (e : KExpr d) (θ : GPParams)
    (h : Admissible (.prod (.constant a) e) θ.kernelParams) (s : ℝ) (hs : 0 < s) (mf : MeanFun)
    (hmf : MeanFun.Homogeneous mf) (xt : Batch m d) (y : Mat m o) (x : Batch n d) (j : Fin n) (b : Fin o) :
    let E : KExpr d := .prod (.constant a) e
    let θ' : GPParams := ⟨inTargetUnits s θ.kernelParams, s * θ.sigma⟩
    let predict := fun (θ : GPParams) (y : Mat m o) =>
      predictDense θ E.obj xt x (fitDense la θ E.obj mf xt y).1 (fitDense la θ E.obj mf xt y).2
    (predict θ' (s • y) j b / s - predict θ y j b) ^ 2 ≤
      E.obj.k θ.kernelParams x x j j * (1 / 10 ^ 10 * (1 - 1 / s ^ 2)) ^ 2 * (∑ i, (y i b - mf y) ^ 2) /
        (4 * (θ.sigma ^ 2 + 1 / 10 ^ 10) * (θ.sigma ^ 2 + 1 / 10 ^ 10 / s ^ 2) ^ 2) := by
  intro E θ' predict
  have h' : Admissible E θ'.kernelParams := admissible_in_units s h
  set z := θ.sigma ^ 2 + 1 / 10 ^ 10 / s ^ 2 with hz
  have hz0 : 0 < z := by positivity
  have hs2 : s ^ 2 ≠ 0 := by positivity
  have hn : θ'.noise = s ^ 2 * z := by
    rw [noise_val, hz]
    change (s * θ.sigma) ^ 2 + _ = _
    field_simp
  have hK : ∀ {m n : ℕ} (x1 : Batch m d) (x2 : Batch n d), aLhs θ' E.obj x1 x2 = s ^ 2 • aLhs θ E.obj x1 x2 := by
    intro m n x1 x2
    ext i j
    exact k_in_units a e s θ.kernelParams x1 x2 i j
  have hpos' := aLhsNoise_posDef E θ' h' xt
  have hmu : mf (s • y) = s * mf y := hmf s y
  have hsol : aLhsNoise θ' E.obj xt xt * (fitDense la θ' E.obj mf xt (s • y)).1 = centerBy (s • y) (mf (s • y)) :=
    ex.solve _ _ (posDef_isUnit hpos')
  have hc : (aLhs θ E.obj xt xt + z • (1 : Mat m m)) * (s • (fitDense la θ' E.obj mf xt (s • y)).1) =
      centerBy y (mf y) := by
    have e1 : aLhsNoise θ' E.obj xt xt = s ^ 2 • (aLhs θ E.obj xt xt + z • (1 : Mat m m)) := by
      unfold aLhsNoise
      rw [hK, hn, smul_add, smul_smul]
    rw [e1, Matrix.smul_mul, hmu, centerBy_smul] at hsol
    have := congrArg (fun M => s⁻¹ • M) hsol
    simp only [smul_smul, inv_mul_cancel₀ hs.ne', one_smul] at this
    rw [← this, Matrix.mul_smul]
    congr 1
    field_simp
  have key := predict_noise_diff ex E θ h mf xt y x j b z hz0 _ hc
  have e2 : predict θ' (s • y) j b / s = mf y +
      ((aLhs θ E.obj xt x).transpose * (s • (fitDense la θ' E.obj mf xt (s • y)).1)) j b := by
    have : predict θ' (s • y) j b = mf (s • y) +
      ((aLhs θ' E.obj xt x).transpose * (fitDense la θ' E.obj mf xt (s • y)).1) j b := rfl
    rw [this, hK, hmu, Matrix.transpose_smul, Matrix.smul_mul, Matrix.mul_smul, Matrix.smul_apply, Matrix.smul_apply,
      smul_eq_mul, smul_eq_mul]
    field_simp
  rw [e2]
  refine key.trans_eq ?_
  have e3 : θ.noise - z = 1 / 10 ^ 10 * (1 - 1 / s ^ 2) := by
    rw [noise_val, hz]; ring
  rw [e3, noise_val]

/-- Prediction from one training sample. -/
theorem predict_one (ex : la.Exact) (e : KExpr d) (θ : GPParams) (h : Admissible e θ.kernelParams) (xt x : Batch 1 d)
    (y : Mat 1 1) : predictDense θ e.obj xt x (fitDense la θ e.obj zeroMean xt y).1
      (fitDense la θ e.obj zeroMean xt y).2 0 0 =
      e.obj.k θ.kernelParams xt x 0 0 * (y 0 0 / (e.obj.k θ.kernelParams xt xt 0 0 + θ.noise)) := by
  have h1 := fit_column ex e θ h zeroMean xt y 0 0
  have h2 : 0 < e.obj.k θ.kernelParams xt xt 0 0 + θ.noise :=
    add_pos_of_nonneg_of_pos (C22_gram_posSemidef e θ.kernelParams h xt).diag_nonneg (noise_pos θ)
  have h3 := predict_sub_mu e θ xt x (fitDense la θ e.obj zeroMean xt y).1 (fitDense la θ e.obj zeroMean xt y).2 0 0
  have h4 : (fitDense la θ e.obj zeroMean xt y).2 = 0 := rfl
  rw [Fin.sum_univ_one] at h1 h3
  simp only [zeroMean, sub_zero, Matrix.of_apply] at h1
  rw [h4, sub_zero] at h3
  rw [h4, h3, Matrix.of_apply]
  congr 1
  rw [eq_div_iff h2.ne']
  linarith

/-- **C141** fails: the jitter `1e-10` added to the noise does not follow the units. One sample with target `1`, variance
`1`, no noise: the prediction at that sample is `1/(1 + 1e-10)`; with targets in units `1e5` times larger it is one
half. -/
theorem C141_false : ¬ C141_full := fun H => by
  let E : KExpr 1 := .prod (.constant none) (.constant none)
  let θ : GPParams := ⟨fun _ => 1, 0⟩
  have hadm : Admissible E θ.kernelParams := by simp [E, θ, Admissible, KPar.val, KPar.sub]
  have h := H 1 LinAlg.ideal LinAlg.ideal_exact none (.constant none) θ hadm (1 / 10 ^ 5) (by positivity) 1 1 1
    (fun _ _ => 0) (Matrix.of fun _ _ => 1) (fun _ _ => 0)
  have h := congrFun (congrFun h 0) 0
  have hk : ∀ x1 x2 : Batch 1 1, E.obj.k θ.kernelParams x1 x2 0 0 = 1 := fun x1 x2 => by
    simp [E, θ, KExpr.obj, KernelObj.prod, prodKernels, Arr2.mul, KernelObj.constant, constantK, KPar.val, KPar.sub]
  have hk' : ∀ x1 x2 : Batch 1 1, E.obj.k (inTargetUnits (1 / 10 ^ 5) θ.kernelParams) x1 x2 0 0 = (1 / 10 ^ 5) ^ 2 :=
    fun x1 x2 => by rw [k_in_units, hk, mul_one]
  have p1 := predict_one LinAlg.ideal_exact E ⟨inTargetUnits (1 / 10 ^ 5) θ.kernelParams, 1 / 10 ^ 5 * θ.sigma⟩
    (admissible_in_units _ hadm) (fun _ _ => 0) (fun _ _ => 0) ((1 / 10 ^ 5 : ℝ) • Matrix.of fun _ _ => 1)
  have p2 := predict_one LinAlg.ideal_exact E θ hadm (fun _ _ => 0) (fun _ _ => 0) (Matrix.of fun _ _ => 1)
  have h := p1.symm.trans (h.trans (congrArg (fun t => (1 / 10 ^ 5 : ℝ) * t) p2))
  simp only [hk, hk', noise_val, Matrix.smul_apply, Matrix.of_apply, smul_eq_mul, θ] at h
  norm_num at h

/-- Non-vacuity: a kernel with a variance factor, and noises satisfying the exact condition (kilo-units). -/
example : Admissible (.prod (.constant none) (.matern52 none) : KExpr 2) (fun _ => 1) ∧
    ∃ σ' : ℝ, σ' ^ 2 + 1 / 10 ^ 10 = (1000 : ℝ) ^ 2 * ((1 / 10 : ℝ) ^ 2 + 1 / 10 ^ 10) :=
  ⟨by simp [Admissible, KPar.val, KPar.sub], Real.sqrt (1000 ^ 2 * ((1 / 10 : ℝ) ^ 2 + 1 / 10 ^ 10) - 1 / 10 ^ 10), by
    rw [Real.sq_sqrt (by norm_num)]; norm_num⟩

/-! ### C142 -/

/-- Every sample repeated `r` times: sample `i`, copy `u` is the row `flat i u`. -/
def repeated (r : ℕ) (x : Batch m d) : Batch (m * r) d := fun s => x s.divNat

/-- Averages of the `r` measurements of each sample. -/
noncomputable def averages (Y : Mat (m * r) o) : Mat m o := Matrix.of fun i c => (∑ u, Y (flat i u) c) / r

/-- A mean function that gives the same on all measurements and on their averages. -/
def MeanFun.Averaging (mf : MeanFun) : Prop := ∀ {m r o : ℕ}, 0 < r → ∀ Y : Mat (m * r) o, mf Y = mf (averages Y)

theorem averaging_zero : MeanFun.Averaging zeroMean := fun _ _ => rfl

theorem averaging_data : MeanFun.Averaging dataMean := fun {m r o} hr Y => by
  have hr' : (r : ℝ) ≠ 0 := by positivity
  simp only [dataMean, averages, Matrix.of_apply, sum_flat, Nat.cast_mul]
  have : ∑ i : Fin m, ∑ c : Fin o, (∑ u, Y (flat i u) c) / (r : ℝ) = (∑ i, ∑ u, ∑ c, Y (flat i u) c) / r := by
    rw [Finset.sum_div]
    refine Finset.sum_congr rfl fun i _ => ?_
    rw [← Finset.sum_div, Finset.sum_comm]
  rw [this]
  field_simp

/-- Sums over the copies of the solution with all measurements solve the system of the averages. -/
theorem repeated_solve {K : Mat m m} {s : ℝ} (hr : 0 < r) {A : Mat (m * r) (m * r)}
    (hA : ∀ i u j v, A (flat i u) (flat j v) = K i j + if i = j ∧ u = v then s else 0) {C Y : Mat (m * r) o}
    (h : A * C = Y) : (K + (s / r) • (1 : Mat m m)) * (Matrix.of fun i c => ∑ u, C (flat i u) c) = averages Y := by
  have hr' : (r : ℝ) ≠ 0 := by positivity
  ext i c
  have row : ∀ u, (∑ j, K i j * ∑ v, C (flat j v) c) + s * C (flat i u) c = Y (flat i u) c := fun u => by
    have := congrFun (congrFun h (flat i u)) c
    rw [Matrix.mul_apply, sum_flat] at this
    rw [← this]
    simp only [hA, add_mul, Finset.sum_add_distrib, ite_mul, zero_mul, ite_and, Finset.mul_sum]
    congr 1
    rw [Finset.sum_eq_single i (fun j _ hj => by simp [hj.symm]) (by simp)]
    simp
  rw [Matrix.add_mul, Matrix.smul_mul, Matrix.one_mul, Matrix.add_apply, Matrix.mul_apply, Matrix.smul_apply]
  simp only [Matrix.of_apply, smul_eq_mul, averages]
  rw [eq_div_iff hr', ← Finset.sum_congr rfl fun u _ => row u, Finset.sum_add_distrib, Finset.sum_const,
    Finset.card_univ, Fintype.card_fin, nsmul_eq_mul, ← Finset.mul_sum]
  field_simp

/-- **C142.** Repeated measurements: training on `r` measurements of each sample, with noise variance
`sigma² + 1e-10`, gives the same predictions and the same posterior covariance as training once on the averages with a
noise `r` times smaller, `sigma'² + 1e-10 = (sigma² + 1e-10) / r`. For every kernel expression, inputs (repeated ones
included) and mean function that does not distinguish the two datasets (`zero_mean` and `data_mean` do not). -/
theorem C142_repeated (ex : la.Exact) (e : KExpr d) (θ θ' : GPParams) (h : Admissible e θ.kernelParams)
    (hp : θ'.kernelParams = θ.kernelParams) (hr : 0 < r)
    (hσ : θ'.sigma ^ 2 + 1 / 10 ^ 10 = (θ.sigma ^ 2 + 1 / 10 ^ 10) / r) (mf : MeanFun) (hmf : MeanFun.Averaging mf)
    (xt : Batch m d) (Y : Mat (m * r) o) (x : Batch n d) :
    (let all := fitDense la θ e.obj mf (repeated r xt) Y
     let avg := fitDense la θ' e.obj mf xt (averages Y)
     predictDense θ e.obj (repeated r xt) x all.1 all.2 = predictDense θ' e.obj xt x avg.1 avg.2) ∧
    predictDenseCov la θ e.obj (repeated r xt) x = predictDenseCov la θ' e.obj xt x := by
  obtain ⟨L, hL, hk⟩ := e.psd θ.kernelParams h
  have hr' : (r : ℝ) ≠ 0 := by positivity
  have h' : Admissible e θ'.kernelParams := hp ▸ h
  have hn : θ'.noise = θ.noise / r := by rw [noise_val, noise_val, hσ]
  set K : Mat m m := aLhs θ e.obj xt xt with hK
  have hA : ∀ i u j v, aLhsNoise θ e.obj (repeated r xt) (repeated r xt) (flat i u) (flat j v) =
      K i j + if i = j ∧ u = v then θ.noise else 0 := fun i u j v => by
    have : (flat i u = flat j v) ↔ (i = j ∧ u = v) := by
      constructor
      · intro h
        have h1 := congrArg Fin.divNat h
        have h2 := congrArg Fin.modNat h
        rw [flat_divNat, flat_divNat] at h1
        rw [flat_modNat, flat_modNat] at h2
        exact ⟨h1, h2⟩
      · rintro ⟨rfl, rfl⟩; rfl
    simp only [aLhsNoise, aLhs, hK, Matrix.add_apply, Matrix.of_apply, Matrix.smul_apply, Matrix.one_apply, smul_eq_mul,
      mul_ite, mul_one, mul_zero, this, hk, repeated, flat_divNat]
  have hA' : aLhsNoise θ' e.obj xt xt = K + (θ.noise / r) • (1 : Mat m m) := by
    unfold aLhsNoise
    rw [hn]
    simp only [aLhs, hK, hp]
  have hpos := aLhsNoise_posDef e θ h (repeated r xt)
  have hpos' := aLhsNoise_posDef e θ' h' xt
  have hB : ∀ i u j, aLhs θ e.obj (repeated r xt) x (flat i u) j = aLhs θ' e.obj xt x i j := fun i u j => by
    simp only [aLhs, Matrix.of_apply, hp, hk, repeated, flat_divNat]
  have hD : aLhs θ e.obj x x = aLhs θ' e.obj x x := by simp only [aLhs, hp]
  have key : ∀ {q : ℕ} (C Z : Mat (m * r) q), aLhsNoise θ e.obj (repeated r xt) (repeated r xt) * C = Z →
      ∀ c : Mat m q, aLhsNoise θ' e.obj xt xt * c = averages Z →
      (aLhs θ e.obj (repeated r xt) x).transpose * C = (aLhs θ' e.obj xt x).transpose * c := by
    intro q C Z hC c hc
    have h1 := repeated_solve hr hA hC
    rw [← hA'] at h1
    have h2 := solve_unique (posDef_isUnit hpos') h1 hc
    ext j b
    rw [Matrix.mul_apply, Matrix.mul_apply, sum_flat, ← h2]
    refine Finset.sum_congr rfl fun i _ => ?_
    simp only [Matrix.transpose_apply, hB, Matrix.of_apply, Finset.mul_sum]
  constructor
  · intro all avg
    have hmu : all.2 = avg.2 := hmf hr Y
    have h1 : aLhsNoise θ e.obj (repeated r xt) (repeated r xt) * all.1 = centerBy Y (mf Y) :=
      ex.solve _ _ (posDef_isUnit hpos)
    have h2 : aLhsNoise θ' e.obj xt xt * avg.1 = centerBy (averages Y) (mf (averages Y)) :=
      ex.solve _ _ (posDef_isUnit hpos')
    have h3 : centerBy (averages Y) (mf (averages Y)) = averages (centerBy Y (mf Y)) := by
      have : mf Y = mf (averages Y) := hmf hr Y
      rw [← this]
      ext i c
      simp only [averages, centerBy, Matrix.of_apply, Finset.sum_sub_distrib, Finset.sum_const, Finset.card_univ,
        Fintype.card_fin, nsmul_eq_mul]
      field_simp
    have := key all.1 _ h1 avg.1 (h2.trans h3)
    change addScalar all.2 ((aLhs θ e.obj (repeated r xt) x).transpose * all.1) =
      addScalar avg.2 ((aLhs θ' e.obj xt x).transpose * avg.1)
    rw [this, hmu]
  · rw [predictDenseCov_eq ex e θ h, predictDenseCov_eq ex e θ' h', hD]
    congr 1
    rw [Matrix.mul_assoc, Matrix.mul_assoc]
    refine key _ (aLhs θ e.obj (repeated r xt) x) ?_ _ ?_
    · rw [← Matrix.mul_assoc, Matrix.mul_nonsing_inv _ (posDef_isUnit hpos), Matrix.one_mul]
    · rw [← Matrix.mul_assoc, Matrix.mul_nonsing_inv _ (posDef_isUnit hpos'), Matrix.one_mul]
      ext i j
      simp only [averages, Matrix.of_apply, hB, Finset.sum_const, Finset.card_univ, Fintype.card_fin, nsmul_eq_mul]
      field_simp

/-- Non-vacuity: three measurements of two samples, with averages that differ from each measurement; and a noise
satisfying the condition. -/
example : averages (r := 3) (m := 2) (Matrix.of fun s _ => (s.val : ℝ) : Mat (2 * 3) 1) 1 0 = 4 ∧
    ∃ σ' : ℝ, σ' ^ 2 + 1 / 10 ^ 10 = ((1 / 10 : ℝ) ^ 2 + 1 / 10 ^ 10) / (3 : ℕ) := by
  refine ⟨?_, Real.sqrt (((1 / 10 : ℝ) ^ 2 + 1 / 10 ^ 10) / (3 : ℕ) - 1 / 10 ^ 10), ?_⟩
  · simp [averages, Fin.sum_univ_three, flat]
    norm_num
  · rw [Real.sq_sqrt (by norm_num)]; norm_num

end GPX.Props
