import Verif.Lemmas.Slope
import Verif.Props.WorstCase
import Verif.Props.SGPR

/-!
# C165: predictions vary no faster than the kernel

`Spec.kernelDist`: the squared distance of two inputs as the kernel sees them. `Spec.kslope`: a bound on it, read off the kernel expression,
in terms of the differences of the features.
-/

namespace GPX.Props
open GPX GPX.Spec Matrix

variable {d k m n o v v' w w' : ℕ} {la : LinAlg}

/-! ## The kernels -/

/-- **C165.** The kernels: for every sum and product, the squared distance of two inputs is at most `Σ_f slope_f (x_f - x'_f)²`, with the
slopes `2 / l²` for `SquaredExponential`, `3 / l²` for `Matern32`, `5 / (3 l²)` for `Matern52`, `8 π² / (l p²)` for `ExpSinSquared`, `1` for
`Linear`, times the number of times the feature is named in `active_dims`. -/
theorem C165_kernel (e : KExpr d) (p : KPar) (h : Admissible e p) (hs : SlopedExpr e) (x : Batch n d) (i j : Fin n) :
    0 ≤ kernelDist e.obj p x i j ∧ kernelDist e.obj p x i j ≤ ∑ f, kslope e p f * (x i f - x j f) ^ 2 := by
  refine ⟨?_, kernelDist_slope e p h hs x i j⟩
  have := (C22_gram_posSemidef e p h x).dotProduct_mulVec_nonneg (Pi.single i (1 : ℝ) - Pi.single j 1)
  rw [star_trivial, quad_diff] at this
  exact this

/-- **C165**, `Matern12`: the squared distance grows like the distance, not like its square. -/
theorem C165_kernel_matern12 (a : Option (Dims d)) (p : KPar) (hl : 0 < p.val "lengthscale") (x : Batch n d) (i j : Fin n) :
    kernelDist (KExpr.matern12 a).obj p x i j ≤ 2 * scaledDist (Dims.resolve a) (p.val "lengthscale") (x i) (x j) := by
  change kernelDist (KernelObj.matern12 a) p x i j ≤ _
  have h0 : ∀ {k : ℕ} (x : Fin k → ℝ), sqd (p.val "lengthscale") x x = 0 := fun x => by simp [sqd]
  simp only [kernelDist, (closedJ_m12 a p).k, Core.m12, h0, sqd_comm _ ((Dims.resolve a).take (x j))]
  rw [sqd_eq_scaledDist]
  set z := scaledDist (Dims.resolve a) (p.val "lengthscale") (x i) (x j)
  have hz : 0 ≤ z := Real.sqrt_nonneg _
  set D := Real.sqrt (max (z ^ 2 + sqDistJitter) maternFloor) with hD
  set D0 := Real.sqrt (max (0 + sqDistJitter) maternFloor) with hD0
  have h1 : D0 ≤ D := sqrt_clamp_mono (sq_nonneg z)
  have h2 : D ^ 2 - D0 ^ 2 ≤ z ^ 2 := clamp_sq_sub (sq_nonneg z)
  have h3 : 0 ≤ D0 := Real.sqrt_nonneg _
  have h4 : D - D0 ≤ z := by nlinarith
  have := exp_neg_sub_le h3 h1
  linarith

/-! ## The models -/

/-- The difference of two predictions of a regularised fit. -/
theorem weighted_predict_diff {I I' : Type} [Fintype I] [Fintype I'] [DecidableEq I'] {K : I → I → ℝ} {B : I → I' → ℝ}
    {D : I' → I' → ℝ} {s : I → ℝ} (hs : ∀ a, 0 < s a)
    (hB : (Matrix.fromBlocks (Matrix.of K) (Matrix.of B) (Matrix.of B).transpose (Matrix.of D)).PosSemidef)
    (c b : I → ℝ) (h : ∀ a, (∑ j, K a j * c j) + s a * c a = b a) (j j' : I') :
    (∑ a, B a j * c a - ∑ a, B a j' * c a) ^ 2 ≤ (D j j - D j j' - D j' j + D j' j') * (∑ a, b a ^ 2 / s a) / 4 := by
  have h1 := block_cauchy_diff hB c j j'
  have h2 := weighted_energy hs c b h
  have hD : 0 ≤ D j j - D j j' - D j' j + D j' j' := by
    have := (hB.submatrix Sum.inr).dotProduct_mulVec_nonneg (Pi.single j (1 : ℝ) - Pi.single j' 1)
    rw [star_trivial, quad_diff] at this
    exact this
  have e1 : ∑ i, ∑ i', c i * Matrix.of K i i' * c i' = ∑ a, c a * ∑ j, K a j * c j :=
    Finset.sum_congr rfl fun i _ => by rw [Finset.mul_sum]; exact Finset.sum_congr rfl fun i' _ => by rw [Matrix.of_apply]; ring
  rw [e1] at h1
  simp only [Matrix.of_apply] at h1
  have := mul_le_mul_of_nonneg_left h2 hD
  linarith

/-- **C165.** The predictions of GPR at two inputs: the square of their difference is at most the squared distance of the inputs as the
kernel sees them, times `Σ (y - mu)² / (4 (sigma² + 1e-10))`. For every kernel expression, training set, noise and mean function. -/
theorem C165_mean (ex : la.Exact) (e : KExpr d) (θ : GPParams) (h : Admissible e θ.kernelParams) (mf : MeanFun)
    (xt : Batch m d) (y : Mat m o) (x : Batch n d) (i j : Fin n) (a : Fin o) :
    let fit := fitDense la θ e.obj mf xt y
    let pred := predictDense θ e.obj xt x fit.1 fit.2
    (pred i a - pred j a) ^ 2 ≤
      kernelDist e.obj θ.kernelParams x i j * (∑ l, (y l a - mf y) ^ 2 / (θ.sigma ^ 2 + 1 / 10 ^ 10)) / 4 := by
  intro fit pred
  have key := weighted_predict_diff (s := fun _ => θ.noise) (fun _ => noise_pos θ) (joint_psd e θ.kernelParams h xt x)
    (fun l => fit.1 l a) (fun l => y l a - mf y) (fit_column ex e θ h mf xt y a) i j
  have e1 := predict_sub_mu e θ xt x fit.1 fit.2 i a
  have e2 := predict_sub_mu e θ xt x fit.1 fit.2 j a
  simp only [Matrix.of_apply] at e1 e2
  rw [← e1, ← e2, sub_sub_sub_cancel_right] at key
  simpa only [noise_val, kernelDist] using key

/-- **C165**, in terms of the inputs: predictions of GPR are Lipschitz, with a constant read off the kernel, the noise and the targets. -/
theorem C165_mean_inputs (ex : la.Exact) (e : KExpr d) (θ : GPParams) (h : Admissible e θ.kernelParams) (hs : SlopedExpr e)
    (mf : MeanFun) (xt : Batch m d) (y : Mat m o) (x : Batch n d) (i j : Fin n) (a : Fin o) :
    let fit := fitDense la θ e.obj mf xt y
    let pred := predictDense θ e.obj xt x fit.1 fit.2
    (pred i a - pred j a) ^ 2 ≤ (∑ f, kslope e θ.kernelParams f * (x i f - x j f) ^ 2) *
      (∑ l, (y l a - mf y) ^ 2 / (θ.sigma ^ 2 + 1 / 10 ^ 10)) / 4 := by
  intro fit pred
  have hn : 0 < θ.sigma ^ 2 + 1 / 10 ^ 10 := noise_pos θ
  refine (C165_mean ex e θ h mf xt y x i j a).trans ?_
  exact div_le_div_of_nonneg_right (mul_le_mul_of_nonneg_right (kernelDist_slope e _ h hs x i j)
    (Finset.sum_nonneg fun l _ => by positivity)) (by norm_num)

/-- **C165.** The predicted covariance: seen through it, two inputs are no further apart than through the kernel, and the predicted
standard deviations of two inputs differ by at most their distance. -/
theorem C165_std (ex : la.Exact) (e : KExpr d) (θ : GPParams) (h : Admissible e θ.kernelParams) (xt : Batch m d) (x : Batch n d)
    (i j : Fin n) :
    let C := predictDenseCov la θ e.obj xt x
    0 ≤ C i i - C i j - C j i + C j j ∧ C i i - C i j - C j i + C j j ≤ kernelDist e.obj θ.kernelParams x i j ∧
    (Real.sqrt (C i i) - Real.sqrt (C j j)) ^ 2 ≤ kernelDist e.obj θ.kernelParams x i j := by
  intro C
  obtain ⟨h1, h2, -⟩ := C33_posterior_covariance ex e θ h xt x
  have a1 := h1.dotProduct_mulVec_nonneg (Pi.single i (1 : ℝ) - Pi.single j 1)
  have a2 := h2.dotProduct_mulVec_nonneg (Pi.single i (1 : ℝ) - Pi.single j 1)
  rw [star_trivial, quad_diff] at a1 a2
  simp only [Matrix.sub_apply, Matrix.of_apply] at a2
  have b : C i i - C i j - C j i + C j j ≤ kernelDist e.obj θ.kernelParams x i j := by
    simp only [kernelDist]; linarith
  refine ⟨a1, b, le_trans ?_ b⟩
  have hsym : C j i = C i j := by simpa using h1.1.apply i j
  have hc := psd_cauchy h1 (Pi.single i 1) (Pi.single j 1)
  simp only [Matrix.mulVec_single_one, single_one_dotProduct, Matrix.col_apply] at hc
  have hi : 0 ≤ C i i := h1.diag_nonneg
  have hj : 0 ≤ C j j := h1.diag_nonneg
  have : C i j ≤ Real.sqrt (C i i) * Real.sqrt (C j j) := by
    rw [← Real.sqrt_mul hi]
    exact Real.le_sqrt_of_sq_le hc
  rw [hsym, sub_sq, Real.sq_sqrt hi, Real.sq_sqrt hj]
  linarith

/-- **C165**, in terms of the inputs: predicted standard deviations are Lipschitz, whatever the data. -/
theorem C165_std_inputs (ex : la.Exact) (e : KExpr d) (θ : GPParams) (h : Admissible e θ.kernelParams) (hs : SlopedExpr e)
    (xt : Batch m d) (x : Batch n d) (i j : Fin n) :
    let C := predictDenseCov la θ e.obj xt x
    |Real.sqrt (C i i) - Real.sqrt (C j j)| ≤ Real.sqrt (∑ f, kslope e θ.kernelParams f * (x i f - x j f) ^ 2) :=
  Real.abs_le_sqrt ((C165_std ex e θ h xt x i j).2.2.trans (kernelDist_slope e _ h hs x i j))

/-- **C165** for SGPR (the inducing points may be any): the same bound with the noise `sigma²`. -/
theorem C165_sgpr (ex : la.Exact) (e : KExpr d) (θ : GPParams) (h : Admissible e θ.kernelParams) (mf : MeanFun)
    (xl : Batch k d) (xt : Batch m d) (y : Mat m o) (x : Batch n d) (i j : Fin n) (a : Fin o) :
    let fit := sgprFitDense la θ e.obj mf xl xt y
    let pred := sgprPredict θ e.obj xl x fit.1 fit.2
    4 * θ.sigma ^ 2 * (pred i a - pred j a) ^ 2 ≤ kernelDist e.obj θ.kernelParams x i j * ∑ l, (y l a - mf y) ^ 2 := by
  intro fit pred
  obtain ⟨hmu, hc, -⟩ := C48_fit_solves ex e θ h mf xl xt y
  obtain ⟨L, hL, hk⟩ := e.psd θ.kernelParams h
  have hb := block_cauchy_diff (joint_psd e θ.kernelParams h xl x) (fun l => fit.1 l a) i j
  have hd : 0 ≤ kernelDist e.obj θ.kernelParams x i j := by
    have := (C22_gram_posSemidef e θ.kernelParams h x).dotProduct_mulVec_nonneg (Pi.single i (1 : ℝ) - Pi.single j 1)
    rw [star_trivial, quad_diff] at this
    exact this
  have hp : ∀ i, pred i a = fit.2 + ∑ l, e.obj.k θ.kernelParams xl x l i * fit.1 l a := fun i => by
    simp only [pred, sgprPredict, addScalar, Matrix.of_apply, Matrix.mul_apply, hk]
    congr 1
    exact Finset.sum_congr rfl fun l _ => by rw [hL.symm]
  -- the energy of the coefficients
  have he : 4 * θ.sigma ^ 2 * (∑ l, ∑ l', fit.1 l a * e.obj.k θ.kernelParams xl xl l l' * fit.1 l' a) ≤ ∑ l, (y l a - mf y) ^ 2 := by
    obtain ⟨F, hF⟩ : ∃ F : Fin m → ℝ, F = fun s => ∑ l, e.obj.k θ.kernelParams xl xt l s * fit.1 l a := ⟨_, rfl⟩
    have hFs : ∀ s, ∑ l, e.obj.k θ.kernelParams xl xt l s * fit.1 l a = F s := fun s => by rw [hF]
    have h1 : ∑ l, fit.1 l a * ∑ l', sparseEntry e.obj θ xl xt l l' * fit.1 l' a =
        ∑ l, fit.1 l a * ∑ s, e.obj.k θ.kernelParams xl xt l s * (y s a - mf y) :=
      Finset.sum_congr rfl fun l _ => by rw [hc l a, hmu]
    have h2 : ∑ l, fit.1 l a * ∑ s, e.obj.k θ.kernelParams xl xt l s * (y s a - mf y) = ∑ s, F s * (y s a - mf y) := by
      simp only [Finset.mul_sum]
      rw [Finset.sum_comm]
      refine Finset.sum_congr rfl fun s _ => ?_
      rw [← hFs, Finset.sum_mul]
      exact Finset.sum_congr rfl fun l _ => by ring
    have h3 : ∑ l, fit.1 l a * ∑ l', sparseEntry e.obj θ xl xt l l' * fit.1 l' a =
        θ.sigma ^ 2 * (∑ l, ∑ l', fit.1 l a * e.obj.k θ.kernelParams xl xl l l' * fit.1 l' a) + ∑ s, F s ^ 2 +
          1 / 10 ^ 10 * ∑ l, fit.1 l a ^ 2 := by
      have t1 : ∑ s, F s ^ 2 = ∑ l, ∑ l', fit.1 l a * ((∑ s, e.obj.k θ.kernelParams xl xt l s * e.obj.k θ.kernelParams xl xt l' s) *
          fit.1 l' a) := by
        simp only [← hFs, sq, Finset.sum_mul, Finset.mul_sum]
        rw [Finset.sum_comm]
        refine Finset.sum_congr rfl fun l _ => ?_
        rw [Finset.sum_comm]
        exact Finset.sum_congr rfl fun l' _ => Finset.sum_congr rfl fun s _ => by ring
      rw [t1]
      simp only [sparseEntry, add_mul, Finset.sum_add_distrib, mul_add, Finset.mul_sum, ite_mul, zero_mul, Finset.sum_ite_eq,
        Finset.mem_univ, if_true]
      congr 1
      · congr 1
        exact Finset.sum_congr rfl fun l _ => Finset.sum_congr rfl fun l' _ => by ring
      · exact Finset.sum_congr rfl fun l _ => by ring
    have h4 : 0 ≤ ∑ s, ((y s a - mf y) - 2 * F s) ^ 2 := Finset.sum_nonneg fun _ _ => sq_nonneg _
    have h5 : ∑ s, ((y s a - mf y) - 2 * F s) ^ 2 = ∑ s, (y s a - mf y) ^ 2 - 4 * (∑ s, F s * (y s a - mf y)) + 4 * ∑ s, F s ^ 2 := by
      simp only [Finset.mul_sum, ← Finset.sum_add_distrib, ← Finset.sum_sub_distrib]
      exact Finset.sum_congr rfl fun s _ => by ring
    have h6 : 0 ≤ ∑ l, fit.1 l a ^ 2 := Finset.sum_nonneg fun _ _ => sq_nonneg _
    rw [h3, h2] at h1
    linarith
  have e1 : pred i a - pred j a = ∑ l, e.obj.k θ.kernelParams xl x l i * fit.1 l a - ∑ l, e.obj.k θ.kernelParams xl x l j * fit.1 l a := by
    rw [hp, hp]; ring
  simp only [Matrix.of_apply] at hb
  rw [e1]
  have h7 := mul_le_mul_of_nonneg_left he hd
  have h8 := mul_le_mul_of_nonneg_left hb (by positivity : 0 ≤ 4 * θ.sigma ^ 2)
  simp only [kernelDist] at h7 ⊢
  linarith

/-! ## Models trained on derivatives -/

/-- **C165** for models trained on derivatives: two predicted derivatives (kernels of C65). -/
theorem C165_derivs (ex : la.Exact) (e : KExpr d) (θ : GPParams) (h : DerivSmooth e θ.kernelParams) (mf : MeanFun)
    (xt : Batch m d) (Jt : Jac m d w) (y : Mat m w) (x : Batch n d) (J : Jac n d v) (i j : Fin n) (s t : Fin v) :
    let fit := fitDerivsDense la θ e.obj mf xt Jt y
    let pred := predictDerivsDense θ e.obj xt Jt x J fit.1 fit.2
    let D := e.obj.d01kj θ.kernelParams x x J J
    (pred i s - pred j t) ^ 2 ≤
      (D (flat i s) (flat i s) - D (flat i s) (flat j t) - D (flat j t) (flat i s) + D (flat j t) (flat j t)) *
        (∑ l, ∑ u, (y l u - mf (flatCol y)) ^ 2 / (θ.sigma ^ 2 + 1 / 10 ^ 10)) / 4 := by
  intro fit pred D
  have key := weighted_predict_diff (s := fun _ => θ.noise) (fun _ => noise_pos θ) (C65_two_datasets_partial e _ h xt Jt x J)
    (fun l => fit.1 l 0) (fun l => y l.divNat l.modNat - mf (flatCol y)) (fit_derivs_column ex e θ h mf xt Jt y) (flat i s) (flat j t)
  have e1 : ∀ i s, pred i s = mf (flatCol y) + ∑ a, e.obj.d01kj θ.kernelParams xt x Jt J a (flat i s) * fit.1 a 0 := fun i s => by
    simp only [pred, predictDerivsDense, unflatCol, Matrix.of_apply, prod_flat]
    rfl
  rw [e1, e1, add_sub_add_left_eq_sub]
  refine key.trans_eq ?_
  simp only [sum_flat, flat_divNat, flat_modNat, noise_val]
  rfl

/-- **C165** for targets predicted from derivatives (kernels of C78): the same bound as for models trained on targets. -/
theorem C165_y_derivs (ex : la.Exact) (e : KExpr d) (θ : GPParams) (h : JointSmooth e θ.kernelParams) (mf : MeanFun)
    (xt : Batch m d) (Jt : Jac m d w) (y : Mat m w) (x : Batch n d) (i j : Fin n) :
    let fit := fitDerivsDense la θ e.obj mf xt Jt y
    let pred := predictYDerivsDense θ e.obj xt Jt x fit.1 fit.2
    (pred i 0 - pred j 0) ^ 2 ≤ kernelDist e.obj θ.kernelParams x i j *
      (∑ l, ∑ u, (y l u - mf (flatCol y)) ^ 2 / (θ.sigma ^ 2 + 1 / 10 ^ 10)) / 4 := by
  intro fit pred
  have hB := joint_y_psd e _ h xt Jt x
  have hp : (aDerivsLhsNoise θ e.obj xt Jt xt Jt).PosDef := (posterior_blocks (noise_pos θ) hB).1
  have hs : aDerivsLhsNoise θ e.obj xt Jt xt Jt * fit.1 = centerBy (flatCol y) (mf (flatCol y)) :=
    ex.solve _ _ (posDef_isUnit hp)
  have key := weighted_predict_diff (s := fun _ => θ.noise) (fun _ => noise_pos θ) hB
    (fun l => fit.1 l 0) (fun l => y l.divNat l.modNat - mf (flatCol y)) (fun l => by
      have h1 := congrFun (congrFun hs l) 0
      have h2 : aDerivsLhsNoise θ e.obj xt Jt xt Jt = Matrix.of (e.obj.d01kj θ.kernelParams xt xt Jt Jt) + θ.noise • 1 := rfl
      rw [h2, Matrix.add_mul, Matrix.add_apply, Matrix.smul_mul, Matrix.one_mul, Matrix.smul_apply, smul_eq_mul, Matrix.mul_apply] at h1
      exact h1) i j
  have e1 : ∀ i, pred i 0 = mf (flatCol y) + ∑ a, e.obj.d0kj θ.kernelParams xt x Jt a i * fit.1 a 0 := fun i => rfl
  rw [e1, e1, add_sub_add_left_eq_sub]
  refine key.trans_eq ?_
  simp only [sum_flat, flat_divNat, flat_modNat, noise_val]
  rfl

/-- **C165** for GPR_TD with targets and two sets of derivatives (kernels of C78): `Q` is the sum of the squares of the centred targets and of
the derivatives, each divided by the variance of its noise. -/
theorem C165_joint2 (ex : la.Exact) (e : KExpr d) (θ : TDParams) (h : JointSmooth e θ.kernelParams) (mf : MeanFun)
    (xt : Batch m d) (y : Mat m 1) (Jt : Jac m d v) (Jt' : Jac m d v') (yd : Mat m v) (yd' : Mat m v') (x : Batch n d)
    (J : Jac n d w) (J' : Jac n d w') (i j : Fin n) :
    let fit := tdFitDense2 la θ e.obj mf xt y Jt Jt' yd yd'
    let pred := tdPredictDense2 θ e.obj xt Jt Jt' x J J' fit.1 fit.2
    let Q := ∑ i, (y i 0 - mf y) ^ 2 / (θ.sigmaTargets ^ 2 + 1 / 10 ^ 10) +
      ∑ i, ∑ u, yd i u ^ 2 / (θ.sigmaDerivs ^ 2 + 1 / 10 ^ 10) +
      ∑ i, ∑ u, yd' i u ^ 2 / (θ.sigmaDerivs2 ^ 2 + 1 / 10 ^ 10)
    let D := e.obj.d01kj θ.kernelParams x x J J
    let D' := e.obj.d01kj θ.kernelParams x x J' J'
    (pred.1 i 0 - pred.1 j 0) ^ 2 ≤ kernelDist e.obj θ.kernelParams x i j * Q / 4 ∧
    (∀ s t, (pred.2.1 i s - pred.2.1 j t) ^ 2 ≤
      (D (flat i s) (flat i s) - D (flat i s) (flat j t) - D (flat j t) (flat i s) + D (flat j t) (flat j t)) * Q / 4) ∧
    ∀ s t, (pred.2.2 i s - pred.2.2 j t) ^ 2 ≤
      (D' (flat i s) (flat i s) - D' (flat i s) (flat j t) - D' (flat j t) (flat i s) + D' (flat j t) (flat j t)) * Q / 4 := by
  intro fit pred Q D D'
  have hB := joint_obs2 e θ.kernelParams h xt Jt Jt' x J J'
  have hK : (Matrix.of (cov2 e.obj θ.kernelParams xt Jt Jt' xt Jt Jt')).PosSemidef :=
    (C78_joint_partial e θ.kernelParams h xt Jt Jt').2
  obtain ⟨hm, hs, -⟩ := C76_fit2 ex e.obj θ mf xt y Jt Jt' yd yd' (C52_posDef2 e.obj θ xt Jt Jt' hK)
  obtain ⟨hp1, hp2, hp3, -⟩ := C76_predict2 e θ xt Jt Jt' x J J' fit.1 fit.2
  have hc : ∀ a, (∑ b, cov2 e.obj θ.kernelParams xt Jt Jt' xt Jt Jt' a b * fit.1 (pos2 b) 0) +
      noise2 θ a * fit.1 (pos2 a) 0 = residual2 (mf y) y yd yd' a := fun a => by
    have := hs a
    simp only [dataCov2, add_mul, ite_mul, zero_mul, Finset.sum_add_distrib, Finset.sum_ite_eq, Finset.mem_univ,
      if_true] at this
    rw [hm] at this
    exact this
  have key := weighted_predict_diff (noise2_pos θ) hB (fun b => fit.1 (pos2 b) 0) (residual2 (mf y) y yd yd') hc
  have hQ : ∑ a, residual2 (mf y) y yd yd' a ^ 2 / noise2 θ a = Q := by
    simp only [Fintype.sum_sum_type, Fintype.sum_prod_type]
    rfl
  rw [hQ] at key
  refine ⟨?_, fun s t => ?_, fun s t => ?_⟩
  · have e1 : pred.1 i 0 = _ := hp1 i
    have e2 : pred.1 j 0 = _ := hp1 j
    rw [e1, e2, add_sub_add_left_eq_sub]
    exact key (.inl (.inl i)) (.inl (.inl j))
  · have e1 : pred.2.1 i s = _ := hp2 i s
    have e2 : pred.2.1 j t = _ := hp2 j t
    rw [e1, e2]
    exact key (.inl (.inr (i, s))) (.inl (.inr (j, t)))
  · have e1 : pred.2.2 i s = _ := hp3 i s
    have e2 : pred.2.2 j t = _ := hp3 j t
    rw [e1, e2]
    exact key (.inr (i, s)) (.inr (j, t))

/-- Non-vacuity: a product of two stationary kernels plus a linear one, two features, and the value of its slope. -/
example : let e : KExpr 2 := .sum (.prod (.constant none) (.squaredExponential none)) (.linear none)
    let p : KPar := fun _ => 2
    Admissible e p ∧ SlopedExpr e ∧ ∀ f, kslope e p f = 2 * (2 * 1 / 2 ^ 2) + 1 := by
  refine ⟨by norm_num [Admissible, KPar.val, KPar.sub], ⟨⟨⟨trivial, trivial⟩, trivial, trivial⟩, trivial⟩, fun f => ?_⟩
  have hu : uses (none : Option (Dims 2)) f = 1 := by
    fin_cases f <;> rfl
  simp only [kslope, peak, hu, KPar.val, KPar.sub]
  norm_num

/-- Non-vacuity: the kernels of the theorems on derivatives. -/
example : let e : KExpr 2 := .sum (.matern52 none) (.linear none)
    let p : KPar := fun _ => 2
    JointSmooth e p ∧ DerivSmooth e p ∧ SlopedExpr e := by
  intro e p
  have h : JointSmooth e p := by norm_num [e, p, JointSmooth, KPar.val, KPar.sub]
  exact ⟨h, .joint h, trivial, trivial⟩

end GPX.Props
