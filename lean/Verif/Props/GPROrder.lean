import Verif.Props.Likelihood

/-!
# C35 and C36: dependence of predictions on the order and on the values of the training targets
-/

namespace GPX.Props
open GPX GPX.Spec

variable {d m n o v w : ℕ} {la : LinAlg}

/-! ## Helpers -/

/-- The reordering of the flattened derivative rows induced by a reordering of the samples. -/
def permFlat (π : Equiv.Perm (Fin n)) (v : ℕ) : Equiv.Perm (Fin (n * v)) :=
  finProdFinEquiv.symm.trans ((Equiv.prodCongr π (Equiv.refl (Fin v))).trans finProdFinEquiv)

theorem permFlat_flat (π : Equiv.Perm (Fin n)) (i : Fin n) (q : Fin v) :
    permFlat π v (flat i q) = flat (π i) q := by
  rw [← prod_flat, ← prod_flat]
  simp [permFlat]

theorem flatCol_perm (y : Mat n v) (π : Equiv.Perm (Fin n)) :
    flatCol (y.submatrix π id) = (flatCol y).submatrix (permFlat π v) id := by
  ext r c
  obtain ⟨i, q, rfl⟩ := flat_surj r
  simp [flatCol, permFlat_flat, Matrix.submatrix_apply]

theorem centerBy_perm (y : Mat n o) (mu : ℝ) (π : Equiv.Perm (Fin n)) :
    centerBy (y.submatrix π id) mu = (centerBy y mu).submatrix π id := rfl

theorem noise_perm (K : Mat n n) (c : ℝ) (π : Equiv.Perm (Fin n)) :
    K.submatrix π π + c • (1 : Mat n n) = (K + c • (1 : Mat n n)).submatrix π π := by
  ext i j
  simp [Matrix.one_apply]

theorem posDef_perm {A : Mat n n} (h : A.PosDef) (π : Equiv.Perm (Fin n)) :
    (A.submatrix π π).PosDef := h.submatrix π.injective

theorem solve_perm (ex : la.Exact) {A : Mat n n} (h : A.PosDef) (b : Mat n o)
    (π : Equiv.Perm (Fin n)) :
    la.solve (A.submatrix π π) (b.submatrix π id) = (la.solve A b).submatrix π id := by
  rw [ex.solve_eq (posDef_isUnit (posDef_perm h π)), ex.solve_eq (posDef_isUnit h), inv_submatrix_perm,
    Matrix.submatrix_mul_equiv]

theorem explained_perm (A : Mat m o) (c : Mat m n) (π : Equiv.Perm (Fin m)) :
    (A.submatrix π id).transpose * c.submatrix π id = A.transpose * c := by
  have : (A.submatrix π id).transpose = A.transpose.submatrix id π := rfl
  rw [this, Matrix.submatrix_mul_equiv, Matrix.submatrix_id_id]

theorem cov_perm (A : Mat m m) (B : Mat m n) (π : Equiv.Perm (Fin m)) :
    (B.submatrix π id).transpose * (A.submatrix π π)⁻¹ * B.submatrix π id =
      B.transpose * A⁻¹ * B := by
  rw [inv_submatrix_perm, Matrix.transpose_submatrix, Matrix.submatrix_mul_equiv,
    Matrix.submatrix_mul_equiv, Matrix.submatrix_id_id]

theorem lmlTail_perm (ex : la.Exact) {C : Mat n n} (hC : C.PosDef) (y : Mat n o)
    (π : Equiv.Perm (Fin n)) :
    lmlTail la (C.submatrix π π) (y.submatrix π id) = lmlTail la C y := by
  unfold lmlTail
  simp only
  have h1 := quad_sum (posDef_perm hC π) ex (y.submatrix π id)
  rw [h1, quad_sum hC ex, ex.logdet hC, ex.logdet (posDef_perm hC π), inv_submatrix_perm,
    Matrix.det_submatrix_equiv_self]
  have : ∀ c, ∑ i, ∑ j, (y.submatrix π id) i c * (C⁻¹.submatrix π π) i j * (y.submatrix π id) j c =
      ∑ i, ∑ j, y i c * C⁻¹ i j * y j c := fun c => by
    simp only [Matrix.submatrix_apply, id_eq]
    rw [Equiv.sum_comp π fun i => ∑ j, y i c * C⁻¹ i (π j) * y (π j) c]
    exact Finset.sum_congr rfl fun i _ => Equiv.sum_comp π fun j => y i c * C⁻¹ i j * y j c
  simp only [this]

theorem aLhsNoise_perm (θ : GPParams) {κ : KernelObj d} (sw : SampleWise κ θ.kernelParams)
    (x : Batch n d) (π : Equiv.Perm (Fin n)) :
    aLhsNoise θ κ (fun i => x (π i)) (fun i => x (π i)) = (aLhsNoise θ κ x x).submatrix π π := by
  unfold aLhsNoise
  rw [← noise_perm]
  congr 1
  ext i j
  exact sw.k x x π π i j

theorem aLhs_perm (θ : GPParams) {κ : KernelObj d} (sw : SampleWise κ θ.kernelParams)
    (xt : Batch m d) (x : Batch n d) (π : Equiv.Perm (Fin m)) :
    aLhs θ κ (fun i => xt (π i)) x = (aLhs θ κ xt x).submatrix π id := by
  ext i j
  exact sw.k xt x π id i j

theorem aDerivsLhsNoise_perm (θ : GPParams) {κ : KernelObj d} (sw : SampleWise κ θ.kernelParams)
    (x : Batch n d) (J : Jac n d v) (π : Equiv.Perm (Fin n)) :
    aDerivsLhsNoise θ κ (fun i => x (π i)) (fun i => J (π i)) (fun i => x (π i)) (fun i => J (π i)) =
      (aDerivsLhsNoise θ κ x J x J).submatrix (permFlat π v) (permFlat π v) := by
  unfold aDerivsLhsNoise
  rw [← noise_perm]
  congr 1
  ext r s
  obtain ⟨i, q, rfl⟩ := flat_surj r
  obtain ⟨j, q', rfl⟩ := flat_surj s
  simp only [aDerivsLhs, Matrix.submatrix_apply, Matrix.of_apply, permFlat_flat]
  exact sw.d01kj x x J J π π i q j q'

theorem aDerivsLhs_perm (θ : GPParams) {κ : KernelObj d} (sw : SampleWise κ θ.kernelParams)
    (xt : Batch m d) (JT : Jac m d w) (x : Batch n d) (J : Jac n d v) (π : Equiv.Perm (Fin m)) :
    aDerivsLhs θ κ (fun i => xt (π i)) (fun i => JT (π i)) x J =
      (aDerivsLhs θ κ xt JT x J).submatrix (permFlat π w) id := by
  ext r s
  obtain ⟨i, q, rfl⟩ := flat_surj r
  obtain ⟨j, q', rfl⟩ := flat_surj s
  simp only [aDerivsLhs, Matrix.submatrix_apply, Matrix.of_apply, permFlat_flat, id_eq]
  exact sw.d01kj xt x JT J π id i q j q'

theorem d0kj_perm (θ : GPParams) {κ : KernelObj d} (sw : SampleWise κ θ.kernelParams)
    (xt : Batch m d) (JT : Jac m d w) (x : Batch n d) (π : Equiv.Perm (Fin m)) :
    (Matrix.of (κ.d0kj θ.kernelParams (fun i => xt (π i)) x (fun i => JT (π i))) : Mat (m * w) n) =
      (Matrix.of (κ.d0kj θ.kernelParams xt x JT)).submatrix (permFlat π w) id := by
  ext r s
  obtain ⟨i, q, rfl⟩ := flat_surj r
  simp only [Matrix.submatrix_apply, Matrix.of_apply, permFlat_flat, id_eq]
  exact sw.d0kj xt x JT π id i q s

/-! ## C35 -/

/-- `zero_mean` does not look at the order. -/
theorem zeroMean_orderFree : MeanFun.OrderFree zeroMean := fun _ _ => rfl

/-- `data_mean` does not look at the order. -/
theorem dataMean_orderFree : MeanFun.OrderFree dataMean := fun y π => by
  simp only [dataMean, Matrix.submatrix_apply, id_eq]
  rw [Equiv.sum_comp π fun i => ∑ c, y i c]

/-- **C35.** Training on reordered samples: the coefficients are reordered, the mean is the same, and predictions,
posterior covariance and log marginal likelihood are unchanged. -/
theorem C35_order (ex : la.Exact) (e : KExpr d) (θ : GPParams)
    (h : Admissible e θ.kernelParams) (mf : MeanFun) (hmf : MeanFun.OrderFree mf) (xt : Batch m d)
    (y : Mat m o) (x : Batch n d) (π : Equiv.Perm (Fin m)) :
    let xt' : Batch m d := fun i => xt (π i)
    let y' : Mat m o := Matrix.of fun i c => y (π i) c
    let fit := fitDense la θ e.obj mf xt y
    let fit' := fitDense la θ e.obj mf xt' y'
    (∀ i c, fit'.1 i c = fit.1 (π i) c) ∧ fit'.2 = fit.2 ∧
    predictDense θ e.obj xt' x fit'.1 fit'.2 = predictDense θ e.obj xt x fit.1 fit.2 ∧
    predictIter θ e.obj xt' x fit'.1 fit'.2 = predictIter θ e.obj xt x fit.1 fit.2 ∧
    predictDenseCov la θ e.obj xt' x = predictDenseCov la θ e.obj xt x ∧
    lmlDense la θ e.obj mf xt' y' = lmlDense la θ e.obj mf xt y := by
  intro xt' y' fit fit'
  have sw := C63_sampleWise e θ.kernelParams
  have hp := aLhsNoise_posDef e θ h xt
  have hmu : mf y' = mf y := hmf y π
  have hfit : fit'.1 = fit.1.submatrix π id := by
    change la.solve (aLhsNoise θ e.obj xt' xt') (centerBy y' (mf y')) = _
    rw [aLhsNoise_perm θ sw, hmu]
    exact solve_perm ex hp (centerBy y (mf y)) π
  have hpred : predictDense θ e.obj xt' x fit'.1 fit'.2 = predictDense θ e.obj xt x fit.1 fit.2 := by
    unfold predictDense
    simp only
    rw [hfit, aLhs_perm θ sw, explained_perm]
    exact congrArg (fun z => addScalar z _) hmu
  refine ⟨fun i c => by rw [hfit]; rfl, hmu, hpred, ?_, ?_, ?_⟩
  · rw [predictIter_eq e, predictIter_eq e, hpred]
  · rw [predictDenseCov_eq ex e θ h, predictDenseCov_eq ex e θ h]
    rw [aLhsNoise_perm θ sw, aLhs_perm θ sw, cov_perm]
  · change lmlTail la (aLhsNoise θ e.obj xt' xt') (centerBy y' (mf y')) = _
    rw [aLhsNoise_perm θ sw, hmu]
    exact lmlTail_perm ex hp (centerBy y (mf y)) π

/-- **C35** for models trained on derivatives (`v` derivative components per sample at the test points, `w` at the
training points; the derivative Gram matrix of the training points is positive semidefinite, see C65). -/
theorem C35_order_derivs (ex : la.Exact) (e : KExpr d) (θ : GPParams)
    (mf : MeanFun) (hmf : MeanFun.OrderFree mf) (xt : Batch m d) (JT : Jac m d w) (y : Mat m w)
    (h : (Matrix.of (e.obj.d01kj θ.kernelParams xt xt JT JT)).PosSemidef) (x : Batch n d)
    (J : Jac n d v) (π : Equiv.Perm (Fin m)) :
    let xt' : Batch m d := fun i => xt (π i)
    let JT' : Jac m d w := fun i => JT (π i)
    let y' : Mat m w := Matrix.of fun i c => y (π i) c
    let fit := fitDerivsDense la θ e.obj mf xt JT y
    let fit' := fitDerivsDense la θ e.obj mf xt' JT' y'
    (∀ i q, fit'.1 (flat i q) 0 = fit.1 (flat (π i) q) 0) ∧ fit'.2 = fit.2 ∧
    predictDerivsDense θ e.obj xt' JT' x J fit'.1 fit'.2 =
      predictDerivsDense θ e.obj xt JT x J fit.1 fit.2 ∧
    predictYDerivsDense θ e.obj xt' JT' x fit'.1 fit'.2 =
      predictYDerivsDense θ e.obj xt JT x fit.1 fit.2 ∧
    predictDerivsDenseCov la θ e.obj xt' JT' x J = predictDerivsDenseCov la θ e.obj xt JT x J ∧
    (θ.sigma ≠ 0 → predictYDerivsDenseCov la θ e.obj xt' JT' x =
      predictYDerivsDenseCov la θ e.obj xt JT x) ∧
    lmlDerivsDense la θ e.obj mf xt' JT' y' = lmlDerivsDense la θ e.obj mf xt JT y := by
  intro xt' JT' y' fit fit'
  have sw := C63_sampleWise e θ.kernelParams
  have hp : (aDerivsLhsNoise θ e.obj xt JT xt JT).PosDef := posDef_add_smul_one h (noise_pos θ)
  have hy : flatCol y' = (flatCol y).submatrix (permFlat π w) id := flatCol_perm y π
  have hmu : mf (flatCol y') = mf (flatCol y) := by rw [hy]; exact hmf _ _
  have hC := aDerivsLhsNoise_perm θ sw xt JT π
  have hfit : fit'.1 = fit.1.submatrix (permFlat π w) id := by
    change la.solve (aDerivsLhsNoise θ e.obj xt' JT' xt' JT') (centerBy (flatCol y') (mf (flatCol y'))) = _
    rw [hC, hmu, hy]
    exact solve_perm ex hp (centerBy (flatCol y) (mf (flatCol y))) _
  have hmu' : fit'.2 = fit.2 := hmu
  refine ⟨fun i q => by rw [hfit, Matrix.submatrix_apply, permFlat_flat]; rfl, hmu, ?_, ?_, ?_, ?_, ?_⟩
  · unfold predictDerivsDense predictDerivsFlat
    simp only
    rw [hfit, hmu', aDerivsLhs_perm θ sw, explained_perm]
  · unfold predictYDerivsDense
    simp only
    rw [hfit, hmu', d0kj_perm θ sw, explained_perm]
  · unfold predictDerivsDenseCov
    simp only
    rw [hC, ex.gram (posDef_perm hp _), ex.gram hp, aDerivsLhs_perm θ sw, cov_perm]
  · intro hs
    have hs2 : 0 < θ.sigma ^ 2 := by positivity
    have hq := posDef_add_smul_one h hs2
    have hD : (Matrix.of (e.obj.d01kj θ.kernelParams xt' xt' JT' JT') : Mat (m * w) (m * w)) +
        θ.sigma ^ 2 • (1 : Mat (m * w) (m * w)) =
        ((Matrix.of (e.obj.d01kj θ.kernelParams xt xt JT JT) : Mat (m * w) (m * w)) +
          θ.sigma ^ 2 • (1 : Mat (m * w) (m * w))).submatrix (permFlat π w) (permFlat π w) := by
      rw [← noise_perm]
      congr 1
      ext r s
      obtain ⟨i, q, rfl⟩ := flat_surj r
      obtain ⟨j, q', rfl⟩ := flat_surj s
      simp only [Matrix.submatrix_apply, Matrix.of_apply, permFlat_flat]
      exact sw.d01kj xt xt JT JT π π i q j q'
    unfold predictYDerivsDenseCov
    simp only
    rw [hD, ex.gram (posDef_perm hq _), ex.gram hq, d0kj_perm θ sw, cov_perm]
  · change lmlTail la (aDerivsLhsNoise θ e.obj xt' JT' xt' JT')
      (centerBy (flatCol y') (mf (flatCol y'))) = _
    rw [hC, hmu, hy]
    exact lmlTail_perm ex hp (centerBy (flatCol y) (mf (flatCol y))) _

/-- Non-vacuity: a genuine reordering of two samples. -/
example : (Equiv.swap 0 1 : Equiv.Perm (Fin 2)) ≠ 1 ∧ Admissible (.matern32 none : KExpr 1) (fun _ => 1) :=
  ⟨by decide, by simp [Admissible, KPar.val]⟩

/-! ## C36 -/

theorem centerBy_lin (a b mu mu' : ℝ) (y y' : Mat n o) :
    centerBy (a • y + b • y') (a * mu + b * mu') = a • centerBy y mu + b • centerBy y' mu' := by
  ext i c
  simp [centerBy]
  ring

theorem solve_lin (ex : la.Exact) {A : Mat n n} (h : A.PosDef) (a b : ℝ) (y y' : Mat n o) :
    la.solve A (a • y + b • y') = a • la.solve A y + b • la.solve A y' := by
  simp only [ex.solve_eq (posDef_isUnit h), Matrix.mul_add, Matrix.mul_smul]

theorem addScalar_lin (K : Mat m n) (a b mu mu' : ℝ) (c c' : Mat n o) :
    addScalar (a * mu + b * mu') (K * (a • c + b • c')) =
      a • addScalar mu (K * c) + b • addScalar mu' (K * c') := by
  rw [Matrix.mul_add, Matrix.mul_smul, Matrix.mul_smul]
  ext i j
  simp [addScalar]
  ring

/-- `zero_mean` is linear. -/
theorem zeroMean_linear : MeanFun.Linear zeroMean := fun _ _ _ _ => by simp [zeroMean]

/-- `data_mean` is linear. -/
theorem dataMean_linear : MeanFun.Linear dataMean := fun a b y y' => by
  simp only [dataMean, Matrix.add_apply, Matrix.smul_apply, smul_eq_mul, Finset.sum_add_distrib,
    ← Finset.mul_sum]
  ring

/-- **C36**, linearity: with a mean function that is linear (`zero_mean` and `data_mean` are), the predictions for
targets `a y + b y'` are `a` times the predictions for `y` plus `b` times those for `y'`. -/
theorem C36_linear (ex : la.Exact) (e : KExpr d) (θ : GPParams) (h : Admissible e θ.kernelParams)
    (mf : MeanFun) (hmf : MeanFun.Linear mf) (xt : Batch m d) (y y' : Mat m o) (x : Batch n d)
    (a b : ℝ) :
    let predict : Mat m o → Mat n o := fun y =>
      predictDense θ e.obj xt x (fitDense la θ e.obj mf xt y).1 (fitDense la θ e.obj mf xt y).2
    predict (a • y + b • y') = a • predict y + b • predict y' := by
  intro predict
  have hp := aLhsNoise_posDef e θ h xt
  change addScalar (mf (a • y + b • y')) ((aLhs θ e.obj xt x).transpose *
      la.solve (aLhsNoise θ e.obj xt xt) (centerBy (a • y + b • y') (mf (a • y + b • y')))) = _
  rw [show mf (a • y + b • y') = a * mf y + b * mf y' from hmf a b y y', centerBy_lin,
    solve_lin ex hp, addScalar_lin]
  rfl

theorem flatCol_lin (a b : ℝ) (y y' : Mat n v) :
    flatCol (a • y + b • y') = a • flatCol y + b • flatCol y' := rfl

theorem unflatCol_lin (a b : ℝ) (y y' : Mat (n * v) 1) :
    unflatCol (a • y + b • y') = a • unflatCol y + b • unflatCol y' := rfl

/-- **C36**, linearity for models trained on derivatives: both the predicted derivatives and the predicted targets
are linear in the training derivatives. -/
theorem C36_linear_derivs (ex : la.Exact) (κ : KernelObj d) (θ : GPParams) (mf : MeanFun)
    (hmf : MeanFun.Linear mf) (xt : Batch m d) (JT : Jac m d w)
    (h : (Matrix.of (κ.d01kj θ.kernelParams xt xt JT JT)).PosSemidef) (y y' : Mat m w)
    (x : Batch n d) (J : Jac n d v) (a b : ℝ) :
    let predict : Mat m w → Mat n v := fun y =>
      predictDerivsDense θ κ xt JT x J (fitDerivsDense la θ κ mf xt JT y).1
        (fitDerivsDense la θ κ mf xt JT y).2
    let predictY : Mat m w → Mat n 1 := fun y =>
      predictYDerivsDense θ κ xt JT x (fitDerivsDense la θ κ mf xt JT y).1
        (fitDerivsDense la θ κ mf xt JT y).2
    predict (a • y + b • y') = a • predict y + b • predict y' ∧
    predictY (a • y + b • y') = a • predictY y + b • predictY y' := by
  intro predict predictY
  have hp : (aDerivsLhsNoise θ κ xt JT xt JT).PosDef := posDef_add_smul_one h (noise_pos θ)
  have hm : mf (flatCol (a • y + b • y')) = a * mf (flatCol y) + b * mf (flatCol y') := by
    rw [flatCol_lin]; exact hmf a b _ _
  have hs : la.solve (aDerivsLhsNoise θ κ xt JT xt JT) (centerBy (flatCol (a • y + b • y'))
      (mf (flatCol (a • y + b • y')))) =
      a • la.solve (aDerivsLhsNoise θ κ xt JT xt JT) (centerBy (flatCol y) (mf (flatCol y))) +
      b • la.solve (aDerivsLhsNoise θ κ xt JT xt JT) (centerBy (flatCol y') (mf (flatCol y'))) := by
    rw [hm, flatCol_lin, centerBy_lin, solve_lin ex hp]
  constructor
  · change unflatCol (addScalar (mf (flatCol (a • y + b • y')))
      ((aDerivsLhs θ κ xt JT x J).transpose * la.solve (aDerivsLhsNoise θ κ xt JT xt JT)
        (centerBy (flatCol (a • y + b • y')) (mf (flatCol (a • y + b • y')))))) = _
    rw [hs, hm, addScalar_lin, unflatCol_lin]
    rfl
  · change addScalar (mf (flatCol (a • y + b • y')))
      ((Matrix.of (κ.d0kj θ.kernelParams xt x JT) : Mat (m * w) n).transpose *
        la.solve (aDerivsLhsNoise θ κ xt JT xt JT)
        (centerBy (flatCol (a • y + b • y')) (mf (flatCol (a • y + b • y'))))) = _
    rw [hs, hm, addScalar_lin]
    rfl

/-- **C36**, shifts: with `data_mean`, adding a constant to all (at least one) training targets adds it to every
prediction. Holds for any kernel and any solver. -/
theorem C36_shift (κ : KernelObj d) (θ : GPParams) (xt : Batch m d) (y : Mat m o) (hm : 0 < m)
    (ho : 0 < o) (x : Batch n d) (t : ℝ) :
    let predict : Mat m o → Mat n o := fun y =>
      predictDense θ κ xt x (fitDense la θ κ dataMean xt y).1 (fitDense la θ κ dataMean xt y).2
    ∀ i c, predict (Matrix.of fun i c => y i c + t) i c = predict y i c + t := by
  intro predict i c
  have hmu : dataMean (Matrix.of fun i c => y i c + t : Mat m o) = dataMean y + t := by
    have h1 : (m : ℝ) ≠ 0 := by positivity
    have h2 : (o : ℝ) ≠ 0 := by positivity
    simp only [dataMean, Matrix.of_apply, Finset.sum_add_distrib, Finset.sum_const, Finset.card_univ,
      Fintype.card_fin, nsmul_eq_mul]
    field_simp
  have hc : centerBy (Matrix.of fun i c => y i c + t : Mat m o)
      (dataMean (Matrix.of fun i c => y i c + t : Mat m o)) = centerBy y (dataMean y) := by
    rw [hmu]
    ext i c
    simp [centerBy]
  change addScalar (dataMean (Matrix.of fun i c => y i c + t : Mat m o)) ((aLhs θ κ xt x).transpose *
      la.solve (aLhsNoise θ κ xt xt) (centerBy (Matrix.of fun i c => y i c + t : Mat m o)
        (dataMean (Matrix.of fun i c => y i c + t : Mat m o)))) i c = _
  rw [hc, hmu]
  change dataMean y + t + _ = dataMean y + _ + t
  rw [add_right_comm]
  rfl

/-- Non-vacuity: on one sample the predictions with `data_mean` do depend on the targets. -/
example : dataMean (Matrix.of fun _ _ => 1 : Mat 1 1) ≠ dataMean (Matrix.of fun _ _ => 0 : Mat 1 1) := by
  simp [dataMean]

end GPX.Props
