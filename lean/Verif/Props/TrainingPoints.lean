import Verif.Lemmas.TrainingPoints
import Verif.Props.SGPR
import Verif.Props.JointPSD

/-!
# C119, C120: predictions at the training inputs, and the posterior variance as an error
-/

namespace GPX.Props
open GPX GPX.Spec

variable {d m n o v w : ℕ} {la : LinAlg}

/-! ## C119 -/

theorem noise_val (θ : GPParams) : θ.noise = θ.sigma ^ 2 + 1 / 10 ^ 10 := rfl

/-- The system solved by the fit, one output column. -/
theorem fit_column (ex : la.Exact) (e : KExpr d) (θ : GPParams) (h : Admissible e θ.kernelParams)
    (mf : MeanFun) (x : Batch n d) (y : Mat n o) (a : Fin o) (i : Fin n) :
    (∑ j, (Matrix.of (e.obj.k θ.kernelParams x x) : Mat n n) i j * (fitDense la θ e.obj mf x y).1 j a) +
      θ.noise * (fitDense la θ e.obj mf x y).1 i a = y i a - mf y := by
  have h1 := (C31_fit_solves ex e θ h mf x y).2.1 i a
  simp only [add_mul, ite_mul, zero_mul, Finset.sum_add_distrib, Finset.sum_ite_eq, Finset.mem_univ,
    if_true] at h1
  rw [noise_val, add_mul]
  exact h1

/-- **C119.** Fitting never makes the description of the training data worse than the mean alone, and never
overshoots: for every output, the squared errors of the predictions at the training inputs plus the squared
differences of the predictions from the mean add up to at most the squared differences of the targets from the mean.
For every kernel expression with admissible hyperparameters, data (duplicates allowed), noise and mean function. -/
theorem C119_training_residual (ex : la.Exact) (e : KExpr d) (θ : GPParams) (h : Admissible e θ.kernelParams)
    (mf : MeanFun) (x : Batch n d) (y : Mat n o) (a : Fin o) :
    let fit := fitDense la θ e.obj mf x y
    let pred := predictDense θ e.obj x x fit.1 fit.2
    ∑ i, (y i a - pred i a) ^ 2 + ∑ i, (pred i a - mf y) ^ 2 ≤ ∑ i, (y i a - mf y) ^ 2 := by
  intro fit pred
  have hc := fit_column ex e θ h mf x y a
  have hp := (C31_fit_solves ex e θ h mf x y).2.2.2
  have := ridge_bounds (C22_gram_posSemidef e θ.kernelParams h x) (noise_pos θ) (fun i => fit.1 i a)
    (fun i => y i a - mf y) hc
  refine le_trans (le_of_eq ?_) this
  congr 1
  · refine Finset.sum_congr rfl fun i _ => ?_
    have : pred i a = _ := hp i a
    rw [this, noise_val]
    ring
  · refine Finset.sum_congr rfl fun i _ => ?_
    have h1 : pred i a = _ := hp i a
    have h2 := hc i
    rw [h1, ← noise_val]
    congr 1
    have : (∑ j, (Matrix.of (e.obj.k θ.kernelParams x x) : Mat n n) i j * fit.1 j a) + θ.noise * fit.1 i a =
      y i a - mf y := h2
    change y i a - θ.noise * fit.1 i a - mf y = _
    linarith

/-- **C119**, noise: with the same kernel parameters, a smaller noise `|sigma|` never gives larger squared errors at the
training inputs. -/
theorem C119_less_noise (ex : la.Exact) (e : KExpr d) (p : KPar) (h : Admissible e p) (mf : MeanFun)
    (x : Batch n d) (y : Mat n o) (a : Fin o) (s t : ℝ) (hst : |s| ≤ |t|) :
    let err := fun sigma : ℝ =>
      let fit := fitDense la ⟨p, sigma⟩ e.obj mf x y
      ∑ i, (y i a - predictDense ⟨p, sigma⟩ e.obj x x fit.1 fit.2 i a) ^ 2
    err s ≤ err t := by
  intro err
  have hn : (⟨p, s⟩ : GPParams).noise ≤ (⟨p, t⟩ : GPParams).noise := by
    have := sq_le_sq.mpr hst
    simp only [GPParams.noise]
    linarith
  have := ridge_mono (C22_gram_posSemidef e p h x) (noise_pos ⟨p, s⟩) hn
    (fun i => (fitDense la ⟨p, s⟩ e.obj mf x y).1 i a) (fun i => (fitDense la ⟨p, t⟩ e.obj mf x y).1 i a)
    (fun i => y i a - mf y) (fit_column ex e ⟨p, s⟩ h mf x y a) (fit_column ex e ⟨p, t⟩ h mf x y a)
  have key : ∀ u, err u = ∑ i, ((⟨p, u⟩ : GPParams).noise * (fitDense la ⟨p, u⟩ e.obj mf x y).1 i a) ^ 2 := by
    intro u
    refine Finset.sum_congr rfl fun i _ => ?_
    have := (C31_fit_solves ex e ⟨p, u⟩ h mf x y).2.2.2 i a
    rw [this, noise_val]
    ring
  rw [key, key]
  exact this

/-- **C119**, covariance: at the training inputs `(sigma² + 1e-10) I` minus the posterior covariance is positive
semidefinite. -/
theorem C119_training_covariance (ex : la.Exact) (e : KExpr d) (θ : GPParams) (h : Admissible e θ.kernelParams)
    (x : Batch n d) :
    ((θ.sigma ^ 2 + 1 / 10 ^ 10) • (1 : Mat n n) - predictDenseCov la θ e.obj x x).PosSemidef := by
  have hsym : (aLhs θ e.obj x x).transpose = aLhs θ e.obj x x :=
    posDef_transpose (C22_gram_posSemidef e θ.kernelParams h x)
  rw [predictDenseCov_eq ex e θ h, hsym]
  exact ridge_cov (C22_gram_posSemidef e θ.kernelParams h x) (noise_pos θ)

/-- **C119** for models trained on derivatives (positive semidefinite derivative Gram matrix, see C65). -/
theorem C119_training_residual_derivs (ex : la.Exact) (e : KExpr d) (θ : GPParams) (mf : MeanFun) (x : Batch n d)
    (J : Jac n d v) (y : Mat n v) (h : (Matrix.of (e.obj.d01kj θ.kernelParams x x J J)).PosSemidef) :
    let fit := fitDerivsDense la θ e.obj mf x J y
    let pred := predictDerivsDense θ e.obj x J x J fit.1 fit.2
    ∑ i, ∑ u, (y i u - pred i u) ^ 2 + ∑ i, ∑ u, (pred i u - fit.2) ^ 2 ≤ ∑ i, ∑ u, (y i u - fit.2) ^ 2 ∧
    ((θ.sigma ^ 2 + 1 / 10 ^ 10) • (1 : Mat (n * v) (n * v)) - predictDerivsDenseCov la θ e.obj x J x J).PosSemidef := by
  intro fit pred
  obtain ⟨hs, -, hp⟩ := C31_fit_derivs_solves ex e.obj θ mf x J y h
  have hc : ∀ r, (∑ s, (Matrix.of (e.obj.d01kj θ.kernelParams x x J J) : Mat (n * v) (n * v)) r s * fit.1 s 0) +
      θ.noise * fit.1 r 0 = flatCol y r 0 - fit.2 := by
    intro r
    obtain ⟨i, u, rfl⟩ := flat_surj r
    have h1 := hs i u
    simp only [add_mul, ite_mul, zero_mul, Finset.sum_add_distrib, Finset.sum_ite_eq, Finset.mem_univ,
      if_true] at h1
    simp only [flatCol, Matrix.of_apply, flat_divNat, flat_modNat]
    rw [noise_val, add_mul]
    exact h1
  have hsum : ∀ f : Fin (n * v) → ℝ, ∑ r, f r = ∑ i, ∑ u, f (flat i u) := fun f => by
    rw [← finProdFinEquiv.sum_comp, Fintype.sum_prod_type]
    simp only [prod_flat]
  refine ⟨?_, ?_⟩
  · have := ridge_bounds h (noise_pos θ) (fun r => fit.1 r 0) (fun r => flatCol y r 0 - fit.2) hc
    rw [hsum, hsum, hsum] at this
    refine le_trans (le_of_eq ?_) (this.trans (le_of_eq ?_))
    · congr 1
      · refine Finset.sum_congr rfl fun i _ => Finset.sum_congr rfl fun u _ => ?_
        have : pred i u = _ := hp i u
        rw [this, noise_val]
        ring
      · refine Finset.sum_congr rfl fun i _ => Finset.sum_congr rfl fun u _ => ?_
        have h1 : pred i u = _ := hp i u
        have h2 := hc (flat i u)
        rw [h1, ← noise_val]
        congr 1
        simp only [flatCol, Matrix.of_apply, flat_divNat, flat_modNat] at h2 ⊢
        change y i u - θ.noise * fit.1 (flat i u) 0 - fit.2 = _
        linarith
    · simp [flatCol, flat_divNat, flat_modNat]
  · have hp : (aDerivsLhsNoise θ e.obj x J x J).PosDef := posDef_add_smul_one h (noise_pos θ)
    have hsym : (aDerivsLhs θ e.obj x J x J).transpose = aDerivsLhs θ e.obj x J x J := posDef_transpose h
    unfold predictDerivsDenseCov
    simp only
    rw [ex.gram hp, hsym]
    exact ridge_cov h (noise_pos θ)

/-- **C119** for SGPR: the squared errors at the training inputs plus the squared differences of the predictions from
the mean add up to at most the squared errors of the mean alone, for any inducing points (the training inputs need not
be among them). -/
theorem C119_sparse (ex : la.Exact) (e : KExpr d) (θ : GPParams)
    (h : Admissible e θ.kernelParams) (mf : MeanFun) (xl : Batch m d) (x : Batch n d) (y : Mat n o) (a : Fin o) :
    let fit := sgprFitDense la θ e.obj mf xl x y
    let pred := sgprPredict θ e.obj xl x fit.1 fit.2
    ∑ i, (y i a - pred i a) ^ 2 + ∑ i, (pred i a - mf y) ^ 2 ≤ ∑ i, (y i a - mf y) ^ 2 := by
  intro fit pred
  have hp := sgprALhs_posDef e θ h xl x
  have hs : (sgprALhs θ e.obj xl x).1 * fit.1 = (sgprALhs θ e.obj xl x).2 * centerBy y fit.2 :=
    ex.solve _ _ (posDef_isUnit hp)
  have hK := C22_gram_posSemidef e θ.kernelParams h xl
  have := sparse_bounds hK (sq_nonneg θ.sigma) jitter_pos'.le (Matrix.of (e.obj.k θ.kernelParams xl x))
    (fun b => fit.1 b a) (fun i => y i a - mf y) (fun b => congrFun (congrFun hs b) a)
  refine le_trans (le_of_eq ?_) this
  have hpr : ∀ i, pred i a = mf y + ∑ b, e.obj.k θ.kernelParams xl x b i * fit.1 b a := fun i => by
    simp only [pred, sgprPredict, addScalar, Matrix.of_apply, Matrix.mul_apply]
    have hx : ∀ b, e.obj.k θ.kernelParams x xl i b = e.obj.k θ.kernelParams xl x b i := fun b =>
      (C21_symmetric e θ.kernelParams).k x xl i b
    simp only [hx]
    rfl
  congr 1
  · exact Finset.sum_congr rfl fun i _ => by rw [hpr i]; simp only [Matrix.of_apply]; ring
  · exact Finset.sum_congr rfl fun i _ => by rw [hpr i]; simp only [Matrix.of_apply]; ring

/-! ## C120 -/

/-- **C120.** The prediction is the best linear one. Under the prior, guessing the value at a new input by
`mu + Σ_i a_i (y_i - mu)` from observations with noise variance `sigma² + 1e-10` has mean squared error
`k(x, x) - 2 Σ a_i k(x_i, x) + Σ a_i a_l (k(x_i, x_l) + (sigma² + 1e-10) [i = l])`. For every new input there are
weights for which the guess is `predict(x)`, whatever the targets, and the error is the reported posterior variance;
and no weights have a smaller error. -/
theorem C120_best_linear (ex : la.Exact) (e : KExpr d) (θ : GPParams) (h : Admissible e θ.kernelParams)
    (xt : Batch m d) (x : Batch n d) (j : Fin n) :
    let err := fun a : Fin m → ℝ => e.obj.k θ.kernelParams x x j j - 2 * ∑ i, a i * e.obj.k θ.kernelParams xt x i j +
      ∑ i, ∑ l, a i * (e.obj.k θ.kernelParams xt xt i l + if i = l then θ.sigma ^ 2 + 1 / 10 ^ 10 else 0) * a l
    (∀ a, predictDenseCov la θ e.obj xt x j j ≤ err a) ∧
    ∃ a, err a = predictDenseCov la θ e.obj xt x j j ∧
      ∀ (o : ℕ) (mf : MeanFun) (y : Mat m o) (b : Fin o),
        predictDense θ e.obj xt x (fitDense la θ e.obj mf xt y).1 (fitDense la θ e.obj mf xt y).2 j b =
          mf y + ∑ i, a i * (y i b - mf y) := by
  intro err
  have hp := aLhsNoise_posDef e θ h xt
  have hcov : predictDenseCov la θ e.obj xt x j j = e.obj.k θ.kernelParams x x j j -
      ((aLhs θ e.obj xt x).transpose * (aLhsNoise θ e.obj xt xt)⁻¹ * aLhs θ e.obj xt x) j j := by
    rw [predictDenseCov_eq ex e θ h]; rfl
  have herr : ∀ a, err a = e.obj.k θ.kernelParams x x j j - (2 * ∑ i, a i * aLhs θ e.obj xt x i j -
      ∑ i, ∑ l, a i * aLhsNoise θ e.obj xt xt i l * a l) := by
    intro a
    have : ∀ i l, aLhsNoise θ e.obj xt xt i l =
        e.obj.k θ.kernelParams xt xt i l + if i = l then θ.sigma ^ 2 + 1 / 10 ^ 10 else 0 := fun i l => by
      simp [aLhsNoise, aLhs, GPParams.noise, noiseJitter, Matrix.one_apply]
    simp only [this]
    simp only [err, aLhs, Matrix.of_apply]
    ring
  refine ⟨fun a => ?_, fun i => ((aLhsNoise θ e.obj xt xt)⁻¹ * aLhs θ e.obj xt x) i j, ?_, ?_⟩
  · rw [herr, hcov]
    linarith [(explained_var hp (aLhs θ e.obj xt x) j a).1]
  · rw [herr, hcov, (explained_var hp (aLhs θ e.obj xt x) j _).2 fun _ => rfl]
  · intro o mf y b
    have hs : aLhsNoise θ e.obj xt xt * (fitDense la θ e.obj mf xt y).1 = centerBy y (mf y) :=
      ex.solve _ _ (posDef_isUnit hp)
    have hT : (aLhsNoise θ e.obj xt xt)⁻¹.transpose = (aLhsNoise θ e.obj xt xt)⁻¹ :=
      posDef_transpose hp.inv.posSemidef
    have hc : (fitDense la θ e.obj mf xt y).1 = (aLhsNoise θ e.obj xt xt)⁻¹ * centerBy y (mf y) := by
      rw [← hs, ← Matrix.mul_assoc, Matrix.nonsing_inv_mul _ (posDef_isUnit hp), Matrix.one_mul]
    have : predictDense θ e.obj xt x (fitDense la θ e.obj mf xt y).1 (fitDense la θ e.obj mf xt y).2 j b =
        mf y + ((aLhs θ e.obj xt x).transpose * (fitDense la θ e.obj mf xt y).1) j b := rfl
    rw [this, hc, ← Matrix.mul_assoc]
    congr 1
    rw [Matrix.mul_apply]
    refine Finset.sum_congr rfl fun i _ => ?_
    have e1 : ((aLhs θ e.obj xt x).transpose * (aLhsNoise θ e.obj xt xt)⁻¹) j i =
        ((aLhsNoise θ e.obj xt xt)⁻¹ * aLhs θ e.obj xt x) i j := by
      rw [← Matrix.transpose_apply ((aLhsNoise θ e.obj xt xt)⁻¹ * aLhs θ e.obj xt x), Matrix.transpose_mul, hT]
    rw [e1]
    rfl

/-- **C120**, repeated measurements: when an input occurs `k` times among the training samples, the posterior variance
at that input is at most `(sigma² + 1e-10) / k`, whatever the other samples. -/
theorem C120_repeated (ex : la.Exact) (e : KExpr d) (θ : GPParams) (h : Admissible e θ.kernelParams)
    (xt : Batch m d) (x : Batch n d) (j : Fin n) (S : Finset (Fin m)) (hS : S.Nonempty) (hx : ∀ i ∈ S, xt i = x j) :
    predictDenseCov la θ e.obj xt x j j ≤ (θ.sigma ^ 2 + 1 / 10 ^ 10) / S.card := by
  obtain ⟨L, hL, hk⟩ := e.psd θ.kernelParams h
  have hcard : (0 : ℝ) < S.card := by exact_mod_cast hS.card_pos
  refine ((C120_best_linear ex e θ h xt x j).1 fun i => if i ∈ S then 1 / (S.card : ℝ) else 0).trans_eq ?_
  simp only [hk, ite_mul, zero_mul, mul_ite, mul_zero, Finset.sum_ite_mem, Finset.univ_inter]
  have e1 : ∑ i ∈ S, 1 / (S.card : ℝ) * L (xt i) (x j) = L (x j) (x j) := by
    rw [Finset.sum_congr rfl fun i hi => by rw [hx i hi], Finset.sum_const, nsmul_eq_mul]
    field_simp
  have e2 : ∀ i ∈ S, ∑ l ∈ S, 1 / (S.card : ℝ) * (L (xt i) (xt l) +
      if i = l then θ.sigma ^ 2 + 1 / 10 ^ 10 else 0) * (1 / (S.card : ℝ)) =
      (1 / (S.card : ℝ)) * L (x j) (x j) + (θ.sigma ^ 2 + 1 / 10 ^ 10) / (S.card : ℝ) ^ 2 := by
    intro i hi
    have : ∀ l ∈ S, 1 / (S.card : ℝ) * (L (xt i) (xt l) +
        if i = l then θ.sigma ^ 2 + 1 / 10 ^ 10 else 0) * (1 / (S.card : ℝ)) =
        1 / (S.card : ℝ) ^ 2 * L (x j) (x j) +
          if i = l then (θ.sigma ^ 2 + 1 / 10 ^ 10) / (S.card : ℝ) ^ 2 else 0 := by
      intro l hl
      rw [hx i hi, hx l hl]
      split_ifs <;> field_simp
      ring
    rw [Finset.sum_congr rfl this, Finset.sum_add_distrib, Finset.sum_ite_eq, if_pos hi, Finset.sum_const,
      nsmul_eq_mul]
    field_simp
  rw [e1, Finset.sum_comm]
  simp only [Finset.sum_ite_mem, Finset.univ_inter]
  rw [Finset.sum_comm, Finset.sum_congr rfl e2, Finset.sum_const, nsmul_eq_mul]
  field_simp
  ring

/-- Non-vacuity: three training samples, two of them at the new input. -/
example : ∀ i ∈ ({0, 2} : Finset (Fin 3)), (![![1], ![0], ![1]] : Batch 3 1) i = (![![1]] : Batch 1 1) 0 := by
  intro i hi
  fin_cases hi <;> rfl

end GPX.Props
