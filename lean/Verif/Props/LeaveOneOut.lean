import Verif.Props.Updating
import Verif.Props.Bounded
import Verif.Props.SGPR

/-!
# C168: errors on samples left out, read off the trained model
-/

namespace GPX.Props
open GPX GPX.Spec Matrix

variable {d m n o q : ℕ} {la : LinAlg}

/-- Eliminating one unknown from a system of equations. -/
theorem eliminate_one {B : Mat m m} (hB : IsUnit B.det) (k : Fin m → ℝ) (a c r : ℝ) (cs rs w z : Fin m → ℝ)
    (h1 : ∀ i, (∑ j, B i j * cs j) + k i * c = rs i) (h2 : (∑ j, k j * cs j) + a * c = r)
    (hw : ∀ i, ∑ j, B i j * w j = rs i) (hz : ∀ i, ∑ j, B i j * z j = k i) :
    r - ∑ j, k j * w j = c * (a - ∑ j, k j * z j) := by
  have hcs : cs = fun j => w j - c * z j := by
    have h3 : B *ᵥ cs = B *ᵥ fun j => w j - c * z j := by
      funext i
      have e1 : (B *ᵥ fun j => w j - c * z j) i = (∑ j, B i j * w j) - c * ∑ j, B i j * z j := by
        rw [Finset.mul_sum, ← Finset.sum_sub_distrib]
        change ∑ j, B i j * (w j - c * z j) = _
        exact Finset.sum_congr rfl fun j _ => by ring
      rw [e1, hw, hz]
      have e2 : (B *ᵥ cs) i = ∑ j, B i j * cs j := rfl
      rw [e2]
      linarith [h1 i]
    have h4 := congrArg (B⁻¹ *ᵥ ·) h3
    simpa only [Matrix.mulVec_mulVec, Matrix.nonsing_inv_mul _ hB, Matrix.one_mulVec] using h4
  have h5 : ∑ j, k j * cs j = (∑ j, k j * w j) - c * ∑ j, k j * z j := by
    rw [hcs, Finset.mul_sum, ← Finset.sum_sub_distrib]
    exact Finset.sum_congr rfl fun j _ => by ring
  rw [h5] at h2
  linarith

/-- The weights behind a predicted variance. -/
theorem cov_weights (ex : la.Exact) (e : KExpr d) (θ : GPParams) (h : Admissible e θ.kernelParams) (xt : Batch m d)
    (x : Batch n d) (j : Fin n) : ∃ z : Fin m → ℝ,
      (∀ i, (∑ l, e.obj.k θ.kernelParams xt xt i l * z l) + θ.noise * z i = e.obj.k θ.kernelParams xt x i j) ∧
      predictDenseCov la θ e.obj xt x j j = e.obj.k θ.kernelParams x x j j - ∑ i, e.obj.k θ.kernelParams xt x i j * z i := by
  have hu := posDef_isUnit (aLhsNoise_posDef e θ h xt)
  refine ⟨(aLhsNoise θ e.obj xt xt)⁻¹ *ᵥ fun i => e.obj.k θ.kernelParams xt x i j, fun i => ?_, ?_⟩
  · set z := (aLhsNoise θ e.obj xt xt)⁻¹ *ᵥ fun i => e.obj.k θ.kernelParams xt x i j with hz
    have h1 : aLhsNoise θ e.obj xt xt *ᵥ z = fun i => e.obj.k θ.kernelParams xt x i j := by
      rw [hz, Matrix.mulVec_mulVec, Matrix.mul_nonsing_inv _ hu, Matrix.one_mulVec]
    have h3 : (aLhsNoise θ e.obj xt xt *ᵥ z) i =
        (∑ l, e.obj.k θ.kernelParams xt xt i l * z l) + θ.noise * z i := by
      change ((Matrix.of (e.obj.k θ.kernelParams xt xt) + θ.noise • (1 : Mat m m)) *ᵥ z) i = _
      rw [Matrix.add_mulVec, Matrix.smul_mulVec, Matrix.one_mulVec]
      rfl
    rw [← h3, congrFun h1 i]
  · rw [predictDenseCov_eq ex e θ h, Matrix.mul_assoc]
    rfl

/-- **C168.** Leaving one sample out. For every kernel expression, data, and sample `i`, with the predictions and variances of the
model trained on all samples and of the model trained on all but `i`, and `nz = sigma² + 1e-10`:

* the coefficient of the sample is its error under the model that did not see it, divided by the variance that model predicts
  for the measurement;
* that error is the residual of the trained model times `nz / (nz - variance)`, so that it is known without training again;
* the variances are related by `(variance left out + nz) (nz - variance) = nz²`;
* the residual is never larger than the error left out.

The mean function must have the same value with and without the sample (`zero_mean` always). -/
theorem C168_leave_one_out (ex : la.Exact) (e : KExpr d) (θ : GPParams) (h : Admissible e θ.kernelParams) (mf : MeanFun)
    (x : Batch (m + 1) d) (y : Mat (m + 1) o) (i : Fin (m + 1)) (a : Fin o)
    (hmf : mf (y.submatrix i.succAbove id) = mf y) :
    let fit := fitDense la θ e.obj mf x y
    let pred := predictDense θ e.obj x x fit.1 fit.2 i a
    let var := predictDenseCov la θ e.obj x x i i
    let x' : Batch m d := fun s => x (i.succAbove s)
    let xi : Batch 1 d := fun _ => x i
    let fit' := fitDense la θ e.obj mf x' (y.submatrix i.succAbove id)
    let out := predictDense θ e.obj x' xi fit'.1 fit'.2 0 a
    let varOut := predictDenseCov la θ e.obj x' xi 0 0
    let nz := θ.sigma ^ 2 + 1 / 10 ^ 10
    fit.1 i a * (varOut + nz) = y i a - out ∧
    0 < nz - var ∧ y i a - out = (y i a - pred) * (nz / (nz - var)) ∧
    (varOut + nz) * (nz - var) = nz ^ 2 ∧ |y i a - pred| ≤ |y i a - out| := by
  intro fit pred var x' xi fit' out varOut nz
  obtain ⟨L, hL, hk⟩ := e.psd θ.kernelParams h
  have hnz : 0 < nz := noise_pos θ
  set p := θ.kernelParams with hp
  have hB := posDef_isUnit (aLhsNoise_posDef e θ h x')
  have hBrow : ∀ (c : Fin m → ℝ) s, ∑ t, aLhsNoise θ e.obj x' x' s t * c t =
      (∑ t, L (x' s) (x' t) * c t) + nz * c s := fun c s => by
    have h3 : (aLhsNoise θ e.obj x' x' *ᵥ c) s = (∑ l, e.obj.k p x' x' s l * c l) + θ.noise * c s := by
      change ((Matrix.of (e.obj.k p x' x') + θ.noise • (1 : Mat m m)) *ᵥ c) s = _
      rw [Matrix.add_mulVec, Matrix.smul_mulVec, Matrix.one_mulVec]
      rfl
    simp only [hk] at h3
    exact h3
  obtain ⟨z, hz, hvz⟩ := cov_weights ex e θ h x' xi 0
  obtain ⟨u, hu, hvu⟩ := cov_weights ex e θ h x x i
  simp only [← hp, hk] at hz hvz hu hvu
  have hvo : 0 ≤ varOut := (C33_posterior_covariance ex e θ h x' xi).1.diag_nonneg (i := 0)
  have elim := eliminate_one hB (fun s => L (x' s) (x i)) (L (x i) (x i) + nz)
  have hzB : ∀ s, ∑ t, aLhsNoise θ e.obj x' x' s t * z t = L (x' s) (x i) := fun s => (hBrow z s).trans (hz s)
  have hS : L (x i) (x i) + nz - ∑ s, L (x' s) (x i) * z s = varOut + nz := by
    change _ = predictDenseCov la θ e.obj x' xi 0 0 + nz
    rw [hvz]
    ring
  have split : ∀ (c : Fin (m + 1) → ℝ) (s : Fin m), (∑ t, L (x' s) (x' t) * c (i.succAbove t)) + nz * c (i.succAbove s) +
      L (x' s) (x i) * c i = (∑ t, L (x (i.succAbove s)) (x t) * c t) + nz * c (i.succAbove s) := fun c s => by
    rw [Fin.sum_univ_succAbove _ i]
    change _ = (L (x' s) (x i) * c i + ∑ t, L (x' s) (x' t) * c (i.succAbove t)) + _
    ring
  have splitI : ∀ c : Fin (m + 1) → ℝ, (∑ t, L (x' t) (x i) * c (i.succAbove t)) + (L (x i) (x i) + nz) * c i =
      (∑ t, L (x i) (x t) * c t) + nz * c i := fun c => by
    rw [Fin.sum_univ_succAbove _ i, Finset.sum_congr rfl fun t _ => by rw [hL.symm (x' t) (x i)]]
    change _ = (L (x i) (x i) * c i + ∑ t, L (x i) (x' t) * c (i.succAbove t)) + _
    ring
  -- the weights of the variance
  have hui : varOut = u i * (varOut + nz) := by
    have := elim (u i) (L (x i) (x i)) (fun s => u (i.succAbove s)) (fun s => L (x' s) (x i)) z z
      (fun s => by rw [hBrow]; exact (split u s).trans (hu _)) ((splitI u).trans (hu i)) hzB hzB
    rw [hS] at this
    rw [← this]
    change predictDenseCov la θ e.obj x' xi 0 0 = _
    rw [hvz]
  have hvar : var = nz * u i := by
    change predictDenseCov la θ e.obj x x i i = _
    rw [hvu]
    have h1 : (∑ t, L (x i) (x t) * u t) + nz * u i = L (x i) (x i) := hu i
    rw [Finset.sum_congr rfl fun t _ => by rw [hL.symm (x t) (x i)]]
    linarith
  have hrel : (varOut + nz) * (nz - var) = nz ^ 2 := by
    rw [hvar]
    linear_combination nz * hui
  have hpos : 0 < nz - var := by
    have h1 : 0 < (varOut + nz) * (nz - var) := by rw [hrel]; positivity
    exact (pos_iff_pos_of_mul_pos h1).1 (by positivity)
  -- the coefficient
  have hfit : ∀ s, (∑ l, L (x s) (x l) * fit.1 l a) + nz * fit.1 s a = y s a - mf y := fun s => by
    have := fit_column ex e θ h mf x y a s
    simp only [Matrix.of_apply, ← hp, hk] at this
    exact this
  have hfit' : ∀ s, (∑ l, L (x' s) (x' l) * fit'.1 l a) + nz * fit'.1 s a = y (i.succAbove s) a - mf y := fun s => by
    have := fit_column ex e θ h mf x' (y.submatrix i.succAbove id) a s
    simp only [Matrix.of_apply, ← hp, hk, hmf] at this
    exact this
  have hout : out - mf y = ∑ s, L (x' s) (x i) * fit'.1 s a := by
    have := predict_sub_mu e θ x' xi fit'.1 fit'.2 0 a
    simp only [Matrix.of_apply, ← hp, hk] at this
    rw [← this, show fit'.2 = mf y from hmf]
    rw [show out = predictDense θ e.obj x' xi fit'.1 fit'.2 0 a from rfl, show fit'.2 = mf y from hmf]
  have hpred : y i a - pred = nz * fit.1 i a := by
    have := predict_sub_mu e θ x x fit.1 fit.2 i a
    simp only [Matrix.of_apply, ← hp, hk] at this
    have h2 := hfit i
    rw [Finset.sum_congr rfl fun t _ => by rw [hL.symm (x i) (x t)]] at h2
    have h3 : pred - mf y = ∑ l, L (x l) (x i) * fit.1 l a := this
    linarith
  have hc : fit.1 i a * (varOut + nz) = y i a - out := by
    have := elim (fit.1 i a) (y i a - mf y) (fun s => fit.1 (i.succAbove s) a) (fun s => y (i.succAbove s) a - mf y)
      (fun s => fit'.1 s a) z
      (fun s => by rw [hBrow]; exact (split (fun l => fit.1 l a) s).trans (hfit _))
      ((splitI fun l => fit.1 l a).trans (hfit i)) (fun s => (hBrow _ s).trans (hfit' s)) hzB
    rw [hS, ← hout] at this
    linarith
  refine ⟨hc, hpos, ?_, hrel, ?_⟩
  · rw [hpred, ← hc]
    field_simp
    linear_combination fit.1 i a * hrel
  · rw [hpred, ← hc, abs_mul, abs_mul, abs_of_pos hnz, abs_of_nonneg (by positivity : 0 ≤ varOut + nz), mul_comm]
    exact mul_le_mul_of_nonneg_left (by linarith) (abs_nonneg _)

/-- Non-vacuity: a squared exponential with unequal parameters, three samples with the default mean function, leaving out the last
one, whose target is the mean of the others. -/
example : let y : Mat 3 1 := ![![1], ![3], ![2]]
    Admissible (.squaredExponential none : KExpr 2) (fun _ => 1 / 2) ∧
      dataMean (y.submatrix (2 : Fin 3).succAbove id) = dataMean y := by
  intro y
  refine ⟨by norm_num [Admissible, KPar.val], ?_⟩
  have h0 : (2 : Fin 3).succAbove (0 : Fin 2) = 0 := by decide
  have h1 : (2 : Fin 3).succAbove (1 : Fin 2) = 1 := by decide
  norm_num [dataMean, Fin.sum_univ_succ, y]
  change ((![![1], ![3], ![2]] : Mat 3 1) ((2 : Fin 3).succAbove (0 : Fin 2)) 0 +
    (![![1], ![3], ![2]] : Mat 3 1) ((2 : Fin 3).succAbove (1 : Fin 2)) 0) / 2 = (2 : ℝ)
  rw [h0, h1]
  norm_num

/-- `zero_mean` satisfies the condition on the mean for all data. -/
example (y : Mat (m + 1) o) (i : Fin (m + 1)) : zeroMean (y.submatrix i.succAbove id) = zeroMean y := rfl

/-- **C168.** Leaving a group of samples out (cross-validation): with `V` the covariance that the model trained on all the data
predicts for the group, its residuals on the group are `(1 - V / nz)` times the errors of the model trained without the group. -/
theorem C168_leave_group_out (ex : la.Exact) (e : KExpr d) (θ : GPParams) (h : Admissible e θ.kernelParams) (mf : MeanFun)
    (xt : Batch m d) (yt : Mat m o) (xs : Batch q d) (ys : Mat q o) (hmf : mf (vcat yt ys) = mf yt) :
    let nz := θ.sigma ^ 2 + 1 / 10 ^ 10
    let fit := fitDense la θ e.obj mf (Fin.append xt xs) (vcat yt ys)
    let pred := predictDense θ e.obj (Fin.append xt xs) xs fit.1 fit.2
    let V := predictDenseCov la θ e.obj (Fin.append xt xs) xs
    let fit' := fitDense la θ e.obj mf xt yt
    let out := predictDense θ e.obj xt xs fit'.1 fit'.2
    (nz • (1 : Mat q q) - V).PosDef ∧ (nz • (1 : Mat q q) - V) * (ys - out) = nz • (ys - pred) ∧
    (nz • (1 : Mat q q) - V) * (predictDenseCov la θ e.obj xt xs + nz • (1 : Mat q q)) = nz ^ 2 • (1 : Mat q q) := by
  intro nz fit pred V fit' out
  have hnz : 0 < nz := noise_pos θ
  obtain ⟨h1, h2, -⟩ := C144_update ex e θ h mf xt yt xs ys hmf xs
  obtain ⟨hss, hsx⟩ := cov_blocks ex e θ h xt xs xs
  set C := predictDenseCov la θ e.obj xt xs with hC
  have hsx' : (predictDenseCov la θ e.obj xt (Fin.append xs xs)).submatrix (Fin.castAdd q) (Fin.natAdd q) = C :=
    hsx.trans (predictDenseCov_eq ex e θ h xt xs).symm
  have hpsd := (C33_posterior_covariance ex e θ h xt xs).1
  have hS : (C + nz • (1 : Mat q q)).PosDef := posDef_add_smul_one hpsd (noise_pos θ)
  have hCt : C.transpose = C := (Matrix.conjTranspose_eq_transpose_of_trivial C).symm.trans hpsd.isHermitian.eq
  have hu := posDef_isUnit hS
  rw [hss, hsx', hCt] at h1 h2
  set S := C + nz • (1 : Mat q q) with hSd
  have hCS : C = S - nz • (1 : Mat q q) := by rw [hSd, add_sub_cancel_right]
  have hG : C * S⁻¹ = 1 - nz • S⁻¹ := by
    rw [hCS, Matrix.sub_mul, Matrix.mul_nonsing_inv _ hu, Matrix.smul_mul, Matrix.one_mul]
  have hV : nz • (1 : Mat q q) - V = nz ^ 2 • S⁻¹ := by
    have : V = C - C * S⁻¹ * C := h2
    rw [this, hG, Matrix.sub_mul, Matrix.one_mul, sub_sub_cancel]
    rw [Matrix.smul_mul, hCS, Matrix.mul_sub, Matrix.nonsing_inv_mul _ hu, Matrix.mul_smul, Matrix.mul_one, smul_sub,
      sub_sub_cancel, smul_smul, sq]
  have hP : pred = out + C * S⁻¹ * (ys - out) := h1
  refine ⟨?_, ?_, ?_⟩
  · rw [hV]
    exact hS.inv.smul (by positivity)
  · rw [hV, hP, hG, Matrix.sub_mul, Matrix.one_mul, Matrix.smul_mul, Matrix.smul_mul]
    have : ys - (out + (ys - out - nz • (S⁻¹ * (ys - out)))) = nz • (S⁻¹ * (ys - out)) := by abel
    rw [this, smul_smul, sq]
  · rw [hV, Matrix.smul_mul, Matrix.nonsing_inv_mul _ hu]

example (yt : Mat m o) (ys : Mat q o) : zeroMean (vcat yt ys) = zeroMean yt := rfl

/-- Removing one sample from a ridge regression. -/
theorem ridge_leave_out {A : Mat m m} (hA : A.PosDef) (k z c c' b : Fin m → ℝ) (r : ℝ)
    (hz : A *ᵥ z + (k ⬝ᵥ z) • k = k) (hc : A *ᵥ c + (k ⬝ᵥ c) • k = b + r • k) (hc' : A *ᵥ c' = b) :
    0 ≤ k ⬝ᵥ z ∧ k ⬝ᵥ z < 1 ∧ (1 - k ⬝ᵥ z) * (r - k ⬝ᵥ c') = r - k ⬝ᵥ c := by
  have hAz : A *ᵥ z = (1 - k ⬝ᵥ z) • k := by
    rw [sub_smul, one_smul]
    exact eq_sub_of_add_eq hz
  have hAd : A *ᵥ (c - c') = (r - k ⬝ᵥ c) • k := by
    rw [Matrix.mulVec_sub, hc', sub_smul, ← add_sub_cancel_right (A *ᵥ c) ((k ⬝ᵥ c) • k), hc]
    abel
  have hq : z ⬝ᵥ (A *ᵥ z) = (1 - k ⬝ᵥ z) * (k ⬝ᵥ z) := by
    rw [hAz, dotProduct_smul, smul_eq_mul, dotProduct_comm z k]
  have hpos : ∀ u : Fin m → ℝ, u ≠ 0 → 0 < u ⬝ᵥ (A *ᵥ u) := fun u hu => by
    simpa using hA.dotProduct_mulVec_pos hu
  have hh : 0 ≤ k ⬝ᵥ z ∧ k ⬝ᵥ z < 1 := by
    by_cases h0 : z = 0
    · simp [h0]
    · have := hpos z h0
      rw [hq] at this
      constructor <;> nlinarith
  refine ⟨hh.1, hh.2, ?_⟩
  have hdiff : (1 - k ⬝ᵥ z) • (c - c') - (r - k ⬝ᵥ c) • z = 0 := by
    by_contra hne
    have := hpos _ hne
    rw [Matrix.mulVec_sub, Matrix.mulVec_smul, Matrix.mulVec_smul, hAd, hAz, smul_smul, smul_smul, mul_comm, sub_self,
      dotProduct_zero] at this
    exact lt_irrefl _ this
  have h1 := congrArg (k ⬝ᵥ ·) hdiff
  simp only [dotProduct_sub, dotProduct_smul, smul_eq_mul, dotProduct_zero] at h1
  linarith

theorem sparse_loo_system (ex : la.Exact) (e : KExpr d) (θ : GPParams) (h : Admissible e θ.kernelParams) (mf : MeanFun)
    (xl : Batch q d) (x : Batch m d) (y : Mat m o) (a : Fin o) :
    (sgprALhs θ e.obj xl x).1 *ᵥ (fun j => (sgprFitDense la θ e.obj mf xl x y).1 j a) =
      fun j => ∑ s, e.obj.k θ.kernelParams xl x j s * (y s a - mf y) := by
  have hs : (sgprALhs θ e.obj xl x).1 * (sgprFitDense la θ e.obj mf xl x y).1 = (sgprALhs θ e.obj xl x).2 * centerBy y (mf y) :=
    ex.solve _ _ (posDef_isUnit (sgprALhs_posDef e θ h xl x))
  funext j
  exact congrFun (congrFun hs j) a

/-- **C168.** Leaving one sample out of a sparse model: with `lev` the prediction at the sample of the model trained with `zero_mean`
on targets that are one at the sample and zero elsewhere, `0 ≤ lev < 1` and the residual of the trained model is `1 - lev` times the
error of the model that did not see the sample, hence never larger. -/
theorem C168_sparse (ex : la.Exact) (e : KExpr d) (θ : GPParams) (h : Admissible e θ.kernelParams) (mf : MeanFun)
    (xl : Batch q d) (x : Batch (m + 1) d) (y : Mat (m + 1) o) (i : Fin (m + 1)) (a : Fin o)
    (hmf : mf (y.submatrix i.succAbove id) = mf y) :
    let xi : Batch 1 d := fun _ => x i
    let fit := sgprFitDense la θ e.obj mf xl x y
    let pred := sgprPredict θ e.obj xl xi fit.1 fit.2 0 a
    let fit' := sgprFitDense la θ e.obj mf xl (fun s => x (i.succAbove s)) (y.submatrix i.succAbove id)
    let out := sgprPredict θ e.obj xl xi fit'.1 fit'.2 0 a
    let spike : Mat (m + 1) 1 := Matrix.of fun s _ => if s = i then 1 else 0
    let fitS := sgprFitDense la θ e.obj zeroMean xl x spike
    let lev := sgprPredict θ e.obj xl xi fitS.1 fitS.2 0 0
    0 ≤ lev ∧ lev < 1 ∧ (1 - lev) * (y i a - out) = y i a - pred ∧ |y i a - pred| ≤ |y i a - out| := by
  intro xi fit pred fit' out spike fitS lev
  obtain ⟨L, hL, hk⟩ := e.psd θ.kernelParams h
  set x' : Batch m d := fun s => x (i.succAbove s) with hx'
  set k : Fin q → ℝ := fun j => L (xl j) (x i) with hkd
  have hA := sgprALhs_posDef e θ h xl x'
  have hsplit : ∀ u : Fin q → ℝ, (sgprALhs θ e.obj xl x).1 *ᵥ u = (sgprALhs θ e.obj xl x').1 *ᵥ u + (k ⬝ᵥ u) • k := fun u => by
    have hM : (sgprALhs θ e.obj xl x).1 = (sgprALhs θ e.obj xl x').1 + Matrix.vecMulVec k k := by
      ext j l
      simp only [sgprALhs, Matrix.add_apply, Matrix.mul_apply, Matrix.transpose_apply, Matrix.of_apply, hk, Matrix.vecMulVec_apply]
      rw [Fin.sum_univ_succAbove _ i]
      simp only [hkd, hx']
      ring
    rw [hM, Matrix.add_mulVec, Matrix.vecMulVec_mulVec]
    congr 1
    ext j
    simp [mul_comm]
  have hp : ∀ {o' : ℕ} (c : Mat q o') (mu : ℝ) (b : Fin o'), sgprPredict θ e.obj xl xi c mu 0 b = mu + k ⬝ᵥ fun j => c j b := by
    intro o' c mu b
    simp only [sgprPredict, addScalar, Matrix.of_apply, Matrix.mul_apply, hk, dotProduct, hkd, xi, hL.symm (x i)]
  have s0 := sparse_loo_system ex e θ h zeroMean xl x spike 0
  have s1 := sparse_loo_system ex e θ h mf xl x y a
  have s2 := sparse_loo_system ex e θ h mf xl x' (y.submatrix i.succAbove id) a
  rw [hsplit] at s0 s1
  simp only [hk] at s0 s1 s2
  have e0 : (fun j => ∑ s, L (xl j) (x s) * (spike s 0 - zeroMean spike)) = k := by
    funext j
    simp [spike, zeroMean, hkd]
  have e1 : (fun j => ∑ s, L (xl j) (x s) * (y s a - mf y)) =
      (fun j => ∑ s, L (xl j) (x' s) * (y.submatrix i.succAbove id s a - mf (y.submatrix i.succAbove id))) +
        (y i a - mf y) • k := by
    funext j
    rw [Fin.sum_univ_succAbove _ i, hmf, add_comm]
    simp [hkd, hx', mul_comm]
  rw [e0] at s0
  rw [e1] at s1
  obtain ⟨h0, h1, h2⟩ := ridge_leave_out hA k _ _ _ _ _ s0 s1 s2
  have hlev : lev = k ⬝ᵥ fun j => fitS.1 j 0 := by
    rw [show lev = _ from hp fitS.1 fitS.2 0, show fitS.2 = 0 from rfl, zero_add]
  have hpred : y i a - pred = y i a - mf y - k ⬝ᵥ fun j => fit.1 j a := by
    rw [show pred = _ from hp fit.1 fit.2 a, show fit.2 = mf y from rfl]
    ring
  have hout : y i a - out = y i a - mf y - k ⬝ᵥ fun j => fit'.1 j a := by
    rw [show out = _ from hp fit'.1 fit'.2 a, show fit'.2 = mf y from hmf]
    ring
  have h3 : (1 - lev) * (y i a - out) = y i a - pred := by
    rw [hlev, hpred, hout]
    exact h2
  have h4 : 0 ≤ lev := by rw [hlev]; exact h0
  have h5 : lev < 1 := by rw [hlev]; exact h1
  refine ⟨h4, h5, h3, ?_⟩
  rw [← h3, abs_mul, abs_of_pos (by linarith : 0 < 1 - lev)]
  exact mul_le_of_le_one_left (abs_nonneg _) (by linarith)

end GPX.Props
