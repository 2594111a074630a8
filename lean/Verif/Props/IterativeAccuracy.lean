import Verif.Lemmas.Residual
import Verif.Props.Likelihood
import Verif.Props.SGPR
import Verif.Props.JointPSD

/-!
# C108: how far iterative results can be from dense ones

The iterative fits run conjugate gradients to a tolerance. Here the routine is only assumed to satisfy its own
stopping rule on positive definite systems (`CGStops`), not to solve them exactly.
-/

namespace GPX.Props
open GPX GPX.Spec

variable {d m n o v w : ℕ} {la : LinAlg}

/-- **C108**, targets: with a conjugate gradient routine that stops at `‖r‖² ≤ δ² = max(tol² ‖y - mu‖², atol²)`, the
iterative fit succeeds with the same mean as the dense fit, the coefficients differ by at most
`δ / (sigma² + 1e-10)`, and every prediction (iterative or dense) at every point `x*` from the iterative coefficients
differs from the dense prediction by at most `δ/2 * sqrt(k(x*, x*) / (sigma² + 1e-10))`. Any preconditioner, key and
number of pivots; the dataset does not consist of a single sample (C66). -/
theorem C108_fit (ex : la.Exact) (cg : CG) (tol atol : ℝ) (hcg : CGStops cg tol atol) {Key : Type}
    (split : Key → Key × Key) (choice : Key → (Fin n → ℝ) → Fin n) (e : KExpr d)
    (θ : GPParams) (h : Admissible e θ.kernelParams) (mf : MeanFun) (x : Batch n d) (y : Mat n o)
    (nPivots : ℕ) (key : Key) (hn : n ≠ 1) :
    let c := (fitDense la θ e.obj mf x y).1
    let δ2 := cgTarget tol atol (Matrix.of fun i a => y i a - mf y)
    ∃ c' : Mat n o, fitIter la cg split choice θ e.obj mf x y nPivots key = .ok (c', (fitDense la θ e.obj mf x y).2) ∧
      (θ.sigma ^ 2 + 1 / 10 ^ 10) ^ 2 * sumSq (c' - c) ≤ δ2 ∧
      ∀ {k : ℕ} (xs : Batch k d) (j : Fin k) (a : Fin o),
        4 * (θ.sigma ^ 2 + 1 / 10 ^ 10) *
            (predictIter θ e.obj x xs c' (mf y) j a - predictDense θ e.obj x xs c (mf y) j a) ^ 2 ≤
          e.obj.k θ.kernelParams xs xs j j * δ2 := by
  intro c δ2
  have hp := aLhsNoise_posDef e θ h x
  have hmv : (axLhsFun θ e.obj true x x : Mat n o → Mat n o) = fun z : Mat n o => aLhsNoise θ e.obj x x * z :=
    funext fun z => (axLhsFun_eq θ (C63_sampleWise e θ.kernelParams)).2 x x z
  have hs : aLhsNoise θ e.obj x x * c = centerBy y (mf y) := ex.solve _ _ (posDef_isUnit hp)
  obtain ⟨M, hM⟩ : ∃ M : Mat n o → Mat n o, fitIter la cg split choice θ e.obj mf x y nPivots key =
      .ok (cg (fun z : Mat n o => aLhsNoise θ e.obj x x * z) (centerBy y (mf y)) M, mf y) := by
    unfold fitIter precondRpcholesky rpcholesky
    simp only [hn, if_false, hmv]
    exact ⟨_, rfl⟩
  have hr := hcg _ (centerBy y (mf y)) M hp
  refine ⟨_, hM, ((residual_bound (C22_gram_posSemidef e θ.kernelParams h x) (noise_pos θ) hs).1).trans hr, ?_⟩
  intro k xs j a
  have hj := joint_psd e θ.kernelParams h x xs
  refine le_trans ?_ (mul_le_mul_of_nonneg_left hr
    ((hj.submatrix (Sum.inr : Fin k → Fin n ⊕ Fin k)).diag_nonneg (i := j)))
  have := residual_predict hj (noise_pos θ) hs (c' := cg (fun z : Mat n o => aLhsNoise θ e.obj x x * z)
    (centerBy y (mf y)) M) j a
  rw [predictIter_eq e]
  simp only [predictDense, addScalar, Matrix.of_apply, add_sub_add_left_eq_sub]
  exact this

/-- **C108**, the likelihood of one output: with an exact log-determinant, the iterative log marginal likelihood per
sample differs from the dense one by at most `‖y - mu‖ δ / (2 n (sigma² + 1e-10))`. -/
theorem C108_likelihood (ex : la.Exact) (cg : CG) (tol atol : ℝ) (hcg : CGStops cg tol atol) {Key : Type}
    (split : Key → Key × Key) (choice : Key → (Fin n → ℝ) → Fin n) (e : KExpr d)
    (θ : GPParams) (h : Admissible e θ.kernelParams) (mf : MeanFun) (x : Batch n d) (y : Mat n 1)
    (logdetFun : (Mat n 1 → Mat n 1) → ℝ)
    (hl : ∀ A : Mat n n, A.PosDef → logdetFun (fun z : Mat n 1 => A * z) = Real.log A.det)
    (nPivots : ℕ) (key : Key) (hn : n ≠ 1) :
    let b : Mat n 1 := Matrix.of fun i a => y i a - mf y
    ∃ l, lmlIter la cg split choice logdetFun θ e.obj mf x y nPivots key = .ok l ∧
      (2 * n * (θ.sigma ^ 2 + 1 / 10 ^ 10) * (l - lmlDense la θ e.obj mf x y)) ^ 2 ≤
        sumSq b * cgTarget tol atol b := by
  intro b
  obtain ⟨c', hc', h1, -⟩ := C108_fit ex cg tol atol hcg split choice e θ h mf x y nPivots key hn
  have hd := (C34_single_output_partial ex e θ h mf x y).2 idealCG idealCG_exact Key split choice logdetFun hl
    nPivots key hn
  have hf := C32_fit_iterative ex idealCG idealCG_exact split choice e θ h mf x y nPivots key hn
  set c := (fitDense la θ e.obj mf x y).1 with hc
  unfold lmlIter at hd ⊢
  rw [hf] at hd
  rw [hc']
  refine ⟨_, rfl, ?_⟩
  have hd' := Except.ok.inj hd
  have hd'' : lmlIterTail (logdetFun (axLhsFun θ e.obj true x x)) b c = lmlDense la θ e.obj mf x y := hd'
  rw [← hd'']
  have hy : centerBy y (fitDense la θ e.obj mf x y).2 = b := rfl
  rw [hy]
  unfold lmlIterTail
  simp only
  by_cases hn0 : n = 0
  · subst hn0
    simp only [CharP.cast_eq_zero, mul_zero, zero_mul, ne_eq, OfNat.ofNat_ne_zero, not_false_eq_true, zero_pow]
    simp [sumSq]
  have hn' : (n : ℝ) ≠ 0 := by exact_mod_cast hn0
  have hdiff : ∀ q q' L P : ℝ, 2 * n * (θ.sigma ^ 2 + 1 / 10 ^ 10) *
      ((-(1 / 2) * q' - 1 / 2 * L - P) / n - (-(1 / 2) * q - 1 / 2 * L - P) / n) =
      -((θ.sigma ^ 2 + 1 / 10 ^ 10) * (q' - q)) := by
    intro q q' L P
    field_simp
    ring
  rw [hdiff]
  have hq : (∑ a, ∑ b', (b.transpose * c') a b') - (∑ a, ∑ b', (b.transpose * c) a b') =
      ∑ i, b i 0 * (c' - c) i 0 := by
    simp only [Finset.univ_unique, Finset.sum_singleton, Matrix.mul_apply, Matrix.transpose_apply, Matrix.sub_apply,
      mul_sub, Finset.sum_sub_distrib, Fin.default_eq_zero]
  rw [hq, neg_sq, mul_pow]
  have hcs := Finset.sum_mul_sq_le_sq_mul_sq Finset.univ (fun i => b i 0) (fun i => (c' - c) i 0)
  have e1 : ∑ i, b i 0 ^ 2 = sumSq b := by simp [sumSq]
  have e2 : ∑ i, (c' - c) i 0 ^ 2 = sumSq (c' - c) := by simp [sumSq]
  rw [e1, e2] at hcs
  have hb : 0 ≤ sumSq b := Finset.sum_nonneg fun i _ => Finset.sum_nonneg fun a _ => sq_nonneg _
  calc (θ.sigma ^ 2 + 1 / 10 ^ 10) ^ 2 * (∑ i, b i 0 * (c' - c) i 0) ^ 2
      ≤ (θ.sigma ^ 2 + 1 / 10 ^ 10) ^ 2 * (sumSq b * sumSq (c' - c)) :=
        mul_le_mul_of_nonneg_left hcs (sq_nonneg _)
    _ = sumSq b * ((θ.sigma ^ 2 + 1 / 10 ^ 10) ^ 2 * sumSq (c' - c)) := by ring
    _ ≤ _ := mul_le_mul_of_nonneg_left h1 hb

/-- **C108**, derivatives: the same for `fit_derivs`, derivative predictions compared with the derivative kernel at
the new sample. Kernel expressions with positive semidefinite derivative Gram matrices (C65). -/
theorem C108_fit_derivs (ex : la.Exact) (cg : CG) (tol atol : ℝ) (hcg : CGStops cg tol atol) {Key : Type}
    (split : Key → Key × Key) (choice : Key → (Fin (n * v) → ℝ) → Fin (n * v)) (e : KExpr d) (θ : GPParams) (h : DerivSmooth e θ.kernelParams) (mf : MeanFun) (x : Batch n d)
    (J : Jac n d v) (y : Mat n v) (nPivots : ℕ) (key : Key) :
    let c := (fitDerivsDense la θ e.obj mf x J y).1
    let mu := mf (flatCol y)
    let δ2 := cgTarget tol atol (Matrix.of fun r a => flatCol y r a - mu)
    let c' := (fitDerivsIter la cg split choice θ e.obj mf x J y nPivots key).1
    (fitDerivsIter la cg split choice θ e.obj mf x J y nPivots key).2 = mu ∧
      (θ.sigma ^ 2 + 1 / 10 ^ 10) ^ 2 * sumSq (c' - c) ≤ δ2 ∧
      ∀ {k w : ℕ} (xs : Batch k d) (Js : Jac k d w) (j : Fin k) (u : Fin w),
        4 * (θ.sigma ^ 2 + 1 / 10 ^ 10) *
            (predictDerivsIter θ e.obj x J xs Js c' mu j u - predictDerivsDense θ e.obj x J xs Js c mu j u) ^ 2 ≤
          e.obj.d01kj θ.kernelParams xs xs Js Js (flat j u) (flat j u) * δ2 := by
  intro c mu δ2 c'
  have hg := C65_gram_partial e θ.kernelParams h x J
  have hp : (aDerivsLhsNoise θ e.obj x J x J).PosDef := posDef_add_smul_one hg (noise_pos θ)
  have hmv : (axDerivsLhsFun θ e.obj true x J x J : Mat (n * v) 1 → Mat (n * v) 1) =
      fun z : Mat (n * v) 1 => aDerivsLhsNoise θ e.obj x J x J * z :=
    funext fun z => (axDerivsLhsFun_eq θ (C63_sampleWise e θ.kernelParams)).2 x J x J z
  have hs : aDerivsLhsNoise θ e.obj x J x J * c = centerBy (flatCol y) mu := ex.solve _ _ (posDef_isUnit hp)
  have hc' : c' = cg (fun z : Mat (n * v) 1 => aDerivsLhsNoise θ e.obj x J x J * z) (centerBy (flatCol y) mu)
      (precondRpcholeskyDerivs la split choice θ e.obj x J nPivots key) := by
    simp only [c', fitDerivsIter, hmv]
    rfl
  have hr : sumSq (centerBy (flatCol y) mu - aDerivsLhsNoise θ e.obj x J x J * c') ≤ δ2 := by
    rw [hc']
    exact hcg _ (centerBy (flatCol y) mu) _ hp
  refine ⟨rfl, ((residual_bound hg (noise_pos θ) hs).1).trans hr, ?_⟩
  intro k w xs Js j u
  have hj := C65_two_datasets_partial e θ.kernelParams h x J xs Js
  refine le_trans ?_ (mul_le_mul_of_nonneg_left hr
    ((hj.submatrix (Sum.inr : Fin (k * w) → Fin (n * v) ⊕ Fin (k * w))).diag_nonneg (i := flat j u)))
  rw [predictDerivsIter_eq e]
  have := residual_predict hj (noise_pos θ) hs (c' := c') (flat j u) 0
  simp only [predictDerivsDense, predictDerivsFlat, unflatCol, addScalar, Matrix.of_apply, add_sub_add_left_eq_sub,
    prod_flat]
  exact this

/-- **C108**, sparse model: with `sigma ≠ 0`, predictions of `SGPR` from the iterative coefficients at every point
`x*` differ from the dense ones by at most `δ/2 * sqrt(k(x*, x*) / (1e-10 sigma²))`, where `δ` is the tolerance for
the right-hand side `K_mn (y - mu)`; coefficients by at most `1e10 δ`, and the predictions at all training points
together by at most `δ/2 * 1e5` in the Euclidean norm. -/
theorem C108_sparse (ex : la.Exact) (cg : CG) (tol atol : ℝ) (hcg : CGStops cg tol atol) (e : KExpr d) (θ : GPParams) (h : Admissible e θ.kernelParams) (mf : MeanFun)
    (xl : Batch m d) (x : Batch n d) (y : Mat n o) :
    let c := (sgprFitDense la θ e.obj mf xl x y).1
    let c' := (sgprFitIter cg θ e.obj mf xl x y).1
    let δ2 := cgTarget tol atol
      (Matrix.of fun a b => ∑ i, e.obj.k θ.kernelParams xl x a i * (y i b - mf y) : Mat m o)
    (1 / 10 ^ 10) ^ 2 * sumSq (c' - c) ≤ δ2 ∧
    (∀ a, 4 * (1 / 10 ^ 10) * ∑ i,
      (sgprPredictIter θ e.obj xl x c' (mf y) i a - sgprPredict θ e.obj xl x c (mf y) i a) ^ 2 ≤ δ2) ∧
    ∀ {k : ℕ} (xs : Batch k d) (j : Fin k) (a : Fin o),
      4 * (1 / 10 ^ 10) * θ.sigma ^ 2 *
          (sgprPredictIter θ e.obj xl xs c' (mf y) j a - sgprPredict θ e.obj xl xs c (mf y) j a) ^ 2 ≤
        e.obj.k θ.kernelParams xs xs j j * δ2 := by
  intro c c' δ2
  have hK := C22_gram_posSemidef e θ.kernelParams h xl
  have h1 := C63_sampleWise e θ.kernelParams
  set K : Mat m m := Matrix.of (e.obj.k θ.kernelParams xl xl) with hKdef
  set B : Mat m n := Matrix.of (e.obj.k θ.kernelParams xl x) with hBdef
  have hA : (sgprALhs θ e.obj xl x).1 = (θ.sigma ^ 2 • K + B * B.transpose) + noiseJitter • (1 : Mat m m) := rfl
  have hS : (θ.sigma ^ 2 • K + B * B.transpose).PosSemidef :=
    (hK.smul (sq_nonneg _)).add (gram_posSemidef' B)
  have hj0 : (0 : ℝ) < noiseJitter := by unfold noiseJitter; positivity
  have hp : (sgprALhs θ e.obj xl x).1.PosDef := hA ▸ posDef_add_smul_one hS hj0
  have hs : (sgprALhs θ e.obj xl x).1 * c = B * centerBy y (mf y) := ex.solve _ _ (posDef_isUnit hp)
  have hmv : (sgprAxLhs θ e.obj xl x : Mat m o → Mat m o) = fun z : Mat m o => (sgprALhs θ e.obj xl x).1 * z :=
    funext fun z => sgprAxLhs_eq θ h1 (C21_symmetric e _) xl x z
  have hc' : c' = cg (fun z : Mat m o => (sgprALhs θ e.obj xl x).1 * z) (B * centerBy y (mf y)) id := by
    simp only [c', sgprFitIter, hmv]
    rw [sgprAxRhs_eq θ h1]
  have hb : (Matrix.of fun a b => ∑ i, e.obj.k θ.kernelParams xl x a i * (y i b - mf y) : Mat m o) =
      B * centerBy y (mf y) := by
    ext a b
    simp [Matrix.mul_apply, hBdef, centerBy]
  have hr : sumSq (B * centerBy y (mf y) - (sgprALhs θ e.obj xl x).1 * c') ≤ δ2 := by
    simp only [δ2]
    rw [hb, hc']
    exact hcg _ _ _ hp
  rw [hA] at hs hr
  have hpred : ∀ {k : ℕ} (xs : Batch k d) (j : Fin k) (a : Fin o),
      sgprPredictIter θ e.obj xl xs c' (mf y) j a - sgprPredict θ e.obj xl xs c (mf y) j a =
        ∑ i, e.obj.k θ.kernelParams xl xs i j * (c' - c) i a := by
    intro k xs j a
    have hh := fun c0 : Mat m o => (C48_iterative_eq_dense ex idealCG idealCG_exact e θ h mf xl x y).2 xs c0 (mf y)
    rw [(hh c').1, (hh c').2, (hh c).2, add_sub_add_left_eq_sub, ← Finset.sum_sub_distrib]
    refine Finset.sum_congr rfl fun i _ => ?_
    rw [(C21_symmetric e θ.kernelParams).k xs xl, Matrix.sub_apply, mul_sub]
  have hquad : ∀ a, ∑ i, ∑ j, (c' - c) i a * (θ.sigma ^ 2 • K + B * B.transpose) i j * (c' - c) j a =
      θ.sigma ^ 2 * (∑ i, ∑ j, (c' - c) i a * K i j * (c' - c) j a) +
        ∑ l, (∑ i, B i l * (c' - c) i a) ^ 2 := by
    intro a
    have t1 : ∑ l, (∑ i, B i l * (c' - c) i a) ^ 2 =
        ∑ i, ∑ j, (c' - c) i a * (B * B.transpose) i j * (c' - c) j a := by
      simp only [sq, Matrix.mul_apply, Matrix.transpose_apply, Finset.mul_sum, Finset.sum_mul]
      rw [Finset.sum_comm]
      refine Finset.sum_congr rfl fun i _ => ?_
      rw [Finset.sum_comm]
      exact Finset.sum_congr rfl fun j _ => Finset.sum_congr rfl fun l _ => by ring
    rw [t1, Finset.mul_sum, ← Finset.sum_add_distrib]
    refine Finset.sum_congr rfl fun i _ => ?_
    rw [Finset.mul_sum, ← Finset.sum_add_distrib]
    refine Finset.sum_congr rfl fun j _ => ?_
    rw [Matrix.add_apply, Matrix.smul_apply, smul_eq_mul]
    ring
  have hres := residual_bound hS hj0 hs (c' := c')
  have hsq : ∀ a, 0 ≤ ∑ l, (∑ i, B i l * (c' - c) i a) ^ 2 := fun a => Finset.sum_nonneg fun _ _ => sq_nonneg _
  refine ⟨hres.1.trans hr, fun a => ?_, fun {k} xs j a => ?_⟩
  · have h2 := (hres.2 a).trans hr
    rw [hquad a] at h2
    simp only [hpred]
    have h3 := mul_nonneg (sq_nonneg θ.sigma) (psd_quad hK fun i => (c' - c) i a)
    refine le_trans ?_ h2
    rw [noiseJitter]
    exact mul_le_mul_of_nonneg_left (le_add_of_nonneg_left h3) (by positivity)
  · have h2 := (hres.2 a).trans hr
    rw [hquad a] at h2
    have hjt := joint_psd e θ.kernelParams h xl xs
    have hD : 0 ≤ e.obj.k θ.kernelParams xs xs j j :=
      (hjt.submatrix (Sum.inr : Fin k → Fin m ⊕ Fin k)).diag_nonneg (i := j)
    have h3 := block_cauchy hjt (fun i => (c' - c) i a) j
    rw [hpred]
    have hc0 : (0 : ℝ) ≤ 4 * (1 / 10 ^ 10) * θ.sigma ^ 2 := by positivity
    calc 4 * (1 / 10 ^ 10) * θ.sigma ^ 2 * (∑ i, e.obj.k θ.kernelParams xl xs i j * (c' - c) i a) ^ 2
        ≤ 4 * (1 / 10 ^ 10) * θ.sigma ^ 2 * (e.obj.k θ.kernelParams xs xs j j *
          ∑ i, ∑ i', (c' - c) i a * K i i' * (c' - c) i' a) := mul_le_mul_of_nonneg_left h3 hc0
      _ = e.obj.k θ.kernelParams xs xs j j *
          (4 * (1 / 10 ^ 10) * (θ.sigma ^ 2 * ∑ i, ∑ i', (c' - c) i a * K i i' * (c' - c) i' a)) := by ring
      _ ≤ _ := mul_le_mul_of_nonneg_left (le_trans (mul_le_mul_of_nonneg_left
          (le_add_of_nonneg_right (hsq a)) (by positivity)) h2) hD

/-- Non-vacuity: a routine that stops early satisfies the contract without being exact. -/
example : CGStops (earlyCG (1 - 1 / 10 ^ 5)) (1 / 10 ^ 5) (1 / 10 ^ 7) ∧ ¬ CGExact (earlyCG (1 - 1 / 10 ^ 5)) := by
  refine ⟨earlyCG_stops (by norm_num [abs_of_nonneg]), fun hx => ?_⟩
  have h := hx (1 : Mat 1 1) (1 : Mat 1 1) id Matrix.PosDef.one
  have h' := idealCG_exact (1 : Mat 1 1) (1 : Mat 1 1) id Matrix.PosDef.one
  simp only [earlyCG, Matrix.mul_smul] at h
  rw [h'] at h
  have := congrFun (congrFun h 0) 0
  norm_num at this

end GPX.Props
