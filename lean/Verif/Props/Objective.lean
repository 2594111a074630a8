import Verif.Props.Likelihood
import Verif.Props.SGPR
import Verif.Props.JointPSD
import Verif.Props.GPRTD
import Mathlib.Analysis.Matrix.Spectrum
import Mathlib.Analysis.Convex.SpecificFunctions.Basic

/-!
# C133: the training objective is bounded
-/

namespace GPX.Props
open GPX GPX.Spec

variable {d n m o v w : ℕ} {la : LinAlg}

/-! ## Determinants and quadratic forms of a shifted matrix -/

theorem det_shift {S : Mat n n} (hS : S.PosSemidef) (c : ℝ) :
    (S + c • (1 : Mat n n)).det = ∏ i, (hS.isHermitian.eigenvalues i + c) := by
  have h1 := Matrix.eval_charpoly S (-c)
  rw [hS.isHermitian.charpoly_eq, Polynomial.eval_prod] at h1
  have h2 : Matrix.scalar (Fin n) (-c) - S = -(S + c • (1 : Mat n n)) := by
    ext i j
    simp [Matrix.scalar_apply, Matrix.one_apply, Matrix.diagonal_apply]
    split_ifs <;> ring
  rw [h2, Matrix.det_neg] at h1
  have h3 : ∏ i, ((Polynomial.X - Polynomial.C (hS.isHermitian.eigenvalues i)).eval (-c)) =
      (-1) ^ n * ∏ i, (hS.isHermitian.eigenvalues i + c) := by
    have h4 : ((-1 : ℝ)) ^ n = ∏ _i : Fin n, (-1 : ℝ) := by simp
    rw [h4, ← Finset.prod_mul_distrib]
    refine Finset.prod_congr rfl fun i _ => ?_
    simp
    ring
  simp only [RCLike.ofReal_real_eq_id, id] at h1
  rw [h3, Fintype.card_fin] at h1
  exact (mul_left_cancel₀ (pow_ne_zero n (by norm_num : (-1 : ℝ) ≠ 0)) h1).symm

theorem pow_le_det_shift {S : Mat n n} (hS : S.PosSemidef) {c : ℝ} (hc : 0 < c) :
    c ^ n ≤ (S + c • (1 : Mat n n)).det := by
  rw [det_shift hS]
  calc c ^ n = ∏ _i : Fin n, c := by simp
    _ ≤ _ := Finset.prod_le_prod (fun _ _ => hc.le) fun i _ => by linarith [hS.eigenvalues_nonneg i]

theorem log_det_shift_le {S : Mat n n} (hS : S.PosSemidef) {c : ℝ} (hc : 0 < c) (hn : 0 < n) :
    Real.log (S + c • (1 : Mat n n)).det ≤ n * Real.log (S.trace / n + c) := by
  have hp : ∀ i, 0 < hS.isHermitian.eigenvalues i + c := fun i => by linarith [hS.eigenvalues_nonneg i]
  have hn' : (0 : ℝ) < n := by exact_mod_cast hn
  rw [det_shift hS, Real.log_prod fun i _ => (hp i).ne']
  have hJ := strictConcaveOn_log_Ioi.concaveOn.le_map_sum (t := Finset.univ) (w := fun _ : Fin n => (1 : ℝ) / n)
    (p := fun i => hS.isHermitian.eigenvalues i + c) (fun _ _ => by positivity) (by simp [hn'.ne']) fun i _ => hp i
  have ht : ∑ i, (1 : ℝ) / n * (hS.isHermitian.eigenvalues i + c) = S.trace / n + c := by
    rw [hS.isHermitian.trace_eq_sum_eigenvalues, ← Finset.mul_sum, Finset.sum_add_distrib]
    simp
    field_simp
  simp only [smul_eq_mul, ht, ← Finset.mul_sum] at hJ
  rw [one_div, inv_mul_le_iff₀ hn'] at hJ
  exact hJ

/-- `yᵀ (S + c)⁻¹ y ≤ |y|² / c`. -/
theorem quad_shift_le {S : Mat n n} (hS : S.PosSemidef) {c : ℝ} (hc : 0 < c) (y : Fin n → ℝ) :
    ∑ i, ∑ j, y i * (S + c • (1 : Mat n n))⁻¹ i j * y j ≤ (∑ i, y i ^ 2) / c := by
  have hu := posDef_isUnit (posDef_add_smul_one hS hc)
  obtain ⟨z, hz⟩ : ∃ z, z = (S + c • (1 : Mat n n))⁻¹.mulVec y := ⟨_, rfl⟩
  have hy : y = S.mulVec z + c • z := by
    have h := congrArg (fun A : Mat n n => A.mulVec y) (Matrix.mul_nonsing_inv _ hu)
    simp only [← Matrix.mulVec_mulVec, Matrix.one_mulVec, ← hz, Matrix.add_mulVec, Matrix.smul_mulVec] at h
    exact h.symm
  have hq : ∑ i, ∑ j, y i * (S + c • (1 : Mat n n))⁻¹ i j * y j = y ⬝ᵥ z := by
    rw [hz]
    simp only [dotProduct, Matrix.mulVec, Finset.mul_sum, mul_assoc]
  have h0 : 0 ≤ z ⬝ᵥ S.mulVec z := by simpa using hS.dotProduct_mulVec_nonneg z
  have h1 : 0 ≤ S.mulVec z ⬝ᵥ S.mulVec z := Finset.sum_nonneg fun i _ => mul_self_nonneg _
  rw [hq, le_div_iff₀ hc]
  have h2 : ∑ i, y i ^ 2 = y ⬝ᵥ y := Finset.sum_congr rfl fun i _ => sq (y i)
  have h3 : y ⬝ᵥ y = S.mulVec z ⬝ᵥ S.mulVec z + c * (z ⬝ᵥ S.mulVec z) + c * (y ⬝ᵥ z) := by
    have h4 : ∀ a : Fin n → ℝ, (a + c • z) ⬝ᵥ (a + c • z) = a ⬝ᵥ a + c * (z ⬝ᵥ a) + c * ((a + c • z) ⬝ᵥ z) := by
      intro a
      simp only [add_dotProduct, dotProduct_add, smul_dotProduct, dotProduct_smul, smul_eq_mul]
    have h5 := h4 (S.mulVec z)
    rw [← hy] at h5
    exact h5
  rw [h2, h3]
  nlinarith [mul_nonneg hc.le h0]

/-! ## The likelihood of a positive semidefinite matrix plus noise -/

theorem lmlTail_le (ex : la.Exact) {S : Mat n n} (hS : S.PosSemidef) {c : ℝ} (hc : 0 < c) (hn : 0 < n) (y : Mat n o) :
    lmlTail la (S + c • (1 : Mat n n)) y ≤ -(1 / 2) * Real.log (2 * Real.pi * c) := by
  have hp := posDef_add_smul_one hS hc
  have hn' : (0 : ℝ) < n := by exact_mod_cast hn
  have h := lmlTail_eq hp ex y
  have hq : 0 ≤ ∑ a, ∑ i, ∑ j, y i a * (S + c • (1 : Mat n n))⁻¹ i j * y j a := by
    rw [← quad_sum hp ex]
    exact Finset.sum_nonneg fun i _ => Finset.sum_nonneg fun a _ => sq_nonneg _
  have hd : n * Real.log c ≤ Real.log (S + c • (1 : Mat n n)).det := by
    rw [← Real.log_pow]
    exact Real.log_le_log (by positivity) (pow_le_det_shift hS hc)
  rw [Real.log_mul (by positivity) hc.ne']
  refine le_of_mul_le_mul_left ?_ hn'
  rw [h]
  linarith

theorem le_lmlTail (ex : la.Exact) {S : Mat n n} (hS : S.PosSemidef) {c : ℝ} (hc : 0 < c) (hn : 0 < n) (y : Mat n o) :
    -(∑ i, ∑ a, y i a ^ 2) / (2 * n * c) - 1 / 2 * Real.log (2 * Real.pi * (S.trace / n + c)) ≤
      lmlTail la (S + c • (1 : Mat n n)) y := by
  have hp := posDef_add_smul_one hS hc
  have hn' : (0 : ℝ) < n := by exact_mod_cast hn
  have h := lmlTail_eq hp ex y
  have hq : ∑ a, ∑ i, ∑ j, y i a * (S + c • (1 : Mat n n))⁻¹ i j * y j a ≤ (∑ i, ∑ a, y i a ^ 2) / c := by
    rw [Finset.sum_comm (f := fun i a => y i a ^ 2), Finset.sum_div]
    exact Finset.sum_le_sum fun a _ => quad_shift_le hS hc fun i => y i a
  have hd := log_det_shift_le hS hc hn
  have ht : 0 ≤ S.trace := hS.trace_nonneg
  have hpos : 0 < S.trace / n + c := by positivity
  rw [Real.log_mul (by positivity) hpos.ne']
  refine le_of_mul_le_mul_left ?_ hn'
  rw [h]
  have e : n * (-(∑ i, ∑ a, y i a ^ 2) / (2 * n * c) - 1 / 2 * (Real.log (2 * Real.pi) + Real.log (S.trace / n + c))) =
      -(1 / 2) * ((∑ i, ∑ a, y i a ^ 2) / c) - 1 / 2 * (n * Real.log (S.trace / n + c)) -
        n * (1 / 2) * Real.log (2 * Real.pi) := by
    field_simp
    ring
  rw [e]
  linarith

/-- A bound on minus the logarithm bounds the argument. -/
theorem le_of_loss {l c L : ℝ} (hc : 0 < c) (h : l ≤ -(1 / 2) * Real.log (2 * Real.pi * c)) (hL : -l ≤ L) :
    c ≤ Real.exp (2 * L) / (2 * Real.pi) := by
  rw [le_div_iff₀ (by positivity), mul_comm]
  rw [← Real.log_le_iff_le_exp (by positivity)]
  linarith

theorem jitter_bound {c : ℝ} (h : 1 / 10 ^ 10 ≤ c) :
    -(1 / 2) * Real.log (2 * Real.pi * c) ≤ 1 / 2 * Real.log (10 ^ 10 / (2 * Real.pi)) := by
  have h1 : Real.log (10 ^ 10 / (2 * Real.pi)) = -Real.log (2 * Real.pi * (1 / 10 ^ 10)) := by
    rw [← Real.log_inv]
    congr 1
    field_simp
  have h2 : Real.log (2 * Real.pi * (1 / 10 ^ 10)) ≤ Real.log (2 * Real.pi * c) :=
    Real.log_le_log (by positivity) (by gcongr)
  rw [h1]
  linarith

/-! ## GPR and SGPR -/

theorem noise_ge (θ : GPParams) : 1 / 10 ^ 10 ≤ θ.noise := by
  rw [noise_eq]
  linarith [sq_nonneg θ.sigma]

/-- **C133**, GPR: the log marginal likelihood per sample lies between two explicit numbers. The upper one depends on
the noise alone; the lower one on the targets, the noise and the mean of the prior variances. -/
theorem C133_gpr (ex : la.Exact) (e : KExpr d) (θ : GPParams) (h : Admissible e θ.kernelParams) (mf : MeanFun)
    (x : Batch n d) (y : Mat n o) (hn : 0 < n) :
    lmlDense la θ e.obj mf x y ≤ -(1 / 2) * Real.log (2 * Real.pi * (θ.sigma ^ 2 + 1 / 10 ^ 10)) ∧
    -(∑ i, ∑ a, (y i a - mf y) ^ 2) / (2 * n * (θ.sigma ^ 2 + 1 / 10 ^ 10)) -
      1 / 2 * Real.log (2 * Real.pi * ((∑ i, e.obj.k θ.kernelParams x x i i) / n + (θ.sigma ^ 2 + 1 / 10 ^ 10))) ≤
      lmlDense la θ e.obj mf x y :=
  have hS := C22_gram_posSemidef e θ.kernelParams h x
  ⟨lmlTail_le ex hS (noise_pos θ) hn _, le_lmlTail ex hS (noise_pos θ) hn _⟩

/-- **C133**, GPR trained on derivatives. -/
theorem C133_gpr_derivs (ex : la.Exact) (e : KExpr d) (θ : GPParams)
    (h : DerivSmooth e θ.kernelParams) (mf : MeanFun) (x : Batch n d) (J : Jac n d v) (y : Mat n v) (hn : 0 < n * v) :
    lmlDerivsDense la θ e.obj mf x J y ≤ -(1 / 2) * Real.log (2 * Real.pi * (θ.sigma ^ 2 + 1 / 10 ^ 10)) ∧
    -(∑ i, ∑ u, (y i u - mf (flatCol y)) ^ 2) / (2 * (n * v : ℕ) * (θ.sigma ^ 2 + 1 / 10 ^ 10)) -
      1 / 2 * Real.log (2 * Real.pi * ((∑ i, ∑ u, e.obj.d01kj θ.kernelParams x x J J (flat i u) (flat i u)) /
        (n * v : ℕ) + (θ.sigma ^ 2 + 1 / 10 ^ 10))) ≤
      lmlDerivsDense la θ e.obj mf x J y := by
  have hS := C65_gram_partial e θ.kernelParams h x J
  refine ⟨lmlTail_le ex hS (noise_pos θ) hn _, ?_⟩
  have h1 := le_lmlTail ex hS (noise_pos θ) hn (centerBy (flatCol y) (mf (flatCol y)))
  have e1 : ∑ r, ∑ a, centerBy (flatCol y) (mf (flatCol y)) r a ^ 2 = ∑ i, ∑ u, (y i u - mf (flatCol y)) ^ 2 := by
    rw [← finProdFinEquiv.sum_comp, Fintype.sum_prod_type]
    refine Finset.sum_congr rfl fun i _ => Finset.sum_congr rfl fun u _ => ?_
    rw [Fin.sum_univ_one, prod_flat]
    simp [centerBy, flatCol]
  have e2 : (Matrix.of (e.obj.d01kj θ.kernelParams x x J J)).trace =
      ∑ i, ∑ u, e.obj.d01kj θ.kernelParams x x J J (flat i u) (flat i u) := by
    rw [Matrix.trace, ← finProdFinEquiv.sum_comp, Fintype.sum_prod_type]
    refine Finset.sum_congr rfl fun i _ => Finset.sum_congr rfl fun u _ => ?_
    rw [prod_flat]
    rfl
  rw [e1, e2] at h1
  exact h1

/-- **C133**, SGPR. -/
theorem C133_sgpr (ex : la.Exact) (e : KExpr d) (θ : GPParams) (h : Admissible e θ.kernelParams) (mf : MeanFun)
    (xl : Batch m d) (x : Batch n d) (y : Mat n o) (hn : 0 < n) :
    sgprLmlDense la θ e.obj mf xl x y ≤ -(1 / 2) * Real.log (2 * Real.pi * (θ.sigma ^ 2 + 1 / 10 ^ 10)) ∧
    -(∑ i, ∑ a, (y i a - mf y) ^ 2) / (2 * n * (θ.sigma ^ 2 + 1 / 10 ^ 10)) -
      1 / 2 * Real.log (2 * Real.pi * ((∑ i, e.obj.k θ.kernelParams x x i i) / n + (θ.sigma ^ 2 + 1 / 10 ^ 10))) ≤
      sgprLmlDense la θ e.obj mf xl x y := by
  have hK := posDef_add_smul_one (C22_gram_posSemidef e θ.kernelParams h xl) jitter_pos'
  obtain ⟨G, hG⟩ : ∃ G : Mat m n, G = la.solveLower (la.cholesky
    (Matrix.of (e.obj.k θ.kernelParams xl xl) + noiseJitter • (1 : Mat m m)))
    (Matrix.of (e.obj.k θ.kernelParams xl x)) := ⟨_, rfl⟩
  have hl : sgprLmlDense la θ e.obj mf xl x y =
      lmlTail la (G.transpose * G + θ.noise • (1 : Mat n n)) (centerBy y (mf y)) := by
    rw [hG, GPParams.noise, add_smul, ← add_assoc]
    rfl
  have hS := gram_posSemidef G
  have hn' : (0 : ℝ) < n := by exact_mod_cast hn
  have ht : (G.transpose * G).trace ≤ ∑ i, e.obj.k θ.kernelParams x x i i := by
    have h1 := schur_psd hK (Matrix.of (e.obj.k θ.kernelParams xl x)) (Matrix.of (e.obj.k θ.kernelParams x x))
      (blocks_noise jitter_pos'.le (joint_psd e θ.kernelParams h xl x))
    rw [← ex.gram hK, ← hG] at h1
    have h2 := h1.trace_nonneg
    rw [Matrix.trace_sub] at h2
    exact sub_nonneg.mp h2
  rw [hl]
  refine ⟨lmlTail_le ex hS (noise_pos θ) hn _, le_trans ?_ (le_lmlTail ex hS (noise_pos θ) hn _)⟩
  have h0 := hS.trace_nonneg
  have hnz := noise_pos θ
  have hlog : Real.log (2 * Real.pi * ((G.transpose * G).trace / n + θ.noise)) ≤
      Real.log (2 * Real.pi * ((∑ i, e.obj.k θ.kernelParams x x i i) / n + θ.noise)) :=
    Real.log_le_log (by positivity) (by gcongr)
  have := sub_le_sub_left (mul_le_mul_of_nonneg_left hlog (by norm_num : (0 : ℝ) ≤ 1 / 2))
    (-(∑ i, ∑ a, (y i a - mf y) ^ 2) / (2 * n * θ.noise))
  exact this

/-- **C133**, absolute bound: whatever the hyperparameters, the noise, the data and the inducing points, the log
marginal likelihood per sample of GPR and SGPR is at most `log(10¹⁰ / 2π) / 2`. -/
theorem C133_bounded (ex : la.Exact) (e : KExpr d) (θ : GPParams) (h : Admissible e θ.kernelParams) (mf : MeanFun)
    (xl : Batch m d) (x : Batch n d) (y : Mat n o) (hn : 0 < n) :
    lmlDense la θ e.obj mf x y ≤ 1 / 2 * Real.log (10 ^ 10 / (2 * Real.pi)) ∧
    sgprLmlDense la θ e.obj mf xl x y ≤ 1 / 2 * Real.log (10 ^ 10 / (2 * Real.pi)) :=
  ⟨(C133_gpr ex e θ h mf x y hn).1.trans (jitter_bound (noise_ge θ)),
    (C133_sgpr ex e θ h mf xl x y hn).1.trans (jitter_bound (noise_ge θ))⟩

/-- **C133**, the noise cannot run away: parameters whose loss (minus the log marginal likelihood) is at most `L` have
`sigma² + 1e-10 ≤ exp(2 L) / 2π`, whatever the data. -/
theorem C133_noise (ex : la.Exact) (e : KExpr d) (θ : GPParams) (h : Admissible e θ.kernelParams) (mf : MeanFun)
    (xl : Batch m d) (x : Batch n d) (y : Mat n o) (hn : 0 < n) (L : ℝ) :
    (-lmlDense la θ e.obj mf x y ≤ L → θ.sigma ^ 2 + 1 / 10 ^ 10 ≤ Real.exp (2 * L) / (2 * Real.pi)) ∧
    (-sgprLmlDense la θ e.obj mf xl x y ≤ L → θ.sigma ^ 2 + 1 / 10 ^ 10 ≤ Real.exp (2 * L) / (2 * Real.pi)) :=
  ⟨le_of_loss (noise_pos θ) (C133_gpr ex e θ h mf x y hn).1,
    le_of_loss (noise_pos θ) (C133_sgpr ex e θ h mf xl x y hn).1⟩

/-! ## GPR_TD -/

theorem shift_of_cov {I : Type} [Fintype I] [DecidableEq I] {N : ℕ} (pos : I → Fin N) (hpos : Function.Bijective pos)
    (A : Mat N N) (C : I → I → ℝ) (s : I → ℝ) {c : ℝ} (hs : ∀ a, c ≤ s a)
    (hA : ∀ a b, A (pos a) (pos b) = C a b + if a = b then s a else 0) (hC : (Matrix.of C).PosSemidef) :
    (A - c • (1 : Mat N N)).PosSemidef := by
  have h1 : (Matrix.diagonal (fun a => s a - c) + Matrix.of C).PosSemidef :=
    (Matrix.posSemidef_diagonal_iff.2 fun a => sub_nonneg.2 (hs a)).add hC
  have h2 := h1.submatrix (Equiv.ofBijective pos hpos).symm
  convert h2
  ext i j
  obtain ⟨a, rfl⟩ := hpos.2 i
  obtain ⟨b, rfl⟩ := hpos.2 j
  have e : ∀ a, (Equiv.ofBijective pos hpos).symm (pos a) = a := fun a =>
    (Equiv.ofBijective pos hpos).symm_apply_apply a
  rw [Matrix.submatrix_apply, e, e, Matrix.sub_apply, hA, Matrix.add_apply, Matrix.diagonal_apply, Matrix.of_apply,
    Matrix.smul_apply, Matrix.one_apply, smul_eq_mul]
  by_cases hab : a = b
  · subst hab
    simp
    ring
  · simp [hab, hpos.1.ne hab]

/-- **C133**, GPR_TD with one set of derivatives: the likelihood per observation is bounded by the smaller noise, and
absolutely. -/
theorem C133_td (ex : la.Exact) (e : KExpr d) (θ : TDParams) (h : JointSmooth e θ.kernelParams)
    (mf : MeanFun) (x : Batch n d) (y : Mat n 1) (J : Jac n d v) (yd : Mat n v) (hn : 0 < n) :
    tdLmlDense1 la θ e.obj mf x y J yd ≤
      -(1 / 2) * Real.log (2 * Real.pi * (min (θ.sigmaTargets ^ 2) (θ.sigmaDerivs ^ 2) + 1 / 10 ^ 10)) ∧
    tdLmlDense1 la θ e.obj mf x y J yd ≤ 1 / 2 * Real.log (10 ^ 10 / (2 * Real.pi)) := by
  obtain ⟨c, hc⟩ : ∃ c, c = min (θ.sigmaTargets ^ 2) (θ.sigmaDerivs ^ 2) + (1 / 10 ^ 10 : ℝ) := ⟨_, rfl⟩
  have hm : 0 ≤ min (θ.sigmaTargets ^ 2) (θ.sigmaDerivs ^ 2) := le_min (sq_nonneg _) (sq_nonneg _)
  have hc0 : 1 / 10 ^ 10 ≤ c := by rw [hc]; linarith
  have hcp : 0 < c := lt_of_lt_of_le (by positivity) hc0
  have hs : ∀ a : Obs1 n v, c ≤ noise1 θ a := by
    intro a
    rw [hc]
    rcases a with i | ⟨i, u⟩
    · simp only [noise1]; gcongr; exact min_le_left _ _
    · simp only [noise1]; gcongr; exact min_le_right _ _
  have hS := shift_of_cov pos1 pos1_bij _ _ (noise1 θ) hs (C52_entries1 e.obj θ x J x J).2.2
    (C78_joint_partial e _ h x J J).1
  have hl : tdLmlDense1 la θ e.obj mf x y J yd = lmlTail la ((tdALhsNoise1 θ e.obj x J x J -
      c • (1 : Mat (n + n * v) (n + n * v))) + c • (1 : Mat (n + n * v) (n + n * v))) (tdRhs1 mf y yd) := by
    rw [sub_add_cancel]
    rfl
  have h1 := lmlTail_le ex hS hcp (by omega) (tdRhs1 mf y yd)
  rw [← hl] at h1
  rw [← hc]
  exact ⟨h1, h1.trans (jitter_bound hc0)⟩

/-- **C133**, GPR_TD with two sets of derivatives: the dense likelihood divides by the number `n + n v` of observations
without the second set, so its bound grows with the second set. -/
theorem C133_td_two (ex : la.Exact) (e : KExpr d) (θ : TDParams) (h : JointSmooth e θ.kernelParams)
    (mf : MeanFun) (x : Batch n d) (y : Mat n 1) {v' : ℕ} (J : Jac n d v) (J' : Jac n d v') (yd : Mat n v)
    (yd' : Mat n v') (hn : 0 < n) :
    tdLmlDense2 la θ e.obj mf x y J J' yd yd' ≤
      1 / 2 * ((n + n * v + n * v' : ℕ) / (n + n * v : ℕ) * Real.log (10 ^ 10)) - 1 / 2 * Real.log (2 * Real.pi) := by
  have hs : ∀ a : Obs2 n v v', (1 / 10 ^ 10 : ℝ) ≤ noise2 θ a := by
    intro a
    rcases a with (i | ⟨i, u⟩) | ⟨i, u⟩ <;> simp only [noise2, noise1] <;>
      linarith [sq_nonneg θ.sigmaTargets, sq_nonneg θ.sigmaDerivs, sq_nonneg θ.sigmaDerivs2]
  have hS := shift_of_cov pos2 pos2_bij _ _ (noise2 θ) hs (C52_entries2 e.obj θ x J J' x J J').2.2
    (C78_joint_partial e _ h x J J').2
  have hm : (0 : ℝ) < (n + n * v : ℕ) := by exact_mod_cast (by omega : 0 < n + n * v)
  have hN : (0 : ℝ) < (n + n * v + n * v' : ℕ) := by exact_mod_cast (by omega : 0 < n + n * v + n * v')
  obtain ⟨Q, hQ⟩ : ∃ Q, Q = lmlTail la (tdALhsNoise2 θ e.obj x J J' x J J') (tdRhs2 mf y yd yd') := ⟨_, rfl⟩
  have h1 := lmlTail_le ex hS (c := 1 / 10 ^ 10) (by positivity) (by omega) (tdRhs2 mf y yd yd')
  rw [sub_add_cancel, ← hQ] at h1
  have h2 : (n + n * v : ℕ) * (tdLmlDense2 la θ e.obj mf x y J J' yd yd' + 1 / 2 * Real.log (2 * Real.pi)) =
      (n + n * v + n * v' : ℕ) * (Q + 1 / 2 * Real.log (2 * Real.pi)) := by
    rw [hQ]
    unfold tdLmlDense2 tdLmlTail lmlTail
    simp only
    field_simp
    ring
  have h3 : Real.log (2 * Real.pi * (1 / 10 ^ 10)) = Real.log (2 * Real.pi) - Real.log (10 ^ 10) := by
    rw [Real.log_mul (by positivity) (by positivity), one_div, Real.log_inv]
    ring
  rw [h3] at h1
  have h4 : (n + n * v : ℕ) * (tdLmlDense2 la θ e.obj mf x y J J' yd yd' + 1 / 2 * Real.log (2 * Real.pi)) ≤
      (n + n * v + n * v' : ℕ) * (1 / 2 * Real.log (10 ^ 10)) := by
    rw [h2]
    exact mul_le_mul_of_nonneg_left (by linarith) hN.le
  rw [← le_div_iff₀' hm] at h4
  have h5 : ((n + n * v + n * v' : ℕ) : ℝ) * (1 / 2 * Real.log (10 ^ 10)) / (n + n * v : ℕ) =
      1 / 2 * ((n + n * v + n * v' : ℕ) / (n + n * v : ℕ) * Real.log (10 ^ 10)) := by
    field_simp
  linarith

/-! ## Non-vacuity -/

example : Admissible (.matern12 none : KExpr 1) (⟨fun _ => 1, 0⟩ : GPParams).kernelParams ∧
    lmlDense LinAlg.ideal ⟨fun _ => 1, 0⟩ (.matern12 none : KExpr 1).obj dataMean
      (fun i _ => (i : ℕ) : Batch 3 1) (fun i a => (i : ℕ) * (a : ℕ) : Mat 3 2) ≤
        1 / 2 * Real.log (10 ^ 10 / (2 * Real.pi)) :=
  have h : Admissible (.matern12 none : KExpr 1) (⟨fun _ => 1, 0⟩ : GPParams).kernelParams := one_pos
  ⟨h, (C133_bounded (m := 1) LinAlg.ideal_exact _ _ h dataMean (fun _ _ => 0) _ _ (by norm_num)).1⟩

example : JointSmooth (KExpr.matern52 none : KExpr 2) exθ.kernelParams ∧
    tdLmlDense1 LinAlg.ideal exθ (KExpr.matern52 none : KExpr 2).obj dataMean exX (fun i _ => (i : ℕ)) exJ
      (fun i u => (i : ℕ) + (u : ℕ)) ≤ 1 / 2 * Real.log (10 ^ 10 / (2 * Real.pi)) :=
  have h : JointSmooth (KExpr.matern52 none : KExpr 2) exθ.kernelParams := one_pos
  ⟨h, (C133_td LinAlg.ideal_exact _ _ h dataMean _ _ _ _ (by norm_num)).2⟩

end GPX.Props
