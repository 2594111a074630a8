import Verif.Lemmas.Frames
import Verif.Lemmas.FramesTD

/-!
# C157: the coordinates in which derivatives are expressed do not matter

Models trained on derivatives are trained with `zero_mean` (models/gpr.py 472, models/sgpr.py 370).
-/

namespace GPX.Props
open GPX GPX.Spec

variable {d m n o v w v' w' : ℕ} {la : LinAlg}

theorem lhsNoise_diag (θ : GPParams) (κ : KernelObj d) (x : Batch n d) (J : Jac n d v) :
    aDerivsLhsNoise θ κ x J x J =
      Matrix.of (κ.d01kj θ.kernelParams x x J J) + Matrix.diagonal fun _ => θ.noise := by
  rw [aDerivsLhsNoise, aDerivsLhs, Matrix.smul_one_eq_diagonal]

/-- The kernel matrix of the derivatives in the new coordinates. -/
theorem d01kj_frames (e : KExpr d) (p : KPar) (x : Batch n d) (J : Jac n d v) (R : Fin n → Mat v v') :
    (Matrix.of (e.obj.d01kj p x x (inFrames R J) (inFrames R J)) : Mat (n * v') (n * v')) =
      (frameMat R).transpose * Matrix.of (e.obj.d01kj p x x J J) * frameMat R := by
  rw [(frameLinear e p).left_mat, (frameLinear e p).right_mat, Matrix.mul_assoc]

theorem jaccoef_frames {R : Fin n → Mat v v'} (hR : Frames R) (c : Mat n v) (J : Jac n d v) :
    jaccoef (readIn R c) (inFrames R J) = jaccoef c J := by
  funext i f
  simp only [jaccoef, readIn, inFrames, Matrix.of_apply]
  have : ∀ u, (∑ t, c i t * R i t u) * (∑ t', J i f t' * R i t' u) =
      ∑ t, ∑ t', c i t * J i f t' * (R i t u * R i t' u) := fun u => by
    rw [Finset.sum_mul_sum]
    exact Finset.sum_congr rfl fun _ _ => Finset.sum_congr rfl fun _ _ => by ring
  rw [Finset.sum_congr rfl fun u _ => this u, Finset.sum_comm]
  refine Finset.sum_congr rfl fun t _ => ?_
  rw [Finset.sum_comm, Finset.sum_congr rfl fun t' _ => (Finset.mul_sum _ _ _).symm, Finset.sum_congr rfl fun t' _ => by
    rw [hR i t t']]
  simp

theorem centerBy_zero (y : Mat n o) : centerBy y 0 = y := by
  ext i c; simp [centerBy]

theorem addScalar_zero (y : Mat n o) : addScalar 0 y = y := by
  ext i c; simp [addScalar]

theorem fitDerivs_zero (θ : GPParams) (κ : KernelObj d) (x : Batch n d) (J : Jac n d v) (y : Mat n v) :
    (fitDerivsDense la θ κ zeroMean x J y).1 = la.solve (aDerivsLhsNoise θ κ x J x J) (flatCol y) := by
  show la.solve _ (centerBy _ 0) = _
  rw [centerBy_zero]

theorem sgprFitDerivs_zero (θ : GPParams) (κ : KernelObj d) (xl : Batch m d) (Jl : Jac m d w) (x : Batch n d)
    (J : Jac n d v) (y : Mat n v) : (sgprFitDerivsDense la θ κ zeroMean xl Jl x J y).1 =
      la.solve (sgprADerivsLhs θ κ xl Jl x J).1 (Matrix.of (κ.d01kj θ.kernelParams xl x Jl J) * flatCol y) := by
  show la.solve _ (_ * centerBy _ 0) = _
  rw [centerBy_zero]
  rfl

theorem lmlDerivs_zero (θ : GPParams) (κ : KernelObj d) (x : Batch n d) (J : Jac n d v) (y : Mat n v) :
    lmlDerivsDense la θ κ zeroMean x J y = lmlTail la (aDerivsLhsNoise θ κ x J x J) (flatCol y) := by
  show lmlTail la _ (centerBy _ 0) = _
  rw [centerBy_zero]

/-- **C157**, derivatives predicted at points given in other coordinates: the same predictions, in those coordinates.
For every kernel expression, training set, coefficients and change of coordinates. -/
theorem C157_prediction_points (e : KExpr d) (θ : GPParams) (xt : Batch m d) (Jt : Jac m d w) (c : Mat (m * w) 1)
    (x : Batch n d) (J : Jac n d v) (S : Fin n → Mat v v') :
    predictDerivsDense θ e.obj xt Jt x (inFrames S J) c 0 = readIn S (predictDerivsDense θ e.obj xt Jt x J c 0) ∧
    sgprPredictDerivs θ e.obj xt Jt x (inFrames S J) c 0 = readIn S (sgprPredictDerivs θ e.obj xt Jt x J c 0) := by
  constructor
  · simp only [predictDerivsDense, predictDerivsFlat, aDerivsLhs, addScalar_zero]
    rw [(frameLinear e θ.kernelParams).right_mat, Matrix.transpose_mul, Matrix.mul_assoc, unflatCol_readIn]
  · simp only [sgprPredictDerivs, addScalar_zero]
    rw [(frameLinear e θ.kernelParams).left_mat, Matrix.mul_assoc, unflatCol_readIn]

theorem lmlTail_ortho (ex : la.Exact) {C B : Mat n n} (hC : C.PosDef) (hB : B * B.transpose = 1)
    (hC' : (B.transpose * C * B).PosDef) (y : Mat n o) :
    lmlTail la (B.transpose * C * B) (B.transpose * y) = lmlTail la C y := by
  rcases Nat.eq_zero_or_pos n with rfl | hn
  · simp [lmlTail]
  have hn' : (n : ℝ) ≠ 0 := by exact_mod_cast hn.ne'
  refine mul_left_cancel₀ hn' ?_
  rw [lmlTail_eq hC' ex, lmlTail_eq hC ex, ortho_det hB]
  have hq : ∀ (A : Mat n n) (z : Mat n o) c, ∑ i, ∑ j, z i c * A i j * z j c = (z.transpose * A * z) c c := by
    intro A z c
    rw [Matrix.mul_apply, Finset.sum_comm]
    simp only [Matrix.mul_apply, Matrix.transpose_apply, Finset.sum_mul]
  have hB' : B.transpose * B = 1 := mul_eq_one_comm.1 hB
  have hinv : (B.transpose * C * B)⁻¹ * B.transpose = B.transpose * C⁻¹ :=
    coiso_inv (by rw [Matrix.mul_assoc, hB, Matrix.mul_one]) (posDef_isUnit hC) (posDef_isUnit hC')
  simp only [hq]
  rw [Matrix.transpose_mul, Matrix.transpose_transpose]
  have : y.transpose * B * (B.transpose * C * B)⁻¹ * (B.transpose * y) = y.transpose * C⁻¹ * y := by
    rw [Matrix.mul_assoc, ← Matrix.mul_assoc _ B.transpose, hinv, Matrix.mul_assoc, Matrix.mul_assoc,
      ← Matrix.mul_assoc B, hB, Matrix.one_mul, Matrix.mul_assoc]
  rw [this]

/-- **C157** for `GPR` trained on derivatives: every kernel expression, hyperparameters, dataset with a positive
definite training matrix (for the kernels of C65 every dataset) and changes of coordinates of the samples. The
coefficients are those of the old coordinates in the new ones, the stored contraction `jaccoef` is the same, and so
are all predictions and posterior covariances. -/
theorem C157_gpr (ex : la.Exact) (e : KExpr d) (θ : GPParams) (x : Batch n d) (J : Jac n d v) (y : Mat n v)
    (R : Fin n → Mat v v') (hR : Frames R) (hp : (aDerivsLhsNoise θ e.obj x J x J).PosDef) :
    let gp := fitDerivsDense la θ e.obj zeroMean x J y
    let gp' := fitDerivsDense la θ e.obj zeroMean x (inFrames R J) (readIn R y)
    unflatCol gp'.1 = readIn R (unflatCol gp.1) ∧
    jaccoef (unflatCol gp'.1) (inFrames R J) = jaccoef (unflatCol gp.1) J ∧
    (∀ {m : ℕ} (xs : Batch m d), predictYDerivsDense θ e.obj x (inFrames R J) xs gp'.1 gp'.2 =
      predictYDerivsDense θ e.obj x J xs gp.1 gp.2) ∧
    (∀ {m w : ℕ} (xs : Batch m d) (Js : Jac m d w), predictDerivsDense θ e.obj x (inFrames R J) xs Js gp'.1 gp'.2 =
      predictDerivsDense θ e.obj x J xs Js gp.1 gp.2) ∧
    (∀ {m w : ℕ} (xs : Batch m d) (Js : Jac m d w),
      predictDerivsDenseCov la θ e.obj x (inFrames R J) xs Js = predictDerivsDenseCov la θ e.obj x J xs Js) ∧
    (∀ {m : ℕ} (xs : Batch m d), θ.sigma ≠ 0 →
      (Matrix.of (e.obj.d01kj θ.kernelParams x x J J) + θ.sigma ^ 2 • (1 : Mat (n * v) (n * v))).PosDef →
      predictYDerivsDenseCov la θ e.obj x (inFrames R J) xs = predictYDerivsDenseCov la θ e.obj x J xs) := by
  intro gp gp'
  have F := frameLinear e θ.kernelParams
  have hB := frameMat_coiso hR
  set B := frameMat R with hBdef
  set K : Mat (n * v) (n * v) := Matrix.of (e.obj.d01kj θ.kernelParams x x J J) with hK
  have hsys : ∀ s : ℝ, 0 < s → (K + s • (1 : Mat (n * v) (n * v))).PosDef →
      (B.transpose * K * B + s • (1 : Mat (n * v') (n * v'))).PosDef ∧
      (B.transpose * K * B + s • (1 : Mat (n * v') (n * v'))) * B.transpose =
        B.transpose * (K + s • (1 : Mat (n * v) (n * v))) := fun s hs h => by
    rw [Matrix.smul_one_eq_diagonal] at h ⊢
    rw [Matrix.smul_one_eq_diagonal]
    exact ⟨coiso_posDef hB (smul_frameMat s R) (fun _ => hs) h, coiso_mul hB (smul_frameMat s R)⟩
  have hschur : ∀ s : ℝ, 0 < s → (K + s • (1 : Mat (n * v) (n * v))).PosDef → ∀ {q : ℕ} (G : Mat (n * v) q),
      (la.solveLower (la.cholesky (B.transpose * K * B + s • (1 : Mat (n * v') (n * v')))) (B.transpose * G)).transpose *
        la.solveLower (la.cholesky (B.transpose * K * B + s • (1 : Mat (n * v') (n * v')))) (B.transpose * G) =
      (la.solveLower (la.cholesky (K + s • (1 : Mat (n * v) (n * v)))) G).transpose *
        la.solveLower (la.cholesky (K + s • (1 : Mat (n * v) (n * v)))) G := fun s hs h q G => by
    obtain ⟨h', hi⟩ := hsys s hs h
    rw [ex.gram h', ex.gram h, Matrix.transpose_mul, Matrix.transpose_transpose, Matrix.mul_assoc,
      ← Matrix.mul_assoc _ B.transpose, coiso_inv hi (posDef_isUnit h) (posDef_isUnit h'), Matrix.mul_assoc,
      ← Matrix.mul_assoc B, ← Matrix.mul_assoc B, hB, Matrix.one_mul, Matrix.mul_assoc]
  have hp0 : (K + θ.noise • (1 : Mat (n * v) (n * v))).PosDef := hp
  obtain ⟨hp', hint⟩ := hsys θ.noise (noise_pos θ) hp0
  have hs : (K + θ.noise • (1 : Mat (n * v) (n * v))) * gp.1 = flatCol y := by
    show _ * (fitDerivsDense la θ e.obj zeroMean x J y).1 = _
    rw [fitDerivs_zero]
    exact ex.solve _ _ (posDef_isUnit hp)
  have hA' : aDerivsLhsNoise θ e.obj x (inFrames R J) x (inFrames R J) =
      B.transpose * K * B + θ.noise • (1 : Mat (n * v') (n * v')) := by
    rw [aDerivsLhsNoise, aDerivsLhs, d01kj_frames]
  have hs' : (B.transpose * K * B + θ.noise • (1 : Mat (n * v') (n * v'))) * gp'.1 = B.transpose * flatCol y := by
    show _ * (fitDerivsDense la θ e.obj zeroMean x (inFrames R J) (readIn R y)).1 = _
    rw [fitDerivs_zero, hA', flatCol_readIn]
    exact ex.solve _ _ (posDef_isUnit hp')
  have hc : gp'.1 = B.transpose * gp.1 := coiso_solution hint (posDef_isUnit hp') hs hs'
  have hu : unflatCol gp'.1 = readIn R (unflatCol gp.1) := by rw [hc, unflatCol_readIn]
  have hcancel : ∀ {q : ℕ} (G : Mat (n * v) q), (B.transpose * G).transpose * gp'.1 = G.transpose * gp.1 := fun G => by
    rw [hc, Matrix.transpose_mul, Matrix.transpose_transpose, Matrix.mul_assoc, ← Matrix.mul_assoc B, hB,
      Matrix.one_mul]
  have hmu : gp'.2 = gp.2 := rfl
  refine ⟨hu, ?_, fun xs => ?_, fun xs Js => ?_, fun xs Js => ?_, fun xs hσ hp2 => ?_⟩
  · rw [hu, jaccoef_frames hR]
  · simp only [predictYDerivsDense]
    rw [F.d0kj_mat, hcancel, hmu]
  · simp only [predictDerivsDense, predictDerivsFlat, aDerivsLhs]
    rw [F.left_mat, hcancel, hmu]
  · simp only [predictDerivsDenseCov, hA', aDerivsLhs]
    rw [F.left_mat, hschur _ (noise_pos θ) hp0]
    rfl
  · simp only [predictYDerivsDenseCov, d01kj_frames]
    rw [F.d0kj_mat, hschur _ (by positivity) hp2]

/-- **C157**, the log marginal likelihood of `GPR` on derivatives (changes to as many coordinates). -/
theorem C157_gpr_likelihood (ex : la.Exact) (e : KExpr d) (θ : GPParams) (x : Batch n d) (J : Jac n d v) (y : Mat n v)
    (R : Fin n → Mat v v) (hR : Frames R) (hp : (aDerivsLhsNoise θ e.obj x J x J).PosDef) :
    lmlDerivsDense la θ e.obj zeroMean x (inFrames R J) (readIn R y) = lmlDerivsDense la θ e.obj zeroMean x J y := by
  have hB := frameMat_coiso hR
  have h1 := coiso_posDef hB (smul_frameMat θ.noise R) (fun _ => noise_pos θ) (lhsNoise_diag θ e.obj x J ▸ hp)
  rw [lmlDerivs_zero, lmlDerivs_zero, flatCol_readIn, lhsNoise_diag, d01kj_frames, lhsNoise_diag]
  rw [ortho_system hB (smul_frameMat θ.noise R)] at h1 ⊢
  exact lmlTail_ortho ex (lhsNoise_diag θ e.obj x J ▸ hp) hB h1 _

/-- **C157** for `SGPR` trained on derivatives: the coordinates of the training samples and those of the inducing points
can be changed independently. -/
theorem C157_sgpr (ex : la.Exact) (e : KExpr d) (θ : GPParams) (xl : Batch m d) (Jl : Jac m d w) (x : Batch n d)
    (J : Jac n d v) (y : Mat n v) (S : Fin m → Mat w w') (hS : Frames S) (R : Fin n → Mat v v') (hR : Frames R)
    (hp : (sgprADerivsLhs θ e.obj xl Jl x J).1.PosDef) :
    let sp := sgprFitDerivsDense la θ e.obj zeroMean xl Jl x J y
    let sp' := sgprFitDerivsDense la θ e.obj zeroMean xl (inFrames S Jl) x (inFrames R J) (readIn R y)
    unflatCol sp'.1 = readIn S (unflatCol sp.1) ∧
    jaccoef (unflatCol sp'.1) (inFrames S Jl) = jaccoef (unflatCol sp.1) Jl ∧
    (∀ {k : ℕ} (xs : Batch k d), sgprPredictYDerivs θ e.obj xl (inFrames S Jl) xs sp'.1 sp'.2 =
      sgprPredictYDerivs θ e.obj xl Jl xs sp.1 sp.2) ∧
    (∀ {k r : ℕ} (xs : Batch k d) (Js : Jac k d r), sgprPredictDerivs θ e.obj xl (inFrames S Jl) xs Js sp'.1 sp'.2 =
      sgprPredictDerivs θ e.obj xl Jl xs Js sp.1 sp.2) := by
  intro sp sp'
  have F := frameLinear e θ.kernelParams
  have hB := frameMat_coiso hS
  have hC := frameMat_coiso hR
  set B := frameMat S with hBdef
  set C := frameMat R with hCdef
  set K : Mat (m * w) (m * w) := Matrix.of (e.obj.d01kj θ.kernelParams xl xl Jl Jl) with hK
  set G : Mat (m * w) (n * v) := Matrix.of (e.obj.d01kj θ.kernelParams xl x Jl J) with hG
  have hG' : (Matrix.of (e.obj.d01kj θ.kernelParams xl x (inFrames S Jl) (inFrames R J)) : Mat (m * w') (n * v')) =
      B.transpose * G * C := by
    rw [F.left_mat, F.right_mat, Matrix.mul_assoc]
  have hGG : B.transpose * G * C * (B.transpose * G * C).transpose = B.transpose * (G * G.transpose) * B := by
    rw [Matrix.transpose_mul, Matrix.transpose_mul, Matrix.transpose_transpose]
    simp only [Matrix.mul_assoc]
    rw [← Matrix.mul_assoc C, hC, Matrix.one_mul]
  have hj : (0 : ℝ) < noiseJitter := by unfold noiseJitter; positivity
  have hA : (sgprADerivsLhs θ e.obj xl Jl x J).1 =
      (θ.sigma ^ 2 • K + G * G.transpose) + Matrix.diagonal fun _ => noiseJitter := by
    simp only [sgprADerivsLhs, Matrix.smul_one_eq_diagonal]; rfl
  have hA' : (sgprADerivsLhs θ e.obj xl (inFrames S Jl) x (inFrames R J)).1 =
      B.transpose * (θ.sigma ^ 2 • K + G * G.transpose) * B + Matrix.diagonal fun _ => noiseJitter := by
    simp only [sgprADerivsLhs, Matrix.smul_one_eq_diagonal, hG', hGG, d01kj_frames]
    rw [Matrix.mul_add, Matrix.add_mul, Matrix.mul_smul, Matrix.smul_mul]
  have hp1 := hA ▸ hp
  have hp' := coiso_posDef hB (smul_frameMat noiseJitter S) (fun _ => hj) hp1
  have hint := coiso_mul (M := θ.sigma ^ 2 • K + G * G.transpose) hB (smul_frameMat noiseJitter S)
  have hs : ((θ.sigma ^ 2 • K + G * G.transpose) + Matrix.diagonal fun _ => noiseJitter) * sp.1 = G * flatCol y := by
    show _ * (sgprFitDerivsDense la θ e.obj zeroMean xl Jl x J y).1 = _
    rw [sgprFitDerivs_zero, ← hA]
    exact ex.solve _ _ (posDef_isUnit hp)
  have hs' : (B.transpose * (θ.sigma ^ 2 • K + G * G.transpose) * B + Matrix.diagonal fun _ => noiseJitter) * sp'.1 =
      B.transpose * (G * flatCol y) := by
    have e1 : B.transpose * G * C * (C.transpose * flatCol y) = B.transpose * (G * flatCol y) := by
      simp only [Matrix.mul_assoc]
      rw [← Matrix.mul_assoc C, hC, Matrix.one_mul]
    show _ * (sgprFitDerivsDense la θ e.obj zeroMean xl (inFrames S Jl) x (inFrames R J) (readIn R y)).1 = _
    rw [sgprFitDerivs_zero, flatCol_readIn, hG', e1, hA']
    exact ex.solve _ _ (posDef_isUnit hp')
  have hc : sp'.1 = B.transpose * sp.1 := coiso_solution hint (posDef_isUnit hp') hs hs'
  have hu : unflatCol sp'.1 = readIn S (unflatCol sp.1) := by rw [hc, unflatCol_readIn]
  have hmu : sp'.2 = sp.2 := rfl
  refine ⟨hu, ?_, fun xs => ?_, fun xs Js => ?_⟩
  · rw [hu, jaccoef_frames hS]
  · simp only [sgprPredictYDerivs]
    rw [F.d0kj_mat, hc, Matrix.transpose_mul, Matrix.transpose_transpose, Matrix.mul_assoc, ← Matrix.mul_assoc B, hB,
      Matrix.one_mul, hmu]
  · simp only [sgprPredictDerivs]
    rw [F.right_mat, hc, Matrix.mul_assoc, ← Matrix.mul_assoc B, hB, Matrix.one_mul, hmu]

/-! ## Joint training -/

theorem tdLmlTail_ortho (ex : la.Exact) {N : ℕ} {C B : Mat N N} (hC : C.PosDef) (hB : B * B.transpose = 1)
    (hC' : (B.transpose * C * B).PosDef) (y : Mat N 1) (k : ℕ) :
    tdLmlTail la (B.transpose * C * B) (B.transpose * y) k = tdLmlTail la C y k := by
  have hinv : (B.transpose * C * B)⁻¹ * B.transpose = B.transpose * C⁻¹ :=
    coiso_inv (by rw [Matrix.mul_assoc, hB, Matrix.mul_one]) (posDef_isUnit hC) (posDef_isUnit hC')
  have hq : ∀ (A : Mat N N) (z : Mat N 1) c, ∑ i, ∑ j, z i c * A i j * z j c = (z.transpose * A * z) c c := by
    intro A z c
    rw [Matrix.mul_apply, Finset.sum_comm]
    simp only [Matrix.mul_apply, Matrix.transpose_apply, Finset.sum_mul]
  have : (B.transpose * y).transpose * (B.transpose * C * B)⁻¹ * (B.transpose * y) = y.transpose * C⁻¹ * y := by
    rw [Matrix.transpose_mul, Matrix.transpose_transpose, Matrix.mul_assoc, ← Matrix.mul_assoc _ B.transpose, hinv,
      Matrix.mul_assoc, Matrix.mul_assoc, ← Matrix.mul_assoc B, hB, Matrix.one_mul, Matrix.mul_assoc]
  unfold tdLmlTail
  simp only
  rw [quad_sum hC' ex, quad_sum hC ex, ex.logdet hC', ex.logdet hC, ortho_det hB]
  simp only [hq, this]

theorem tdSplit1_frames (mu : ℝ) (S : Fin n → Mat v v') (z : Mat (n + n * v) 1) :
    tdSplit1 mu (((obsFrame1 S).submatrix posE1.symm posE1.symm).transpose * z) =
      ((tdSplit1 mu z).1, readIn S (tdSplit1 mu z).2) := by
  have key : ∀ q, (((obsFrame1 S).submatrix posE1.symm posE1.symm).transpose * z) (pos1 q) 0 =
      ∑ a, obsFrame1 S a q * z (pos1 a) 0 := fun q => by
    rw [Matrix.mul_apply, sum_pos pos1_bij]
    exact Finset.sum_congr rfl fun a _ => by
      rw [Matrix.transpose_apply, Matrix.submatrix_apply, posE1_symm, posE1_symm]
  refine Prod.ext ?_ ?_
  · ext i c
    rw [Subsingleton.elim c 0]
    refine congrArg (· + mu) ((key (.inl i)).trans ?_)
    rw [Fintype.sum_sum_type]
    simp only [obsFrame1, zero_mul, Finset.sum_const_zero, add_zero, ite_mul, one_mul, Finset.sum_ite_eq',
      Finset.mem_univ, if_true]
    rfl
  · ext i u
    have hu : ∀ {q : ℕ} (z : Mat (n + n * q) 1) (i : Fin n) (u : Fin q),
        (tdSplit1 mu z).2 i u = z (pos1 (.inr (i, u))) 0 := fun z i u => by
      simp only [tdSplit1, unflatCol, Matrix.of_apply, prod_flat]; rfl
    rw [hu, key, Fintype.sum_sum_type, Fintype.sum_prod_type]
    simp only [obsFrame1, zero_mul, Finset.sum_const_zero, zero_add, ite_mul]
    rw [Finset.sum_comm]
    simp only [Finset.sum_ite_eq', Finset.mem_univ, if_true, readIn, Matrix.of_apply, hu]
    exact Finset.sum_congr rfl fun t _ => mul_comm _ _

/-- **C157** for `GPR_TD` with one set of derivatives: every kernel expression, hyperparameters, mean function, dataset
with a positive definite training matrix (for the kernels of C78 every dataset) and changes of coordinates. Predicted
targets and derivatives are the same, and derivatives predicted at points given in other coordinates are the same
derivatives in those coordinates. -/
theorem C157_joint1 (ex : la.Exact) (e : KExpr d) (θ : TDParams) (mf : MeanFun) (x : Batch n d) (y : Mat n 1)
    (J : Jac n d v) (yd : Mat n v) (R : Fin n → Mat v v') (hR : Frames R)
    (hp : (tdALhsNoise1 θ e.obj x J x J).PosDef) :
    let gp := tdFitDense1 la θ e.obj mf x y J yd
    let gp' := tdFitDense1 la θ e.obj mf x y (inFrames R J) (readIn R yd)
    (∀ {m w : ℕ} (xs : Batch m d) (Js : Jac m d w), tdPredictDense1 θ e.obj x (inFrames R J) xs Js gp'.1 gp'.2 =
      tdPredictDense1 θ e.obj x J xs Js gp.1 gp.2) ∧
    (∀ {m w w' : ℕ} (xs : Batch m d) (Js : Jac m d w) (S : Fin m → Mat w w'),
      tdPredictDense1 θ e.obj x J xs (inFrames S Js) gp.1 gp.2 =
        ((tdPredictDense1 θ e.obj x J xs Js gp.1 gp.2).1, readIn S (tdPredictDense1 θ e.obj x J xs Js gp.1 gp.2).2)) := by
  intro gp gp'
  have F := frameLinear e θ.kernelParams
  have hB := obsFrame1_coiso hR
  have hA' : tdALhsNoise1 θ e.obj x (inFrames R J) x (inFrames R J) =
      ((obsFrame1 R).transpose * Matrix.of (cov1 e.obj θ.kernelParams x J x J) * obsFrame1 R +
        Matrix.diagonal (noise1 θ)).submatrix posE1.symm posE1.symm := by
    rw [tdALhsNoise1_obs, cov1_left F, cov1_right F, Matrix.mul_assoc]
  obtain ⟨hp', hsol⟩ := stacked_frames posE1 posE1 hB (obsFrame1_noise θ R) (noise1_pos θ)
    (tdALhsNoise1_obs θ e.obj x J ▸ hp) hA'
  have hc : gp'.1 = ((obsFrame1 R).submatrix posE1.symm posE1.symm).transpose * gp.1 := by
    have := hsol la ex (Matrix.of fun a _ => residual1 (mf y) y yd a)
    rw [← residual1_frames, ← tdRhs1_obs, ← tdRhs1_obs, ← tdALhsNoise1_obs] at this
    exact this
  have hmu : gp'.2 = gp.2 := rfl
  refine ⟨fun xs Js => ?_, fun xs Js S => ?_⟩
  · simp only [tdPredictDense1]
    rw [hc, hmu, tdALhs1_obs, cov1_left F, stacked_cancel posE1 posE1 hB, ← tdALhs1_obs]
  · simp only [tdPredictDense1]
    rw [← tdSplit1_frames, tdALhs1_obs, cov1_right F, ← Matrix.mul_assoc, tdALhs1_obs, ← Matrix.transpose_mul,
      Matrix.submatrix_mul_equiv]

/-- **C157**, the log marginal likelihood of `GPR_TD` with one set of derivatives. -/
theorem C157_joint1_likelihood (ex : la.Exact) (e : KExpr d) (θ : TDParams) (mf : MeanFun) (x : Batch n d) (y : Mat n 1)
    (J : Jac n d v) (yd : Mat n v) (R : Fin n → Mat v v) (hR : Frames R)
    (hp : (tdALhsNoise1 θ e.obj x J x J).PosDef) :
    tdLmlDense1 la θ e.obj mf x y (inFrames R J) (readIn R yd) = tdLmlDense1 la θ e.obj mf x y J yd := by
  have F := frameLinear e θ.kernelParams
  have hB := obsFrame1_coiso hR
  set B := (obsFrame1 R).submatrix posE1.symm posE1.symm with hBdef
  have hB1 : B * B.transpose = 1 := by
    rw [hBdef, Matrix.transpose_submatrix, Matrix.submatrix_mul_equiv, hB, Matrix.submatrix_one_equiv]
  have hA' : tdALhsNoise1 θ e.obj x (inFrames R J) x (inFrames R J) =
      B.transpose * tdALhsNoise1 θ e.obj x J x J * B := by
    rw [tdALhsNoise1_obs, cov1_left F, cov1_right F, ← Matrix.mul_assoc, ortho_system hB (obsFrame1_noise θ R),
      tdALhsNoise1_obs, hBdef, Matrix.transpose_submatrix, Matrix.submatrix_mul_equiv, Matrix.submatrix_mul_equiv]
  have hp' : (B.transpose * tdALhsNoise1 θ e.obj x J x J * B).PosDef := by
    rw [← hA']
    exact (stacked_frames posE1 posE1 hB (obsFrame1_noise θ R) (noise1_pos θ) (tdALhsNoise1_obs θ e.obj x J ▸ hp)
      (by rw [tdALhsNoise1_obs, cov1_left F, cov1_right F, ← Matrix.mul_assoc])).1
  unfold tdLmlDense1
  have hr : tdRhs1 mf y (readIn R yd) = B.transpose * tdRhs1 mf y yd := by
    rw [tdRhs1_obs, residual1_frames, tdRhs1_obs, hBdef, Matrix.transpose_submatrix, Matrix.submatrix_mul_equiv]
  rw [hA', hr, tdLmlTail_ortho ex hp hB1 hp']

/-- **C157** for `GPR_TD` with two sets of derivatives, each with its own changes of coordinates. -/
theorem C157_joint2 (ex : la.Exact) (e : KExpr d) (θ : TDParams) (mf : MeanFun) (x : Batch n d) (y : Mat n 1)
    (J : Jac n d v) (J' : Jac n d w) (yd : Mat n v) (yd' : Mat n w) (R : Fin n → Mat v v') (hR : Frames R)
    (R' : Fin n → Mat w w') (hR' : Frames R') (hp : (tdALhsNoise2 θ e.obj x J J' x J J').PosDef) :
    let gp := tdFitDense2 la θ e.obj mf x y J J' yd yd'
    let gp' := tdFitDense2 la θ e.obj mf x y (inFrames R J) (inFrames R' J') (readIn R yd) (readIn R' yd')
    ∀ {m r r' : ℕ} (xs : Batch m d) (Js : Jac m d r) (Js' : Jac m d r'),
      tdPredictDense2 θ e.obj x (inFrames R J) (inFrames R' J') xs Js Js' gp'.1 gp'.2 =
        tdPredictDense2 θ e.obj x J J' xs Js Js' gp.1 gp.2 := by
  intro gp gp' m r r' xs Js Js'
  have F := frameLinear e θ.kernelParams
  have hB := obsFrame2_coiso hR hR'
  have hA' : tdALhsNoise2 θ e.obj x (inFrames R J) (inFrames R' J') x (inFrames R J) (inFrames R' J') =
      ((obsFrame2 R R').transpose * Matrix.of (cov2 e.obj θ.kernelParams x J J' x J J') * obsFrame2 R R' +
        Matrix.diagonal (noise2 θ)).submatrix posE2.symm posE2.symm := by
    rw [tdALhsNoise2_obs, cov2_left F, cov2_right F, Matrix.mul_assoc]
  obtain ⟨hp', hsol⟩ := stacked_frames posE2 posE2 hB (obsFrame2_noise θ R R') (noise2_pos θ)
    (tdALhsNoise2_obs θ e.obj x J J' ▸ hp) hA'
  have hc : gp'.1 = ((obsFrame2 R R').submatrix posE2.symm posE2.symm).transpose * gp.1 := by
    have := hsol la ex (Matrix.of fun a _ => residual2 (mf y) y yd yd' a)
    rw [← residual2_frames, ← tdRhs2_obs, ← tdRhs2_obs, ← tdALhsNoise2_obs] at this
    exact this
  have hmu : gp'.2 = gp.2 := rfl
  simp only [tdPredictDense2]
  rw [hc, hmu, tdALhs2_obs, cov2_left F, stacked_cancel posE2 posE2 hB, ← tdALhs2_obs]

/-- **C157**, the log marginal likelihood of `GPR_TD` with two sets of derivatives. -/
theorem C157_joint2_likelihood (ex : la.Exact) (e : KExpr d) (θ : TDParams) (mf : MeanFun) (x : Batch n d) (y : Mat n 1)
    (J : Jac n d v) (J' : Jac n d w) (yd : Mat n v) (yd' : Mat n w) (R : Fin n → Mat v v) (hR : Frames R)
    (R' : Fin n → Mat w w) (hR' : Frames R') (hp : (tdALhsNoise2 θ e.obj x J J' x J J').PosDef) :
    tdLmlDense2 la θ e.obj mf x y (inFrames R J) (inFrames R' J') (readIn R yd) (readIn R' yd') =
      tdLmlDense2 la θ e.obj mf x y J J' yd yd' := by
  have F := frameLinear e θ.kernelParams
  have hB := obsFrame2_coiso hR hR'
  set B := (obsFrame2 R R').submatrix posE2.symm posE2.symm with hBdef
  have hB1 : B * B.transpose = 1 := by
    rw [hBdef, Matrix.transpose_submatrix, Matrix.submatrix_mul_equiv, hB, Matrix.submatrix_one_equiv]
  have hA' : tdALhsNoise2 θ e.obj x (inFrames R J) (inFrames R' J') x (inFrames R J) (inFrames R' J') =
      B.transpose * tdALhsNoise2 θ e.obj x J J' x J J' * B := by
    rw [tdALhsNoise2_obs, cov2_left F, cov2_right F, ← Matrix.mul_assoc, ortho_system hB (obsFrame2_noise θ R R'),
      tdALhsNoise2_obs, hBdef, Matrix.transpose_submatrix, Matrix.submatrix_mul_equiv, Matrix.submatrix_mul_equiv]
  have hp' : (B.transpose * tdALhsNoise2 θ e.obj x J J' x J J' * B).PosDef := by
    rw [← hA']
    exact (stacked_frames posE2 posE2 hB (obsFrame2_noise θ R R') (noise2_pos θ)
      (tdALhsNoise2_obs θ e.obj x J J' ▸ hp) (by rw [tdALhsNoise2_obs, cov2_left F, cov2_right F, ← Matrix.mul_assoc])).1
  unfold tdLmlDense2
  have hr : tdRhs2 mf y (readIn R yd) (readIn R' yd') = B.transpose * tdRhs2 mf y yd yd' := by
    rw [tdRhs2_obs, residual2_frames, tdRhs2_obs, hBdef, Matrix.transpose_submatrix, Matrix.submatrix_mul_equiv]
  rw [hA', hr, tdLmlTail_ortho ex hp hB1 hp']

/-! ## Examples -/

/-- A quarter turn of the first two of three coordinates. -/
noncomputable def quarterTurn : Fin 2 → Mat 3 3 := fun _ => !![0, 1, 0; -1, 0, 0; 0, 0, 1]

theorem quarterTurn_frames : Frames quarterTurn := fun i t t' => by
  fin_cases t <;> fin_cases t' <;> simp [quarterTurn, Fin.sum_univ_three]

/-- One more component that is always zero. -/
def padded : Fin 2 → Mat 3 4 := fun _ => Matrix.of fun t u => if u = t.castSucc then 1 else 0

theorem padded_frames : Frames padded := fun i t t' => by
  simp only [padded, Matrix.of_apply, mul_ite, mul_one, mul_zero, Finset.sum_ite_eq', Finset.mem_univ, if_true,
    Fin.castSucc_inj]
  exact if_congr eq_comm rfl rfl

/-- Non-vacuity: a joint model in the plane, forces turned by a quarter turn. -/
example (mf : MeanFun) (y : Mat 2 1) (yd : Mat 2 3) :
    tdLmlDense1 LinAlg.ideal exθ (KExpr.matern52 none : KExpr 2).obj mf exX y (inFrames quarterTurn exJ)
        (readIn quarterTurn yd) =
      tdLmlDense1 LinAlg.ideal exθ (KExpr.matern52 none : KExpr 2).obj mf exX y exJ yd :=
  C157_joint1_likelihood LinAlg.ideal_exact _ exθ mf exX y exJ yd quarterTurn quarterTurn_frames
    ex_pd.1

/-- Non-vacuity: the same with a component that is always zero. -/
example (y : Mat 2 3) (xs : Batch 1 2) :
    let θ : GPParams := ⟨fun _ => 1, 1⟩
    let gp := fitDerivsDense LinAlg.ideal θ (KExpr.matern52 none : KExpr 2).obj zeroMean exX exJ y
    let gp' := fitDerivsDense LinAlg.ideal θ (KExpr.matern52 none : KExpr 2).obj zeroMean exX (inFrames padded exJ)
      (readIn padded y)
    predictYDerivsDense θ (KExpr.matern52 none : KExpr 2).obj exX (inFrames padded exJ) xs gp'.1 gp'.2 =
      predictYDerivsDense θ (KExpr.matern52 none : KExpr 2).obj exX exJ xs gp.1 gp.2 := by
  intro θ gp gp'
  have hp : (aDerivsLhsNoise θ (KExpr.matern52 none : KExpr 2).obj exX exJ exX exJ).PosDef :=
    posDef_add_smul_one (C65_gram_partial _ _ (.joint (by norm_num [JointSmooth, KPar.val, θ])) exX exJ) (noise_pos θ)
  exact (C157_gpr LinAlg.ideal_exact _ θ exX exJ y padded padded_frames hp).2.2.1 xs

end GPX.Props
