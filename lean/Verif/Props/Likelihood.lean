import Verif.Props.GPR

/-!
# C34: log marginal likelihood
-/

namespace GPX.Props
open GPX GPX.Spec

variable {d m n o v w : ℕ} {la : LinAlg}

/-- The kernel matrix of the data plus the noise, as documented. -/
noncomputable def dataCov (κ : KernelObj d) (θ : GPParams) (x : Batch n d) : Mat n n :=
  Matrix.of (κ.k θ.kernelParams x x) + (θ.sigma ^ 2 + 1 / 10 ^ 10) • (1 : Mat n n)

/-- The same for derivatives. -/
noncomputable def dataCovDerivs (κ : KernelObj d) (θ : GPParams) (x : Batch n d) (J : Jac n d v) :
    Mat (n * v) (n * v) :=
  Matrix.of (κ.d01kj θ.kernelParams x x J J) +
    (θ.sigma ^ 2 + 1 / 10 ^ 10) • (1 : Mat (n * v) (n * v))

/-- The full claim of C34: `n` times the dense log marginal likelihood is the sum over the output columns of
the Gaussian log densities, and the iterative version returns the same number whenever the linear solver and the
log-determinant are exact. -/
def C34_full : Prop :=
  ∀ (d : ℕ) (e : KExpr d), ∀ (θ : GPParams), Admissible e θ.kernelParams →
    ∀ (mf : MeanFun) (n o : ℕ) (x : Batch n d) (y : Mat n o) (la : LinAlg), la.Exact →
      n * lmlDense la θ e.obj mf x y =
        ∑ c, Real.log (gaussDensity (dataCov e.obj θ x) fun i => y i c - mf y) ∧
      ∀ (cg : CG), CGExact cg → ∀ (Key : Type) (split : Key → Key × Key)
        (choice : Key → (Fin n → ℝ) → Fin n) (logdetFun : (Mat n 1 → Mat n 1) → ℝ),
        (∀ A : Mat n n, A.PosDef → logdetFun (fun z : Mat n 1 => A * z) = Real.log A.det) →
        ∀ (nPivots : ℕ) (key : Key), n ≠ 1 →
          lmlIter la cg split choice logdetFun θ e.obj mf x y nPivots key =
            .ok (lmlDense la θ e.obj mf x y)

theorem log_gaussDensity {C : Mat n n} (hC : C.PosDef) (r : Fin n → ℝ) :
    Real.log (gaussDensity C r) = -(1 / 2) * ∑ i, ∑ j, r i * C⁻¹ i j * r j -
      1 / 2 * Real.log C.det - n * (1 / 2) * Real.log (2 * Real.pi) := by
  have hd := hC.det_pos
  have hpi : (0 : ℝ) < (2 * Real.pi) ^ n := by positivity
  unfold gaussDensity
  rw [Real.log_div (Real.exp_pos _).ne' (Real.sqrt_pos.2 (by positivity)).ne', Real.log_exp,
    Real.log_sqrt (by positivity), Real.log_mul hpi.ne' hd.ne', Real.log_pow]
  ring

theorem quad_sum {C : Mat n n} (hC : C.PosDef) (ex : la.Exact) (y : Mat n o) :
    ∑ i, ∑ c, la.solveLower (la.cholesky C) y i c ^ 2 =
      ∑ c, ∑ i, ∑ j, y i c * C⁻¹ i j * y j c := by
  have h := ex.gram hC y
  rw [Finset.sum_comm]
  refine Finset.sum_congr rfl fun c _ => ?_
  have h1 := congrFun (congrFun h c) c
  rw [Matrix.mul_apply] at h1
  have h2 : ∑ i, la.solveLower (la.cholesky C) y i c ^ 2 =
      ∑ j, (la.solveLower (la.cholesky C) y).transpose c j * la.solveLower (la.cholesky C) y j c :=
    Finset.sum_congr rfl fun i _ => by rw [Matrix.transpose_apply, sq]
  rw [h2, h1, Matrix.mul_apply]
  simp only [Matrix.mul_apply, Matrix.transpose_apply, Finset.sum_mul]
  exact Finset.sum_comm

theorem lmlTail_eq {C : Mat n n} (hC : C.PosDef) (ex : la.Exact) (y : Mat n o) :
    n * lmlTail la C y = -(1 / 2) * (∑ c, ∑ i, ∑ j, y i c * C⁻¹ i j * y j c) -
      1 / 2 * Real.log C.det - n * (1 / 2) * Real.log (2 * Real.pi) := by
  have e : lmlTail la C y = (-(1 / 2) * (∑ c, ∑ i, ∑ j, y i c * C⁻¹ i j * y j c) -
      1 / 2 * Real.log C.det - n * (1 / 2) * Real.log (2 * Real.pi)) / n := by
    unfold lmlTail
    simp only
    rw [quad_sum hC ex, ex.logdet hC]
  rw [e]
  rcases Nat.eq_zero_or_pos n with rfl | hn
  · simp
  · field_simp

/-- What the dense code computes for any number of output columns: the quadratic terms of all columns, but the
log-determinant and the constant only once. -/
theorem C34_dense_formula (ex : la.Exact) (e : KExpr d) (θ : GPParams)
    (h : Admissible e θ.kernelParams) (mf : MeanFun) (x : Batch n d) (y : Mat n o) :
    n * lmlDense la θ e.obj mf x y =
      -(1 / 2) * (∑ c, ∑ i, ∑ j, (y i c - mf y) * (dataCov e.obj θ x)⁻¹ i j * (y j c - mf y)) -
      1 / 2 * Real.log (dataCov e.obj θ x).det - n * (1 / 2) * Real.log (2 * Real.pi) :=
  lmlTail_eq (aLhsNoise_posDef e θ h x) ex _

/-- **C34** for one output column: `n` times the dense log marginal likelihood is the Gaussian log density of
`y - mu` with covariance `K + (sigma² + 1e-10) I`; with an exact solver and log-determinant the iterative
version returns the same number. -/
theorem C34_single_output_partial (ex : la.Exact) (e : KExpr d) (θ : GPParams)
    (h : Admissible e θ.kernelParams) (mf : MeanFun) (x : Batch n d) (y : Mat n 1) :
    n * lmlDense la θ e.obj mf x y =
      Real.log (gaussDensity (dataCov e.obj θ x) fun i => y i 0 - mf y) ∧
    ∀ (cg : CG), CGExact cg → ∀ (Key : Type) (split : Key → Key × Key)
      (choice : Key → (Fin n → ℝ) → Fin n) (logdetFun : (Mat n 1 → Mat n 1) → ℝ),
      (∀ A : Mat n n, A.PosDef → logdetFun (fun z : Mat n 1 => A * z) = Real.log A.det) →
      ∀ (nPivots : ℕ) (key : Key), n ≠ 1 →
        lmlIter la cg split choice logdetFun θ e.obj mf x y nPivots key =
          .ok (lmlDense la θ e.obj mf x y) := by
  have hp := aLhsNoise_posDef e θ h x
  refine ⟨?_, ?_⟩
  · rw [C34_dense_formula ex e θ h, log_gaussDensity (show (dataCov e.obj θ x).PosDef from hp)]
    simp
  · intro cg hcg Key split choice logdetFun hl nPivots key hn
    unfold lmlIter
    rw [C32_fit_iterative ex cg hcg split choice e θ h mf x y nPivots key hn]
    refine congrArg Except.ok ?_
    have hmv : (axLhsFun θ e.obj true x x : Mat n 1 → Mat n 1) =
        fun z : Mat n 1 => aLhsNoise θ e.obj x x * z :=
      funext fun z => (axLhsFun_eq θ (C63_sampleWise e θ.kernelParams)).2 x x z
    rw [hmv, hl _ hp]
    unfold lmlIterTail lmlDense lmlTail
    simp only
    rw [quad_sum hp ex, ex.logdet hp, ex.solve_eq (posDef_isUnit hp)]
    simp only [Finset.univ_unique, Finset.sum_singleton, Matrix.mul_apply, Matrix.transpose_apply,
      Finset.mul_sum]
    simp only [mul_assoc]

/-- **C34** for derivative targets: `n * n_variables` times the dense log marginal likelihood of the derivatives is
the Gaussian log density of the flattened centred derivatives, and the iterative version returns the same number
under exact solves (positive semidefinite derivative Gram matrix, see C65). -/
theorem C34_derivs (ex : la.Exact) (e : KExpr d) (θ : GPParams) (mf : MeanFun)
    (x : Batch n d) (J : Jac n d v) (y : Mat n v)
    (h : (Matrix.of (e.obj.d01kj θ.kernelParams x x J J)).PosSemidef) :
    ((n * v : ℕ) : ℝ) * lmlDerivsDense la θ e.obj mf x J y =
      Real.log (gaussDensity (dataCovDerivs e.obj θ x J) fun r => flatCol y r 0 - mf (flatCol y)) ∧
    ∀ (cg : CG), CGExact cg → ∀ (Key : Type) (split : Key → Key × Key)
      (choice : Key → (Fin (n * v) → ℝ) → Fin (n * v))
      (logdetFun : (Mat (n * v) 1 → Mat (n * v) 1) → ℝ),
      (∀ A : Mat (n * v) (n * v), A.PosDef →
        logdetFun (fun z : Mat (n * v) 1 => A * z) = Real.log A.det) →
      ∀ (nPivots : ℕ) (key : Key),
        lmlDerivsIter la cg split choice logdetFun θ e.obj mf x J y nPivots key =
          lmlDerivsDense la θ e.obj mf x J y := by
  have hp : (aDerivsLhsNoise θ e.obj x J x J).PosDef := posDef_add_smul_one h (noise_pos θ)
  refine ⟨?_, ?_⟩
  · unfold lmlDerivsDense
    rw [lmlTail_eq hp ex, log_gaussDensity (show (dataCovDerivs e.obj θ x J).PosDef from hp)]
    simp only [Finset.univ_unique, Finset.sum_singleton]
    rfl
  · intro cg hcg Key split choice logdetFun hl nPivots key
    unfold lmlDerivsIter
    simp only
    rw [C32_fit_derivs_iterative ex cg hcg split choice e θ mf x J y h nPivots key]
    have hmv : (axDerivsLhsFun θ e.obj true x J x J : Mat (n * v) 1 → Mat (n * v) 1) =
        fun z : Mat (n * v) 1 => aDerivsLhsNoise θ e.obj x J x J * z :=
      funext fun z => (axDerivsLhsFun_eq θ (C63_sampleWise e θ.kernelParams)).2 x J x J z
    rw [hmv, hl _ hp]
    unfold lmlIterTail lmlDerivsDense lmlTail fitDerivsDense
    simp only
    rw [quad_sum hp ex, ex.logdet hp, ex.solve_eq (posDef_isUnit hp)]
    simp only [Finset.univ_unique, Finset.sum_singleton, Matrix.mul_apply, Matrix.transpose_apply,
      Finset.mul_sum]
    simp only [mul_assoc]

/-! ## Several output columns: the claim fails in both halves -/

/-- Admissible kernel with zero kernel matrix: the linear kernel at the origin. -/
private def zeroX : Batch n 1 := fun _ _ => 0

private theorem cov_zeroX (n : ℕ) :
    dataCov (KExpr.linear none : KExpr 1).obj ⟨fun _ => 1, 1⟩ (zeroX : Batch n 1) =
      ((1 : ℝ) ^ 2 + 1 / 10 ^ 10) • (1 : Mat n n) := by
  unfold dataCov
  have : (Matrix.of ((KExpr.linear none : KExpr 1).obj.k (fun _ => 1) (zeroX : Batch n 1) zeroX)) =
      (0 : Mat n n) := by
    ext i j
    simp [KExpr.obj, KernelObj.linear, linearK, matmulT, Dims.takeCols, Dims.take, zeroX]
  rw [this, zero_add]

private theorem smul_one_inv {n : ℕ} {c : ℝ} (hc : c ≠ 0) : (c • (1 : Mat n n))⁻¹ = c⁻¹ • (1 : Mat n n) :=
  Matrix.inv_eq_right_inv (by rw [Matrix.smul_mul, Matrix.mul_smul, mul_one, smul_smul,
    mul_inv_cancel₀ hc, one_smul])

/-- The dense half is false for two output columns: the log-determinant and the constant are counted once instead
of twice. One sample, targets equal to their mean. -/
theorem C34_false : ¬ C34_full := by
  intro h
  have h1 := (h 1 (.linear none) ⟨fun _ => 1, 1⟩ trivial zeroMean 1 2 zeroX 0 LinAlg.ideal
    LinAlg.ideal_exact).1
  have hp := aLhsNoise_posDef (.linear none : KExpr 1) ⟨fun _ => 1, 1⟩ trivial (zeroX : Batch 1 1)
  rw [C34_dense_formula LinAlg.ideal_exact (.linear none) ⟨fun _ => 1, 1⟩ trivial] at h1
  have h2 : (dataCov (KExpr.linear none : KExpr 1).obj ⟨fun _ => 1, 1⟩ (zeroX : Batch 1 1)).PosDef := hp
  rw [Finset.sum_congr rfl fun c _ => log_gaussDensity h2 _] at h1
  simp only [cov_zeroX] at h1
  simp [zeroMean] at h1
  have p1 : 0 < Real.log (1 + (10 ^ 10)⁻¹) := Real.log_pos (by norm_num)
  have p2 : 0 < Real.log Real.pi := Real.log_pos (by linarith [Real.two_le_pi])
  have p3 : 0 < Real.log 2 := Real.log_pos (by norm_num)
  have p4 : Real.log (2 * Real.pi) = Real.log 2 + Real.log Real.pi :=
    Real.log_mul (by norm_num) Real.pi_pos.ne'
  nlinarith

/-- The iterative half is false as well for two output columns, even with exact solves: the quadratic term
includes the cross products of different columns. Two samples at the origin, all targets one. -/
theorem C34_iterative_false :
    ∃ (e : KExpr 1) (θ : GPParams) (x : Batch 2 1) (y : Mat 2 2), NoRepeats e ∧
      Admissible e θ.kernelParams ∧
      ∀ (la : LinAlg), la.Exact → ∀ (cg : CG), CGExact cg → ∀ (Key : Type) (split : Key → Key × Key)
        (choice : Key → (Fin 2 → ℝ) → Fin 2) (logdetFun : (Mat 2 1 → Mat 2 1) → ℝ),
        (∀ A : Mat 2 2, A.PosDef → logdetFun (fun z : Mat 2 1 => A * z) = Real.log A.det) →
        ∀ (nPivots : ℕ) (key : Key),
          lmlIter la cg split choice logdetFun θ e.obj zeroMean x y nPivots key ≠
            .ok (lmlDense la θ e.obj zeroMean x y) := by
  refine ⟨.linear none, ⟨fun _ => 1, 1⟩, zeroX, Matrix.of fun _ _ => 1, trivial, trivial, ?_⟩
  intro la ex cg hcg Key split choice logdetFun hl nPivots key hc
  have hp := aLhsNoise_posDef (.linear none : KExpr 1) ⟨fun _ => 1, 1⟩ trivial (zeroX : Batch 2 1)
  have hcov : aLhsNoise ⟨fun _ => 1, 1⟩ (KExpr.linear none : KExpr 1).obj (zeroX : Batch 2 1) zeroX =
      ((1 : ℝ) ^ 2 + 1 / 10 ^ 10) • (1 : Mat 2 2) := cov_zeroX 2
  unfold lmlIter at hc
  rw [C32_fit_iterative ex cg hcg split choice (.linear none : KExpr 1) ⟨fun _ => 1, 1⟩ trivial
    zeroMean zeroX _ nPivots key (by norm_num)] at hc
  have hmv : (axLhsFun ⟨fun _ => 1, 1⟩ (KExpr.linear none : KExpr 1).obj true zeroX zeroX :
      Mat 2 1 → Mat 2 1) =
        fun z : Mat 2 1 => aLhsNoise ⟨fun _ => 1, 1⟩ (KExpr.linear none : KExpr 1).obj zeroX zeroX * z :=
      funext fun z => (axLhsFun_eq _ (C63_sampleWise (.linear none : KExpr 1) _)).2 zeroX zeroX z
  have hc := Except.ok.inj hc
  rw [hmv, hl _ hp] at hc
  unfold lmlIterTail lmlDense lmlTail at hc
  simp only at hc
  rw [quad_sum hp ex, ex.logdet hp, ex.solve_eq (posDef_isUnit hp), hcov,
    smul_one_inv (by norm_num)] at hc
  simp [Matrix.mul_apply, Matrix.transpose_apply, centerBy, zeroMean, Matrix.one_apply,
    Matrix.smul_apply] at hc
  norm_num at hc

/-- Non-vacuity of the partial theorem: the ideal linear algebra, an exact CG and an exact log-determinant exist
together. -/
example : ∃ (la : LinAlg) (cg : CG) (logdetFun : (Mat 2 1 → Mat 2 1) → ℝ), la.Exact ∧ CGExact cg ∧
    ∀ A : Mat 2 2, A.PosDef → logdetFun (fun z : Mat 2 1 => A * z) = Real.log A.det :=
  ⟨LinAlg.ideal, idealCG,
    fun f => Real.log (Matrix.of fun i j => f (Matrix.of fun k _ => if k = j then 1 else 0) i 0).det,
    LinAlg.ideal_exact, idealCG_exact, fun A _ => by
      refine congrArg (fun B : Mat 2 2 => Real.log B.det) ?_
      ext i j
      simp [Matrix.mul_apply]⟩

end GPX.Props
