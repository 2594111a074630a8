import Verif.Spec.Certainty
import Verif.Lemmas.SchurMono
import Verif.Props.DerivModels
import Verif.Props.Bounded

/-!
# C166: a less certain prior or more noise never makes a prediction more certain
-/

namespace GPX.Props
open GPX GPX.Spec Filter

variable {d m n o v w : ℕ} {la : LinAlg}

theorem derivsCov_eq (ex : la.Exact) (e : KExpr d) (θ : GPParams) (h : DerivSmooth e θ.kernelParams) (xt : Batch m d)
    (Jt : Jac m d w) (x : Batch n d) (J : Jac n d v) :
    predictDerivsDenseCov la θ e.obj xt Jt x J =
      Matrix.of (e.obj.d01kj θ.kernelParams x x J J) - (Matrix.of (e.obj.d01kj θ.kernelParams xt x Jt J)).transpose *
        (Matrix.of (e.obj.d01kj θ.kernelParams xt xt Jt Jt) + θ.noise • (1 : Mat (m * w) (m * w)))⁻¹ *
          Matrix.of (e.obj.d01kj θ.kernelParams xt x Jt J) := by
  have hp : (aDerivsLhsNoise θ e.obj xt Jt xt Jt).PosDef :=
    (posterior_blocks (noise_pos θ) (C65_two_datasets_partial e _ h xt Jt x J)).1
  unfold predictDerivsDenseCov
  simp only
  rw [ex.gram hp]
  rfl

/-- A symmetric matrix whose quadratic form is nonnegative. -/
theorem psd_of_quad {I : Type} [Fintype I] {M : Matrix I I ℝ} (hs : ∀ i j, M i j = M j i)
    (hq : ∀ w : I → ℝ, 0 ≤ ∑ i, ∑ j, w i * M i j * w j) : M.PosSemidef := by
  rw [Matrix.posSemidef_iff_dotProduct_mulVec]
  refine ⟨?_, fun w => ?_⟩
  · ext i j
    simpa using hs j i
  · have := hq w
    simpa [dotProduct, Matrix.mulVec, Finset.mul_sum, mul_assoc] using this

/-- Training and new inputs in one batch. -/
def joinBatch (xt : Batch m d) (x : Batch n d) : Batch (m + n) d := Fin.append xt x

theorem lessCertain_blocks (e e' : KExpr d) (p p' : KPar) (h : Admissible e p) (h' : Admissible e' p')
    (hl : LessCertain e.obj p e'.obj p') (xt : Batch m d) (x : Batch n d) :
    (Matrix.fromBlocks (Matrix.of (e'.obj.k p' xt xt) - Matrix.of (e.obj.k p xt xt))
      (Matrix.of (e'.obj.k p' xt x) - Matrix.of (e.obj.k p xt x))
      (Matrix.of (e'.obj.k p' xt x) - Matrix.of (e.obj.k p xt x)).transpose
      (Matrix.of (e'.obj.k p' x x) - Matrix.of (e.obj.k p x x))).PosSemidef := by
  obtain ⟨L, hL, hk⟩ := e.psd p h
  obtain ⟨L', hL', hk'⟩ := e'.psd p' h'
  have hM : (Matrix.of (e'.obj.k p' (joinBatch xt x) (joinBatch xt x)) -
      Matrix.of (e.obj.k p (joinBatch xt x) (joinBatch xt x))).PosSemidef := by
    refine psd_of_quad (fun i j => ?_) fun w => ?_
    · simp only [Matrix.sub_apply, Matrix.of_apply, hk, hk']
      rw [hL.symm, hL'.symm]
    · have := hl _ (joinBatch xt x) w
      simp only [Matrix.sub_apply, Matrix.of_apply, mul_sub, sub_mul, Finset.sum_sub_distrib]
      linarith
  have := hM.submatrix (finSumFinEquiv : Fin m ⊕ Fin n → Fin (m + n))
  convert this using 1
  ext i j
  rcases i with i | i <;> rcases j with j | j <;>
    simp [hk, hk', joinBatch, finSumFinEquiv_apply_left, finSumFinEquiv_apply_right]
  rw [hL.symm, hL'.symm]

theorem sq_noise {s t : ℝ} (hst : |s| ≤ |t|) (p p' : KPar) : (⟨p, s⟩ : GPParams).noise ≤ (⟨p', t⟩ : GPParams).noise := by
  have := sq_le_sq.2 hst
  simp only [GPParams.noise]
  linarith

/-- **C166.** Let one prior be at least as uncertain as another about every weighted sum of values, and let the noise be at
least as large in absolute value. Then, for every training set and all new inputs, the predicted covariance is at least as
large in the positive semidefinite order; in particular no predicted variance is smaller. -/
theorem C166_less_certain (ex : la.Exact) (e e' : KExpr d) (θ θ' : GPParams) (h : Admissible e θ.kernelParams)
    (h' : Admissible e' θ'.kernelParams) (hl : LessCertain e.obj θ.kernelParams e'.obj θ'.kernelParams)
    (hs : |θ.sigma| ≤ |θ'.sigma|) (xt : Batch m d) (x : Batch n d) :
    (predictDenseCov la θ' e'.obj xt x - predictDenseCov la θ e.obj xt x).PosSemidef ∧
    ∀ i, predictDenseCov la θ e.obj xt x i i ≤ predictDenseCov la θ' e'.obj xt x i i := by
  have key : (predictDenseCov la θ' e'.obj xt x - predictDenseCov la θ e.obj xt x).PosSemidef := by
    rw [predictDenseCov_eq ex e θ h, predictDenseCov_eq ex e' θ' h']
    exact posterior_mono (noise_pos θ) (sq_noise hs θ.kernelParams θ'.kernelParams) (C22_gram_posSemidef e _ h xt)
      (lessCertain_blocks e e' _ _ h h' hl xt x)
  refine ⟨key, fun i => ?_⟩
  have := key.diag_nonneg (i := i)
  simpa using this

/-- **C166.** More noise never makes a prediction more certain. -/
theorem C166_noise (ex : la.Exact) (e : KExpr d) (p : KPar) (h : Admissible e p) (s t : ℝ) (hst : |s| ≤ |t|)
    (xt : Batch m d) (x : Batch n d) :
    (predictDenseCov la ⟨p, t⟩ e.obj xt x - predictDenseCov la ⟨p, s⟩ e.obj xt x).PosSemidef ∧
    ∀ i, predictDenseCov la ⟨p, s⟩ e.obj xt x i i ≤ predictDenseCov la ⟨p, t⟩ e.obj xt x i i :=
  C166_less_certain ex e e ⟨p, s⟩ ⟨p, t⟩ h h (fun _ _ _ => le_rfl) hst xt x

theorem quad_nonneg (e : KExpr d) (p : KPar) (h : Admissible e p) (x : Batch n d) (w : Fin n → ℝ) :
    0 ≤ ∑ i, ∑ j, w i * e.obj.k p x x i j * w j := by
  have := (C22_gram_posSemidef e p h x).dotProduct_mulVec_nonneg w
  simpa [dotProduct, Matrix.mulVec, Finset.mul_sum, mul_assoc] using this

/-- Adding a kernel makes the prior less certain. -/
theorem lessCertain_sum (e1 e2 : KExpr d) (p : KPar) (h : Admissible e2 (p.sub "kernel2")) :
    LessCertain e1.obj (p.sub "kernel1") (KExpr.sum e1 e2).obj p := fun n x w => by
  have := quad_nonneg e2 _ h x w
  simp only [KExpr.obj, KernelObj.sum, sumKernels, Arr2.add, mul_add, add_mul, Finset.sum_add_distrib]
  linarith

/-- **C166.** Adding a kernel to a kernel, with the same noise, never makes a prediction more certain. -/
theorem C166_sum (ex : la.Exact) (e1 e2 : KExpr d) (θ : GPParams) (h : Admissible (.sum e1 e2) θ.kernelParams)
    (xt : Batch m d) (x : Batch n d) :
    (predictDenseCov la θ (KExpr.sum e1 e2).obj xt x -
      predictDenseCov la ⟨θ.kernelParams.sub "kernel1", θ.sigma⟩ e1.obj xt x).PosSemidef ∧
    ∀ i, predictDenseCov la ⟨θ.kernelParams.sub "kernel1", θ.sigma⟩ e1.obj xt x i i ≤
      predictDenseCov la θ (KExpr.sum e1 e2).obj xt x i i :=
  C166_less_certain ex e1 (.sum e1 e2) ⟨_, θ.sigma⟩ θ h.1 h (lessCertain_sum e1 e2 _ h.2) le_rfl xt x

/-- **C166.** With a `Constant` kernel as a factor, raising its variance, with everything else unchanged, never makes a
prediction more certain. -/
theorem C166_variance (ex : la.Exact) (a : Option (Dims d)) (e : KExpr d) (θ θ' : GPParams)
    (h : Admissible (.prod (.constant a) e) θ.kernelParams)
    (hv : (θ.kernelParams.sub "kernel1").val "variance" ≤ (θ'.kernelParams.sub "kernel1").val "variance")
    (he : θ'.kernelParams.sub "kernel2" = θ.kernelParams.sub "kernel2") (hs : θ'.sigma = θ.sigma)
    (xt : Batch m d) (x : Batch n d) :
    (predictDenseCov la θ' (KExpr.prod (.constant a) e).obj xt x -
      predictDenseCov la θ (KExpr.prod (.constant a) e).obj xt x).PosSemidef ∧
    ∀ i, predictDenseCov la θ (KExpr.prod (.constant a) e).obj xt x i i ≤
      predictDenseCov la θ' (KExpr.prod (.constant a) e).obj xt x i i := by
  have h' : Admissible (.prod (.constant a) e) θ'.kernelParams := ⟨le_trans h.1 hv, by rw [he]; exact h.2⟩
  refine C166_less_certain ex _ _ θ θ' h h' (fun n x w => ?_) (by rw [hs]) xt x
  have hq := quad_nonneg e _ h.2 x w
  have hf : ∀ p : KPar, ∑ i, ∑ j, w i * (KExpr.prod (.constant a) e).obj.k p x x i j * w j =
      (p.sub "kernel1").val "variance" * ∑ i, ∑ j, w i * e.obj.k (p.sub "kernel2") x x i j * w j := fun p => by
    simp only [Finset.mul_sum]
    refine Finset.sum_congr rfl fun i _ => Finset.sum_congr rfl fun j _ => ?_
    simp only [KExpr.obj, KernelObj.prod, prodKernels, Arr2.mul, KernelObj.constant, constantK]
    ring
  rw [hf, hf, he]
  exact mul_le_mul_of_nonneg_right hv hq

/-- **C166.** For models trained on derivatives (kernels of C65): neither a prior less certain about derivatives nor more noise
makes a predicted derivative more certain. -/
theorem C166_derivs (ex : la.Exact) (e e' : KExpr d) (θ θ' : GPParams) (h : DerivSmooth e θ.kernelParams)
    (h' : DerivSmooth e' θ'.kernelParams) (hl : LessCertainDerivs e.obj θ.kernelParams e'.obj θ'.kernelParams)
    (hs : |θ.sigma| ≤ |θ'.sigma|) (xt : Batch m d) (Jt : Jac m d w) (x : Batch n d) (J : Jac n d v) :
    (predictDerivsDenseCov la θ' e'.obj xt Jt x J - predictDerivsDenseCov la θ e.obj xt Jt x J).PosSemidef ∧
    ∀ i, predictDerivsDenseCov la θ e.obj xt Jt x J i i ≤ predictDerivsDenseCov la θ' e'.obj xt Jt x J i i := by
  have key : (predictDerivsDenseCov la θ' e'.obj xt Jt x J - predictDerivsDenseCov la θ e.obj xt Jt x J).PosSemidef := by
    rw [derivsCov_eq ex e θ h, derivsCov_eq ex e' θ' h']
    have hK : (Matrix.of (e.obj.d01kj θ.kernelParams xt xt Jt Jt)).PosSemidef :=
      (C65_two_datasets_partial e _ h xt Jt x J).submatrix Sum.inl
    refine posterior_mono (noise_pos θ) (sq_noise hs θ.kernelParams θ'.kernelParams) hK ?_
    obtain ⟨E, hE, h01⟩ := derivPSD_expr e _ h
    obtain ⟨E', hE', h01'⟩ := derivPSD_expr e' _ h'
    let X : Batch (m * w + n * v) d := Fin.append (fun s => xt s.divNat) (fun s => x s.divNat)
    let JJ : Jac (m * w + n * v) d 1 :=
      Fin.append (fun s f _ => Jt s.divNat f s.modNat) (fun s f _ => J s.divNat f s.modNat)
    have hM : (Matrix.of (e'.obj.d01kj θ'.kernelParams X X JJ JJ) -
        Matrix.of (e.obj.d01kj θ.kernelParams X X JJ JJ)).PosSemidef := by
      refine psd_of_quad (fun i j => ?_) fun w => ?_
      · obtain ⟨i, u, rfl⟩ := flat_surj i
        obtain ⟨j, t, rfl⟩ := flat_surj j
        simp only [Matrix.sub_apply, Matrix.of_apply, h01, h01']
        rw [hE.symm, hE'.symm]
      · have := hl _ _ X JJ w
        simp only [Matrix.sub_apply, Matrix.of_apply, mul_sub, sub_mul, Finset.sum_sub_distrib]
        linarith
    have := hM.submatrix (fun q : Fin (m * w) ⊕ Fin (n * v) => flat (finSumFinEquiv q) (0 : Fin 1))
    convert this using 1
    ext s t
    rcases s with s | s <;> rcases t with t | t <;> obtain ⟨i, u, rfl⟩ := flat_surj s <;>
      obtain ⟨j, z, rfl⟩ := flat_surj t <;>
      simp [h01, h01', flat_divNat, flat_modNat, X, JJ]
    rw [hE.symm, hE'.symm]
  refine ⟨key, fun i => ?_⟩
  have := key.diag_nonneg (i := i)
  simpa using this

/-- **C166.** As the noise grows without bound, the predictions tend to the mean and the predicted covariance to the prior
covariance: the model ignores data it takes for noise. -/
theorem C166_limit (ex : la.Exact) (e : KExpr d) (p : KPar) (h : Admissible e p) (mf : MeanFun) (xt : Batch m d)
    (y : Mat m o) (x : Batch n d) (j : Fin n) :
    (∀ a, Tendsto (fun s : ℝ => predictDense ⟨p, s⟩ e.obj xt x (fitDense la ⟨p, s⟩ e.obj mf xt y).1
      (fitDense la ⟨p, s⟩ e.obj mf xt y).2 j a) atTop (nhds (mf y))) ∧
    ∀ l, Tendsto (fun s : ℝ => predictDenseCov la ⟨p, s⟩ e.obj xt x j l) atTop (nhds (e.obj.k p x x j l)) := by
  have hn : Tendsto (fun s : ℝ => 4 * (s ^ 2 + 1 / 10 ^ 10)) atTop atTop :=
    (tendsto_atTop_add_const_right _ _ (tendsto_pow_atTop (by norm_num))).const_mul_atTop (by norm_num)
  have sq : ∀ {f : ℝ → ℝ} {c q : ℝ}, (∀ s, (f s - c) ^ 2 ≤ q / (4 * (s ^ 2 + 1 / 10 ^ 10))) →
      Tendsto f atTop (nhds c) := fun {f c q} hf => by
    have h0 : Tendsto (fun s : ℝ => q / (4 * (s ^ 2 + 1 / 10 ^ 10))) atTop (nhds 0) := hn.const_div_atTop q
    have h1 : Tendsto (fun s => (f s - c) ^ 2) atTop (nhds 0) :=
      tendsto_of_tendsto_of_tendsto_of_le_of_le tendsto_const_nhds h0 (fun s => sq_nonneg _) hf
    have h2 : Tendsto (fun s => |f s - c|) atTop (nhds 0) := by
      have := h1.sqrt
      simpa [Real.sqrt_sq_eq_abs] using this
    have h3 := (tendsto_zero_iff_abs_tendsto_zero _).2 h2
    simpa using h3.add_const c
  refine ⟨fun a => sq (q := e.obj.k p x x j j * ∑ i, (y i a - mf y) ^ 2) fun s => C122_bounded ex e ⟨p, s⟩ h mf xt y x j a,
    fun l => sq (q := e.obj.k p x x j j * ∑ i, (e.obj.k p xt x i l - 0) ^ 2) fun s => ?_⟩
  have := C122_bounded ex e ⟨p, s⟩ h zeroMean xt (Matrix.of (e.obj.k p xt x)) x j l
  refine le_trans (le_of_eq ?_) this
  have hc : (fitDense la ⟨p, s⟩ e.obj zeroMean xt (Matrix.of (e.obj.k p xt x))).1 =
      (aLhsNoise ⟨p, s⟩ e.obj xt xt)⁻¹ * Matrix.of (e.obj.k p xt x) := by
    have hu := posDef_isUnit (aLhsNoise_posDef e ⟨p, s⟩ h xt)
    have h1 := ex.solve (aLhsNoise ⟨p, s⟩ e.obj xt xt) (centerBy (Matrix.of (e.obj.k p xt x)) 0) hu
    have h2 : centerBy (Matrix.of (e.obj.k p xt x) : Mat m n) 0 = Matrix.of (e.obj.k p xt x) := by
      ext i j; simp [centerBy]
    rw [h2] at h1
    have h3 : (fitDense la ⟨p, s⟩ e.obj zeroMean xt (Matrix.of (e.obj.k p xt x))).1 =
        la.solve (aLhsNoise ⟨p, s⟩ e.obj xt xt) (Matrix.of (e.obj.k p xt x)) := by
      simp only [fitDense, zeroMean, h2]
    rw [h3]
    conv_rhs => rw [← h1]
    rw [← Matrix.mul_assoc, Matrix.nonsing_inv_mul _ hu, Matrix.one_mul]
  have hp := predict_sub_mu e ⟨p, s⟩ xt x
    (fitDense la ⟨p, s⟩ e.obj zeroMean xt (Matrix.of (e.obj.k p xt x))).1
    (fitDense la ⟨p, s⟩ e.obj zeroMean xt (Matrix.of (e.obj.k p xt x))).2 j l
  have hm : (fitDense la ⟨p, s⟩ e.obj zeroMean xt (Matrix.of (e.obj.k p xt x))).2 = 0 := rfl
  simp only [zeroMean] at hp hm hc ⊢
  rw [hm] at hp
  rw [hm, hp, hc, predictDenseCov_eq ex e ⟨p, s⟩ h, Matrix.mul_assoc, Matrix.sub_apply, Matrix.mul_apply]
  simp only [aLhs, Matrix.of_apply, Matrix.transpose_apply]
  ring

/-- Non-vacuity: a sum with a `Constant` factor is less certain than its first summand, whose variance it does not change. -/
example : let e1 : KExpr 2 := .prod (.constant none) (.matern52 none)
    let e : KExpr 2 := .sum e1 (.linear none)
    let p : KPar := fun _ => 2
    Admissible e p ∧ LessCertain e1.obj (p.sub "kernel1") e.obj p ∧
      ¬ LessCertain e.obj p e1.obj (p.sub "kernel1") := by
  intro e1 e p
  have h : Admissible e p := by norm_num [e, e1, p, Admissible, KPar.val, KPar.sub]
  refine ⟨h, lessCertain_sum e1 (.linear none) p h.2, fun hl => ?_⟩
  have := hl 1 (fun _ => ![1, 0]) fun _ => 1
  have hk : ∀ i j : Fin 1, e.obj.k p (fun _ => ![1, 0]) (fun _ => ![1, 0]) i j =
      e1.obj.k (p.sub "kernel1") (fun _ => ![1, 0]) (fun _ => ![1, 0]) i j +
      (KExpr.linear (none : Option (Dims 2))).obj.k (p.sub "kernel2") (fun _ => ![1, 0]) (fun _ => ![1, 0]) i j := fun i j => rfl
  have hl1 : (KExpr.linear (none : Option (Dims 2))).obj.k (p.sub "kernel2") (fun _ : Fin 1 => ![1, 0])
      (fun _ : Fin 1 => ![1, 0]) 0 0 = 1 := by
    change ∑ a : Fin 2, (![1, 0] : Fin 2 → ℝ) a * (![1, 0] : Fin 2 → ℝ) a = 1
    norm_num [Fin.sum_univ_two]
  simp only [Finset.univ_unique, Finset.sum_singleton, hk] at this
  rw [show (default : Fin 1) = 0 from rfl, hl1] at this
  linarith

/-- Non-vacuity for derivatives: twice a linear kernel against one. -/
example : let e : KExpr 2 := .linear none
    let e' : KExpr 2 := .sum (.linear none) (.linear none)
    let p : KPar := fun _ => 2
    DerivSmooth e p ∧ DerivSmooth e' p ∧ LessCertainDerivs e.obj (p.sub "kernel1") e'.obj p := by
  intro e e' p
  have h : JointSmooth e p := by norm_num [e, p, JointSmooth]
  refine ⟨.joint h, .joint (by norm_num [e', p, JointSmooth]), fun n v x J w => ?_⟩
  have hp : DerivSmooth e (p.sub "kernel2") := .joint h
  have hq := (C65_two_datasets_partial e _ hp x J x J).submatrix Sum.inl |>.dotProduct_mulVec_nonneg w
  have hk : ∀ i j, e'.obj.d01kj p x x J J i j =
      e.obj.d01kj (p.sub "kernel1") x x J J i j + e.obj.d01kj (p.sub "kernel2") x x J J i j := fun i j => rfl
  have h2 : 0 ≤ ∑ i, ∑ j, w i * e.obj.d01kj (p.sub "kernel2") x x J J i j * w j := by
    simpa [dotProduct, Matrix.mulVec, Finset.mul_sum, mul_assoc] using hq
  simp only [hk, mul_add, add_mul, Finset.sum_add_distrib]
  linarith

end GPX.Props
