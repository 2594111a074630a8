import Verif.Spec.Decay
import Verif.Props.TrainingPoints
import Verif.Props.KernelValues

/-!
# C122: predictions are bounded, stable, and return to the mean far from the data
-/

namespace GPX.Props
open GPX GPX.Spec

variable {d m n o : ℕ} {la : LinAlg}

/-! ## Bounds valid everywhere -/

theorem predict_sub_mu (e : KExpr d) (θ : GPParams) (xt : Batch m d) (x : Batch n d) (c : Mat m o) (mu : ℝ)
    (j : Fin n) (a : Fin o) : predictDense θ e.obj xt x c mu j a - mu =
      ∑ i, (Matrix.of (e.obj.k θ.kernelParams xt x) : Mat m n) i j * c i a := by
  simp only [predictDense, addScalar, Matrix.of_apply, Matrix.mul_apply, Matrix.transpose_apply, aLhs]
  ring

/-- **C122.** How far a prediction can be from the mean: the square is at most `k(x, x) Σ (y - mu)² / (4 (sigma² + 1e-10))`.
For every kernel expression with admissible hyperparameters, training set (duplicates allowed), noise, mean function and
new input. -/
theorem C122_bounded (ex : la.Exact) (e : KExpr d) (θ : GPParams) (h : Admissible e θ.kernelParams) (mf : MeanFun)
    (xt : Batch m d) (y : Mat m o) (x : Batch n d) (j : Fin n) (a : Fin o) :
    let fit := fitDense la θ e.obj mf xt y
    (predictDense θ e.obj xt x fit.1 fit.2 j a - mf y) ^ 2 ≤
      e.obj.k θ.kernelParams x x j j * (∑ i, (y i a - mf y) ^ 2) / (4 * (θ.sigma ^ 2 + 1 / 10 ^ 10)) := by
  intro fit
  have h1 := (residual_column (C22_gram_posSemidef e θ.kernelParams h xt) (noise_pos θ) (fun i => fit.1 i a)
    (fun i => y i a - mf y) (fit_column ex e θ h mf xt y a)).2
  have h2 := block_cauchy (joint_psd e θ.kernelParams h xt x) (fun i => fit.1 i a) j
  have hk : 0 ≤ e.obj.k θ.kernelParams x x j j := (C22_gram_posSemidef e θ.kernelParams h x).diag_nonneg (i := j)
  have hn : 0 < θ.sigma ^ 2 + 1 / 10 ^ 10 := noise_pos θ
  have e1 : predictDense θ e.obj xt x fit.1 fit.2 j a - mf y = _ := predict_sub_mu e θ xt x fit.1 fit.2 j a
  rw [e1, le_div_iff₀ (by positivity)]
  have h3 : (∑ i, (Matrix.of (e.obj.k θ.kernelParams xt x) : Mat m n) i j * fit.1 i a) ^ 2 ≤
      e.obj.k θ.kernelParams x x j j * _ := h2
  calc (∑ i, (Matrix.of (e.obj.k θ.kernelParams xt x) : Mat m n) i j * fit.1 i a) ^ 2 * (4 * (θ.sigma ^ 2 + 1 / 10 ^ 10))
      ≤ (e.obj.k θ.kernelParams x x j j * (∑ i, ∑ i', fit.1 i a *
          (Matrix.of (e.obj.k θ.kernelParams xt xt) : Mat m m) i i' * fit.1 i' a)) * (4 * (θ.sigma ^ 2 + 1 / 10 ^ 10)) :=
        mul_le_mul_of_nonneg_right h3 (by positivity)
    _ = e.obj.k θ.kernelParams x x j j * (4 * θ.noise * (∑ i, ∑ i', fit.1 i a *
          (Matrix.of (e.obj.k θ.kernelParams xt xt) : Mat m m) i i' * fit.1 i' a)) := by rw [noise_val]; ring
    _ ≤ _ := mul_le_mul_of_nonneg_left h1 hk

/-- **C122**, stability: changing the targets changes the difference of a prediction from the mean by at most
`sqrt(k(x, x) / (4 (sigma² + 1e-10)))` times the Euclidean size of the change of the centered targets. -/
theorem C122_stable (ex : la.Exact) (e : KExpr d) (θ : GPParams) (h : Admissible e θ.kernelParams) (mf : MeanFun)
    (xt : Batch m d) (y y' : Mat m o) (x : Batch n d) (j : Fin n) (a : Fin o) :
    let dev := fun y : Mat m o =>
      predictDense θ e.obj xt x (fitDense la θ e.obj mf xt y).1 (fitDense la θ e.obj mf xt y).2 j a - mf y
    (dev y - dev y') ^ 2 ≤ e.obj.k θ.kernelParams x x j j *
      (∑ i, ((y i a - mf y) - (y' i a - mf y')) ^ 2) / (4 * (θ.sigma ^ 2 + 1 / 10 ^ 10)) := by
  intro dev
  set c := (fitDense la θ e.obj mf xt y).1
  set c' := (fitDense la θ e.obj mf xt y').1
  have f1 := fit_column ex e θ h mf xt y a
  have f2 := fit_column ex e θ h mf xt y' a
  have h1 := (residual_column (C22_gram_posSemidef e θ.kernelParams h xt) (noise_pos θ) (fun i => c i a - c' i a)
    (fun i => (y i a - mf y) - (y' i a - mf y')) (fun i => by
      rw [← f1 i, ← f2 i]
      simp only [mul_sub, Finset.sum_sub_distrib]
      ring)).2
  have h2 := block_cauchy (joint_psd e θ.kernelParams h xt x) (fun i => c i a - c' i a) j
  have hk : 0 ≤ e.obj.k θ.kernelParams x x j j := (C22_gram_posSemidef e θ.kernelParams h x).diag_nonneg (i := j)
  have hn : 0 < θ.sigma ^ 2 + 1 / 10 ^ 10 := noise_pos θ
  have e1 : dev y - dev y' = ∑ i, (Matrix.of (e.obj.k θ.kernelParams xt x) : Mat m n) i j * (c i a - c' i a) := by
    have a1 : dev y = _ := predict_sub_mu e θ xt x c (mf y) j a
    have a2 : dev y' = _ := predict_sub_mu e θ xt x c' (mf y') j a
    rw [a1, a2, ← Finset.sum_sub_distrib]
    exact Finset.sum_congr rfl fun i _ => by ring
  rw [e1, le_div_iff₀ (by positivity)]
  calc (∑ i, (Matrix.of (e.obj.k θ.kernelParams xt x) : Mat m n) i j * (c i a - c' i a)) ^ 2 *
        (4 * (θ.sigma ^ 2 + 1 / 10 ^ 10))
      ≤ (e.obj.k θ.kernelParams x x j j * (∑ i, ∑ i', (c i a - c' i a) *
          (Matrix.of (e.obj.k θ.kernelParams xt xt) : Mat m m) i i' * (c i' a - c' i' a))) *
          (4 * (θ.sigma ^ 2 + 1 / 10 ^ 10)) :=
        mul_le_mul_of_nonneg_right h2 (by positivity)
    _ = e.obj.k θ.kernelParams x x j j * (4 * θ.noise * (∑ i, ∑ i', (c i a - c' i a) *
          (Matrix.of (e.obj.k θ.kernelParams xt xt) : Mat m m) i i' * (c i' a - c' i' a))) := by rw [noise_val]; ring
    _ ≤ _ := mul_le_mul_of_nonneg_left h1 hk

/-! ## Kernels that vanish far away -/

theorem six_div {r q : ℝ} (hr : 0 < r) (hq' : q ≤ 1 + r + r ^ 2 / 3) : q * Real.exp (-r) ≤ 6 / r := by
  have h3 : 1 + r + r ^ 2 / 2 + r ^ 3 / 6 ≤ Real.exp r := by
    have := Real.sum_le_exp_of_nonneg hr.le 4
    simp only [Finset.sum_range_succ, Finset.range_zero, Finset.sum_empty, Nat.factorial] at this
    norm_num at this
    linarith
  have hE := Real.exp_pos r
  rw [Real.exp_neg, ← div_eq_mul_inv, div_le_div_iff₀ hE hr]
  nlinarith [sq_nonneg r, mul_nonneg hr.le (sq_nonneg r), mul_le_mul_of_nonneg_right hq' hr.le]

theorem clamp_ge {z : ℝ} (hz : 0 ≤ z) : z ≤ Real.sqrt (max (z ^ 2 + sqDistJitter) maternFloor) :=
  (clamp_sqrt_bounds hz).1

/-- The four decaying kernels are positive, at most one, and at most `6 / z` at scaled distance `z`. -/
theorem leaf_decay (a : Option (Dims d)) (p : KPar) (hl : 0 < p.val "lengthscale") :
    ∀ κ ∈ [KernelObj.squaredExponential a, KernelObj.matern12 a, KernelObj.matern32 a, KernelObj.matern52 a],
      ∀ {n m : ℕ} (x1 : Batch n d) (x2 : Batch m d) (i : Fin n) (j : Fin m),
        |κ.k p x1 x2 i j| ≤ 1 ∧
        ∀ f, Uses a f → ∀ R > 0, R ≤ |x1 i f - x2 j f| → |κ.k p x1 x2 i j| ≤ 6 * p.val "lengthscale" / R := by
  intro κ hκ n m x1 x2 i j
  have hst := C23_stationary a p hl κ (by
    simp only [List.mem_cons, List.not_mem_nil, or_false] at hκ ⊢
    tauto)
  obtain ⟨c, hc, hc1, hall⟩ := hst
  obtain ⟨-, hpos, hle, -⟩ := hall x1 x2 i j
  refine ⟨by rw [abs_of_pos hpos]; exact hle.trans hc1, fun f hf R hR hRle => ?_⟩
  rw [abs_of_pos hpos]
  set z := scaledDist (Dims.resolve a) (p.val "lengthscale") (x1 i) (x2 j) with hz
  have hs : sqd (p.val "lengthscale") ((Dims.resolve a).take (x1 i)) ((Dims.resolve a).take (x2 j)) = z ^ 2 :=
    sqd_eq_scaledDist _ _ _ _
  have hzR : R / p.val "lengthscale" ≤ z := by
    obtain ⟨b, rfl⟩ := hf
    rw [hz, scaledDist]
    refine Real.le_sqrt_of_sq_le ?_
    refine le_trans ?_ (Finset.single_le_sum (f := fun b => ((x1 i ((Dims.resolve a).idx b) -
      x2 j ((Dims.resolve a).idx b)) / p.val "lengthscale") ^ 2) (fun _ _ => sq_nonneg _) (Finset.mem_univ b))
    rw [div_pow, div_pow, ← sq_abs (_ - _)]
    gcongr
  have hq : 0 < R / p.val "lengthscale" := by positivity
  have hz0 : 0 < z := hq.trans_le hzR
  have e0 : 6 / z ≤ 6 * p.val "lengthscale" / R := by
    rw [show 6 * p.val "lengthscale" / R = 6 / (R / p.val "lengthscale") by field_simp]
    gcongr
  refine le_trans ?_ e0
  have hj : (0 : ℝ) ≤ sqDistJitter := by unfold sqDistJitter; positivity
  have hcl := clamp_ge hz0.le
  have mono : ∀ r, z ≤ r → 6 / r ≤ 6 / z := fun r hr => by gcongr
  simp only [List.mem_cons, List.not_mem_nil, or_false] at hκ
  rcases hκ with rfl | rfl | rfl | rfl
  · rw [(closedJ_se a p).k]
    simp only [Core.se, hs]
    have h1 : Real.exp (-(z ^ 2 + sqDistJitter)) ≤ 6 / z := by
      rw [Real.exp_neg, ← one_div, div_le_div_iff₀ (Real.exp_pos _) hz0]
      have := Real.add_one_le_exp (z ^ 2 + sqDistJitter)
      nlinarith [sq_nonneg (z - 1)]
    exact h1
  · rw [(closed_m12 a p).k]
    simp only [Core.m12, hs]
    have hr : 0 < Real.sqrt (max (z ^ 2 + sqDistJitter) maternFloor) := hz0.trans_le hcl
    have := six_div (q := 1) hr (by nlinarith [sq_nonneg (Real.sqrt (max (z ^ 2 + sqDistJitter) maternFloor))])
    rw [one_mul] at this
    exact this.trans (mono _ hcl)
  · rw [(closed_m32 a p).k]
    simp only [Core.m32, hs]
    have h3 : (1 : ℝ) ≤ Real.sqrt 3 := by rw [Real.one_le_sqrt]; norm_num
    have hcl' : z ≤ Real.sqrt 3 * Real.sqrt (max (z ^ 2 + sqDistJitter) maternFloor) := by
      nlinarith [Real.sqrt_nonneg (max (z ^ 2 + sqDistJitter) maternFloor)]
    set r := Real.sqrt 3 * Real.sqrt (max (z ^ 2 + sqDistJitter) maternFloor)
    exact (six_div (hz0.trans_le hcl') (by nlinarith [sq_nonneg r])).trans (mono _ hcl')
  · rw [(closedJ_m52 a p).k]
    simp only [Core.m52, hs]
    have h3 : (1 : ℝ) ≤ Real.sqrt 5 := by rw [Real.one_le_sqrt]; norm_num
    have hcl' : z ≤ m52Dist (z ^ 2) := by
      unfold m52Dist
      nlinarith [Real.sqrt_nonneg (max (z ^ 2 + sqDistJitter) maternFloor)]
    set r := m52Dist (z ^ 2)
    exact (six_div (hz0.trans_le hcl') le_rfl).trans (mono _ hcl')

/-- Bounded expressions are bounded. -/
theorem expr_bounded (e : KExpr d) (p : KPar) (h : Admissible e p) (hb : BoundedExpr e) :
    ∃ B : ℝ, 0 ≤ B ∧ ∀ {n m : ℕ} (x1 : Batch n d) (x2 : Batch m d) (i : Fin n) (j : Fin m), |e.obj.k p x1 x2 i j| ≤ B := by
  induction e generalizing p with
  | constant a =>
    refine ⟨|p.val "variance"|, abs_nonneg _, fun x1 x2 i j => le_of_eq ?_⟩
    change |(KernelObj.constant a).k p x1 x2 i j| = _
    rw [(closed_constant a p).k]; rfl
  | linear a => exact hb.elim
  | polynomial a b => exact hb.elim
  | squaredExponential a =>
    exact ⟨1, zero_le_one, fun x1 x2 i j => (leaf_decay a p h (KernelObj.squaredExponential a) (by simp) x1 x2 i j).1⟩
  | matern12 a => exact ⟨1, zero_le_one, fun x1 x2 i j => (leaf_decay a p h (KernelObj.matern12 a) (by simp) x1 x2 i j).1⟩
  | matern32 a => exact ⟨1, zero_le_one, fun x1 x2 i j => (leaf_decay a p h (KernelObj.matern32 a) (by simp) x1 x2 i j).1⟩
  | matern52 a => exact ⟨1, zero_le_one, fun x1 x2 i j => (leaf_decay a p h (KernelObj.matern52 a) (by simp) x1 x2 i j).1⟩
  | expSinSquared a =>
    refine ⟨1, zero_le_one, fun x1 x2 i j => ?_⟩
    obtain ⟨c, hc, hc1, hall⟩ := C23_stationary a p h.1 (KernelObj.expSinSquared a) (by simp)
    obtain ⟨-, hpos, hle, -⟩ := hall x1 x2 i j
    change |(KernelObj.expSinSquared a).k p x1 x2 i j| ≤ 1
    rw [abs_of_pos hpos]
    exact hle.trans hc1
  | sum e1 e2 ih1 ih2 =>
    obtain ⟨B1, p1, h1⟩ := ih1 _ h.1 hb.1
    obtain ⟨B2, p2, h2⟩ := ih2 _ h.2 hb.2
    exact ⟨B1 + B2, add_nonneg p1 p2, fun x1 x2 i j => (abs_add_le _ _).trans (add_le_add (h1 x1 x2 i j) (h2 x1 x2 i j))⟩
  | prod e1 e2 ih1 ih2 =>
    obtain ⟨B1, p1, h1⟩ := ih1 _ h.1 hb.1
    obtain ⟨B2, p2, h2⟩ := ih2 _ h.2 hb.2
    refine ⟨B1 * B2, mul_nonneg p1 p2, fun x1 x2 i j => ?_⟩
    change |e1.obj.k _ x1 x2 i j * e2.obj.k _ x1 x2 i j| ≤ _
    rw [abs_mul]
    exact mul_le_mul (h1 x1 x2 i j) (h2 x1 x2 i j) (abs_nonneg _) p1

/-- **C122**, kernels: samples far apart along a feature on which the kernel decays are nearly uncorrelated. -/
theorem C122_kernel_decay (e : KExpr d) (p : KPar) (h : Admissible e p) (hb : BoundedExpr e)
    (ε : ℝ) (hε : 0 < ε) :
    ∃ R : ℝ, ∀ {n m : ℕ} (x1 : Batch n d) (x2 : Batch m d) (i : Fin n) (j : Fin m) (f : Fin d), DecaysAlong e f →
      R ≤ |x1 i f - x2 j f| → |e.obj.k p x1 x2 i j| ≤ ε := by
  have leaf : ∀ (a : Option (Dims d)), ∀ p : KPar, 0 < p.val "lengthscale" → ∀ ε : ℝ, 0 < ε →
      ∀ κ ∈ [KernelObj.squaredExponential a, KernelObj.matern12 a, KernelObj.matern32 a, KernelObj.matern52 a],
      ∃ R : ℝ, ∀ {n m : ℕ} (x1 : Batch n d) (x2 : Batch m d) (i : Fin n) (j : Fin m) (f : Fin d), Uses a f →
        R ≤ |x1 i f - x2 j f| → |κ.k p x1 x2 i j| ≤ ε := by
    intro a p hl ε hε κ hκ
    refine ⟨6 * p.val "lengthscale" / ε, fun x1 x2 i j f hf hR => ?_⟩
    refine ((leaf_decay a p hl κ hκ x1 x2 i j).2 f hf _ (by positivity) hR).trans_eq ?_
    field_simp
  induction e generalizing p ε with
  | constant a => exact ⟨0, fun x1 x2 i j f hf => hf.elim⟩
  | linear a => exact hb.elim
  | polynomial a b => exact hb.elim
  | squaredExponential a => exact leaf a p h ε hε (KernelObj.squaredExponential a) (by simp)
  | matern12 a => exact leaf a p h ε hε (KernelObj.matern12 a) (by simp)
  | matern32 a => exact leaf a p h ε hε (KernelObj.matern32 a) (by simp)
  | matern52 a => exact leaf a p h ε hε (KernelObj.matern52 a) (by simp)
  | expSinSquared a => exact ⟨0, fun x1 x2 i j f hf => hf.elim⟩
  | sum e1 e2 ih1 ih2 =>
    obtain ⟨R1, h1⟩ := ih1 _ h.1 hb.1 (ε / 2) (by positivity)
    obtain ⟨R2, h2⟩ := ih2 _ h.2 hb.2 (ε / 2) (by positivity)
    refine ⟨max R1 R2, fun x1 x2 i j f hf hR => ?_⟩
    have a1 := h1 x1 x2 i j f hf.1 ((le_max_left _ _).trans hR)
    have a2 := h2 x1 x2 i j f hf.2 ((le_max_right _ _).trans hR)
    refine (abs_add_le (e1.obj.k _ x1 x2 i j) (e2.obj.k _ x1 x2 i j)).trans ?_
    linarith
  | prod e1 e2 ih1 ih2 =>
    obtain ⟨B1, p1, b1⟩ := expr_bounded e1 _ h.1 hb.1
    obtain ⟨B2, p2, b2⟩ := expr_bounded e2 _ h.2 hb.2
    obtain ⟨R1, h1⟩ := ih1 _ h.1 hb.1 (ε / (B2 + 1)) (by positivity)
    obtain ⟨R2, h2⟩ := ih2 _ h.2 hb.2 (ε / (B1 + 1)) (by positivity)
    refine ⟨max R1 R2, fun x1 x2 i j f hf hR => ?_⟩
    change |e1.obj.k _ x1 x2 i j * e2.obj.k _ x1 x2 i j| ≤ ε
    rw [abs_mul]
    rcases hf with hf | hf
    · refine (mul_le_mul (h1 x1 x2 i j f hf ((le_max_left _ _).trans hR)) (b2 x1 x2 i j) (abs_nonneg _)
        (by positivity)).trans ?_
      rw [div_mul_eq_mul_div, div_le_iff₀ (by linarith)]
      nlinarith
    · refine (mul_le_mul (b1 x1 x2 i j) (h2 x1 x2 i j f hf ((le_max_right _ _).trans hR)) (abs_nonneg _) p1).trans ?_
      rw [mul_div_assoc', div_le_iff₀ (by linarith)]
      nlinarith

/-- **C122**, far from the data. For every kernel expression built from constants and stationary kernels, training set,
targets, noise, mean function and tolerance there is a distance such that at every input that is at least that far from
every training sample (along some feature on which the kernel decays; it may be a different one for each sample), the
prediction differs from the mean by at most the tolerance, and the posterior variance from the prior variance by at most
the tolerance. -/
theorem C122_far_from_data (ex : la.Exact) (e : KExpr d) (θ : GPParams)
    (h : Admissible e θ.kernelParams) (hb : BoundedExpr e) (mf : MeanFun) (xt : Batch m d) (y : Mat m o) (ε : ℝ)
    (hε : 0 < ε) :
    ∃ R : ℝ, ∀ {n : ℕ} (x : Batch n d) (j : Fin n),
      (∀ i, ∃ f, DecaysAlong e f ∧ R ≤ |xt i f - x j f|) →
      (∀ a, |predictDense θ e.obj xt x (fitDense la θ e.obj mf xt y).1 (fitDense la θ e.obj mf xt y).2 j a - mf y| ≤ ε) ∧
      0 ≤ e.obj.k θ.kernelParams x x j j - predictDenseCov la θ e.obj xt x j j ∧
      e.obj.k θ.kernelParams x x j j - predictDenseCov la θ e.obj xt x j j ≤ ε := by
  set c := (fitDense la θ e.obj mf xt y).1 with hc
  -- a bound on everything the cross-covariances are multiplied by
  set M := (aLhsNoise θ e.obj xt xt)⁻¹ with hM
  set S : ℝ := (∑ i, ∑ a, |c i a|) + (∑ i, ∑ l, |M i l|) + 1 with hS
  have hS1 : 1 ≤ S := by
    have a1 : 0 ≤ ∑ i, ∑ a, |c i a| := Finset.sum_nonneg fun _ _ => Finset.sum_nonneg fun _ _ => abs_nonneg _
    have a2 : 0 ≤ ∑ i, ∑ l, |M i l| := Finset.sum_nonneg fun _ _ => Finset.sum_nonneg fun _ _ => abs_nonneg _
    linarith
  have hS0 : 0 < S := by linarith
  obtain ⟨R, hR⟩ := C122_kernel_decay e θ.kernelParams h hb (min 1 (ε / S)) (lt_min one_pos (by positivity))
  refine ⟨R, fun {n} x j hfar => ?_⟩
  have hkij : ∀ i, |e.obj.k θ.kernelParams xt x i j| ≤ min 1 (ε / S) := fun i => by
    obtain ⟨f, hf, hfR⟩ := hfar i
    exact hR xt x i j f hf hfR
  have hk1 : ∀ i, |e.obj.k θ.kernelParams xt x i j| ≤ 1 := fun i => (hkij i).trans (min_le_left _ _)
  have hkε : ∀ i, |e.obj.k θ.kernelParams xt x i j| ≤ ε / S := fun i => (hkij i).trans (min_le_right _ _)
  have h33 := (C33_posterior_covariance ex e θ h xt x).2.2 j
  refine ⟨fun a => ?_, by linarith, ?_⟩
  · have e1 : predictDense θ e.obj xt x (fitDense la θ e.obj mf xt y).1 (fitDense la θ e.obj mf xt y).2 j a - mf y = _ :=
      predict_sub_mu e θ xt x c (mf y) j a
    rw [e1]
    refine (Finset.abs_sum_le_sum_abs _ _).trans ?_
    calc ∑ i, |(Matrix.of (e.obj.k θ.kernelParams xt x) : Mat m n) i j * c i a|
        ≤ ∑ i, ε / S * |c i a| := Finset.sum_le_sum fun i _ => by
          rw [abs_mul]; exact mul_le_mul_of_nonneg_right (hkε i) (abs_nonneg _)
      _ = ε / S * ∑ i, |c i a| := by rw [Finset.mul_sum]
      _ ≤ ε / S * S := by
          refine mul_le_mul_of_nonneg_left ?_ (by positivity)
          have a1 : ∑ i, |c i a| ≤ ∑ i, ∑ a, |c i a| := Finset.sum_le_sum fun i _ =>
            Finset.single_le_sum (f := fun a => |c i a|) (fun _ _ => abs_nonneg _) (Finset.mem_univ a)
          have a2 : 0 ≤ ∑ i, ∑ l, |M i l| := Finset.sum_nonneg fun _ _ => Finset.sum_nonneg fun _ _ => abs_nonneg _
          linarith
      _ = ε := by field_simp
  · have e2 : e.obj.k θ.kernelParams x x j j - predictDenseCov la θ e.obj xt x j j =
        ∑ l, (∑ i, e.obj.k θ.kernelParams xt x i j * M i l) * e.obj.k θ.kernelParams xt x l j := by
      rw [predictDenseCov_eq ex e θ h]
      simp only [Matrix.sub_apply, Matrix.mul_apply, Matrix.transpose_apply, aLhs, Matrix.of_apply, sub_sub_cancel]
      rfl
    rw [e2]
    refine (le_abs_self _).trans ((Finset.abs_sum_le_sum_abs _ _).trans ?_)
    calc ∑ l, |(∑ i, e.obj.k θ.kernelParams xt x i j * M i l) * e.obj.k θ.kernelParams xt x l j|
        ≤ ∑ l, (∑ i, |M i l|) * (ε / S) := Finset.sum_le_sum fun l _ => by
          rw [abs_mul]
          refine mul_le_mul ?_ (hkε l) (abs_nonneg _) (Finset.sum_nonneg fun _ _ => abs_nonneg _)
          refine (Finset.abs_sum_le_sum_abs _ _).trans (Finset.sum_le_sum fun i _ => ?_)
          rw [abs_mul]
          exact mul_le_of_le_one_left (abs_nonneg _) (hk1 i)
      _ = (∑ i, ∑ l, |M i l|) * (ε / S) := by rw [← Finset.sum_mul, Finset.sum_comm]
      _ ≤ S * (ε / S) := by
          refine mul_le_mul_of_nonneg_right ?_ (by positivity)
          have a1 : 0 ≤ ∑ i, ∑ a, |c i a| := Finset.sum_nonneg fun _ _ => Finset.sum_nonneg fun _ _ => abs_nonneg _
          linarith
      _ = ε := by field_simp

/-- Non-vacuity: a `SquaredExponential` on the first feature times a `Matern32` on the second, with a constant factor,
decays along both features. -/
example : let e : KExpr 2 := .prod (.constant none) (.prod (.squaredExponential (some ⟨1, ![0]⟩)) (.matern32 (some ⟨1, ![1]⟩)))
    Admissible e (fun _ => 1) ∧ BoundedExpr e ∧ ∀ f, DecaysAlong e f := by
  refine ⟨⟨by norm_num [Admissible, KPar.val, KPar.sub], by norm_num [Admissible, KPar.val, KPar.sub],
    by norm_num [Admissible, KPar.val, KPar.sub]⟩, ⟨trivial, trivial, trivial⟩, fun f => ?_⟩
  fin_cases f
  · exact Or.inr (Or.inl ⟨(0 : Fin 1), rfl⟩)
  · exact Or.inr (Or.inr ⟨(0 : Fin 1), rfl⟩)

end GPX.Props
