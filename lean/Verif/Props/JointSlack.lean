import Verif.Lemmas.JointSlack
import Verif.Props.JointNear

/-!
# C65 and C78 for all twice differentiable kernels

The covariances of derivatives, and of targets and derivatives, can be indefinite with `SquaredExponential` and
`Matern32` (`C65_se_product`, `C65_matern32`, `C78_false`). Here: what has to be added, and which noise is enough.
-/

namespace GPX.Props
open GPX GPX.Spec

variable {d n v v' : ℕ}

theorem PSDOn.gram {A : Set (Fin d → ℝ)} {K : Jet d → Jet d → ℝ} (h : PSDOn A K) {I : Type*} [Fintype I]
    [DecidableEq I] (f : I → Jet d) (hf : ∀ a, (f a).1 ∈ A) : (Matrix.of fun a b => K (f a) (f b)).PosSemidef :=
  PSDK.gram h fun a => (⟨f a, hf a⟩ : {P : Jet d // P.1 ∈ A})

/-- **C78** (partial: up to a slack): for every expression made of twice differentiable kernels and every dataset in which
no `Matern32` finds two different samples nearer than `1e-18 / √3` lengthscales, the covariance of targets and one or two
sets of derivatives becomes positive semidefinite once the slack is added, for all jacobians and hyperparameters; the
slack itself is positive semidefinite. Missing from the full claim: the slack cannot be dropped (`C78_false`). -/
theorem C78_slack_partial (e : KExpr d) (p : KPar) (h : Smooth e p) (x : Batch n d)
    (hx : ∀ i j, Separated e p (x i) (x j)) (J : Jac n d v) (J' : Jac n d v') :
    (Matrix.of fun a b => cov1 e.obj p x J x J a b +
      slack e p (observable1 x J a) (observable1 x J b)).PosSemidef ∧
    (Matrix.of fun a b => cov2 e.obj p x J J' x J J' a b +
      slack e p (observable2 x J J' a) (observable2 x J J' b)).PosSemidef ∧
    (Matrix.of fun a b => slack e p (observable1 x J a) (observable1 x J b)).PosSemidef ∧
    (Matrix.of fun a b => slack e p (observable2 x J J' a) (observable2 x J J' b)).PosSemidef := by
  obtain ⟨hS, hE, hr⟩ := slackOn_expr e p h (Set.range x) (by rintro _ ⟨i, rfl⟩ _ ⟨j, rfl⟩; exact hx i j)
  have hmem : ∀ a, (observable2 x J J' a).1 ∈ Set.range x := by
    rintro ((i | ⟨i, u⟩) | ⟨i, u⟩) <;> exact ⟨i, rfl⟩
  have h2 : (Matrix.of fun a b => cov2 e.obj p x J J' x J J' a b +
      slack e p (observable2 x J J' a) (observable2 x J J' b)).PosSemidef := by
    convert PSDOn.gram hE (observable2 x J J') hmem using 1
    ext s t
    rcases s with (i | ⟨i, u⟩) | ⟨i, u⟩ <;> rcases t with (j | ⟨j, t⟩) | ⟨j, t⟩ <;>
      simp only [Matrix.of_apply, cov2, cov1, hr.k, hr.d0, hr.d1, hr.d01, observable2, observable1]
  have h3 := PSDOn.gram hS (observable2 x J J') hmem
  exact ⟨h2.submatrix (Sum.inl : Obs1 n v → Obs2 n v v'), h2,
    h3.submatrix (Sum.inl : Obs1 n v → Obs2 n v v'), h3⟩

/-- **C78**, consequence: the systems of GPR_TD are positive definite as soon as all noise variances exceed the sum of
the slacks of the observations. -/
theorem C78_well_posed_separated_partial (e : KExpr d) (θ : TDParams) (h : Smooth e θ.kernelParams) (x : Batch n d)
    (hx : ∀ i j, Separated e θ.kernelParams (x i) (x j)) (J : Jac n d v) (J' : Jac n d v') :
    (∑ a, slack e θ.kernelParams (observable1 x J a) (observable1 x J a) <
        min (θ.sigmaTargets ^ 2) (θ.sigmaDerivs ^ 2) + 1 / 10 ^ 10 →
      (tdALhsNoise1 θ e.obj x J x J).PosDef) ∧
    (∑ a, slack e θ.kernelParams (observable2 x J J' a) (observable2 x J J' a) <
        min (θ.sigmaTargets ^ 2) (min (θ.sigmaDerivs ^ 2) (θ.sigmaDerivs2 ^ 2)) + 1 / 10 ^ 10 →
      (tdALhsNoise2 θ e.obj x J J' x J J').PosDef) := by
  obtain ⟨h1, h2, s1, s2⟩ := C78_slack_partial e θ.kernelParams h x hx J J'
  constructor
  · intro hd
    have hd0 := hd.trans_le (add_le_add_left (min_le_left _ _) _)
    have hd1 := hd.trans_le (add_le_add_left (min_le_right _ _) _)
    have h3 := posDef_of_slack _ _ (fun _ => 1) h1 s1 (fun a b => by simp) (fun a => by simp) (noise1 θ) (fun a => ?_)
    · exact posDef_reindex pos1 pos1_bij _ _ (fun a b => by
        rw [(C52_entries1 e.obj θ x J x J).2.2, Matrix.add_apply, Matrix.diagonal_apply, Matrix.of_apply, add_comm]
        rfl) h3
    · rw [mul_one]
      rcases a with i | ⟨i, u⟩
      · exact hd0
      · exact hd1
  · intro hd
    have hd0 := hd.trans_le (add_le_add_left (min_le_left _ _) _)
    have hd1 := hd.trans_le (add_le_add_left ((min_le_right _ _).trans (min_le_left _ _)) _)
    have hd2 := hd.trans_le (add_le_add_left ((min_le_right _ _).trans (min_le_right _ _)) _)
    have h3 := posDef_of_slack _ _ (fun _ => 1) h2 s2 (fun a b => by simp) (fun a => by simp) (noise2 θ) (fun a => ?_)
    · exact posDef_reindex pos2 pos2_bij _ _ (fun a b => by
        rw [(C52_entries2 e.obj θ x J J' x J J').2.2, Matrix.add_apply, Matrix.diagonal_apply, Matrix.of_apply, add_comm]
        rfl) h3
    · rw [mul_one]
      rcases a with (i | ⟨i, u⟩) | ⟨i, u⟩
      · exact hd0
      · exact hd1
      · exact hd2

/-- **C78**, consequence without `Matern32`: the noise variances of the derivatives have to exceed the sum of the slacks
of the observations; nothing is asked of the noise of the targets, nor of the distances of the samples. -/
theorem C78_well_posed_slack_partial (e : KExpr d) (θ : TDParams) (h : Smooth e θ.kernelParams) (hm : NoMatern32 e)
    (x : Batch n d) (J : Jac n d v) (J' : Jac n d v') :
    (∑ a, slack e θ.kernelParams (observable1 x J a) (observable1 x J a) < θ.sigmaDerivs ^ 2 + 1 / 10 ^ 10 →
      (tdALhsNoise1 θ e.obj x J x J).PosDef) ∧
    (∑ a, slack e θ.kernelParams (observable2 x J J' a) (observable2 x J J' a) <
        min (θ.sigmaDerivs ^ 2) (θ.sigmaDerivs2 ^ 2) + 1 / 10 ^ 10 →
      (tdALhsNoise2 θ e.obj x J J' x J J').PosDef) := by
  obtain ⟨h1, h2, s1, s2⟩ := C78_slack_partial e θ.kernelParams h x
    (fun i j => separated_noMatern32 e _ hm _ _) J J'
  have hpos : 0 < θ.sigmaTargets ^ 2 + 1 / 10 ^ 10 := by positivity
  have hz := slack_noMatern32 e θ.kernelParams hm
  constructor
  · intro hd
    have h3 := posDef_of_slack _ _ (fun a => if isTarget1 a then 0 else 1) h1 s1 (fun a b => ?_) (fun a => ?_)
      (noise1 θ) (fun a => ?_)
    · exact posDef_reindex pos1 pos1_bij _ _ (fun a b => by
        rw [(C52_entries1 e.obj θ x J x J).2.2, Matrix.add_apply, Matrix.diagonal_apply, Matrix.of_apply, add_comm]
        rfl) h3
    · rcases a with i | ⟨i, u⟩ <;> rcases b with j | ⟨j, w⟩ <;> simp [observable1, isTarget1, hz]
    · split_ifs <;> simp
    · rcases a with i | ⟨i, u⟩
      · simpa [isTarget1, noise1] using hpos
      · simpa only [isTarget1, noise1, Bool.false_eq_true, if_false, mul_one] using hd
  · intro hd
    have hd1 := hd.trans_le (add_le_add_left (min_le_left _ _) _)
    have hd2 := hd.trans_le (add_le_add_left (min_le_right _ _) _)
    have h3 := posDef_of_slack _ _ (fun a => if isTarget2 a then 0 else 1) h2 s2 (fun a b => ?_) (fun a => ?_)
      (noise2 θ) (fun a => ?_)
    · exact posDef_reindex pos2 pos2_bij _ _ (fun a b => by
        rw [(C52_entries2 e.obj θ x J J' x J J').2.2, Matrix.add_apply, Matrix.diagonal_apply, Matrix.of_apply, add_comm]
        rfl) h3
    · rcases a with (i | ⟨i, u⟩) | ⟨i, u⟩ <;> rcases b with (j | ⟨j, w⟩) | ⟨j, w⟩ <;>
        simp [observable2, observable1, isTarget2, isTarget1, hz]
    · split_ifs <;> simp
    · rcases a with (i | ⟨i, u⟩) | ⟨i, u⟩
      · simpa [isTarget2, isTarget1, noise2, noise1] using hpos
      · simpa only [isTarget2, isTarget1, noise2, noise1, Bool.false_eq_true, if_false, mul_one] using hd1
      · simpa only [isTarget2, noise2, Bool.false_eq_true, if_false, mul_one] using hd2

/-- **C65** (partial: up to a slack): for every expression made of twice differentiable kernels and every dataset in which
no `Matern32` finds two different samples nearer than `1e-18 / √3` lengthscales, the jacobian-contracted Hessian Gram
matrix becomes positive semidefinite once the slack is added, for all jacobians and hyperparameters; the slack itself is
positive semidefinite. Missing from the full claim: the slack cannot be dropped (`C65_se_product`), and neither can the
distance (`C65_matern32`). -/
theorem C65_slack_partial (e : KExpr d) (p : KPar) (h : Smooth e p) (x : Batch n d)
    (hx : ∀ i j, Separated e p (x i) (x j)) (J : Jac n d v) :
    (Matrix.of fun a b : Fin n × Fin v => e.obj.d01kj p x x J J (flat a.1 a.2) (flat b.1 b.2) +
      slack e p (x a.1, some fun f => J a.1 f a.2) (x b.1, some fun f => J b.1 f b.2)).PosSemidef ∧
    (Matrix.of fun a b : Fin n × Fin v =>
      slack e p (x a.1, some fun f => J a.1 f a.2) (x b.1, some fun f => J b.1 f b.2)).PosSemidef := by
  obtain ⟨h1, _, h2, _⟩ := C78_slack_partial e p h x hx J J
  exact ⟨h1.submatrix (Sum.inr : Fin n × Fin v → Obs1 n v), h2.submatrix (Sum.inr : Fin n × Fin v → Obs1 n v)⟩

/-- **C65**, consequence: the system solved by `fit_derivs` is positive definite as soon as the noise variance exceeds
the sum of the slacks of the derivative observations. -/
theorem C65_fit_slack_partial (e : KExpr d) (θ : GPParams) (h : Smooth e θ.kernelParams) (x : Batch n d)
    (hx : ∀ i j, Separated e θ.kernelParams (x i) (x j)) (J : Jac n d v)
    (hd : ∑ i, ∑ u, slack e θ.kernelParams (x i, some fun f => J i f u) (x i, some fun f => J i f u) < θ.noise) :
    (aDerivsLhsNoise θ e.obj x J x J).PosDef := by
  obtain ⟨h1, h2⟩ := C65_slack_partial e θ.kernelParams h x hx J
  have h3 := posDef_of_slack _ _ (fun _ => 1) h1 h2 (fun a b => by simp) (fun _ => by simp) (fun _ => θ.noise)
    (fun a => by rw [mul_one, Fintype.sum_prod_type]; exact hd)
  refine posDef_reindex (fun a : Fin n × Fin v => flat a.1 a.2) ?_ _ _ (fun a b => ?_) h3
  · have : (fun a : Fin n × Fin v => flat a.1 a.2) = finProdFinEquiv := funext fun a => (prod_flat a.1 a.2).symm
    rw [this]
    exact finProdFinEquiv.bijective
  · simp only [aDerivsLhsNoise, aDerivsLhs, Matrix.add_apply, Matrix.smul_apply, Matrix.one_apply, smul_eq_mul,
      Matrix.diagonal_apply, Matrix.of_apply]
    by_cases hab : a = b
    · subst hab
      simp
      ring
    · have : flat a.1 a.2 ≠ flat b.1 b.2 := fun h => hab (by
        rw [← prod_flat, ← prod_flat] at h
        exact finProdFinEquiv.injective h)
      rw [if_neg hab, if_neg this]
      ring

/-- The slack of `SquaredExponential` in terms of the direction. -/
theorem slack_se_le (a : Option (Dims d)) (he : NoRepeat a) (p : KPar) (x u : Fin d → ℝ) :
    slack (.squaredExponential a) p (x, some u) (x, some u) ≤ 6 / 10 ^ 12 / p.val "lengthscale" ^ 2 * ∑ f, u f ^ 2 := by
  have h := (se_variances a he p (fun _ => x : Batch 1 d) (fun _ f _ => u f : Jac 1 d 1)).2
  simp only [Finset.univ_unique, Finset.sum_singleton, Nat.reduceMul] at h
  rw [slack]
  refine (mul_le_mul_of_nonneg_left h (by norm_num)).trans (le_of_eq ?_)
  ring

/-- The slack of `Matern32`: at most `3e-12` for a target, `3e-18 / lengthscale²` times the squared norm of the
direction in the active features for a derivative. -/
theorem slack_m32_le (a : Option (Dims d)) (p : KPar) (x u : Fin d → ℝ) :
    slack (.matern32 a) p (x, none) (x, none) ≤ 3 / 10 ^ 12 ∧
    slack (.matern32 a) p (x, some u) (x, some u) ≤
      3 / 10 ^ 18 / p.val "lengthscale" ^ 2 * ∑ b, u ((Dims.resolve a).idx b) ^ 2 := by
  have hz : activeDist a p x x = 0 := by simp [activeDist]
  constructor
  · have hk : obsCov (KExpr.matern32 a).obj p (x, none) (x, none) =
        m32K (p.val "lengthscale") sqDistJitter ((Dims.resolve a).take x) ((Dims.resolve a).take x) :=
      ((closedJ_m32 a p).k _ _ _ _).trans (m32_core _ _).1
    have hs : sqd (p.val "lengthscale") ((Dims.resolve a).take x) ((Dims.resolve a).take x) = 0 := by simp [sqd]
    simp only [slack, hk, hz, m32K, hs, mul_zero, Real.sqrt_zero, neg_zero, Real.exp_zero, zero_add, add_zero, mul_one]
    have h1 := Real.add_one_le_exp (-Real.sqrt (3 * sqDistJitter))
    have h2 : Real.sqrt (3 * sqDistJitter) ^ 2 = 3 * sqDistJitter :=
      Real.sq_sqrt (by unfold sqDistJitter; positivity)
    have h3 := Real.sqrt_nonneg (3 * sqDistJitter)
    have h4 : 3 * sqDistJitter = 3 / 10 ^ 12 := by unfold sqDistJitter; norm_num
    rw [h4] at h1 h2 h3 ⊢
    nlinarith
  · simp only [slack, hz, if_true]
    have h1 := Real.add_one_le_exp (-(1 / 10 ^ 18 : ℝ))
    have h2 : ∀ S : ℝ, 0 ≤ S → (1 - Real.exp (-(1 / 10 ^ 18))) * S ≤ 1 / 10 ^ 18 * S := fun S hS =>
      mul_le_mul_of_nonneg_right (by linarith) hS
    have h3 := h2 (3 / p.val "lengthscale" ^ 2 * ∑ b, u ((Dims.resolve a).idx b) * u ((Dims.resolve a).idx b))
      (mul_nonneg (by positivity) (Finset.sum_nonneg fun b _ => mul_self_nonneg _))
    simp only [pow_two (u _)]
    refine le_of_eq_of_le (by ring) (h3.trans (le_of_eq (by ring)))

theorem exSlack_lt : ∑ i, ∑ u, slack (.prod (.squaredExponential none) (.linear none) : KExpr 2) (fun _ => 1) 
    (exX i, some fun f => exJ i f u) (exX i, some fun f => exJ i f u) < 1 := by
  have h : ∀ i u, slack (.prod (.squaredExponential none) (.linear none) : KExpr 2) (fun _ => 1) 
      (exX i, some fun f => exJ i f u) (exX i, some fun f => exJ i f u) ≤ 6 / 10 ^ 12 * (∑ f, exJ i f u ^ 2) * ∑ f, exX i f ^ 2 := by
    intro i u
    have h1 := slack_se_le (d := 2) none trivial (KPar.sub (fun _ => 1) "kernel1") (exX i) fun f => exJ i f u
    have h2 : (KExpr.linear none : KExpr 2).obj.k (KPar.sub (fun _ => 1) "kernel2") (fun _ => exX i : Batch 1 2)
        (fun _ => exX i : Batch 1 2) 0 0 = ∑ f, exX i f ^ 2 := by
      rw [show (KExpr.linear none : KExpr 2).obj = KernelObj.linear none from rfl,
        (closed_linear (d := 2) none trivial _).k]
      simp only [pow_two]
      rfl
    simp only [slack, productRule, obsCov, mul_zero, zero_mul, add_zero]
    rw [h2]
    refine mul_le_mul_of_nonneg_right (h1.trans (le_of_eq ?_)) (Finset.sum_nonneg fun f _ => sq_nonneg _)
    norm_num [KPar.val, KPar.sub]
  refine lt_of_le_of_lt (Finset.sum_le_sum fun i _ => Finset.sum_le_sum fun u _ => h i u) ?_
  norm_num [exJ, exX, Fin.sum_univ_succ]

/-- Non-vacuity: `SquaredExponential` times `Linear`, two samples in the plane, no noise on the targets, noise `1` on the
derivatives. -/
example : (tdALhsNoise1 ⟨fun _ => 1, 0, 1, 2⟩ (KExpr.prod (.squaredExponential none) (.linear none) : KExpr 2).obj
      exX exJ exX exJ).PosDef ∧
    (aDerivsLhsNoise ⟨fun _ => 1, 1⟩ (KExpr.prod (.squaredExponential none) (.linear none) : KExpr 2).obj
      exX exJ exX exJ).PosDef := by
  constructor
  · refine (C78_well_posed_slack_partial (.prod (.squaredExponential none) (.linear none)) ⟨fun _ => 1, 0, 1, 2⟩ ⟨by norm_num [Smooth, KPar.val, KPar.sub], trivial⟩
      ⟨trivial, trivial⟩ exX exJ exJ').1 ?_
    have hz : ∀ i, slack (.prod (.squaredExponential none) (.linear none) : KExpr 2) (fun _ => 1) (exX i, none)
        (exX i, none) = 0 := fun i =>
      slack_noMatern32 (.prod (.squaredExponential none) (.linear none)) _ ⟨trivial, trivial⟩ _ _ (.inl rfl)
    simp only [Fintype.sum_sum_type, observable1, Fintype.sum_prod_type, hz, Finset.sum_const_zero, zero_add]
    exact exSlack_lt.trans (by norm_num)
  · refine C65_fit_slack_partial (.prod (.squaredExponential none) (.linear none)) ⟨fun _ => 1, 1⟩ ⟨by norm_num [Smooth, KPar.val, KPar.sub], trivial⟩
      exX (fun i j => ⟨trivial, trivial⟩) exJ (exSlack_lt.trans_le ?_)
    norm_num [GPParams.noise, noiseJitter]

/-- Non-vacuity: `Matern32`, two samples in the plane, no noise at all. -/
example : (tdALhsNoise1 ⟨fun _ => 1, 0, 0, 0⟩ (KExpr.matern32 none : KExpr 2).obj exX exJ exX exJ).PosDef ∧
    (aDerivsLhsNoise ⟨fun _ => 1, 0⟩ (KExpr.matern32 none : KExpr 2).obj exX exJ exX exJ).PosDef := by
  have hx : ∀ i j, Separated (KExpr.matern32 none : KExpr 2) (fun _ => 1) (exX i) (exX j) := by
    intro i j
    have e : activeDist (none : Option (Dims 2)) (fun _ => 1) (exX i) (exX j) = ∑ b, (exX i b - exX j b) ^ 2 := by
      simp only [activeDist, KPar.val, div_one]
      rfl
    rw [Separated, e]
    fin_cases i <;> fin_cases j <;> norm_num [exX, Fin.sum_univ_succ]
  have ht : ∀ i, slack (.matern32 none : KExpr 2) (fun _ => 1) (exX i, none) (exX i, none) ≤ 3 / 10 ^ 12 := fun i =>
    (slack_m32_le none _ _ 0).1
  have hu : ∀ i u, slack (.matern32 none : KExpr 2) (fun _ => 1) (exX i, some fun f => exJ i f u)
      (exX i, some fun f => exJ i f u) ≤ 3 / 10 ^ 18 * ∑ f, exJ i f u ^ 2 := fun i u => by
    have := (slack_m32_le (none : Option (Dims 2)) (fun _ => 1) (exX i) fun f => exJ i f u).2
    refine this.trans (le_of_eq ?_)
    simp only [KPar.val, one_pow, div_one]
    rfl
  have hb : ∑ i, ∑ u, slack (.matern32 none : KExpr 2) (fun _ => 1) (exX i, some fun f => exJ i f u)
      (exX i, some fun f => exJ i f u) < 1 / 10 ^ 11 := by
    refine lt_of_le_of_lt (Finset.sum_le_sum fun i _ => Finset.sum_le_sum fun u _ => hu i u) ?_
    norm_num [exJ, Fin.sum_univ_succ]
  constructor
  · refine (C78_well_posed_separated_partial (.matern32 none) ⟨fun _ => 1, 0, 0, 0⟩
      (by norm_num [Smooth, KPar.val]) exX hx exJ exJ').1 ?_
    simp only [Fintype.sum_sum_type, observable1, Fintype.sum_prod_type]
    refine lt_of_lt_of_le (add_lt_add_of_le_of_lt (Finset.sum_le_sum fun i _ => ht i) hb) ?_
    norm_num
  · refine C65_fit_slack_partial (.matern32 none) ⟨fun _ => 1, 0⟩ (by norm_num [Smooth, KPar.val]) exX hx exJ
      (hb.trans_le ?_)
    norm_num [GPParams.noise, noiseJitter]

end GPX.Props
