import Verif.Props.DensitySlack
import Verif.Props.GradientDerivs
import Verif.Props.CovarianceSlack

/-!
# C122 and C146 for every twice differentiable kernel

Bounds on the predictions of joint models when the derivative covariances are positive semidefinite only up to the slack
of C78, `SquaredExponential` included.
-/

namespace GPX.Props
open GPX GPX.Spec

variable {d m n o v w v' w' : ℕ} {la : LinAlg}

/-! ## Bounds from covariances that are positive semidefinite up to a slack -/

/-- If the covariance of training and new observations and its slack `(S, R, T)` are as in C78, the matrix with twice the
slack on the diagonal blocks and none off the diagonal is positive semidefinite. -/
theorem double_slack {I I' : Type} [Fintype I] [Fintype I'] [DecidableEq I] [DecidableEq I'] {K S : I → I → ℝ}
    {B R : I → I' → ℝ} {D T : I' → I' → ℝ}
    (hK : (Matrix.fromBlocks (Matrix.of fun a b => K a b + S a b) (Matrix.of fun a b => B a b + R a b)
      (Matrix.of fun a b => B a b + R a b).transpose (Matrix.of fun a b => D a b + T a b)).PosSemidef)
    (hS : (Matrix.fromBlocks (Matrix.of S) (Matrix.of R) (Matrix.of R).transpose (Matrix.of T)).PosSemidef) :
    (Matrix.fromBlocks (Matrix.of fun a b => K a b + 2 * S a b) (Matrix.of B) (Matrix.of B).transpose
      (Matrix.of fun a b => D a b + 2 * T a b)).PosSemidef := by
  have hf := hS.conjTranspose_mul_mul_same (Matrix.fromBlocks (1 : Matrix I I ℝ) 0 0 (-1 : Matrix I' I' ℝ))
  rw [Matrix.fromBlocks_conjTranspose, Matrix.fromBlocks_multiply, Matrix.fromBlocks_multiply] at hf
  have h := hK.add hf
  rw [Matrix.fromBlocks_add] at h
  convert h using 2 <;> ext a b <;> simp <;> ring

/-- Bound of one prediction of a joint model, up to the slack: `z` marks the observations the slack touches. -/
theorem weighted_predict_slack {I I' : Type} [Fintype I] [Fintype I'] [DecidableEq I] [DecidableEq I'] {K S : I → I → ℝ}
    {B R : I → I' → ℝ} {D T : I' → I' → ℝ} {s z : I → ℝ}
    (hK : (Matrix.fromBlocks (Matrix.of fun a b => K a b + S a b) (Matrix.of fun a b => B a b + R a b)
      (Matrix.of fun a b => B a b + R a b).transpose (Matrix.of fun a b => D a b + T a b)).PosSemidef)
    (hS : (Matrix.fromBlocks (Matrix.of S) (Matrix.of R) (Matrix.of R).transpose (Matrix.of T)).PosSemidef)
    (hz : ∀ a b, S a b = z a * S a b * z b) (hz2 : ∀ a, z a * z a = z a)
    (hs : ∀ a, 2 * (∑ b, S b b) * z a < s a) (c b : I → ℝ)
    (h : ∀ a, (∑ j, K a j * c j) + s a * c a = b a) (j : I') :
    (∑ a, B a j * c a) ^ 2 ≤ (D j j + 2 * T j j) * (∑ a, b a ^ 2 / (s a - 2 * (∑ b, S b b) * z a)) / 4 := by
  set τ := ∑ b, S b b with hτ
  have h1 := block_cauchy_obs (double_slack hK hS) c j
  have hD : 0 ≤ D j j + 2 * T j j := (double_slack hK hS).diag_nonneg (i := .inr j)
  have hS1 : (Matrix.of S).PosSemidef := hS.submatrix (Sum.inl : I → I ⊕ I')
  have h2 := quad_le_trace' hS1 fun a => z a * c a
  have e1 : ∑ a, ∑ b, (z a * c a) * S a b * (z b * c b) = ∑ a, c a * ∑ b, S a b * c b := by
    refine Finset.sum_congr rfl fun a _ => ?_
    rw [Finset.mul_sum]
    refine Finset.sum_congr rfl fun b _ => ?_
    rw [show z a * c a * S a b * (z b * c b) = c a * ((z a * S a b * z b) * c b) by ring, ← hz]
  have e2 : (∑ b, S b b) * ∑ a, (z a * c a) ^ 2 = ∑ a, τ * z a * c a ^ 2 := by
    rw [← hτ, Finset.mul_sum]
    refine Finset.sum_congr rfl fun a _ => ?_
    rw [mul_pow, pow_two (z a), hz2]
    ring
  simp only [Matrix.of_apply] at h2
  rw [e1] at h2
  have h3 : 4 * ∑ a, c a * ∑ j, (K a j + 2 * S a j) * c j ≤ ∑ a, b a ^ 2 / (s a - 2 * τ * z a) := by
    have e3 : ∑ a, c a * ∑ j, (K a j + 2 * S a j) * c j =
        ∑ a, c a * (b a - s a * c a) + 2 * ∑ a, c a * ∑ j, S a j * c j := by
      rw [Finset.mul_sum, ← Finset.sum_add_distrib]
      refine Finset.sum_congr rfl fun a _ => ?_
      rw [← h a]
      simp only [add_mul, Finset.sum_add_distrib, mul_assoc, ← Finset.mul_sum]
      ring
    have h4 : 4 * (∑ a, c a * (b a - s a * c a) + 2 * ∑ a, τ * z a * c a ^ 2) ≤
        ∑ a, b a ^ 2 / (s a - 2 * τ * z a) := by
      rw [Finset.mul_sum, ← Finset.sum_add_distrib, Finset.mul_sum]
      refine Finset.sum_le_sum fun a _ => ?_
      have hp : 0 < s a - 2 * τ * z a := sub_pos.2 (hs a)
      rw [le_div_iff₀ hp]
      nlinarith [sq_nonneg (b a - 2 * (s a - 2 * τ * z a) * c a)]
    have h5 : ∑ a, c a * ∑ j, S a j * c j ≤ ∑ a, τ * z a * c a ^ 2 := h2.trans (le_of_eq e2)
    rw [e3]
    linarith
  have h6 := mul_le_mul_of_nonneg_left h3 hD
  linarith

/-- The covariance of training and new observations with its slack, and the slack alone. -/
theorem joint_obs2_slack (e : KExpr d) (p : KPar) (h : Smooth e p) (xt : Batch m d)
    (Jt : Jac m d v) (Jt' : Jac m d v') (x : Batch n d) (J : Jac n d w) (J' : Jac n d w')
    (hx : ∀ y ∈ Set.range xt ∪ Set.range x, ∀ z ∈ Set.range xt ∪ Set.range x, Separated e p y z) :
    let T := fun {k l a a' b b' : ℕ} (y : Batch k d) (Y : Jac k d a) (Y' : Jac k d a') (z : Batch l d) (Z : Jac l d b)
      (Z' : Jac l d b') (s : Obs2 k a a') (t : Obs2 l b b') => slack e p (observable2 y Y Y' s) (observable2 z Z Z' t)
    (Matrix.fromBlocks (Matrix.of fun a b => cov2 e.obj p xt Jt Jt' xt Jt Jt' a b + T xt Jt Jt' xt Jt Jt' a b)
      (Matrix.of fun a b => cov2 e.obj p xt Jt Jt' x J J' a b + T xt Jt Jt' x J J' a b)
      (Matrix.of fun a b => cov2 e.obj p xt Jt Jt' x J J' a b + T xt Jt Jt' x J J' a b).transpose
      (Matrix.of fun a b => cov2 e.obj p x J J' x J J' a b + T x J J' x J J' a b)).PosSemidef ∧
    (Matrix.fromBlocks (Matrix.of (T xt Jt Jt' xt Jt Jt')) (Matrix.of (T xt Jt Jt' x J J'))
      (Matrix.of (T xt Jt Jt' x J J')).transpose (Matrix.of (T x J J' x J J'))).PosSemidef := by
  intro T
  obtain ⟨hS, hE, hr⟩ := slackOn_expr e p h _ hx
  let g : Obs2 m v v' ⊕ Obs2 n w w' → Jet d := Sum.elim (observable2 xt Jt Jt') (observable2 x J J')
  have hg : ∀ q, (g q).1 ∈ Set.range xt ∪ Set.range x := by
    rintro (((i | ⟨i, u⟩) | ⟨i, u⟩) | ((i | ⟨i, u⟩) | ⟨i, u⟩))
    · exact .inl ⟨i, rfl⟩
    · exact .inl ⟨i, rfl⟩
    · exact .inl ⟨i, rfl⟩
    · exact .inr ⟨i, rfl⟩
    · exact .inr ⟨i, rfl⟩
    · exact .inr ⟨i, rfl⟩
  have key : ∀ {k l a a' b b' : ℕ} (y : Batch k d) (Y : Jac k d a) (Y' : Jac k d a') (z : Batch l d) (Z : Jac l d b)
      (Z' : Jac l d b') (s : Obs2 k a a') (t : Obs2 l b b'),
      cov2 e.obj p y Y Y' z Z Z' s t = obsCov e.obj p (observable2 y Y Y' s) (observable2 z Z Z' t) := by
    intro k l a a' b b' y Y Y' z Z Z' s t
    rcases s with (i | ⟨i, u⟩) | ⟨i, u⟩ <;> rcases t with (j | ⟨j, t⟩) | ⟨j, t⟩ <;>
      simp only [cov2, cov1, hr.k, hr.d0, hr.d1, hr.d01, observable2, observable1]
  constructor
  · have hG := PSDOn.gram hE g hg
    have hsym := hG.1
    convert hG using 1
    ext s t
    rcases s with s | s <;> rcases t with t | t
    · simp only [Matrix.fromBlocks_apply₁₁, Matrix.of_apply, key]; rfl
    · simp only [Matrix.fromBlocks_apply₁₂, Matrix.of_apply, key]; rfl
    · simp only [Matrix.fromBlocks_apply₂₁, Matrix.transpose_apply, Matrix.of_apply, key]
      exact (hsym.apply (Sum.inl t) (Sum.inr s)).symm
    · simp only [Matrix.fromBlocks_apply₂₂, Matrix.of_apply, key]; rfl
  · have hG := PSDOn.gram hS g hg
    have hsym := hG.1
    convert hG using 1
    ext s t
    rcases s with s | s <;> rcases t with t | t
    · rfl
    · rfl
    · exact (hsym.apply (Sum.inl t) (Sum.inr s)).symm
    · rfl

theorem joint_obs1_slack (e : KExpr d) (p : KPar) (h : Smooth e p) (xt : Batch m d)
    (Jt : Jac m d v) (x : Batch n d) (J : Jac n d w)
    (hx : ∀ y ∈ Set.range xt ∪ Set.range x, ∀ z ∈ Set.range xt ∪ Set.range x, Separated e p y z) :
    let T := fun {k l a b : ℕ} (y : Batch k d) (Y : Jac k d a) (z : Batch l d) (Z : Jac l d b)
      (s : Obs1 k a) (t : Obs1 l b) => slack e p (observable1 y Y s) (observable1 z Z t)
    (Matrix.fromBlocks (Matrix.of fun a b => cov1 e.obj p xt Jt xt Jt a b + T xt Jt xt Jt a b)
      (Matrix.of fun a b => cov1 e.obj p xt Jt x J a b + T xt Jt x J a b)
      (Matrix.of fun a b => cov1 e.obj p xt Jt x J a b + T xt Jt x J a b).transpose
      (Matrix.of fun a b => cov1 e.obj p x J x J a b + T x J x J a b)).PosSemidef ∧
    (Matrix.fromBlocks (Matrix.of (T xt Jt xt Jt)) (Matrix.of (T xt Jt x J))
      (Matrix.of (T xt Jt x J)).transpose (Matrix.of (T x J x J))).PosSemidef := by
  intro T
  obtain ⟨h1, h2⟩ := joint_obs2_slack e p h xt Jt Jt x J J hx
  constructor
  · have := h1.submatrix (Sum.map Sum.inl Sum.inl : Obs1 m v ⊕ Obs1 n w → Obs2 m v v ⊕ Obs2 n w w)
    convert this using 1
    ext s t
    rcases s with s | s <;> rcases t with t | t <;> rfl
  · have := h2.submatrix (Sum.map Sum.inl Sum.inl : Obs1 m v ⊕ Obs1 n w → Obs2 m v v ⊕ Obs2 n w w)
    convert this using 1
    ext s t
    rcases s with s | s <;> rcases t with t | t <;> rfl

/-- **C122** for GPR_TD with targets and two sets of derivatives, every twice differentiable kernel but `Matern32`. With
`τ` twice the sum of the slacks of the training derivatives, and the noise variances of the derivatives above `τ`, the
bounds hold with these variances reduced by `τ`, and the prior variance of a predicted derivative raised by twice its
slack; the prior variance of a predicted target stays. -/
theorem C122_bounded_joint2_slack (ex : la.Exact) (e : KExpr d) (θ : TDParams)
    (h : Smooth e θ.kernelParams) (hn : NoMatern32 e) (mf : MeanFun) (xt : Batch m d) (y : Mat m 1) (Jt : Jac m d v)
    (Jt' : Jac m d v') (yd : Mat m v) (yd' : Mat m v') (x : Batch n d) (J : Jac n d w) (J' : Jac n d w') (τ : ℝ)
    (hτ : τ = 2 * ∑ a, slack e θ.kernelParams (observable2 xt Jt Jt' a) (observable2 xt Jt Jt' a))
    (hd : τ < θ.sigmaDerivs ^ 2 + 1 / 10 ^ 10) (hd' : τ < θ.sigmaDerivs2 ^ 2 + 1 / 10 ^ 10) :
    let fit := tdFitDense2 la θ e.obj mf xt y Jt Jt' yd yd'
    let pred := tdPredictDense2 θ e.obj xt Jt Jt' x J J' fit.1 fit.2
    let Q := ∑ i, (y i 0 - mf y) ^ 2 / (θ.sigmaTargets ^ 2 + 1 / 10 ^ 10) +
      ∑ i, ∑ u, yd i u ^ 2 / (θ.sigmaDerivs ^ 2 + 1 / 10 ^ 10 - τ) +
      ∑ i, ∑ u, yd' i u ^ 2 / (θ.sigmaDerivs2 ^ 2 + 1 / 10 ^ 10 - τ)
    (∀ j, (pred.1 j 0 - mf y) ^ 2 ≤ e.obj.k θ.kernelParams x x j j * Q / 4) ∧
    (∀ j t, pred.2.1 j t ^ 2 ≤ (e.obj.d01kj θ.kernelParams x x J J (flat j t) (flat j t) +
      2 * slack e θ.kernelParams (x j, some fun f => J j f t) (x j, some fun f => J j f t)) * Q / 4) ∧
    ∀ j t, pred.2.2 j t ^ 2 ≤ (e.obj.d01kj θ.kernelParams x x J' J' (flat j t) (flat j t) +
      2 * slack e θ.kernelParams (x j, some fun f => J' j f t) (x j, some fun f => J' j f t)) * Q / 4 := by
  intro fit pred Q
  have hx : ∀ y ∈ Set.range xt ∪ Set.range x, ∀ z ∈ Set.range xt ∪ Set.range x, Separated e θ.kernelParams y z :=
    fun _ _ _ _ => separated_noMatern32 e _ hn _ _
  have hz := slack_noMatern32 e θ.kernelParams hn
  obtain ⟨hK, hS⟩ := joint_obs2_slack e θ.kernelParams h xt Jt Jt' x J J' hx
  have hS1 := hS.submatrix (Sum.inl : Obs2 m v v' → _)
  have hτ0 : 0 ≤ ∑ a, slack e θ.kernelParams (observable2 xt Jt Jt' a) (observable2 xt Jt Jt' a) :=
    Finset.sum_nonneg fun a _ => hS1.diag_nonneg (i := a)
  have hp : (tdALhsNoise2 θ e.obj xt Jt Jt' xt Jt Jt').PosDef :=
    (C78_well_posed_slack_partial e θ h hn xt Jt Jt').2 (by
      have := lt_min (a := τ - 1 / 10 ^ 10) (b := θ.sigmaDerivs ^ 2) (c := θ.sigmaDerivs2 ^ 2) (by linarith)
        (by linarith)
      linarith)
  obtain ⟨hm, hs, -⟩ := C76_fit2 ex e.obj θ mf xt y Jt Jt' yd yd' hp
  obtain ⟨hp1, hp2, hp3, -⟩ := C76_predict2 e θ xt Jt Jt' x J J' fit.1 fit.2
  have hc : ∀ a, (∑ b, cov2 e.obj θ.kernelParams xt Jt Jt' xt Jt Jt' a b * fit.1 (pos2 b) 0) +
      noise2 θ a * fit.1 (pos2 a) 0 = residual2 (mf y) y yd yd' a := fun a => by
    have := hs a
    simp only [dataCov2, add_mul, ite_mul, zero_mul, Finset.sum_add_distrib, Finset.sum_ite_eq, Finset.mem_univ,
      if_true] at this
    rw [hm] at this
    exact this
  have key := weighted_predict_slack (s := noise2 θ) (z := fun a => if isTarget2 a then 0 else 1) hK hS
    (fun a b => by
      rcases a with (i | ⟨i, u⟩) | ⟨i, u⟩ <;> rcases b with (j | ⟨j, w⟩) | ⟨j, w⟩ <;>
        simp [observable2, observable1, isTarget2, isTarget1, hz])
    (fun a => by split_ifs <;> simp)
    (fun a => by
      rw [← hτ]
      rcases a with (i | ⟨i, u⟩) | ⟨i, u⟩
      · simp only [isTarget2, isTarget1, noise2, noise1, if_true, mul_zero]; positivity
      · simpa only [isTarget2, isTarget1, noise2, noise1, Bool.false_eq_true, if_false, mul_one] using hd
      · simpa only [isTarget2, noise2, Bool.false_eq_true, if_false, mul_one] using hd')
    (fun b => fit.1 (pos2 b) 0) (residual2 (mf y) y yd yd') hc
  have hQ : ∑ a, residual2 (mf y) y yd yd' a ^ 2 / (noise2 θ a - 2 * (∑ b, slack e θ.kernelParams
      (observable2 xt Jt Jt' b) (observable2 xt Jt Jt' b)) * if isTarget2 a then 0 else 1) = Q := by
    rw [← hτ]
    simp only [Fintype.sum_sum_type, Fintype.sum_prod_type, isTarget2, isTarget1, if_true, Bool.false_eq_true, if_false,
      mul_zero, sub_zero, mul_one]
    rfl
  rw [hQ] at key
  refine ⟨fun j => ?_, fun j t => ?_, fun j t => ?_⟩
  · have e1 : pred.1 j 0 - mf y = _ := sub_eq_of_eq_add' (hp1 j)
    rw [e1]
    have := key (.inl (.inl j))
    simp only [observable2, observable1, hz (x j, none) _ (.inl rfl), mul_zero, add_zero] at this
    exact this
  · rw [hp2 j t]
    exact key (.inl (.inr (j, t)))
  · rw [hp3 j t]
    exact key (.inr (j, t))

/-- **C122** for GPR_TD with targets and one set of derivatives, every twice differentiable kernel but `Matern32`. -/
theorem C122_bounded_joint_slack (ex : la.Exact) (e : KExpr d) (θ : TDParams)
    (h : Smooth e θ.kernelParams) (hn : NoMatern32 e) (mf : MeanFun) (xt : Batch m d) (y : Mat m 1) (Jt : Jac m d v)
    (yd : Mat m v) (x : Batch n d) (J : Jac n d w) (τ : ℝ)
    (hτ : τ = 2 * ∑ a, slack e θ.kernelParams (observable1 xt Jt a) (observable1 xt Jt a))
    (hd : τ < θ.sigmaDerivs ^ 2 + 1 / 10 ^ 10) :
    let fit := tdFitDense1 la θ e.obj mf xt y Jt yd
    let pred := tdPredictDense1 θ e.obj xt Jt x J fit.1 fit.2
    let Q := ∑ i, (y i 0 - mf y) ^ 2 / (θ.sigmaTargets ^ 2 + 1 / 10 ^ 10) +
      ∑ i, ∑ u, yd i u ^ 2 / (θ.sigmaDerivs ^ 2 + 1 / 10 ^ 10 - τ)
    (∀ j, (pred.1 j 0 - mf y) ^ 2 ≤ e.obj.k θ.kernelParams x x j j * Q / 4) ∧
    ∀ j t, pred.2 j t ^ 2 ≤ (e.obj.d01kj θ.kernelParams x x J J (flat j t) (flat j t) +
      2 * slack e θ.kernelParams (x j, some fun f => J j f t) (x j, some fun f => J j f t)) * Q / 4 := by
  intro fit pred Q
  have hx : ∀ y ∈ Set.range xt ∪ Set.range x, ∀ z ∈ Set.range xt ∪ Set.range x, Separated e θ.kernelParams y z :=
    fun _ _ _ _ => separated_noMatern32 e _ hn _ _
  have hz := slack_noMatern32 e θ.kernelParams hn
  obtain ⟨hK, hS⟩ := joint_obs1_slack e θ.kernelParams h xt Jt x J hx
  have hS1 := hS.submatrix (Sum.inl : Obs1 m v → _)
  have hτ0 : 0 ≤ ∑ a, slack e θ.kernelParams (observable1 xt Jt a) (observable1 xt Jt a) :=
    Finset.sum_nonneg fun a _ => hS1.diag_nonneg (i := a)
  have hp : (tdALhsNoise1 θ e.obj xt Jt xt Jt).PosDef :=
    (C78_well_posed_slack_partial e θ h hn xt Jt Jt).1 (by linarith)
  obtain ⟨hm, hs, -⟩ := C76_fit1 ex e.obj θ mf xt y Jt yd hp
  obtain ⟨hp1, hp2, -⟩ := C76_predict1 e θ xt Jt x J fit.1 fit.2
  have hc : ∀ a, (∑ b, cov1 e.obj θ.kernelParams xt Jt xt Jt a b * fit.1 (pos1 b) 0) +
      noise1 θ a * fit.1 (pos1 a) 0 = residual1 (mf y) y yd a := fun a => by
    have := hs a
    simp only [dataCov1, add_mul, ite_mul, zero_mul, Finset.sum_add_distrib, Finset.sum_ite_eq, Finset.mem_univ,
      if_true] at this
    rw [hm] at this
    exact this
  have key := weighted_predict_slack (s := noise1 θ) (z := fun a => if isTarget1 a then 0 else 1) hK hS
    (fun a b => by
      rcases a with i | ⟨i, u⟩ <;> rcases b with j | ⟨j, w⟩ <;> simp [observable1, isTarget1, hz])
    (fun a => by split_ifs <;> simp)
    (fun a => by
      rw [← hτ]
      rcases a with i | ⟨i, u⟩
      · simp only [isTarget1, noise1, if_true, mul_zero]; positivity
      · simpa only [isTarget1, noise1, Bool.false_eq_true, if_false, mul_one] using hd)
    (fun b => fit.1 (pos1 b) 0) (residual1 (mf y) y yd) hc
  have hQ : ∑ a, residual1 (mf y) y yd a ^ 2 / (noise1 θ a - 2 * (∑ b, slack e θ.kernelParams
      (observable1 xt Jt b) (observable1 xt Jt b)) * if isTarget1 a then 0 else 1) = Q := by
    rw [← hτ]
    simp only [Fintype.sum_sum_type, Fintype.sum_prod_type, isTarget1, if_true, Bool.false_eq_true, if_false,
      mul_zero, sub_zero, mul_one]
    rfl
  rw [hQ] at key
  refine ⟨fun j => ?_, fun j t => ?_⟩
  · have e1 : pred.1 j 0 - mf y = _ := sub_eq_of_eq_add' (hp1 j)
    rw [e1]
    have := key (.inl j)
    simp only [observable1, hz (x j, none) _ (.inl rfl), mul_zero, add_zero] at this
    exact this
  · rw [hp2 j t]
    exact key (.inr (j, t))

/-! ## Non-vacuity: `SquaredExponential` times `Linear` -/

/-- Beside C122: noise `2` on the derivatives is more than twice the slack. -/
example (y : Mat 2 1) (yd : Mat 2 3) (x : Batch n 2) (J : Jac n 2 w) (j : Fin n) :
    ∃ τ < (2 : ℝ), ((tdPredictDense1 ⟨fun _ => 1, 1, 2, 0⟩ exSE.obj exX exJ x J
        (tdFitDense1 LinAlg.ideal ⟨fun _ => 1, 1, 2, 0⟩ exSE.obj zeroMean exX y exJ yd).1
        (tdFitDense1 LinAlg.ideal ⟨fun _ => 1, 1, 2, 0⟩ exSE.obj zeroMean exX y exJ yd).2).1 j 0 - 0) ^ 2 ≤
      exSE.obj.k (fun _ => 1) x x j j * (∑ i, (y i 0 - 0) ^ 2 / (1 ^ 2 + 1 / 10 ^ 10) +
        ∑ i, ∑ u, yd i u ^ 2 / (2 ^ 2 + 1 / 10 ^ 10 - τ)) / 4 := by
  have hτ : 2 * ∑ a, slack exSE (fun _ => 1) (observable1 exX exJ a) (observable1 exX exJ a) < 2 := by
    linarith [exSE_sum]
  exact ⟨_, hτ, (C122_bounded_joint_slack LinAlg.ideal_exact exSE ⟨fun _ => 1, 1, 2, 0⟩ exSE_smooth ⟨trivial, trivial⟩
    zeroMean exX y exJ yd x J _ rfl (hτ.trans (by norm_num))).1 j⟩

/-- Beside C146: hyperparameters that stay, a noise that moves. -/
example : NoMatern32 exSE ∧ DiffParams (fun t : ℝ => (⟨fun _ => 1, 1 + t ^ 2⟩ : GPParams)) ∧
    DiffTDParams (fun t : ℝ => (⟨fun _ => 1, t, 1 + t ^ 2, 0⟩ : TDParams)) ∧ Smooth exSE (fun _ => 1) ∧
    (∀ t : ℝ, (aDerivsLhsNoise ⟨fun _ => 1, 1 + t ^ 2⟩ exSE.obj exX exJ exX exJ).PosDef) ∧
    ∀ t : ℝ, (tdALhsNoise1 ⟨fun _ => 1, t, 1 + t ^ 2, 0⟩ exSE.obj exX exJ exX exJ).PosDef := by
  have h : ∀ t : ℝ, 1 ≤ (1 + t ^ 2) ^ 2 := fun t => by nlinarith [sq_nonneg t]
  exact ⟨⟨trivial, trivial⟩, ⟨(differentiable_id.fun_pow 2).const_add 1, fun _ => differentiable_const _⟩,
    ⟨differentiable_id, (differentiable_id.fun_pow 2).const_add 1, differentiable_const _, fun _ => differentiable_const _⟩,
    exSE_smooth, fun t => exSE_derivs (h t), fun t => system_of_dataCov1 (exSE_td (h t))⟩

end GPX.Props
