import Verif.Props.BoundsSlack
import Verif.Props.IterativeAccuracyTD
import Verif.Props.IterativeAccuracy
import Verif.Props.LikelihoodAccuracyTD

/-!
# C108 and C115 for every twice differentiable kernel but `Matern32`

How far iterative results can be from dense ones when the derivative covariances are positive semidefinite only up to the
slack of C78, `SquaredExponential` included.
-/

namespace GPX.Props
open GPX GPX.Spec

variable {d m n v w v' w' : ℕ} {la : LinAlg} {KeyL : Type}

/-- The slack of the training observations, replaced by its trace on the diagonal. -/
theorem shift_blocks {I I' : Type} [Fintype I] [Fintype I'] [DecidableEq I] [DecidableEq I'] {K S : I → I → ℝ}
    {B R : I → I' → ℝ} {D T : I' → I' → ℝ} {z : I → ℝ}
    (hK : (Matrix.fromBlocks (Matrix.of fun a b => K a b + S a b) (Matrix.of fun a b => B a b + R a b)
      (Matrix.of fun a b => B a b + R a b).transpose (Matrix.of fun a b => D a b + T a b)).PosSemidef)
    (hS : (Matrix.fromBlocks (Matrix.of S) (Matrix.of R) (Matrix.of R).transpose (Matrix.of T)).PosSemidef)
    (hz : ∀ a b, S a b = z a * S a b * z b) (hz2 : ∀ a, z a * z a = z a) :
    (Matrix.fromBlocks (Matrix.of fun a b => K a b + if a = b then 2 * (∑ b, S b b) * z a else 0) (Matrix.of B)
      (Matrix.of B).transpose (Matrix.of fun a b => D a b + 2 * T a b)).PosSemidef := by
  have h1 := double_slack hK hS
  have hS1 : (Matrix.of S).PosSemidef := hS.submatrix (Sum.inl : I → I ⊕ I')
  set τ := ∑ b, S b b with hτ
  have h2 : (Matrix.of fun a b => (if a = b then 2 * τ * z a else 0) - 2 * S a b).PosSemidef := by
    refine Matrix.posSemidef_iff_dotProduct_mulVec.2 ⟨Matrix.IsHermitian.ext fun a b => ?_, fun c => ?_⟩
    · have := hS1.1.apply a b
      simp only [Matrix.of_apply, star_trivial] at this ⊢
      rw [this]
      by_cases hab : a = b
      · subst hab; rfl
      · rw [if_neg hab, if_neg (Ne.symm hab)]
    · have h3 := quad_le_trace' hS1 fun a => z a * c a
      have e1 : ∑ a, ∑ b, (z a * c a) * S a b * (z b * c b) = ∑ a, ∑ b, c a * S a b * c b := by
        refine Finset.sum_congr rfl fun a _ => Finset.sum_congr rfl fun b _ => ?_
        rw [show z a * c a * S a b * (z b * c b) = c a * (z a * S a b * z b) * c b by ring, ← hz]
      have e2 : (∑ b, S b b) * ∑ a, (z a * c a) ^ 2 = ∑ a, τ * z a * c a ^ 2 := by
        rw [← hτ, Finset.mul_sum]
        refine Finset.sum_congr rfl fun a _ => ?_
        rw [mul_pow, pow_two (z a), hz2]
        ring
      simp only [Matrix.of_apply] at h3
      rw [e1] at h3
      have h4 := h3.trans (le_of_eq e2)
      have e3 : dotProduct (star c) (Matrix.mulVec (Matrix.of fun a b => (if a = b then 2 * τ * z a else 0) - 2 * S a b) c) =
          2 * (∑ a, τ * z a * c a ^ 2 - ∑ a, ∑ b, c a * S a b * c b) := by
        simp only [dotProduct, Matrix.mulVec, Matrix.of_apply, star_trivial, Pi.star_apply, sub_mul, ite_mul, zero_mul,
          Finset.sum_sub_distrib, Finset.sum_ite_eq, Finset.mem_univ, if_true, mul_sub, Finset.mul_sum]
        congr 1
        · exact Finset.sum_congr rfl fun a _ => by ring
        · exact Finset.sum_congr rfl fun a _ => Finset.sum_congr rfl fun b _ => by ring
      rw [e3]
      linarith
  have h5 : (Matrix.fromBlocks (Matrix.of fun a b => (if a = b then 2 * τ * z a else 0) - 2 * S a b) (0 : Matrix I I' ℝ)
      (0 : Matrix I' I ℝ) (0 : Matrix I' I' ℝ)).PosSemidef := by
    have := h2.conjTranspose_mul_mul_same (Matrix.fromCols (1 : Matrix I I ℝ) (0 : Matrix I I' ℝ))
    convert this using 1
    rw [Matrix.conjTranspose_fromCols_eq_fromRows_conjTranspose, Matrix.fromRows_mul, Matrix.fromRows_mul_fromCols]
    simp
  have h6 := h1.add h5
  rw [Matrix.fromBlocks_add] at h6
  convert h6 using 2
  · ext a b
    simp
  · simp
  · simp
  · simp

/-- The noise with twice the slack taken from the derivatives. -/
theorem entries_shift {I : Type} [DecidableEq I] {N : ℕ} {pos : I → Fin N} {A : Mat N N} {C : I → I → ℝ} {s r : I → ℝ}
    (hA : ∀ a b, A (pos a) (pos b) = C a b + if a = b then s a else 0) (a b : I) :
    A (pos a) (pos b) = (C a b + if a = b then r a else 0) + if a = b then s a - r a else 0 := by
  rw [hA]
  split_ifs <;> ring

/-- **C108**, targets and one set of derivatives, every twice differentiable kernel but `Matern32`: the bounds of `C108_td1`
with `lo` at most the noise variance of the targets and at most that of the derivatives less twice the sum of the slacks
of the training derivatives, and the prior variance of a predicted derivative raised by twice its slack. -/
theorem C108_td1_slack (ex : la.Exact) (cg : CG) (tol atol : ℝ) (hcg : CGStops cg tol atol) {Key : Type}
    (split : Key → Key × Key) (choice : Key → (Fin (n + n * v) → ℝ) → Fin (n + n * v)) (e : KExpr d) (θ : TDParams)
    (h : Smooth e θ.kernelParams) (hm : NoMatern32 e) (mf : MeanFun) (x : Batch n d)
    (y : Mat n 1) (J : Jac n d v) (yd : Mat n v) (nPivots : ℕ) (key : Key) (hn : n ≠ 1) (lo : ℝ) (hlo : 0 < lo)
    (ht : lo ≤ θ.sigmaTargets ^ 2 + 1 / 10 ^ 10)
    (hd : lo + 2 * ∑ a, slack e θ.kernelParams (observable1 x J a) (observable1 x J a) ≤
      θ.sigmaDerivs ^ 2 + 1 / 10 ^ 10) :
    let c := (tdFitDense1 la θ e.obj mf x y J yd).1
    let δ2 := max (tol ^ 2 * (∑ i, (y i 0 - mf y) ^ 2 + ∑ i, ∑ u, yd i u ^ 2)) (atol ^ 2)
    ∃ c', tdFitIter1 la cg split choice θ e.obj mf x y J yd nPivots key = .ok (c', mf y) ∧
      lo ^ 2 * sumSq (c' - c) ≤ δ2 ∧
      ∀ {k w : ℕ} (xs : Batch k d) (Js : Jac k d w),
        let p' := tdPredictIter1 θ e.obj x J xs Js c' (mf y)
        let p := tdPredictDense1 θ e.obj x J xs Js c (mf y)
        (∀ j, 4 * lo * (p'.1 j 0 - p.1 j 0) ^ 2 ≤ e.obj.k θ.kernelParams xs xs j j * δ2) ∧
        ∀ j t, 4 * lo * (p'.2 j t - p.2 j t) ^ 2 ≤
          (e.obj.d01kj θ.kernelParams xs xs Js Js (flat j t) (flat j t) +
            2 * slack e θ.kernelParams (xs j, some fun f => Js j f t) (xs j, some fun f => Js j f t)) * δ2 := by
  intro c δ2
  have hz := slack_noMatern32 e θ.kernelParams hm
  have hz1 : ∀ a b : Obs1 n v, slack e θ.kernelParams (observable1 x J a) (observable1 x J b) =
      (if isTarget1 a then 0 else 1) * slack e θ.kernelParams (observable1 x J a) (observable1 x J b) *
        (if isTarget1 b then 0 else 1) := by
    intro a b
    rcases a with i | ⟨i, u⟩ <;> rcases b with j | ⟨j, w⟩ <;> simp [observable1, isTarget1, hz]
  have hblk := fun {k w : ℕ} (xs : Batch k d) (Js : Jac k d w) =>
    have hj := joint_obs1_slack e θ.kernelParams h x J xs Js fun _ _ _ _ => separated_noMatern32 e _ hm _ _
    shift_blocks (z := fun a : Obs1 n v => if isTarget1 a then 0 else 1) hj.1 hj.2 hz1 (fun a => by split_ifs <;> simp)
  have hS1 := (joint_obs1_slack e θ.kernelParams h x J x J fun _ _ _ _ => separated_noMatern32 e _ hm _ _).2.submatrix
    (Sum.inl : Obs1 n v → _)
  have hτ0 : 0 ≤ ∑ a, slack e θ.kernelParams (observable1 x J a) (observable1 x J a) :=
    Finset.sum_nonneg fun a _ => hS1.diag_nonneg (i := a)
  have hp : (tdALhsNoise1 θ e.obj x J x J).PosDef :=
    (C78_well_posed_slack_partial e θ h hm x J J).1 (by linarith)
  have hmv : (tdAxLhs1 θ e.obj true x J x J : Mat (n + n * v) 1 → Mat (n + n * v) 1) =
      fun z : Mat (n + n * v) 1 => tdALhsNoise1 θ e.obj x J x J * z :=
    funext fun z => (C52_matvec1 e θ x J x J z).2.2.2
  obtain ⟨M, hM⟩ : ∃ M : Mat (n + n * v) 1 → Mat (n + n * v) 1,
      tdFitIter1 la cg split choice θ e.obj mf x y J yd nPivots key =
      .ok (cg (fun z : Mat (n + n * v) 1 => tdALhsNoise1 θ e.obj x J x J * z) (tdRhs1 mf y yd) M, mf y) := by
    unfold tdFitIter1 rpcholeskyTD1
    simp only [hn, if_false, hmv]
    exact ⟨_, rfl⟩
  have hs : tdALhsNoise1 θ e.obj x J x J * c = tdRhs1 mf y yd := ex.solve _ _ (posDef_isUnit hp)
  have hδ : cgTarget tol atol (tdRhs1 mf y yd) = δ2 := by
    simp only [cgTarget, δ2]
    congr 2
    simp only [sumSq, Finset.univ_unique, Finset.sum_singleton, Fin.default_eq_zero]
    rw [Fin.sum_univ_add, sum_flat]
    simp [tdRhs1, vcat, centerBy, flatCol]
  have hr := hδ ▸ hcg _ (tdRhs1 mf y yd) M hp
  set c' := cg (fun z : Mat (n + n * v) 1 => tdALhsNoise1 θ e.obj x J x J * z) (tdRhs1 mf y yd) M with hc'
  have hnoise : ∀ a : Obs1 n v, lo ≤ noise1 θ a - 2 * (∑ b, slack e θ.kernelParams (observable1 x J b)
      (observable1 x J b)) * if isTarget1 a then 0 else 1 := by
    rintro (i | i)
    · simpa [isTarget1, noise1] using ht
    · simp only [isTarget1, noise1, Bool.false_eq_true, if_false, mul_one]
      linarith
  have hres := fun {k w : ℕ} (xs : Batch k d) (Js : Jac k d w) {q : ℕ} (obs : Fin q → Obs1 k w) =>
    residual_obs pos1 pos1_bij _ _ _ hlo hnoise (entries_shift (C52_entries1 e.obj θ x J x J).2.2) obs _ _ (hblk xs Js)
      hs (c' := c')
  refine ⟨c', hM, ((hres x J (q := 0) Fin.elim0).1).trans hr, fun {k w} xs Js => ?_⟩
  have hD := fun b : Obs1 k w =>
    ((hblk xs Js).submatrix (Sum.inr : Obs1 k w → Obs1 n v ⊕ Obs1 k w)).diag_nonneg (i := b)
  have hpr := fun z => C76_predict1 e θ x J xs Js z (mf y)
  intro p' p
  refine ⟨fun j => ?_, fun j t => ?_⟩
  · have h1 := mul_le_mul_of_nonneg_left hr (hD (.inl j))
    have h2 := (hres xs Js (q := 1) fun _ => .inl j).2 0
    have h3 := h2.trans h1
    simp only [Matrix.submatrix_apply, Matrix.fromBlocks_apply₂₂, Matrix.of_apply, observable1, hz (xs j, none) _ (.inl rfl), mul_zero, add_zero] at h3
    simp only [p', p]
    rw [(hpr c').2.2, (hpr c').1, (hpr c).1, add_sub_add_left_eq_sub]
    exact h3
  · refine le_trans ?_ (mul_le_mul_of_nonneg_left hr (hD (.inr (j, t))))
    have := (hres xs Js (q := 1) fun _ => .inr (j, t)).2 0
    simp only [p', p]
    rw [(hpr c').2.2, (hpr c').2.1, (hpr c).2.1]
    exact this

/-- **C108**, targets and two sets of derivatives, every twice differentiable kernel but `Matern32`. -/
theorem C108_td2_slack (ex : la.Exact) (cg : CG) (tol atol : ℝ) (hcg : CGStops cg tol atol) {Key : Type}
    (split : Key → Key × Key) (choice : Key → (Fin (n + n * v + n * v') → ℝ) → Fin (n + n * v + n * v'))
    (e : KExpr d) (θ : TDParams) (h : Smooth e θ.kernelParams) (hm : NoMatern32 e) (mf : MeanFun)
    (x : Batch n d) (y : Mat n 1) (J : Jac n d v) (J' : Jac n d v') (yd : Mat n v) (yd' : Mat n v') (nPivots : ℕ)
    (key : Key) (hn : n ≠ 1) (lo : ℝ) (hlo : 0 < lo) (ht : lo ≤ θ.sigmaTargets ^ 2 + 1 / 10 ^ 10)
    (hd : lo + 2 * ∑ a, slack e θ.kernelParams (observable2 x J J' a) (observable2 x J J' a) ≤
      θ.sigmaDerivs ^ 2 + 1 / 10 ^ 10)
    (hd' : lo + 2 * ∑ a, slack e θ.kernelParams (observable2 x J J' a) (observable2 x J J' a) ≤
      θ.sigmaDerivs2 ^ 2 + 1 / 10 ^ 10) :
    let c := (tdFitDense2 la θ e.obj mf x y J J' yd yd').1
    let δ2 := max (tol ^ 2 * (∑ i, (y i 0 - mf y) ^ 2 + ∑ i, ∑ u, yd i u ^ 2 + ∑ i, ∑ u, yd' i u ^ 2)) (atol ^ 2)
    ∃ c', tdFitIter2 la cg split choice θ e.obj mf x y J J' yd yd' nPivots key = .ok (c', mf y) ∧
      lo ^ 2 * sumSq (c' - c) ≤ δ2 ∧
      ∀ {k w w' : ℕ} (xs : Batch k d) (Js : Jac k d w) (Js' : Jac k d w'),
        let p' := tdPredictIter2 θ e.obj x J J' xs Js Js' c' (mf y)
        let p := tdPredictDense2 θ e.obj x J J' xs Js Js' c (mf y)
        (∀ j, 4 * lo * (p'.1 j 0 - p.1 j 0) ^ 2 ≤ e.obj.k θ.kernelParams xs xs j j * δ2) ∧
        (∀ j t, 4 * lo * (p'.2.1 j t - p.2.1 j t) ^ 2 ≤
          (e.obj.d01kj θ.kernelParams xs xs Js Js (flat j t) (flat j t) +
            2 * slack e θ.kernelParams (xs j, some fun f => Js j f t) (xs j, some fun f => Js j f t)) * δ2) ∧
        ∀ j t, 4 * lo * (p'.2.2 j t - p.2.2 j t) ^ 2 ≤
          (e.obj.d01kj θ.kernelParams xs xs Js' Js' (flat j t) (flat j t) +
            2 * slack e θ.kernelParams (xs j, some fun f => Js' j f t) (xs j, some fun f => Js' j f t)) * δ2 := by
  intro c δ2
  have hz := slack_noMatern32 e θ.kernelParams hm
  have hz1 : ∀ a b : Obs2 n v v', slack e θ.kernelParams (observable2 x J J' a) (observable2 x J J' b) =
      (if isTarget2 a then 0 else 1) * slack e θ.kernelParams (observable2 x J J' a) (observable2 x J J' b) *
        (if isTarget2 b then 0 else 1) := by
    intro a b
    rcases a with (i | ⟨i, u⟩) | ⟨i, u⟩ <;> rcases b with (j | ⟨j, w⟩) | ⟨j, w⟩ <;>
      simp [observable2, observable1, isTarget2, isTarget1, hz]
  have hblk := fun {k w w' : ℕ} (xs : Batch k d) (Js : Jac k d w) (Js' : Jac k d w') =>
    have hj := joint_obs2_slack e θ.kernelParams h x J J' xs Js Js' fun _ _ _ _ => separated_noMatern32 e _ hm _ _
    shift_blocks (z := fun a : Obs2 n v v' => if isTarget2 a then 0 else 1) hj.1 hj.2 hz1
      (fun a => by split_ifs <;> simp)
  have hS1 := (joint_obs2_slack e θ.kernelParams h x J J' x J J' fun _ _ _ _ =>
    separated_noMatern32 e _ hm _ _).2.submatrix (Sum.inl : Obs2 n v v' → _)
  have hτ0 : 0 ≤ ∑ a, slack e θ.kernelParams (observable2 x J J' a) (observable2 x J J' a) :=
    Finset.sum_nonneg fun a _ => hS1.diag_nonneg (i := a)
  have hp : (tdALhsNoise2 θ e.obj x J J' x J J').PosDef :=
    (C78_well_posed_slack_partial e θ h hm x J J').2 (by
      have := lt_min (a := ∑ a, slack e θ.kernelParams (observable2 x J J' a) (observable2 x J J' a) - 1 / 10 ^ 10)
        (b := θ.sigmaDerivs ^ 2) (c := θ.sigmaDerivs2 ^ 2) (by linarith) (by linarith)
      linarith)
  have hmv : (tdAxLhs2 θ e.obj true x J J' x J J' : Mat (n + n * v + n * v') 1 → Mat (n + n * v + n * v') 1) =
      fun z : Mat (n + n * v + n * v') 1 => tdALhsNoise2 θ e.obj x J J' x J J' * z :=
    funext fun z => (C52_matvec2 e θ x J J' x J J' z).2.2.2
  obtain ⟨M, hM⟩ : ∃ M : Mat (n + n * v + n * v') 1 → Mat (n + n * v + n * v') 1,
      tdFitIter2 la cg split choice θ e.obj mf x y J J' yd yd' nPivots key =
      .ok (cg (fun z : Mat (n + n * v + n * v') 1 => tdALhsNoise2 θ e.obj x J J' x J J' * z)
        (tdRhs2 mf y yd yd') M, mf y) := by
    unfold tdFitIter2 rpcholeskyTD2
    simp only [hn, if_false, hmv]
    exact ⟨_, rfl⟩
  have hs : tdALhsNoise2 θ e.obj x J J' x J J' * c = tdRhs2 mf y yd yd' := ex.solve _ _ (posDef_isUnit hp)
  have hδ : cgTarget tol atol (tdRhs2 mf y yd yd') = δ2 := by
    simp only [cgTarget, δ2]
    congr 2
    simp only [sumSq, Finset.univ_unique, Finset.sum_singleton, Fin.default_eq_zero]
    rw [Fin.sum_univ_add, Fin.sum_univ_add, sum_flat, sum_flat]
    simp [tdRhs2, tdRhs1, vcat, centerBy, flatCol]
  have hr := hδ ▸ hcg _ (tdRhs2 mf y yd yd') M hp
  set c' := cg (fun z : Mat (n + n * v + n * v') 1 => tdALhsNoise2 θ e.obj x J J' x J J' * z)
    (tdRhs2 mf y yd yd') M with hc'
  have hnoise : ∀ a : Obs2 n v v', lo ≤ noise2 θ a - 2 * (∑ b, slack e θ.kernelParams (observable2 x J J' b)
      (observable2 x J J' b)) * if isTarget2 a then 0 else 1 := by
    rintro ((i | i) | i)
    · simpa [isTarget2, isTarget1, noise2, noise1] using ht
    · simp only [isTarget2, isTarget1, noise2, noise1, Bool.false_eq_true, if_false, mul_one]
      linarith
    · simp only [isTarget2, noise2, Bool.false_eq_true, if_false, mul_one]
      linarith
  have hres := fun {k w w' : ℕ} (xs : Batch k d) (Js : Jac k d w) (Js' : Jac k d w') {q : ℕ}
      (obs : Fin q → Obs2 k w w') =>
    residual_obs pos2 pos2_bij _ _ _ hlo hnoise (entries_shift (C52_entries2 e.obj θ x J J' x J J').2.2) obs _ _
      (hblk xs Js Js') hs (c' := c')
  refine ⟨c', hM, ((hres x J J' (q := 0) Fin.elim0).1).trans hr, fun {k w w'} xs Js Js' => ?_⟩
  have hD := fun b : Obs2 k w w' => ((hblk xs Js Js').submatrix
    (Sum.inr : Obs2 k w w' → Obs2 n v v' ⊕ Obs2 k w w')).diag_nonneg (i := b)
  have hpr := fun z => C76_predict2 e θ x J J' xs Js Js' z (mf y)
  intro p' p
  refine ⟨fun j => ?_, fun j t => ?_, fun j t => ?_⟩
  · have h1 := mul_le_mul_of_nonneg_left hr (hD (.inl (.inl j)))
    have h3 := ((hres xs Js Js' (q := 1) fun _ => .inl (.inl j)).2 0).trans h1
    simp only [Matrix.submatrix_apply, Matrix.fromBlocks_apply₂₂, Matrix.of_apply, observable2, observable1,
      hz (xs j, none) _ (.inl rfl), mul_zero, add_zero] at h3
    simp only [p', p]
    rw [(hpr c').2.2.2, (hpr c').1, (hpr c).1, add_sub_add_left_eq_sub]
    exact h3
  · refine le_trans ?_ (mul_le_mul_of_nonneg_left hr (hD (.inl (.inr (j, t)))))
    have := (hres xs Js Js' (q := 1) fun _ => .inl (.inr (j, t))).2 0
    simp only [p', p]
    rw [(hpr c').2.2.2, (hpr c').2.1, (hpr c).2.1]
    exact this
  · refine le_trans ?_ (mul_le_mul_of_nonneg_left hr (hD (.inr (j, t))))
    have := (hres xs Js Js' (q := 1) fun _ => .inr (j, t)).2 0
    simp only [p', p]
    rw [(hpr c').2.2.2, (hpr c').2.2.1, (hpr c).2.2.1]
    exact this

/-- What is left of the system of GPR_TD after removing `lo`. -/
theorem system_minus_slack1 (e : KExpr d) (θ : TDParams) (h : Smooth e θ.kernelParams) (hm : NoMatern32 e)
    (x : Batch n d) (J : Jac n d v) (lo : ℝ) (ht : lo ≤ θ.sigmaTargets ^ 2 + 1 / 10 ^ 10)
    (hd : lo + 2 * ∑ a, slack e θ.kernelParams (observable1 x J a) (observable1 x J a) ≤
      θ.sigmaDerivs ^ 2 + 1 / 10 ^ 10) :
    (tdALhsNoise1 θ e.obj x J x J - lo • (1 : Mat (n + n * v) (n + n * v))).PosSemidef := by
  have hz := slack_noMatern32 e θ.kernelParams hm
  have hj := joint_obs1_slack e θ.kernelParams h x J x J fun _ _ _ _ => separated_noMatern32 e _ hm _ _
  have hb := (shift_blocks (z := fun a : Obs1 n v => if isTarget1 a then 0 else 1) hj.1 hj.2 (fun a b => by
    rcases a with i | ⟨i, u⟩ <;> rcases b with j | ⟨j, w⟩ <;> simp [observable1, isTarget1, hz])
    (fun a => by split_ifs <;> simp)).submatrix (Sum.inl : Obs1 n v → Obs1 n v ⊕ Obs1 n v)
  refine psd_minus_noise pos1 pos1_bij _ _ (fun a => noise1 θ a - 2 * (∑ b, slack e θ.kernelParams (observable1 x J b)
      (observable1 x J b)) * if isTarget1 a then 0 else 1) ?_ (entries_shift (C52_entries1 e.obj θ x J x J).2.2) hb
  rintro (i | i)
  · simpa [isTarget1, noise1] using ht
  · simp only [isTarget1, noise1, Bool.false_eq_true, if_false, mul_one]
    linarith

/-- **C115**, every twice differentiable kernel but `Matern32`. GPR_TD with one set of derivatives: with twice the sum of
the slacks of the training derivatives taken from their noise variance, and `lo ≥ 1e-36` a lower bound of the two noise variances and `C` the
covariance of the stacked noisy observations, the iterative log marginal likelihood returns a value for every draw, and its
mean and mean square error satisfy the bounds of `C115_gpr` with `s = lo` and `t = Σ_r (C_rr - lo)`. -/
theorem C115_td1_slack (ex : la.Exact) (cg : CG) (tol atol : ℝ) (hcg : CGStops cg tol atol) (eigh : Eigh) (hei : eigh.Exact)
    {Key : Type} (split : Key → Key × Key) (choice : Key → (Fin (n + n * v) → ℝ) → Fin (n + n * v)) (e : KExpr d) (θ : TDParams) (h : Smooth e θ.kernelParams)
    (hm : NoMatern32 e) (mf : MeanFun) (x : Batch n d)
    (y : Mat n 1) (J : Jac n d v) (yd : Mat n v) (nPivots : ℕ) (key : Key) (hn : 2 ≤ n) (lo : ℝ)
    (hlo : 1 / 10 ^ 36 ≤ lo) (ht : lo ≤ θ.sigmaTargets ^ 2 + 1 / 10 ^ 10) 
    (hd : lo + 2 * ∑ a, slack e θ.kernelParams (observable1 x J a) (observable1 x J a) ≤
      θ.sigmaDerivs ^ 2 + 1 / 10 ^ 10)
    {q : ℕ} (hq : 0 < q) (splitL : KeyL → KeyL × KeyL) (normal : KeyL → Vec (n + n * v)) (k : ℕ) (keyL : KeyL)
    (hr : ∀ σ : Fin (n + n * v) → Bool, ExactRun splitL normal (tdALhsNoise1 θ e.obj x J x J).mulVec (k + 1)
      (fun i => (if σ i then 1 else -1) / Real.sqrt (n + n * v : ℕ)) (splitL keyL).2) :
    let C := tdALhsNoise1 θ e.obj x J x J
    let b2 := ∑ i, (y i 0 - mf y) ^ 2 + ∑ i, ∑ u, yd i u ^ 2
    ∃ l : (Fin (n + n * v) → Fin q → Bool) → ℝ,
      (∀ S, tdLmlIter1 la cg split choice (lanczosCols splitL normal (fun _ => signs S) eigh k keyL) θ e.obj mf x y J yd
        nPivots key = .ok (l S)) ∧
      ∀ (Q : Mat (n + n * v) (n + n * v)) (ev : Fin (n + n * v) → ℝ), Q.transpose * Q = 1 →
        C = Q * Matrix.diagonal ev * Q.transpose →
        AccurateInMean l (Real.log (gaussDensity C fun s => tdRhs1 mf y yd s 0) / (n + n * v : ℕ))
          (likelihoodBound (n + n * v) (k + 1) lo (∑ r, (C r r - lo)) b2 (max (tol ^ 2 * b2) (atol ^ 2)))
          (probeError (n + n * v) q (Q * Matrix.diagonal (fun i => Real.log (ev i)) * Q.transpose)) := by
  intro C b2
  have hlo0 : 0 < lo := lt_of_lt_of_le (by norm_num) hlo
  have hC0 : (tdALhsNoise1 θ e.obj x J x J - lo • (1 : Mat (n + n * v) (n + n * v))).PosSemidef :=
    system_minus_slack1 e θ h hm x J lo ht hd
  have hp : (tdALhsNoise1 θ e.obj x J x J).PosDef := by
    have := posDef_add_smul_one hC0 hlo0
    rwa [sub_add_cancel] at this
  have hN : n + n * v ≠ 0 := by omega
  have hN' : ((n + n * v : ℕ) : ℝ) ≠ 0 := by exact_mod_cast hN
  have hmv : (tdAxLhs1 θ e.obj true x J x J : Mat (n + n * v) 1 → Mat (n + n * v) 1) =
      fun z : Mat (n + n * v) 1 => tdALhsNoise1 θ e.obj x J x J * z :=
    funext fun z => (C52_matvec1 e θ x J x J z).2.2.2
  obtain ⟨c', hc', h1, -⟩ := C108_td1_slack ex cg tol atol hcg split choice e θ h hm mf x y J yd nPivots key (by omega) lo hlo0
    ht hd
  have hb2 : sumSq (tdRhs1 mf y yd) = b2 := by
    simp only [sumSq, Finset.univ_unique, Finset.sum_singleton, Fin.default_eq_zero]
    rw [Fin.sum_univ_add, sum_flat]
    simp [tdRhs1, vcat, centerBy, flatCol, b2]
  have hG : (C - lo • (1 : Mat (n + n * v) (n + n * v))).PosSemidef := hC0
  have hCG : C - lo • (1 : Mat (n + n * v) (n + n * v)) + lo • (1 : Mat (n + n * v) (n + n * v)) = C :=
    sub_add_cancel _ _
  have hden : Real.log (gaussDensity C fun s => tdRhs1 mf y yd s 0) / (n + n * v : ℕ) =
      lmlIterTail (Real.log C.det) (tdRhs1 mf y yd) (tdFitDense1 la θ e.obj mf x y J yd).1 := by
    rw [div_eq_iff hN']
    exact ((mul_comm _ _).trans (iterTail_eq ex hp (tdRhs1 mf y yd) hN)).symm
  refine ⟨fun S => lmlIterTail (lanczosCols splitL normal (fun _ => signs S) eigh k keyL
    (fun z : Mat (n + n * v) 1 => C * z)) (tdRhs1 mf y yd) c', fun S => ?_, fun Q ev hQ hC => ?_⟩
  · unfold tdLmlIter1
    rw [hc', hmv]
  · have := tail_accuracy eigh hei (by omega) hq hG hlo splitL normal k keyL (by rw [hCG]; exact hr)
      (tdRhs1 mf y yd) _ c' h1 Q ev hQ (by rw [hCG]; exact hC)
    rw [hCG, trace_minus_noise, hb2] at this
    rw [hden]
    exact this

/-- What is left of the system of GPR_TD with two sets of derivatives after removing `lo`. -/
theorem system_minus_slack2 (e : KExpr d) (θ : TDParams) (h : Smooth e θ.kernelParams) (hm : NoMatern32 e)
    (x : Batch n d) (J : Jac n d v) (J' : Jac n d v') (lo : ℝ) (ht : lo ≤ θ.sigmaTargets ^ 2 + 1 / 10 ^ 10)
    (hd : lo + 2 * ∑ a, slack e θ.kernelParams (observable2 x J J' a) (observable2 x J J' a) ≤
      θ.sigmaDerivs ^ 2 + 1 / 10 ^ 10)
    (hd' : lo + 2 * ∑ a, slack e θ.kernelParams (observable2 x J J' a) (observable2 x J J' a) ≤
      θ.sigmaDerivs2 ^ 2 + 1 / 10 ^ 10) :
    (tdALhsNoise2 θ e.obj x J J' x J J' - lo • (1 : Mat (n + n * v + n * v') (n + n * v + n * v'))).PosSemidef := by
  have hz := slack_noMatern32 e θ.kernelParams hm
  have hj := joint_obs2_slack e θ.kernelParams h x J J' x J J' fun _ _ _ _ => separated_noMatern32 e _ hm _ _
  have hb := (shift_blocks (z := fun a : Obs2 n v v' => if isTarget2 a then 0 else 1) hj.1 hj.2 (fun a b => by
    rcases a with (i | ⟨i, u⟩) | ⟨i, u⟩ <;> rcases b with (j | ⟨j, w⟩) | ⟨j, w⟩ <;>
      simp [observable2, observable1, isTarget2, isTarget1, hz])
    (fun a => by split_ifs <;> simp)).submatrix (Sum.inl : Obs2 n v v' → Obs2 n v v' ⊕ Obs2 n v v')
  refine psd_minus_noise pos2 pos2_bij _ _ (fun a => noise2 θ a - 2 * (∑ b, slack e θ.kernelParams
      (observable2 x J J' b) (observable2 x J J' b)) * if isTarget2 a then 0 else 1) ?_
    (entries_shift (C52_entries2 e.obj θ x J J' x J J').2.2) hb
  rintro ((i | i) | i)
  · simpa [isTarget2, isTarget1, noise2, noise1] using ht
  · simp only [isTarget2, isTarget1, noise2, noise1, Bool.false_eq_true, if_false, mul_one]
    linarith
  · simp only [isTarget2, noise2, Bool.false_eq_true, if_false, mul_one]
    linarith

/-- **C115.** The same with two sets of derivatives; the value estimated is the Gaussian log density per observation,
all observations counted. -/
theorem C115_td2_slack (ex : la.Exact) (cg : CG) (tol atol : ℝ) (hcg : CGStops cg tol atol) (eigh : Eigh) (hei : eigh.Exact)
    {Key : Type} (split : Key → Key × Key)
    (choice : Key → (Fin (n + n * v + n * v') → ℝ) → Fin (n + n * v + n * v')) (e : KExpr d) (θ : TDParams) (h : Smooth e θ.kernelParams)
    (hm : NoMatern32 e) (mf : MeanFun) (x : Batch n d)
    (y : Mat n 1) (J : Jac n d v) (J' : Jac n d v') (yd : Mat n v) (yd' : Mat n v') (nPivots : ℕ) (key : Key)
    (hn : 2 ≤ n) (lo : ℝ) (hlo : 1 / 10 ^ 36 ≤ lo) (ht : lo ≤ θ.sigmaTargets ^ 2 + 1 / 10 ^ 10)
    (hd : lo + 2 * ∑ a, slack e θ.kernelParams (observable2 x J J' a) (observable2 x J J' a) ≤
      θ.sigmaDerivs ^ 2 + 1 / 10 ^ 10)
    (hd' : lo + 2 * ∑ a, slack e θ.kernelParams (observable2 x J J' a) (observable2 x J J' a) ≤
      θ.sigmaDerivs2 ^ 2 + 1 / 10 ^ 10)
    {q : ℕ} (hq : 0 < q) (splitL : KeyL → KeyL × KeyL) (normal : KeyL → Vec (n + n * v + n * v')) (k : ℕ) (keyL : KeyL)
    (hr : ∀ σ : Fin (n + n * v + n * v') → Bool, ExactRun splitL normal
      (tdALhsNoise2 θ e.obj x J J' x J J').mulVec (k + 1)
      (fun i => (if σ i then 1 else -1) / Real.sqrt (n + n * v + n * v' : ℕ)) (splitL keyL).2) :
    let C := tdALhsNoise2 θ e.obj x J J' x J J'
    let b2 := ∑ i, (y i 0 - mf y) ^ 2 + ∑ i, ∑ u, yd i u ^ 2 + ∑ i, ∑ u, yd' i u ^ 2
    ∃ l : (Fin (n + n * v + n * v') → Fin q → Bool) → ℝ,
      (∀ S, tdLmlIter2 la cg split choice (lanczosCols splitL normal (fun _ => signs S) eigh k keyL) θ e.obj mf x y J J'
        yd yd' nPivots key = .ok (l S)) ∧
      ∀ (Q : Mat (n + n * v + n * v') (n + n * v + n * v')) (ev : Fin (n + n * v + n * v') → ℝ),
        Q.transpose * Q = 1 → C = Q * Matrix.diagonal ev * Q.transpose →
        AccurateInMean l (Real.log (gaussDensity C fun s => tdRhs2 mf y yd yd' s 0) / (n + n * v + n * v' : ℕ))
          (likelihoodBound (n + n * v + n * v') (k + 1) lo (∑ r, (C r r - lo)) b2 (max (tol ^ 2 * b2) (atol ^ 2)))
          (probeError (n + n * v + n * v') q (Q * Matrix.diagonal (fun i => Real.log (ev i)) * Q.transpose)) := by
  intro C b2
  have hlo0 : 0 < lo := lt_of_lt_of_le (by norm_num) hlo
  have hC0 : (tdALhsNoise2 θ e.obj x J J' x J J' -
      lo • (1 : Mat (n + n * v + n * v') (n + n * v + n * v'))).PosSemidef :=
    system_minus_slack2 e θ h hm x J J' lo ht hd hd'
  have hp : (tdALhsNoise2 θ e.obj x J J' x J J').PosDef := by
    have := posDef_add_smul_one hC0 hlo0
    rwa [sub_add_cancel] at this
  have hN : n + n * v + n * v' ≠ 0 := by omega
  have hN' : ((n + n * v + n * v' : ℕ) : ℝ) ≠ 0 := by exact_mod_cast hN
  have hmv : (tdAxLhs2 θ e.obj true x J J' x J J' : Mat (n + n * v + n * v') 1 → Mat (n + n * v + n * v') 1) =
      fun z : Mat (n + n * v + n * v') 1 => tdALhsNoise2 θ e.obj x J J' x J J' * z :=
    funext fun z => (C52_matvec2 e θ x J J' x J J' z).2.2.2
  obtain ⟨c', hc', h1, -⟩ := C108_td2_slack ex cg tol atol hcg split choice e θ h hm mf x y J J' yd yd' nPivots key (by omega)
    lo hlo0 ht hd hd'
  have hb2 : sumSq (tdRhs2 mf y yd yd') = b2 := by
    simp only [sumSq, Finset.univ_unique, Finset.sum_singleton, Fin.default_eq_zero]
    rw [Fin.sum_univ_add, Fin.sum_univ_add, sum_flat, sum_flat]
    simp [tdRhs2, tdRhs1, vcat, centerBy, flatCol, b2]
  have hG : (C - lo • (1 : Mat (n + n * v + n * v') (n + n * v + n * v'))).PosSemidef := hC0
  have hCG : C - lo • (1 : Mat (n + n * v + n * v') (n + n * v + n * v')) +
      lo • (1 : Mat (n + n * v + n * v') (n + n * v + n * v')) = C := sub_add_cancel _ _
  have hden : Real.log (gaussDensity C fun s => tdRhs2 mf y yd yd' s 0) / (n + n * v + n * v' : ℕ) =
      lmlIterTail (Real.log C.det) (tdRhs2 mf y yd yd') (tdFitDense2 la θ e.obj mf x y J J' yd yd').1 := by
    rw [div_eq_iff hN']
    exact ((mul_comm _ _).trans (iterTail_eq ex hp (tdRhs2 mf y yd yd') hN)).symm
  refine ⟨fun S => lmlIterTail (lanczosCols splitL normal (fun _ => signs S) eigh k keyL
    (fun z : Mat (n + n * v + n * v') 1 => C * z)) (tdRhs2 mf y yd yd') c', fun S => ?_, fun Q ev hQ hC => ?_⟩
  · unfold tdLmlIter2
    rw [hc', hmv]
  · have := tail_accuracy eigh hei (by omega) hq hG hlo splitL normal k keyL (by rw [hCG]; exact hr)
      (tdRhs2 mf y yd yd') _ c' h1 Q ev hQ (by rw [hCG]; exact hC)
    rw [hCG, trace_minus_noise, hb2] at this
    rw [hden]
    exact this

/-- Non-vacuity: `SquaredExponential` times `Linear`, noise `2` on the derivatives, a routine that stops early. -/
example : LinAlg.ideal.Exact ∧ CGStops (earlyCG (1 - 1 / 10 ^ 5)) (1 / 10 ^ 5) (1 / 10 ^ 7) ∧
    Smooth exSE (fun _ => 1) ∧ NoMatern32 exSE ∧ (1 : ℝ) ≤ 1 ^ 2 + 1 / 10 ^ 10 ∧
    (1 : ℝ) + 2 * ∑ a, slack exSE (fun _ => 1) (observable1 exX exJ a) (observable1 exX exJ a) ≤ 2 ^ 2 + 1 / 10 ^ 10 :=
  ⟨LinAlg.ideal_exact, earlyCG_stops (by norm_num [abs_of_nonneg]), exSE_smooth, ⟨trivial, trivial⟩, by norm_num, by
    have := exSE_sum
    have h2 : (4 : ℝ) ≤ 2 ^ 2 + 1 / 10 ^ 10 := by norm_num
    linarith⟩

end GPX.Props
