import Verif.Props.AccuracySlack
import Verif.Props.LikelihoodAccuracy

/-!
# C108, C115 and C122 for models trained on derivatives, every twice differentiable kernel

The counterpart of `Props/AccuracySlack.lean` for `fit_derivs`: the noise variance is lowered by twice the sum of the
slacks of the training derivatives. `Matern32` is included when no two different samples are too near.
-/

namespace GPX.Props
open GPX GPX.Spec

variable {d m n v w : ℕ} {la : LinAlg} {KeyL : Type}

/-- A constant on the diagonal. -/
theorem diag_shift {K : Mat m m} {c : ℝ} :
    (Matrix.of fun a b => K a b + if a = b then c * 1 else 0 : Mat m m) = K + c • (1 : Mat m m) := by
  ext a b
  simp only [Matrix.of_apply, Matrix.add_apply, Matrix.smul_apply, Matrix.one_apply, smul_eq_mul, mul_ite, mul_one,
    mul_zero]

/-- The covariance of training and new derivatives, slack on the diagonal blocks only. -/
theorem derivs_blocks_slack (e : KExpr d) (κ : KPar) (h : Smooth e κ) (xt : Batch m d) (Jt : Jac m d w) (x : Batch n d)
    (J : Jac n d v) (hx : ∀ y ∈ Set.range xt ∪ Set.range x, ∀ z ∈ Set.range xt ∪ Set.range x, Separated e κ y z) :
    (Matrix.fromBlocks ((Matrix.of (e.obj.d01kj κ xt xt Jt Jt) : Mat (m * w) (m * w)) +
        (2 * ∑ i, ∑ u, slack e κ (xt i, some fun f => Jt i f u) (xt i, some fun f => Jt i f u)) •
          (1 : Mat (m * w) (m * w)))
      (Matrix.of (e.obj.d01kj κ xt x Jt J) : Mat (m * w) (n * v))
      (Matrix.of (e.obj.d01kj κ xt x Jt J) : Mat (m * w) (n * v)).transpose
      (Matrix.of fun r s => e.obj.d01kj κ x x J J r s + 2 * slackMat e κ x J x J r s)).PosSemidef := by
  obtain ⟨hS, hE, hr⟩ := slackOn_expr e κ h _ hx
  let g : Fin (m * w) ⊕ Fin (n * v) → Jet d := fun q => match q with
    | .inl s => (xt s.divNat, some fun f => Jt s.divNat f s.modNat)
    | .inr s => (x s.divNat, some fun f => J s.divNat f s.modNat)
  have hg : ∀ q, (g q).1 ∈ Set.range xt ∪ Set.range x := by
    rintro (s | s)
    · exact .inl ⟨_, rfl⟩
    · exact .inr ⟨_, rfl⟩
  have hSb : (Matrix.fromBlocks (slackMat e κ xt Jt xt Jt) (slackMat e κ xt Jt x J)
      (slackMat e κ xt Jt x J).transpose (slackMat e κ x J x J)).PosSemidef := by
    have hG := PSDOn.gram hS g hg
    have hsym := hG.1
    convert hG using 1
    ext s t
    rcases s with s | s <;> rcases t with t | t
    · rfl
    · rfl
    · exact (hsym.apply (Sum.inl t) (Sum.inr s)).symm
    · rfl
  have hK : (Matrix.fromBlocks (aDerivsLhs ⟨κ, 0⟩ e.obj xt Jt xt Jt + slackMat e κ xt Jt xt Jt)
      (aDerivsLhs ⟨κ, 0⟩ e.obj xt Jt x J + slackMat e κ xt Jt x J)
      (aDerivsLhs ⟨κ, 0⟩ e.obj xt Jt x J + slackMat e κ xt Jt x J).transpose
      (aDerivsLhs ⟨κ, 0⟩ e.obj x J x J + slackMat e κ x J x J)).PosSemidef := by
    have hG := PSDOn.gram hE g hg
    have hsym := hG.1
    have key : ∀ {a b p q : ℕ} (y : Batch a d) (Y : Jac a d p) (z : Batch b d) (Z : Jac b d q) r s,
        (aDerivsLhs ⟨κ, 0⟩ e.obj y Y z Z + slackMat e κ y Y z Z) r s =
          obsCov e.obj κ (y r.divNat, some fun f => Y r.divNat f r.modNat)
            (z s.divNat, some fun f => Z s.divNat f s.modNat) +
          slack e κ (y r.divNat, some fun f => Y r.divNat f r.modNat)
            (z s.divNat, some fun f => Z s.divNat f s.modNat) := by
      intro a b p q y Y z Z r s
      obtain ⟨i, u, rfl⟩ := flat_surj r
      obtain ⟨j, t, rfl⟩ := flat_surj s
      simp only [Matrix.add_apply, aDerivsLhs, slackMat, Matrix.of_apply, hr.d01, flat_divNat, flat_modNat]
    convert hG using 1
    ext s t
    rcases s with s | s <;> rcases t with t | t
    · exact key _ _ _ _ _ _
    · exact key _ _ _ _ _ _
    · exact (key _ _ _ _ _ _).trans (hsym.apply (Sum.inl t) (Sum.inr s)).symm
    · exact key _ _ _ _ _ _
  have := shift_blocks (K := e.obj.d01kj κ xt xt Jt Jt) (S := slackMat e κ xt Jt xt Jt)
    (B := e.obj.d01kj κ xt x Jt J) (R := slackMat e κ xt Jt x J) (D := e.obj.d01kj κ x x J J)
    (T := slackMat e κ x J x J) (z := fun _ => 1) hK hSb (fun a b => by ring) (fun a => by norm_num)
  rw [← slackMat_trace]
  convert this using 2
  exact diag_shift.symm

/-- The covariance of training derivatives and new targets, slack on the first block. -/
theorem y_blocks_slack (e : KExpr d) (κ : KPar) (h : Smooth e κ) (hn : NoMatern32 e) (xt : Batch m d) (Jt : Jac m d w)
    (x : Batch n d) :
    (Matrix.fromBlocks ((Matrix.of (e.obj.d01kj κ xt xt Jt Jt) : Mat (m * w) (m * w)) +
        (∑ i, ∑ u, slack e κ (xt i, some fun f => Jt i f u) (xt i, some fun f => Jt i f u)) • (1 : Mat (m * w) (m * w)))
      (Matrix.of (e.obj.d0kj κ xt x Jt) : Mat (m * w) n) (Matrix.of (e.obj.d0kj κ xt x Jt) : Mat (m * w) n).transpose
      (Matrix.of (e.obj.k κ x x))).PosSemidef := by
  obtain ⟨hS, hE, hr⟩ := slackOn_expr e κ h Set.univ
    fun y _ z _ => separated_noMatern32 e _ hn _ _
  have hz := slack_noMatern32 e κ hn
  let g : Fin (m * w) ⊕ Fin n → Jet d := fun q => match q with
    | .inl s => (xt s.divNat, some fun f => Jt s.divNat f s.modNat)
    | .inr j => (x j, none)
  have hS1 : (slackMat e κ xt Jt xt Jt).PosSemidef :=
    PSDOn.gram hS (fun s : Fin (m * w) => (xt s.divNat, some fun f => Jt s.divNat f s.modNat)) fun _ => trivial
  have hK : (Matrix.fromBlocks (Matrix.of (e.obj.d01kj κ xt xt Jt Jt) +
      slackMat e κ xt Jt xt Jt) (Matrix.of (e.obj.d0kj κ xt x Jt))
      (Matrix.of (e.obj.d0kj κ xt x Jt)).transpose
      (Matrix.of (e.obj.k κ x x))).PosSemidef := by
    have hG := PSDOn.gram hE g fun _ => trivial
    have hsym := hG.1
    convert hG using 1
    ext s t
    rcases s with s | s <;> rcases t with t | t
    · obtain ⟨i, u, rfl⟩ := flat_surj s
      obtain ⟨j, z, rfl⟩ := flat_surj t
      simp only [Matrix.of_apply, Matrix.fromBlocks_apply₁₁, Matrix.add_apply, slackMat, hr.d01, g, flat_divNat,
        flat_modNat]
    · obtain ⟨i, u, rfl⟩ := flat_surj s
      simp only [Matrix.of_apply, Matrix.fromBlocks_apply₁₂, hr.d0, g, flat_divNat, flat_modNat,
        hz _ (x t, none) (.inr rfl), add_zero]
    · obtain ⟨j, u, rfl⟩ := flat_surj t
      have := hsym.apply (Sum.inl (flat j u)) (Sum.inr s)
      simp only [Matrix.of_apply, Matrix.fromBlocks_apply₂₁, Matrix.transpose_apply, hr.d0, g, flat_divNat, flat_modNat,
        hz _ (x s, none) (.inr rfl), add_zero, star_trivial] at this ⊢
      exact this.symm
    · simp only [Matrix.of_apply, Matrix.fromBlocks_apply₂₂, hr.k, g, hz (x s, none) _ (.inl rfl), add_zero]
  have h2 : ((slackMat e κ xt Jt xt Jt).trace • (1 : Mat (m * w) (m * w)) - slackMat e κ xt Jt xt Jt).PosSemidef := by
    refine Matrix.posSemidef_iff_dotProduct_mulVec.2 ⟨?_, fun z => ?_⟩
    · exact ((Matrix.PosSemidef.one.1 : (1 : Mat (m * w) (m * w)).IsHermitian).smul (IsSelfAdjoint.all _)).sub hS1.1
    · have h3 := quad_le_trace hS1 z
      have e1 : dotProduct (star z) (((slackMat e κ xt Jt xt Jt).trace • (1 : Mat (m * w) (m * w)) -
          slackMat e κ xt Jt xt Jt).mulVec z) = (slackMat e κ xt Jt xt Jt).trace * ∑ i, z i ^ 2 -
            ∑ i, ∑ j, z i * slackMat e κ xt Jt xt Jt i j * z j := by
        rw [Matrix.sub_mulVec, dotProduct_sub, Matrix.smul_mulVec, Matrix.one_mulVec, dotProduct_smul]
        congr 1
        · simp only [dotProduct, star_trivial, smul_eq_mul, pow_two]
        · simp only [dotProduct, star_trivial, Matrix.mulVec, Finset.mul_sum, mul_assoc]
      rw [e1]
      linarith
  have h4 := hK.add (psd_topLeft (n := n) h2)
  rw [Matrix.fromBlocks_add] at h4
  rw [← slackMat_trace]
  convert h4 using 2
  · abel
  · simp
  · simp
  · simp

/-- The system of `fit_derivs` above `lo`. -/
theorem derivs_system_slack (e : KExpr d) (θ : GPParams) (h : Smooth e θ.kernelParams) (x : Batch n d)
    (hx : ∀ i j, Separated e θ.kernelParams (x i) (x j)) (J : Jac n d v) (lo : ℝ)
    (hs : lo + 2 * ∑ i, ∑ u, slack e θ.kernelParams (x i, some fun f => J i f u) (x i, some fun f => J i f u) ≤
      θ.sigma ^ 2 + 1 / 10 ^ 10) :
    ∃ G : Mat (n * v) (n * v), G.PosSemidef ∧
      aDerivsLhsNoise θ e.obj x J x J = G + lo • (1 : Mat (n * v) (n * v)) := by
  have hj := (derivs_blocks_slack e θ.kernelParams h x J x J (by
    rintro _ (⟨i, rfl⟩ | ⟨i, rfl⟩) _ (⟨j, rfl⟩ | ⟨j, rfl⟩) <;> exact hx i j)).submatrix (Sum.inl : Fin (n * v) → _)
  set τ := ∑ i, ∑ u, slack e θ.kernelParams (x i, some fun f => J i f u) (x i, some fun f => J i f u)
  refine ⟨(Matrix.of (e.obj.d01kj θ.kernelParams x x J J) + (2 * τ) • (1 : Mat _ _)) +
    (θ.noise - 2 * τ - lo) • (1 : Mat (n * v) (n * v)), ?_, ?_⟩
  · exact Matrix.PosSemidef.add hj (Matrix.PosSemidef.one.smul (by rw [noise_val]; linarith))
  · rw [add_assoc, add_assoc, ← add_smul, ← add_smul, show 2 * τ + (θ.noise - 2 * τ - lo + lo) = θ.noise by ring]
    rfl

/-- **C108**, derivatives, every expression without `Matern12` (any two different samples not too near for its `Matern32`s):
the bounds of `C108_fit_derivs` with `lo`, at most the noise variance less twice the sum of the slacks of the training
derivatives, for the noise, and the prior variance of a predicted derivative raised by twice its slack. -/
theorem C108_fit_derivs_slack (ex : la.Exact) (cg : CG) (tol atol : ℝ) (hcg : CGStops cg tol atol) {Key : Type}
    (split : Key → Key × Key) (choice : Key → (Fin (n * v) → ℝ) → Fin (n * v)) (e : KExpr d) (θ : GPParams) 
    (h : Smooth e θ.kernelParams) (mf : MeanFun) (x : Batch n d) (hx : ∀ i j, Separated e θ.kernelParams (x i) (x j))
    (J : Jac n d v) (y : Mat n v) (nPivots : ℕ) (key : Key) (lo : ℝ) (hlo : 0 < lo)
    (hs : lo + 2 * ∑ i, ∑ u, slack e θ.kernelParams (x i, some fun f => J i f u) (x i, some fun f => J i f u) ≤
      θ.sigma ^ 2 + 1 / 10 ^ 10) :
    let c := (fitDerivsDense la θ e.obj mf x J y).1
    let mu := mf (flatCol y)
    let δ2 := cgTarget tol atol (Matrix.of fun r a => flatCol y r a - mu)
    let c' := (fitDerivsIter la cg split choice θ e.obj mf x J y nPivots key).1
    (fitDerivsIter la cg split choice θ e.obj mf x J y nPivots key).2 = mu ∧
      lo ^ 2 * sumSq (c' - c) ≤ δ2 ∧
      ∀ {k w : ℕ} (xs : Batch k d) (Js : Jac k d w),
        (∀ y ∈ Set.range x ∪ Set.range xs, ∀ z ∈ Set.range x ∪ Set.range xs, Separated e θ.kernelParams y z) →
        ∀ (j : Fin k) (u : Fin w),
        4 * lo *
            (predictDerivsIter θ e.obj x J xs Js c' mu j u - predictDerivsDense θ e.obj x J xs Js c mu j u) ^ 2 ≤
          (e.obj.d01kj θ.kernelParams xs xs Js Js (flat j u) (flat j u) +
            2 * slack e θ.kernelParams (xs j, some fun f => Js j f u) (xs j, some fun f => Js j f u)) * δ2 := by
  intro c mu δ2 c'
  obtain ⟨G, hG, hA⟩ := derivs_system_slack e θ h x hx J lo hs
  have hp : (aDerivsLhsNoise θ e.obj x J x J).PosDef := by
    rw [hA]
    exact posDef_add_smul_one hG hlo
  have hmv : (axDerivsLhsFun θ e.obj true x J x J : Mat (n * v) 1 → Mat (n * v) 1) =
      fun z : Mat (n * v) 1 => aDerivsLhsNoise θ e.obj x J x J * z :=
    funext fun z => (axDerivsLhsFun_eq θ (C63_sampleWise e θ.kernelParams)).2 x J x J z
  have hsol : aDerivsLhsNoise θ e.obj x J x J * c = centerBy (flatCol y) mu := ex.solve _ _ (posDef_isUnit hp)
  have hc' : c' = cg (fun z : Mat (n * v) 1 => aDerivsLhsNoise θ e.obj x J x J * z) (centerBy (flatCol y) mu)
      (precondRpcholeskyDerivs la split choice θ e.obj x J nPivots key) := by
    simp only [c', fitDerivsIter, hmv]
    rfl
  have hr : sumSq (centerBy (flatCol y) mu - aDerivsLhsNoise θ e.obj x J x J * c') ≤ δ2 := by
    rw [hc']
    exact hcg _ (centerBy (flatCol y) mu) _ hp
  have hsol' := hsol
  have hr' := hr
  rw [hA] at hsol' hr'
  refine ⟨rfl, ((residual_bound hG hlo hsol').1).trans hr', ?_⟩
  intro k w xs Js hxs j u
  have hj := derivs_blocks_slack e θ.kernelParams h x J xs Js hxs
  set τ := ∑ i, ∑ u, slack e θ.kernelParams (x i, some fun f => J i f u) (x i, some fun f => J i f u)
  have hA2 : aDerivsLhsNoise θ e.obj x J x J = (Matrix.of (e.obj.d01kj θ.kernelParams x x J J) + (2 * τ) • (1 : Mat _ _)) +
      (θ.noise - 2 * τ) • (1 : Mat (n * v) (n * v)) := by
    rw [add_assoc, ← add_smul, add_sub_cancel]
    rfl
  have hlo' : lo ≤ θ.noise - 2 * τ := by rw [noise_val]; linarith
  rw [hA2] at hsol
  have key := residual_predict hj (hlo.trans_le hlo') hsol (c' := c') (flat j u) 0
  rw [← hA2] at key
  have hD : 0 ≤ (Matrix.of fun r s => e.obj.d01kj θ.kernelParams xs xs Js Js r s +
      2 * slackMat e θ.kernelParams xs Js xs Js r s : Mat (k * w) (k * w)) (flat j u) (flat j u) :=
    (hj.submatrix (Sum.inr : Fin (k * w) → Fin (n * v) ⊕ Fin (k * w))).diag_nonneg (i := flat j u)
  have key2 := key.trans (mul_le_mul_of_nonneg_left hr hD)
  simp only [Matrix.of_apply, slackMat, flat_divNat, flat_modNat] at key2
  refine le_trans ?_ key2
  rw [predictDerivsIter_eq e]
  have e1 : predictDerivsDense θ e.obj x J xs Js c' mu j u - predictDerivsDense θ e.obj x J xs Js c mu j u =
      ((Matrix.of (e.obj.d01kj θ.kernelParams x xs J Js) : Mat (n * v) (k * w)).transpose * c') (flat j u) 0 -
      ((Matrix.of (e.obj.d01kj θ.kernelParams x xs J Js) : Mat (n * v) (k * w)).transpose * c) (flat j u) 0 := by
    simp only [predictDerivsDense, predictDerivsFlat, unflatCol, addScalar, Matrix.of_apply, add_sub_add_left_eq_sub,
      prod_flat]
    rfl
  rw [e1]
  exact mul_le_mul_of_nonneg_right (by linarith) (sq_nonneg _)

/-- **C122**, every expression without `Matern12`: a derivative predicted by a model of derivatives, with twice the slack of the
derivative added to its prior variance and twice the sum of the slacks of the training derivatives taken from the noise
variance. -/
theorem C122_bounded_derivs_slack (ex : la.Exact) (e : KExpr d) (θ : GPParams)
    (h : Smooth e θ.kernelParams) (mf : MeanFun) (xt : Batch m d) (Jt : Jac m d w) (y : Mat m w) (x : Batch n d)
    (J : Jac n d v) (j : Fin n) (t : Fin v)
    (hx : ∀ y ∈ Set.range xt ∪ Set.range x, ∀ z ∈ Set.range xt ∪ Set.range x, Separated e θ.kernelParams y z) (τ : ℝ)
    (hτ : τ = 2 * ∑ i, ∑ u, slack e θ.kernelParams (xt i, some fun f => Jt i f u) (xt i, some fun f => Jt i f u))
    (hs : τ < θ.sigma ^ 2 + 1 / 10 ^ 10) :
    let fit := fitDerivsDense la θ e.obj mf xt Jt y
    (predictDerivsDense θ e.obj xt Jt x J fit.1 fit.2 j t - mf (flatCol y)) ^ 2 ≤
      (e.obj.d01kj θ.kernelParams x x J J (flat j t) (flat j t) +
        2 * slack e θ.kernelParams (x j, some fun f => J j f t) (x j, some fun f => J j f t)) * (∑ i, ∑ u, (y i u - mf (flatCol y)) ^ 2) /
        (4 * (θ.sigma ^ 2 + 1 / 10 ^ 10 - τ)) := by
  intro fit
  have hn : 0 < θ.sigma ^ 2 + 1 / 10 ^ 10 - τ := sub_pos.2 hs
  have hB := derivs_blocks_slack e θ.kernelParams h xt Jt x J hx
  rw [← hτ] at hB
  have hA : aDerivsLhsNoise θ e.obj xt Jt xt Jt = (Matrix.of (e.obj.d01kj θ.kernelParams xt xt Jt Jt) +
      τ • (1 : Mat _ _)) + (θ.sigma ^ 2 + 1 / 10 ^ 10 - τ) • (1 : Mat (m * w) (m * w)) := by
    rw [add_assoc, ← add_smul, add_sub_cancel, ← noise_val]
    rfl
  have hp : (aDerivsLhsNoise θ e.obj xt Jt xt Jt).PosDef := by
    rw [hA]
    exact posDef_add_smul_one (hB.submatrix (Sum.inl : Fin (m * w) → _)) hn
  have hsol : aDerivsLhsNoise θ e.obj xt Jt xt Jt * fit.1 = centerBy (flatCol y) (mf (flatCol y)) :=
    ex.solve _ _ (posDef_isUnit hp)
  rw [hA] at hsol
  have key := residual_predict hB hn hsol (c' := 0) (flat j t) 0
  have e1 : predictDerivsDense θ e.obj xt Jt x J fit.1 fit.2 j t - mf (flatCol y) =
      ((aDerivsLhs θ e.obj xt Jt x J).transpose * fit.1) (flat j t) 0 := by
    have : predictDerivsDense θ e.obj xt Jt x J fit.1 fit.2 j t =
        mf (flatCol y) + ((aDerivsLhs θ e.obj xt Jt x J).transpose * fit.1) (flat j t) 0 := by
      simp only [predictDerivsDense, unflatCol, Matrix.of_apply, prod_flat]
      rfl
    rw [this]; ring
  rw [e1, le_div_iff₀ (by positivity)]
  have e2 : sumSq (centerBy (flatCol y) (mf (flatCol y))) = ∑ i, ∑ u, (y i u - mf (flatCol y)) ^ 2 := by
    simp only [sumSq, sum_flat, Fin.sum_univ_one, centerBy, flatCol, Matrix.of_apply, flat_divNat, flat_modNat]
  simp only [Matrix.mul_zero, Matrix.zero_apply, zero_sub, sub_zero, neg_sq, e2, Matrix.of_apply, slackMat, flat_divNat,
    flat_modNat] at key
  rw [mul_comm]
  exact key

/-- **C122**, every twice differentiable expression but `Matern32`: a target predicted by a model of derivatives; only the noise
variance pays. -/
theorem C122_bounded_y_derivs_slack (ex : la.Exact) (e : KExpr d) (θ : GPParams)
    (h : Smooth e θ.kernelParams) (hm : NoMatern32 e) (mf : MeanFun) (xt : Batch m d) (Jt : Jac m d w) (y : Mat m w) (x : Batch n d)
    (j : Fin n) (τ : ℝ)
    (hτ : τ = ∑ i, ∑ u, slack e θ.kernelParams (xt i, some fun f => Jt i f u) (xt i, some fun f => Jt i f u))
    (hs : τ < θ.sigma ^ 2 + 1 / 10 ^ 10) :
    let fit := fitDerivsDense la θ e.obj mf xt Jt y
    (predictYDerivsDense θ e.obj xt Jt x fit.1 fit.2 j 0 - mf (flatCol y)) ^ 2 ≤
      e.obj.k θ.kernelParams x x j j * (∑ i, ∑ u, (y i u - mf (flatCol y)) ^ 2) /
        (4 * (θ.sigma ^ 2 + 1 / 10 ^ 10 - τ)) := by
  intro fit
  have hn : 0 < θ.sigma ^ 2 + 1 / 10 ^ 10 - τ := sub_pos.2 hs
  have hB := y_blocks_slack e θ.kernelParams h hm xt Jt x
  rw [← hτ] at hB
  have hA : aDerivsLhsNoise θ e.obj xt Jt xt Jt = (Matrix.of (e.obj.d01kj θ.kernelParams xt xt Jt Jt) +
      τ • (1 : Mat _ _)) + (θ.sigma ^ 2 + 1 / 10 ^ 10 - τ) • (1 : Mat (m * w) (m * w)) := by
    rw [add_assoc, ← add_smul, add_sub_cancel, ← noise_val]
    rfl
  have hp : (aDerivsLhsNoise θ e.obj xt Jt xt Jt).PosDef := by
    rw [hA]
    exact posDef_add_smul_one (hB.submatrix (Sum.inl : Fin (m * w) → _)) hn
  have hsol : aDerivsLhsNoise θ e.obj xt Jt xt Jt * fit.1 = centerBy (flatCol y) (mf (flatCol y)) :=
    ex.solve _ _ (posDef_isUnit hp)
  rw [hA] at hsol
  have key := residual_predict hB hn hsol (c' := 0) j 0
  have e1 : predictYDerivsDense θ e.obj xt Jt x fit.1 fit.2 j 0 - mf (flatCol y) =
      ((Matrix.of (e.obj.d0kj θ.kernelParams xt x Jt) : Mat (m * w) n).transpose * fit.1) j 0 := by
    have : predictYDerivsDense θ e.obj xt Jt x fit.1 fit.2 j 0 =
      mf (flatCol y) + ((Matrix.of (e.obj.d0kj θ.kernelParams xt x Jt) : Mat (m * w) n).transpose * fit.1) j 0 := rfl
    rw [this]; ring
  rw [e1, le_div_iff₀ (by positivity)]
  have e2 : sumSq (centerBy (flatCol y) (mf (flatCol y))) = ∑ i, ∑ u, (y i u - mf (flatCol y)) ^ 2 := by
    simp only [sumSq, sum_flat, Fin.sum_univ_one, centerBy, flatCol, Matrix.of_apply, flat_divNat, flat_modNat]
  simp only [Matrix.mul_zero, Matrix.zero_apply, zero_sub, sub_zero, neg_sq, e2, Matrix.of_apply] at key
  rw [mul_comm]
  exact key

/-- **C115**, every expression without `Matern12`: the iterative likelihood of GPR trained on derivatives. -/
theorem C115_gpr_derivs_slack (ex : la.Exact) (cg : CG) (tol atol : ℝ) (hcg : CGStops cg tol atol) (eigh : Eigh)
    (hei : eigh.Exact) {Key : Type} (split : Key → Key × Key) (choice : Key → (Fin (n * v) → ℝ) → Fin (n * v))
    (e : KExpr d) (θ : GPParams) (h : Smooth e θ.kernelParams) (mf : MeanFun) (x : Batch n d)
    (hx : ∀ i j, Separated e θ.kernelParams (x i) (x j))
    (J : Jac n d v) (y : Mat n v) (nPivots : ℕ) (key : Key) (hn : 0 < n * v) (lo : ℝ) (hlo : 1 / 10 ^ 36 ≤ lo)
    (hs : lo + 2 * ∑ i, ∑ u, slack e θ.kernelParams (x i, some fun f => J i f u) (x i, some fun f => J i f u) ≤
      θ.sigma ^ 2 + 1 / 10 ^ 10) {q : ℕ} (hq : 0 < q)
    (splitL : KeyL → KeyL × KeyL) (normal : KeyL → Vec (n * v)) (k : ℕ) (keyL : KeyL)
    (hr : ∀ σ : Fin (n * v) → Bool, ExactRun splitL normal (dataCovDerivs e.obj θ x J).mulVec (k + 1)
      (fun i => (if σ i then 1 else -1) / Real.sqrt (n * v : ℕ)) (splitL keyL).2)
    (Q : Mat (n * v) (n * v)) (ev : Fin (n * v) → ℝ) (hQ : Q.transpose * Q = 1)
    (hC : dataCovDerivs e.obj θ x J = Q * Matrix.diagonal ev * Q.transpose) :
    let b : Mat (n * v) 1 := Matrix.of fun r a => flatCol y r a - mf (flatCol y)
    AccurateInMean
      (fun S : Fin (n * v) → Fin q → Bool => lmlDerivsIter la cg split choice
        (lanczosCols splitL normal (fun _ => signs S) eigh k keyL) θ e.obj mf x J y nPivots key)
      (Real.log (gaussDensity (dataCovDerivs e.obj θ x J) fun r => flatCol y r 0 - mf (flatCol y)) / (n * v : ℕ))
      (likelihoodBound (n * v) (k + 1) lo
        (∑ r, (e.obj.d01kj θ.kernelParams x x J J r r + (θ.sigma ^ 2 + 1 / 10 ^ 10) - lo)) (sumSq b) (cgTarget tol atol b))
      (probeError (n * v) q (Q * Matrix.diagonal (fun i => Real.log (ev i)) * Q.transpose)) := by
  intro b
  have hn0 : ((n * v : ℕ) : ℝ) ≠ 0 := by exact_mod_cast hn.ne'
  obtain ⟨G, hG, hA⟩ := derivs_system_slack e θ h x hx J lo hs
  have hlo0 : 0 < lo := lt_of_lt_of_le (by norm_num) hlo
  have hp : (aDerivsLhsNoise θ e.obj x J x J).PosDef := by
    rw [hA]
    exact posDef_add_smul_one hG hlo0
  obtain ⟨hmu, h1, -⟩ := C108_fit_derivs_slack ex cg tol atol hcg split choice e θ h mf x hx J y nPivots key
    lo hlo0 hs
  have hmv : (axDerivsLhsFun θ e.obj true x J x J : Mat (n * v) 1 → Mat (n * v) 1) =
      fun z : Mat (n * v) 1 => aDerivsLhsNoise θ e.obj x J x J * z :=
    funext fun z => (axDerivsLhsFun_eq θ (C63_sampleWise e θ.kernelParams)).2 x J x J z
  have hden : Real.log (gaussDensity (dataCovDerivs e.obj θ x J) fun r => flatCol y r 0 - mf (flatCol y)) /
      (n * v : ℕ) = lmlIterTail (Real.log (dataCovDerivs e.obj θ x J).det) b
        (fitDerivsDense la θ e.obj mf x J y).1 := by
    rw [div_eq_iff hn0]
    exact ((mul_comm _ _).trans (iterTail_eq ex hp b hn.ne')).symm
  rw [hden]
  have hval : ∀ S : Fin (n * v) → Fin q → Bool, lmlDerivsIter la cg split choice
      (lanczosCols splitL normal (fun _ => signs S) eigh k keyL) θ e.obj mf x J y nPivots key =
      lmlIterTail (lanczosCols splitL normal (fun _ => signs S) eigh k keyL
        (fun z : Mat (n * v) 1 => dataCovDerivs e.obj θ x J * z)) b
        (fitDerivsIter la cg split choice θ e.obj mf x J y nPivots key).1 := by
    intro S
    unfold lmlDerivsIter
    simp only
    rw [hmu, hmv]
    rfl
  simp only [hval]
  have hD : dataCovDerivs e.obj θ x J = G + lo • (1 : Mat (n * v) (n * v)) := hA
  have htr : G.trace = ∑ r, (e.obj.d01kj θ.kernelParams x x J J r r + (θ.sigma ^ 2 + 1 / 10 ^ 10) - lo) := by
    refine Finset.sum_congr rfl fun r _ => ?_
    have := congrFun (congrFun hA r) r
    simp only [aDerivsLhsNoise, aDerivsLhs, Matrix.add_apply, Matrix.smul_apply, Matrix.one_apply_eq, smul_eq_mul,
      mul_one, Matrix.of_apply, noise_val] at this
    rw [Matrix.diag_apply]
    linarith
  rw [← htr]
  rw [hD] at hr hC ⊢
  exact tail_accuracy eigh hei hn hq hG hlo splitL normal k keyL hr b _ _ h1 Q ev hQ hC

/-- Non-vacuity: `SquaredExponential` times `Linear` with noise `2`. -/
example : LinAlg.ideal.Exact ∧ CGStops (earlyCG (1 - 1 / 10 ^ 5)) (1 / 10 ^ 5) (1 / 10 ^ 7) ∧
    Smooth exSE (fun _ => 1) ∧ NoMatern32 exSE ∧ (∀ y z, Separated exSE (fun _ => 1) y z) ∧
    (1 : ℝ) + 2 * ∑ i, ∑ u, slack exSE (fun _ => 1) (exX i, some fun f => exJ i f u) (exX i, some fun f => exJ i f u) ≤
      2 ^ 2 + 1 / 10 ^ 10 :=
  ⟨LinAlg.ideal_exact, earlyCG_stops (by norm_num [abs_of_nonneg]), exSE_smooth, ⟨trivial, trivial⟩,
    fun _ _ => ⟨trivial, trivial⟩, by
    have := exSlack_lt
    have h2 : (4 : ℝ) ≤ 2 ^ 2 + 1 / 10 ^ 10 := by norm_num
    linarith⟩

/-- Non-vacuity of `C115_gpr_derivs_slack`: one Lanczos step. -/
example (splitL : KeyL → KeyL × KeyL) (normal : KeyL → Vec (2 * 3)) (keyL : KeyL) (σ : Fin (2 * 3) → Bool) :
    ExactRun splitL normal (dataCovDerivs exSE.obj ⟨fun _ => 1, 2⟩ exX exJ).mulVec (0 + 1)
      (fun i => (if σ i then 1 else -1) / Real.sqrt (2 * 3 : ℕ)) (splitL keyL).2 :=
  exactRun_one _ _ _ _ _

end GPX.Props
