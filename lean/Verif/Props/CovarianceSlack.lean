import Verif.Lemmas.SlackBlocks

/-!
# C140: covariances of models trained on derivatives, for every twice differentiable kernel, up to the slack
-/

namespace GPX.Props
open GPX GPX.Spec

variable {d m n o v w k : ℕ} {la : LinAlg}

/-- **C140** (partial), targets, for every expression without `Matern12` and `Matern32`: when the noise variance exceeds
the sum of the slacks of the training derivatives, the covariance of the targets is positive semidefinite, at most the
prior covariance and at most the covariance from part of the samples. The slack of the new samples plays no role. -/
theorem C140_targets_slack_partial (ex : la.Exact) (e : KExpr d) (θ : GPParams) (h : Smooth e θ.kernelParams)
    (hn : NoMatern32 e) (xt : Batch m d) (Jt : Jac m d w) (x : Batch n d)
    (hs : ∑ i, ∑ u, slack e θ.kernelParams (xt i, some fun f => Jt i f u) (xt i, some fun f => Jt i f u) <
      θ.sigma ^ 2) :
    GoodCovariance (Matrix.of (e.obj.k θ.kernelParams x x)) (predictYDerivsDenseCov la θ e.obj xt Jt x)
      {c | ∃ (k : ℕ) (f : Fin k → Fin m), Function.Injective f ∧
        c = predictYDerivsDenseCov la θ e.obj (fun s => xt (f s)) (fun s => Jt (f s)) x} := by
  obtain ⟨hS, hE, hr⟩ := slackOn_expr e θ.kernelParams h Set.univ
    fun y _ z _ => separated_noMatern32 e _ hn _ _
  have hz := slack_noMatern32 e θ.kernelParams hn
  let g : Fin (m * w) ⊕ Fin n → Jet d := fun q => match q with
    | .inl s => (xt s.divNat, some fun f => Jt s.divNat f s.modNat)
    | .inr j => (x j, none)
  have hS1 : (slackMat e θ.kernelParams xt Jt xt Jt).PosSemidef :=
    PSDOn.gram hS (fun s : Fin (m * w) => (xt s.divNat, some fun f => Jt s.divNat f s.modNat)) fun _ => trivial
  have hK : (Matrix.fromBlocks (Matrix.of (e.obj.d01kj θ.kernelParams xt xt Jt Jt) +
      slackMat e θ.kernelParams xt Jt xt Jt) (Matrix.of (e.obj.d0kj θ.kernelParams xt x Jt))
      (Matrix.of (e.obj.d0kj θ.kernelParams xt x Jt)).transpose
      (Matrix.of (e.obj.k θ.kernelParams x x))).PosSemidef := by
    have hG := PSDOn.gram hE g fun _ => trivial
    have hsym := hG.1
    convert hG using 1
    ext s t
    rcases s with s | s <;> rcases t with t | t
    · obtain ⟨i, u, rfl⟩ := flat_surj s
      obtain ⟨j, z, rfl⟩ := flat_surj t
      simp only [Matrix.of_apply, Matrix.fromBlocks_apply₁₁, Matrix.add_apply, slackMat, hr.d01, g, flat_divNat,
        flat_modNat]
    · obtain ⟨i, u, rfl⟩ := flat_surj s
      simp only [Matrix.of_apply, Matrix.fromBlocks_apply₁₂, hr.d0, g, flat_divNat, flat_modNat,
        hz _ (x t, none) (.inr rfl), add_zero]
    · obtain ⟨j, u, rfl⟩ := flat_surj t
      have := hsym.apply (Sum.inl (flat j u)) (Sum.inr s)
      simp only [Matrix.of_apply, Matrix.fromBlocks_apply₂₁, Matrix.transpose_apply, hr.d0, g, flat_divNat, flat_modNat,
        hz _ (x s, none) (.inr rfl), add_zero, star_trivial] at this ⊢
      exact this.symm
    · simp only [Matrix.of_apply, Matrix.fromBlocks_apply₂₂, hr.k, g, hz (x s, none) _ (.inl rfl), add_zero]
  obtain ⟨h1, h2⟩ := slack_blocks_left hK hS1 (c := θ.sigma ^ 2) (by rw [slackMat_trace]; exact hs)
  have hform : predictYDerivsDenseCov la θ e.obj xt Jt x =
      Matrix.of (e.obj.k θ.kernelParams x x) - (Matrix.of (e.obj.d0kj θ.kernelParams xt x Jt)).transpose *
        (Matrix.of (e.obj.d01kj θ.kernelParams xt xt Jt Jt) + θ.sigma ^ 2 • (1 : Mat (m * w) (m * w)))⁻¹ *
          Matrix.of (e.obj.d0kj θ.kernelParams xt x Jt) := by
    unfold predictYDerivsDenseCov
    simp only
    rw [ex.gram h1]
  refine ⟨?_, ?_, ?_⟩
  · rw [hform]; exact h2
  · rw [hform, sub_sub_cancel]; exact psd_sandwich h1.inv.posSemidef _
  · rintro c ⟨k, f, hf, rfl⟩
    have e1 : (Matrix.of (e.obj.d0kj θ.kernelParams (fun s => xt (f s)) x (fun s => Jt (f s))) : Mat (k * w) n) =
        (Matrix.of (e.obj.d0kj θ.kernelParams xt x Jt) : Mat (m * w) n).submatrix (pickRows w f) id := by
      ext s t
      obtain ⟨i, u, rfl⟩ := flat_surj s
      simp only [Matrix.submatrix_apply, Matrix.of_apply, pickRows, flat_divNat, flat_modNat, id_eq, hr.d0]
    have e2 : (Matrix.of (e.obj.d01kj θ.kernelParams (fun s => xt (f s)) (fun s => xt (f s)) (fun s => Jt (f s))
          (fun s => Jt (f s))) : Mat (k * w) (k * w)) + θ.sigma ^ 2 • (1 : Mat (k * w) (k * w)) =
        (Matrix.of (e.obj.d01kj θ.kernelParams xt xt Jt Jt) + θ.sigma ^ 2 • (1 : Mat (m * w) (m * w))).submatrix
          (pickRows w f) (pickRows w f) := by
      ext s t
      simp only [Matrix.add_apply, Matrix.submatrix_apply, Matrix.smul_apply, Matrix.one_apply,
        (pickRows_injective hf).eq_iff, Matrix.of_apply]
      obtain ⟨i, u, rfl⟩ := flat_surj s
      obtain ⟨j, z, rfl⟩ := flat_surj t
      simp only [pickRows, flat_divNat, flat_modNat, hr.d01]
    have h3 := h1.submatrix (pickRows_injective hf)
    have hform' : predictYDerivsDenseCov la θ e.obj (fun s => xt (f s)) (fun s => Jt (f s)) x =
        Matrix.of (e.obj.k θ.kernelParams x x) -
          (Matrix.of (e.obj.d0kj θ.kernelParams (fun s => xt (f s)) x (fun s => Jt (f s)))).transpose *
          (Matrix.of (e.obj.d01kj θ.kernelParams (fun s => xt (f s)) (fun s => xt (f s)) (fun s => Jt (f s))
            (fun s => Jt (f s))) + θ.sigma ^ 2 • (1 : Mat (k * w) (k * w)))⁻¹ *
            Matrix.of (e.obj.d0kj θ.kernelParams (fun s => xt (f s)) x (fun s => Jt (f s))) := by
      unfold predictYDerivsDenseCov
      simp only
      rw [ex.gram (by rw [e2]; exact h3)]
    rw [hform, hform', sub_sub_sub_cancel_left, e1, e2]
    exact explained_mono h1 _ _ h3

/-- **C140** (partial), derivatives, for every expression without `Matern12`: when no `Matern32` finds two different samples
too near and the noise variance exceeds twice the sum of the slacks of the training derivatives, the covariance of the
predicted derivatives becomes positive semidefinite once twice the slack of the predicted derivatives is added; it is at
most the prior covariance and at most the covariance from part of the samples. In particular a returned variance is at
least minus twice the slack of the derivative asked for. -/
theorem C140_derivs_slack_partial (ex : la.Exact) (e : KExpr d) (θ : GPParams) (h : Smooth e θ.kernelParams)
    (xt : Batch m d) (Jt : Jac m d w) (x : Batch n d) (J : Jac n d v)
    (hx : ∀ y ∈ Set.range xt ∪ Set.range x, ∀ z ∈ Set.range xt ∪ Set.range x, Separated e θ.kernelParams y z)
    (hs : 2 * ∑ i, ∑ u, slack e θ.kernelParams (xt i, some fun f => Jt i f u) (xt i, some fun f => Jt i f u) <
      θ.noise) :
    (Matrix.of fun r s => predictDerivsDenseCov la θ e.obj xt Jt x J r s +
      2 * slack e θ.kernelParams (x r.divNat, some fun f => J r.divNat f r.modNat)
        (x s.divNat, some fun f => J s.divNat f s.modNat)).PosSemidef ∧
    (∀ i u, -(2 * slack e θ.kernelParams (x i, some fun f => J i f u) (x i, some fun f => J i f u)) ≤
      predictDerivsDenseCov la θ e.obj xt Jt x J (flat i u) (flat i u)) ∧
    (Matrix.of (e.obj.d01kj θ.kernelParams x x J J) - predictDerivsDenseCov la θ e.obj xt Jt x J).PosSemidef ∧
    ∀ (k : ℕ) (f : Fin k → Fin m), Function.Injective f →
      (predictDerivsDenseCov la θ e.obj (fun s => xt (f s)) (fun s => Jt (f s)) x J -
        predictDerivsDenseCov la θ e.obj xt Jt x J).PosSemidef := by
  obtain ⟨hS, hE, hr⟩ := slackOn_expr e θ.kernelParams h _ hx
  let g : Fin (m * w) ⊕ Fin (n * v) → Jet d := fun q => match q with
    | .inl s => (xt s.divNat, some fun f => Jt s.divNat f s.modNat)
    | .inr s => (x s.divNat, some fun f => J s.divNat f s.modNat)
  have hg : ∀ q, (g q).1 ∈ Set.range xt ∪ Set.range x := by
    rintro (s | s)
    · exact .inl ⟨_, rfl⟩
    · exact .inr ⟨_, rfl⟩
  have hSb : (Matrix.fromBlocks (slackMat e θ.kernelParams xt Jt xt Jt) (slackMat e θ.kernelParams xt Jt x J)
      (slackMat e θ.kernelParams xt Jt x J).transpose (slackMat e θ.kernelParams x J x J)).PosSemidef := by
    have hG := PSDOn.gram hS g hg
    have hsym := hG.1
    convert hG using 1
    ext s t
    rcases s with s | s <;> rcases t with t | t
    · rfl
    · rfl
    · exact (hsym.apply (Sum.inl t) (Sum.inr s)).symm
    · rfl
  have hK : (Matrix.fromBlocks (aDerivsLhs θ e.obj xt Jt xt Jt + slackMat e θ.kernelParams xt Jt xt Jt)
      (aDerivsLhs θ e.obj xt Jt x J + slackMat e θ.kernelParams xt Jt x J)
      (aDerivsLhs θ e.obj xt Jt x J + slackMat e θ.kernelParams xt Jt x J).transpose
      (aDerivsLhs θ e.obj x J x J + slackMat e θ.kernelParams x J x J)).PosSemidef := by
    have hG := PSDOn.gram hE g hg
    have hsym := hG.1
    have key : ∀ {a b p q : ℕ} (y : Batch a d) (Y : Jac a d p) (z : Batch b d) (Z : Jac b d q) r s,
        (aDerivsLhs θ e.obj y Y z Z + slackMat e θ.kernelParams y Y z Z) r s =
          obsCov e.obj θ.kernelParams (y r.divNat, some fun f => Y r.divNat f r.modNat)
            (z s.divNat, some fun f => Z s.divNat f s.modNat) +
          slack e θ.kernelParams (y r.divNat, some fun f => Y r.divNat f r.modNat)
            (z s.divNat, some fun f => Z s.divNat f s.modNat) := by
      intro a b p q y Y z Z r s
      obtain ⟨i, u, rfl⟩ := flat_surj r
      obtain ⟨j, t, rfl⟩ := flat_surj s
      simp only [Matrix.add_apply, aDerivsLhs, slackMat, Matrix.of_apply, hr.d01, flat_divNat, flat_modNat]
    convert hG using 1
    ext s t
    rcases s with s | s <;> rcases t with t | t
    · exact key _ _ _ _ _ _
    · exact key _ _ _ _ _ _
    · exact (key _ _ _ _ _ _).trans (hsym.apply (Sum.inl t) (Sum.inr s)).symm
    · exact key _ _ _ _ _ _
  obtain ⟨h1, h2⟩ := slack_blocks hK hSb (c := θ.noise) (by rw [slackMat_trace]; exact hs)
  have hform : predictDerivsDenseCov la θ e.obj xt Jt x J =
      aDerivsLhs θ e.obj x J x J - (aDerivsLhs θ e.obj xt Jt x J).transpose *
        (aDerivsLhsNoise θ e.obj xt Jt xt Jt)⁻¹ * aDerivsLhs θ e.obj xt Jt x J := by
    unfold predictDerivsDenseCov
    simp only
    rw [ex.gram (show (aDerivsLhsNoise θ e.obj xt Jt xt Jt).PosDef from h1)]
  have hA : (Matrix.of fun r s => predictDerivsDenseCov la θ e.obj xt Jt x J r s +
      2 * slack e θ.kernelParams (x r.divNat, some fun f => J r.divNat f r.modNat)
        (x s.divNat, some fun f => J s.divNat f s.modNat)).PosSemidef := by
    convert h2 using 1
    rw [hform]
    ext r s
    simp only [Matrix.of_apply, Matrix.sub_apply, Matrix.add_apply, Matrix.smul_apply, slackMat, smul_eq_mul,
      aDerivsLhsNoise]
    ring
  refine ⟨hA, fun i u => ?_, ?_, ?_⟩
  · have := hA.diag_nonneg (i := flat i u)
    simp only [Matrix.of_apply, flat_divNat, flat_modNat] at this
    linarith
  · rw [hform]
    have : (Matrix.of (e.obj.d01kj θ.kernelParams x x J J) : Mat (n * v) (n * v)) = aDerivsLhs θ e.obj x J x J := rfl
    rw [this, sub_sub_cancel]
    exact psd_sandwich (Matrix.PosDef.inv (show (aDerivsLhsNoise θ e.obj xt Jt xt Jt).PosDef from h1)).posSemidef _
  · intro k f hf
    have e1 : aDerivsLhs θ e.obj (fun s => xt (f s)) (fun s => Jt (f s)) x J =
        (aDerivsLhs θ e.obj xt Jt x J).submatrix (pickRows w f) id := by
      ext s t
      obtain ⟨i, u, rfl⟩ := flat_surj s
      obtain ⟨j, z, rfl⟩ := flat_surj t
      simp only [aDerivsLhs, Matrix.submatrix_apply, Matrix.of_apply, pickRows, flat_divNat, flat_modNat, id_eq, hr.d01]
    have e2 : aDerivsLhsNoise θ e.obj (fun s => xt (f s)) (fun s => Jt (f s)) (fun s => xt (f s)) (fun s => Jt (f s)) =
        (aDerivsLhsNoise θ e.obj xt Jt xt Jt).submatrix (pickRows w f) (pickRows w f) := by
      ext s t
      simp only [aDerivsLhsNoise, aDerivsLhs, Matrix.add_apply, Matrix.submatrix_apply, Matrix.smul_apply,
        Matrix.one_apply, (pickRows_injective hf).eq_iff, Matrix.of_apply]
      obtain ⟨i, u, rfl⟩ := flat_surj s
      obtain ⟨j, z, rfl⟩ := flat_surj t
      simp only [pickRows, flat_divNat, flat_modNat, hr.d01]
    have h3 := (show (aDerivsLhsNoise θ e.obj xt Jt xt Jt).PosDef from h1).submatrix (pickRows_injective hf)
    have hform' : predictDerivsDenseCov la θ e.obj (fun s => xt (f s)) (fun s => Jt (f s)) x J =
        aDerivsLhs θ e.obj x J x J - (aDerivsLhs θ e.obj (fun s => xt (f s)) (fun s => Jt (f s)) x J).transpose *
          (aDerivsLhsNoise θ e.obj (fun s => xt (f s)) (fun s => Jt (f s)) (fun s => xt (f s)) (fun s => Jt (f s)))⁻¹ *
            aDerivsLhs θ e.obj (fun s => xt (f s)) (fun s => Jt (f s)) x J := by
      unfold predictDerivsDenseCov
      simp only
      rw [ex.gram (by rw [e2]; exact h3)]
    rw [hform, hform', sub_sub_sub_cancel_left, e1, e2]
    exact explained_mono h1 _ _ h3

/-- Non-vacuity: `SquaredExponential` times `Linear`, which is in neither class. -/
example (x : Batch 5 2) : (predictYDerivsDenseCov LinAlg.ideal ⟨fun _ => 1, 1⟩
    (KExpr.prod (.squaredExponential none) (.linear none) : KExpr 2).obj exX exJ x).PosSemidef :=
  (C140_targets_slack_partial LinAlg.ideal_exact (.prod (.squaredExponential none) (.linear none)) ⟨fun _ => 1, 1⟩
    ⟨by norm_num [Smooth, KPar.val, KPar.sub], trivial⟩ ⟨trivial, trivial⟩ exX exJ x
    (exSlack_lt.trans_le (by norm_num))).1

example (x : Batch 5 2) (J : Jac 5 2 2) : (Matrix.of ((KExpr.prod (.squaredExponential none) (.linear none) :
      KExpr 2).obj.d01kj (fun _ => 1) x x J J) - predictDerivsDenseCov LinAlg.ideal ⟨fun _ => 1, 2⟩
    (KExpr.prod (.squaredExponential none) (.linear none) : KExpr 2).obj exX exJ x J).PosSemidef :=
  (C140_derivs_slack_partial LinAlg.ideal_exact (.prod (.squaredExponential none) (.linear none)) ⟨fun _ => 1, 2⟩
    ⟨by norm_num [Smooth, KPar.val, KPar.sub], trivial⟩ exX exJ x J (fun _ _ _ _ => ⟨trivial, trivial⟩)
    (((mul_lt_mul_iff_right₀ (by norm_num : (0 : ℝ) < 2)).2 exSlack_lt).trans_le
      (by norm_num [GPParams.noise, noiseJitter]))).2.2.1

end GPX.Props
