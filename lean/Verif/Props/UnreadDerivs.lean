import Verif.Props.Interactions
import Verif.Props.Certainty
import Verif.Props.WorstCase

/-!
# C172, models trained on derivatives: directions along which no feature the kernel reads moves
-/

namespace GPX.Props
open GPX GPX.Spec Matrix

variable {d m n v w : ℕ} {la : LinAlg}

/-- The derivatives of a kernel in its second argument vanish along a direction that moves unread features only. -/
theorem kernel_unread_derivs (e : KExpr d) (p : KPar) {n m v1 v2 : ℕ} (x1 : Batch n d) (x2 : Batch m d) (J1 : Jac n d v1) (J2 : Jac m d v2)
    (j : Fin m) (q : Fin v2) (h : ∀ f, readsFeature e f → J2 j f q = 0) :
    (∀ i, e.obj.d1kj p x1 x2 J2 i (flat j q) = 0) ∧ ∀ i u, e.obj.d01kj p x1 x2 J1 J2 (flat i u) (flat j q) = 0 := by
  have leaf : ∀ {κ : KernelObj d} {a : Option (Dims d)} {c : Core} {p : KPar}, ClosedJ κ p (Dims.resolve a) c →
      (∀ f, named a f → J2 j f q = 0) →
      (∀ i, κ.d1kj p x1 x2 J2 i (flat j q) = 0) ∧ ∀ i u, κ.d01kj p x1 x2 J1 J2 (flat i u) (flat j q) = 0 := by
    intro κ a c p hc h
    have t : ∀ b, J2 j ((Dims.resolve a).idx b) q = 0 := fun b => h _ ⟨b, rfl⟩
    refine ⟨fun i => ?_, fun i u => ?_⟩
    · rw [hc.d1kj]; simp [t]
    · rw [hc.d01kj]; simp [t]
  induction e generalizing p with
  | constant a =>
    refine ⟨fun i => ?_, fun i u => ?_⟩
    · exact ((closedJ_constant a p).d1kj x1 x2 J2 i j q).trans (by simp [Core.constant])
    · exact ((closedJ_constant a p).d01kj x1 x2 J1 J2 i u j q).trans (by simp [Core.constant])
  | linear a => exact leaf (closedJ_linear a p) h
  | polynomial a ni => exact leaf (closedJ_polynomial a ni p) h
  | squaredExponential a => exact leaf (closedJ_se a p) h
  | matern12 a => exact leaf (closedJ_m12 a p) h
  | matern32 a => exact leaf (closedJ_m32 a p) h
  | matern52 a => exact leaf (closedJ_m52 a p) h
  | expSinSquared a => exact leaf (closedJ_ess a p) h
  | sum e1 e2 ih1 ih2 =>
    have a1 := ih1 (p.sub "kernel1") fun f hf => h f (Or.inl hf)
    have a2 := ih2 (p.sub "kernel2") fun f hf => h f (Or.inr hf)
    refine ⟨fun i => ?_, fun i u => ?_⟩
    · change e1.obj.d1kj _ x1 x2 J2 i _ + e2.obj.d1kj _ x1 x2 J2 i _ = 0
      rw [a1.1, a2.1, add_zero]
    · change e1.obj.d01kj _ x1 x2 J1 J2 _ _ + e2.obj.d01kj _ x1 x2 J1 J2 _ _ = 0
      rw [a1.2, a2.2, add_zero]
  | prod e1 e2 ih1 ih2 =>
    have a1 := ih1 (p.sub "kernel1") fun f hf => h f (Or.inl hf)
    have a2 := ih2 (p.sub "kernel2") fun f hf => h f (Or.inr hf)
    refine ⟨fun i => ?_, fun i u => ?_⟩
    · change prodDeriv1Jac e1.obj e2.obj p x1 x2 J2 i (flat j q) = 0
      simp [prodDeriv1Jac, Arr2.add, Arr2.mul, a1.1, a2.1]
    · change prodDeriv01Jac e1.obj e2.obj p x1 x2 J1 J2 (flat i u) (flat j q) = 0
      simp [prodDeriv01Jac, Arr2.add, Arr2.mul, a1.1, a2.1, a1.2, a2.2]

/-- **C172**, derivatives predicted by a model trained on derivatives, along a direction that moves only features the kernel does not
read: the prediction is the stored mean, whatever the coefficients, and its variance and its covariances with all else are 0. -/
theorem C172_unread_derivs (ex : la.Exact) (e : KExpr d) (θ : GPParams) (h : DerivSmooth e θ.kernelParams) (xt : Batch m d)
    (Jt : Jac m d w) (x : Batch n d) (J : Jac n d v) (j : Fin n) (q : Fin v) (hJ : ∀ f, readsFeature e f → J j f q = 0) :
    (∀ (c : Mat (m * w) 1) (mu : ℝ), predictDerivsDense θ e.obj xt Jt x J c mu j q = mu) ∧
    ∀ r, predictDerivsDenseCov la θ e.obj xt Jt x J r (flat j q) = 0 := by
  have k1 : ∀ l, e.obj.d01kj θ.kernelParams xt x Jt J l (flat j q) = 0 := fun l => by
    rw [← flat_eta l]; exact (kernel_unread_derivs e _ xt x Jt J j q hJ).2 _ _
  have k2 : ∀ l, e.obj.d01kj θ.kernelParams x x J J l (flat j q) = 0 := fun l => by
    rw [← flat_eta l]; exact (kernel_unread_derivs e _ x x J J j q hJ).2 _ _
  refine ⟨fun c mu => ?_, fun r => ?_⟩
  · have h1 := predict_derivs_sub e θ xt Jt x J c mu j q
    simp only [k1, zero_mul, Finset.sum_const_zero] at h1
    linarith
  · rw [derivsCov_eq ex e θ h, Matrix.sub_apply, Matrix.mul_apply]
    simp only [Matrix.of_apply, k1, k2, mul_zero, Finset.sum_const_zero, sub_zero]

/-- **C172**, derivatives predicted by a model trained on values, along a direction that moves only features the kernel does not read:
they are 0, whatever the coefficients and the mean. -/
theorem C172_unread_slopes (e : KExpr d) (θ : GPParams) (xt : Batch m d) (x : Batch n d) (J : Jac n d v) (c : Mat m 1) (mu : ℝ)
    (j : Fin n) (q : Fin v) (hJ : ∀ f, readsFeature e f → J j f q = 0) :
    (predictOl θ e.obj xt x J c mu).2 (flat j q) 0 = 0 := by
  have k1 := (kernel_unread_derivs e θ.kernelParams xt x (fun _ _ _ => 0 : Jac m d 0) J j q hJ).1
  simp only [predictOl, Matrix.of_apply, Matrix.mul_apply, k1, mul_zero, Finset.sum_const_zero]

/-- **C172**, training derivatives along a direction that moves only features the kernel does not read: with a mean that does not depend
on them, the values recorded there have no effect on any prediction. -/
theorem C172_unread_targets (ex : la.Exact) (e : KExpr d) (θ : GPParams) (h : DerivSmooth e θ.kernelParams) (xt : Batch m d)
    (Jt : Jac m d w) (y y' : Mat m w) (x : Batch n d) (J : Jac n d v)
    (hy : ∀ i u, y i u = y' i u ∨ ∀ f, readsFeature e f → Jt i f u = 0) :
    predictDerivsDense θ e.obj xt Jt x J (fitDerivsDense la θ e.obj zeroMean xt Jt y).1 (fitDerivsDense la θ e.obj zeroMean xt Jt y).2 =
      predictDerivsDense θ e.obj xt Jt x J (fitDerivsDense la θ e.obj zeroMean xt Jt y').1 (fitDerivsDense la θ e.obj zeroMean xt Jt y').2 ∧
    predictYDerivsDense θ e.obj xt Jt x (fitDerivsDense la θ e.obj zeroMean xt Jt y).1 (fitDerivsDense la θ e.obj zeroMean xt Jt y).2 =
      predictYDerivsDense θ e.obj xt Jt x (fitDerivsDense la θ e.obj zeroMean xt Jt y').1
        (fitDerivsDense la θ e.obj zeroMean xt Jt y').2 := by
  have hn := noise_pos θ
  have hs := C21_symmetric e θ.kernelParams
  have f1 := fit_derivs_column ex e θ h zeroMean xt Jt y
  have f2 := fit_derivs_column ex e θ h zeroMean xt Jt y'
  have m1 : (fitDerivsDense la θ e.obj zeroMean xt Jt y).2 = (fitDerivsDense la θ e.obj zeroMean xt Jt y').2 := rfl
  generalize hc : (fitDerivsDense la θ e.obj zeroMean xt Jt y).1 = c at f1 ⊢
  generalize hc' : (fitDerivsDense la θ e.obj zeroMean xt Jt y').1 = c' at f2 ⊢
  generalize (fitDerivsDense la θ e.obj zeroMean xt Jt y').2 = mu at m1 ⊢
  rw [m1]
  have e0 : ∀ l : Fin (m * w), y l.divNat l.modNat - y' l.divNat l.modNat = 0 ∨ ∀ f, readsFeature e f → Jt l.divNat f l.modNat = 0 :=
    fun l => (hy l.divNat l.modNat).imp_left fun q => by rw [q, sub_self]
  have kc : ∀ {n' v' : ℕ} (x' : Batch n' d) (J' : Jac n' d v') (r : Fin (n' * v')) (l : Fin (m * w)),
      e.obj.d01kj θ.kernelParams xt x' Jt J' l r * (y l.divNat l.modNat - y' l.divNat l.modNat) = 0 := fun x' J' r l => by
    rcases e0 l with q | q
    · rw [q, mul_zero]
    · have := (kernel_unread_derivs e θ.kernelParams x' xt J' Jt l.divNat l.modNat q).2 r.divNat r.modNat
      rw [flat_eta, flat_eta] at this
      rw [hs.d01kj, this, zero_mul]
  have kd : ∀ (r : Fin n) (l : Fin (m * w)),
      e.obj.d0kj θ.kernelParams xt x Jt l r * (y l.divNat l.modNat - y' l.divNat l.modNat) = 0 := fun r l => by
    rcases e0 l with q | q
    · rw [q, mul_zero]
    · have := (kernel_unread_derivs e θ.kernelParams x xt J Jt l.divNat l.modNat q).1 r
      rw [flat_eta] at this
      rw [← hs.d1kj, this, zero_mul]
  -- off the unread directions the coefficients agree, and along them they differ by the difference of the targets over the noise
  have key : ∀ l, c l 0 - c' l 0 = (y l.divNat l.modNat - y' l.divNat l.modNat) / θ.noise := by
    have hp : (aDerivsLhsNoise θ e.obj xt Jt xt Jt).PosDef :=
      (posterior_blocks (noise_pos θ) (C65_two_datasets_partial e _ h xt Jt x J)).1
    have hz : (aDerivsLhsNoise θ e.obj xt Jt xt Jt).mulVec
        (fun l => c l 0 - c' l 0 - (y l.divNat l.modNat - y' l.divNat l.modNat) / θ.noise) = 0 := by
      funext i
      have hA : aDerivsLhsNoise θ e.obj xt Jt xt Jt = Matrix.of (e.obj.d01kj θ.kernelParams xt xt Jt Jt) + θ.noise • 1 := rfl
      rw [hA, Matrix.add_mulVec, Matrix.smul_mulVec, Matrix.one_mulVec]
      simp only [Pi.add_apply, Pi.smul_apply, smul_eq_mul, Pi.zero_apply, Matrix.mulVec, dotProduct, Matrix.of_apply]
      have h1 : ∑ l, e.obj.d01kj θ.kernelParams xt xt Jt Jt i l *
            (c l 0 - c' l 0 - (y l.divNat l.modNat - y' l.divNat l.modNat) / θ.noise) =
          (∑ l, e.obj.d01kj θ.kernelParams xt xt Jt Jt i l * c l 0) - ∑ l, e.obj.d01kj θ.kernelParams xt xt Jt Jt i l * c' l 0 := by
        rw [← Finset.sum_sub_distrib]
        refine Finset.sum_congr rfl fun l _ => ?_
        have := kc xt Jt i l
        rw [hs.d01kj] at this
        rw [mul_sub, mul_sub, ← mul_div_assoc, this, zero_div, sub_zero]
      rw [h1]
      have g1 := f1 i
      have g2 := f2 i
      have : θ.noise * ((y i.divNat i.modNat - y' i.divNat i.modNat) / θ.noise) = y i.divNat i.modNat - y' i.divNat i.modNat := by
        field_simp
      simp only [zeroMean] at g1 g2
      linarith
    have hinj := Matrix.mulVec_injective_of_isUnit hp.isUnit
    have := hinj (hz.trans (Matrix.mulVec_zero _).symm)
    intro l
    have := congrFun this l
    simp only [Pi.zero_apply] at this
    linarith
  refine ⟨?_, ?_⟩
  · funext j q
    have h1 := predict_derivs_sub e θ xt Jt x J c mu j q
    have h2 := predict_derivs_sub e θ xt Jt x J c' mu j q
    have : (∑ l, e.obj.d01kj θ.kernelParams xt x Jt J l (flat j q) * c l 0) -
        ∑ l, e.obj.d01kj θ.kernelParams xt x Jt J l (flat j q) * c' l 0 = 0 := by
      rw [← Finset.sum_sub_distrib]
      exact Finset.sum_eq_zero fun l _ => by rw [← mul_sub, key, ← mul_div_assoc, kc, zero_div]
    linarith
  · funext j a
    have ha : a = 0 := Subsingleton.elim _ _
    subst ha
    simp only [predictYDerivsDense, addScalar, Matrix.of_apply, Matrix.mul_apply, Matrix.transpose_apply]
    congr 1
    rw [← sub_eq_zero, ← Finset.sum_sub_distrib]
    exact Finset.sum_eq_zero fun l _ => by rw [← mul_sub, key, ← mul_div_assoc, kd, zero_div]

/-- Non-vacuity: a model of three features whose kernel reads the first only, trained on the derivatives along the first and the second:
the recorded derivatives along the second differ, and the derivative along the third is predicted. -/
example : let e : KExpr 3 := .squaredExponential (some ⟨1, ![0]⟩)
    let Jt : Jac 1 3 2 := fun _ f u => if f.val = u.val then 1 else 0
    let J : Jac 1 3 1 := fun _ f _ => if f = 2 then 1 else 0
    DerivSmooth e (fun _ => 1) ∧ (∀ f, readsFeature e f → J 0 f 0 = 0) ∧
    (∀ i u, (!![4, 1] : Mat 1 2) i u = (!![4, -7] : Mat 1 2) i u ∨ ∀ f, readsFeature e f → Jt i f u = 0) ∧
    ¬ ∀ f, readsFeature e f → Jt 0 f 0 = 0 := by
  have hr : ∀ f, readsFeature (.squaredExponential (some ⟨1, ![0]⟩) : KExpr 3) f ↔ f = 0 := fun f => by
    constructor
    · rintro ⟨b, hb⟩
      exact hb.symm.trans ((by decide : ∀ b : Fin 1, (![0] : Fin 1 → Fin 3) b = 0) b)
    · rintro rfl
      exact ⟨(0 : Fin 1), rfl⟩
  intro e Jt J
  refine ⟨.squaredExponential (by simp [KPar.val]), fun f hf => ?_, fun i u => ?_, fun hf => ?_⟩
  · rw [(hr f).1 hf]; rfl
  · fin_cases i
    fin_cases u
    · left; simp
    · right
      intro f hf
      rw [(hr f).1 hf]; simp [Jt]
  · have := hf 0 ((hr 0).2 rfl)
    simp [Jt] at this

end GPX.Props
