import Verif.Spec.WorstCase
import Verif.Lemmas.WorstCase
import Verif.Props.DerivModels

/-!
# C164: the predicted variance is the worst-case error

`Spec.combo`, `Spec.comboNorm` (Spec/WorstCase.lean): the functions `f = Σ_l w_l k(z_l, ·)` made of kernels at any finite set of points, and
their squared norms. No probability is involved: the claims are about every such function.
-/

namespace GPX.Props
open GPX GPX.Spec Matrix

variable {d m n o c u v v' w w' : ℕ} {la : LinAlg}

/-- From a bound and its attainment to the exact range of values. -/
theorem range_iff {F : Type} (g Φ : F → ℝ) {P Q W R : ℝ} (hW : 0 ≤ W) (hR : Q ≤ R)
    (h1 : ∀ f, (g f - P) ^ 2 ≤ (Φ f - Q) * W) (h2 : ∀ τ : ℝ, ∃ f, g f - P = τ * W ∧ Φ f - Q = τ ^ 2 * W) (t : ℝ) :
    (∃ f, Φ f ≤ R ∧ g f = t) ↔ (t - P) ^ 2 ≤ (R - Q) * W := by
  constructor
  · rintro ⟨f, hf, rfl⟩
    exact (h1 f).trans (mul_le_mul_of_nonneg_right (by linarith) hW)
  · intro h
    rcases hW.eq_or_lt with h0 | h0
    · obtain ⟨f, hf1, hf2⟩ := h2 0
      rw [← h0, mul_zero] at h hf1 hf2
      have : t - P = 0 := pow_eq_zero_iff two_ne_zero |>.1 (le_antisymm h (sq_nonneg _))
      exact ⟨f, by linarith, by linarith⟩
    · obtain ⟨f, hf1, hf2⟩ := h2 ((t - P) / W)
      rw [div_mul_cancel₀ _ h0.ne'] at hf1
      refine ⟨f, ?_, by linarith⟩
      have : ((t - P) / W) ^ 2 * W = (t - P) ^ 2 / W := by field_simp
      rw [this] at hf2
      have : (t - P) ^ 2 / W ≤ R - Q := by rwa [div_le_iff₀ h0]
      linarith

/-! ## Models trained on values -/

/-- **C164.** Whatever the targets, and whatever function `f` of the kernel's space is compared with: the square of the difference between
`mu + f(x)` and the prediction at `x` is at most the predicted variance times
`‖f‖² + Σ (y_i - mu - f(x_i))² / (sigma² + 1e-10) - Σ c_i (y_i - mu)`. -/
theorem C164_worst_case (ex : la.Exact) (e : KExpr d) (θ : GPParams) (h : Admissible e θ.kernelParams) (mf : MeanFun)
    (xt : Batch m d) (y : Mat m o) (x : Batch n d) (j : Fin n) (a : Fin o) (z : Batch c d) (w : Fin c → ℝ) :
    let fit := fitDense la θ e.obj mf xt y
    (mf y + combo e.obj θ.kernelParams z w x j - predictDense θ e.obj xt x fit.1 fit.2 j a) ^ 2 ≤
      (comboNorm e.obj θ.kernelParams z w +
        (∑ i, (y i a - (mf y + combo e.obj θ.kernelParams z w xt i)) ^ 2 / (θ.sigma ^ 2 + 1 / 10 ^ 10)) -
        ∑ i, fit.1 i a * (y i a - mf y)) * predictDenseCov la θ e.obj xt x j j := by
  intro fit
  obtain ⟨L, hL, hk⟩ := e.psd θ.kernelParams h
  obtain ⟨-, β, hβ, -⟩ := C120_best_linear ex e θ h xt x j
  have key := worst_case hL xt (x j) (s := fun _ => θ.noise) (fun _ => noise_pos θ) (fun i => fit.1 i a) (fun i => y i a - mf y)
    (fun i => by rw [← fit_column ex e θ h mf xt y a i]; simp only [Matrix.of_apply, hk]; rfl) z w β
  have e1 : predictDense θ e.obj xt x fit.1 fit.2 j a - mf y = _ := predict_sub_mu e θ xt x fit.1 fit.2 j a
  rw [← hβ]
  simp only [hk, noise_val, Matrix.of_apply, combo, comboNorm, sub_add_eq_sub_sub] at key e1 ⊢
  have e2 : mf y + ∑ l, w l * L (z l) (x j) - predictDense θ e.obj xt x fit.1 fit.2 j a =
      ∑ l, w l * L (z l) (x j) - ∑ i, L (xt i) (x j) * fit.1 i a := by rw [← e1]; ring
  rw [e2]
  exact key

/-- Every value of the range is taken: the functions that attain the bound of `C164_worst_case` have the training inputs and `x` as
centres. -/
theorem C164_attained (ex : la.Exact) (e : KExpr d) (θ : GPParams) (h : Admissible e θ.kernelParams) (mf : MeanFun)
    (xt : Batch m d) (y : Mat m o) (x : Batch n d) (j : Fin n) (a : Fin o) (τ : ℝ) :
    let fit := fitDense la θ e.obj mf xt y
    ∃ (z : Batch (m + 1) d) (w : Fin (m + 1) → ℝ),
      mf y + combo e.obj θ.kernelParams z w x j - predictDense θ e.obj xt x fit.1 fit.2 j a =
        τ * predictDenseCov la θ e.obj xt x j j ∧
      comboNorm e.obj θ.kernelParams z w +
        (∑ i, (y i a - (mf y + combo e.obj θ.kernelParams z w xt i)) ^ 2 / (θ.sigma ^ 2 + 1 / 10 ^ 10)) -
        ∑ i, fit.1 i a * (y i a - mf y) = τ ^ 2 * predictDenseCov la θ e.obj xt x j j := by
  intro fit
  obtain ⟨L, hL, hk⟩ := e.psd θ.kernelParams h
  obtain ⟨hmin, β, hβ, -⟩ := C120_best_linear ex e θ h xt x j
  obtain ⟨α, hα⟩ := weights_exist hL xt (x j) (s := fun _ => θ.noise) (fun _ => noise_pos θ)
  have hbest := weights_best hL xt (x j) (s := fun _ => θ.noise) (fun _ => noise_pos θ) α β hα
  have hmin := hmin α
  obtain ⟨k1, k2⟩ := worst_case_attained hL xt (x j) (s := fun _ => θ.noise) (fun _ => noise_pos θ) (fun i => fit.1 i a)
    (fun i => y i a - mf y) (fun i => by rw [← fit_column ex e θ h mf xt y a i]; simp only [Matrix.of_apply, hk]; rfl) α hα τ
  simp only [hk] at hβ hmin
  have hW : predictDenseCov la θ e.obj xt x j j = _ := le_antisymm hmin (hβ ▸ hbest)
  have e1 : predictDense θ e.obj xt x fit.1 fit.2 j a - mf y = _ := predict_sub_mu e θ xt x fit.1 fit.2 j a
  let E : Fin m ⊕ Unit ≃ Fin (m + 1) := (Equiv.sumCongr (Equiv.refl _) (Equiv.equivPUnit (Fin 1)).symm).trans finSumFinEquiv
  refine ⟨fun l => Sum.elim xt (fun _ => x j) (E.symm l), fun l => Sum.elim (fun i => fit.1 i a - τ * α i) (fun _ => τ) (E.symm l), ?_, ?_⟩
  · rw [hW]
    simp only [noise_val] at k1
    rw [← k1]
    simp only [combo, hk, Matrix.of_apply] at e1 ⊢
    rw [Equiv.sum_comp E.symm (fun l => (Sum.elim (fun i => fit.1 i a - τ * α i) (fun _ => τ) l : ℝ) *
      L (Sum.elim xt (fun _ => x j) l) (x j)), ← e1]
    ring
  · rw [hW]
    simp only [noise_val] at k2
    rw [← k2]
    simp only [combo, comboNorm, hk, sub_add_eq_sub_sub]
    congr 2
    · rw [← Equiv.sum_comp E.symm]
      refine Finset.sum_congr rfl fun l _ => ?_
      rw [← Equiv.sum_comp E.symm]
    · refine Finset.sum_congr rfl fun i _ => ?_
      rw [← Equiv.sum_comp E.symm]

/-- **C164.** The values at `x` of the functions of the kernel's space that are compatible with the data, in the sense that
`‖f‖² + Σ (y_i - mu - f(x_i))² / (sigma² + 1e-10) ≤ R`, are exactly those whose distance from the prediction has a square of at most
`(R - Σ c_i (y_i - mu))` times the predicted variance: the prediction is the centre of the range, and the predicted standard deviation
its half-width, up to a factor that is the same for every `x`. -/
theorem C164_range (ex : la.Exact) (e : KExpr d) (θ : GPParams) (h : Admissible e θ.kernelParams) (mf : MeanFun)
    (xt : Batch m d) (y : Mat m o) (x : Batch n d) (j : Fin n) (a : Fin o) (R : ℝ)
    (hR : ∑ i, (fitDense la θ e.obj mf xt y).1 i a * (y i a - mf y) ≤ R) (t : ℝ) :
    let fit := fitDense la θ e.obj mf xt y
    (∃ (c : ℕ) (z : Batch c d) (w : Fin c → ℝ), comboNorm e.obj θ.kernelParams z w +
        (∑ i, (y i a - (mf y + combo e.obj θ.kernelParams z w xt i)) ^ 2 / (θ.sigma ^ 2 + 1 / 10 ^ 10)) ≤ R ∧
        mf y + combo e.obj θ.kernelParams z w x j = t) ↔
      (t - predictDense θ e.obj xt x fit.1 fit.2 j a) ^ 2 ≤
        (R - ∑ i, fit.1 i a * (y i a - mf y)) * predictDenseCov la θ e.obj xt x j j := by
  intro fit
  have hW : 0 ≤ predictDenseCov la θ e.obj xt x j j := by
    obtain ⟨L, hL, hk⟩ := e.psd θ.kernelParams h
    obtain ⟨-, β, hβ, -⟩ := C120_best_linear ex e θ h xt x j
    have h1 := err_nonneg hL xt (x j) β
    have h2 := err_noise (fun i l => L (xt i) (xt l)) (fun _ => θ.noise) β
    have h3 : 0 ≤ ∑ i, θ.noise * β i ^ 2 := Finset.sum_nonneg fun i _ => mul_nonneg (noise_pos θ).le (sq_nonneg _)
    simp only [noise_val] at h2 h3
    simp only [hk] at hβ
    rw [← hβ, h2]
    linarith
  have := range_iff (F := Σ c, Batch c d × (Fin c → ℝ)) (fun f => mf y + combo e.obj θ.kernelParams f.2.1 f.2.2 x j)
    (fun f => comboNorm e.obj θ.kernelParams f.2.1 f.2.2 +
        (∑ i, (y i a - (mf y + combo e.obj θ.kernelParams f.2.1 f.2.2 xt i)) ^ 2 / (θ.sigma ^ 2 + 1 / 10 ^ 10)))
    hW hR (fun f => C164_worst_case ex e θ h mf xt y x j a f.2.1 f.2.2) (fun τ => by
      obtain ⟨z, w, h1, h2⟩ := C164_attained ex e θ h mf xt y x j a τ
      exact ⟨⟨_, z, w⟩, h1, h2⟩) t
  rw [← this]
  exact ⟨fun ⟨c, z, w, h1, h2⟩ => ⟨⟨c, z, w⟩, h1, h2⟩, fun ⟨⟨c, z, w⟩, h1, h2⟩ => ⟨c, z, w, h1, h2⟩⟩

/-- **C164**, targets without noise: when the targets are those of `mu + f`, the prediction at any input misses `mu + f` by at most the norm
of `f` times the predicted standard deviation. -/
theorem C164_exact_data (ex : la.Exact) (e : KExpr d) (θ : GPParams) (h : Admissible e θ.kernelParams) (mf : MeanFun)
    (xt : Batch m d) (y : Mat m o) (x : Batch n d) (j : Fin n) (a : Fin o) (z : Batch c d) (w : Fin c → ℝ)
    (hy : ∀ i, y i a = mf y + combo e.obj θ.kernelParams z w xt i) :
    let fit := fitDense la θ e.obj mf xt y
    |mf y + combo e.obj θ.kernelParams z w x j - predictDense θ e.obj xt x fit.1 fit.2 j a| ≤
      Real.sqrt (comboNorm e.obj θ.kernelParams z w) * Real.sqrt (predictDenseCov la θ e.obj xt x j j) := by
  intro fit
  obtain ⟨L, hL, hk⟩ := e.psd θ.kernelParams h
  have key := C164_worst_case ex e θ h mf xt y x j a z w
  have hN : 0 ≤ comboNorm e.obj θ.kernelParams z w := by
    have := (hL.gram z).dotProduct_mulVec_nonneg w
    simp only [star_trivial, dotProduct, Matrix.mulVec, Matrix.of_apply, Finset.mul_sum, ← mul_assoc] at this
    simp only [comboNorm, hk]
    exact this
  have hW : 0 ≤ predictDenseCov la θ e.obj xt x j j := by
    obtain ⟨hmin, β, hβ, -⟩ := C120_best_linear ex e θ h xt x j
    have h1 := err_nonneg hL xt (x j) β
    have h2 := err_noise (fun i l => L (xt i) (xt l)) (fun _ => θ.noise) β
    have h3 : 0 ≤ ∑ i, θ.noise * β i ^ 2 := Finset.sum_nonneg fun i _ => mul_nonneg (noise_pos θ).le (sq_nonneg _)
    simp only [noise_val] at h2 h3
    simp only [hk] at hβ
    rw [← hβ, h2]
    linarith
  have hQ : 0 ≤ ∑ i, fit.1 i a * (y i a - mf y) := by
    have h1 : ∀ i, y i a - mf y = (∑ l, L (xt i) (xt l) * fit.1 l a) + θ.noise * fit.1 i a := fun i => by
      rw [← fit_column ex e θ h mf xt y a i]; simp only [Matrix.of_apply, hk]; rfl
    have h2 := (hL.gram xt).dotProduct_mulVec_nonneg (fun i => fit.1 i a)
    simp only [star_trivial, dotProduct, Matrix.mulVec, Matrix.of_apply] at h2
    have h3 : 0 ≤ ∑ i, θ.noise * fit.1 i a ^ 2 := Finset.sum_nonneg fun i _ => mul_nonneg (noise_pos θ).le (sq_nonneg _)
    have h4 : ∑ i, fit.1 i a * (y i a - mf y) =
        ∑ i, fit.1 i a * (∑ l, L (xt i) (xt l) * fit.1 l a) + ∑ i, θ.noise * fit.1 i a ^ 2 := by
      rw [← Finset.sum_add_distrib]
      exact Finset.sum_congr rfl fun i _ => by rw [h1 i]; ring
    rw [h4]
    exact add_nonneg h2 h3
  have h0 : ∑ i, (y i a - (mf y + combo e.obj θ.kernelParams z w xt i)) ^ 2 / (θ.sigma ^ 2 + 1 / 10 ^ 10) = 0 :=
    Finset.sum_eq_zero fun i _ => by rw [hy i]; simp
  rw [← Real.sqrt_mul hN]
  refine Real.abs_le_sqrt (key.trans ?_)
  rw [h0]
  exact mul_le_mul_of_nonneg_right (by linarith) hW

/-! ## Models trained on derivatives -/

/-- The derivative kernel as a kernel on samples with directions, for flattened positions. -/
theorem derivPSD_flat (e : KExpr d) (p : KPar) (h : DerivSmooth e p) :
    ∃ E : (Fin d → ℝ) × (Fin d → ℝ) → (Fin d → ℝ) × (Fin d → ℝ) → ℝ, PSDK E ∧
      ∀ {n m v w : ℕ} (x1 : Batch n d) (x2 : Batch m d) (J1 : Jac n d v) (J2 : Jac m d w) (a : Fin (n * v)) (b : Fin (m * w)),
        e.obj.d01kj p x1 x2 J1 J2 a b =
          E (x1 a.divNat, fun f => J1 a.divNat f a.modNat) (x2 b.divNat, fun f => J2 b.divNat f b.modNat) := by
  obtain ⟨E, hE, hk⟩ := derivPSD_expr e p h
  refine ⟨E, hE, fun x1 x2 J1 J2 a b => ?_⟩
  have := hk x1 x2 J1 J2 a.divNat a.modNat b.divNat b.modNat
  rwa [flat_eta, flat_eta] at this

/-- The system solved by a fit on derivatives. -/
theorem fit_derivs_column (ex : la.Exact) (e : KExpr d) (θ : GPParams) (h : DerivSmooth e θ.kernelParams) (mf : MeanFun)
    (xt : Batch m d) (Jt : Jac m d w) (y : Mat m w) (i : Fin (m * w)) :
    (∑ l, e.obj.d01kj θ.kernelParams xt xt Jt Jt i l * (fitDerivsDense la θ e.obj mf xt Jt y).1 l 0) +
      θ.noise * (fitDerivsDense la θ e.obj mf xt Jt y).1 i 0 = y i.divNat i.modNat - mf (flatCol y) := by
  have h1 := congrFun (congrFun (fit_derivs_solves ex e θ h mf xt Jt y).2 i) 0
  have h2 : aDerivsLhsNoise θ e.obj xt Jt xt Jt = Matrix.of (e.obj.d01kj θ.kernelParams xt xt Jt Jt) + θ.noise • 1 := rfl
  rw [h2, Matrix.add_mul, Matrix.add_apply, Matrix.smul_mul, Matrix.one_mul, Matrix.smul_apply, smul_eq_mul, Matrix.mul_apply] at h1
  exact h1

theorem predict_derivs_sub (e : KExpr d) (θ : GPParams) (xt : Batch m d) (Jt : Jac m d w) (x : Batch n d) (J : Jac n d v)
    (cf : Mat (m * w) 1) (mu : ℝ) (j : Fin n) (q : Fin v) :
    predictDerivsDense θ e.obj xt Jt x J cf mu j q - mu = ∑ l, e.obj.d01kj θ.kernelParams xt x Jt J l (flat j q) * cf l 0 := by
  have : predictDerivsDense θ e.obj xt Jt x J cf mu j q =
      mu + ((aDerivsLhs θ e.obj xt Jt x J).transpose * cf) (flat j q) 0 := by
    simp only [predictDerivsDense, unflatCol, Matrix.of_apply, prod_flat]
    rfl
  rw [this, Matrix.mul_apply, add_sub_cancel_left]
  rfl

/-- **C164** for models trained on derivatives: `Spec.fieldDeriv` are the derivatives of combinations of first derivatives of the
kernel, `Spec.fieldNorm` their squared norms. -/
theorem C164_worst_case_derivs (ex : la.Exact) (e : KExpr d) (θ : GPParams) (h : DerivSmooth e θ.kernelParams) (mf : MeanFun)
    (xt : Batch m d) (Jt : Jac m d w) (y : Mat m w) (x : Batch n d) (J : Jac n d v) (j : Fin n) (q : Fin v) (z : Batch c d)
    (Jz : Jac c d u) (b : Fin (c * u) → ℝ) :
    let fit := fitDerivsDense la θ e.obj mf xt Jt y
    let mu := mf (flatCol y)
    (mu + fieldDeriv e.obj θ.kernelParams z Jz b x J j q - predictDerivsDense θ e.obj xt Jt x J fit.1 fit.2 j q) ^ 2 ≤
      (fieldNorm e.obj θ.kernelParams z Jz b +
        (∑ i, ∑ r, (y i r - (mu + fieldDeriv e.obj θ.kernelParams z Jz b xt Jt i r)) ^ 2 / (θ.sigma ^ 2 + 1 / 10 ^ 10)) -
        ∑ i, ∑ r, fit.1 (flat i r) 0 * (y i r - mu)) *
        predictDerivsDenseCov la θ e.obj xt Jt x J (flat j q) (flat j q) := by
  intro fit mu
  obtain ⟨E, hE, hk⟩ := derivPSD_flat e θ.kernelParams h
  obtain ⟨-, β, hβ, -⟩ := C120_best_linear_derivs ex e θ h xt Jt x J j q
  have key := worst_case hE (fun a : Fin (m * w) => (xt a.divNat, fun f => Jt a.divNat f a.modNat)) (x j, fun f => J j f q)
    (s := fun _ => θ.noise) (fun _ => noise_pos θ) (fun i => fit.1 i 0) (fun i => y i.divNat i.modNat - mu)
    (fun i => by rw [← fit_derivs_column ex e θ h mf xt Jt y i]; simp only [hk]; rfl)
    (fun a : Fin (c * u) => (z a.divNat, fun f => Jz a.divNat f a.modNat)) b β
  have e1 : predictDerivsDense θ e.obj xt Jt x J fit.1 fit.2 j q - mu = _ := predict_derivs_sub e θ xt Jt x J fit.1 fit.2 j q
  rw [← hβ]
  rw [sum_flat (fun i : Fin (m * w) => fit.1 i 0 * (y i.divNat i.modNat - mu)),
    sum_flat (fun i : Fin (m * w) => (y i.divNat i.modNat - mu - ∑ l, b l * E (z l.divNat, fun f => Jz l.divNat f l.modNat)
      (xt i.divNat, fun f => Jt i.divNat f i.modNat)) ^ 2 / θ.noise)] at key
  simp only [hk, noise_val, fieldDeriv, fieldNorm, sub_add_eq_sub_sub, flat_divNat, flat_modNat] at key e1 ⊢
  have e2 : mu + ∑ l, b l * E (z l.divNat, fun f => Jz l.divNat f l.modNat) (x j, fun f => J j f q) -
      predictDerivsDense θ e.obj xt Jt x J fit.1 fit.2 j q =
      ∑ l, b l * E (z l.divNat, fun f => Jz l.divNat f l.modNat) (x j, fun f => J j f q) -
        ∑ l : Fin (m * w), E (xt l.divNat, fun f => Jt l.divNat f l.modNat) (x j, fun f => J j f q) * fit.1 l 0 := by
    rw [← e1]; ring
  rw [e2]
  exact key

/-- Every value is taken: the fields that attain the bound of `C164_worst_case_derivs` are made of derivatives at the training samples and
the derivative asked for. -/
theorem C164_attained_derivs (ex : la.Exact) (e : KExpr d) (θ : GPParams) (h : DerivSmooth e θ.kernelParams) (mf : MeanFun)
    (xt : Batch m d) (Jt : Jac m d w) (y : Mat m w) (x : Batch n d) (J : Jac n d v) (j : Fin n) (q : Fin v) (τ : ℝ) :
    let fit := fitDerivsDense la θ e.obj mf xt Jt y
    let mu := mf (flatCol y)
    ∃ (z : Batch (m * w + 1) d) (Jz : Jac (m * w + 1) d 1) (b : Fin ((m * w + 1) * 1) → ℝ),
      mu + fieldDeriv e.obj θ.kernelParams z Jz b x J j q - predictDerivsDense θ e.obj xt Jt x J fit.1 fit.2 j q =
        τ * predictDerivsDenseCov la θ e.obj xt Jt x J (flat j q) (flat j q) ∧
      fieldNorm e.obj θ.kernelParams z Jz b +
        (∑ i, ∑ r, (y i r - (mu + fieldDeriv e.obj θ.kernelParams z Jz b xt Jt i r)) ^ 2 / (θ.sigma ^ 2 + 1 / 10 ^ 10)) -
        ∑ i, ∑ r, fit.1 (flat i r) 0 * (y i r - mu) =
        τ ^ 2 * predictDerivsDenseCov la θ e.obj xt Jt x J (flat j q) (flat j q) := by
  intro fit mu
  obtain ⟨E, hE, hk⟩ := derivPSD_flat e θ.kernelParams h
  obtain ⟨hmin, β, hβ, -⟩ := C120_best_linear_derivs ex e θ h xt Jt x J j q
  let T : Fin (m * w) → (Fin d → ℝ) × (Fin d → ℝ) := fun a => (xt a.divNat, fun f => Jt a.divNat f a.modNat)
  obtain ⟨α, hα⟩ := weights_exist hE T (x j, fun f => J j f q) (s := fun _ => θ.noise) (fun _ => noise_pos θ)
  have hbest := weights_best hE T (x j, fun f => J j f q) (s := fun _ => θ.noise) (fun _ => noise_pos θ) α β hα
  have hmin := hmin α
  obtain ⟨k1, k2⟩ := worst_case_attained hE T (x j, fun f => J j f q) (s := fun _ => θ.noise) (fun _ => noise_pos θ)
    (fun i => fit.1 i 0) (fun i => y i.divNat i.modNat - mu)
    (fun i => by rw [← fit_derivs_column ex e θ h mf xt Jt y i]; simp only [hk]; rfl) α hα τ
  simp only [hk, flat_divNat, flat_modNat] at hβ hmin
  have hW : predictDerivsDenseCov la θ e.obj xt Jt x J (flat j q) (flat j q) = _ := le_antisymm hmin (hβ ▸ hbest)
  have e1 : predictDerivsDense θ e.obj xt Jt x J fit.1 fit.2 j q - mu = _ := predict_derivs_sub e θ xt Jt x J fit.1 fit.2 j q
  let S : Fin (m * w) ⊕ Unit ≃ Fin (m * w + 1) :=
    (Equiv.sumCongr (Equiv.refl _) (Equiv.equivPUnit (Fin 1)).symm).trans finSumFinEquiv
  let D : Fin ((m * w + 1) * 1) ≃ Fin (m * w) ⊕ Unit := (finCongr (Nat.mul_one _)).trans S.symm
  let Z : Fin (m * w) ⊕ Unit → (Fin d → ℝ) × (Fin d → ℝ) := Sum.elim T fun _ => (x j, fun f => J j f q)
  let B : Fin (m * w) ⊕ Unit → ℝ := Sum.elim (fun i => fit.1 i 0 - τ * α i) fun _ => τ
  have hD : ∀ l : Fin ((m * w + 1) * 1), S.symm l.divNat = D l := fun l => by
    change _ = S.symm _
    congr 1
    apply Fin.ext
    simp [Fin.divNat]
  have ht : ∀ (t : (Fin d → ℝ) × (Fin d → ℝ)), ∑ l : Fin ((m * w + 1) * 1), B (D l) * E (Z (D l)) t = ∑ l, B l * E (Z l) t :=
    fun t => Equiv.sum_comp D fun l => B l * E (Z l) t
  have hf : ∀ {k r : ℕ} (x' : Batch k d) (J' : Jac k d r) i s, fieldDeriv e.obj θ.kernelParams (fun l => (Z (S.symm l)).1)
      (fun l f _ => (Z (S.symm l)).2 f) (fun l => B (D l)) x' J' i s = ∑ l, B l * E (Z l) (x' i, fun f => J' i f s) := by
    intro k r x' J' i s
    simp only [fieldDeriv, hk, flat_divNat, flat_modNat, hD]
    exact ht _
  refine ⟨fun l => (Z (S.symm l)).1, fun l f _ => (Z (S.symm l)).2 f, fun l => B (D l), ?_, ?_⟩
  · rw [hW]
    simp only [noise_val] at k1
    rw [← k1, hf]
    simp only [hk, flat_divNat, flat_modNat] at e1
    have : mu + ∑ l, B l * E (Z l) (x j, fun f => J j f q) - predictDerivsDense θ e.obj xt Jt x J fit.1 fit.2 j q =
        ∑ l, B l * E (Z l) (x j, fun f => J j f q) - ∑ a, E (T a) (x j, fun f => J j f q) * fit.1 a 0 := by
      rw [← e1]; ring
    exact this
  · rw [hW]
    rw [sum_flat (fun i : Fin (m * w) => fit.1 i 0 * (y i.divNat i.modNat - mu)),
      sum_flat (fun i : Fin (m * w) => (y i.divNat i.modNat - mu - ∑ l, B l * E (Z l) (T i)) ^ 2 / θ.noise)] at k2
    simp only [noise_val] at k2
    rw [← k2]
    have hn : fieldNorm e.obj θ.kernelParams (fun l => (Z (S.symm l)).1) (fun l f _ => (Z (S.symm l)).2 f) (fun l => B (D l)) =
        ∑ l, ∑ l', B l * E (Z l) (Z l') * B l' := by
      simp only [fieldNorm, hk, hD]
      rw [← Equiv.sum_comp D fun l => ∑ l', B l * E (Z l) (Z l') * B l']
      refine Finset.sum_congr rfl fun l _ => ?_
      exact Equiv.sum_comp D fun l' => B (D l) * E (Z (D l)) (Z l') * B l'
    rw [hn]
    simp only [hf, sub_add_eq_sub_sub, T, flat_divNat, flat_modNat]
    rfl

/-- **C164** for models trained on derivatives, the exact range of the derivative at `x`. -/
theorem C164_range_derivs (ex : la.Exact) (e : KExpr d) (θ : GPParams) (h : DerivSmooth e θ.kernelParams) (mf : MeanFun)
    (xt : Batch m d) (Jt : Jac m d w) (y : Mat m w) (x : Batch n d) (J : Jac n d v) (j : Fin n) (q : Fin v) (R : ℝ)
    (hR : ∑ i, ∑ r, (fitDerivsDense la θ e.obj mf xt Jt y).1 (flat i r) 0 * (y i r - mf (flatCol y)) ≤ R) (t : ℝ) :
    let fit := fitDerivsDense la θ e.obj mf xt Jt y
    let mu := mf (flatCol y)
    (∃ (c u : ℕ) (z : Batch c d) (Jz : Jac c d u) (b : Fin (c * u) → ℝ), fieldNorm e.obj θ.kernelParams z Jz b +
        (∑ i, ∑ r, (y i r - (mu + fieldDeriv e.obj θ.kernelParams z Jz b xt Jt i r)) ^ 2 / (θ.sigma ^ 2 + 1 / 10 ^ 10)) ≤ R ∧
        mu + fieldDeriv e.obj θ.kernelParams z Jz b x J j q = t) ↔
      (t - predictDerivsDense θ e.obj xt Jt x J fit.1 fit.2 j q) ^ 2 ≤
        (R - ∑ i, ∑ r, fit.1 (flat i r) 0 * (y i r - mu)) *
        predictDerivsDenseCov la θ e.obj xt Jt x J (flat j q) (flat j q) := by
  intro fit mu
  have hW : 0 ≤ predictDerivsDenseCov la θ e.obj xt Jt x J (flat j q) (flat j q) := by
    obtain ⟨E, hE, hk⟩ := derivPSD_flat e θ.kernelParams h
    obtain ⟨-, β, hβ, -⟩ := C120_best_linear_derivs ex e θ h xt Jt x J j q
    have h1 := err_nonneg hE (fun a : Fin (m * w) => (xt a.divNat, fun f => Jt a.divNat f a.modNat)) (x j, fun f => J j f q) β
    have h2 := err_noise (fun i l : Fin (m * w) => E (xt i.divNat, fun f => Jt i.divNat f i.modNat)
      (xt l.divNat, fun f => Jt l.divNat f l.modNat)) (fun _ => θ.noise) β
    have h3 : 0 ≤ ∑ i, θ.noise * β i ^ 2 := Finset.sum_nonneg fun i _ => mul_nonneg (noise_pos θ).le (sq_nonneg _)
    simp only [noise_val] at h2 h3
    simp only [hk, flat_divNat, flat_modNat] at hβ
    rw [← hβ, h2]
    linarith
  have := range_iff (F := Σ c, Σ u, Batch c d × Jac c d u × (Fin (c * u) → ℝ))
    (fun f => mu + fieldDeriv e.obj θ.kernelParams f.2.2.1 f.2.2.2.1 f.2.2.2.2 x J j q)
    (fun f => fieldNorm e.obj θ.kernelParams f.2.2.1 f.2.2.2.1 f.2.2.2.2 +
        (∑ i, ∑ r, (y i r - (mu + fieldDeriv e.obj θ.kernelParams f.2.2.1 f.2.2.2.1 f.2.2.2.2 xt Jt i r)) ^ 2 /
          (θ.sigma ^ 2 + 1 / 10 ^ 10)))
    hW hR (fun f => C164_worst_case_derivs ex e θ h mf xt Jt y x J j q f.2.2.1 f.2.2.2.1 f.2.2.2.2) (fun τ => by
      obtain ⟨z, Jz, b, h1, h2⟩ := C164_attained_derivs ex e θ h mf xt Jt y x J j q τ
      exact ⟨⟨_, _, z, Jz, b⟩, h1, h2⟩) t
  rw [← this]
  exact ⟨fun ⟨c, u, z, Jz, b, h1, h2⟩ => ⟨⟨c, u, z, Jz, b⟩, h1, h2⟩,
    fun ⟨⟨c, u, z, Jz, b⟩, h1, h2⟩ => ⟨c, u, z, Jz, b, h1, h2⟩⟩

/-! ## Models trained on values and derivatives -/

theorem jointSmooth_admissible (e : KExpr d) (p : KPar) (h : JointSmooth e p) : Admissible e p := by
  induction e generalizing p with
  | polynomial a b => exact ⟨⟨_, h.1.choose_spec.2⟩, h.2⟩
  | squaredExponential a => exact h.elim
  | matern12 a => exact h.elim
  | matern32 a => exact h.elim
  | sum e1 e2 ih1 ih2 => exact ⟨ih1 _ h.1, ih2 _ h.2⟩
  | prod e1 e2 ih1 ih2 => exact ⟨ih1 _ h.1, ih2 _ h.2⟩
  | _ => exact h

/-- **C164** for GPR_TD with one set of derivatives. Compared with any function `f = Σ w_l k(z_l, ·)`, the predicted values miss
`mu + f` by at most the square root of
`‖f‖² + Σ (y_i - mu - f(x_i))² / (sigma_targets² + 1e-10) + Σ (∂y_iu - ∂f(x_i)_u)² / (sigma_derivs² + 1e-10)`
times the standard deviation that a GPR model reports for the values alone: exact derivatives are never harmful. The predicted
derivatives miss those of `f` by at most the same factor times the prior standard deviation of the derivative. For the kernels of C78. -/
theorem C164_joint (ex : la.Exact) (e : KExpr d) (θ : TDParams) (h : JointSmooth e θ.kernelParams) (mf : MeanFun)
    (xt : Batch m d) (y : Mat m 1) (Jt : Jac m d v) (yd : Mat m v) (x : Batch n d) (J : Jac n d w) (z : Batch c d) (b : Fin c → ℝ) :
    let fit := tdFitDense1 la θ e.obj mf xt y Jt yd
    let pred := tdPredictDense1 θ e.obj xt Jt x J fit.1 fit.2
    let N := comboNorm e.obj θ.kernelParams z b +
      (∑ i, (y i 0 - (mf y + combo e.obj θ.kernelParams z b xt i)) ^ 2 / (θ.sigmaTargets ^ 2 + 1 / 10 ^ 10)) +
      ∑ i, ∑ r, (yd i r - comboDeriv e.obj θ.kernelParams z b xt Jt i r) ^ 2 / (θ.sigmaDerivs ^ 2 + 1 / 10 ^ 10)
    (∀ j, (mf y + combo e.obj θ.kernelParams z b x j - pred.1 j 0) ^ 2 ≤
      N * predictDenseCov la ⟨θ.kernelParams, θ.sigmaTargets⟩ e.obj xt x j j) ∧
    ∀ j t, (comboDeriv e.obj θ.kernelParams z b x J j t - pred.2 j t) ^ 2 ≤
      N * e.obj.d01kj θ.kernelParams x x J J (flat j t) (flat j t) := by
  intro fit pred N
  have hadm : Admissible e θ.kernelParams := jointSmooth_admissible e _ h
  obtain ⟨E, hE, hk, h0, h1, h01⟩ := joint_expr e θ.kernelParams h
  have hK : (Matrix.of (cov1 e.obj θ.kernelParams xt Jt xt Jt)).PosSemidef :=
    (C78_joint_partial e θ.kernelParams h xt Jt Jt).1
  obtain ⟨hm, hs, -⟩ := C76_fit1 ex e.obj θ mf xt y Jt yd (C52_posDef1 e.obj θ xt Jt hK)
  obtain ⟨hp1, hp2, -⟩ := C76_predict1 e θ xt Jt x J fit.1 fit.2
  have hc : ∀ a, (∑ b, cov1 e.obj θ.kernelParams xt Jt xt Jt a b * fit.1 (pos1 b) 0) +
      noise1 θ a * fit.1 (pos1 a) 0 = residual1 (mf y) y yd a := fun a => by
    have := hs a
    simp only [dataCov1, add_mul, ite_mul, zero_mul, Finset.sum_add_distrib, Finset.sum_ite_eq, Finset.mem_univ,
      if_true] at this
    rw [hm] at this
    exact this
  let ob : ∀ {k v : ℕ}, Batch k d → Jac k d v → Obs1 k v → (Fin d → ℝ) × Option (Fin d → ℝ) := fun x J q => match q with
    | .inl i => (x i, none)
    | .inr (i, u) => (x i, some fun f => J i f u)
  have hcov : ∀ {k l v w : ℕ} (x1 : Batch k d) (J1 : Jac k d v) (x2 : Batch l d) (J2 : Jac l d w) a b,
      cov1 e.obj θ.kernelParams x1 J1 x2 J2 a b = E (ob x1 J1 a) (ob x2 J2 b) := by
    intro k l v w x1 J1 x2 J2 a b
    rcases a with i | ⟨i, r⟩ <;> rcases b with j | ⟨j, t⟩
    · exact hk _ _ _ _
    · exact h1 _ _ _ _ _ _
    · exact h0 _ _ _ _ _ _
    · exact h01 _ _ _ _ _ _ _ _
  have key := fun (q : Obs1 n w) (β : Obs1 m v → ℝ) => worst_case hE (ob xt Jt) (ob x J q) (noise1_pos θ) (fun a => fit.1 (pos1 a) 0)
    (residual1 (mf y) y yd) (fun a => by rw [← hc a]; simp only [hcov]) (fun l => (z l, none)) b β
  have hQ : 0 ≤ ∑ a, fit.1 (pos1 a) 0 * residual1 (mf y) y yd a := by
    have a1 := (hE.gram (ob xt Jt)).dotProduct_mulVec_nonneg (fun a => fit.1 (pos1 a) 0)
    simp only [star_trivial, dotProduct, Matrix.mulVec, Matrix.of_apply] at a1
    have a2 : 0 ≤ ∑ a, noise1 θ a * fit.1 (pos1 a) 0 ^ 2 :=
      Finset.sum_nonneg fun a _ => mul_nonneg (noise1_pos θ a).le (sq_nonneg _)
    have a3 : ∑ a, fit.1 (pos1 a) 0 * residual1 (mf y) y yd a = ∑ a, fit.1 (pos1 a) 0 *
        (∑ b, E (ob xt Jt a) (ob xt Jt b) * fit.1 (pos1 b) 0) + ∑ a, noise1 θ a * fit.1 (pos1 a) 0 ^ 2 := by
      rw [← Finset.sum_add_distrib]
      exact Finset.sum_congr rfl fun a _ => by rw [← hc a]; simp only [hcov]; ring
    rw [a3]
    exact add_nonneg a1 a2
  have hN : (∑ l, ∑ l', b l * E (z l, none) (z l', none) * b l') +
      ∑ a, (residual1 (mf y) y yd a - ∑ l, b l * E (z l, none) (ob xt Jt a)) ^ 2 / noise1 θ a = N := by
    simp only [Fintype.sum_sum_type, Fintype.sum_prod_type, residual1, noise1, N, comboNorm, combo, comboDeriv, hk, h1,
      sub_add_eq_sub_sub, ob]
    ring
  have bound : ∀ (q : Obs1 n w) (β : Obs1 m v → ℝ),
      (∑ l, b l * E (z l, none) (ob x J q) - ∑ a, E (ob xt Jt a) (ob x J q) * fit.1 (pos1 a) 0) ^ 2 ≤
      N * (E (ob x J q) (ob x J q) - 2 * (∑ a, β a * E (ob xt Jt a) (ob x J q)) +
        ∑ a, ∑ b, β a * (E (ob xt Jt a) (ob xt Jt b) + if a = b then noise1 θ a else 0) * β b) := fun q β => by
    refine (key q β).trans ?_
    rw [hN]
    refine mul_le_mul_of_nonneg_right (by linarith) ?_
    rw [err_noise (fun a b => E (ob xt Jt a) (ob xt Jt b)), ← add_assoc]
    exact add_nonneg (err_nonneg hE _ _ β) (Finset.sum_nonneg fun a _ => mul_nonneg (noise1_pos θ a).le (sq_nonneg _))
  refine ⟨fun j => ?_, fun j t => ?_⟩
  · obtain ⟨-, α, hα, -⟩ := C120_best_linear ex e ⟨θ.kernelParams, θ.sigmaTargets⟩ hadm xt x j
    have hb := bound (.inl j) (Sum.elim α fun _ => 0)
    rw [← hα]
    have e1 : pred.1 j 0 - mf y = _ := sub_eq_of_eq_add' (hp1 j)
    simp only [hcov] at e1
    have e2 : mf y + combo e.obj θ.kernelParams z b x j - pred.1 j 0 =
        ∑ l, b l * E (z l, none) (ob x J (.inl j)) - ∑ a, E (ob xt Jt a) (ob x J (.inl j)) * fit.1 (pos1 a) 0 := by
      rw [← e1]; simp only [combo, hk, ob]; ring
    rw [e2]
    refine hb.trans_eq ?_
    congr 1
    simp only [Fintype.sum_sum_type, Sum.elim_inl, Sum.elim_inr, zero_mul, mul_zero, Finset.sum_const_zero, add_zero, hk, ob,
      noise1, Sum.inl.injEq]
  · have hb := bound (.inr (j, t)) 0
    simp only [Pi.zero_apply, zero_mul, mul_zero, Finset.sum_const_zero, add_zero, sub_zero] at hb
    have e1 : pred.2 j t = _ := hp2 j t
    simp only [hcov] at e1
    rw [e1, h01]
    simp only [comboDeriv, h1]
    exact hb

/-- Non-vacuity: targets of a function made of two kernels. -/
example : let e : KExpr 1 := .matern52 none
    let θ : GPParams := ⟨fun _ => 2, 1⟩
    let z : Batch 2 1 := fun l _ => l.val
    let xt : Batch 3 1 := fun i _ => 2 * i.val
    let y : Mat 3 1 := fun i _ => combo e.obj θ.kernelParams z (fun _ => 1) xt i
    Admissible e θ.kernelParams ∧ (∀ i, y i 0 = zeroMean y + combo e.obj θ.kernelParams z (fun _ => 1) xt i) ∧
    ∃ R, ∑ i, (fitDense LinAlg.ideal θ e.obj zeroMean xt y).1 i 0 * (y i 0 - zeroMean y) ≤ R :=
  ⟨by norm_num [Admissible, KPar.val], fun i => by simp [zeroMean], _, le_rfl⟩

end GPX.Props
