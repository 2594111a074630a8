import Verif.Props.WorstCase
import Verif.Props.SGPR
import Verif.Props.Interactions

/-!
# C173: targets that are values of a function of the kernel's space are reproduced
-/

namespace GPX.Props
open GPX GPX.Spec Matrix

variable {d m n o c u v : ℕ} {la : LinAlg}

/-- The regularised fit of the values of a function of the kernel's space is no larger than the function and close to it. -/
theorem fit_of_values {X I C : Type} [Fintype I] [DecidableEq I] [Fintype C] [DecidableEq C] {K : X → X → ℝ} (hK : PSDK K) (t : I → X)
    (z : C → X) (w : C → ℝ) (a : I → ℝ) {s : ℝ} (hs : 0 < s)
    (ha : ∀ i, (∑ l, K (t i) (t l) * a l) + s * a i = ∑ l, w l * K (z l) (t i)) :
    ∑ i, ∑ l, a i * K (t i) (t l) * a l ≤ ∑ l, ∑ l', w l * K (z l) (z l') * w l' ∧
      s * ∑ i, a i ^ 2 ≤ (∑ l, ∑ l', w l * K (z l) (z l') * w l') / 4 := by
  set A := ∑ i, ∑ l, a i * K (t i) (t l) * a l with hA
  set F := ∑ l, ∑ l', w l * K (z l) (z l') * w l' with hF
  have quad : ∀ {I : Type} [Fintype I] [DecidableEq I] (t : I → X) (a : I → ℝ), 0 ≤ ∑ i, ∑ l, a i * K (t i) (t l) * a l :=
    fun t a => by
      have := (hK.gram t).dotProduct_mulVec_nonneg a
      simpa only [star_trivial, dotProduct, Matrix.mulVec, Matrix.of_apply, Finset.mul_sum, ← mul_assoc] using this
  have hA0 : 0 ≤ A := quad t a
  have hF0 : 0 ≤ F := quad z w
  have hB0 : 0 ≤ s * ∑ i, a i ^ 2 := mul_nonneg hs.le (Finset.sum_nonneg fun _ _ => sq_nonneg _)
  have h1 : ∑ l, ∑ i, w l * K (z l) (t i) * a i = A + s * ∑ i, a i ^ 2 := by
    rw [Finset.sum_comm, hA, Finset.mul_sum, ← Finset.sum_add_distrib]
    refine Finset.sum_congr rfl fun i _ => ?_
    rw [← Finset.sum_mul, ← ha i, add_mul, Finset.sum_mul]
    congr 1
    · exact Finset.sum_congr rfl fun l _ => by ring
    · ring
  have h2 := psdk_cauchy hK z t w a
  rw [h1] at h2
  change (A + s * ∑ i, a i ^ 2) ^ 2 ≤ F * A at h2
  set B := s * ∑ i, a i ^ 2
  constructor
  · by_contra hlt
    push Not at hlt
    nlinarith
  · rcases hA0.eq_or_lt with h0 | h0
    · rw [← h0, mul_zero, zero_add] at h2
      have : B = 0 := pow_eq_zero_iff two_ne_zero |>.mp (le_antisymm h2 (sq_nonneg _))
      rw [this]; positivity
    · have : A * B ≤ A * (F / 4) := by nlinarith [sq_nonneg (A - B)]
      exact le_of_mul_le_mul_left this h0

/-- **C173.** Targets that are the values of `mu + f` at the training inputs: the sum of the squared residuals of the trained GPR is at most
a quarter of `(sigma² + 1e-10) |f|²`, and the fitted function is no larger than `f` in the norm of the kernel. -/
theorem C173_gpr (ex : la.Exact) (e : KExpr d) (θ : GPParams) (h : Admissible e θ.kernelParams) (mf : MeanFun) (xt : Batch m d)
    (y : Mat m o) (a : Fin o) (z : Batch c d) (w : Fin c → ℝ) (hy : ∀ i, y i a = mf y + combo e.obj θ.kernelParams z w xt i) :
    let fit := fitDense la θ e.obj mf xt y
    ∑ i, (y i a - predictDense θ e.obj xt xt fit.1 fit.2 i a) ^ 2 ≤
        (θ.sigma ^ 2 + 1 / 10 ^ 10) * comboNorm e.obj θ.kernelParams z w / 4 ∧
      comboNorm e.obj θ.kernelParams xt (fun i => fit.1 i a) ≤ comboNorm e.obj θ.kernelParams z w := by
  intro fit
  obtain ⟨L, hL, hk⟩ := e.psd θ.kernelParams h
  have hcol := fun i => fit_column ex e θ h mf xt y a i
  simp only [Matrix.of_apply, noise_val] at hcol
  have hres : ∀ i, y i a - predictDense θ e.obj xt xt fit.1 fit.2 i a = (θ.sigma ^ 2 + 1 / 10 ^ 10) * fit.1 i a := fun i => by
    have h1 := predict_sub_mu e θ xt xt fit.1 fit.2 i a
    change predictDense θ e.obj xt xt fit.1 fit.2 i a - mf y = _ at h1
    have h2 := hcol i
    have h3 : ∑ l, e.obj.k θ.kernelParams xt xt i l * fit.1 l a = ∑ l, (Matrix.of (e.obj.k θ.kernelParams xt xt) : Mat m m) l i * fit.1 l a :=
      Finset.sum_congr rfl fun l _ => by rw [Matrix.of_apply, hk, hk, hL.symm]
    rw [← h3] at h1
    change (∑ l, e.obj.k θ.kernelParams xt xt i l * fit.1 l a) + _ * fit.1 i a = _ at h2
    linarith
  have key := fit_of_values hL xt z w (fun i => fit.1 i a) (s := θ.sigma ^ 2 + 1 / 10 ^ 10) (noise_pos θ) fun i => by
    have := hcol i
    rw [hy i, add_sub_cancel_left] at this
    simp only [combo, hk] at this
    exact this
  simp only [comboNorm, hk]
  refine ⟨?_, key.1⟩
  simp only [hres, mul_pow, ← Finset.mul_sum]
  have hs : 0 < θ.sigma ^ 2 + 1 / 10 ^ 10 := noise_pos θ
  have := mul_le_mul_of_nonneg_left key.2 hs.le
  calc _ = (θ.sigma ^ 2 + 1 / 10 ^ 10) * ((θ.sigma ^ 2 + 1 / 10 ^ 10) * ∑ i, fit.1 i a ^ 2) := by ring
    _ ≤ _ := this
    _ = _ := by ring

/-- **C173**, models trained on derivatives: the same for targets that are derivatives of a function of the kernel's space (plus the value
of the mean function, which these models add to derivatives). -/
theorem C173_derivs (ex : la.Exact) (e : KExpr d) (θ : GPParams) (h : DerivSmooth e θ.kernelParams) (mf : MeanFun) (xt : Batch m d)
    (Jt : Jac m d u) (y : Mat m u) (z : Batch c d) (Jz : Jac c d v) (w : Fin (c * v) → ℝ)
    (hy : ∀ i r, y i r = mf (flatCol y) + fieldDeriv e.obj θ.kernelParams z Jz w xt Jt i r) :
    let fit := fitDerivsDense la θ e.obj mf xt Jt y
    ∑ i, ∑ r, (y i r - predictDerivsDense θ e.obj xt Jt xt Jt fit.1 fit.2 i r) ^ 2 ≤
        (θ.sigma ^ 2 + 1 / 10 ^ 10) * fieldNorm e.obj θ.kernelParams z Jz w / 4 ∧
      fieldNorm e.obj θ.kernelParams xt Jt (fun i => fit.1 i 0) ≤ fieldNorm e.obj θ.kernelParams z Jz w := by
  intro fit
  obtain ⟨E, hE, hk⟩ := derivPSD_flat e θ.kernelParams h
  have hcol := fun i => fit_derivs_column ex e θ h mf xt Jt y i
  simp only [noise_val] at hcol
  have hres : ∀ i r, y i r - predictDerivsDense θ e.obj xt Jt xt Jt fit.1 fit.2 i r =
      (θ.sigma ^ 2 + 1 / 10 ^ 10) * fit.1 (flat i r) 0 := fun i r => by
    have h1 := predict_derivs_sub e θ xt Jt xt Jt fit.1 fit.2 i r
    change predictDerivsDense θ e.obj xt Jt xt Jt fit.1 fit.2 i r - mf (flatCol y) = _ at h1
    have h2 := hcol (flat i r)
    rw [flat_divNat, flat_modNat] at h2
    have h3 : ∑ l, e.obj.d01kj θ.kernelParams xt xt Jt Jt (flat i r) l * fit.1 l 0 =
        ∑ l, e.obj.d01kj θ.kernelParams xt xt Jt Jt l (flat i r) * fit.1 l 0 :=
      Finset.sum_congr rfl fun l _ => by rw [hk, hk, hE.symm]
    rw [← h3] at h1
    change (∑ l, e.obj.d01kj θ.kernelParams xt xt Jt Jt (flat i r) l * fit.1 l 0) + _ * fit.1 (flat i r) 0 = _ at h2
    linarith
  have key := fit_of_values hE (fun s : Fin (m * u) => (xt s.divNat, fun f => Jt s.divNat f s.modNat))
    (fun l : Fin (c * v) => (z l.divNat, fun f => Jz l.divNat f l.modNat)) w (fun i => fit.1 i 0) (s := θ.sigma ^ 2 + 1 / 10 ^ 10)
    (noise_pos θ) fun i => by
      have := hcol i
      rw [hy, add_sub_cancel_left] at this
      simp only [fieldDeriv, hk, flat_divNat, flat_modNat] at this
      exact this
  simp only [fieldNorm, hk]
  refine ⟨?_, key.1⟩
  have hs : 0 < θ.sigma ^ 2 + 1 / 10 ^ 10 := noise_pos θ
  have := mul_le_mul_of_nonneg_left key.2 hs.le
  simp only [hres, mul_pow, ← Finset.mul_sum]
  rw [sum_flat (fun i : Fin (m * u) => fit.1 i 0 ^ 2)] at this
  calc _ = (θ.sigma ^ 2 + 1 / 10 ^ 10) * ((θ.sigma ^ 2 + 1 / 10 ^ 10) * ∑ i, ∑ r, fit.1 (flat i r) 0 ^ 2) := by ring
    _ ≤ _ := this
    _ = _ := by ring

/-- **C173**, sparse models: targets that are values of `mu + f` with `f` a combination of the kernels at the inducing points. The sum of the
squared residuals is at most `sigma² |f|² + 1e-10 |w|²`. -/
theorem C173_sparse (ex : la.Exact) (e : KExpr d) (θ : GPParams) (h : Admissible e θ.kernelParams) (mf : MeanFun) (xl : Batch m d)
    (x : Batch n d) (y : Mat n o) (b : Fin o) (w : Fin m → ℝ) (hy : ∀ i, y i b = mf y + combo e.obj θ.kernelParams xl w x i) :
    let fit := sgprFitDense la θ e.obj mf xl x y
    ∑ i, (y i b - sgprPredict θ e.obj xl x fit.1 fit.2 i b) ^ 2 ≤
      θ.sigma ^ 2 * comboNorm e.obj θ.kernelParams xl w + 1 / 10 ^ 10 * ∑ a, w a ^ 2 := by
  intro fit
  have h1 := C70_sparse_fit_optimal ex e θ h mf xl x y (Matrix.of fun a _ => w a) b
  simp only [Matrix.of_apply] at h1
  have hz : ∀ i, y i b - sgprPredict θ e.obj xl x (Matrix.of fun a _ => w a) (sgprFitDense la θ e.obj mf xl x y).2 i b = 0 := fun i => by
    have h2 : sgprPredict θ e.obj xl x (Matrix.of fun a _ => w a : Mat m o) (mf y) i b = mf y + ∑ a, e.obj.k θ.kernelParams xl x a i * w a := by
      rw [sparse_predict_sum]
      exact sub_eq_iff_eq_add'.mp (predict_sub_mu e θ xl x (Matrix.of fun a _ => w a : Mat m o) (mf y) i b)
    change y i b - sgprPredict θ e.obj xl x (Matrix.of fun a _ => w a : Mat m o) (mf y) i b = 0
    rw [h2, hy i]
    simp only [combo, mul_comm (w _), sub_self]
  simp only [hz, ne_eq, OfNat.ofNat_ne_zero, not_false_eq_true, zero_pow, Finset.sum_const_zero, zero_add] at h1
  have h3 : 0 ≤ ∑ a, ∑ j, fit.1 a b * e.obj.k θ.kernelParams xl xl a j * fit.1 j b := by
    have := (C22_gram_posSemidef e θ.kernelParams h xl).dotProduct_mulVec_nonneg fun a => fit.1 a b
    simpa only [star_trivial, dotProduct, Matrix.mulVec, Matrix.of_apply, Finset.mul_sum, ← mul_assoc] using this
  have h4 : 0 ≤ ∑ a, fit.1 a b ^ 2 := Finset.sum_nonneg fun _ _ => sq_nonneg _
  have h5 := mul_nonneg (sq_nonneg θ.sigma) h3
  simp only [comboNorm]
  change ∑ i, (y i b - sgprPredict θ e.obj xl x fit.1 fit.2 i b) ^ 2 +
    θ.sigma ^ 2 * (∑ a, ∑ j, fit.1 a b * e.obj.k θ.kernelParams xl xl a j * fit.1 j b) + 1 / 10 ^ 10 * (∑ a, fit.1 a b ^ 2) ≤ _ at h1
  have h6 : (0 : ℝ) ≤ 1 / 10 ^ 10 * ∑ a, fit.1 a b ^ 2 := by positivity
  linarith

/-- Non-vacuity: for the zero mean and any weights there are such targets. -/
example (e : KExpr d) (θ : GPParams) (xt : Batch m d) (z : Batch c d) (w : Fin c → ℝ) :
    ∃ y : Mat m 1, ∀ i, y i 0 = zeroMean y + combo e.obj θ.kernelParams z w xt i :=
  ⟨Matrix.of fun i _ => combo e.obj θ.kernelParams z w xt i, fun i => by simp [zeroMean]⟩

end GPX.Props
