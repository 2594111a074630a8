import Verif.Spec.Simple
import Verif.Props.Bounded
import Verif.Props.Interactions
import Verif.Lemmas.KernelClosedJ
import Mathlib.Algebra.MvPolynomial.Degrees

/-!
# C171: models with the kernels `Constant`, `Linear` and `Polynomial` are the classical regressions
-/

namespace GPX.Props
open GPX GPX.Spec Matrix

variable {d m n o k : ℕ} {la : LinAlg}

/-- A polynomial kernel as a polynomial in its second argument. -/
theorem kernel_poly (e : KExpr d) (p : KPar) (h : Admissible e p) (hp : PolyExpr e) (u : Fin d → ℝ) :
    ∃ P : MvPolynomial (Fin d) ℝ, P.totalDegree ≤ polyDegree e p ∧
      ∀ {n m : ℕ} (x1 : Batch n d) (x2 : Batch m d) (i : Fin n) (j : Fin m), x1 i = u →
        e.obj.k p x1 x2 i j = MvPolynomial.eval (x2 j) P := by
  have hlin : ∀ a : Option (Dims d), ∃ P : MvPolynomial (Fin d) ℝ, P.totalDegree ≤ 1 ∧ ∀ v : Fin d → ℝ,
      ∑ b, (Dims.resolve a).take u b * (Dims.resolve a).take v b = MvPolynomial.eval v P := fun a => by
    refine ⟨∑ b, MvPolynomial.C ((Dims.resolve a).take u b) * MvPolynomial.X ((Dims.resolve a).idx b), ?_, fun v => ?_⟩
    · refine (MvPolynomial.totalDegree_finsetSum _ _).trans (Finset.sup_le fun b _ => ?_)
      refine (MvPolynomial.totalDegree_mul _ _).trans ?_
      rw [MvPolynomial.totalDegree_C, MvPolynomial.totalDegree_X]
    · simp [map_sum, Dims.take]
  induction e generalizing p with
  | constant a =>
    refine ⟨MvPolynomial.C (p.val "variance"), by simp, fun x1 x2 i j _ => ?_⟩
    rw [MvPolynomial.eval_C]
    exact (closedJ_constant a p).k x1 x2 i j
  | linear a =>
    obtain ⟨P, h1, h2⟩ := hlin a
    refine ⟨P, h1, fun x1 x2 i j hx => ?_⟩
    rw [← h2, ← hx]
    exact (closedJ_linear a p).k x1 x2 i j
  | polynomial a ni =>
    obtain ⟨P, h1, h2⟩ := hlin a
    obtain ⟨q, hq⟩ := h.1
    have hdeg : polyDegree (.polynomial a ni : KExpr d) p = q := by
      change ⌊p.val "degree"⌋₊ = q
      rw [hq, Nat.floor_natCast]
    rw [hdeg]
    refine ⟨(MvPolynomial.C (p.val "offset") + P) ^ q - MvPolynomial.C (if ni then p.val "offset" ^ q else 0), ?_,
      fun x1 x2 i j hx => ?_⟩
    · refine (MvPolynomial.totalDegree_sub _ _).trans (max_le ?_ (by rw [MvPolynomial.totalDegree_C]; exact Nat.zero_le _))
      refine (MvPolynomial.totalDegree_pow _ _).trans ?_
      refine (Nat.mul_le_mul_left q ((MvPolynomial.totalDegree_add _ _).trans (max_le ?_ h1))).trans_eq (Nat.mul_one q)
      rw [MvPolynomial.totalDegree_C]; exact Nat.zero_le _
    · have hv := (closedJ_polynomial a ni p).k x1 x2 i j
      refine hv.trans ?_
      simp only [Core.polynomial, map_sub, map_pow, map_add, MvPolynomial.eval_C, ← h2, hx, hq, Real.rpow_natCast]
  | sum e1 e2 ih1 ih2 =>
    obtain ⟨P, h1, h2⟩ := ih1 (p.sub "kernel1") h.1 hp.1
    obtain ⟨Q, h3, h4⟩ := ih2 (p.sub "kernel2") h.2 hp.2
    refine ⟨P + Q, (MvPolynomial.totalDegree_add _ _).trans (max_le_max h1 h3), fun x1 x2 i j hx => ?_⟩
    rw [map_add, ← h2 x1 x2 i j hx, ← h4 x1 x2 i j hx]
    rfl
  | prod e1 e2 ih1 ih2 =>
    obtain ⟨P, h1, h2⟩ := ih1 (p.sub "kernel1") h.1 hp.1
    obtain ⟨Q, h3, h4⟩ := ih2 (p.sub "kernel2") h.2 hp.2
    refine ⟨P * Q, (MvPolynomial.totalDegree_mul _ _).trans (Nat.add_le_add h1 h3), fun x1 x2 i j hx => ?_⟩
    rw [map_mul, ← h2 x1 x2 i j hx, ← h4 x1 x2 i j hx]
    rfl
  | _ => exact hp.elim

/-- **C171**, polynomials: with a kernel made of `Constant`, `Linear` and `Polynomial` the predictions are a polynomial of the input of at
most the degree of the kernel, whatever the coefficients (of a fitted GPR, or of a sparse model and its inducing points). -/
theorem C171_polynomial (e : KExpr d) (θ : GPParams) (h : Admissible e θ.kernelParams) (hp : PolyExpr e) (xt : Batch m d) (c : Mat m o)
    (mu : ℝ) (a : Fin o) :
    ∃ P : MvPolynomial (Fin d) ℝ, P.totalDegree ≤ polyDegree e θ.kernelParams ∧
      ∀ (n : ℕ) (x : Batch n d) (j : Fin n), predictDense θ e.obj xt x c mu j a = MvPolynomial.eval (x j) P := by
  choose P h1 h2 using fun i => kernel_poly e θ.kernelParams h hp (xt i)
  refine ⟨MvPolynomial.C mu + ∑ i, P i * MvPolynomial.C (c i a), ?_, fun n x j => ?_⟩
  · refine (MvPolynomial.totalDegree_add _ _).trans (max_le (by rw [MvPolynomial.totalDegree_C]; exact Nat.zero_le _) ?_)
    refine (MvPolynomial.totalDegree_finsetSum _ _).trans (Finset.sup_le fun i _ => ?_)
    refine (MvPolynomial.totalDegree_mul _ _).trans ?_
    rw [MvPolynomial.totalDegree_C, add_zero]
    exact h1 i
  · have := predict_sub_mu e θ xt x c mu j a
    rw [map_add, map_sum, MvPolynomial.eval_C, ← sub_eq_iff_eq_add', this]
    refine Finset.sum_congr rfl fun i _ => ?_
    rw [map_mul, MvPolynomial.eval_C, ← h2 i xt x i j rfl]
    rfl

/-- **C171**, polynomials, for the predictions of sparse models. -/
theorem C171_polynomial_sparse (e : KExpr d) (θ : GPParams) (h : Admissible e θ.kernelParams) (hp : PolyExpr e) (xl : Batch m d)
    (c : Mat m o) (mu : ℝ) (a : Fin o) :
    ∃ P : MvPolynomial (Fin d) ℝ, P.totalDegree ≤ polyDegree e θ.kernelParams ∧
      ∀ (n : ℕ) (x : Batch n d) (j : Fin n), sgprPredict θ e.obj xl x c mu j a = MvPolynomial.eval (x j) P := by
  simp only [sparse_predict_sum]
  exact C171_polynomial e θ h hp xl c mu a

/-- Non-vacuity: `Constant() + Linear() * Polynomial(no_intercept=True)` with the degree 2 is a kernel of degree 3. -/
example : let e : KExpr 2 := .sum (.constant none) (.prod (.linear none) (.polynomial none true))
    let p : KPar := fun path => if path = ["kernel2", "kernel2", "degree"] then 2 else 1
    Admissible e p ∧ PolyExpr e ∧ polyDegree e p = 3 := by
  intro e p
  have h1 : ((p.sub "kernel2").sub "kernel2").val "degree" = 2 := rfl
  have h2 : ((p.sub "kernel2").sub "kernel2").val "offset" = 1 := rfl
  have h3 : (p.sub "kernel1").val "variance" = 1 := rfl
  refine ⟨⟨?_, trivial, ⟨2, ?_⟩, ?_⟩, ⟨trivial, trivial, trivial⟩, ?_⟩
  · change 0 ≤ (p.sub "kernel1").val "variance"
    rw [h3]; norm_num
  · rw [h1]; norm_num
  · rw [h2]; norm_num
  · change max 0 (1 + ⌊((p.sub "kernel2").sub "kernel2").val "degree"⌋₊) = 3
    rw [h1]; norm_num

/-- Ridge regression from the system of its dual. -/
theorem ridge_dual {s : ℝ} (hs : 0 < s) (Φ : Fin m → Fin k → ℝ) (r c : Fin m → ℝ)
    (hc : ∀ i, (∑ l, (∑ f, Φ i f * Φ l f) * c l) + s * c i = r i) (w : Fin k → ℝ) (hw : w ≠ fun f => ∑ l, Φ l f * c l) :
    ridgeLoss s Φ r (fun f => ∑ l, Φ l f * c l) < ridgeLoss s Φ r w := by
  set w0 : Fin k → ℝ := fun f => ∑ l, Φ l f * c l with hw0
  have h1 : ∀ i, r i - ∑ f, w0 f * Φ i f = s * c i := fun i => by
    rw [← hc i]
    have : ∑ f, w0 f * Φ i f = ∑ l, (∑ f, Φ i f * Φ l f) * c l := by
      simp only [hw0, Finset.sum_mul]
      rw [Finset.sum_comm]
      exact Finset.sum_congr rfl fun l _ => Finset.sum_congr rfl fun f _ => by ring
    rw [this]; ring
  have h2 : ∀ i, r i - ∑ f, w f * Φ i f = s * c i - ∑ f, (w f - w0 f) * Φ i f := fun i => by
    rw [← h1 i]
    simp only [sub_mul, Finset.sum_sub_distrib]
    ring
  have h3 : ∑ i, c i * ∑ f, (w f - w0 f) * Φ i f = ∑ f, w0 f * (w f - w0 f) := by
    simp only [hw0, Finset.mul_sum, Finset.sum_mul]
    rw [Finset.sum_comm]
    exact Finset.sum_congr rfl fun f _ => Finset.sum_congr rfl fun i _ => by ring
  have h4 : ridgeLoss s Φ r w = ridgeLoss s Φ r w0 + (∑ i, (∑ f, (w f - w0 f) * Φ i f) ^ 2) + s * ∑ f, (w f - w0 f) ^ 2 := by
    have e1 : ∑ i, (r i - ∑ f, w f * Φ i f) ^ 2 = (∑ i, (r i - ∑ f, w0 f * Φ i f) ^ 2) -
        2 * s * (∑ i, c i * ∑ f, (w f - w0 f) * Φ i f) + ∑ i, (∑ f, (w f - w0 f) * Φ i f) ^ 2 := by
      simp only [Finset.mul_sum (s := (Finset.univ : Finset (Fin m))), ← Finset.sum_sub_distrib, ← Finset.sum_add_distrib]
      refine Finset.sum_congr rfl fun i _ => ?_
      rw [h2, h1]; ring
    have e2 : ∑ f, w f ^ 2 = (∑ f, w0 f ^ 2) + 2 * (∑ f, w0 f * (w f - w0 f)) + ∑ f, (w f - w0 f) ^ 2 := by
      simp only [Finset.mul_sum, ← Finset.sum_add_distrib]
      exact Finset.sum_congr rfl fun f _ => by ring
    simp only [ridgeLoss]
    rw [e1, e2, h3]
    ring
  have h5 : 0 < ∑ f, (w f - w0 f) ^ 2 := by
    obtain ⟨f, hf⟩ := Function.ne_iff.mp hw
    exact Finset.sum_pos' (fun _ _ => sq_nonneg _) ⟨f, Finset.mem_univ _, by have := sub_ne_zero.mpr hf; positivity⟩
  have h6 : 0 ≤ ∑ i, (∑ f, (w f - w0 f) * Φ i f) ^ 2 := Finset.sum_nonneg fun _ _ => sq_nonneg _
  rw [h4]
  nlinarith

/-- **C171**, `Linear`: the trained GPR is ridge regression on the active features with the penalty `sigma² + 1e-10`. There are weights,
the only minimiser of the ridge objective, for which every prediction is `mu + Σ_f w_f x_f`. -/
theorem C171_linear (ex : la.Exact) (ad : Option (Dims d)) (θ : GPParams) (mf : MeanFun) (xt : Batch m d) (y : Mat m o) (a : Fin o) :
    let fit := fitDense la θ (KExpr.linear ad).obj mf xt y
    let obj := ridgeLoss (θ.sigma ^ 2 + 1 / 10 ^ 10) (fun i => (Dims.resolve ad).take (xt i)) fun i => y i a - mf y
    ∃ w : Fin (Dims.resolve ad).k → ℝ, (∀ w', w' ≠ w → obj w < obj w') ∧
      ∀ (n : ℕ) (x : Batch n d) (j : Fin n),
        predictDense θ (KExpr.linear ad).obj xt x fit.1 fit.2 j a = mf y + ∑ f, w f * (Dims.resolve ad).take (x j) f := by
  intro fit obj
  have hk : ∀ {n m : ℕ} (x1 : Batch n d) (x2 : Batch m d) i j, (KExpr.linear ad).obj.k θ.kernelParams x1 x2 i j =
      ∑ f, (Dims.resolve ad).take (x1 i) f * (Dims.resolve ad).take (x2 j) f := fun x1 x2 i j =>
    (closedJ_linear ad θ.kernelParams).k x1 x2 i j
  refine ⟨fun f => ∑ l, (Dims.resolve ad).take (xt l) f * fit.1 l a, fun w' hw => ?_, fun n x j => ?_⟩
  · refine ridge_dual (noise_pos θ) _ _ (fun l => fit.1 l a) (fun i => ?_) w' hw
    have := fit_column ex (KExpr.linear ad) θ trivial mf xt y a i
    simp only [Matrix.of_apply, hk] at this
    exact this
  · have := predict_sub_mu (KExpr.linear ad) θ xt x fit.1 fit.2 j a
    simp only [Matrix.of_apply, hk] at this
    change predictDense θ _ xt x fit.1 fit.2 j a - mf y = _ at this
    rw [← sub_eq_iff_eq_add', this]
    simp only [Finset.sum_mul]
    rw [Finset.sum_comm]
    exact Finset.sum_congr rfl fun f _ => Finset.sum_congr rfl fun i _ => by ring

/-- Non-vacuity: one sample at `2` with the target `3` and `sigma = 1`; the weight found has a smaller objective than the weight zero. -/
example : ∃ w : Fin 1 → ℝ, (∀ w', w' ≠ w → ridgeLoss (1 ^ 2 + 1 / 10 ^ 10) ![![2]] ![3] w < ridgeLoss (1 ^ 2 + 1 / 10 ^ 10) ![![2]] ![3] w') ∧
    w ≠ 0 := by
  obtain ⟨w, h1, -⟩ := C171_linear LinAlg.ideal_exact (none : Option (Dims 1)) ⟨fun _ => 1, 1⟩ zeroMean ![![2]] ![![3]] (0 : Fin 1)
  have hobj : ∀ w, ridgeLoss ((1 : ℝ) ^ 2 + 1 / 10 ^ 10) (fun i => (Dims.resolve (none : Option (Dims 1))).take ((![![2]] : Batch 1 1) i))
      (fun i => (![![3]] : Mat 1 1) i 0 - zeroMean (![![3]] : Mat 1 1)) w = ridgeLoss (1 ^ 2 + 1 / 10 ^ 10) ![![2]] ![3] w := fun w => by
    congr 1
    funext i
    fin_cases i
    simp [zeroMean]
  have key : ∀ w' : Fin 1 → ℝ, w' ≠ w → ridgeLoss (1 ^ 2 + 1 / 10 ^ 10) ![![2]] ![3] w < ridgeLoss (1 ^ 2 + 1 / 10 ^ 10) ![![2]] ![3] w' :=
    fun w' hw => (hobj w).symm.trans_lt ((h1 w' hw).trans_eq (hobj w'))
  refine ⟨w, key, fun h0 => ?_⟩
  have h2 := key (fun _ => 1) (by rw [h0]; exact fun h => one_ne_zero (congrFun h (0 : Fin 1)))
  rw [h0] at h2
  simp [ridgeLoss] at h2
  norm_num at h2

/-- **C171**, `Linear`, covariances: with `Φ` the active features of the training samples and `s = sigma² + 1e-10` the predicted covariance
is that of ridge regression, `s Φ_x (ΦᵀΦ + s)⁻¹ Φ_xᵀ`. -/
theorem C171_linear_cov (ex : la.Exact) (ad : Option (Dims d)) (θ : GPParams) (xt : Batch m d) (x : Batch n d) :
    let s := θ.sigma ^ 2 + 1 / 10 ^ 10
    let Φ : Mat m (Dims.resolve ad).k := Matrix.of fun i => (Dims.resolve ad).take (xt i)
    let X : Mat n (Dims.resolve ad).k := Matrix.of fun i => (Dims.resolve ad).take (x i)
    predictDenseCov la θ (KExpr.linear ad).obj xt x = s • (X * (Φ.transpose * Φ + s • 1)⁻¹ * X.transpose) := by
  intro s Φ X
  have hk : ∀ {n m : ℕ} (x1 : Batch n d) (x2 : Batch m d), aLhs θ (KExpr.linear ad).obj x1 x2 =
      (Matrix.of fun i => (Dims.resolve ad).take (x1 i)) * (Matrix.of fun i => (Dims.resolve ad).take (x2 i)).transpose :=
    fun x1 x2 => by
      funext i j
      exact (closedJ_linear ad θ.kernelParams).k x1 x2 i j
  have hp := aLhsNoise_posDef (KExpr.linear ad) θ trivial xt
  have hA : aLhsNoise θ (KExpr.linear ad).obj xt xt = Φ * Φ.transpose + s • 1 := by
    change aLhs θ (KExpr.linear ad).obj xt xt + θ.noise • 1 = _
    rw [hk, noise_val]
  have hs : 0 < s := noise_pos θ
  have hq : (Φ.transpose * Φ + s • (1 : Mat (Dims.resolve ad).k (Dims.resolve ad).k)).PosDef :=
    posDef_add_smul_one (gram_posSemidef Φ) hs
  rw [predictDenseCov_eq ex (KExpr.linear ad) θ trivial, hA, hk, hk]
  rw [hA] at hp
  have hu := posDef_isUnit hp
  have hv := posDef_isUnit hq
  set A := Φ * Φ.transpose + s • (1 : Mat m m)
  set B := Φ.transpose * Φ + s • (1 : Mat (Dims.resolve ad).k (Dims.resolve ad).k) with hB
  have push : Φ.transpose * A⁻¹ = B⁻¹ * Φ.transpose := by
    have h1 : B * Φ.transpose = Φ.transpose * A := by
      simp only [A, B, Matrix.add_mul, Matrix.mul_add, Matrix.smul_mul, Matrix.mul_smul, Matrix.one_mul, Matrix.mul_one, Matrix.mul_assoc]
    calc Φ.transpose * A⁻¹ = B⁻¹ * (B * Φ.transpose) * A⁻¹ := by
          rw [← Matrix.mul_assoc B⁻¹, Matrix.nonsing_inv_mul _ hv, Matrix.one_mul]
      _ = B⁻¹ * Φ.transpose := by
          rw [h1, Matrix.mul_assoc, Matrix.mul_assoc, Matrix.mul_nonsing_inv _ hu, Matrix.mul_one]
  have h2 : (1 : Mat (Dims.resolve ad).k (Dims.resolve ad).k) - B⁻¹ * (Φ.transpose * Φ) = s • B⁻¹ := by
    have : Φ.transpose * Φ = B - s • 1 := by rw [hB, add_sub_cancel_right]
    rw [this, Matrix.mul_sub, Matrix.nonsing_inv_mul _ hv, Matrix.mul_smul, Matrix.mul_one, sub_sub_cancel]
  change X * X.transpose - (Φ * X.transpose).transpose * A⁻¹ * (Φ * X.transpose) = _
  rw [Matrix.transpose_mul, Matrix.transpose_transpose, Matrix.mul_assoc X, push]
  calc X * X.transpose - X * (B⁻¹ * Φ.transpose) * (Φ * X.transpose)
      = X * (1 - B⁻¹ * (Φ.transpose * Φ)) * X.transpose := by
        simp only [Matrix.mul_sub, Matrix.sub_mul, Matrix.mul_one, Matrix.mul_assoc]
    _ = _ := by rw [h2, Matrix.mul_smul, Matrix.smul_mul]

/-- **C171**, `Constant`: the prediction is the same everywhere, the mean of the targets shrunk towards `mu`, and so is the variance. -/
theorem C171_constant (ex : la.Exact) (ad : Option (Dims d)) (θ : GPParams) (hv : 0 ≤ θ.kernelParams.val "variance") (mf : MeanFun)
    (xt : Batch m d) (y : Mat m o) (a : Fin o) (x : Batch n d) (j j' : Fin n) :
    let v := θ.kernelParams.val "variance"
    let s := θ.sigma ^ 2 + 1 / 10 ^ 10
    let fit := fitDense la θ (KExpr.constant ad).obj mf xt y
    predictDense θ (KExpr.constant ad).obj xt x fit.1 fit.2 j a = mf y + v * (∑ i, (y i a - mf y)) / (s + m * v) ∧
      predictDenseCov la θ (KExpr.constant ad).obj xt x j j' = s * v / (s + m * v) := by
  intro v s fit
  have hs : 0 < s := noise_pos θ
  have hD : 0 < s + m * v := by positivity
  have hk : ∀ {n m : ℕ} (x1 : Batch n d) (x2 : Batch m d) i j, (KExpr.constant ad).obj.k θ.kernelParams x1 x2 i j = v :=
    fun x1 x2 i j => (closedJ_constant ad θ.kernelParams).k x1 x2 i j
  have hq : v / (s + m * v) * (s + m * v) = v := div_mul_cancel₀ _ hD.ne'
  constructor
  · have h1 := predict_sub_mu (KExpr.constant ad) θ xt x fit.1 fit.2 j a
    have h2 : ∀ i, v * (∑ l, fit.1 l a) + s * fit.1 i a = y i a - mf y := fun i => by
      have := fit_column ex (KExpr.constant ad) θ hv mf xt y a i
      simp only [Matrix.of_apply, hk, ← Finset.mul_sum] at this
      exact this
    have h3 : (s + m * v) * ∑ l, fit.1 l a = ∑ i, (y i a - mf y) := by
      rw [← Finset.sum_congr rfl fun i _ => h2 i, Finset.sum_add_distrib, Finset.sum_const, Finset.card_univ, Fintype.card_fin,
        ← Finset.mul_sum, nsmul_eq_mul]
      ring
    simp only [Matrix.of_apply, hk, ← Finset.mul_sum] at h1
    change predictDense θ _ xt x fit.1 fit.2 j a - mf y = _ at h1
    rw [← sub_eq_iff_eq_add', h1, ← h3, mul_left_comm, mul_div_cancel_left₀ _ hD.ne']
  · have hp := aLhsNoise_posDef (KExpr.constant ad) θ hv xt
    have hu := posDef_isUnit hp
    have hz : (aLhsNoise θ (KExpr.constant ad).obj xt xt)⁻¹ * aLhs θ (KExpr.constant ad).obj xt x =
        Matrix.of fun _ _ => v / (s + m * v) := by
      have h1 : aLhsNoise θ (KExpr.constant ad).obj xt xt * (Matrix.of fun _ _ => v / (s + m * v) : Mat m n) =
          aLhs θ (KExpr.constant ad).obj xt x := by
        have h0 : aLhsNoise θ (KExpr.constant ad).obj xt xt = aLhs θ (KExpr.constant ad).obj xt xt + θ.noise • 1 := rfl
        rw [h0, Matrix.add_mul, Matrix.smul_mul, Matrix.one_mul]
        funext i l
        rw [Matrix.add_apply, Matrix.mul_apply, Matrix.smul_apply]
        simp only [aLhs, Matrix.of_apply, hk, Finset.sum_const, Finset.card_univ, Fintype.card_fin, nsmul_eq_mul, smul_eq_mul]
        change (m : ℝ) * (v * (v / (s + m * v))) + s * (v / (s + m * v)) = v
        linear_combination hq
      rw [← h1, ← Matrix.mul_assoc, Matrix.nonsing_inv_mul _ hu, Matrix.one_mul]
    rw [predictDenseCov_eq ex (KExpr.constant ad) θ hv, Matrix.mul_assoc, hz, Matrix.sub_apply, Matrix.mul_apply]
    simp only [aLhs, Matrix.of_apply, Matrix.transpose_apply, hk, Finset.sum_const, Finset.card_univ, Fintype.card_fin, nsmul_eq_mul]
    rw [eq_div_iff hD.ne']
    linear_combination -(m * v) * hq

end GPX.Props
