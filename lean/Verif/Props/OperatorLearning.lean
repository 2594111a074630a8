import Verif.Spec.OperatorLearning
import Verif.Props.GPR
import Verif.Props.KernelAlgebra

/-!
# C81: `fit_ol` is the least squares fit; C82: the mean squared loss; C83: the covariance of `predict_ol`
-/

namespace GPX.Props
open GPX GPX.Spec

variable {d n m v : ℕ} {la : LinAlg}

/-- The sum of the squares of the entries of a column. -/
def sumSq {N : ℕ} (r : Mat N 1) : ℝ := ∑ i, r i 0 ^ 2

theorem sumSq_eq {N : ℕ} (r : Mat N 1) : sumSq r = (r.transpose * r) 0 0 := by
  simp [sumSq, Matrix.mul_apply, sq]

theorem sumSq_nonneg {N : ℕ} (r : Mat N 1) : 0 ≤ sumSq r := Finset.sum_nonneg fun _ _ => sq_nonneg _

theorem sumSq_eq_zero {N : ℕ} {r : Mat N 1} (h : sumSq r = 0) : r = 0 := by
  ext i j
  have := (Finset.sum_eq_zero_iff_of_nonneg (fun i _ => sq_nonneg (r i 0))).1 h i (Finset.mem_univ i)
  obtain rfl := Subsingleton.elim j 0
  simpa using this

/-- The normal equations characterise the least squares solution. -/
theorem least_squares {N : ℕ} {A : Mat N n} {b : Mat N 1} {c : Mat n 1} (h : A.transpose * (A * c - b) = 0)
    (hA : ∀ z : Mat n 1, A * z = 0 → z = 0) (c' : Mat n 1) :
    sumSq (A * c - b) ≤ sumSq (A * c' - b) ∧ (sumSq (A * c' - b) = sumSq (A * c - b) → c' = c) := by
  have e : A * c' - b = (A * c - b) + A * (c' - c) := by rw [Matrix.mul_sub]; abel
  have hx : (A * (c' - c)).transpose * (A * c - b) = 0 := by
    rw [Matrix.transpose_mul, Matrix.mul_assoc, h, Matrix.mul_zero]
  have hx' : (A * c - b).transpose * (A * (c' - c)) = 0 := by
    have := congrArg Matrix.transpose hx
    simpa [Matrix.transpose_mul] using this
  have hs : sumSq (A * c' - b) = sumSq (A * c - b) + sumSq (A * (c' - c)) := by
    rw [e, sumSq_eq, sumSq_eq, sumSq_eq, Matrix.transpose_add, Matrix.add_mul, Matrix.mul_add, Matrix.mul_add, hx, hx']
    simp
  refine ⟨by rw [hs]; linarith [sumSq_nonneg (A * (c' - c))], fun he => ?_⟩
  have := hA _ (sumSq_eq_zero (r := A * (c' - c)) (by linarith))
  exact sub_eq_zero.1 this

/-- What `_fit_ol` does with the SVD solves the normal equations. -/
theorem svd_solves (ex : la.Exact) {N : ℕ} (A : Mat N n) (hN : n ≤ N) (hA : ∀ z : Mat n 1, A * z = 0 → z = 0)
    (b : Mat N 1) :
    A.transpose * (A * la.solve (Matrix.diagonal (la.svd A).2.1 * (la.svd A).2.2) ((la.svd A).1.transpose * b) - b) =
      0 := by
  obtain ⟨hf, hU, _, _⟩ := ex.svd A hN
  set U := (la.svd A).1
  set B := Matrix.diagonal (la.svd A).2.1 * (la.svd A).2.2 with hB
  have hf' : A = U * B := by rw [hB, ← Matrix.mul_assoc, hf]
  have hdet : IsUnit B.det := by
    rw [isUnit_iff_ne_zero]
    intro h0
    obtain ⟨z, hz, hBz⟩ := Matrix.exists_mulVec_eq_zero_iff.2 h0
    apply hz
    have hz' := hA (Matrix.of fun i _ => z i) (by
      rw [hf', Matrix.mul_assoc]
      have : B * (Matrix.of fun i _ => z i : Mat n 1) = 0 := by
        ext i j
        simpa [Matrix.mulVec, dotProduct, Matrix.mul_apply] using congrFun hBz i
      rw [this, Matrix.mul_zero])
    funext i
    exact congrFun (congrFun hz' i) 0
  have hs := ex.solve B (U.transpose * b) hdet
  have hAt : A.transpose = B.transpose * U.transpose := by rw [hf', Matrix.transpose_mul]
  rw [Matrix.mul_sub, hAt]
  conv_lhs => rw [hf', Matrix.mul_assoc U, hs]
  rw [Matrix.mul_assoc, ← Matrix.mul_assoc U.transpose U, hU, Matrix.one_mul, Matrix.mul_assoc, sub_self]

theorem olErrors_eq (κ : KernelObj d) (θ : GPParams) (x : Batch n d) (J : Jac n d v) (y : Mat n 1) (mu : ℝ)
    (yd : Mat n v) (c : Mat n 1) :
    olErrors κ θ x J y mu yd c = sumSq (vcat (aLhsNoise θ κ x x) (Matrix.of (κ.d0kj θ.kernelParams x x J)) * c -
      vcat (centerBy y mu) (flatCol yd)) := by
  have hn : θ.noise = θ.sigma ^ 2 + 1 / 10 ^ 10 := rfl
  unfold sumSq olErrors
  rw [Fin.sum_univ_add]
  congr 1
  · refine Finset.sum_congr rfl fun i _ => ?_
    simp only [vcat, Matrix.sub_apply, Matrix.mul_apply, Matrix.of_apply, Fin.addCases_left, centerBy, aLhsNoise,
      Matrix.add_apply, Matrix.smul_apply, Matrix.one_apply, smul_eq_mul, add_mul, Finset.sum_add_distrib]
    rw [← add_mul, ← hn]
    simp [aLhs]
  · rw [sum_flat]
    refine Finset.sum_congr rfl fun i _ => Finset.sum_congr rfl fun u _ => ?_
    simp only [vcat, Matrix.sub_apply, Matrix.mul_apply, Matrix.of_apply, Fin.addCases_right, flatCol]
    simp

/-- **C81**: `fit_ol` stores the mean of the targets and the coefficients that minimise the sum of squared errors on
targets and derivatives; the minimiser is unique. For every kernel expression of the library (admissible
hyperparameters), dataset, jacobian, targets, derivatives, mean function and noise (zero included). -/
theorem C81_fit_ol (ex : la.Exact) (e : KExpr d) (θ : GPParams) (h : Admissible e θ.kernelParams)
    (mf : MeanFun) (x : Batch n d) (y : Mat n 1) (yd : Mat n v) (J : Jac n d v) :
    let c := (fitOl la θ e.obj mf x y yd J).1
    let mu := (fitOl la θ e.obj mf x y yd J).2
    mu = mf y ∧ ∀ c' : Mat n 1,
      olErrors e.obj θ x J y mu yd c ≤ olErrors e.obj θ x J y mu yd c' ∧
      (olErrors e.obj θ x J y mu yd c' = olErrors e.obj θ x J y mu yd c → c' = c) := by
  intro c mu
  have hp := aLhsNoise_posDef e θ h x
  set A := vcat (aLhsNoise θ e.obj x x) (Matrix.of (e.obj.d0kj θ.kernelParams x x J)) with hAdef
  have hA : ∀ z : Mat n 1, A * z = 0 → z = 0 := by
    intro z hz
    have : aLhsNoise θ e.obj x x * z = 0 := by
      ext i j
      have := congrFun (congrFun hz (Fin.castAdd (n * v) i)) j
      simpa [hAdef, vcat, Matrix.mul_apply] using this
    exact solve_unique (posDef_isUnit hp) this (Matrix.mul_zero _)
  refine ⟨rfl, fun c' => ?_⟩
  rw [olErrors_eq, olErrors_eq]
  exact least_squares (svd_solves ex A (Nat.le_add_right _ _) hA _) hA c'

/-- **C81**, in terms of predictions: the minimised quantity is the sum of the squared differences between the
predictions of `predict_ol` at the training points and the data, with the noise term `(σ² + 1e-10) c` in the targets. -/
theorem C81_predictions (e : KExpr d) (θ : GPParams) (x : Batch n d) (y : Mat n 1) (yd : Mat n v)
    (J : Jac n d v) (c : Mat n 1) (mu : ℝ) :
    olErrors e.obj θ x J y mu yd c =
      ∑ i, ((predictOl θ e.obj x x J c mu).1 i 0 + (θ.sigma ^ 2 + 1 / 10 ^ 10) * c i 0 - y i 0) ^ 2 +
      ∑ i, ∑ u, ((predictOl θ e.obj x x J c mu).2 (flat i u) 0 - yd i u) ^ 2 := by
  have hs := C21_symmetric e θ.kernelParams
  unfold olErrors
  congr 1
  · refine Finset.sum_congr rfl fun i _ => ?_
    simp only [predictOl, Matrix.of_apply, Matrix.mul_apply, Matrix.transpose_apply, aLhs]
    rw [Finset.sum_congr rfl fun j _ => by rw [hs.k x x i j, mul_comm]]
    ring
  · refine Finset.sum_congr rfl fun i _ => Finset.sum_congr rfl fun u _ => ?_
    simp only [predictOl, Matrix.of_apply, Matrix.mul_apply, Matrix.transpose_apply]
    congr 2
    exact Finset.sum_congr rfl fun j _ => by rw [hs.d1kj x x J j, mul_comm]

/-- A linear kernel, two samples with two features and one derivative. -/
example (e : KExpr 2) (he : e = .linear none) : let θ : GPParams := ⟨fun _ => 1, 1⟩
    let x : Batch 2 2 := ![![0, 1], ![2, 3]]
    let y : Mat 2 1 := !![1; 2]
    let yd : Mat 2 1 := !![3; 4]
    let J : Jac 2 2 1 := fun i f _ => (i : ℝ) + f
    let r := fitOl LinAlg.ideal θ e.obj zeroMean x y yd J
    ∀ c' : Mat 2 1, olErrors e.obj θ x J y r.2 yd r.1 ≤ olErrors e.obj θ x J y r.2 yd c' := by
  intro θ x y yd J r c'
  exact ((C81_fit_ol LinAlg.ideal_exact e θ (he ▸ trivial) zeroMean x y yd J).2 c').1

/-- **C82**: the mean squared loss is the documented formula for the model that `fit_ol` would return: with `N`
samples, derivatives of shape `(N, a, jv)` (`a` atoms), the mean over the samples of the squared errors of
`predict_ol` on the targets plus `coeff` times the mean over samples and atoms of the squared norms of its errors on
the derivatives. -/
theorem C82_mse (θ : GPParams) (κ : KernelObj d) (mf : MeanFun) (x : Batch n d) (y : Mat n 1) {a jv : ℕ}
    (J : Jac n d (a * jv)) (yd : Mat n (a * jv)) (coeff : ℝ) :
    let fitted := fitOl la θ κ mf x y yd J
    let pred := predictOl θ κ x x J fitted.1 fitted.2
    mse la θ κ mf x y J yd coeff = 1 / n * ∑ i, (pred.1 i 0 - y i 0) ^ 2 +
      coeff * (1 / n) * (1 / a) * ∑ i, ∑ t : Fin a, ∑ l : Fin jv,
        (pred.2 (flat i (flat t l)) 0 - yd i (flat t l)) ^ 2 := by
  intro fitted pred
  unfold mse
  refine congrArg₂ (· + ·) ?_ ?_
  · rw [div_eq_inv_mul, one_div]
    congr 1
    refine Finset.sum_congr rfl fun i _ => ?_
    simp only [pred, predictOl, centerBy, Matrix.of_apply, fitted, fitOl]
    ring
  · rw [Finset.sum_congr rfl fun i _ => (sum_flat fun u => (pred.2 (flat i u) 0 - yd i u) ^ 2).symm]
    rw [div_eq_inv_mul, mul_inv, one_div, one_div, ← mul_assoc, ← mul_assoc]
    simp only [Matrix.of_apply, prod_flat]
    rfl

/-- **C82**, consequence: with a nonnegative coefficient the loss is nonnegative, and with a positive one (and at
least one atom) it vanishes exactly when the fitted model reproduces all targets and derivatives. -/
theorem C82_zero (θ : GPParams) (κ : KernelObj d) (mf : MeanFun) (x : Batch n d) (y : Mat n 1) {a jv : ℕ}
    (J : Jac n d (a * jv)) (yd : Mat n (a * jv)) {coeff : ℝ} (hc : 0 < coeff) (hn : 0 < n) (ha : 0 < a) :
    let fitted := fitOl la θ κ mf x y yd J
    let pred := predictOl θ κ x x J fitted.1 fitted.2
    0 ≤ mse la θ κ mf x y J yd coeff ∧
    (mse la θ κ mf x y J yd coeff = 0 ↔
      (∀ i, pred.1 i 0 = y i 0) ∧ ∀ i u, pred.2 (flat i u) 0 = yd i u) := by
  intro fitted pred
  have h := C82_mse (la := la) θ κ mf x y J yd coeff
  have hn' : (0 : ℝ) < 1 / n := by positivity
  have ha' : (0 : ℝ) < 1 / a := by positivity
  have e1 : 0 ≤ ∑ i, (pred.1 i 0 - y i 0) ^ 2 := Finset.sum_nonneg fun _ _ => sq_nonneg _
  have e2 : ∀ i, 0 ≤ ∑ t : Fin a, ∑ l : Fin jv, (pred.2 (flat i (flat t l)) 0 - yd i (flat t l)) ^ 2 := fun i =>
    Finset.sum_nonneg fun _ _ => Finset.sum_nonneg fun _ _ => sq_nonneg _
  have e3 := Finset.sum_nonneg fun i (_ : i ∈ (Finset.univ : Finset (Fin n))) => e2 i
  have p1 := mul_nonneg hn'.le e1
  have hcc : 0 < coeff * (1 / n) * (1 / a) := by positivity
  have p2 := mul_nonneg hcc.le e3
  refine ⟨by rw [h]; exact add_nonneg p1 p2, ?_⟩
  rw [h]
  constructor
  · intro h0
    have z1 : ∑ i, (pred.1 i 0 - y i 0) ^ 2 = 0 := by
      have := (add_eq_zero_iff_of_nonneg p1 p2).1 h0
      exact (mul_eq_zero.1 this.1).resolve_left hn'.ne'
    have z2 : ∑ i, ∑ t : Fin a, ∑ l : Fin jv, (pred.2 (flat i (flat t l)) 0 - yd i (flat t l)) ^ 2 = 0 := by
      have := (add_eq_zero_iff_of_nonneg p1 p2).1 h0
      exact (mul_eq_zero.1 this.2).resolve_left hcc.ne'
    refine ⟨fun i => ?_, fun i u => ?_⟩
    · have := (Finset.sum_eq_zero_iff_of_nonneg fun i _ => sq_nonneg (pred.1 i 0 - y i 0)).1 z1 i (Finset.mem_univ i)
      exact sub_eq_zero.1 (pow_eq_zero_iff two_ne_zero |>.1 this)
    · have h1 := (Finset.sum_eq_zero_iff_of_nonneg fun i _ => e2 i).1 z2 i (Finset.mem_univ i)
      rw [← sum_flat fun w : Fin (a * jv) => (pred.2 (flat i w) 0 - yd i w) ^ 2] at h1
      have := (Finset.sum_eq_zero_iff_of_nonneg fun u _ => sq_nonneg _).1 h1 u (Finset.mem_univ u)
      exact sub_eq_zero.1 (pow_eq_zero_iff two_ne_zero |>.1 this)
  · rintro ⟨q1, q2⟩
    have r1 : ∀ i, pred.1 i 0 - y i 0 = 0 := fun i => sub_eq_zero.2 (q1 i)
    have r2 : ∀ i u, pred.2 (flat i u) 0 - yd i u = 0 := fun i u => sub_eq_zero.2 (q2 i u)
    simp only [show (predictOl θ κ x x J (fitOl la θ κ mf x y yd J).1 (fitOl la θ κ mf x y yd J).2) = pred from rfl,
      r1, r2]
    simp

theorem linear_k {n m : ℕ} (p : KPar) (x1 : Batch n 1) (x2 : Batch m 1) (i : Fin n) (j : Fin m) :
    (KExpr.linear none : KExpr 1).obj.k p x1 x2 i j = x1 i 0 * x2 j 0 := by
  rw [show (KExpr.linear none : KExpr 1).obj = KernelObj.linear none from rfl,
    (closed_linear (d := 1) none trivial p).k]
  exact Fin.sum_univ_one fun a : Fin 1 => x1 i a * x2 j a

theorem linear_d1kj {n m v : ℕ} (p : KPar) (x1 : Batch n 1) (x2 : Batch m 1) (J : Jac m 1 v) (i : Fin n) (j : Fin m)
    (u : Fin v) : (KExpr.linear none : KExpr 1).obj.d1kj p x1 x2 J i (flat j u) = x1 i 0 * J j 0 u := by
  rw [show (KExpr.linear none : KExpr 1).obj = KernelObj.linear none from rfl,
    (closed_linear (d := 1) none trivial p).d1kj]
  exact Fin.sum_univ_one fun a : Fin 1 => x1 i a * J j a u

/-- One sample at 1 with target 1 and derivative 0: a linear function cannot have both, the loss is positive. -/
example : 0 < mse LinAlg.ideal ⟨fun _ => 1, 1⟩ (KExpr.linear none : KExpr 1).obj zeroMean (![![1]] : Batch 1 1) !![1]
    (a := 1) (jv := 1) (fun _ _ _ => 1) 0 1 := by
  obtain ⟨h0, hz⟩ := C82_zero (la := LinAlg.ideal) ⟨fun _ => 1, 1⟩ (KExpr.linear none : KExpr 1).obj zeroMean
    (![![1]] : Batch 1 1) !![1] (a := 1) (jv := 1) (fun _ _ _ => 1) 0 one_pos one_pos one_pos
  refine h0.lt_of_ne fun h => ?_
  obtain ⟨h1, h2⟩ := hz.1 h.symm
  have e1 := h1 0
  have e2 := h2 0 0
  simp [predictOl, aLhs, Matrix.mul_apply, linear_k, linear_d1kj, fitOl, zeroMean] at e1 e2
  simp [e2] at e1

/-! ## C83: the covariance of `predict_ol` -/

/-- **C83**, the full claim: with one derivative or more, `predict_ol(x, jacobian, full_covariance=True)` returns the
mean of `predict_ol` and the documented covariance of shape `(n, n)`. -/
def C83_full : Prop :=
  ∀ (la : LinAlg), la.Exact → ∀ (d n m v : ℕ) (e : KExpr d) (θ : GPParams), Admissible e θ.kernelParams →
    ∀ (xt : Batch m d) (x : Batch n d) (J : Jac n d v) (c : Mat m 1) (mu : ℝ),
      ∃ r, predictOlCov la θ e.obj xt x J c mu = .ok r ∧ r.1 = (predictOl θ e.obj xt x J c mu).1 ∧
        ∃ h : n * v = n, OlCovariance e.obj θ xt x (r.2.submatrix (Fin.cast h.symm) (Fin.cast h.symm))

/-- **C83**: with two samples or more and two derivatives or more (or none), the call raises TypeError. -/
theorem C83_error (la : LinAlg) (θ : GPParams) (κ : KernelObj d) (xt : Batch m d) (x : Batch n d) (J : Jac n d v)
    (c : Mat m 1) (mu : ℝ) (hn : 2 ≤ n) (hv : v ≠ 1) :
    predictOlCov la θ κ xt x J c mu = .error .typeError := by
  have h1 : n * v ≠ n := fun h => hv (Nat.eq_of_mul_eq_mul_left (by omega) (h.trans (mul_one n).symm))
  have h2 : n ≠ 1 := by omega
  unfold predictOlCov broadcastSub
  simp [h1, h2]

/-- **C83**, what is returned with one derivative per sample: the mean of `predict_ol`, and the prior covariance of
the targets reduced by the covariance between training targets and the *derivatives* at `x`. -/
theorem C83_partial (ex : la.Exact) (e : KExpr d) (θ : GPParams) (h : Admissible e θ.kernelParams) (xt : Batch m d)
    (x : Batch n d) (J : Jac n d 1) (c : Mat m 1) (mu : ℝ) :
    ∃ r, predictOlCov la θ e.obj xt x J c mu = .ok r ∧ r.1 = (predictOl θ e.obj xt x J c mu).1 ∧
      ∃ S : Mat m m, (∀ i j, S i j = e.obj.k θ.kernelParams xt xt i j +
        if i = j then θ.sigma ^ 2 + 1 / 10 ^ 10 else 0) ∧ IsUnit S.det ∧
      ∀ i j, r.2 (flat i 0) (flat j 0) = e.obj.k θ.kernelParams x x i j -
        ∑ a, ∑ b, e.obj.d1kj θ.kernelParams xt x J a (flat i 0) * S⁻¹ a b *
          e.obj.d1kj θ.kernelParams xt x J b (flat j 0) := by
  have hp := aLhsNoise_posDef e θ h xt
  unfold predictOlCov broadcastSub
  simp only [mul_one, dif_pos]
  refine ⟨_, rfl, rfl, aLhsNoise θ e.obj xt xt, fun i j => ?_, posDef_isUnit hp, fun i j => ?_⟩
  · simp only [aLhsNoise, aLhs, Matrix.add_apply, Matrix.of_apply, Matrix.smul_apply, Matrix.one_apply, smul_eq_mul]
    split_ifs <;> simp [GPParams.noise, noiseJitter]
  · have hi : ∀ i : Fin n, Fin.cast (mul_one n) (flat i (0 : Fin 1)) = i := fun i => by
      apply Fin.ext; simp [flat]
    simp only [Matrix.of_apply, hi]
    rw [ex.gram hp]
    congr 1
    simp only [Matrix.mul_apply, Matrix.transpose_apply, Matrix.of_apply, Finset.sum_mul]
    rw [Finset.sum_comm]

/-- **C83**: the full claim is false already for one training point and one test point: the "variance" returned can be
negative (linear kernel, test point at the origin). -/
theorem C83_negative : ∃ r, predictOlCov LinAlg.ideal ⟨fun _ => 1, 1⟩ (KExpr.linear none : KExpr 1).obj
    (![![1]] : Batch 1 1) (![![0]] : Batch 1 1) (fun _ _ _ => 1 : Jac 1 1 1) 0 0 = .ok r ∧
    ∀ i, r.2 i i < 0 := by
  obtain ⟨r, hr, _, S, hS, hu, hc⟩ := C83_partial LinAlg.ideal_exact (KExpr.linear none : KExpr 1) ⟨fun _ => 1, 1⟩
    trivial (![![1]] : Batch 1 1) (![![0]] : Batch 1 1) (fun _ _ _ => 1 : Jac 1 1 1) 0 0
  refine ⟨r, hr, fun i => ?_⟩
  obtain ⟨a, b, rfl⟩ := flat_surj i
  obtain rfl : a = 0 := Subsingleton.elim (α := Fin 1) _ _
  obtain rfl : b = 0 := Subsingleton.elim _ _
  have h1 : S 0 0 * S⁻¹ 0 0 = 1 := by
    have := congrFun (congrFun (Matrix.mul_nonsing_inv S hu) 0) 0
    simpa [Matrix.mul_apply] using this
  have h2 := hS 0 0
  have h3 := hc 0 0
  simp only [linear_k, linear_d1kj, Finset.univ_unique, Fin.default_eq_zero, Finset.sum_singleton,
    Matrix.cons_val_zero, if_true] at h2 h3
  rw [h3]
  have h4 : 0 < S 0 0 := by rw [h2]; norm_num
  have h5 : 0 < S⁻¹ 0 0 := by
    rw [eq_inv_of_mul_eq_one_right h1]
    exact inv_pos.2 h4
  linarith

theorem C83_false : ¬ C83_full := by
  intro h
  obtain ⟨r, hr, -, h1, S, -, -, hc⟩ := h LinAlg.ideal LinAlg.ideal_exact 1 1 1 1 (KExpr.linear none) ⟨fun _ => 1, 1⟩
    trivial ![![1]] ![![0]] (fun _ _ _ => 1) 0 0
  obtain ⟨r', hr', hn⟩ := C83_negative
  obtain rfl : r = r' := Except.ok.inj (hr.symm.trans hr')
  have h0 := hc 0 0
  simp only [linear_k] at h0
  have := hn (Fin.cast h1.symm 0)
  simp at h0
  exact this.ne h0

/-- Two samples and two derivatives meet the hypotheses of `C83_error`. -/
example : predictOlCov LinAlg.ideal ⟨fun _ => 1, 1⟩ (KExpr.linear none : KExpr 1).obj (![![1]] : Batch 1 1)
    (![![0], ![1]] : Batch 2 1) (fun _ _ _ => 1 : Jac 2 1 2) 0 0 = .error .typeError :=
  C83_error _ _ _ _ _ _ _ _ le_rfl (by decide)

end GPX.Props
