import Verif.Props.WorstCase
import Verif.Props.Slope
import Verif.Props.Continuity

/-!
# C170: uncertainty and error vanish where data accumulate
-/

namespace GPX.Props
open GPX GPX.Spec Matrix Filter Topology

variable {d m n o c u v : ℕ} {la : LinAlg}

/-- The mean of the values at `S` as a guess for the value at `q`. -/
theorem mean_guess {X : Type} {K : X → X → ℝ} (hK : PSDK K) {I : Type} [Fintype I] [DecidableEq I] (t : I → X) (q : X) (S : Finset I)
    (hS : S.Nonempty) {δ s : ℝ} (hδ : ∀ i ∈ S, K q q - 2 * K (t i) q + K (t i) (t i) ≤ δ) :
    let a : I → ℝ := fun i => if i ∈ S then 1 / (S.card : ℝ) else 0
    K q q - 2 * ∑ i, a i * K (t i) q + ∑ i, ∑ l, a i * (K (t i) (t l) + if i = l then s else 0) * a l ≤ δ + s / S.card := by
  intro a
  have hc : (0 : ℝ) < S.card := by exact_mod_cast hS.card_pos
  have ha : ∀ i, 0 ≤ a i := fun i => by simp only [a]; split_ifs <;> positivity
  have h1 : ∑ i, a i = 1 := by
    simp only [a, Finset.sum_ite_mem, Finset.univ_inter, Finset.sum_const, nsmul_eq_mul]
    field_simp
  have h2 : ∑ i, s * a i ^ 2 = s / S.card := by
    simp only [a, ite_pow, mul_ite, ne_eq, OfNat.ofNat_ne_zero, not_false_eq_true, zero_pow, mul_zero, Finset.sum_ite_mem,
      Finset.univ_inter, Finset.sum_const, nsmul_eq_mul]
    field_simp
  have h3 : ∀ i l, K (t i) (t l) ≤ (K (t i) (t i) + K (t l) (t l)) / 2 := fun i l => by
    have := (hK.gram (I := Fin 2) ![t i, t l]).dotProduct_mulVec_nonneg ![1, -1]
    simp [dotProduct, Matrix.mulVec, Fin.sum_univ_succ] at this
    have hs := hK.symm (t i) (t l)
    linarith
  have h4 : ∑ i, ∑ l, a i * K (t i) (t l) * a l ≤ ∑ i, a i * K (t i) (t i) := by
    have : ∑ i, ∑ l, a i * K (t i) (t l) * a l ≤ ∑ i, ∑ l, (a i * K (t i) (t i) * a l / 2 + a l * K (t l) (t l) * a i / 2) :=
      Finset.sum_le_sum fun i _ => Finset.sum_le_sum fun l _ => by
        nlinarith [mul_le_mul_of_nonneg_left (h3 i l) (mul_nonneg (ha i) (ha l))]
    refine this.trans_eq ?_
    simp only [Finset.sum_add_distrib]
    rw [Finset.sum_comm (f := fun i l => a l * K (t l) (t l) * a i / 2)]
    simp only [← Finset.sum_div, ← Finset.mul_sum, h1, mul_one]
    ring
  have h5 : ∑ i, a i * (K q q - 2 * K (t i) q + K (t i) (t i)) ≤ ∑ i, a i * δ := Finset.sum_le_sum fun i _ => by
    by_cases hi : i ∈ S
    · exact mul_le_mul_of_nonneg_left (hδ i hi) (ha i)
    · simp [a, hi]
  rw [← Finset.sum_mul, h1, one_mul] at h5
  have h6 : ∑ i, a i * (K q q - 2 * K (t i) q + K (t i) (t i)) =
      K q q - 2 * ∑ i, a i * K (t i) q + ∑ i, a i * K (t i) (t i) := by
    simp only [mul_add, mul_sub, Finset.sum_add_distrib, Finset.sum_sub_distrib, ← Finset.sum_mul, h1, one_mul]
    congr 2
    rw [Finset.mul_sum]
    exact Finset.sum_congr rfl fun i _ => by ring
  have h7 := err_noise (fun i l => K (t i) (t l)) (fun _ => s) a
  rw [h7, h2]
  linarith

/-- **C170**: if the kernel tells each of `N` training samples apart from the new input by at most `δ`, the posterior variance at that
input is at most `δ + (sigma² + 1e-10) / N`, whatever the other training samples. -/
theorem C170_near (ex : la.Exact) (e : KExpr d) (θ : GPParams) (h : Admissible e θ.kernelParams) (xt : Batch m d) (x : Batch n d)
    (j : Fin n) (S : Finset (Fin m)) (hS : S.Nonempty) (δ : ℝ)
    (hδ : ∀ i ∈ S, e.obj.k θ.kernelParams x x j j - 2 * e.obj.k θ.kernelParams xt x i j + e.obj.k θ.kernelParams xt xt i i ≤ δ) :
    predictDenseCov la θ e.obj xt x j j ≤ δ + (θ.sigma ^ 2 + 1 / 10 ^ 10) / S.card := by
  obtain ⟨L, hL, hk⟩ := e.psd θ.kernelParams h
  simp only [hk] at hδ
  have h1 := mean_guess hL xt (x j) S hS (s := θ.sigma ^ 2 + 1 / 10 ^ 10) hδ
  have h2 := (C120_best_linear ex e θ h xt x j).1 fun i => if i ∈ S then 1 / (S.card : ℝ) else 0
  simp only [hk] at h2
  exact h2.trans h1

/-- **C170**, models trained on derivatives: the same for the rows (a sample and a direction) of the derivatives observed. -/
theorem C170_near_derivs (ex : la.Exact) (e : KExpr d) (θ : GPParams) (h : DerivSmooth e θ.kernelParams) (xt : Batch m d)
    (Jt : Jac m d u) (x : Batch n d) (J : Jac n d v) (j : Fin n) (q : Fin v) (S : Finset (Fin (m * u))) (hS : S.Nonempty) (δ : ℝ)
    (hδ : ∀ s ∈ S, e.obj.d01kj θ.kernelParams x x J J (flat j q) (flat j q) -
      2 * e.obj.d01kj θ.kernelParams xt x Jt J s (flat j q) + e.obj.d01kj θ.kernelParams xt xt Jt Jt s s ≤ δ) :
    predictDerivsDenseCov la θ e.obj xt Jt x J (flat j q) (flat j q) ≤ δ + (θ.sigma ^ 2 + 1 / 10 ^ 10) / S.card := by
  obtain ⟨E, hE, hk⟩ := derivPSD_flat e θ.kernelParams h
  simp only [hk, flat_divNat, flat_modNat] at hδ
  have h1 := mean_guess hE (fun s : Fin (m * u) => (xt s.divNat, fun f => Jt s.divNat f s.modNat)) (x j, fun f => J j f q) S hS
    (s := θ.sigma ^ 2 + 1 / 10 ^ 10) hδ
  have h2 := (C120_best_linear_derivs ex e θ h xt Jt x J j q).1 fun i => if i ∈ S then 1 / (S.card : ℝ) else 0
  simp only [hk, flat_divNat, flat_modNat] at h2
  exact h2.trans h1

/-- **C170**, in terms of the inputs: for the kernels with a bounded slope, `N` training samples within the slope-weighted squared distance
`δ` leave a variance of at most `δ + (sigma² + 1e-10) / N`. -/
theorem C170_near_inputs (ex : la.Exact) (e : KExpr d) (θ : GPParams) (h : Admissible e θ.kernelParams) (hs : SlopedExpr e)
    (xt : Batch m d) (x : Batch n d) (j : Fin n) (S : Finset (Fin m)) (hS : S.Nonempty) (δ : ℝ)
    (hδ : ∀ i ∈ S, ∑ f, kslope e θ.kernelParams f * (xt i f - x j f) ^ 2 ≤ δ) :
    predictDenseCov la θ e.obj xt x j j ≤ δ + (θ.sigma ^ 2 + 1 / 10 ^ 10) / S.card := by
  refine C170_near ex e θ h xt x j S hS δ fun i hi => ?_
  obtain ⟨L, hL, hk⟩ := e.psd θ.kernelParams h
  have h1 := (C165_kernel e θ.kernelParams h hs ![xt i, x j] 0 1).2
  simp only [kernelDist, hk, Matrix.cons_val_zero, Matrix.cons_val_one] at h1
  have h2 := hδ i hi
  have h3 := hL.symm (xt i) (x j)
  simp only [hk]
  linarith

/-- **C170**, the limit: along any sequence of training sets that puts arbitrarily many samples arbitrarily close to the input, the
posterior variance there tends to zero, for every kernel expression and every noise. -/
theorem C170_dense (ex : la.Exact) (e : KExpr d) (θ : GPParams) (h : Admissible e θ.kernelParams) (x : Batch n d) (j : Fin n)
    {M : ℕ → ℕ} (xt : ∀ t, Batch (M t) d)
    (hd : ∀ r > 0, ∀ N : ℕ, ∀ᶠ t in atTop, ∃ S : Finset (Fin (M t)), N ≤ S.card ∧ ∀ i ∈ S, ∀ f, |xt t i f - x j f| ≤ r) :
    Tendsto (fun t => predictDenseCov la θ e.obj (xt t) x j j) atTop (𝓝 0) := by
  obtain ⟨L, hL, hk⟩ := e.psd θ.kernelParams h
  have hcont : Continuous fun u : Fin d → ℝ => L (x j) (x j) - 2 * L u (x j) + L u u := by
    have hu : Continuous fun u : Fin d → ℝ => (fun _ => u : Batch 1 d) := continuous_pi fun _ => continuous_id
    have c1 := C131_kernel e (fun _ : Fin d → ℝ => θ.kernelParams) (fun _ => continuous_const) (fun _ => h) hu
      (continuous_const (y := x)) 0 j
    have c2 := C131_kernel e (fun _ : Fin d → ℝ => θ.kernelParams) (fun _ => continuous_const) (fun _ => h) hu hu 0 0
    simp only [hk] at c1 c2
    exact (continuous_const.sub (continuous_const.mul c1)).add c2
  have hs : 0 < θ.sigma ^ 2 + 1 / 10 ^ 10 := by positivity
  rw [Metric.tendsto_nhds]
  intro ε hε
  obtain ⟨r, hr, hball⟩ := Metric.continuous_iff.mp hcont (x j) (ε / 2) (by positivity)
  obtain ⟨N, hN⟩ := exists_nat_gt ((θ.sigma ^ 2 + 1 / 10 ^ 10) / (ε / 2))
  filter_upwards [hd (r / 2) (by positivity) (N + 1)] with t ⟨S, hc, hi⟩
  have hS : S.Nonempty := Finset.card_pos.mp (by omega)
  have h1 := C170_near ex e θ h (xt t) x j S hS (ε / 2) fun i hiS => by
    have hdist : dist (xt t i) (x j) < r :=
      lt_of_le_of_lt ((dist_pi_le_iff (r := r / 2) (by positivity)).mpr fun f => by rw [Real.dist_eq]; exact hi i hiS f) (by linarith)
    have := hball (xt t i) hdist
    rw [Real.dist_eq] at this
    have h2 := (abs_lt.mp this).2
    simp only [hk]
    linarith
  have h0 : 0 ≤ predictDenseCov la θ e.obj (xt t) x j j := by
    exact (C33_posterior_covariance ex e θ h (xt t) x).1.diag_nonneg
  have h2 : (θ.sigma ^ 2 + 1 / 10 ^ 10) / (S.card : ℝ) < ε / 2 := by
    have hcS : (N : ℝ) < S.card := by exact_mod_cast (by omega : N < S.card)
    have h3 := hN.trans hcS
    rw [div_lt_iff₀ (by positivity)] at h3
    rw [div_lt_iff₀ ((Nat.cast_nonneg N).trans_lt hcS)]
    linarith
  rw [Real.dist_eq, sub_zero, abs_of_nonneg h0]
  linarith

/-- **C170**, the predictions: when moreover the targets are those of `mu + f`, with `f` a fixed function of the kernel's space, the
predictions at that input tend to `mu + f`; for the zero mean they tend to `f`. -/
theorem C170_consistent (ex : la.Exact) (e : KExpr d) (θ : GPParams) (h : Admissible e θ.kernelParams) (mf : MeanFun) (x : Batch n d)
    (j : Fin n) {M : ℕ → ℕ} (xt : ∀ t, Batch (M t) d) (y : ∀ t, Mat (M t) o) (a : Fin o) (z : Batch c d) (w : Fin c → ℝ)
    (hy : ∀ t i, y t i a = mf (y t) + combo e.obj θ.kernelParams z w (xt t) i)
    (hd : ∀ r > 0, ∀ N : ℕ, ∀ᶠ t in atTop, ∃ S : Finset (Fin (M t)), N ≤ S.card ∧ ∀ i ∈ S, ∀ f, |xt t i f - x j f| ≤ r) :
    Tendsto (fun t => predictDense θ e.obj (xt t) x (fitDense la θ e.obj mf (xt t) (y t)).1 (fitDense la θ e.obj mf (xt t) (y t)).2 j a
      - mf (y t)) atTop (𝓝 (combo e.obj θ.kernelParams z w x j)) := by
  have h1 := ((C170_dense ex e θ h x j xt hd).sqrt).const_mul (Real.sqrt (comboNorm e.obj θ.kernelParams z w))
  rw [Real.sqrt_zero, mul_zero] at h1
  rw [tendsto_iff_dist_tendsto_zero]
  refine squeeze_zero (fun _ => dist_nonneg) (fun t => ?_) h1
  have := C164_exact_data ex e θ h mf (xt t) (y t) x j a z w (hy t)
  rw [Real.dist_eq, abs_sub_comm]
  convert this using 2
  ring

/-- The least error of a linear guess from `u = a·k`, `P = aᵀKa` and `Q = |a|²`. -/
theorem guess_floor {k R P Q u s : ℝ} (hk : 0 ≤ k) (hR : 0 ≤ R) (hP : 0 ≤ P) (hQ : 0 ≤ Q) (hs : 0 < s) (h1 : u ^ 2 ≤ P * k)
    (h2 : u ^ 2 ≤ Q * R) : s * k ^ 2 ≤ (k - 2 * u + (P + s * Q)) * (s * k + R) := by
  rcases hk.eq_or_lt with rfl | hk'
  · have hu : u = 0 := by nlinarith [sq_nonneg u]
    subst hu
    have : 0 ≤ (P + s * Q) * R := by positivity
    linarith
  rcases hR.eq_or_lt with rfl | hR'
  · have hu : u = 0 := by nlinarith [sq_nonneg u]
    subst hu
    have : 0 ≤ (P + s * Q) * (s * k) := by positivity
    nlinarith
  have hP' : u ^ 2 / k ≤ P := by rwa [div_le_iff₀ hk']
  have hQ' : u ^ 2 / R ≤ Q := by rwa [div_le_iff₀ hR']
  have hT : 0 < s * k + R := by positivity
  have h3 : k - 2 * u + (u ^ 2 / k + s * (u ^ 2 / R)) ≤ k - 2 * u + (P + s * Q) := by
    have := mul_le_mul_of_nonneg_left hQ' hs.le
    linarith
  refine le_trans ?_ (mul_le_mul_of_nonneg_right h3 hT.le)
  have h4 : (k - 2 * u + (u ^ 2 / k + s * (u ^ 2 / R))) * (s * k + R) - s * k ^ 2 = (k * R - u * (s * k + R)) ^ 2 / (k * R) := by
    field_simp
    ring
  have h5 : 0 ≤ (k * R - u * (s * k + R)) ^ 2 / (k * R) := by positivity
  linarith

/-- **C170**, the other direction: data only reduce the variance so far. With `s = sigma² + 1e-10` the posterior variance is at least
`s k(x, x)² / (s k(x, x) + Σ_i k(x_i, x)²)`, hence at least `s k(x, x) / (s + Σ_i k(x_i, x_i))`. -/
theorem C170_floor (ex : la.Exact) (e : KExpr d) (θ : GPParams) (h : Admissible e θ.kernelParams) (xt : Batch m d) (x : Batch n d)
    (j : Fin n) :
    let k := e.obj.k θ.kernelParams x x j j
    let s := θ.sigma ^ 2 + 1 / 10 ^ 10
    s * k ^ 2 ≤ predictDenseCov la θ e.obj xt x j j * (s * k + ∑ i, e.obj.k θ.kernelParams xt x i j ^ 2) ∧
      s * k ≤ predictDenseCov la θ e.obj xt x j j * (s + ∑ i, e.obj.k θ.kernelParams xt xt i i) := by
  intro k s
  obtain ⟨L, hL, hk⟩ := e.psd θ.kernelParams h
  have hs : 0 < s := by positivity
  have hd : ∀ p : Fin d → ℝ, 0 ≤ L p p := fun p => by
    have := (hL 1 fun _ => p).diag_nonneg (i := 0)
    exact this
  have h0 : 0 ≤ predictDenseCov la θ e.obj xt x j j := (C33_posterior_covariance ex e θ h xt x).1.diag_nonneg
  have first : s * k ^ 2 ≤ predictDenseCov la θ e.obj xt x j j * (s * k + ∑ i, e.obj.k θ.kernelParams xt x i j ^ 2) := by
    obtain ⟨a, ha, -⟩ := (C120_best_linear ex e θ h xt x j).2
    rw [← ha]
    simp only [k, hk]
    have h7 := err_noise (fun i l => L (xt i) (xt l)) (fun _ => s) a
    rw [h7]
    have hc := psdk_cauchy hL xt (fun _ : Unit => x j) a fun _ => 1
    simp only [Finset.univ_unique, Finset.sum_singleton, mul_one, one_mul] at hc
    have hP := (hL.gram xt).dotProduct_mulVec_nonneg a
    simp only [star_trivial, dotProduct, Matrix.mulVec, Matrix.of_apply, Finset.mul_sum, ← mul_assoc] at hP
    rw [← Finset.mul_sum]
    exact guess_floor (hd _) (Finset.sum_nonneg fun _ _ => sq_nonneg _) hP (Finset.sum_nonneg fun _ _ => sq_nonneg _) hs hc
      (Finset.sum_mul_sq_le_sq_mul_sq _ _ _)
  refine ⟨first, ?_⟩
  have hk0 : 0 ≤ k := by simp only [k, hk]; exact hd _
  rcases hk0.eq_or_lt with hz | hz
  · rw [← hz, mul_zero]
    exact mul_nonneg h0 (add_nonneg hs.le (Finset.sum_nonneg fun i _ => by rw [hk]; exact hd _))
  have hR : ∑ i, e.obj.k θ.kernelParams xt x i j ^ 2 ≤ k * ∑ i, e.obj.k θ.kernelParams xt xt i i := by
    rw [Finset.mul_sum]
    refine Finset.sum_le_sum fun i _ => ?_
    have hc := psdk_cauchy hL (fun _ : Unit => xt i) (fun _ : Unit => x j) (fun _ => 1) fun _ => 1
    simp only [Finset.univ_unique, Finset.sum_singleton, mul_one, one_mul] at hc
    simp only [k, hk]
    linarith
  have h2 := first.trans (mul_le_mul_of_nonneg_left (add_le_add_right hR (s * k)) h0)
  have h3 : k * (s * k) ≤ k * (predictDenseCov la θ e.obj xt x j j * (s + ∑ i, e.obj.k θ.kernelParams xt xt i i)) := by
    calc k * (s * k) = s * k ^ 2 := by ring
      _ ≤ _ := h2
      _ = _ := by ring
  exact le_of_mul_le_mul_left h3 hz

/-- Non-vacuity: two of three training samples are at the new input, so at most half the noise variance is left there. -/
example (θ : GPParams) (hl : 0 < θ.kernelParams.val "lengthscale") :
    predictDenseCov LinAlg.ideal θ (KExpr.squaredExponential (d := 1) none).obj ![![1], ![1], ![5]] ![![1]] 0 0 ≤
      (θ.sigma ^ 2 + 1 / 10 ^ 10) / 2 := by
  have := C170_near_inputs (m := 3) (n := 1) LinAlg.ideal_exact (KExpr.squaredExponential (d := 1) none) θ hl trivial
    ![![1], ![1], ![5]] ![![1]] 0 {0, 1} ⟨0, by simp⟩ 0 fun i hi => by
      fin_cases i
      · simp
      · simp
      · simp at hi
  have hc : ((({0, 1} : Finset (Fin 3)).card : ℕ) : ℝ) = 2 := by
    rw [show ({0, 1} : Finset (Fin 3)).card = 2 from by decide]; norm_num
  rwa [hc, zero_add] at this

/-- Non-vacuity: grids of step `1 / (t + 1)²` around the input `0`, whose first `t + 1` samples lie within `1 / (t + 1)`. -/
example : ∀ r > 0, ∀ N : ℕ, ∀ᶠ t : ℕ in atTop, ∃ S : Finset (Fin (t + 1)), N ≤ S.card ∧ ∀ i ∈ S, ∀ f : Fin 1,
    |(fun (i : Fin (t + 1)) (_ : Fin 1) => (i : ℝ) / ((t : ℝ) + 1) ^ 2) i f - 0| ≤ r := by
  intro r hr N
  obtain ⟨B, hB⟩ := exists_nat_gt (1 / r)
  filter_upwards [eventually_ge_atTop (max N B)] with t ht
  refine ⟨Finset.univ, by simp; omega, fun i _ f => ?_⟩
  have hi : (i : ℝ) ≤ (t : ℝ) + 1 := by exact_mod_cast i.isLt.le
  have hb : (B : ℝ) ≤ t := by exact_mod_cast (le_max_right N B).trans ht
  have ht0 : (0 : ℝ) < (t : ℝ) + 1 := by positivity
  rw [sub_zero, abs_of_nonneg (by positivity), div_le_iff₀ (by positivity)]
  rw [div_lt_iff₀ hr] at hB
  nlinarith [mul_le_mul_of_nonneg_left hb hr.le]

end GPX.Props
