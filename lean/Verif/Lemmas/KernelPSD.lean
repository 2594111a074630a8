import Verif.Lemmas.PSD
import Verif.Lemmas.KernelLeaves2

/-! # Gram matrices of kernel expressions -/

namespace GPX
open GPX.Spec

variable {d : ℕ}

/-- The entries of `k` are a positive semidefinite function of the two samples. -/
def KernelObj.PSD (κ : KernelObj d) (p : KPar) : Prop :=
  ∃ L : (Fin d → ℝ) → (Fin d → ℝ) → ℝ, PSDK L ∧
    ∀ {n m : ℕ} (x1 : Batch n d) (x2 : Batch m d) i j, κ.k p x1 x2 i j = L (x1 i) (x2 j)

theorem KernelObj.PSD.of_take {κ : KernelObj d} {p : KPar} (ad : Dims d)
    {K : (Fin ad.k → ℝ) → (Fin ad.k → ℝ) → ℝ} (hK : PSDK K)
    (h : ∀ {n m : ℕ} (x1 : Batch n d) (x2 : Batch m d) i j,
      κ.k p x1 x2 i j = K (ad.take (x1 i)) (ad.take (x2 j))) : κ.PSD p :=
  ⟨fun x y => K (ad.take x) (ad.take y), hK.comp ad.take, h⟩

/-- Squared scaled distance plus jitter, times a positive factor. -/
theorem negType_sqd (l : ℝ) (k : ℕ) {c j : ℝ} (hc : 0 < c) (hj : 0 < j) :
    NegType fun x y : Fin k → ℝ => c * (sqd l x y + j) where
  pos x y := mul_pos hc (add_pos_of_nonneg_of_pos (Finset.sum_nonneg fun _ _ => sq_nonneg _) hj)
  psd t ht := by
    have h := ((PSDK.gaussian k (t := t * c) (by positivity)).comp
      fun (x : Fin k → ℝ) a => x a / l).smul (Real.exp_pos (-(t * c * j))).le
    refine (congrArg PSDK ?_).mp h
    funext x y
    rw [← Real.exp_add]
    congr 1
    unfold sqd
    ring

theorem psd_poly {X : Type*} {D : X → X → ℝ} (hD : PSDK D) {b : ℝ} (hb : 0 ≤ b) (q : ℕ) :
    PSDK fun x y => (b + D x y) ^ q := ((PSDK.const hb).add hD).pow q

theorem psd_poly_noIntercept {X : Type*} {D : X → X → ℝ} (hD : PSDK D) {b : ℝ} (hb : 0 ≤ b)
    (q : ℕ) : PSDK fun x y => (b + D x y) ^ q - b ^ q := by
  induction q with
  | zero => simpa using PSDK.zero
  | succ q ih =>
    have h := (((PSDK.const hb).add hD).mul ih).add (hD.smul (pow_nonneg hb q))
    refine (congrArg PSDK ?_).mp h
    funext x y
    ring

theorem psd_ess (k : ℕ) {l per : ℝ} (hl : 0 < l) :
    PSDK fun x y : Fin k → ℝ => Real.exp (-4 * essS l per x y) := by
  have hcos : PSDK fun x y : Fin k → ℝ => ∑ a,
      (Real.cos (2 * Real.pi * x a / per) * Real.cos (2 * Real.pi * y a / per) +
        Real.sin (2 * Real.pi * x a / per) * Real.sin (2 * Real.pi * y a / per)) :=
    PSDK.sum _ fun a _ => (PSDK.rankOne fun x : Fin k → ℝ => Real.cos (2 * Real.pi * x a / per)).add
      (PSDK.rankOne fun x : Fin k → ℝ => Real.sin (2 * Real.pi * x a / per))
  have h := ((hcos.smul (r := 2 / l) (by positivity)).exp).smul
    (Real.exp_pos (-(2 / l * k))).le
  refine (congrArg PSDK ?_).mp h
  funext x y
  rw [← Real.exp_add]
  congr 1
  unfold essS
  have : ∀ a, Real.sin (Real.pi * (x a - y a) / per) ^ 2 / l =
      1 / (2 * l) - 1 / (2 * l) *
      (Real.cos (2 * Real.pi * x a / per) * Real.cos (2 * Real.pi * y a / per) +
        Real.sin (2 * Real.pi * x a / per) * Real.sin (2 * Real.pi * y a / per)) := by
    intro a
    rw [← Real.cos_sub]
    have e : 2 * Real.pi * x a / per - 2 * Real.pi * y a / per =
        2 * (Real.pi * (x a - y a) / per) := by ring
    rw [e, Real.cos_two_mul, Real.cos_sq']
    field_simp
    ring
  rw [Finset.sum_congr rfl fun a _ => this a, Finset.sum_sub_distrib, ← Finset.mul_sum]
  simp only [Finset.sum_const, Finset.card_univ, Fintype.card_fin, nsmul_eq_mul]
  field_simp
  ring

theorem jitter_pos' : (0 : ℝ) < sqDistJitter := by unfold sqDistJitter; positivity

theorem sqrt_max_jitter {k : ℕ} (l : ℝ) (x y : Fin k → ℝ) :
    max (sqd l x y + sqDistJitter) maternFloor = sqd l x y + sqDistJitter := by
  refine max_eq_left ?_
  have : 0 ≤ sqd l x y := Finset.sum_nonneg fun _ _ => sq_nonneg _
  have : maternFloor < sqDistJitter := by unfold maternFloor sqDistJitter; norm_num
  linarith

theorem KExpr.psd (e : KExpr d) (p : KPar) (h : Admissible e p) : e.obj.PSD p := by
  induction e generalizing p with
  | constant a =>
    exact ⟨fun _ _ => p.val "variance", PSDK.const h, (closed_constant a p).k⟩
  | linear a =>
    exact KernelObj.PSD.of_take (Dims.resolve a) (PSDK.dot _) fun _ _ _ _ => rfl
  | polynomial a b =>
    obtain ⟨⟨q, hq⟩, ho⟩ := h
    cases b with
    | false =>
      refine KernelObj.PSD.of_take (Dims.resolve a) (psd_poly (PSDK.dot _) ho q)
        fun x1 x2 i j => ?_
      simp [KExpr.obj, KernelObj.polynomial, polynomialK, matmulT, Dims.takeCols, hq]
    | true =>
      refine KernelObj.PSD.of_take (Dims.resolve a) (psd_poly_noIntercept (PSDK.dot _) ho q)
        fun x1 x2 i j => ?_
      simp [KExpr.obj, KernelObj.polynomial, noInterceptPolynomialK, matmulT, Dims.takeCols, hq]
  | squaredExponential a =>
    have hn := (negType_sqd (p.val "lengthscale") (Dims.resolve a).k one_pos jitter_pos').psd 1
      zero_le_one
    refine KernelObj.PSD.of_take (Dims.resolve a) hn fun x1 x2 i j => ?_
    simp only [KExpr.obj, KernelObj.squaredExponential, squaredExponentialK,
      squaredDistances_scaled, one_mul]
  | matern12 a =>
    have hn := (negType_sqd (p.val "lengthscale") (Dims.resolve a).k one_pos jitter_pos').expSqrt
      zero_le_one
    refine KernelObj.PSD.of_take (Dims.resolve a) hn fun x1 x2 i j => ?_
    simp only [KExpr.obj, KernelObj.matern12, matern12K, squaredDistances_scaled, one_mul,
      sqrt_max_jitter]
  | matern32 a =>
    have hn := (negType_sqd (p.val "lengthscale") (Dims.resolve a).k (c := 3) (by norm_num)
      jitter_pos').matern32
    refine KernelObj.PSD.of_take (Dims.resolve a) hn fun x1 x2 i j => ?_
    simp only [KExpr.obj, KernelObj.matern32, matern32K, squaredDistances_scaled,
      sqrt_max_jitter, Real.sqrt_mul (show (0 : ℝ) ≤ 3 by norm_num)]
  | matern52 a =>
    have hn := (negType_sqd (p.val "lengthscale") (Dims.resolve a).k (c := 5) (by norm_num)
      jitter_pos').matern52
    refine KernelObj.PSD.of_take (Dims.resolve a) hn fun x1 x2 i j => ?_
    simp only [KExpr.obj, KernelObj.matern52, matern52K, matern52Dist, squaredDistances_scaled,
      sqrt_max_jitter, Real.sqrt_mul (show (0 : ℝ) ≤ 5 by norm_num)]
  | expSinSquared a =>
    exact KernelObj.PSD.of_take (Dims.resolve a) (psd_ess _ h.1) (closed_ess a p).k
  | sum e1 e2 ih1 ih2 =>
    obtain ⟨L1, h1, k1⟩ := ih1 _ h.1
    obtain ⟨L2, h2, k2⟩ := ih2 _ h.2
    refine ⟨_, h1.add h2, fun x1 x2 i j => ?_⟩
    rw [← k1, ← k2]; rfl
  | prod e1 e2 ih1 ih2 =>
    obtain ⟨L1, h1, k1⟩ := ih1 _ h.1
    obtain ⟨L2, h2, k2⟩ := ih2 _ h.2
    refine ⟨_, h1.mul h2, fun x1 x2 i j => ?_⟩
    rw [← k1, ← k2]; rfl

end GPX
