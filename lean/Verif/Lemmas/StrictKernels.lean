import Verif.Lemmas.StrictPD
import Verif.Spec.Strict
import Verif.Lemmas.RPC
import Verif.Lemmas.Residual

/-! # Kernel expressions that are positive definite on the inputs they tell apart -/

namespace GPX
open GPX.Spec Matrix

variable {d n : ℕ}

/-- Equality of the active features. -/
def featSetoid (a : Option (Dims d)) : Setoid (Fin d → ℝ) := Setoid.ker (Dims.resolve a).take

theorem featSetoid_iff (a : Option (Dims d)) (x y : Fin d → ℝ) : featSetoid a x y ↔ SameFeatures a x y :=
  ⟨fun h b => congrFun (show (Dims.resolve a).take x = (Dims.resolve a).take y from h) b, fun h => funext h⟩

/-- Scaled squared distances tell apart samples with different features. -/
theorem negTypeS_sqd {l : ℝ} (hl : 0 < l) {k : ℕ} {X : Type*} (f : X → Fin k → ℝ) {c j : ℝ} (hc : 0 < c) (hj : 0 < j)
    (x : Fin n → X) (hx : ∀ i i', f (x i) = f (x i') → i = i') :
    NegTypeS (fun x y => c * (sqd l (f x) (f y) + j)) x where
  pos x y := (negType_sqd l k hc hj).pos (f x) (f y)
  psd t ht := ((negType_sqd l k hc hj).psd t ht).comp f
  pd t ht := by
    have h := (PDK.gaussian (fun (x : X) a => f x a / l) (t := t * c) (by positivity)).pd n x fun i i' hii => hx i i' ?_
    · refine (congrArg Matrix.PosDef ?_).mp (h.smul (Real.exp_pos (-(t * c * j))))
      ext i i'
      simp only [Matrix.smul_apply, Matrix.of_apply, smul_eq_mul]
      rw [← Real.exp_add]
      congr 1
      unfold sqd
      ring
    · funext a
      have h1 : f (x i) a / l = f (x i') a / l := congrFun (show (fun a => f (x i) a / l) = fun a => f (x i') a / l from hii) a
      have := (div_left_inj' hl.ne').mp h1
      exact this

/-- A function of the active features that is positive definite on samples with different features. -/
theorem strict_of_take (a : Option (Dims d)) {K : (Fin (Dims.resolve a).k → ℝ) → (Fin (Dims.resolve a).k → ℝ) → ℝ}
    (hK : PSDK K) (hp : ∀ (n : ℕ) (x : Fin n → Fin d → ℝ),
      (∀ i j, (Dims.resolve a).take (x i) = (Dims.resolve a).take (x j) → i = j) →
      (Matrix.of fun i j => K ((Dims.resolve a).take (x i)) ((Dims.resolve a).take (x j)) : Mat n n).PosDef) :
    PDK (featSetoid a) fun x y => K ((Dims.resolve a).take x) ((Dims.resolve a).take y) where
  psd := hK.comp _
  inv x x' y y' hx hy := by
    have hx : (Dims.resolve a).take x = (Dims.resolve a).take x' := hx
    have hy : (Dims.resolve a).take y = (Dims.resolve a).take y' := hy
    rw [hx, hy]
  pd n x hx := hp n x fun i j h => hx i j h

/-- Points of the circle with equal cosine and sine differ by whole turns. -/
theorem turns_of_cos_sin {per u v : ℝ} (hp : per ≠ 0)
    (hc : Real.cos (2 * Real.pi * u / per) = Real.cos (2 * Real.pi * v / per))
    (hs : Real.sin (2 * Real.pi * u / per) = Real.sin (2 * Real.pi * v / per)) : ∃ z : ℤ, u - v = z * per := by
  have h1 : Real.cos (2 * Real.pi * u / per - 2 * Real.pi * v / per) = 1 := by
    rw [Real.cos_sub, hc, hs]
    have := Real.cos_sq_add_sin_sq (2 * Real.pi * v / per)
    nlinarith
  obtain ⟨z, hz⟩ := (Real.cos_eq_one_iff _).mp h1
  refine ⟨z, ?_⟩
  have hpi := Real.pi_pos.ne'
  field_simp at hz
  linarith

theorem cos_sin_of_turns {per u v : ℝ} (hp : per ≠ 0) (z : ℤ) (h : u - v = z * per) :
    Real.cos (2 * Real.pi * u / per) = Real.cos (2 * Real.pi * v / per) ∧
      Real.sin (2 * Real.pi * u / per) = Real.sin (2 * Real.pi * v / per) := by
  have e : 2 * Real.pi * u / per = 2 * Real.pi * v / per + z * (2 * Real.pi) := by
    have : u = v + z * per := by linarith
    rw [this]; field_simp
  rw [e]
  exact ⟨Real.cos_add_int_mul_two_pi _ _, Real.sin_add_int_mul_two_pi _ _⟩

/-- The periodic kernel is a Gaussian of points on circles. -/
theorem ess_gaussian {k : ℕ} {l per : ℝ} (hl : 0 < l) (x y : Fin k → ℝ) :
    Real.exp (-4 * essS l per x y) =
      Real.exp (-(1 / l * ∑ a, (Real.cos (2 * Real.pi * x a / per) - Real.cos (2 * Real.pi * y a / per)) ^ 2)) *
      Real.exp (-(1 / l * ∑ a, (Real.sin (2 * Real.pi * x a / per) - Real.sin (2 * Real.pi * y a / per)) ^ 2)) := by
  rw [← Real.exp_add]
  congr 1
  unfold essS
  have : ∀ a, Real.sin (Real.pi * (x a - y a) / per) ^ 2 / l = 1 / l * (1 / 4) *
      ((Real.cos (2 * Real.pi * x a / per) - Real.cos (2 * Real.pi * y a / per)) ^ 2 +
        (Real.sin (2 * Real.pi * x a / per) - Real.sin (2 * Real.pi * y a / per)) ^ 2) := by
    intro a
    have e1 : (Real.cos (2 * Real.pi * x a / per) - Real.cos (2 * Real.pi * y a / per)) ^ 2 +
        (Real.sin (2 * Real.pi * x a / per) - Real.sin (2 * Real.pi * y a / per)) ^ 2 =
        2 - 2 * Real.cos (2 * Real.pi * x a / per - 2 * Real.pi * y a / per) := by
      rw [Real.cos_sub]
      have h1 := Real.cos_sq_add_sin_sq (2 * Real.pi * x a / per)
      have h2 := Real.cos_sq_add_sin_sq (2 * Real.pi * y a / per)
      nlinarith
    have e : 2 * Real.pi * x a / per - 2 * Real.pi * y a / per =
        2 * (Real.pi * (x a - y a) / per) := by ring
    rw [e1, e, Real.cos_two_mul, Real.cos_sq']
    field_simp
    ring
  rw [Finset.sum_congr rfl fun a _ => this a, ← Finset.mul_sum, Finset.sum_add_distrib]
  ring

/-- Every expression dominates a kernel that is positive definite on the inputs it tells apart. -/
theorem strict_of_resolves {e : KExpr d} {p : KPar} {R : (Fin d → ℝ) → (Fin d → ℝ) → Prop} (h : Resolves e p R) :
    ∃ (S : Setoid (Fin d → ℝ)) (L : (Fin d → ℝ) → (Fin d → ℝ) → ℝ), (∀ x y, S x y → R x y) ∧ StrictK S L ∧
      ∀ {n m : ℕ} (x1 : Batch n d) (x2 : Batch m d) i j, e.obj.k p x1 x2 i j = L (x1 i) (x2 j) := by
  induction h with
  | @squaredExponential a p hl =>
    refine ⟨featSetoid a, _, fun x y => (featSetoid_iff a x y).mp, (strict_of_take a
      ((negType_sqd (p.val "lengthscale") (Dims.resolve a).k one_pos jitter_pos').psd 1 zero_le_one)
      fun n x hx => (negTypeS_sqd hl (Dims.resolve a).take one_pos jitter_pos' x hx).pd 1 one_pos).strict,
      fun x1 x2 i j => ?_⟩
    simp only [KExpr.obj, KernelObj.squaredExponential, squaredExponentialK,
      squaredDistances_scaled, one_mul]
  | @matern12 a p hl =>
    refine ⟨featSetoid a, _, fun x y => (featSetoid_iff a x y).mp, (strict_of_take a
      (K := fun x y => Real.exp (-Real.sqrt (1 * (sqd (p.val "lengthscale") x y + sqDistJitter))))
      (by simpa using (negType_sqd (p.val "lengthscale") (Dims.resolve a).k one_pos jitter_pos').expSqrt zero_le_one)
      fun n x hx => (negTypeS_sqd hl (Dims.resolve a).take one_pos jitter_pos' x hx).expSqrt).strict,
      fun x1 x2 i j => ?_⟩
    simp only [KExpr.obj, KernelObj.matern12, matern12K, squaredDistances_scaled, one_mul,
      sqrt_max_jitter]
  | @matern32 a p hl =>
    refine ⟨featSetoid a, _, fun x y => (featSetoid_iff a x y).mp, (strict_of_take a
      (negType_sqd (p.val "lengthscale") (Dims.resolve a).k (c := 3) (by norm_num) jitter_pos').matern32
      fun n x hx => (negTypeS_sqd hl (Dims.resolve a).take (c := 3) (by norm_num) jitter_pos' x hx).matern32).strict,
      fun x1 x2 i j => ?_⟩
    simp only [KExpr.obj, KernelObj.matern32, matern32K, squaredDistances_scaled,
      sqrt_max_jitter, Real.sqrt_mul (show (0 : ℝ) ≤ 3 by norm_num)]
  | @matern52 a p hl =>
    refine ⟨featSetoid a, _, fun x y => (featSetoid_iff a x y).mp, (strict_of_take a
      (negType_sqd (p.val "lengthscale") (Dims.resolve a).k (c := 5) (by norm_num) jitter_pos').matern52
      fun n x hx => (negTypeS_sqd hl (Dims.resolve a).take (c := 5) (by norm_num) jitter_pos' x hx).matern52).strict,
      fun x1 x2 i j => ?_⟩
    simp only [KExpr.obj, KernelObj.matern52, matern52K, matern52Dist, squaredDistances_scaled,
      sqrt_max_jitter, Real.sqrt_mul (show (0 : ℝ) ≤ 5 by norm_num)]
  | @expSinSquared a p hl hp =>
    have h1 := PDK.gaussian (fun (x : Fin d → ℝ) b =>
      Real.cos (2 * Real.pi * (Dims.resolve a).take x b / p.val "periodicity")) (t := 1 / p.val "lengthscale") (by positivity)
    have h2 := PDK.gaussian (fun (x : Fin d → ℝ) b =>
      Real.sin (2 * Real.pi * (Dims.resolve a).take x b / p.val "periodicity")) (t := 1 / p.val "lengthscale") (by positivity)
    refine ⟨_, _, fun x y hxy b => ?_, (h1.mul h2).strict, fun x1 x2 i j => ?_⟩
    · exact turns_of_cos_sin hp.ne' (congrFun hxy.1 b) (congrFun hxy.2 b)
    · exact ((closed_ess a p).k x1 x2 i j).trans (ess_gaussian hl _ _)
  | @constant a p hv =>
    exact ⟨⊤, _, fun _ _ _ => trivial, (PDK.const hv).strict, (closed_constant a p).k⟩
  | @polynomial a p hq ho =>
    obtain ⟨q, hq⟩ := hq
    refine ⟨⊤, _, fun _ _ _ => trivial, (PDK.const (pow_pos ho q)).strict.add
      ((psd_poly_noIntercept (PSDK.dot (Dims.resolve a).k) ho.le q).comp (Dims.resolve a).take), fun x1 x2 i j => ?_⟩
    simp [KExpr.obj, KernelObj.polynomial, polynomialK, matmulT, Dims.takeCols, hq]
  | sum_left _ h2 ih =>
    obtain ⟨S, L, hS, hL, hk⟩ := ih
    obtain ⟨L2, h2, k2⟩ := KExpr.psd _ _ h2
    refine ⟨S, _, hS, hL.add h2, fun x1 x2 i j => ?_⟩
    rw [← hk, ← k2]; rfl
  | sum_right h1 _ ih =>
    obtain ⟨S, L, hS, hL, hk⟩ := ih
    obtain ⟨L1, h1, k1⟩ := KExpr.psd _ _ h1
    refine ⟨S, _, hS, hL.add h1, fun x1 x2 i j => ?_⟩
    rw [← hk, ← k1, add_comm]; rfl
  | prod _ _ ih1 ih2 =>
    obtain ⟨S1, L1, hS1, hL1, k1⟩ := ih1
    obtain ⟨S2, L2, hS2, hL2, k2⟩ := ih2
    refine ⟨S1 ⊓ S2, _, fun x y h => ⟨hS1 x y h.1, hS2 x y h.2⟩, hL1.mul hL2, fun x1 x2 i j => ?_⟩
    rw [← k1, ← k2]; rfl

theorem Spec.Resolves.admissible {e : KExpr d} {p : KPar} {R : (Fin d → ℝ) → (Fin d → ℝ) → Prop} (h : Resolves e p R) :
    Admissible e p := by
  induction h with
  | squaredExponential h => exact h
  | matern12 h => exact h
  | matern32 h => exact h
  | matern52 h => exact h
  | expSinSquared h h' => exact ⟨h, h'⟩
  | constant h => exact h.le
  | polynomial h h' => exact ⟨h, h'.le⟩
  | sum_left _ h2 ih => exact ⟨ih, h2⟩
  | sum_right h1 _ ih => exact ⟨h1, ih⟩
  | prod _ _ ih1 ih2 => exact ⟨ih1, ih2⟩

/-- The quadratic form of a positive definite matrix is at least a positive multiple of the square. -/
theorem posDef_lower {A : Mat n n} (hA : A.PosDef) : ∃ μ : ℝ, 0 < μ ∧
    ∀ c : Fin n → ℝ, μ * ∑ i, c i ^ 2 ≤ ∑ i, ∑ j, c i * A i j * c j := by
  have hu := posDef_isUnit hA
  have hi := hA.inv.posSemidef
  have ht : 0 ≤ ∑ i, A⁻¹ i i := Finset.sum_nonneg fun i _ => hi.diag_nonneg
  have key : ∀ c : Fin n → ℝ, ∑ i, c i ^ 2 ≤ (∑ i, A⁻¹ i i) * ∑ i, ∑ j, c i * A i j * c j := by
    intro c
    rw [Finset.sum_mul]
    refine Finset.sum_le_sum fun s _ => ?_
    have h := psd_cauchy hi s (A *ᵥ c)
    have e1 : ∑ a, A⁻¹ s a * (A *ᵥ c) a = c s := by
      have : (A⁻¹ *ᵥ (A *ᵥ c)) s = c s := by
        rw [Matrix.mulVec_mulVec, Matrix.nonsing_inv_mul _ hu, Matrix.one_mulVec]
      exact this
    have e2 : ∑ a, ∑ b, (A *ᵥ c) a * A⁻¹ a b * (A *ᵥ c) b = ∑ i, ∑ j, c i * A i j * c j := by
      have h1 : ∀ a, ∑ b, (A *ᵥ c) a * A⁻¹ a b * (A *ᵥ c) b = (A *ᵥ c) a * c a := by
        intro a
        have : (A⁻¹ *ᵥ (A *ᵥ c)) a = c a := by
          rw [Matrix.mulVec_mulVec, Matrix.nonsing_inv_mul _ hu, Matrix.one_mulVec]
        have e3 : (A⁻¹ *ᵥ (A *ᵥ c)) a = ∑ b, A⁻¹ a b * (A *ᵥ c) b := rfl
        rw [← this, e3, Finset.mul_sum]
        exact Finset.sum_congr rfl fun b _ => by ring
      rw [Finset.sum_congr rfl fun a _ => h1 a]
      refine Finset.sum_congr rfl fun i _ => ?_
      rw [Matrix.mulVec, dotProduct, Finset.sum_mul]
      exact Finset.sum_congr rfl fun j _ => by ring
    rw [e1, e2] at h
    exact h
  refine ⟨1 / (∑ i, A⁻¹ i i + 1), by positivity, fun c => ?_⟩
  have hq := psd_quad hA.posSemidef c
  have := key c
  rw [one_div, inv_mul_le_iff₀ (by positivity)]
  nlinarith

/-- The residuals of a ridge solution when the matrix is at least `μ`. -/
theorem ridge_contracts {K : Mat n n} {μ t : ℝ} (hμ : 0 ≤ μ) (ht : 0 < t)
    (hK : ∀ c : Fin n → ℝ, μ * ∑ i, c i ^ 2 ≤ ∑ i, ∑ j, c i * K i j * c j) (c b : Fin n → ℝ)
    (h : ∀ i, (∑ j, K i j * c j) + t * c i = b i) :
    ∑ i, (t * c i) ^ 2 ≤ (t / (μ + t)) ^ 2 * ∑ i, b i ^ 2 := by
  have h1 : ∑ i, c i * b i = ∑ i, ∑ j, c i * K i j * c j + t * ∑ i, c i ^ 2 := by
    rw [Finset.mul_sum, ← Finset.sum_add_distrib]
    refine Finset.sum_congr rfl fun i _ => ?_
    rw [← h i, mul_add, Finset.mul_sum]
    congr 1
    · exact Finset.sum_congr rfl fun j _ => by ring
    · ring
  have h2 := Finset.sum_mul_sq_le_sq_mul_sq Finset.univ c b
  set C := ∑ i, c i ^ 2 with hC
  set B := ∑ i, b i ^ 2 with hB
  have hC0 : 0 ≤ C := Finset.sum_nonneg fun i _ => sq_nonneg _
  have h3 : (μ + t) * C ≤ ∑ i, c i * b i := by rw [h1]; nlinarith [hK c]
  have h4 : (μ + t) ^ 2 * C ≤ B := by
    rcases hC0.eq_or_lt with h0 | h0
    · rw [← h0, mul_zero]; exact Finset.sum_nonneg fun i _ => sq_nonneg _
    · have : ((μ + t) * C) ^ 2 ≤ C * B := (pow_le_pow_left₀ (by positivity) h3 2).trans h2
      have h5 : C * ((μ + t) ^ 2 * C) ≤ C * B := by nlinarith
      exact le_of_mul_le_mul_left h5 h0
  have h6 : ∑ i, (t * c i) ^ 2 = t ^ 2 * C := by
    rw [hC, Finset.mul_sum]; exact Finset.sum_congr rfl fun i _ => by ring
  rw [h6, div_pow, div_mul_eq_mul_div, le_div_iff₀ (by positivity)]
  nlinarith [sq_nonneg t]

end GPX
