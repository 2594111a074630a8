import Verif.Lemmas.DerivErrors
import Verif.Props.GPR

/-!
# C130, C20, C32: error of derivative kernels caused by the jitter of distances
-/

namespace GPX.Props
open GPX GPX.Spec

variable {d : ℕ}

theorem spread_error (ad : Dims d) (h : Function.Injective ad.idx) {u v : Fin ad.k → ℝ} {E : Fin d → ℝ}
    (hE : ∀ f, 0 ≤ E f) (hu : ∀ a, |u a - v a| ≤ E (ad.idx a)) (f : Fin d) : |ad.spread u f - ad.spread v f| ≤ E f := by
  rcases ad.cases_idx f with ⟨a, rfl⟩ | hf
  · rw [ad.spread_idx h, ad.spread_idx h]; exact hu a
  · rw [ad.spread_not _ _ hf, ad.spread_not _ _ hf, sub_self, abs_zero]; exact hE f

theorem spread2_error (ad : Dims d) (h : Function.Injective ad.idx) {u v : Fin ad.k → Fin ad.k → ℝ}
    {E : Fin d → Fin d → ℝ} (hE : ∀ f g, 0 ≤ E f g) (hu : ∀ a b, |u a b - v a b| ≤ E (ad.idx a) (ad.idx b))
    (f g : Fin d) : |ad.spread2 u f g - ad.spread2 v f g| ≤ E f g := by
  rcases ad.cases_idx f with ⟨a, rfl⟩ | hf
  · rcases ad.cases_idx g with ⟨b, rfl⟩ | hg
    · rw [ad.spread2_idx h, ad.spread2_idx h]; exact hu a b
    · rw [ad.spread2_not_right _ _ _ hg, ad.spread2_not_right _ _ _ hg, sub_self, abs_zero]; exact hE _ g
  · rw [ad.spread2_not_left _ _ _ hf, ad.spread2_not_left _ _ _ hf, sub_self, abs_zero]; exact hE f g

theorem closed_m52_base (a : Option (Dims d)) (p : KPar) :
    ClosedForm (KernelObj.init (KernelObj.matern52 a).base) p (Dims.resolve a) (Core.customJvp
      (m52Ex (p.val "lengthscale")) (m52T0Ex (p.val "lengthscale"))
      (fun k a => .neg (m52T0Ex (p.val "lengthscale") k a))) :=
  ClosedForm.customJvp (fun p => matern52BaseEx (Dims.resolve a) (p.val "lengthscale")) p (Dims.resolve a)
    (fun p => matern52T0 (Dims.resolve a) (p.val "lengthscale"))
    (fun p => matern52T1 (Dims.resolve a) (p.val "lengthscale")) (m52Ex (p.val "lengthscale"))
    (m52T0Ex (p.val "lengthscale")) (fun k a => .neg (m52T0Ex (p.val "lengthscale") k a)) rfl (fun _ => rfl)
    (fun _ => rfl)

/-- The derivatives of a kernel object at the samples `i` and `j` are those of its base function up to errors. -/
structure NearBase (κ : KernelObj d) (p : KPar) {n m : ℕ} (x1 : Batch n d) (x2 : Batch m d) (i : Fin n) (j : Fin m)
    (E : DerivErrors d) : Prop where
  d0 : ∀ f, |κ.d0k p x1 x2 (flat i f) j - κ.base.g0 p (x1 i) (x2 j) f| ≤ E.d0 f
  d1 : ∀ f, |κ.d1k p x1 x2 i (flat j f) - κ.base.g1 p (x1 i) (x2 j) f| ≤ E.d1 f
  d01 : ∀ f g, |κ.d01k p x1 x2 (flat i f) (flat j g) - κ.base.h01 p (x1 i) (x2 j) f g| ≤ E.d01 f g

theorem nearBase_exact {κ : KernelObj d} {p : KPar} {n m : ℕ} (x1 : Batch n d) (x2 : Batch m d) (i : Fin n) (j : Fin m)
    (h0 : κ.d0k p x1 x2 = (KernelObj.init κ.base).d0k p x1 x2)
    (h1 : κ.d1k p x1 x2 = (KernelObj.init κ.base).d1k p x1 x2)
    (h01 : κ.d01k p x1 x2 = (KernelObj.init κ.base).d01k p x1 x2) :
    NearBase κ p x1 x2 i j ⟨fun _ => 0, fun _ => 0, fun _ _ => 0⟩ where
  d0 f := by rw [h0]; simp [KernelObj.init, grad0Kernelize_apply]
  d1 f := by rw [h1]; simp [KernelObj.init, grad1Kernelize_apply]
  d01 f g := by rw [h01]; simp [KernelObj.init, grad01Kernelize_apply]

theorem nearBase (e : KExpr d) (hr : NoRepeats e) (p : KPar) {n m : ℕ} (x1 : Batch n d) (x2 : Batch m d) (i : Fin n)
    (j : Fin m) : NearBase e.obj p x1 x2 i j (derivErrors (x1 i) (x2 j) e p) := by
  induction e generalizing p with
  | constant a =>
    have h := C130_exact_partial (.constant a) trivial hr p
    exact nearBase_exact x1 x2 i j (h.d0k _ _) (h.d1k _ _) (h.d01k _ _)
  | linear a =>
    have h := C130_exact_partial (.linear a) trivial hr p
    exact nearBase_exact x1 x2 i j (h.d0k _ _) (h.d1k _ _) (h.d01k _ _)
  | polynomial a ni =>
    have h := C130_exact_partial (.polynomial a ni) trivial hr p
    exact nearBase_exact x1 x2 i j (h.d0k _ _) (h.d1k _ _) (h.d01k _ _)
  | expSinSquared a =>
    have h := C130_exact_partial (.expSinSquared a) trivial hr p
    exact nearBase_exact x1 x2 i j (h.d0k _ _) (h.d1k _ _) (h.d01k _ _)
  | matern12 a => exact nearBase_exact x1 x2 i j rfl rfl rfl
  | matern32 a => exact nearBase_exact x1 x2 i j rfl rfl rfl
  | squaredExponential a =>
    have h := C130_squared_exponential_partial a hr p x1 x2 (fun _ _ _ => 0 : Jac n d 0) (fun _ _ _ => 0 : Jac m d 0)
      (fun _ _ => 0)
    refine ⟨fun f => ?_, fun f => ?_, fun f g => ?_⟩
    · rw [show (KExpr.squaredExponential a).obj.d0k p x1 x2 = _ from h.2.1]
      simp [KernelObj.init, grad0Kernelize_apply, KExpr.obj, derivErrors]
    · rw [show (KExpr.squaredExponential a).obj.d1k p x1 x2 = _ from h.2.2.1]
      simp [KernelObj.init, grad1Kernelize_apply, KExpr.obj, derivErrors]
    · have h01 := h.2.2.2.1 (flat i f) (flat j g)
      have hb : (KernelObj.init (KernelObj.squaredExponential a).base).d01k p x1 x2 (flat i f) (flat j g) =
          (KernelObj.squaredExponential a).base.h01 p (x1 i) (x2 j) f g := by
        simp [KernelObj.init, grad01Kernelize_apply]
      rw [show (KExpr.squaredExponential a).obj.d01k p x1 x2 (flat i f) (flat j g) = _ from h01, hb]
      change |Real.exp (-(1 / 10 ^ 12)) * (KernelObj.squaredExponential a).base.h01 p (x1 i) (x2 j) f g -
        (KernelObj.squaredExponential a).base.h01 p (x1 i) (x2 j) f g| ≤
        1 / 10 ^ 12 * |(KernelObj.squaredExponential a).base.h01 p (x1 i) (x2 j) f g|
      rw [show ∀ h : ℝ, Real.exp (-(1 / 10 ^ 12)) * h - h = (Real.exp (-(1 / 10 ^ 12)) - 1) * h by intro h; ring, abs_mul]
      refine mul_le_mul_of_nonneg_right ?_ (abs_nonneg _)
      rw [abs_sub_comm, abs_of_nonneg]
      · have := Real.add_one_le_exp (-(1 / 10 ^ 12 : ℝ)); linarith
      · have : Real.exp (-(1 / 10 ^ 12)) ≤ 1 := Real.exp_le_one_iff.mpr (by norm_num); linarith
  | matern52 a =>
    have hA := closed_m52 a hr p
    have hB := closed_m52_base a p
    have hi := resolve_injective a hr
    refine ⟨fun f => ?_, fun f => ?_, fun f g => ?_⟩
    · have hb := hB.d0k x1 x2 i f j
      simp only [KernelObj.init, grad0Kernelize_apply, flat_divNat, flat_modNat] at hb
      rw [show (KExpr.matern52 a).obj.d0k p x1 x2 (flat i f) j = _ from hA.d0k x1 x2 i f j,
        show (KExpr.matern52 a).obj.base.g0 p (x1 i) (x2 j) f = _ from hb]
      exact spread_error _ hi (E := fun f => 5 / (3 * p.val "lengthscale" ^ 2) * (5 / 2 / 10 ^ 12) *
        |x1 i f - x2 j f|) (fun f => by positivity) (fun c => m52_error0 _ _ _ c) f
    · have hb := hB.d1k x1 x2 i j f
      simp only [KernelObj.init, grad1Kernelize_apply, flat_divNat, flat_modNat] at hb
      rw [show (KExpr.matern52 a).obj.d1k p x1 x2 i (flat j f) = _ from hA.d1k x1 x2 i j f,
        show (KExpr.matern52 a).obj.base.g1 p (x1 i) (x2 j) f = _ from hb]
      refine spread_error _ hi (E := fun f => 5 / (3 * p.val "lengthscale" ^ 2) * (5 / 2 / 10 ^ 12) *
        |x1 i f - x2 j f|) (fun f => by positivity) (fun c => ?_) f
      rw [m52_G1]
      simp only [Core.customJvp, Ex.eval]
      rw [← neg_sub', abs_neg]
      exact m52_error0 _ _ _ c
    · have hb := hB.d01k x1 x2 i f j g
      simp only [KernelObj.init, grad01Kernelize_apply, flat_divNat, flat_modNat] at hb
      rw [show (KExpr.matern52 a).obj.d01k p x1 x2 (flat i f) (flat j g) = _ from hA.d01k x1 x2 i f j g,
        show (KExpr.matern52 a).obj.base.h01 p (x1 i) (x2 j) f g = _ from hb]
      exact spread2_error _ hi (E := fun _ _ => 5 / (3 * p.val "lengthscale" ^ 2) * (5 / 10 ^ 12))
        (fun f g => by positivity) (fun b c => m52_error01 _ _ _ b c) f g
  | sum e1 e2 h1 h2 =>
    have q1 := h1 hr.1 (p.sub "kernel1")
    have q2 := h2 hr.2 (p.sub "kernel2")
    refine ⟨fun f => ?_, fun f => ?_, fun f g => ?_⟩
    · refine le_trans (le_of_eq (congrArg abs ?_)) ((abs_add_le _ _).trans (add_le_add (q1.d0 f) (q2.d0 f)))
      simp only [KExpr.obj, KernelObj.sum, sumKernels, Arr2.add, BaseKernel.add]
      ring
    · refine le_trans (le_of_eq (congrArg abs ?_)) ((abs_add_le _ _).trans (add_le_add (q1.d1 f) (q2.d1 f)))
      simp only [KExpr.obj, KernelObj.sum, sumKernels, Arr2.add, BaseKernel.add]
      ring
    · refine le_trans (le_of_eq (congrArg abs ?_)) ((abs_add_le _ _).trans (add_le_add (q1.d01 f g) (q2.d01 f g)))
      simp only [KExpr.obj, KernelObj.sum, sumKernels, Arr2.add, BaseKernel.add]
      ring
  | prod e1 e2 h1 h2 =>
    have q1 := h1 hr.1 (p.sub "kernel1")
    have q2 := h2 hr.2 (p.sub "kernel2")
    have k1 := C130_values_partial e1 (p.sub "kernel1") x1 x2 i j
    have k2 := C130_values_partial e2 (p.sub "kernel2") x1 x2 i j
    refine ⟨fun f => ?_, fun f => ?_, fun f g => ?_⟩
    · refine le_trans (le_of_eq (congrArg abs ?_)) ((abs_add_le _ _).trans (add_le_add
        (mulError_bound (q1.d0 f) k2) (mulError_bound k1 (q2.d0 f))))
      simp only [KExpr.obj, KernelObj.prod, prodDeriv0, Arr2.add, Arr2.mul, repeatRows_apply, BaseKernel.mul,
        flat_divNat]
      ring
    · refine le_trans (le_of_eq (congrArg abs ?_)) ((abs_add_le _ _).trans (add_le_add
        (mulError_bound (q1.d1 f) k2) (mulError_bound k1 (q2.d1 f))))
      simp only [KExpr.obj, KernelObj.prod, prodDeriv1, Arr2.add, Arr2.mul, repeatCols_apply, BaseKernel.mul,
        flat_divNat]
      ring
    · refine le_trans (le_of_eq (congrArg abs ?_)) ((abs_add_le _ _).trans (add_le_add ((abs_add_le _ _).trans
        (add_le_add ((abs_add_le _ _).trans (add_le_add (mulError_bound (q1.d01 f g) k2)
          (mulError_bound (q1.d0 f) (q2.d1 g)))) (mulError_bound (q1.d1 g) (q2.d0 f)))) (mulError_bound k1 (q2.d01 f g))))
      simp only [KExpr.obj, KernelObj.prod, prodDeriv01, Arr2.add, Arr2.mul, repeatRows_apply, repeatCols_apply,
        BaseKernel.mul, flat_divNat]
      ring

/-- **C130**, the derivatives of every kernel expression: `d0k`, `d1k` and `d01k` are the derivatives of the base
function pair by pair, up to the errors `derivErrors` caused by the jitter and the floor of the distances. -/
theorem C130_derivatives_partial (e : KExpr d) (hr : NoRepeats e) (p : KPar) {n m : ℕ} (x1 : Batch n d)
    (x2 : Batch m d) (i : Fin n) (j : Fin m) (f g : Fin d) :
    |e.obj.d0k p x1 x2 (flat i f) j - e.obj.base.g0 p (x1 i) (x2 j) f| ≤ (derivErrors (x1 i) (x2 j) e p).d0 f ∧
    |e.obj.d1k p x1 x2 i (flat j f) - e.obj.base.g1 p (x1 i) (x2 j) f| ≤ (derivErrors (x1 i) (x2 j) e p).d1 f ∧
    |e.obj.d01k p x1 x2 (flat i f) (flat j g) - e.obj.base.h01 p (x1 i) (x2 j) f g| ≤
      (derivErrors (x1 i) (x2 j) e p).d01 f g :=
  have h := nearBase e hr p x1 x2 i j
  ⟨h.d0 f, h.d1 f, h.d01 f g⟩

/-- A weighted sum moves by at most the weighted sum of the errors. -/
theorem sum_error {k : ℕ} (J u v E : Fin k → ℝ) (h : ∀ f, |u f - v f| ≤ E f) :
    |∑ f, J f * u f - ∑ f, J f * v f| ≤ ∑ f, |J f| * E f := by
  rw [← Finset.sum_sub_distrib]
  refine (Finset.abs_sum_le_sum_abs _ _).trans (Finset.sum_le_sum fun f _ => ?_)
  rw [← mul_sub, abs_mul]
  exact mul_le_mul_of_nonneg_left (h f) (abs_nonneg _)

theorem sum2_error {k l : ℕ} (J : Fin k → ℝ) (L : Fin l → ℝ) (u v E : Fin k → Fin l → ℝ)
    (h : ∀ f g, |u f g - v f g| ≤ E f g) :
    |∑ f, ∑ g, J f * u f g * L g - ∑ f, ∑ g, J f * v f g * L g| ≤ ∑ f, ∑ g, |J f| * E f g * |L g| := by
  rw [← Finset.sum_sub_distrib]
  refine (Finset.abs_sum_le_sum_abs _ _).trans (Finset.sum_le_sum fun f _ => ?_)
  rw [← Finset.sum_sub_distrib]
  refine (Finset.abs_sum_le_sum_abs _ _).trans (Finset.sum_le_sum fun g _ => ?_)
  rw [← sub_mul, ← mul_sub, abs_mul, abs_mul]
  exact mul_le_mul_of_nonneg_right (mul_le_mul_of_nonneg_left (h f g) (abs_nonneg _)) (abs_nonneg _)

/-- **C130**, the contractions with jacobians of every kernel expression: `d0kj`, `d1kj` and `d01kj` are those of the
base function up to the contraction of the errors with the absolute values of the jacobians. -/
theorem C130_jacobians_partial (e : KExpr d) (hr : NoRepeats e) (p : KPar) {n m v w : ℕ} (x1 : Batch n d)
    (x2 : Batch m d) (J1 : Jac n d v) (J2 : Jac m d w) (i : Fin n) (j : Fin m) (u : Fin v) (q : Fin w) :
    |e.obj.d0kj p x1 x2 J1 (flat i u) j - (KernelObj.init e.obj.base).d0kj p x1 x2 J1 (flat i u) j| ≤
      ∑ f, |J1 i f u| * (derivErrors (x1 i) (x2 j) e p).d0 f ∧
    |e.obj.d1kj p x1 x2 J2 i (flat j q) - (KernelObj.init e.obj.base).d1kj p x1 x2 J2 i (flat j q)| ≤
      ∑ f, |J2 j f q| * (derivErrors (x1 i) (x2 j) e p).d1 f ∧
    |e.obj.d01kj p x1 x2 J1 J2 (flat i u) (flat j q) -
        (KernelObj.init e.obj.base).d01kj p x1 x2 J1 J2 (flat i u) (flat j q)| ≤
      ∑ f, ∑ g, |J1 i f u| * (derivErrors (x1 i) (x2 j) e p).d01 f g * |J2 j g q| := by
  have h := nearBase e hr p x1 x2 i j
  obtain ⟨a, b, c⟩ := C25_expression_contractions e hr p
  refine ⟨?_, ?_, ?_⟩
  · rw [a n m v x1 x2 J1 i u j]
    simp only [KernelObj.init, grad0jacKernelize_apply, flat_divNat, flat_modNat]
    rw [Finset.sum_congr rfl fun f _ => mul_comm (e.obj.base.g0 p (x1 i) (x2 j) f) (J1 i f u)]
    exact sum_error _ _ _ _ h.d0
  · rw [b n m w x1 x2 J2 i j q]
    simp only [KernelObj.init, grad1jacKernelize_apply, flat_divNat, flat_modNat]
    rw [Finset.sum_congr rfl fun f _ => mul_comm (e.obj.base.g1 p (x1 i) (x2 j) f) (J2 j f q),
      Finset.sum_congr rfl fun f _ => mul_comm (e.obj.d1k p x1 x2 i (flat j f)) (J2 j f q)]
    exact sum_error _ _ _ _ h.d1
  · rw [c n m v w x1 x2 J1 J2 i u j q]
    simp only [KernelObj.init, grad01jacKernelize_apply, flat_divNat, flat_modNat]
    exact sum2_error _ _ _ _ _ h.d01

theorem abs_sum_mul_le {k : ℕ} (J u : Fin k → ℝ) : |∑ f, J f * u f| ≤ ∑ f, |J f| * |u f| :=
  (Finset.abs_sum_le_sum_abs _ _).trans (Finset.sum_le_sum fun _ _ => (abs_mul _ _).le)

/-- The error of a contracted product is at most the contracted error of the products. -/
theorem mulError_sum_left {k : ℕ} (J g E : Fin k → ℝ) (b eb : ℝ) (hb : 0 ≤ eb) :
    mulError (∑ f, J f * g f) (∑ f, |J f| * E f) b eb ≤ ∑ f, |J f| * mulError (g f) (E f) b eb := by
  have h := mul_le_mul_of_nonneg_right (abs_sum_mul_le J g) hb
  have e : ∑ f, |J f| * mulError (g f) (E f) b eb =
      (∑ f, |J f| * E f) * |b| + (∑ f, |J f| * |g f|) * eb + (∑ f, |J f| * E f) * eb := by
    simp only [Finset.sum_mul, ← Finset.sum_add_distrib, mulError]
    exact Finset.sum_congr rfl fun f _ => by ring
  rw [e]
  unfold mulError
  linarith

theorem mulError_comm (a ea b eb : ℝ) : mulError a ea b eb = mulError b eb a ea := by unfold mulError; ring

theorem mulError_sum_right {k : ℕ} (J g E : Fin k → ℝ) (b eb : ℝ) (hb : 0 ≤ eb) :
    mulError b eb (∑ f, J f * g f) (∑ f, |J f| * E f) ≤ ∑ f, |J f| * mulError b eb (g f) (E f) := by
  simp only [mulError_comm b eb]
  exact mulError_sum_left J g E b eb hb

theorem mulError_sum_both {k l : ℕ} (J g E : Fin k → ℝ) (L h F : Fin l → ℝ) (hE : ∀ f, 0 ≤ E f) (hF : ∀ f, 0 ≤ F f) :
    mulError (∑ f, J f * g f) (∑ f, |J f| * E f) (∑ f, L f * h f) (∑ f, |L f| * F f) ≤
      ∑ f, ∑ e, |J f| * mulError (g f) (E f) (h e) (F e) * |L e| := by
  refine (mulError_sum_left J g E _ _ (Finset.sum_nonneg fun f _ => mul_nonneg (abs_nonneg _) (hF f))).trans ?_
  refine Finset.sum_le_sum fun f _ => ?_
  refine (mul_le_mul_of_nonneg_left (mulError_sum_right L h F _ _ (hE f)) (abs_nonneg _)).trans (le_of_eq ?_)
  rw [Finset.mul_sum]
  exact Finset.sum_congr rfl fun e _ => by ring

theorem mulError_sum2_left {k l : ℕ} (J : Fin k → ℝ) (L : Fin l → ℝ) (g E : Fin k → Fin l → ℝ) (b eb : ℝ)
    (hb : 0 ≤ eb) :
    mulError (∑ f, ∑ e, J f * g f e * L e) (∑ f, ∑ e, |J f| * E f e * |L e|) b eb ≤
      ∑ f, ∑ e, |J f| * mulError (g f e) (E f e) b eb * |L e| := by
  have h : |∑ f, ∑ e, J f * g f e * L e| ≤ ∑ f, ∑ e, |J f| * |g f e| * |L e| :=
    (Finset.abs_sum_le_sum_abs _ _).trans (Finset.sum_le_sum fun f _ => (Finset.abs_sum_le_sum_abs _ _).trans
      (Finset.sum_le_sum fun e _ => by rw [abs_mul, abs_mul]))
  have h' := mul_le_mul_of_nonneg_right h hb
  have e : ∑ f, ∑ e, |J f| * mulError (g f e) (E f e) b eb * |L e| =
      (∑ f, ∑ e, |J f| * E f e * |L e|) * |b| + (∑ f, ∑ e, |J f| * |g f e| * |L e|) * eb +
        (∑ f, ∑ e, |J f| * E f e * |L e|) * eb := by
    simp only [Finset.sum_mul, ← Finset.sum_add_distrib, mulError]
    exact Finset.sum_congr rfl fun f _ => Finset.sum_congr rfl fun e _ => by ring
  rw [e]
  unfold mulError
  linarith

/-- The contractions with coefficients of a kernel object are those of its base function up to contracted errors. -/
structure NearBaseCoef (κ : KernelObj d) (p : KPar) {n m w : ℕ} (x1 : Batch n d) (x2 : Batch m d) (jc : Batch n d)
    (J : Jac m d w) (i : Fin n) (j : Fin m) (q : Fin w) (E : DerivErrors d) : Prop where
  d0 : |κ.d0kjc p x1 x2 jc i j - ∑ f, jc i f * κ.base.g0 p (x1 i) (x2 j) f| ≤ ∑ f, |jc i f| * E.d0 f
  d01 : |κ.d01kjc p x1 x2 jc J i (flat j q) - ∑ f, ∑ g, jc i f * κ.base.h01 p (x1 i) (x2 j) f g * J j g q| ≤
    ∑ f, ∑ g, |jc i f| * E.d01 f g * |J j g q|

theorem nearBaseCoef_of_contracts {κ : KernelObj d} {p : KPar} (h0 : ContractsCoef0 κ p) (h01 : ContractsCoef01 κ p)
    {n m w : ℕ} (x1 : Batch n d) (x2 : Batch m d) (jc : Batch n d) (J : Jac m d w) (i : Fin n) (j : Fin m) (q : Fin w)
    {E : DerivErrors d} (h : NearBase κ p x1 x2 i j E) : NearBaseCoef κ p x1 x2 jc J i j q E where
  d0 := by rw [h0]; exact sum_error _ _ _ _ h.d0
  d01 := by rw [h01]; exact sum2_error _ _ _ _ _ h.d01

theorem nearBaseCoef (e : KExpr d) (hr : NoRepeats e) (p : KPar) {n m w : ℕ} (x1 : Batch n d) (x2 : Batch m d)
    (jc : Batch n d) (J : Jac m d w) (i : Fin n) (j : Fin m) (q : Fin w) :
    NearBaseCoef e.obj p x1 x2 jc J i j q (derivErrors (x1 i) (x2 j) e p) := by
  have leaf : ∀ (e : KExpr d) (_ : NoRepeats e) (_ : NoMatern52 e) (p : KPar),
      NearBaseCoef e.obj p x1 x2 jc J i j q (derivErrors (x1 i) (x2 j) e p) := fun e hr hm p =>
    have h := C25_expression_coefficients e hr hm p
    nearBaseCoef_of_contracts h.1 h.2 _ _ _ _ _ _ _ (nearBase e hr p x1 x2 i j)
  induction e generalizing p with
  | constant a => exact leaf _ hr trivial p
  | linear a => exact leaf _ hr trivial p
  | polynomial a ni => exact leaf _ hr trivial p
  | expSinSquared a => exact leaf _ hr trivial p
  | matern12 a => exact leaf _ hr trivial p
  | matern32 a => exact leaf _ hr trivial p
  | squaredExponential a => exact leaf _ hr trivial p
  | matern52 a =>
    have hn := nearBase (.matern52 a) hr p x1 x2 i j
    constructor
    · have hb : (KExpr.matern52 a).obj.d0kjc p x1 x2 jc i j =
          (KernelObj.init (KExpr.matern52 a).obj.base).d0kjc p x1 x2 jc i j := rfl
      rw [hb]
      simp only [KernelObj.init, grad0jaccoefUntraced_apply]
      rw [Finset.sum_congr rfl fun f _ => mul_comm ((KExpr.matern52 a).obj.base.g0 p (x1 i) (x2 j) f) (jc i f),
        sub_self, abs_zero]
      exact Finset.sum_nonneg fun f _ => mul_nonneg (abs_nonneg _) ((abs_nonneg _).trans (hn.d0 f))
    · rw [show (KExpr.matern52 a).obj.d01kjc p x1 x2 jc J i (flat j q) = _ from
        (contracts_of_closed (closed_m52 a hr p)).coef01 n m w x1 x2 jc J i j q]
      exact sum2_error _ _ _ _ _ hn.d01
  | sum e1 e2 h1 h2 =>
    have q1 := h1 hr.1 (p.sub "kernel1")
    have q2 := h2 hr.2 (p.sub "kernel2")
    constructor
    · have h := (abs_add_le _ _).trans (add_le_add q1.d0 q2.d0)
      refine le_trans (le_of_eq (congrArg abs ?_)) (h.trans (le_of_eq ?_))
      · simp only [KExpr.obj, KernelObj.sum, sumKernelsJac, Arr2.add, BaseKernel.add, mul_add, Finset.sum_add_distrib]
        ring
      · simp only [derivErrors, mul_add, Finset.sum_add_distrib]
    · have h := (abs_add_le _ _).trans (add_le_add q1.d01 q2.d01)
      refine le_trans (le_of_eq (congrArg abs ?_)) (h.trans (le_of_eq ?_))
      · simp only [KExpr.obj, KernelObj.sum, sumKernelsJac2, Arr2.add, BaseKernel.add, mul_add, add_mul,
          Finset.sum_add_distrib]
        ring
      · simp only [derivErrors, mul_add, add_mul, Finset.sum_add_distrib]
  | prod e1 e2 h1 h2 =>
    have q1 := h1 hr.1 (p.sub "kernel1")
    have q2 := h2 hr.2 (p.sub "kernel2")
    have k1 := C130_values_partial e1 (p.sub "kernel1") x1 x2 i j
    have k2 := C130_values_partial e2 (p.sub "kernel2") x1 x2 i j
    have n1 := nearBase e1 hr.1 (p.sub "kernel1") x1 x2 i j
    have n2 := nearBase e2 hr.2 (p.sub "kernel2") x1 x2 i j
    have z1 := (abs_nonneg _).trans k1
    have z2 := (abs_nonneg _).trans k2
    constructor
    · have h := (abs_add_le _ _).trans (add_le_add
        ((mulError_bound q1.d0 k2).trans (mulError_sum_left _ _ _ _ _ z2))
        ((mulError_bound k1 q2.d0).trans (mulError_sum_right _ _ _ _ _ z1)))
      refine le_trans (le_of_eq (congrArg abs ?_)) (h.trans (le_of_eq ?_))
      · simp only [KExpr.obj, KernelObj.prod, prodDeriv0Jaccoef, Arr2.add, Arr2.mul, BaseKernel.mul]
        rw [Finset.sum_congr rfl fun f _ => mul_comm (jc i f) _, prod_rule_sum]
        rw [Finset.sum_congr rfl fun f _ => mul_comm (e1.obj.base.g0 (p.sub "kernel1") (x1 i) (x2 j) f) (jc i f),
          Finset.sum_congr rfl fun f _ => mul_comm (e2.obj.base.g0 (p.sub "kernel2") (x1 i) (x2 j) f) (jc i f)]
        ring
      · simp only [derivErrors, mul_add, Finset.sum_add_distrib]
    · have r1 : |e1.obj.d1kj (p.sub "kernel1") x1 x2 J i (flat j q) -
          ∑ g, J j g q * e1.obj.base.g1 (p.sub "kernel1") (x1 i) (x2 j) g| ≤
          ∑ g, |J j g q| * (derivErrors (x1 i) (x2 j) e1 (p.sub "kernel1")).d1 g := by
        rw [(C25_expression_contractions e1 hr.1 _).2.1 n m w x1 x2 J i j q,
          Finset.sum_congr rfl fun f _ => mul_comm (e1.obj.d1k (p.sub "kernel1") x1 x2 i (flat j f)) (J j f q)]
        exact sum_error _ _ _ _ n1.d1
      have r2 : |e2.obj.d1kj (p.sub "kernel2") x1 x2 J i (flat j q) -
          ∑ g, J j g q * e2.obj.base.g1 (p.sub "kernel2") (x1 i) (x2 j) g| ≤
          ∑ g, |J j g q| * (derivErrors (x1 i) (x2 j) e2 (p.sub "kernel2")).d1 g := by
        rw [(C25_expression_contractions e2 hr.2 _).2.1 n m w x1 x2 J i j q,
          Finset.sum_congr rfl fun f _ => mul_comm (e2.obj.d1k (p.sub "kernel2") x1 x2 i (flat j f)) (J j f q)]
        exact sum_error _ _ _ _ n2.d1
      have t1 := (mulError_bound q1.d01 k2).trans (mulError_sum2_left (jc i) (fun g => J j g q) _ _ _ _ z2)
      have t2 := (mulError_bound q1.d0 r2).trans (mulError_sum_both (jc i) _ _ (fun g => J j g q) _ _
        (fun f => (abs_nonneg _).trans (n1.d0 f)) (fun f => (abs_nonneg _).trans (n2.d1 f)))
      have t3 := (mulError_bound q2.d0 r1).trans (mulError_sum_both (jc i) _ _ (fun g => J j g q) _ _
        (fun f => (abs_nonneg _).trans (n2.d0 f)) (fun f => (abs_nonneg _).trans (n1.d1 f)))
      have t4 := (mulError_bound q2.d01 k1).trans (mulError_sum2_left (jc i) (fun g => J j g q) _ _ _ _ z1)
      have h := (abs_add_le _ _).trans (add_le_add ((abs_add_le _ _).trans (add_le_add ((abs_add_le _ _).trans
        (add_le_add t1 t2)) t3)) t4)
      refine le_trans (le_of_eq (congrArg abs ?_)) (h.trans (le_of_eq ?_))
      · simp only [KExpr.obj, KernelObj.prod, prodDeriv01Jaccoef, Arr2.add, Arr2.mul, repeatCols_apply, BaseKernel.mul,
          flat_divNat]
        rw [prod_rule_sum2]
        simp only [mul_comm (J j _ q), mul_comm (jc i _) (BaseKernel.g0 _ _ _ _ _)]
        ring
      · simp only [derivErrors, mul_add, add_mul, Finset.sum_add_distrib, mulError_comm
          (e1.obj.base.g1 (p.sub "kernel1") (x1 i) (x2 j) _), mulError_comm
          (e1.obj.base.f (p.sub "kernel1") (x1 i) (x2 j))]

/-- **C130**, the contractions with coefficients of every kernel expression. -/
theorem C130_coefficients_partial (e : KExpr d) (hr : NoRepeats e) (p : KPar) {n m w : ℕ} (x1 : Batch n d)
    (x2 : Batch m d) (jc : Batch n d) (J : Jac m d w) (i : Fin n) (j : Fin m) (q : Fin w) :
    |e.obj.d0kjc p x1 x2 jc i j - (KernelObj.init e.obj.base).d0kjc p x1 x2 jc i j| ≤
      ∑ f, |jc i f| * (derivErrors (x1 i) (x2 j) e p).d0 f ∧
    |e.obj.d01kjc p x1 x2 jc J i (flat j q) - (KernelObj.init e.obj.base).d01kjc p x1 x2 jc J i (flat j q)| ≤
      ∑ f, ∑ g, |jc i f| * (derivErrors (x1 i) (x2 j) e p).d01 f g * |J j g q| := by
  have h := nearBaseCoef e hr p x1 x2 jc J i j q
  simp only [KernelObj.init, grad0jaccoefUntraced_apply, grad01jaccoefUntraced_apply, flat_divNat, flat_modNat]
  rw [Finset.sum_congr rfl fun f _ => mul_comm (e.obj.base.g0 p (x1 i) (x2 j) f) (jc i f)]
  exact ⟨h.d0, h.d01⟩

/-! ## C20 and C32 for every kernel expression, up to the jitter -/

theorem near_both {a b c E : ℝ} (h1 : |a - c| ≤ E) (h2 : |b - c| ≤ E) : |a - b| ≤ 2 * E := by
  have := abs_sub_le a c b
  rw [abs_sub_comm c b] at this
  linarith

/-- **C20** for every kernel expression, `Matern52` included: the sums over coefficients are the contractions of the
jacobian kernels up to twice the errors of the derivatives, contracted with the absolute values of the coefficients. -/
theorem C20_errors_partial (e : KExpr d) (hr : NoRepeats e) (p : KPar) {n m v w : ℕ} (x1 : Batch n d) (x2 : Batch m d)
    (J1 : Jac n d v) (J2 : Jac m d w) (c : Fin n → Fin v → ℝ) (j : Fin m) (q : Fin w) :
    |∑ i, e.obj.d0kjc p x1 x2 (jaccoef c J1) i j - ∑ i, ∑ u, c i u * e.obj.d0kj p x1 x2 J1 (flat i u) j| ≤
      ∑ i, 2 * ∑ f, |jaccoef c J1 i f| * (derivErrors (x1 i) (x2 j) e p).d0 f ∧
    |∑ i, e.obj.d01kjc p x1 x2 (jaccoef c J1) J2 i (flat j q) -
        ∑ i, ∑ u, c i u * e.obj.d01kj p x1 x2 J1 J2 (flat i u) (flat j q)| ≤
      ∑ i, 2 * ∑ f, ∑ g, |jaccoef c J1 i f| * (derivErrors (x1 i) (x2 j) e p).d01 f g * |J2 j g q| := by
  obtain ⟨a, _, b⟩ := C25_expression_contractions e hr p
  constructor
  · rw [← Finset.sum_sub_distrib]
    refine (Finset.abs_sum_le_sum_abs _ _).trans (Finset.sum_le_sum fun i _ => ?_)
    have h : ∑ u, c i u * e.obj.d0kj p x1 x2 J1 (flat i u) j =
        ∑ f, jaccoef c J1 i f * e.obj.d0k p x1 x2 (flat i f) j := by
      simp only [a n m v x1 x2 J1 i _ j, jaccoef, Finset.sum_mul, Finset.mul_sum]
      rw [Finset.sum_comm]
      exact Finset.sum_congr rfl fun u _ => Finset.sum_congr rfl fun f _ => by ring
    rw [h]
    exact near_both (nearBaseCoef e hr p x1 x2 (jaccoef c J1) J2 i j q).d0
      (sum_error _ _ _ _ (nearBase e hr p x1 x2 i j).d0)
  · rw [← Finset.sum_sub_distrib]
    refine (Finset.abs_sum_le_sum_abs _ _).trans (Finset.sum_le_sum fun i _ => ?_)
    have h : ∑ u, c i u * e.obj.d01kj p x1 x2 J1 J2 (flat i u) (flat j q) =
        ∑ f, ∑ g, jaccoef c J1 i f * e.obj.d01k p x1 x2 (flat i f) (flat j g) * J2 j g q := by
      simp only [b n m v w x1 x2 J1 J2 i _ j q, jaccoef, Finset.sum_mul, Finset.mul_sum]
      have : ∀ f, ∑ g, ∑ u, c i u * J1 i f u * e.obj.d01k p x1 x2 (flat i f) (flat j g) * J2 j g q =
          ∑ u, ∑ g, c i u * J1 i f u * e.obj.d01k p x1 x2 (flat i f) (flat j g) * J2 j g q :=
        fun f => Finset.sum_comm
      rw [Finset.sum_congr rfl fun f _ => this f, Finset.sum_comm (s := Finset.univ (α := Fin d))]
      exact Finset.sum_congr rfl fun u _ => Finset.sum_congr rfl fun f _ =>
        Finset.sum_congr rfl fun e _ => by ring
    rw [h]
    exact near_both (nearBaseCoef e hr p x1 x2 (jaccoef c J1) J2 i j q).d01
      (sum2_error _ _ _ _ _ (nearBase e hr p x1 x2 i j).d01)

/-- **C32** for every kernel expression, `Matern52` included: the predictions from the stored coefficients are the dense
predictions up to the errors of C20. -/
theorem C32_errors_partial (e : KExpr d) (hr : NoRepeats e) (θ : GPParams) {n m v w : ℕ} (xt : Batch m d)
    (Jt : Jac m d w) (x : Batch n d) (J : Jac n d v) (mu : ℝ) (c : Mat (m * w) 1) (i : Fin n) (q : Fin v) :
    let jc := jaccoef (fun s u => c (flat s u) 0) Jt
    |predictYDerivsCoef θ e.obj xt x mu jc i 0 - predictYDerivsDense θ e.obj xt Jt x c mu i 0| ≤
      ∑ s, 2 * ∑ f, |jc s f| * (derivErrors (xt s) (x i) e θ.kernelParams).d0 f ∧
    |predictDerivsCoef θ e.obj xt x J mu jc i q - predictDerivsDense θ e.obj xt Jt x J c mu i q| ≤
      ∑ s, 2 * ∑ f, ∑ g, |jc s f| * (derivErrors (xt s) (x i) e θ.kernelParams).d01 f g * |J i g q| := by
  intro jc
  have h := C20_errors_partial e hr θ.kernelParams xt x Jt J (fun s u => c (flat s u) 0) i q
  constructor
  · simp only [predictYDerivsCoef, predictYDerivsDense, addScalar, Matrix.of_apply, Matrix.mul_apply,
      Matrix.transpose_apply, sum_flat, add_sub_add_left_eq_sub]
    simp only [mul_comm _ (c _ 0)]
    exact h.1
  · simp only [predictDerivsCoef, predictDerivsDense, unflatCol, predictDerivsFlat, addScalar,
      Matrix.of_apply, prod_flat, Matrix.mul_apply, Matrix.transpose_apply, aDerivsLhs, sum_flat,
      add_sub_add_left_eq_sub]
    simp only [mul_comm _ (c _ 0)]
    exact h.2

/-- The error of C20 for the witness of `C20_false` is below `1e-11` (lengthscale 1, one feature, distance 1): the
two ways of computing differ (`matern52_coef_ne`), but by less than that. -/
example : ∑ _i : Fin 1, 2 * ∑ f, |(jaccoef (v := 1) (fun _ _ => 1) fun _ _ _ => 1 : Batch 1 1) 0 f| *
    (derivErrors (fun _ => 1) (fun _ => 0) (.matern52 none : KExpr 1) (fun _ => 1)).d0 f ≤ 9 / 10 ^ 12 := by
  simp only [jaccoef, derivErrors, KPar.val, Finset.univ_unique, Finset.sum_singleton]
  norm_num

/-- Non-vacuity: a product of Matern52 on two of three features and a sum. -/
example : NoRepeats (.prod (.matern52 (some ⟨2, ![2, 0]⟩)) (.sum (.squaredExponential none) (.matern32 none)) :
    KExpr 3) := by
  refine ⟨?_, trivial, trivial⟩
  intro a b h
  fin_cases a <;> fin_cases b <;> simp_all

end GPX.Props
