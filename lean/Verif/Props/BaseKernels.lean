import Verif.Lemmas.KernelClosedJ
import Verif.Spec.BaseKernels
import Verif.Props.KernelValues
import Verif.Props.KernelAlgebra

/-!
# C130: kernels and the base functions they are made from
-/

namespace GPX.Props
open GPX GPX.Spec

variable {d : ℕ}

/-- Two closed forms with the same five functions. -/
theorem same_of_closed {κ κ' : KernelObj d} {p : KPar} {ad : Dims d} {c c' : Core} (h : ClosedForm κ p ad c)
    (h' : ClosedForm κ' p ad c') (hK : ∀ {k : ℕ} (x y : Fin k → ℝ), c.K x y = c'.K x y)
    (h0 : ∀ {k : ℕ} (x y : Fin k → ℝ), c.G0 x y = c'.G0 x y)
    (h1 : ∀ {k : ℕ} (x y : Fin k → ℝ), c.G1 x y = c'.G1 x y)
    (hH : ∀ {k : ℕ} (x y : Fin k → ℝ), c.H x y = c'.H x y)
    (hC : ∀ {k : ℕ} (x y : Fin k → ℝ), c.C0 x y = c'.C0 x y) : SameCallables κ κ' p where
  k x1 x2 := by funext i j; rw [h.k, h'.k, hK]
  d0k x1 x2 := by funext r j; obtain ⟨i, f, rfl⟩ := flat_surj r; rw [h.d0k, h'.d0k, h0]
  d1k x1 x2 := by funext i r; obtain ⟨j, f, rfl⟩ := flat_surj r; rw [h.d1k, h'.d1k, h1]
  d01k x1 x2 := by
    funext r s
    obtain ⟨i, f, rfl⟩ := flat_surj r
    obtain ⟨j, e, rfl⟩ := flat_surj s
    rw [h.d01k, h'.d01k, hH]
  d0kj x1 x2 J := by funext r j; obtain ⟨i, f, rfl⟩ := flat_surj r; rw [h.d0kj, h'.d0kj, h0]
  d1kj x1 x2 J := by funext i r; obtain ⟨j, f, rfl⟩ := flat_surj r; rw [h.d1kj, h'.d1kj, h1]
  d01kj x1 x2 J1 J2 := by
    funext r s
    obtain ⟨i, f, rfl⟩ := flat_surj r
    obtain ⟨j, e, rfl⟩ := flat_surj s
    rw [h.d01kj, h'.d01kj, hH]
  d0kjc x1 x2 jc := by funext i j; rw [h.d0kjc, h'.d0kjc, hC]
  d01kjc x1 x2 jc J := by funext i r; obtain ⟨j, f, rfl⟩ := flat_surj r; rw [h.d01kjc, h'.d01kjc, hH]

theorem SameCallables.refl (κ : KernelObj d) (p : KPar) : SameCallables κ κ p :=
  ⟨fun _ _ => rfl, fun _ _ => rfl, fun _ _ => rfl, fun _ _ => rfl, fun _ _ _ => rfl, fun _ _ _ => rfl,
    fun _ _ _ _ => rfl, fun _ _ _ => rfl, fun _ _ _ _ => rfl⟩

theorem same_sum {κ1 κ2 : KernelObj d} {p : KPar}
    (h1 : SameCallables κ1 (.init κ1.base) (p.sub "kernel1"))
    (h2 : SameCallables κ2 (.init κ2.base) (p.sub "kernel2")) :
    SameCallables (κ1.sum κ2) (.init (κ1.sum κ2).base) p where
  k x1 x2 := by
    funext i j
    simp only [KernelObj.sum, sumKernels, Arr2.add, h1.k, h2.k, KernelObj.init, kernelize_apply, BaseKernel.add]
  d0k x1 x2 := by
    funext i j
    simp only [KernelObj.sum, sumKernels, Arr2.add, h1.d0k, h2.d0k, KernelObj.init, grad0Kernelize_apply,
      BaseKernel.add]
  d1k x1 x2 := by
    funext i j
    simp only [KernelObj.sum, sumKernels, Arr2.add, h1.d1k, h2.d1k, KernelObj.init, grad1Kernelize_apply,
      BaseKernel.add]
  d01k x1 x2 := by
    funext i j
    simp only [KernelObj.sum, sumKernels, Arr2.add, h1.d01k, h2.d01k, KernelObj.init, grad01Kernelize_apply,
      BaseKernel.add]
  d0kj x1 x2 J := by
    funext i j
    simp only [KernelObj.sum, sumKernelsJac, Arr2.add, h1.d0kj, h2.d0kj, KernelObj.init, grad0jacKernelize_apply,
      BaseKernel.add, add_mul, Finset.sum_add_distrib]
  d1kj x1 x2 J := by
    funext i j
    simp only [KernelObj.sum, sumKernelsJac, Arr2.add, h1.d1kj, h2.d1kj, KernelObj.init, grad1jacKernelize_apply,
      BaseKernel.add, add_mul, Finset.sum_add_distrib]
  d01kj x1 x2 J1 J2 := by
    funext i j
    simp only [KernelObj.sum, sumKernelsJac2, Arr2.add, h1.d01kj, h2.d01kj, KernelObj.init,
      grad01jacKernelize_apply, BaseKernel.add, add_mul, mul_add, Finset.sum_add_distrib]
  d0kjc x1 x2 jc := by
    funext i j
    simp only [KernelObj.sum, sumKernelsJac, Arr2.add, h1.d0kjc, h2.d0kjc, KernelObj.init,
      grad0jaccoefUntraced_apply, BaseKernel.add, add_mul, Finset.sum_add_distrib]
  d01kjc x1 x2 jc J := by
    funext i j
    simp only [KernelObj.sum, sumKernelsJac2, Arr2.add, h1.d01kjc, h2.d01kjc, KernelObj.init,
      grad01jaccoefUntraced_apply, BaseKernel.add, add_mul, mul_add, Finset.sum_add_distrib]

theorem prod_rule_sum {k : ℕ} (a1 a2 : ℝ) (g1 g2 J : Fin k → ℝ) :
    ∑ f, (g1 f * a2 + a1 * g2 f) * J f = a1 * ∑ f, g2 f * J f + (∑ f, g1 f * J f) * a2 := by
  rw [Finset.mul_sum, Finset.sum_mul, ← Finset.sum_add_distrib]
  exact Finset.sum_congr rfl fun f _ => by ring

theorem prod_rule_sum2 {k l : ℕ} (a1 a2 : ℝ) (g1 g2 J1 : Fin k → ℝ) (q1 q2 J2 : Fin l → ℝ)
    (h1 h2 : Fin k → Fin l → ℝ) :
    ∑ f, ∑ e, J1 f * (h1 f e * a2 + g1 f * q2 e + q1 e * g2 f + a1 * h2 f e) * J2 e =
      a1 * (∑ f, ∑ e, J1 f * h2 f e * J2 e) + (∑ f, g1 f * J1 f) * (∑ e, q2 e * J2 e) +
        (∑ e, q1 e * J2 e) * (∑ f, g2 f * J1 f) + (∑ f, ∑ e, J1 f * h1 f e * J2 e) * a2 := by
  rw [Finset.sum_mul_sum, mul_comm (∑ e, q1 e * J2 e), Finset.sum_mul_sum, Finset.mul_sum, Finset.sum_mul]
  simp only [Finset.mul_sum, Finset.sum_mul, ← Finset.sum_add_distrib]
  exact Finset.sum_congr rfl fun f _ => Finset.sum_congr rfl fun e _ => by ring

theorem same_prod {κ1 κ2 : KernelObj d} {p : KPar}
    (h1 : SameCallables κ1 (.init κ1.base) (p.sub "kernel1"))
    (h2 : SameCallables κ2 (.init κ2.base) (p.sub "kernel2")) :
    SameCallables (κ1.prod κ2) (.init (κ1.prod κ2).base) p where
  k x1 x2 := by
    funext i j
    simp only [KernelObj.prod, prodKernels, Arr2.mul, h1.k, h2.k, KernelObj.init, kernelize_apply, BaseKernel.mul]
  d0k x1 x2 := by
    funext i j
    simp only [KernelObj.prod, prodDeriv0, Arr2.add, Arr2.mul, repeatRows_apply, h1.k, h2.k, h1.d0k, h2.d0k,
      KernelObj.init, kernelize_apply, grad0Kernelize_apply, BaseKernel.mul]
    ring
  d1k x1 x2 := by
    funext i j
    simp only [KernelObj.prod, prodDeriv1, Arr2.add, Arr2.mul, repeatCols_apply, h1.k, h2.k, h1.d1k, h2.d1k,
      KernelObj.init, kernelize_apply, grad1Kernelize_apply, BaseKernel.mul]
    ring
  d01k x1 x2 := by
    funext i j
    simp only [KernelObj.prod, prodDeriv01, Arr2.add, Arr2.mul, repeatRows_apply, repeatCols_apply, h1.k, h2.k,
      h1.d0k, h2.d0k, h1.d1k, h2.d1k, h1.d01k, h2.d01k, KernelObj.init, kernelize_apply, grad0Kernelize_apply,
      grad1Kernelize_apply, grad01Kernelize_apply, BaseKernel.mul]
    ring
  d0kj x1 x2 J := by
    funext i j
    simp only [KernelObj.prod, prodDeriv0Jac, Arr2.add, Arr2.mul, repeatRows_apply, h1.k, h2.k, h1.d0kj, h2.d0kj,
      KernelObj.init, kernelize_apply, grad0jacKernelize_apply, BaseKernel.mul, prod_rule_sum]
  d1kj x1 x2 J := by
    funext i j
    simp only [KernelObj.prod, prodDeriv1Jac, Arr2.add, Arr2.mul, repeatCols_apply, h1.k, h2.k, h1.d1kj, h2.d1kj,
      KernelObj.init, kernelize_apply, grad1jacKernelize_apply, BaseKernel.mul, prod_rule_sum]
  d01kj x1 x2 J1 J2 := by
    funext i j
    simp only [KernelObj.prod, prodDeriv01Jac, Arr2.add, Arr2.mul, repeatRows_apply, repeatCols_apply, h1.k, h2.k,
      h1.d0kj, h2.d0kj, h1.d1kj, h2.d1kj, h1.d01kj, h2.d01kj, KernelObj.init, kernelize_apply,
      grad0jacKernelize_apply, grad1jacKernelize_apply, grad01jacKernelize_apply, BaseKernel.mul]
    rw [prod_rule_sum2]
  d0kjc x1 x2 jc := by
    funext i j
    simp only [KernelObj.prod, prodDeriv0Jaccoef, Arr2.add, Arr2.mul, h1.k, h2.k, h1.d0kjc, h2.d0kjc,
      KernelObj.init, kernelize_apply, grad0jaccoefUntraced_apply, BaseKernel.mul, prod_rule_sum]
  d01kjc x1 x2 jc J := by
    funext i j
    simp only [KernelObj.prod, prodDeriv01Jaccoef, Arr2.add, Arr2.mul, repeatCols_apply, h1.k, h2.k,
      h1.d0kjc, h2.d0kjc, h1.d1kj, h2.d1kj, h1.d01kjc, h2.d01kjc, KernelObj.init, kernelize_apply,
      grad0jaccoefUntraced_apply, grad1jacKernelize_apply, grad01jaccoefUntraced_apply, BaseKernel.mul]
    rw [prod_rule_sum2]

theorem eval_D_polyEx_inr (deg off : ℝ) (ni : Bool) {k : ℕ} (x y : Fin k → ℝ) (a : Fin k) :
    ((polyEx deg off ni k).D (.inr a)).eval (Sum.elim x y) =
      deg * (off + ∑ a, x a * y a) ^ (deg - 1) * x a := by
  have h : deg * (off + ∑ a, x a * y a) ^ (if deg = 0 then 1 else deg - 1) =
      deg * (off + ∑ a, x a * y a) ^ (deg - 1) := by
    by_cases h0 : deg = 0
    · simp [h0]
    · rw [if_neg h0]
  cases ni <;>
  · simp only [polyEx, Ex.D, Ex.eval, eval_D_dotEx_inr, eval_dotEx, if_true, if_false,
      Bool.false_eq_true, h]
    ring

theorem eval_DD_polyEx (deg off : ℝ) (ni : Bool) {k : ℕ} (x y : Fin k → ℝ) (a b : Fin k) :
    (((polyEx deg off ni k).D (.inl a)).D (.inr b)).eval (Sum.elim x y) =
      (Core.polynomial deg off ni).H x y a b := by
  simp only [Core.polynomial]
  by_cases h0 : deg = 0
  · cases ni <;> simp [polyEx, Ex.D, Ex.eval, h0]
  · by_cases h1 : deg = 1
    · cases ni <;>
      · simp [polyEx, Ex.D, Ex.eval, h1, eval_DD_dotEx]
    · have h1' : deg - 1 ≠ 0 := sub_ne_zero.mpr h1
      have e : deg - 1 - 1 = deg - 2 := by ring
      cases ni <;>
      · simp only [polyEx, Ex.D, Ex.eval, eval_D_dotEx_inl, eval_D_dotEx_inr, eval_DD_dotEx, eval_dotEx, if_true,
          if_false, Bool.false_eq_true, h0, h1', e]
        ring

/-- The full claim of C130: every function of every kernel object is the one derived from its base function. -/
def C130_full : Prop :=
  ∀ (d : ℕ) (e : KExpr d), NoRepeats e → ∀ p : KPar, SameCallables e.obj (.init e.obj.base) p

/-- **C130** for the kernels without distances: Constant, Linear, Polynomial, ExpSinSquared, their sums and products.
All nine functions of the kernel object are those the class `Kernel` derives from the base function alone. -/
theorem C130_exact_partial (e : KExpr d) (hd : NoDistance e) (hr : NoRepeats e) (p : KPar) :
    SameCallables e.obj (.init e.obj.base) p := by
  induction e generalizing p with
  | constant a =>
    refine same_of_closed (closed_constant a p) (ClosedForm.ofEx (fun p => constantBase (Dims.resolve a)
      (p.val "variance")) p (Dims.resolve a) (fun _ => .const (p.val "variance")) rfl) ?_ ?_ ?_ ?_ ?_ <;>
    · intro k x y
      rfl
  | linear a =>
    refine same_of_closed (closed_linear a hr p) (ClosedForm.ofEx (fun _ => linearBase (Dims.resolve a)) p
      (Dims.resolve a) dotEx rfl) ?_ ?_ ?_ ?_ ?_ <;> intro k x y
    · exact (eval_dotEx x y).symm
    · exact funext fun a => (eval_D_dotEx_inl x y a).symm
    · exact funext fun a => (eval_D_dotEx_inr x y a).symm
    · exact funext fun a => funext fun b => (eval_DD_dotEx x y a b).symm
    · exact funext fun a => (eval_D_dotEx_inl x y a).symm
  | polynomial a ni =>
    refine same_of_closed (closed_polynomial a hr ni p) (ClosedForm.ofEx (fun p => if ni then
      noInterceptPolynomialBase (Dims.resolve a) (p.val "degree") (p.val "offset")
      else polynomialBase (Dims.resolve a) (p.val "degree") (p.val "offset")) p
      (Dims.resolve a) (polyEx (p.val "degree") (p.val "offset") ni)
      (polyBase_rename _ _ _ _)) ?_ ?_ ?_ ?_ ?_ <;> intro k x y
    · cases ni <;> simp [Core.polynomial, Core.ofEx, polyEx, Ex.eval, eval_dotEx, sub_eq_add_neg]
    · exact funext fun a => (eval_D_polyEx_inl _ _ ni x y a).symm
    · exact funext fun a => (eval_D_polyEx_inr _ _ ni x y a).symm
    · exact funext fun a => funext fun b => (eval_DD_polyEx _ _ ni x y a b).symm
    · exact funext fun a => (eval_D_polyEx_inl _ _ ni x y a).symm
  | expSinSquared a => exact SameCallables.refl _ p
  | squaredExponential a => exact hd.elim
  | matern12 a => exact hd.elim
  | matern32 a => exact hd.elim
  | matern52 a => exact hd.elim
  | sum e1 e2 h1 h2 => exact same_sum (h1 hd.1 hr.1 _) (h2 hd.2 hr.2 _)
  | prod e1 e2 h1 h2 => exact same_prod (h1 hd.1 hr.1 _) (h2 hd.2 hr.2 _)

/-- Non-vacuity: a product of a polynomial on two of three features and a sum. -/
example : NoDistance (.prod (.polynomial (some ⟨2, ![2, 0]⟩) true) (.sum (.constant none) (.expSinSquared none)) :
    KExpr 3) ∧ NoRepeats (.prod (.polynomial (some ⟨2, ![2, 0]⟩) true)
      (.sum (.constant none) (.expSinSquared none)) : KExpr 3) := by
  refine ⟨⟨trivial, trivial, trivial⟩, ?_, trivial, trivial⟩
  intro a b h
  fin_cases a <;> fin_cases b <;> simp_all

/-- **C130** for SquaredExponential: the kernel, the mixed second derivative and its two contractions are those of the
base function times `exp(-1e-12)`; the first derivatives and their contractions are those of the base function. -/
theorem C130_squared_exponential_partial (a : Option (Dims d)) (h : NoRepeat a) (p : KPar) {n m v w : ℕ}
    (x1 : Batch n d) (x2 : Batch m d) (J1 : Jac n d v) (J2 : Jac m d w) (jc : Batch n d) :
    let κ := KernelObj.squaredExponential a
    let κ' := KernelObj.init κ.base
    (∀ i j, κ.k p x1 x2 i j = Real.exp (-(1 / 10 ^ 12)) * κ'.k p x1 x2 i j) ∧
    κ.d0k p x1 x2 = κ'.d0k p x1 x2 ∧ κ.d1k p x1 x2 = κ'.d1k p x1 x2 ∧
    (∀ r s, κ.d01k p x1 x2 r s = Real.exp (-(1 / 10 ^ 12)) * κ'.d01k p x1 x2 r s) ∧
    κ.d0kj p x1 x2 J1 = κ'.d0kj p x1 x2 J1 ∧ κ.d1kj p x1 x2 J2 = κ'.d1kj p x1 x2 J2 ∧
    (∀ r s, κ.d01kj p x1 x2 J1 J2 r s = Real.exp (-(1 / 10 ^ 12)) * κ'.d01kj p x1 x2 J1 J2 r s) ∧
    κ.d0kjc p x1 x2 jc = κ'.d0kjc p x1 x2 jc ∧
    ∀ i s, κ.d01kjc p x1 x2 jc J2 i s = Real.exp (-(1 / 10 ^ 12)) * κ'.d01kjc p x1 x2 jc J2 i s := by
  intro κ κ'
  have hA := closed_se a h p
  have hB : ClosedForm κ' p (Dims.resolve a) (Core.ofEx (seEx (p.val "lengthscale"))) := ClosedForm.ofEx
    (fun p => squaredExponentialBase (Dims.resolve a) (p.val "lengthscale")) p
    (Dims.resolve a) (seEx (p.val "lengthscale")) rfl
  have hexp : ∀ s : ℝ, Real.exp (-(s + sqDistJitter)) = Real.exp (-(1 / 10 ^ 12)) * Real.exp (-s) := by
    intro s
    rw [← Real.exp_add]
    congr 1
    unfold sqDistJitter
    ring
  have hK : ∀ {k : ℕ} (x y : Fin k → ℝ), (Core.se (p.val "lengthscale")).K x y =
      Real.exp (-(1 / 10 ^ 12)) * (Core.ofEx (seEx (p.val "lengthscale"))).K x y := by
    intro k x y
    simp only [Core.se, Core.ofEx, seEx, Ex.eval, eval_sqDistEx, hexp]
  have hH : ∀ {k : ℕ} (x y : Fin k → ℝ) (b c : Fin k), (Core.se (p.val "lengthscale")).H x y b c =
      Real.exp (-(1 / 10 ^ 12)) * (Core.ofEx (seEx (p.val "lengthscale"))).H x y b c := by
    intro k x y b c
    simp only [Core.se, Core.ofEx, seEx, Ex.D, Ex.eval, eval_sqDistEx, eval_D_sqDistEx_inl, eval_D_sqDistEx_inr,
      eval_DD_sqDistEx, hexp]
    by_cases hbc : b = c
    · simp only [hbc, if_true]; ring
    · simp only [hbc, if_false]; ring
  refine ⟨fun i j => ?_, rfl, rfl, fun r s => ?_, rfl, rfl, fun r s => ?_, rfl, fun i s => ?_⟩
  · rw [hA.k, hB.k, hK]
  · obtain ⟨i, f, rfl⟩ := flat_surj r
    obtain ⟨j, e, rfl⟩ := flat_surj s
    rw [hA.d01k, hB.d01k]
    simp only [Dims.spread2, Dims.spread, hH, Finset.mul_sum, mul_ite, mul_zero]
  · obtain ⟨i, f, rfl⟩ := flat_surj r
    obtain ⟨j, e, rfl⟩ := flat_surj s
    rw [hA.d01kj, hB.d01kj, Finset.mul_sum]
    refine Finset.sum_congr rfl fun b _ => ?_
    rw [Finset.mul_sum]
    exact Finset.sum_congr rfl fun c _ => by rw [hH]; ring
  · obtain ⟨j, e, rfl⟩ := flat_surj s
    rw [hA.d01kjc, hB.d01kjc, Finset.mul_sum]
    refine Finset.sum_congr rfl fun b _ => ?_
    rw [Finset.mul_sum]
    exact Finset.sum_congr rfl fun c _ => by rw [hH]; ring

/-- The jitter moves a clamped distance by at most `1e-6` times the scale. -/
theorem clamp_shift (c : ℝ) (hc : 1 ≤ c) {s : ℝ} (hs : 0 ≤ s) :
    Real.sqrt (max (c * s) maternFloor) ≤ Real.sqrt c * Real.sqrt (max (s + sqDistJitter) maternFloor) ∧
    Real.sqrt c * Real.sqrt (max (s + sqDistJitter) maternFloor) - Real.sqrt (max (c * s) maternFloor) ≤
      Real.sqrt c / 10 ^ 6 := by
  have hm : max (s + sqDistJitter) maternFloor = s + sqDistJitter :=
    max_eq_left (by unfold maternFloor sqDistJitter; linarith)
  rw [hm, ← Real.sqrt_mul (by linarith)]
  constructor
  · refine Real.sqrt_le_sqrt (max_le ?_ ?_)
    · unfold sqDistJitter
      nlinarith
    · unfold maternFloor sqDistJitter
      nlinarith
  · rw [sub_le_iff_le_add, Real.sqrt_le_iff]
    refine ⟨by positivity, ?_⟩
    have h1 := Real.sq_sqrt (show (0 : ℝ) ≤ c by linarith)
    have h2 := Real.sq_sqrt (show (0 : ℝ) ≤ max (c * s) maternFloor from le_max_of_le_left (by nlinarith))
    have h3 : c * s ≤ max (c * s) maternFloor := le_max_left _ _
    have h4 : 0 ≤ Real.sqrt c / 10 ^ 6 * Real.sqrt (max (c * s) maternFloor) := by positivity
    have h5 : (Real.sqrt c / 10 ^ 6) ^ 2 = c * sqDistJitter := by
      rw [div_pow, h1]; unfold sqDistJitter; ring
    nlinarith

/-- **C130** for the values of every kernel expression: `k` is the base function evaluated pair by pair, up to the
effect of the jitter and the floor of the distances (`1e-12` for SquaredExponential, `1e-6` for Matern12, `√3 1e-6`
for Matern32, `√5 1e-6 + 1e-36` for Matern52, propagated through sums and products). -/
theorem C130_values_partial (e : KExpr d) (p : KPar) {n m : ℕ} (x1 : Batch n d)
    (x2 : Batch m d) (i : Fin n) (j : Fin m) :
    |e.obj.k p x1 x2 i j - e.obj.base.f p (x1 i) (x2 j)| ≤ jitterError (x1 i) (x2 j) e p := by
  induction e generalizing p with
  | constant a =>
    rw [show (KExpr.constant a).obj.k p x1 x2 i j = _ from (closedJ_constant a p).k x1 x2 i j]
    have hB := ClosedForm.ofEx (fun p => constantBase (Dims.resolve a) (p.val "variance")) p (Dims.resolve a)
      (fun _ => .const (p.val "variance")) rfl
    have hb := hB.k x1 x2 i j
    simp only [KernelObj.init, kernelize_apply] at hb
    rw [show (KExpr.constant a).obj.base.f p (x1 i) (x2 j) = _ from hb]
    simp [Core.constant, Core.ofEx, Ex.eval, jitterError]
  | linear a =>
    have hB := ClosedForm.ofEx (fun _ => linearBase (Dims.resolve a)) p (Dims.resolve a) dotEx rfl
    have hb := (hB.k x1 x2 i j).trans (eval_dotEx _ _)
    simp only [KernelObj.init, kernelize_apply] at hb
    rw [show (KExpr.linear a).obj.base.f p (x1 i) (x2 j) = _ from hb,
      show (KExpr.linear a).obj.k p x1 x2 i j = _ from (closedJ_linear a p).k x1 x2 i j]
    simp [Core.linear, jitterError]
  | polynomial a ni =>
    have hB := ClosedForm.ofEx (fun p => if ni then
      noInterceptPolynomialBase (Dims.resolve a) (p.val "degree") (p.val "offset")
      else polynomialBase (Dims.resolve a) (p.val "degree") (p.val "offset")) p
      (Dims.resolve a) (polyEx (p.val "degree") (p.val "offset") ni) (polyBase_rename _ _ _ _)
    have hb := hB.k x1 x2 i j
    simp only [KernelObj.init, kernelize_apply] at hb
    rw [show (KExpr.polynomial a ni).obj.base.f p (x1 i) (x2 j) = _ from hb,
      show (KExpr.polynomial a ni).obj.k p x1 x2 i j = _ from (closedJ_polynomial a ni p).k x1 x2 i j]
    cases ni <;> simp [Core.polynomial, Core.ofEx, polyEx, Ex.eval, eval_dotEx, sub_eq_add_neg, jitterError]
  | expSinSquared a =>
    rw [(SameCallables.refl (KExpr.expSinSquared a).obj p).k]
    simp [KExpr.obj, KernelObj.expSinSquared, KernelObj.init, kernelize_apply, jitterError]
  | squaredExponential a =>
    have hB := ClosedForm.ofEx (fun p => squaredExponentialBase (Dims.resolve a) (p.val "lengthscale")) p
      (Dims.resolve a) (seEx (p.val "lengthscale")) rfl
    have hb := hB.k x1 x2 i j
    simp only [KernelObj.init, kernelize_apply, Core.ofEx, seEx, Ex.eval, eval_sqDistEx] at hb
    change |(KernelObj.squaredExponential a).k p x1 x2 i j - (BaseKernel.ofEx fun p =>
      squaredExponentialBase (Dims.resolve a) (p.val "lengthscale")).f p (x1 i) (x2 j)| ≤ 1 / 10 ^ 12
    rw [hb, (closedJ_se a p).k]
    simp only [Core.se]
    have hs := sqd_nonneg (p.val "lengthscale") ((Dims.resolve a).take (x1 i)) ((Dims.resolve a).take (x2 j))
    obtain ⟨q1, q2⟩ := p12 hs (t := sqd (p.val "lengthscale") ((Dims.resolve a).take (x1 i))
      ((Dims.resolve a).take (x2 j)) + sqDistJitter) (by unfold sqDistJitter; linarith)
    rw [abs_sub_comm, abs_of_nonneg q1]
    refine q2.trans ?_
    unfold sqDistJitter; linarith
  | matern12 a =>
    have hB := ClosedForm.ofEx (fun p => matern12Base (Dims.resolve a) (p.val "lengthscale")) p
      (Dims.resolve a) (m12Ex (p.val "lengthscale")) rfl
    have hb := hB.k x1 x2 i j
    simp only [KernelObj.init, kernelize_apply, Core.ofEx, m12Ex, Ex.eval, eval_sqDistEx] at hb
    change |(KernelObj.matern12 a).k p x1 x2 i j - (BaseKernel.ofEx fun p =>
      matern12Base (Dims.resolve a) (p.val "lengthscale")).f p (x1 i) (x2 j)| ≤ 1 / 10 ^ 6
    rw [hb, (closed_m12 a p).k]
    simp only [Core.m12]
    have hs := sqd_nonneg (p.val "lengthscale") ((Dims.resolve a).take (x1 i)) ((Dims.resolve a).take (x2 j))
    obtain ⟨b1, b2⟩ := clamp_shift 1 le_rfl hs
    rw [one_mul, Real.sqrt_one, one_mul] at b1 b2
    obtain ⟨q1, q2⟩ := p12 (Real.sqrt_nonneg _) b1
    rw [abs_sub_comm, abs_of_nonneg q1]
    exact q2.trans b2
  | matern32 a =>
    have hB := ClosedForm.customJvp (fun p => matern32BaseEx (Dims.resolve a) (p.val "lengthscale")) p
      (Dims.resolve a) (fun p => matern32T0 (Dims.resolve a) (p.val "lengthscale"))
      (fun p => matern32T1 (Dims.resolve a) (p.val "lengthscale")) (m32Ex (p.val "lengthscale"))
      (m32T0Ex (p.val "lengthscale")) (fun k a => .neg (m32T0Ex (p.val "lengthscale") k a))
      rfl (fun _ => rfl) (fun _ => rfl)
    have hb := hB.k x1 x2 i j
    simp only [KernelObj.init, kernelize_apply, Core.customJvp, m32Ex, mDistEx, Ex.eval, eval_sqDistEx] at hb
    change |(KernelObj.matern32 a).k p x1 x2 i j - (KernelObj.matern32 a).base.f p (x1 i) (x2 j)| ≤
      Real.sqrt 3 / 10 ^ 6
    rw [show (KernelObj.matern32 a).base.f p (x1 i) (x2 j) = _ from hb, (closed_m32 a p).k]
    simp only [Core.m32]
    have hs := sqd_nonneg (p.val "lengthscale") ((Dims.resolve a).take (x1 i)) ((Dims.resolve a).take (x2 j))
    obtain ⟨b1, b2⟩ := clamp_shift 3 (by norm_num) hs
    obtain ⟨q1, q2⟩ := p32 (Real.sqrt_nonneg _) b1
    rw [abs_sub_comm, abs_of_nonneg q1]
    exact q2.trans b2
  | matern52 a =>
    have hB := ClosedForm.customJvp (fun p => matern52BaseEx (Dims.resolve a) (p.val "lengthscale")) p
      (Dims.resolve a) (fun p => matern52T0 (Dims.resolve a) (p.val "lengthscale"))
      (fun p => matern52T1 (Dims.resolve a) (p.val "lengthscale")) (m52Ex (p.val "lengthscale"))
      (m52T0Ex (p.val "lengthscale")) (fun k a => .neg (m52T0Ex (p.val "lengthscale") k a))
      rfl (fun _ => rfl) (fun _ => rfl)
    have hb := hB.k x1 x2 i j
    simp only [KernelObj.init, kernelize_apply, Core.customJvp, m52Ex, mDistEx, Ex.eval, eval_sqDistEx] at hb
    change |(KernelObj.matern52 a).k p x1 x2 i j - (KernelObj.matern52 a).base.f p (x1 i) (x2 j)| ≤
      Real.sqrt 5 / 10 ^ 6 + 1 / 10 ^ 36
    rw [show (KernelObj.matern52 a).base.f p (x1 i) (x2 j) = _ from hb, (closedJ_m52 a p).k]
    simp only [Core.m52, m52Dist]
    have hs := sqd_nonneg (p.val "lengthscale") ((Dims.resolve a).take (x1 i)) ((Dims.resolve a).take (x2 j))
    generalize sqd (p.val "lengthscale") ((Dims.resolve a).take (x1 i)) ((Dims.resolve a).take (x2 j)) = s at hs ⊢
    obtain ⟨b1, b2⟩ := clamp_shift 5 (by norm_num) hs
    obtain ⟨q1, q2⟩ := p52 (Real.sqrt_nonneg _) b1
    have hq := Real.sq_sqrt (show (0 : ℝ) ≤ max (5 * s) maternFloor from le_max_of_le_left (by nlinarith))
    have hd : |(1 + Real.sqrt (max (5 * s) maternFloor) + Real.sqrt (max (5 * s) maternFloor) ^ 2 / 3) *
        Real.exp (-Real.sqrt (max (5 * s) maternFloor)) -
        (1 + Real.sqrt (max (5 * s) maternFloor) + 5 * s * 3⁻¹) *
        Real.exp (-Real.sqrt (max (5 * s) maternFloor))| ≤ 1 / 10 ^ 36 := by
      rw [← sub_mul, abs_mul, abs_of_pos (Real.exp_pos _), hq]
      have h1 : Real.exp (-Real.sqrt (max (5 * s) maternFloor)) ≤ 1 := exp_neg_le_one (Real.sqrt_nonneg _)
      have h2 : |1 + Real.sqrt (max (5 * s) maternFloor) + max (5 * s) maternFloor / 3 -
          (1 + Real.sqrt (max (5 * s) maternFloor) + 5 * s * 3⁻¹)| ≤ 1 / 10 ^ 36 := by
        rw [show 1 + Real.sqrt (max (5 * s) maternFloor) + max (5 * s) maternFloor / 3 -
          (1 + Real.sqrt (max (5 * s) maternFloor) + 5 * s * 3⁻¹) = (max (5 * s) maternFloor - 5 * s) / 3 by ring,
          abs_of_nonneg (div_nonneg (sub_nonneg.mpr (le_max_left _ _)) (by norm_num))]
        have : max (5 * s) maternFloor ≤ 5 * s + 1 / 10 ^ 36 :=
          max_le (by linarith [show (0 : ℝ) ≤ 1 / 10 ^ 36 by positivity]) (by unfold maternFloor; linarith)
        linarith [show (0 : ℝ) ≤ 1 / 10 ^ 36 by positivity]
      calc _ ≤ 1 / 10 ^ 36 * 1 := mul_le_mul h2 h1 (Real.exp_pos _).le (by positivity)
        _ = _ := mul_one _
    refine (abs_sub_le _ _ _).trans (add_le_add ?_ hd)
    rw [abs_sub_comm, abs_of_nonneg q1]
    exact q2.trans b2
  | sum e1 e2 h1 h2 =>
    have q1 := h1 (p.sub "kernel1")
    have q2 := h2 (p.sub "kernel2")
    calc |(KExpr.sum e1 e2).obj.k p x1 x2 i j - (KExpr.sum e1 e2).obj.base.f p (x1 i) (x2 j)|
        = |(e1.obj.k (p.sub "kernel1") x1 x2 i j - e1.obj.base.f (p.sub "kernel1") (x1 i) (x2 j)) +
            (e2.obj.k (p.sub "kernel2") x1 x2 i j - e2.obj.base.f (p.sub "kernel2") (x1 i) (x2 j))| := by
          congr 1
          simp only [KExpr.obj, KernelObj.sum, sumKernels, Arr2.add, BaseKernel.add]
          ring
      _ ≤ _ := (abs_add_le _ _).trans (add_le_add q1 q2)
  | prod e1 e2 h1 h2 =>
    have q1 := h1 (p.sub "kernel1")
    have q2 := h2 (p.sub "kernel2")
    simp only [jitterError]
    generalize jitterError (x1 i) (x2 j) e1 (p.sub "kernel1") = E1 at *
    generalize jitterError (x1 i) (x2 j) e2 (p.sub "kernel2") = E2 at *
    have hE1 : 0 ≤ E1 := (abs_nonneg _).trans q1
    have hv : (KExpr.prod e1 e2).obj.k p x1 x2 i j - (KExpr.prod e1 e2).obj.base.f p (x1 i) (x2 j) =
        (e1.obj.k (p.sub "kernel1") x1 x2 i j - e1.obj.base.f (p.sub "kernel1") (x1 i) (x2 j)) *
          e2.obj.base.f (p.sub "kernel2") (x1 i) (x2 j) +
        e1.obj.base.f (p.sub "kernel1") (x1 i) (x2 j) *
          (e2.obj.k (p.sub "kernel2") x1 x2 i j - e2.obj.base.f (p.sub "kernel2") (x1 i) (x2 j)) +
        (e1.obj.k (p.sub "kernel1") x1 x2 i j - e1.obj.base.f (p.sub "kernel1") (x1 i) (x2 j)) *
          (e2.obj.k (p.sub "kernel2") x1 x2 i j - e2.obj.base.f (p.sub "kernel2") (x1 i) (x2 j)) := by
      simp only [KExpr.obj, KernelObj.prod, prodKernels, Arr2.mul, BaseKernel.mul]
      ring
    rw [hv]
    refine (abs_add_le _ _).trans (add_le_add ((abs_add_le _ _).trans (add_le_add ?_ ?_)) ?_)
    · rw [abs_mul]; exact mul_le_mul_of_nonneg_right q1 (abs_nonneg _)
    · rw [abs_mul]; exact mul_le_mul_of_nonneg_left q2 (abs_nonneg _)
    · rw [abs_mul]; exact mul_le_mul q1 q2 (abs_nonneg _) hE1

/-- The full claim is false: SquaredExponential of a sample with itself is `exp(-1e-12)`, its base function gives
one. -/
theorem C130_false : ¬ C130_full := by
  intro h
  have h1 := congrFun (congrFun ((h 1 (.squaredExponential none) trivial fun _ => 1).k
    (fun _ _ => 0 : Batch 1 1) (fun _ _ => 0 : Batch 1 1)) 0) 0
  have h2 := (C130_squared_exponential_partial (d := 1) none trivial (fun _ => 1) (fun _ _ => 0 : Batch 1 1)
    (fun _ _ => 0 : Batch 1 1) (fun _ _ _ => 0 : Jac 1 1 1) (fun _ _ _ => 0 : Jac 1 1 1) (fun _ _ => 0)).1 0 0
  have hB := (ClosedForm.ofEx (d := 1) (fun p => squaredExponentialBase (Dims.resolve none) (p.val "lengthscale"))
    (fun _ => 1) (Dims.resolve none) (seEx 1) rfl).k (fun _ _ => 0 : Batch 1 1) (fun _ _ => 0 : Batch 1 1) 0 0
  simp only [Core.ofEx, seEx, Ex.eval, eval_sqDistEx] at hB
  have hone : (KernelObj.init (KExpr.squaredExponential none : KExpr 1).obj.base).k (fun _ => 1)
      (fun _ _ => 0 : Batch 1 1) (fun _ _ => 0 : Batch 1 1) 0 0 = 1 := by
    refine Eq.trans hB ?_
    simp [sqd, Dims.take]
  rw [hone] at h1
  rw [show (KernelObj.squaredExponential (none : Option (Dims 1))).k (fun _ => 1) (fun _ _ => 0 : Batch 1 1)
    (fun _ _ => 0 : Batch 1 1) 0 0 = 1 from h1, show (KernelObj.init (KernelObj.squaredExponential
    (none : Option (Dims 1))).base).k (fun _ => 1) (fun _ _ => 0 : Batch 1 1) (fun _ _ => 0 : Batch 1 1) 0 0 = 1
    from hone, mul_one] at h2
  have : Real.exp (-(1 / 10 ^ 12)) < 1 := (Real.exp_lt_exp.mpr (by norm_num)).trans_eq Real.exp_zero
  linarith

end GPX.Props
