import Verif.Spec.Kernels
import Verif.Spec.Autodiff
import Verif.Lemmas.KernelForms
import Verif.Lemmas.Autodiff

/-!
# C17-C20: from a kernel of two samples to kernel matrices, derivative and contracted kernels
-/

namespace GPX.Props
open GPX GPX.Spec

variable {d n m v v1 v2 : ℕ}

/-! ## C17 -/

/-- **C17.** Whether `kernelize` loops (`lax=True`) or vectorises (`lax=False`), entry `(i, j)` is the base
kernel of sample `i` of `x1` and sample `j` of `x2`; hence both give the same matrix. -/
theorem C17_kernelize_entries (kf : Sample d → Sample d → ℝ) (x1 : Batch n d) (x2 : Batch m d) :
    (∀ lax i j, kernelize kf lax x1 x2 i j = kf (x1 i) (x2 j)) ∧
      kernelize kf true x1 x2 = kernelize kf false x1 x2 := by
  constructor
  · intro lax i j; rw [kernelize_apply]
  · rw [kernelize_apply, kernelize_apply]

/-! ## C18 -/

/-- **C18, layout.** Whatever differentiation returns for one pair of samples (`g0`, `g1`, `h01`) is found at
row `i * nf + f` and column `j * nf + e` of the derivative matrices. -/
theorem C18_layout (g0 g1 : Sample d → Sample d → Fin d → ℝ)
    (h01 : Sample d → Sample d → Fin d → Fin d → ℝ) (x1 : Batch n d) (x2 : Batch m d)
    (i : Fin n) (j : Fin m) (f e : Fin d) :
    grad0Kernelize g0 x1 x2 (flat i f) j = g0 (x1 i) (x2 j) f ∧
      grad1Kernelize g1 x1 x2 i (flat j e) = g1 (x1 i) (x2 j) e ∧
      grad01Kernelize h01 x1 x2 (flat i f) (flat j e) = h01 (x1 i) (x2 j) f e := by
  simp [grad0Kernelize_apply, grad1Kernelize_apply, grad01Kernelize_apply]

/-- **C18, values.** For every base kernel written with JAX primitives, at every pair of samples where the
program is smooth, the entries of the derivative matrices are the partial derivatives of the base kernel:
with respect to feature `f` of sample `i` of `x1`, feature `e` of sample `j` of `x2`, and both. -/
theorem C18_entries_are_derivatives (prog : KPar → Ex (KVar d)) (p : KPar) (x1 : Batch n d)
    (x2 : Batch m d) (i : Fin n) (j : Fin m) (f e : Fin d)
    (h : (prog p).Smooth (Sum.elim (x1 i) (x2 j))) :
    let b := BaseKernel.ofEx prog
    HasDerivAt (fun s => b.f p (Function.update (x1 i) f s) (x2 j))
        (grad0Kernelize (b.g0 p) x1 x2 (flat i f) j) (x1 i f) ∧
      HasDerivAt (fun t => b.f p (x1 i) (Function.update (x2 j) e t))
        (grad1Kernelize (b.g1 p) x1 x2 i (flat j e)) (x2 j e) ∧
      HasDerivAt (fun t => deriv (fun s => b.f p (Function.update (x1 i) f s)
          (Function.update (x2 j) e t)) (x1 i f))
        (grad01Kernelize (b.h01 p) x1 x2 (flat i f) (flat j e)) (x2 j e) := by
  intro b
  obtain ⟨l0, l1, l01⟩ := C18_layout (b.g0 p) (b.g1 p) (b.h01 p) x1 x2 i j f e
  rw [l0, l1, l01]
  refine ⟨?_, ?_, ?_⟩
  · have := h.hasDerivAt (Sum.inl f)
    simp only [Sum.update_elim_inl] at this
    exact this
  · have := h.hasDerivAt (Sum.inr e)
    simp only [Sum.update_elim_inr] at this
    exact this
  · have h2 := (h.deriv (Sum.inl f)).hasDerivAt (Sum.inr e)
    simp only [Sum.update_elim_inr, Sum.elim_inr] at h2
    refine h2.congr_of_eventuallyEq ?_
    have hc : ContinuousAt (fun t => Sum.elim (x1 i) (Function.update (x2 j) e t)) (x2 j e) := by
      refine continuousAt_pi.mpr fun w => ?_
      cases w with
      | inl a => exact continuousAt_const
      | inr a =>
        by_cases ha : a = e
        · subst ha; simpa using continuousAt_id' _
        · simpa [Function.update_of_ne ha] using continuousAt_const
    have h3 := (h.continuousAt).2
    have h4 : Sum.elim (x1 i) (Function.update (x2 j) e (x2 j e)) = Sum.elim (x1 i) (x2 j) := by
      rw [Function.update_eq_self]
    rw [← h4] at h3
    filter_upwards [hc.eventually h3] with t ht
    have h5 := ht.hasDerivAt (Sum.inl f)
    simp only [Sum.update_elim_inl, Sum.elim_inl] at h5
    exact h5.deriv

/-- **C18, dispatch.** `grad_kernelize` selects the decorator of the documented derivative, and raises
`ValueError` exactly when `argnums` is none of `0`, `1`, `(0, 1)`. -/
theorem C18_argnums (a : Argnums) (jac coef trace : Bool) :
    (gradKernelize a jac coef trace = .error .valueError ↔
      a ≠ .int 0 ∧ a ≠ .int 1 ∧ a ≠ .pair 0 1) ∧
    (∀ c t, gradKernelize (.int 0) false c t = .ok .grad0 ∧
      gradKernelize (.int 1) false c t = .ok .grad1 ∧
      gradKernelize (.pair 0 1) false c t = .ok .grad01) ∧
    (∀ t, gradKernelize (.int 0) true false t = .ok .grad0jac ∧
      gradKernelize (.pair 0 1) true false t = .ok .grad01jac ∧
      gradKernelize (.int 0) true true t = .ok (.grad0jaccoef t) ∧
      gradKernelize (.pair 0 1) true true t = .ok (.grad01jaccoef t) ∧
      ∀ c, gradKernelize (.int 1) true c t = .ok .grad1jac) := by
  refine ⟨?_, fun c t => ⟨rfl, rfl, rfl⟩, fun t => ⟨rfl, rfl, rfl, rfl, fun c => rfl⟩⟩
  unfold gradKernelize
  split <;> simp_all

/-- Non-vacuity of C18: the program `x1[0] * exp(x2[0])` is smooth everywhere. -/
example (x y : Fin 1 → ℝ) :
    (Ex.mul (.var (.inl 0)) (.exp (.var (.inr 0))) : Ex (KVar 1)).Smooth (Sum.elim x y) :=
  ⟨trivial, trivial⟩

/-! ## C19 -/

/-- **C19.** For every base kernel, the jacobian-contracted matrices are the derivative matrices contracted
with the jacobians, sample by sample. -/
theorem C19_jacobian_contractions (b : BaseKernel d) (p : KPar) :
    Contracts0 (KernelObj.init b) p ∧ Contracts1 (KernelObj.init b) p ∧
      Contracts01 (KernelObj.init b) p := by
  refine ⟨?_, ?_, ?_⟩
  · intro n m v x1 x2 J i u j
    simp only [KernelObj.init, grad0jacKernelize_apply, grad0Kernelize_apply, flat_divNat,
      flat_modNat]
    exact Finset.sum_congr rfl fun f _ => mul_comm _ _
  · intro n m v x1 x2 J i j u
    simp only [KernelObj.init, grad1jacKernelize_apply, grad1Kernelize_apply, flat_divNat,
      flat_modNat]
  · intro n m v1 v2 x1 x2 J1 J2 i u j w
    simp only [KernelObj.init, grad01jacKernelize_apply, grad01Kernelize_apply, flat_divNat,
      flat_modNat]

/-! ## C20 -/

theorem coefficientSums_of_contracts {κ : KernelObj d} {p : KPar} (h0 : Contracts0 κ p)
    (h01 : Contracts01 κ p) (hc0 : ContractsCoef0 κ p) (hc01 : ContractsCoef01 κ p) :
    CoefficientSums κ p := by
  constructor
  · intro n m v x1 x2 J c j
    refine Finset.sum_congr rfl fun i _ => ?_
    rw [hc0]
    simp only [h0 n m v x1 x2 J i _ j, jaccoef, Finset.sum_mul, Finset.mul_sum]
    rw [Finset.sum_comm]
    exact Finset.sum_congr rfl fun u _ => Finset.sum_congr rfl fun f _ => by ring
  · intro n m v w x1 x2 J1 J2 c j q
    refine Finset.sum_congr rfl fun i _ => ?_
    rw [hc01]
    simp only [h01 n m v w x1 x2 J1 J2 i _ j q, jaccoef, Finset.sum_mul, Finset.mul_sum]
    have : ∀ f, ∑ e, ∑ u, c i u * J1 i f u * κ.d01k p x1 x2 (flat i f) (flat j e) * J2 j e q =
        ∑ u, ∑ e, c i u * J1 i f u * κ.d01k p x1 x2 (flat i f) (flat j e) * J2 j e q :=
      fun f => Finset.sum_comm
    rw [Finset.sum_congr rfl fun f _ => this f, Finset.sum_comm]
    exact Finset.sum_congr rfl fun u _ => Finset.sum_congr rfl fun f _ =>
      Finset.sum_congr rfl fun e _ => by ring

/-- **C20** for every base kernel turned into a kernel object by the library's decorators. -/
theorem C20_coefficient_sums (b : BaseKernel d) (p : KPar) :
    CoefficientSums (KernelObj.init b) p := by
  obtain ⟨h0, _, h01⟩ := C19_jacobian_contractions b p
  refine coefficientSums_of_contracts h0 h01 ?_ ?_
  · intro n m x1 x2 jc i j
    simp only [KernelObj.init, grad0jaccoefUntraced_apply, grad0Kernelize_apply, flat_divNat,
      flat_modNat]
    exact Finset.sum_congr rfl fun f _ => mul_comm _ _
  · intro n m v x1 x2 jc J i j w
    simp only [KernelObj.init, grad01jaccoefUntraced_apply, grad01Kernelize_apply, flat_divNat,
      flat_modNat]

/-- **C20, traced variants.** With `trace_samples=True` the sum over the samples is already taken. -/
theorem C20_traced_is_sum (g0 : Sample d → Sample d → Fin d → ℝ)
    (h01 : Sample d → Sample d → Fin d → Fin d → ℝ) (x1 : Batch n d) (x2 : Batch m d)
    (jc : Batch n d) (J : Jac m d v) (j : Fin m) (q : Fin v) :
    grad0jaccoefTraced g0 x1 x2 jc j = ∑ i, grad0jaccoefUntraced g0 x1 x2 jc i j ∧
      grad01jaccoefTraced h01 x1 x2 jc J (flat j q) =
        ∑ i, grad01jaccoefUntraced h01 x1 x2 jc J i (flat j q) := by
  simp [grad0jaccoefTraced_apply, grad0jaccoefUntraced_apply, grad01jaccoefTraced_apply,
    grad01jaccoefUntraced_apply]

end GPX.Props
