import Verif.Props.KernelDerivs

/-!
# C24: the whole claim in one statement, and the two places where it fails
-/

namespace GPX.Props
open GPX GPX.Spec

/-- **C24**, full statement: the derivative kernels of the five kernels with hand-written derivatives are the partial
derivatives of the kernel, at every point (for `Polynomial`, at every point where the power is differentiable), and the
`custom_jvp` rules of `Matern32` and `Matern52` are the derivatives of their base kernels. -/
def C24_full : Prop :=
  (∀ (d : ℕ) (a : Option (Dims d)) (p : KPar), NoRepeat a → 0 < p.val "lengthscale" →
    (TrueD0 (KernelObj.constant a) p ∧ TrueD1 (KernelObj.constant a) p ∧ TrueD01 (KernelObj.constant a) p) ∧
    (TrueD0 (KernelObj.linear a) p ∧ TrueD1 (KernelObj.linear a) p ∧ TrueD01 (KernelObj.linear a) p) ∧
    (∀ (ni : Bool) (n m : ℕ) (x1 : Batch n d) (x2 : Batch m d) (i : Fin n) (f : Fin d) (j : Fin m) (e : Fin d),
      GoodPower (p.val "offset" + ∑ c, x1 i ((Dims.resolve a).idx c) * x2 j ((Dims.resolve a).idx c)) (p.val "degree") →
      TrueD0At (KernelObj.polynomial a ni) p x1 x2 i f j ∧ TrueD1At (KernelObj.polynomial a ni) p x1 x2 i j e ∧
        TrueD01At (KernelObj.polynomial a ni) p x1 x2 i f j e) ∧
    (TrueD0 (KernelObj.squaredExponential a) p ∧ TrueD1 (KernelObj.squaredExponential a) p ∧
      TrueD01 (KernelObj.squaredExponential a) p) ∧
    (TrueD0 (KernelObj.matern52 a) p ∧ TrueD1 (KernelObj.matern52 a) p ∧ TrueD01 (KernelObj.matern52 a) p)) ∧
  C24_rules_full

/-- **C24** fails for `SquaredExponential`: `d0k` comes from the base kernel, which does not have the jitter that `k` adds to
the squared distance, so at every pair of different samples it is not the derivative of `k` (witness: `x1 = 1`, `x2 = 0`). -/
theorem C24_squared_exponential_false : ¬ TrueD0 (KernelObj.squaredExponential (none : Option (Dims 1))) (fun _ => 1) := by
  intro h
  have h1 := h 1 1 (fun _ _ => 1) (fun _ _ => 0) 0 0 0
  have h2 := C24_squared_exponential_first (none : Option (Dims 1)) trivial (fun _ => 1) (fun (_ : Fin 1) _ => (1 : ℝ))
    (fun (_ : Fin 1) _ => 0) 0 0 0
  have h3 := HasDerivAt.unique h1 h2
  have hc := closed_se (none : Option (Dims 1)) trivial (fun _ => 1)
  rw [hc.d0k] at h3
  have hn : (Dims.resolve (none : Option (Dims 1))).spread ((Core.se (KPar.val (fun _ => 1) "lengthscale")).G0
        ((Dims.resolve (none : Option (Dims 1))).take fun _ => (1 : ℝ))
        ((Dims.resolve (none : Option (Dims 1))).take fun _ => (0 : ℝ))) 0 ≠ 0 := by
    have := Dims.spread_idx (Dims.resolve (none : Option (Dims 1))) (resolve_injective _ trivial)
      ((Core.se (KPar.val (fun _ => 1) "lengthscale")).G0
        ((Dims.resolve (none : Option (Dims 1))).take fun _ => (1 : ℝ))
        ((Dims.resolve (none : Option (Dims 1))).take fun _ => (0 : ℝ))) (0 : Fin 1)
    rw [show (0 : Fin 1) = (Dims.resolve (none : Option (Dims 1))).idx (0 : Fin 1) from rfl, this]
    simp only [Core.se, Dims.take, KPar.val]
    have := Real.exp_pos (-sqd (1 : ℝ) (fun _ : Fin (Dims.resolve (none : Option (Dims 1))).k => (1 : ℝ)) fun _ => 0)
    norm_num
  have h4 : Real.exp (-(1 / 10 ^ 12)) = 1 := (mul_right_cancel₀ hn ((one_mul _).trans h3)).symm
  rw [Real.exp_eq_one_iff] at h4
  norm_num at h4

/-- **C24** fails as it stands. -/
theorem C24_false : ¬ C24_full := fun H =>
  C24_squared_exponential_false (H.1 1 none (fun _ => 1) trivial (by norm_num [KPar.val])).2.2.2.1.1

/-- **C24**, everything else in one statement: for all kernels other than `SquaredExponential` all three derivatives are
exact; for `SquaredExponential` the mixed one is. -/
theorem C24_kernels_partial (d : ℕ) (a : Option (Dims d)) (p : KPar) (h : NoRepeat a) :
    (TrueD0 (KernelObj.constant a) p ∧ TrueD1 (KernelObj.constant a) p ∧ TrueD01 (KernelObj.constant a) p) ∧
    (TrueD0 (KernelObj.linear a) p ∧ TrueD1 (KernelObj.linear a) p ∧ TrueD01 (KernelObj.linear a) p) ∧
    (∀ (ni : Bool) (n m : ℕ) (x1 : Batch n d) (x2 : Batch m d) (i : Fin n) (f : Fin d) (j : Fin m) (e : Fin d),
      GoodPower (p.val "offset" + ∑ c, x1 i ((Dims.resolve a).idx c) * x2 j ((Dims.resolve a).idx c)) (p.val "degree") →
      TrueD0At (KernelObj.polynomial a ni) p x1 x2 i f j ∧ TrueD1At (KernelObj.polynomial a ni) p x1 x2 i j e ∧
        TrueD01At (KernelObj.polynomial a ni) p x1 x2 i f j e) ∧
    TrueD01 (KernelObj.squaredExponential a) p ∧
    (TrueD0 (KernelObj.matern52 a) p ∧ TrueD1 (KernelObj.matern52 a) p ∧ TrueD01 (KernelObj.matern52 a) p) :=
  ⟨C24_constant a h p, C24_linear a h p, fun ni _ _ x1 x2 i f j e hg => C24_polynomial a h ni p x1 x2 i f j e hg,
    C24_squared_exponential a h p, C24_matern52 a h p⟩

/-- Non-vacuity: features 2 and 0 of three, and a cubic away from the origin. -/
example : NoRepeat (some ⟨2, ![2, 0]⟩ : Option (Dims 3)) ∧ GoodPower (-2) 3 :=
  ⟨by
    show Function.Injective (![2, 0] : Fin 2 → Fin 3)
    decide, .inr ⟨3, by norm_num, .inl (by norm_num)⟩⟩

end GPX.Props
