import Verif.Lemmas.Kernels
import Verif.Lemmas.Rename

/-! # Closed forms of the kernel classes

Every leaf kernel class is determined by five functions of the restricted samples. -/

namespace GPX
open GPX.Spec

/-- Kernel, gradients, mixed second derivative, and the gradient used by `d0kjc`, as functions of the
restricted samples. -/
structure Core where
  K : ∀ {k : ℕ}, (Fin k → ℝ) → (Fin k → ℝ) → ℝ
  G0 : ∀ {k : ℕ}, (Fin k → ℝ) → (Fin k → ℝ) → Fin k → ℝ
  G1 : ∀ {k : ℕ}, (Fin k → ℝ) → (Fin k → ℝ) → Fin k → ℝ
  H : ∀ {k : ℕ}, (Fin k → ℝ) → (Fin k → ℝ) → Fin k → Fin k → ℝ
  C0 : ∀ {k : ℕ}, (Fin k → ℝ) → (Fin k → ℝ) → Fin k → ℝ

variable {d : ℕ}

structure ClosedForm (κ : KernelObj d) (p : KPar) (ad : Dims d) (c : Core) : Prop where
  k : ∀ {n m : ℕ} (x1 : Batch n d) (x2 : Batch m d) i j,
    κ.k p x1 x2 i j = c.K (ad.take (x1 i)) (ad.take (x2 j))
  d0k : ∀ {n m : ℕ} (x1 : Batch n d) (x2 : Batch m d) i f j,
    κ.d0k p x1 x2 (flat i f) j = ad.spread (c.G0 (ad.take (x1 i)) (ad.take (x2 j))) f
  d1k : ∀ {n m : ℕ} (x1 : Batch n d) (x2 : Batch m d) i j e,
    κ.d1k p x1 x2 i (flat j e) = ad.spread (c.G1 (ad.take (x1 i)) (ad.take (x2 j))) e
  d01k : ∀ {n m : ℕ} (x1 : Batch n d) (x2 : Batch m d) i f j e,
    κ.d01k p x1 x2 (flat i f) (flat j e) =
      ad.spread2 (c.H (ad.take (x1 i)) (ad.take (x2 j))) f e
  d0kj : ∀ {n m v : ℕ} (x1 : Batch n d) (x2 : Batch m d) (J : Jac n d v) i u j,
    κ.d0kj p x1 x2 J (flat i u) j =
      ∑ a, J i (ad.idx a) u * c.G0 (ad.take (x1 i)) (ad.take (x2 j)) a
  d1kj : ∀ {n m v : ℕ} (x1 : Batch n d) (x2 : Batch m d) (J : Jac m d v) i j u,
    κ.d1kj p x1 x2 J i (flat j u) =
      ∑ a, c.G1 (ad.take (x1 i)) (ad.take (x2 j)) a * J j (ad.idx a) u
  d01kj : ∀ {n m v1 v2 : ℕ} (x1 : Batch n d) (x2 : Batch m d) (J1 : Jac n d v1) (J2 : Jac m d v2)
    i u j w, κ.d01kj p x1 x2 J1 J2 (flat i u) (flat j w) =
      ∑ a, ∑ b, J1 i (ad.idx a) u * c.H (ad.take (x1 i)) (ad.take (x2 j)) a b * J2 j (ad.idx b) w
  d0kjc : ∀ {n m : ℕ} (x1 : Batch n d) (x2 : Batch m d) (jc : Batch n d) i j,
    κ.d0kjc p x1 x2 jc i j =
      ∑ a, jc i (ad.idx a) * c.C0 (ad.take (x1 i)) (ad.take (x2 j)) a
  d01kjc : ∀ {n m v : ℕ} (x1 : Batch n d) (x2 : Batch m d) (jc : Batch n d) (J : Jac m d v) i j w,
    κ.d01kjc p x1 x2 jc J i (flat j w) =
      ∑ a, ∑ b, jc i (ad.idx a) * c.H (ad.take (x1 i)) (ad.take (x2 j)) a b * J j (ad.idx b) w

/-! ## Kernels obtained from a base kernel -/

/-- The base kernel's derivatives are spread from the restricted samples. -/
theorem ClosedForm.ofBase (b : BaseKernel d) (p : KPar) (ad : Dims d) (c : Core)
    (hf : ∀ x y, b.f p x y = c.K (ad.take x) (ad.take y))
    (h0 : ∀ x y f, b.g0 p x y f = ad.spread (c.G0 (ad.take x) (ad.take y)) f)
    (h1 : ∀ x y f, b.g1 p x y f = ad.spread (c.G1 (ad.take x) (ad.take y)) f)
    (h01 : ∀ x y f e, b.h01 p x y f e = ad.spread2 (c.H (ad.take x) (ad.take y)) f e)
    (hc : ∀ {k : ℕ} (x y : Fin k → ℝ), c.C0 x y = c.G0 x y) :
    ClosedForm (KernelObj.init b) p ad c where
  k x1 x2 i j := by simp [KernelObj.init, kernelize_apply, hf]
  d0k x1 x2 i f j := by simp [KernelObj.init, grad0Kernelize_apply, h0]
  d1k x1 x2 i j e := by simp [KernelObj.init, grad1Kernelize_apply, h1]
  d01k x1 x2 i f j e := by simp [KernelObj.init, grad01Kernelize_apply, h01]
  d0kj x1 x2 J i u j := by
    simp only [KernelObj.init, grad0jacKernelize_apply, h0, flat_divNat, flat_modNat]
    rw [ad.sum_spread_mul _ fun f => J i f u]
    exact Finset.sum_congr rfl fun a _ => mul_comm _ _
  d1kj x1 x2 J i j u := by
    simp only [KernelObj.init, grad1jacKernelize_apply, h1, flat_divNat, flat_modNat]
    rw [ad.sum_spread_mul _ fun f => J j f u]
  d01kj x1 x2 J1 J2 i u j w := by
    simp only [KernelObj.init, grad01jacKernelize_apply, h01, flat_divNat, flat_modNat]
    rw [ad.sum_spread2 _ (fun f => J1 i f u) fun f => J2 j f w]
  d0kjc x1 x2 jc i j := by
    simp only [KernelObj.init, grad0jaccoefUntraced_apply, h0, hc]
    rw [ad.sum_spread_mul _ fun f => jc i f]
    exact Finset.sum_congr rfl fun a _ => mul_comm _ _
  d01kjc x1 x2 jc J i j w := by
    simp only [KernelObj.init, grad01jaccoefUntraced_apply, h01, flat_divNat, flat_modNat]
    rw [ad.sum_spread2 _ (fun f => jc i f) fun f => J j f w]

theorem elim_comp (ad : Dims d) (x y : Fin d → ℝ) :
    Sum.elim x y ∘ Sum.map ad.idx ad.idx = Sum.elim (ad.take x) (ad.take y) := by
  funext v
  cases v <;> rfl

theorem pull_inl (ad : Dims d) (f : Fin d) (φ : KVar ad.k → ℝ) :
    Ex.pull (Sum.map ad.idx ad.idx) (Sum.inl f) φ = ad.spread (fun a => φ (.inl a)) f := by
  simp [Ex.pull, Dims.spread, Fintype.sum_sum_type]

theorem pull_inr (ad : Dims d) (f : Fin d) (φ : KVar ad.k → ℝ) :
    Ex.pull (Sum.map ad.idx ad.idx) (Sum.inr f) φ = ad.spread (fun a => φ (.inr a)) f := by
  simp [Ex.pull, Dims.spread, Fintype.sum_sum_type]

/-- The five functions of a differentiated program. -/
noncomputable def Core.ofEx (E : ∀ k : ℕ, Ex (KVar k)) : Core where
  K := fun {k} x y => (E k).eval (Sum.elim x y)
  G0 := fun {k} x y a => ((E k).D (.inl a)).eval (Sum.elim x y)
  G1 := fun {k} x y a => ((E k).D (.inr a)).eval (Sum.elim x y)
  H := fun {k} x y a b => (((E k).D (.inl a)).D (.inr b)).eval (Sum.elim x y)
  C0 := fun {k} x y a => ((E k).D (.inl a)).eval (Sum.elim x y)

theorem ClosedForm.ofEx (e : KPar → Ex (KVar d)) (p : KPar) (ad : Dims d)
    (E : ∀ k : ℕ, Ex (KVar k)) (h : e p = (E ad.k).rename (Sum.map ad.idx ad.idx)) :
    ClosedForm (KernelObj.init (BaseKernel.ofEx e)) p ad (Core.ofEx E) := by
  apply ClosedForm.ofBase
  · intro x y
    simp [BaseKernel.ofEx, h, elim_comp, Core.ofEx]
  · intro x y f
    simp only [BaseKernel.ofEx, h, Ex.eval_D_rename, elim_comp, Core.ofEx, pull_inl]
  · intro x y f
    simp only [BaseKernel.ofEx, h, Ex.eval_D_rename, elim_comp, Core.ofEx, pull_inr]
  · intro x y f e
    simp only [BaseKernel.ofEx, h, Ex.eval_DD_rename, elim_comp, Core.ofEx, pull_inl, pull_inr,
      Dims.spread2]
  · intro k x y
    rfl

/-- The five functions of a program with `custom_jvp` rules. -/
noncomputable def Core.customJvp (E : ∀ k : ℕ, Ex (KVar k)) (T0 T1 : ∀ k : ℕ, Fin k → Ex (KVar k)) :
    Core where
  K := fun {k} x y => (E k).eval (Sum.elim x y)
  G0 := fun {k} x y a => (T0 k a).eval (Sum.elim x y)
  G1 := fun {k} x y a => (T1 k a).eval (Sum.elim x y)
  H := fun {k} x y a b => ((T0 k a).D (.inr b)).eval (Sum.elim x y)
  C0 := fun {k} x y a => (T0 k a).eval (Sum.elim x y)

theorem eval_ite {V : Type} (env : V → ℝ) (q : Prop) [Decidable q] (a b : Ex V) :
    (if q then a else b).eval env = if q then a.eval env else b.eval env := by
  split_ifs <;> rfl

theorem D_ite {V : Type} [DecidableEq V] (v : V) (q : Prop) [Decidable q] (a b : Ex V) :
    (if q then a else b).D v = if q then a.D v else b.D v := by
  split_ifs <;> rfl

theorem ClosedForm.customJvp (e : KPar → Ex (KVar d)) (p : KPar) (ad : Dims d)
    (t0 t1 : KPar → Fin ad.k → Ex (KVar d))
    (E : ∀ k : ℕ, Ex (KVar k)) (T0 T1 : ∀ k : ℕ, Fin k → Ex (KVar k))
    (h : e p = (E ad.k).rename (Sum.map ad.idx ad.idx))
    (h0 : ∀ a, t0 p a = (T0 ad.k a).rename (Sum.map ad.idx ad.idx))
    (h1 : ∀ a, t1 p a = (T1 ad.k a).rename (Sum.map ad.idx ad.idx)) :
    ClosedForm (KernelObj.init (BaseKernel.customJvp ad e t0 t1)) p ad
      (Core.customJvp E T0 T1) := by
  apply ClosedForm.ofBase
  · intro x y
    simp [BaseKernel.customJvp, h, elim_comp, Core.customJvp]
  · intro x y f
    simp only [BaseKernel.customJvp, Ex.eval, eval_ite, h0, Ex.eval_rename, elim_comp,
      Core.customJvp, Dims.spread]
  · intro x y f
    simp only [BaseKernel.customJvp, Ex.eval, eval_ite, h1, Ex.eval_rename, elim_comp,
      Core.customJvp, Dims.spread]
  · intro x y f e
    simp only [BaseKernel.customJvp, Ex.eval, Ex.D, D_ite, eval_ite, h0, Ex.eval_D_rename,
      elim_comp, pull_inr, Core.customJvp, Dims.spread2, Dims.spread]
  · intro k x y
    rfl

/-! ## Consequences of a closed form -/

variable {κ : KernelObj d} {p : KPar} {ad : Dims d} {c : Core}

theorem ClosedForm.contracts0 (h : ClosedForm κ p ad c) : Contracts0 κ p := by
  intro n m v x1 x2 J i u j
  rw [h.d0kj]
  simp only [h.d0k]
  rw [ad.sum_mul_spread _ fun f => J i f u]

theorem ClosedForm.contracts1 (h : ClosedForm κ p ad c) : Contracts1 κ p := by
  intro n m v x1 x2 J i j u
  rw [h.d1kj]
  simp only [h.d1k]
  rw [ad.sum_spread_mul _ fun f => J j f u]

theorem ClosedForm.contracts01 (h : ClosedForm κ p ad c) : Contracts01 κ p := by
  intro n m v1 v2 x1 x2 J1 J2 i u j w
  rw [h.d01kj]
  simp only [h.d01k]
  rw [ad.sum_spread2 _ (fun f => J1 i f u) fun f => J2 j f w]

theorem ClosedForm.contractsCoef0 (h : ClosedForm κ p ad c)
    (hc : ∀ {k : ℕ} (x y : Fin k → ℝ), c.C0 x y = c.G0 x y) : ContractsCoef0 κ p := by
  intro n m x1 x2 jc i j
  rw [h.d0kjc]
  simp only [h.d0k, hc]
  rw [ad.sum_mul_spread _ fun f => jc i f]

theorem ClosedForm.contractsCoef01 (h : ClosedForm κ p ad c) : ContractsCoef01 κ p := by
  intro n m v x1 x2 jc J i j w
  rw [h.d01kjc]
  simp only [h.d01k]
  rw [ad.sum_spread2 _ (fun f => jc i f) fun f => J j f w]

end GPX
