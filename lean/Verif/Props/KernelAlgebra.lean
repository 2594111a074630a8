import Verif.Lemmas.KernelRepeats
import Verif.Props.Kernelizers
import Mathlib.Analysis.Calculus.Deriv.Mul
import Mathlib.Analysis.Calculus.Deriv.Add

/-!
# C20, C21, C25-C28: symmetry, contractions, sums, products and active features of library kernels
-/

namespace GPX.Props
open GPX GPX.Spec

variable {d : ℕ}

/-! ## C21 -/

theorem symmetric_of_forms {κ : KernelObj d} {p : KPar} {ad : Dims d} {c : Core} {G0 G1 H}
    (h : ClosedJ κ p ad c) (hs : c.Symm) (hr : RawForm κ p G0 G1 H) (hG : ∀ x y e, G1 x y e = G0 y x e)
    (hH : ∀ x y f e, H x y f e = H y x e f) : Symmetric κ p where
  k x1 x2 i j := by rw [h.k, h.k, hs.K]
  d1k x1 x2 i c := by
    obtain ⟨j, e, rfl⟩ := flat_surj c
    rw [hr.d1k, hr.d0k, hG]
  d01k x1 x2 r c := by
    obtain ⟨i, f, rfl⟩ := flat_surj r
    obtain ⟨j, e, rfl⟩ := flat_surj c
    rw [hr.d01k, hr.d01k, hH]
  d1kj x1 x2 J i c := by
    obtain ⟨j, e, rfl⟩ := flat_surj c
    rw [h.d1kj, h.d0kj]
    exact Finset.sum_congr rfl fun a _ => by rw [hs.G]; ring
  d01kj x1 x2 J1 J2 r c := by
    obtain ⟨i, u, rfl⟩ := flat_surj r
    obtain ⟨j, w, rfl⟩ := flat_surj c
    rw [h.d01kj, h.d01kj, Finset.sum_comm]
    exact Finset.sum_congr rfl fun a _ => Finset.sum_congr rfl fun b _ => by rw [hs.H]; ring

theorem symmetric_of_closed {κ : KernelObj d} {p : KPar} {ad : Dims d} {c : Core}
    (h : ClosedForm κ p ad c) (hs : c.Symm) : Symmetric κ p := by
  refine symmetric_of_forms h.toJ hs h.raw (fun x y e => ?_) fun x y f e => ?_
  · show ad.spread _ e = ad.spread _ e
    congr 1
    funext a
    exact hs.G _ _ a
  · show ad.spread2 _ f e = ad.spread2 _ e f
    simp only [Dims.spread2, Dims.spread, hs.H (ad.take x)]
    have : ∀ (g : Fin ad.k → Fin ad.k → ℝ),
        (∑ a, if ad.idx a = f then ∑ b, if ad.idx b = e then g b a else 0 else 0) =
        ∑ b, if ad.idx b = e then ∑ a, if ad.idx a = f then g b a else 0 else 0 := by
      intro g
      have h1 : ∀ a, (if ad.idx a = f then ∑ b, if ad.idx b = e then g b a else 0 else 0) =
          ∑ b, if ad.idx b = e then (if ad.idx a = f then g b a else 0) else 0 := by
        intro a
        by_cases ha : ad.idx a = f
        · simp [ha]
        · simp [ha]
      rw [Finset.sum_congr rfl fun a _ => h1 a, Finset.sum_comm]
      refine Finset.sum_congr rfl fun b _ => ?_
      by_cases hb : ad.idx b = e <;> simp [hb]
    exact this _

theorem repeatRows_apply {n m : ℕ} (M : ℕ) (a : Arr2 n m) (r c) :
    repeatRows M a r c = a r.divNat c := rfl

theorem repeatCols_apply {n m : ℕ} (M : ℕ) (a : Arr2 n m) (r c) :
    repeatCols M a r c = a r c.divNat := rfl

theorem symmetric_sum {κ1 κ2 : KernelObj d} {p : KPar} (h1 : Symmetric κ1 (p.sub "kernel1"))
    (h2 : Symmetric κ2 (p.sub "kernel2")) : Symmetric (κ1.sum κ2) p where
  k x1 x2 i j := by simp only [KernelObj.sum, sumKernels, Arr2.add]; rw [h1.k, h2.k]
  d1k x1 x2 i c := by simp only [KernelObj.sum, sumKernels, Arr2.add]; rw [h1.d1k, h2.d1k]
  d01k x1 x2 r c := by simp only [KernelObj.sum, sumKernels, Arr2.add]; rw [h1.d01k, h2.d01k]
  d1kj x1 x2 J i c := by simp only [KernelObj.sum, sumKernelsJac, Arr2.add]; rw [h1.d1kj, h2.d1kj]
  d01kj x1 x2 J1 J2 r c := by
    simp only [KernelObj.sum, sumKernelsJac2, Arr2.add]; rw [h1.d01kj, h2.d01kj]

theorem symmetric_prod {κ1 κ2 : KernelObj d} {p : KPar} (h1 : Symmetric κ1 (p.sub "kernel1"))
    (h2 : Symmetric κ2 (p.sub "kernel2")) : Symmetric (κ1.prod κ2) p where
  k x1 x2 i j := by simp only [KernelObj.prod, prodKernels, Arr2.mul]; rw [h1.k, h2.k]
  d1k x1 x2 i c := by
    simp only [KernelObj.prod, prodDeriv0, prodDeriv1, Arr2.mul, Arr2.add, repeatRows_apply,
      repeatCols_apply]
    rw [h1.d1k, h2.d1k, h1.k, h2.k]
  d01k x1 x2 r c := by
    simp only [KernelObj.prod, prodDeriv01, Arr2.mul, Arr2.add, repeatRows_apply, repeatCols_apply]
    rw [h1.d1k x1 x2, h2.d1k x1 x2, h1.k x1 x2, h2.k x1 x2, h1.d01k x1 x2, h2.d01k x1 x2,
      ← h1.d1k x2 x1, ← h2.d1k x2 x1]
    ring
  d1kj x1 x2 J i c := by
    simp only [KernelObj.prod, prodDeriv0Jac, prodDeriv1Jac, Arr2.mul, Arr2.add, repeatRows_apply,
      repeatCols_apply]
    rw [h1.d1kj, h2.d1kj, h1.k, h2.k]
  d01kj x1 x2 J1 J2 r c := by
    simp only [KernelObj.prod, prodDeriv01Jac, Arr2.mul, Arr2.add, repeatRows_apply,
      repeatCols_apply]
    rw [h1.d1kj x1 x2, h2.d1kj x1 x2, h1.k x1 x2, h2.k x1 x2, h1.d01kj x1 x2, h2.d01kj x1 x2,
      ← h1.d1kj x2 x1, ← h2.d1kj x2 x1]
    ring

theorem polyC1_comm (deg off : ℝ) {k : ℕ} (x y : Fin k → ℝ) : polyC1 deg off x y = polyC1 deg off y x := by
  unfold polyC1; rw [dot_comm]

theorem polyC2_comm (deg off : ℝ) {k : ℕ} (x y : Fin k → ℝ) : polyC2 deg off x y = polyC2 deg off y x := by
  unfold polyC2; rw [dot_comm]

/-- **C21.** Every kernel built from the library's kernels with `+`, `*` and `active_dims` (repetitions included) is
symmetric: exchanging the datasets transposes `k` and `d01k` and turns `d1k` into the transpose of `d0k`; the same for the
jacobian-contracted kernels. For all hyperparameters and inputs. -/
theorem C21_symmetric (e : KExpr d) (p : KPar) : Symmetric e.obj p := by
  induction e generalizing p with
  | constant a => exact symmetric_of_closed (closed_constant a p) (symm_constant _)
  | linear a =>
    exact symmetric_of_forms (closedJ_linear a p) symm_linear (raw_linear a p) (fun _ _ _ => rfl)
      fun _ _ f e => Dims.diagSet_symm _ _ _ f e
  | polynomial a b =>
    refine symmetric_of_forms (closedJ_polynomial a b p) (symm_polynomial _ _ _) (raw_polynomial a b p)
      (fun x y e => ?_) fun x y f e => ?_
    · beta_reduce
      rw [polyC1_comm]
    · beta_reduce
      rw [Dims.meshSet_symm]
      congr 1
      funext c c'
      rw [polyC1_comm, polyC2_comm]
      simp only [eq_comm (a := c')]
      ring
  | squaredExponential a =>
    refine symmetric_of_forms (closedJ_se a p) (symm_se _) (raw_se a p) (fun x y e => ?_) fun x y f e => ?_
    · beta_reduce
      congr 1
      funext c
      exact (symm_se _).G _ _ c
    · beta_reduce
      rw [Dims.diagAdd_symm, sqd_comm]
      have hneg : ∀ g, (Dims.resolve a).scatterSet (fun _ => (0 : ℝ)) (fun c => (2 / p.val "lengthscale") *
          ((Dims.resolve a).take x c / p.val "lengthscale" - (Dims.resolve a).take y c / p.val "lengthscale")) g =
          -(Dims.resolve a).scatterSet (fun _ => (0 : ℝ)) (fun c => (2 / p.val "lengthscale") *
          ((Dims.resolve a).take y c / p.val "lengthscale" - (Dims.resolve a).take x c / p.val "lengthscale")) g := by
        intro g
        rw [← Dims.scatterSet_neg]
        congr 1
        funext c
        ring
      simp only [hneg]
      congr 1
      funext g h
      ring
  | matern12 a => exact symmetric_of_closed (closed_m12 a p) (symm_m12 _)
  | matern32 a => exact symmetric_of_closed (closed_m32 a p) (symm_m32 _)
  | matern52 a =>
    refine symmetric_of_forms (closedJ_m52 a p) (symm_m52 _) (raw_m52 a p) (fun x y e => ?_) fun x y f e => ?_
    · beta_reduce
      rw [sqd_comm]
      congr 1
      funext c
      ring
    · beta_reduce
      rw [Dims.diagAdd_symm, sqd_comm]
      have hneg : ∀ g, (Dims.resolve a).scatterSet (fun _ => (0 : ℝ)) (fun c => Real.sqrt 5 *
          ((Dims.resolve a).take x c / p.val "lengthscale" - (Dims.resolve a).take y c / p.val "lengthscale")) g =
          -(Dims.resolve a).scatterSet (fun _ => (0 : ℝ)) (fun c => Real.sqrt 5 *
          ((Dims.resolve a).take y c / p.val "lengthscale" - (Dims.resolve a).take x c / p.val "lengthscale")) g := by
        intro g
        rw [← Dims.scatterSet_neg]
        congr 1
        funext c
        ring
      simp only [hneg]
      congr 1
      funext g h
      ring
  | expSinSquared a => exact symmetric_of_closed (closed_ess a p) (symm_ess _ _)
  | sum e1 e2 ih1 ih2 => exact symmetric_sum (ih1 _) (ih2 _)
  | prod e1 e2 ih1 ih2 => exact symmetric_prod (ih1 _) (ih2 _)

/-- A sum of a product, with a repeated feature: entry by entry, the derivative kernel with respect to both samples. -/
example (p : KPar) (x y : Batch 2 3) (i j : Fin 2) (f g : Fin 3) :
    let e : KExpr 3 := .sum (.prod (.linear (some ⟨3, ![2, 0, 2]⟩)) (.matern52 none)) (.squaredExponential (some ⟨1, ![1]⟩))
    e.obj.d01k p x y (flat i f) (flat j g) = e.obj.d01k p y x (flat j g) (flat i f) :=
  (C21_symmetric _ p).d01k x y _ _

/-! ## C25 and C20 for library kernels -/

/-- All contracted kernels are contractions of the derivative kernels (`d0kjc` excepted). -/
structure Contracts (κ : KernelObj d) (p : KPar) : Prop where
  c0 : Contracts0 κ p
  c1 : Contracts1 κ p
  c01 : Contracts01 κ p
  coef01 : ContractsCoef01 κ p

theorem contracts_of_closed {κ : KernelObj d} {p : KPar} {ad : Dims d} {c : Core}
    (h : ClosedForm κ p ad c) : Contracts κ p :=
  ⟨h.contracts0, h.contracts1, h.contracts01, h.contractsCoef01⟩

/-- **C27.** `Sum(k1, k2)`: the kernel and each of the eight derivative kernels is, entry by entry, the sum
of those of the two kernels at their own hyperparameters. -/
theorem C27_sum_additive (κ1 κ2 : KernelObj d) (p : KPar) {n m v w : ℕ} (x1 : Batch n d)
    (x2 : Batch m d) (J1 : Jac n d v) (J2 : Jac m d w) (jc : Batch n d) :
    let κ := κ1.sum κ2
    let p1 := p.sub "kernel1"
    let p2 := p.sub "kernel2"
    (∀ i j, κ.k p x1 x2 i j = κ1.k p1 x1 x2 i j + κ2.k p2 x1 x2 i j) ∧
    (∀ r j, κ.d0k p x1 x2 r j = κ1.d0k p1 x1 x2 r j + κ2.d0k p2 x1 x2 r j) ∧
    (∀ i c, κ.d1k p x1 x2 i c = κ1.d1k p1 x1 x2 i c + κ2.d1k p2 x1 x2 i c) ∧
    (∀ r c, κ.d01k p x1 x2 r c = κ1.d01k p1 x1 x2 r c + κ2.d01k p2 x1 x2 r c) ∧
    (∀ r j, κ.d0kj p x1 x2 J1 r j = κ1.d0kj p1 x1 x2 J1 r j + κ2.d0kj p2 x1 x2 J1 r j) ∧
    (∀ i c, κ.d1kj p x1 x2 J2 i c = κ1.d1kj p1 x1 x2 J2 i c + κ2.d1kj p2 x1 x2 J2 i c) ∧
    (∀ r c, κ.d01kj p x1 x2 J1 J2 r c =
      κ1.d01kj p1 x1 x2 J1 J2 r c + κ2.d01kj p2 x1 x2 J1 J2 r c) ∧
    (∀ i j, κ.d0kjc p x1 x2 jc i j = κ1.d0kjc p1 x1 x2 jc i j + κ2.d0kjc p2 x1 x2 jc i j) ∧
    (∀ i c, κ.d01kjc p x1 x2 jc J2 i c =
      κ1.d01kjc p1 x1 x2 jc J2 i c + κ2.d01kjc p2 x1 x2 jc J2 i c) :=
  ⟨fun _ _ => rfl, fun _ _ => rfl, fun _ _ => rfl, fun _ _ => rfl, fun _ _ => rfl, fun _ _ => rfl,
    fun _ _ => rfl, fun _ _ => rfl, fun _ _ => rfl⟩

theorem contracts0_sum {κ1 κ2 : KernelObj d} {p : KPar} (h1 : Contracts0 κ1 (p.sub "kernel1"))
    (h2 : Contracts0 κ2 (p.sub "kernel2")) : Contracts0 (κ1.sum κ2) p := by
  intro n m v x1 x2 J i u j
  simp only [KernelObj.sum, sumKernels, sumKernelsJac, Arr2.add]
  rw [h1, h2, ← Finset.sum_add_distrib]
  exact Finset.sum_congr rfl fun f _ => by ring

theorem contracts1_sum {κ1 κ2 : KernelObj d} {p : KPar} (h1 : Contracts1 κ1 (p.sub "kernel1"))
    (h2 : Contracts1 κ2 (p.sub "kernel2")) : Contracts1 (κ1.sum κ2) p := by
  intro n m v x1 x2 J i j u
  simp only [KernelObj.sum, sumKernels, sumKernelsJac, Arr2.add]
  rw [h1, h2, ← Finset.sum_add_distrib]
  exact Finset.sum_congr rfl fun f _ => by ring

theorem contracts01_sum {κ1 κ2 : KernelObj d} {p : KPar} (h1 : Contracts01 κ1 (p.sub "kernel1"))
    (h2 : Contracts01 κ2 (p.sub "kernel2")) : Contracts01 (κ1.sum κ2) p := by
  intro n m v1 v2 x1 x2 J1 J2 i u j w
  simp only [KernelObj.sum, sumKernels, sumKernelsJac2, Arr2.add]
  rw [h1, h2, ← Finset.sum_add_distrib]
  refine Finset.sum_congr rfl fun f _ => ?_
  rw [← Finset.sum_add_distrib]
  exact Finset.sum_congr rfl fun e _ => by ring

theorem contractsCoef0_sum {κ1 κ2 : KernelObj d} {p : KPar}
    (h1 : ContractsCoef0 κ1 (p.sub "kernel1")) (h2 : ContractsCoef0 κ2 (p.sub "kernel2")) :
    ContractsCoef0 (κ1.sum κ2) p := by
  intro n m x1 x2 jc i j
  simp only [KernelObj.sum, sumKernels, sumKernelsJac, Arr2.add]
  rw [h1, h2, ← Finset.sum_add_distrib]
  exact Finset.sum_congr rfl fun f _ => by ring

theorem contractsCoef01_sum {κ1 κ2 : KernelObj d} {p : KPar}
    (h1 : ContractsCoef01 κ1 (p.sub "kernel1")) (h2 : ContractsCoef01 κ2 (p.sub "kernel2")) :
    ContractsCoef01 (κ1.sum κ2) p := by
  intro n m v x1 x2 jc J i j w
  simp only [KernelObj.sum, sumKernels, sumKernelsJac2, Arr2.add]
  rw [h1, h2, ← Finset.sum_add_distrib]
  refine Finset.sum_congr rfl fun f _ => ?_
  rw [← Finset.sum_add_distrib]
  exact Finset.sum_congr rfl fun e _ => by ring

theorem contracts0_prod {κ1 κ2 : KernelObj d} {p : KPar} (h1 : Contracts0 κ1 (p.sub "kernel1"))
    (h2 : Contracts0 κ2 (p.sub "kernel2")) : Contracts0 (κ1.prod κ2) p := by
  intro n m v x1 x2 J i u j
  simp only [KernelObj.prod, prodDeriv0, prodDeriv0Jac, Arr2.mul, Arr2.add, repeatRows_flat]
  rw [h1, h2, Finset.mul_sum, Finset.sum_mul, ← Finset.sum_add_distrib]
  exact Finset.sum_congr rfl fun f _ => by ring

theorem contracts1_prod {κ1 κ2 : KernelObj d} {p : KPar} (h1 : Contracts1 κ1 (p.sub "kernel1"))
    (h2 : Contracts1 κ2 (p.sub "kernel2")) : Contracts1 (κ1.prod κ2) p := by
  intro n m v x1 x2 J i j u
  simp only [KernelObj.prod, prodDeriv1, prodDeriv1Jac, Arr2.mul, Arr2.add, repeatCols_flat]
  rw [h1, h2, Finset.mul_sum, Finset.sum_mul, ← Finset.sum_add_distrib]
  exact Finset.sum_congr rfl fun f _ => by ring

theorem contractsCoef0_prod {κ1 κ2 : KernelObj d} {p : KPar}
    (h1 : ContractsCoef0 κ1 (p.sub "kernel1")) (h2 : ContractsCoef0 κ2 (p.sub "kernel2")) :
    ContractsCoef0 (κ1.prod κ2) p := by
  intro n m x1 x2 jc i j
  simp only [KernelObj.prod, prodDeriv0, prodDeriv0Jaccoef, Arr2.mul, Arr2.add, repeatRows_flat]
  rw [h1, h2, Finset.mul_sum, Finset.sum_mul, ← Finset.sum_add_distrib]
  exact Finset.sum_congr rfl fun f _ => by ring

theorem sum_sum_four {α β : Type*} [Fintype α] [Fintype β] (s t : ℝ) (u w : α → ℝ) (y z : β → ℝ)
    (A B : α → β → ℝ) :
    s * (∑ f, ∑ e, A f e) + (∑ f, u f) * (∑ e, y e) + (∑ e, z e) * (∑ f, w f) +
      (∑ f, ∑ e, B f e) * t =
      ∑ f, ∑ e, (s * A f e + u f * y e + z e * w f + B f e * t) := by
  simp only [Finset.sum_add_distrib, Finset.mul_sum, Finset.sum_mul]
  congr 3
  exact Finset.sum_comm

theorem contracts01_prod {κ1 κ2 : KernelObj d} {p : KPar}
    (a1 : Contracts0 κ1 (p.sub "kernel1")) (a2 : Contracts0 κ2 (p.sub "kernel2"))
    (b1 : Contracts1 κ1 (p.sub "kernel1")) (b2 : Contracts1 κ2 (p.sub "kernel2"))
    (h1 : Contracts01 κ1 (p.sub "kernel1"))
    (h2 : Contracts01 κ2 (p.sub "kernel2")) : Contracts01 (κ1.prod κ2) p := by
  intro n m v1 v2 x1 x2 J1 J2 i u j w
  simp only [KernelObj.prod, prodDeriv01, prodDeriv01Jac, Arr2.mul, Arr2.add, repeatCols_flat,
    repeatRows_flat]
  rw [h1, h2, a1, a2, b1, b2, sum_sum_four]
  exact Finset.sum_congr rfl fun f _ => Finset.sum_congr rfl fun e _ => by ring

theorem contractsCoef01_prod {κ1 κ2 : KernelObj d} {p : KPar}
    (a1 : ContractsCoef0 κ1 (p.sub "kernel1")) (a2 : ContractsCoef0 κ2 (p.sub "kernel2"))
    (b1 : Contracts1 κ1 (p.sub "kernel1")) (b2 : Contracts1 κ2 (p.sub "kernel2"))
    (h1 : ContractsCoef01 κ1 (p.sub "kernel1"))
    (h2 : ContractsCoef01 κ2 (p.sub "kernel2")) : ContractsCoef01 (κ1.prod κ2) p := by
  intro n m v x1 x2 jc J i j w
  simp only [KernelObj.prod, prodDeriv01, prodDeriv01Jaccoef, Arr2.mul, Arr2.add, repeatCols_flat,
    repeatRows_flat]
  rw [h1, h2, a1, a2, b1, b2, sum_sum_four]
  exact Finset.sum_congr rfl fun f _ => Finset.sum_congr rfl fun e _ => by ring

/-- **C25.** For every leaf kernel of the library (in particular the hand-written `Linear`, `Polynomial`,
`SquaredExponential`, `Matern52`), the contracted kernels `d0kj`, `d1kj`, `d01kj`, `d01kjc` are the
contractions of `d0k`, `d1k`, `d01k` with the jacobians (and coefficients). -/
theorem C25_leaf_contractions (a : Option (Dims d)) (h : NoRepeat a) (b : Bool) (p : KPar) :
    ∀ κ ∈ [KernelObj.constant a, KernelObj.linear a, KernelObj.polynomial a b,
      KernelObj.squaredExponential a, KernelObj.matern12 a, KernelObj.matern32 a,
      KernelObj.matern52 a, KernelObj.expSinSquared a],
    Contracts0 κ p ∧ Contracts1 κ p ∧ Contracts01 κ p ∧ ContractsCoef01 κ p := by
  intro κ hκ
  have key : Contracts κ p := by
    simp only [List.mem_cons, List.not_mem_nil, or_false] at hκ
    rcases hκ with rfl | rfl | rfl | rfl | rfl | rfl | rfl | rfl
    · exact contracts_of_closed (closed_constant a p)
    · exact contracts_of_closed (closed_linear a h p)
    · exact contracts_of_closed (closed_polynomial a h b p)
    · exact contracts_of_closed (closed_se a h p)
    · exact contracts_of_closed (closed_m12 a p)
    · exact contracts_of_closed (closed_m32 a p)
    · exact contracts_of_closed (closed_m52 a h p)
    · exact contracts_of_closed (closed_ess a p)
  exact ⟨key.c0, key.c1, key.c01, key.coef01⟩

/-- **C25** for sums and products: `d0kj`, `d1kj`, `d01kj` of every kernel expression. -/
theorem C25_expression_contractions (e : KExpr d) (h : NoRepeats e) (p : KPar) :
    Contracts0 e.obj p ∧ Contracts1 e.obj p ∧ Contracts01 e.obj p := by
  induction e generalizing p with
  | sum e1 e2 ih1 ih2 =>
    obtain ⟨a1, a2, a3⟩ := ih1 h.1 (p.sub "kernel1")
    obtain ⟨b1, b2, b3⟩ := ih2 h.2 (p.sub "kernel2")
    exact ⟨contracts0_sum a1 b1, contracts1_sum a2 b2, contracts01_sum a3 b3⟩
  | prod e1 e2 ih1 ih2 =>
    obtain ⟨a1, a2, a3⟩ := ih1 h.1 (p.sub "kernel1")
    obtain ⟨b1, b2, b3⟩ := ih2 h.2 (p.sub "kernel2")
    exact ⟨contracts0_prod a1 b1, contracts1_prod a2 b2, contracts01_prod a1 b1 a2 b2 a3 b3⟩
  | constant a => have := contracts_of_closed (closed_constant a p); exact ⟨this.1, this.2, this.3⟩
  | linear a => have := contracts_of_closed (closed_linear a h p); exact ⟨this.1, this.2, this.3⟩
  | polynomial a b =>
    have := contracts_of_closed (closed_polynomial a h b p); exact ⟨this.1, this.2, this.3⟩
  | squaredExponential a =>
    have := contracts_of_closed (closed_se a h p); exact ⟨this.1, this.2, this.3⟩
  | matern12 a => have := contracts_of_closed (closed_m12 a p); exact ⟨this.1, this.2, this.3⟩
  | matern32 a => have := contracts_of_closed (closed_m32 a p); exact ⟨this.1, this.2, this.3⟩
  | matern52 a => have := contracts_of_closed (closed_m52 a h p); exact ⟨this.1, this.2, this.3⟩
  | expSinSquared a => have := contracts_of_closed (closed_ess a p); exact ⟨this.1, this.2, this.3⟩

theorem coef_of_closed {κ : KernelObj d} {p : KPar} {ad : Dims d} {c : Core}
    (h : ClosedForm κ p ad c) (hc : ∀ {k : ℕ} (x y : Fin k → ℝ), c.C0 x y = c.G0 x y) :
    ContractsCoef0 κ p ∧ ContractsCoef01 κ p := ⟨h.contractsCoef0 hc, h.contractsCoef01⟩

/-- The coefficient-contracted kernels of every kernel expression without `Matern52`. -/
theorem C25_expression_coefficients (e : KExpr d) (h : NoRepeats e) (hm : NoMatern52 e) (p : KPar) :
    ContractsCoef0 e.obj p ∧ ContractsCoef01 e.obj p := by
  induction e generalizing p with
  | sum e1 e2 ih1 ih2 =>
    obtain ⟨a1, a2⟩ := ih1 h.1 hm.1 (p.sub "kernel1")
    obtain ⟨b1, b2⟩ := ih2 h.2 hm.2 (p.sub "kernel2")
    exact ⟨contractsCoef0_sum a1 b1, contractsCoef01_sum a2 b2⟩
  | prod e1 e2 ih1 ih2 =>
    obtain ⟨a1, a2⟩ := ih1 h.1 hm.1 (p.sub "kernel1")
    obtain ⟨b1, b2⟩ := ih2 h.2 hm.2 (p.sub "kernel2")
    exact ⟨contractsCoef0_prod a1 b1, contractsCoef01_prod a1 b1
      (C25_expression_contractions e1 h.1 _).2.1 (C25_expression_contractions e2 h.2 _).2.1 a2 b2⟩
  | constant a => exact coef_of_closed (closed_constant a p) fun _ _ => rfl
  | linear a => exact coef_of_closed (closed_linear a h p) fun _ _ => rfl
  | polynomial a b => exact coef_of_closed (closed_polynomial a h b p) fun _ _ => rfl
  | squaredExponential a => exact coef_of_closed (closed_se a h p) fun _ _ => rfl
  | matern12 a => exact coef_of_closed (closed_m12 a p) fun _ _ => rfl
  | matern32 a => exact coef_of_closed (closed_m32 a p) fun _ _ => rfl
  | matern52 a => exact hm.elim
  | expSinSquared a => exact coef_of_closed (closed_ess a p) fun _ _ => rfl

theorem onCopies_noMatern52 (K : ℕ) (e : KExpr d) (h : NoMatern52 e) : NoMatern52 (onCopies K e) := by
  induction e with
  | sum e1 e2 ih1 ih2 => exact ⟨ih1 h.1, ih2 h.2⟩
  | prod e1 e2 ih1 ih2 => exact ⟨ih1 h.1, ih2 h.2⟩
  | matern52 a => exact h.elim
  | _ => trivial

theorem copies_jaccoef {n v : ℕ} (K : ℕ) (c : Fin n → Fin v → ℝ) (J : Jac n d v) :
    jaccoef c (mapJac (copies K) J) = mapBatch (copies K) (jaccoef c J) := rfl

/-- **C20** for library kernels without `Matern52`, sums and products included, with any lists of active features. -/
theorem C20_library_partial (e : KExpr d) (hm : NoMatern52 e) (p : KPar) : CoefficientSums e.obj p := by
  have hn := onCopies_noRepeats (longest e) e (Nat.le_succ _)
  have hm' := onCopies_noMatern52 (longest e) e hm
  have hs := copies_carries (longest e) e p
  obtain ⟨a, _, c⟩ := C25_expression_contractions _ hn p
  obtain ⟨a', c'⟩ := C25_expression_coefficients _ hn hm' p
  have h := coefficientSums_of_contracts a c a' c'
  refine ⟨fun n m v x1 x2 J co j => ?_, fun n m v w x1 x2 J1 J2 co j q => ?_⟩
  · have := h.1 n m v (mapBatch (copies (longest e)) x1) (mapBatch (copies (longest e)) x2)
      (mapJac (copies (longest e)) J) co j
    simpa only [copies_jaccoef, hs.d0kjc, hs.d0kj] using this
  · have := h.2 n m v w (mapBatch (copies (longest e)) x1) (mapBatch (copies (longest e)) x2)
      (mapJac (copies (longest e)) J1) (mapJac (copies (longest e)) J2) co j q
    simpa only [copies_jaccoef, hs.d01kjc, hs.d01kj] using this

/-- Non-vacuity. -/
example : NoMatern52 (.sum (.prod (.linear none) (.matern32 none)) (.polynomial none true) : KExpr 3) :=
  ⟨⟨trivial, trivial⟩, trivial⟩

/-! ## C26 and C27: derivatives of products and sums -/

theorem setFeature_self {n : ℕ} (x : Batch n d) (i : Fin n) (f : Fin d) :
    setFeature x i f (x i f) = x := by
  unfold setFeature
  rw [Function.update_eq_self, Function.update_eq_self]

theorem setFeature_apply {n : ℕ} (x : Batch n d) (i : Fin n) (f : Fin d) (t : ℝ) :
    setFeature x i f t i f = t := by simp [setFeature]

/-- **C27**, derivatives: the derivative kernels of a sum are the true derivatives of the sum whenever those
of the summands are. -/
theorem C27_sum_derivatives (κ1 κ2 : KernelObj d) (p : KPar) :
    (TrueD0 κ1 (p.sub "kernel1") → TrueD0 κ2 (p.sub "kernel2") → TrueD0 (κ1.sum κ2) p) ∧
    (TrueD1 κ1 (p.sub "kernel1") → TrueD1 κ2 (p.sub "kernel2") → TrueD1 (κ1.sum κ2) p) ∧
    (TrueD0 κ1 (p.sub "kernel1") → TrueD0 κ2 (p.sub "kernel2") →
      TrueD01 κ1 (p.sub "kernel1") → TrueD01 κ2 (p.sub "kernel2") → TrueD01 (κ1.sum κ2) p) := by
  refine ⟨?_, ?_, ?_⟩
  · intro h1 h2 n m x1 x2 i f j
    exact (h1 n m x1 x2 i f j).add (h2 n m x1 x2 i f j)
  · intro h1 h2 n m x1 x2 i j e
    exact (h1 n m x1 x2 i j e).add (h2 n m x1 x2 i j e)
  · intro a1 a2 h1 h2 n m x1 x2 i f j e
    refine ((h1 n m x1 x2 i f j e).add (h2 n m x1 x2 i f j e)).congr_of_eventuallyEq ?_
    refine Filter.Eventually.of_forall fun t => ?_
    exact ((a1 n m x1 (setFeature x2 j e t) i f j).differentiableAt.hasDerivAt.add
      (a2 n m x1 (setFeature x2 j e t) i f j).differentiableAt.hasDerivAt).deriv

/-- **C26.** `Prod(k1, k2)`: if the derivative kernels of the factors are the true derivatives, so are those of
the product, the mixed second derivative included. -/
theorem C26_product_rule (κ1 κ2 : KernelObj d) (p : KPar) :
    (TrueD0 κ1 (p.sub "kernel1") → TrueD0 κ2 (p.sub "kernel2") → TrueD0 (κ1.prod κ2) p) ∧
    (TrueD1 κ1 (p.sub "kernel1") → TrueD1 κ2 (p.sub "kernel2") → TrueD1 (κ1.prod κ2) p) ∧
    (TrueD0 κ1 (p.sub "kernel1") → TrueD0 κ2 (p.sub "kernel2") →
      TrueD1 κ1 (p.sub "kernel1") → TrueD1 κ2 (p.sub "kernel2") →
      TrueD01 κ1 (p.sub "kernel1") → TrueD01 κ2 (p.sub "kernel2") → TrueD01 (κ1.prod κ2) p) := by
  refine ⟨?_, ?_, ?_⟩
  · intro h1 h2 n m x1 x2 i f j
    refine ((h1 n m x1 x2 i f j).mul (h2 n m x1 x2 i f j)).congr_deriv ?_
    simp only [KernelObj.prod, prodDeriv0, Arr2.mul, Arr2.add, repeatRows_flat, setFeature_self]
    ring
  · intro h1 h2 n m x1 x2 i j e
    refine ((h1 n m x1 x2 i j e).mul (h2 n m x1 x2 i j e)).congr_deriv ?_
    simp only [KernelObj.prod, prodDeriv1, Arr2.mul, Arr2.add, repeatCols_flat, setFeature_self]
    ring
  · intro a1 a2 b1 b2 h1 h2 n m x1 x2 i f j e
    have e1 := h1 n m x1 x2 i f j e
    have e2 := h2 n m x1 x2 i f j e
    have c1 := b1 n m x1 x2 i j e
    have c2 := b2 n m x1 x2 i j e
    have key := (e1.mul c2).add (c1.mul e2)
    refine (key.congr_of_eventuallyEq ?_).congr_deriv ?_
    · refine Filter.Eventually.of_forall fun t => ?_
      have m1 := (a1 n m x1 (setFeature x2 j e t) i f j).differentiableAt.hasDerivAt
      have m2 := (a2 n m x1 (setFeature x2 j e t) i f j).differentiableAt.hasDerivAt
      have := (m1.mul m2).deriv
      simp only [setFeature_self] at this
      exact this
    · have d1 := (a1 n m x1 x2 i f j).deriv
      have d2 := (a2 n m x1 x2 i f j).deriv
      simp only [setFeature_self, KernelObj.prod, prodDeriv01, Arr2.mul, Arr2.add, repeatCols_flat,
        repeatRows_flat]
      rw [d1, d2]
      ring

/-- **C26**, contracted variants: jacobian- and coefficient-contracted kernels of a product are the
contractions of the derivative kernels of the product. -/
theorem C26_product_contractions (κ1 κ2 : KernelObj d) (p : KPar)
    (a1 : Contracts0 κ1 (p.sub "kernel1")) (a2 : Contracts0 κ2 (p.sub "kernel2"))
    (b1 : Contracts1 κ1 (p.sub "kernel1")) (b2 : Contracts1 κ2 (p.sub "kernel2"))
    (c1 : Contracts01 κ1 (p.sub "kernel1")) (c2 : Contracts01 κ2 (p.sub "kernel2"))
    (d1 : ContractsCoef0 κ1 (p.sub "kernel1")) (d2 : ContractsCoef0 κ2 (p.sub "kernel2"))
    (e1 : ContractsCoef01 κ1 (p.sub "kernel1")) (e2 : ContractsCoef01 κ2 (p.sub "kernel2")) :
    Contracts0 (κ1.prod κ2) p ∧ Contracts1 (κ1.prod κ2) p ∧ Contracts01 (κ1.prod κ2) p ∧
      ContractsCoef0 (κ1.prod κ2) p ∧ ContractsCoef01 (κ1.prod κ2) p :=
  ⟨contracts0_prod a1 a2, contracts1_prod b1 b2, contracts01_prod a1 a2 b1 b2 c1 c2,
    contractsCoef0_prod d1 d2, contractsCoef01_prod d1 d2 b1 b2 e1 e2⟩

/-! ## C28 -/

theorem resolve_compose (ad : Dims d) (a : Option (Dims ad.k)) :
    Dims.resolve (composeDims ad a) =
      ⟨(Dims.resolve a).k, fun b => ad.idx ((Dims.resolve a).idx b)⟩ := by
  cases a <;> rfl

theorem noRepeat_compose (ad : Dims d) (h : Function.Injective ad.idx) (a : Option (Dims ad.k))
    (ha : NoRepeat a) : NoRepeat (composeDims ad a) := by
  cases a with
  | none => exact h
  | some b => exact h.comp ha

theorem spread_compose (ad : Dims d) (h : Function.Injective ad.idx) (b : Dims ad.k)
    (vals : Fin b.k → ℝ) (a : Fin ad.k) :
    Dims.spread ⟨b.k, fun c => ad.idx (b.idx c)⟩ vals (ad.idx a) = b.spread vals a := by
  simp only [Dims.spread, h.eq_iff]

theorem isolates_of_closed (ad : Dims d) (h : Function.Injective ad.idx) (b : Dims ad.k)
    {κ : KernelObj d} {κ' : KernelObj ad.k} {p : KPar} {c : Core}
    (h1 : ClosedForm κ p ⟨b.k, fun c => ad.idx (b.idx c)⟩ c) (h2 : ClosedForm κ' p b c) :
    Isolates κ ad κ' p where
  k x1 x2 i j := by rw [h1.k, h2.k]; rfl
  d0k x1 x2 i a j := by rw [h1.d0k, h2.d0k, spread_compose ad h]; rfl
  d1k x1 x2 i j a := by rw [h1.d1k, h2.d1k, spread_compose ad h]; rfl
  d01k x1 x2 i f j e := by
    rw [h1.d01k, h2.d01k]
    unfold Dims.spread2
    rw [spread_compose ad h]
    congr 1
    funext a
    rw [spread_compose ad h]
    rfl
  d0k_zero x1 x2 i f j hf := by rw [h1.d0k]; exact Dims.spread_not _ _ _ fun a => hf _
  d1k_zero x1 x2 i j f hf := by rw [h1.d1k]; exact Dims.spread_not _ _ _ fun a => hf _
  d01k_zero x1 x2 i f j e hf := by
    rw [h1.d01k]
    rcases hf with hf | hf
    · exact Dims.spread2_not_left _ _ _ _ fun a => hf _
    · exact Dims.spread2_not_right _ _ _ _ fun a => hf _

theorem isolates_sum {ad : Dims d} {κ1 κ2 : KernelObj d} {κ1' κ2' : KernelObj ad.k} {p : KPar}
    (h1 : Isolates κ1 ad κ1' (p.sub "kernel1")) (h2 : Isolates κ2 ad κ2' (p.sub "kernel2")) :
    Isolates (κ1.sum κ2) ad (κ1'.sum κ2') p where
  k x1 x2 i j := by simp only [KernelObj.sum, sumKernels, Arr2.add]; rw [h1.k, h2.k]
  d0k x1 x2 i a j := by simp only [KernelObj.sum, sumKernels, Arr2.add]; rw [h1.d0k, h2.d0k]
  d1k x1 x2 i j a := by simp only [KernelObj.sum, sumKernels, Arr2.add]; rw [h1.d1k, h2.d1k]
  d01k x1 x2 i f j e := by simp only [KernelObj.sum, sumKernels, Arr2.add]; rw [h1.d01k, h2.d01k]
  d0k_zero x1 x2 i f j hf := by
    simp only [KernelObj.sum, sumKernels, Arr2.add]
    rw [h1.d0k_zero _ _ _ _ _ hf, h2.d0k_zero _ _ _ _ _ hf, add_zero]
  d1k_zero x1 x2 i j f hf := by
    simp only [KernelObj.sum, sumKernels, Arr2.add]
    rw [h1.d1k_zero _ _ _ _ _ hf, h2.d1k_zero _ _ _ _ _ hf, add_zero]
  d01k_zero x1 x2 i f j e hf := by
    simp only [KernelObj.sum, sumKernels, Arr2.add]
    rw [h1.d01k_zero _ _ _ _ _ _ hf, h2.d01k_zero _ _ _ _ _ _ hf, add_zero]

theorem isolates_prod {ad : Dims d} {κ1 κ2 : KernelObj d} {κ1' κ2' : KernelObj ad.k} {p : KPar}
    (h1 : Isolates κ1 ad κ1' (p.sub "kernel1")) (h2 : Isolates κ2 ad κ2' (p.sub "kernel2")) :
    Isolates (κ1.prod κ2) ad (κ1'.prod κ2') p where
  k x1 x2 i j := by simp only [KernelObj.prod, prodKernels, Arr2.mul]; rw [h1.k, h2.k]
  d0k x1 x2 i a j := by
    simp only [KernelObj.prod, prodDeriv0, Arr2.mul, Arr2.add, repeatRows_flat]
    rw [h1.d0k, h2.d0k, h1.k, h2.k]
  d1k x1 x2 i j a := by
    simp only [KernelObj.prod, prodDeriv1, Arr2.mul, Arr2.add, repeatCols_flat]
    rw [h1.d1k, h2.d1k, h1.k, h2.k]
  d01k x1 x2 i f j e := by
    simp only [KernelObj.prod, prodDeriv01, Arr2.mul, Arr2.add, repeatCols_flat, repeatRows_flat]
    rw [h1.d01k, h2.d01k, h1.k, h2.k, h1.d0k, h2.d0k, h1.d1k, h2.d1k]
  d0k_zero x1 x2 i f j hf := by
    simp only [KernelObj.prod, prodDeriv0, Arr2.mul, Arr2.add]
    rw [h1.d0k_zero _ _ _ _ _ hf, h2.d0k_zero _ _ _ _ _ hf]; ring
  d1k_zero x1 x2 i j f hf := by
    simp only [KernelObj.prod, prodDeriv1, Arr2.mul, Arr2.add]
    rw [h1.d1k_zero _ _ _ _ _ hf, h2.d1k_zero _ _ _ _ _ hf]; ring
  d01k_zero x1 x2 i f j e hf := by
    simp only [KernelObj.prod, prodDeriv01, Arr2.mul, Arr2.add, repeatCols_flat, repeatRows_flat]
    rw [h1.d01k_zero _ _ _ _ _ _ hf, h2.d01k_zero _ _ _ _ _ _ hf]
    rcases hf with hf | hf
    · rw [h1.d0k_zero _ _ _ _ _ hf, h2.d0k_zero _ _ _ _ _ hf]; ring
    · rw [h1.d1k_zero _ _ _ _ _ hf, h2.d1k_zero _ _ _ _ _ hf]; ring

/-- **C28.** Take any kernel expression `e` on the features selected by `ad` (an index list without
repetitions) and write it on all features by giving its leaves `active_dims`. The result does not depend on
the other features, its derivatives with respect to them are zero, and its derivatives with respect to a
selected feature are those of `e` on the restricted samples. For a single leaf without `active_dims` this is
the leaf with `active_dims = ad`. -/
theorem C28_active_dims (ad : Dims d) (h : Function.Injective ad.idx) (e : KExpr ad.k)
    (he : NoRepeats e) (p : KPar) : Isolates (onFeatures ad e).obj ad e.obj p := by
  induction e generalizing p with
  | constant a =>
    have := closed_constant (composeDims ad a) p
    rw [resolve_compose] at this
    exact isolates_of_closed ad h _ this (closed_constant a p)
  | linear a =>
    have := closed_linear (composeDims ad a) (noRepeat_compose ad h a he) p
    rw [resolve_compose] at this
    exact isolates_of_closed ad h _ this (closed_linear a he p)
  | polynomial a b =>
    have := closed_polynomial (composeDims ad a) (noRepeat_compose ad h a he) b p
    rw [resolve_compose] at this
    exact isolates_of_closed ad h _ this (closed_polynomial a he b p)
  | squaredExponential a =>
    have := closed_se (composeDims ad a) (noRepeat_compose ad h a he) p
    rw [resolve_compose] at this
    exact isolates_of_closed ad h _ this (closed_se a he p)
  | matern12 a =>
    have := closed_m12 (composeDims ad a) p
    rw [resolve_compose] at this
    exact isolates_of_closed ad h _ this (closed_m12 a p)
  | matern32 a =>
    have := closed_m32 (composeDims ad a) p
    rw [resolve_compose] at this
    exact isolates_of_closed ad h _ this (closed_m32 a p)
  | matern52 a =>
    have := closed_m52 (composeDims ad a) (noRepeat_compose ad h a he) p
    rw [resolve_compose] at this
    exact isolates_of_closed ad h _ this (closed_m52 a he p)
  | expSinSquared a =>
    have := closed_ess (composeDims ad a) p
    rw [resolve_compose] at this
    exact isolates_of_closed ad h _ this (closed_ess a p)
  | sum e1 e2 ih1 ih2 => exact isolates_sum (ih1 he.1 _) (ih2 he.2 _)
  | prod e1 e2 ih1 ih2 => exact isolates_prod (ih1 he.1 _) (ih2 he.2 _)

/-- Non-vacuity: features 2 and 0 of 3, a product of two leaves. -/
example : Function.Injective (⟨2, ![2, 0]⟩ : Dims 3).idx ∧
    NoRepeats (.prod (.squaredExponential none) (.linear (some ⟨1, ![1]⟩)) : KExpr 2) := by
  refine ⟨?_, trivial, ?_⟩
  · intro a b; fin_cases a <;> fin_cases b <;> simp
  · intro a b; fin_cases a; fin_cases b; simp

end GPX.Props
