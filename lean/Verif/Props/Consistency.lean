import Verif.Lemmas.Paths
import Verif.Props.GPRTD
import Verif.Props.SGPR

/-!
# C79: derivative kernels are derivatives along paths; C80: predicted derivatives are derivatives of predicted targets
-/

namespace GPX.Props
open GPX GPX.Spec

variable {d n m v w w' o : ℕ}

theorem contracts3 {κ : KernelObj d} {p : KPar} (h : Contracts κ p) :
    Contracts0 κ p ∧ Contracts1 κ p ∧ Contracts01 κ p := ⟨h.c0, h.c1, h.c01⟩

/-! ## C79 -/

/-- The full claim of C79: every expression made of twice differentiable kernels. -/
def C79_full : Prop := ∀ (d : ℕ) (e : KExpr d), ∀ p : KPar, Smooth e p → PathTrue e.obj p

theorem paths_noRepeats (e : KExpr d) (he : NoRepeats e) (p : KPar) (h : JointSmooth e p) : PathTrue e.obj p := by
  induction e generalizing p with
  | constant a =>
    obtain ⟨t0, t1, t01⟩ := C24_constant a he p
    have hc := closed_constant a p
    have hi := resolve_injective a he
    exact pathTrue_leaf (C63_sampleWise (.constant a) p) (contracts3 (contracts_of_closed hc))
      (fun _ _ _ => t0 _ _ _ _ _ _ _) (fun _ _ _ => t1 _ _ _ _ _ _ _) (fun _ _ _ _ => t01 _ _ _ _ _ _ _ _)
      (continuous_d0k_of_closed hc hi fun a => continuous_const)
      (continuous_d1k_of_closed hc hi fun a => continuous_const)
      (continuous_of_closed hc hi fun a b => continuous_const)
  | linear a =>
    obtain ⟨t0, t1, t01⟩ := C24_linear a he p
    have hc := closed_linear a he p
    have hi := resolve_injective a he
    exact pathTrue_leaf (C63_sampleWise (.linear a) p) (contracts3 (contracts_of_closed hc))
      (fun _ _ _ => t0 _ _ _ _ _ _ _) (fun _ _ _ => t1 _ _ _ _ _ _ _) (fun _ _ _ _ => t01 _ _ _ _ _ _ _ _)
      (continuous_d0k_of_closed hc hi fun a => (continuous_apply a).comp continuous_snd)
      (continuous_d1k_of_closed hc hi fun a => (continuous_apply a).comp continuous_fst)
      (continuous_of_closed hc hi fun a b => continuous_const)
  | polynomial a ni =>
    obtain ⟨⟨q, hq, hd⟩, ho⟩ := h
    have hg : ∀ u, GoodPower u (p.val "degree") := fun u => .inr ⟨q, hd, .inr hq⟩
    have hc := closed_polynomial a he ni p
    have hi := resolve_injective a he
    have hq2 : (2 : ℝ) ≤ q := by exact_mod_cast hq
    have hdot : Continuous fun z : (Fin (Dims.resolve a).k → ℝ) × (Fin (Dims.resolve a).k → ℝ) =>
        p.val "offset" + ∑ c, z.1 c * z.2 c := by fun_prop
    have c1 := hdot.rpow_const (p := p.val "degree" - 1) fun _ => .inr (by rw [hd]; linarith)
    have c2 := hdot.rpow_const (p := p.val "degree" - 2) fun _ => .inr (by rw [hd]; linarith)
    refine pathTrue_leaf (C63_sampleWise (.polynomial a ni) p) (contracts3 (contracts_of_closed hc))
      (fun x y f => (C24_polynomial a he ni p (one x) (one y) 0 f 0 f (hg _)).1)
      (fun x y f => (C24_polynomial a he ni p (one x) (one y) 0 f 0 f (hg _)).2.1)
      (fun x y f g => (C24_polynomial a he ni p (one x) (one y) 0 f 0 g (hg _)).2.2)
      (continuous_d0k_of_closed hc hi fun a => ?_)
      (continuous_d1k_of_closed hc hi fun a => ?_)
      (continuous_of_closed hc hi fun a b => ?_)
    · simp only [Core.polynomial]; fun_prop
    · simp only [Core.polynomial]; fun_prop
    · simp only [Core.polynomial]; fun_prop
  | squaredExponential a => exact h.elim
  | matern12 a => exact h.elim
  | matern32 a => exact h.elim
  | matern52 a =>
    obtain ⟨t0, t1, t01⟩ := C24_matern52 a he p
    have hc := closed_m52 a he p
    have hi := resolve_injective a he
    refine pathTrue_leaf (C63_sampleWise (.matern52 a) p) (contracts3 (contracts_of_closed hc))
      (fun _ _ _ => t0 _ _ _ _ _ _ _) (fun _ _ _ => t1 _ _ _ _ _ _ _) (fun _ _ _ _ => t01 _ _ _ _ _ _ _ _)
      (continuous_d0k_of_closed hc hi fun a => ?_)
      (continuous_d1k_of_closed hc hi fun a => ?_)
      (continuous_of_closed hc hi fun a b => ?_)
    · simp only [Core.m52, m52Dist, sqd]; fun_prop
    · simp only [Core.m52, m52Dist, sqd]; fun_prop
    · simp only [Core.m52, m52Dist, sqd]; split_ifs <;> fun_prop
  | expSinSquared a =>
    obtain ⟨t0, t1, t01⟩ := C24_exp_sin_squared a he p
    have hc := closed_ess a p
    have hi := resolve_injective a he
    refine pathTrue_leaf (C63_sampleWise (.expSinSquared a) p) (contracts3 (contracts_of_closed hc))
      (fun _ _ _ => t0 _ _ _ _ _ _ _) (fun _ _ _ => t1 _ _ _ _ _ _ _) (fun _ _ _ _ => t01 _ _ _ _ _ _ _ _)
      (continuous_d0k_of_closed hc hi fun a => ?_)
      (continuous_d1k_of_closed hc hi fun a => ?_)
      (continuous_of_closed hc hi fun a b => ?_)
    · simp only [Core.ess, essS, essQ]; fun_prop
    · simp only [Core.ess, essS, essQ]; fun_prop
    · simp only [Core.ess, essS, essQ, essR]; split_ifs <;> fun_prop
  | sum e1 e2 ih1 ih2 => exact (ih1 he.1 _ h.1).sum (ih2 he.2 _ h.2)
  | prod e1 e2 ih1 ih2 => exact (ih1 he.1 _ h.1).prod (ih2 he.2 _ h.2)

/-- The path `s ↦ (s², 1 - s)` of a sample and the moving part of its jacobian. -/
example : Moves (fun s (_ : Fin 1) => ![s ^ 2, 1 - s]) 3 (fun _ f (_ : Fin 1) => ![6, -1] f) 0 := by
  intro i f
  fin_cases f
  · exact (hasDerivAt_pow 2 (3 : ℝ)).congr_deriv (by norm_num)
  · exact ((hasDerivAt_id' (3 : ℝ)).const_sub 1)

/-- **C79**: for `Constant`, `Linear`, `Polynomial` and `NoInterceptPolynomial` of natural degree at least two,
`Matern52`, `ExpSinSquared`, all their sums and products: when the samples of a dataset move with a coordinate and
the jacobian holds the derivatives of their features, `d0kj` and `d1kj` are the derivatives of the kernel matrix
with respect to that coordinate and `d01kj` is the derivative of `d0kj`. For every path, dataset, jacobian and
hyperparameters, coinciding samples included. Missing from the full claim: `SquaredExponential` and `Matern32`, for
which it is false (`C79_false`); see `C79_gaussian` for `SquaredExponential`. -/
theorem C79_paths_partial (e : KExpr d) (p : KPar) (h : JointSmooth e p) : PathTrue e.obj p := by
  have hs := sameKernels_copies e p
  have ht := paths_noRepeats _ (onCopies_noRepeats (longest e) e (Nat.le_succ _)) p ((onCopies_jointSmooth _ e p).2 h)
  refine ⟨fun x1 x2 t J u hm i j => ?_, fun x1 x2 t J u hm i j => ?_, fun x1 J1 x2 t J2 u hm i q j => ?_⟩
  · have := ht.d0 (fun s => mapBatch (copies (longest e)) (x1 s)) (mapBatch (copies (longest e)) x2) t
      (mapJac (copies (longest e)) J) u (fun i f => hm i f.divNat) i j
    simpa only [hs.k, hs.d0kj] using this
  · have := ht.d1 (mapBatch (copies (longest e)) x1) (fun s => mapBatch (copies (longest e)) (x2 s)) t
      (mapJac (copies (longest e)) J) u (fun i f => hm i f.divNat) i j
    simpa only [hs.k, hs.d1kj] using this
  · have := ht.d01 (mapBatch (copies (longest e)) x1) (mapJac (copies (longest e)) J1)
      (fun s => mapBatch (copies (longest e)) (x2 s)) t (mapJac (copies (longest e)) J2) u (fun i f => hm i f.divNat) i q j
    simpa only [hs.d0kj, hs.d01kj] using this

example (e : KExpr 3) (h : e = .sum (.matern52 none) (.prod (.linear none) (.expSinSquared none))) :
    PathTrue e.obj (fun _ => 1) :=
  C79_paths_partial e _ (by subst h; norm_num [JointSmooth, KPar.val, KPar.sub])

/-! ### SquaredExponential -/

theorem se_paths_noRepeat (a : Option (Dims d)) (he : NoRepeat a) (p : KPar) :
    PathScaled (Real.exp (-(1 / 10 ^ 12))) (KernelObj.squaredExponential a) p := by
  have hs := C21_symmetric (.squaredExponential a) p
  have hw := C63_sampleWise (.squaredExponential a) p
  have hc := closed_se a he p
  have hi := resolve_injective a he
  have t0 := fun (x y : Fin d → ℝ) f => C24_squared_exponential_first a he p (one x) (one y) 0 f 0
  have t01 := fun (x y : Fin d → ℝ) f g => C24_squared_exponential a he p 1 1 (one x) (one y) 0 f 0 g
  have c0 := continuous_d0k_of_closed hc hi fun a => by simp only [Core.se, sqd]; fun_prop
  have c1 := continuous_d1k_of_closed hc hi fun a => by simp only [Core.se, sqd]; fun_prop
  have c01 := continuous_of_closed hc hi fun a b => by simp only [Core.se, sqd]; split_ifs <;> fun_prop
  have hcon := contracts3 (contracts_of_closed hc)
  change Symmetric (KernelObj.squaredExponential a) p at hs
  change SampleWise (KernelObj.squaredExponential a) p at hw
  have hpos := Real.exp_pos (-(1 / 10 ^ 12))
  generalize Real.exp (-(1 / 10 ^ 12)) = ε at *
  generalize KernelObj.squaredExponential a = κ at *
  refine pathScaled_leaf hw hcon t0 (fun x y f => ?_) (fun x y f g => ?_) c0 c1 c01
  · have e : (fun t => κ.k p (one x) (setFeature (one y) 0 f t) 0 0) =
        fun t => κ.k p (setFeature (one y) 0 f t) (one x) 0 0 :=
      funext fun t => hs.k _ _ _ _
    rw [e, hs.d1k]
    exact t0 y x f
  · have h := t01 x y f g
    unfold TrueD01At at h
    refine (h.const_mul ε⁻¹).congr_of_eventuallyEq (Filter.Eventually.of_forall fun t => ?_)
    have := t0 x (Function.update y g t) f
    rw [← setFeature_one] at this
    have hd := this.deriv
    beta_reduce
    rw [hd, ← mul_assoc, inv_mul_cancel₀ hpos.ne', one_mul]

theorem se_paths (a : Option (Dims d)) (p : KPar) :
    PathScaled (Real.exp (-(1 / 10 ^ 12))) (KernelObj.squaredExponential a) p := by
  let e : KExpr d := .squaredExponential a
  show PathScaled _ e.obj p
  have hs := sameKernels_copies e p
  have ht : PathScaled (Real.exp (-(1 / 10 ^ 12))) (onCopies (longest e) e).obj p :=
    se_paths_noRepeat (copyDims (longest e) a) (onCopies_noRepeats (longest e) e (Nat.le_succ _)) p
  refine ⟨fun x1 x2 t J u hm i j => ?_, fun x1 x2 t J u hm i j => ?_, fun x1 J1 x2 t J2 u hm i q j => ?_⟩
  · have := ht.d0 (fun s => mapBatch (copies (longest e)) (x1 s)) (mapBatch (copies (longest e)) x2) t
      (mapJac (copies (longest e)) J) u (fun i f => hm i f.divNat) i j
    simpa only [hs.k, hs.d0kj] using this
  · have := ht.d1 (mapBatch (copies (longest e)) x1) (fun s => mapBatch (copies (longest e)) (x2 s)) t
      (mapJac (copies (longest e)) J) u (fun i f => hm i f.divNat) i j
    simpa only [hs.k, hs.d1kj] using this
  · have := ht.d01 (mapBatch (copies (longest e)) x1) (mapJac (copies (longest e)) J1)
      (fun s => mapBatch (copies (longest e)) (x2 s)) t (mapJac (copies (longest e)) J2) u (fun i f => hm i f.divNat) i q j
    simpa only [hs.d0kj, hs.d01kj] using this

/-- **C79**, `SquaredExponential`, `Constant`, their sums and products with a `Constant`: along every path the
derivatives of the kernel matrix are `exp(-1e-12)` times `d0kj` and `d1kj`, and the derivatives of `d0kj` are
`exp(1e-12)` times `d01kj`. -/
theorem C79_gaussian (e : KExpr d) (h : Gaussian e) (p : KPar) :
    PathScaled (Real.exp (-(1 / 10 ^ 12))) e.obj p := by
  induction h generalizing p with
  | @squaredExponential a => exact se_paths a p
  | @constant a =>
    have hc := closed_constant a p
    refine ⟨fun x1 x2 t J u hm i j => ?_, fun x1 x2 t J u hm i j => ?_, fun x1 J1 x2 t J2 u hm i q j => ?_⟩
    · simp only [KExpr.obj, hc.k, hc.d0kj, Core.constant]; simpa using hasDerivAt_const _ _
    · simp only [KExpr.obj, hc.k, hc.d1kj, Core.constant]; simpa using hasDerivAt_const _ _
    · simp only [KExpr.obj, hc.d0kj, hc.d01kj, Core.constant]; simpa using hasDerivAt_const _ _
  | sum _ _ ih1 ih2 =>
    have h1 := ih1 (p.sub "kernel1")
    have h2 := ih2 (p.sub "kernel2")
    refine ⟨fun x1 x2 t J u hm i j => ?_, fun x1 x2 t J u hm i j => ?_, fun x1 J1 x2 t J2 u hm i q j => ?_⟩
    · exact ((h1.d0 x1 x2 t J u hm i j).add (h2.d0 x1 x2 t J u hm i j)).congr_deriv (mul_add _ _ _).symm
    · exact ((h1.d1 x1 x2 t J u hm i j).add (h2.d1 x1 x2 t J u hm i j)).congr_deriv (mul_add _ _ _).symm
    · exact ((h1.d01 x1 J1 x2 t J2 u hm i q j).add (h2.d01 x1 J1 x2 t J2 u hm i q j)).congr_deriv
        (mul_add _ _ _).symm
  | @scaleLeft a e _ ih =>
    have h2 := ih (p.sub "kernel2")
    have hc := closed_constant a (p.sub "kernel1")
    refine ⟨fun x1 x2 t J u hm i j => ?_, fun x1 x2 t J u hm i j => ?_, fun x1 J1 x2 t J2 u hm i q j => ?_⟩
    · refine (((h2.d0 x1 x2 t J u hm i j).const_mul ((p.sub "kernel1").val "variance")).congr_of_eventuallyEq
        (Filter.Eventually.of_forall fun s => ?_)).congr_deriv ?_
      · simp [KExpr.obj, KernelObj.prod, prodKernels, Arr2.mul, hc.k, Core.constant]
      · simp [KExpr.obj, KernelObj.prod, prodDeriv0Jac, Arr2.mul, Arr2.add, repeatRows_flat, hc.k, hc.d0kj,
          Core.constant]; ring
    · refine (((h2.d1 x1 x2 t J u hm i j).const_mul ((p.sub "kernel1").val "variance")).congr_of_eventuallyEq
        (Filter.Eventually.of_forall fun s => ?_)).congr_deriv ?_
      · simp [KExpr.obj, KernelObj.prod, prodKernels, Arr2.mul, hc.k, Core.constant]
      · simp [KExpr.obj, KernelObj.prod, prodDeriv1Jac, Arr2.mul, Arr2.add, repeatCols_flat, hc.k, hc.d1kj,
          Core.constant]; ring
    · refine (((h2.d01 x1 J1 x2 t J2 u hm i q j).const_mul ((p.sub "kernel1").val "variance")).congr_of_eventuallyEq
        (Filter.Eventually.of_forall fun s => ?_)).congr_deriv ?_
      · simp [KExpr.obj, KernelObj.prod, prodDeriv0Jac, Arr2.mul, Arr2.add, repeatRows_flat, hc.k, hc.d0kj,
          Core.constant]
      · simp [KExpr.obj, KernelObj.prod, prodDeriv01Jac, Arr2.mul, Arr2.add, repeatRows_flat, repeatCols_flat, hc.k,
          hc.d0kj, hc.d1kj, hc.d01kj, Core.constant]; ring
  | @scaleRight a e _ ih =>
    have h2 := ih (p.sub "kernel1")
    have hc := closed_constant a (p.sub "kernel2")
    refine ⟨fun x1 x2 t J u hm i j => ?_, fun x1 x2 t J u hm i j => ?_, fun x1 J1 x2 t J2 u hm i q j => ?_⟩
    · refine (((h2.d0 x1 x2 t J u hm i j).const_mul ((p.sub "kernel2").val "variance")).congr_of_eventuallyEq
        (Filter.Eventually.of_forall fun s => ?_)).congr_deriv ?_
      · simp [KExpr.obj, KernelObj.prod, prodKernels, Arr2.mul, hc.k, Core.constant]; ring
      · simp [KExpr.obj, KernelObj.prod, prodDeriv0Jac, Arr2.mul, Arr2.add, repeatRows_flat, hc.k, hc.d0kj,
          Core.constant]; ring
    · refine (((h2.d1 x1 x2 t J u hm i j).const_mul ((p.sub "kernel2").val "variance")).congr_of_eventuallyEq
        (Filter.Eventually.of_forall fun s => ?_)).congr_deriv ?_
      · simp [KExpr.obj, KernelObj.prod, prodKernels, Arr2.mul, hc.k, Core.constant]; ring
      · simp [KExpr.obj, KernelObj.prod, prodDeriv1Jac, Arr2.mul, Arr2.add, repeatCols_flat, hc.k, hc.d1kj,
          Core.constant]; ring
    · refine (((h2.d01 x1 J1 x2 t J2 u hm i q j).const_mul ((p.sub "kernel2").val "variance")).congr_of_eventuallyEq
        (Filter.Eventually.of_forall fun s => ?_)).congr_deriv ?_
      · simp [KExpr.obj, KernelObj.prod, prodDeriv0Jac, Arr2.mul, Arr2.add, repeatRows_flat, hc.k, hc.d0kj,
          Core.constant]; ring
      · simp [KExpr.obj, KernelObj.prod, prodDeriv01Jac, Arr2.mul, Arr2.add, repeatRows_flat, repeatCols_flat, hc.k,
          hc.d0kj, hc.d1kj, hc.d01kj, Core.constant]; ring

example (e : KExpr 3) (h : e = .prod (.constant none) (.sum (.squaredExponential none) (.constant none))) :
    PathScaled (Real.exp (-(1 / 10 ^ 12))) e.obj (fun _ => 1) :=
  C79_gaussian e (h ▸ .scaleLeft (.sum .squaredExponential .constant)) _

/-- **C79** is false in general: for `SquaredExponential` (samples `x1 = s` at `s = 1` and `x2 = 0`, all
hyperparameters one) `d0kj` is not the derivative of the kernel. -/
theorem C79_false : ¬ C79_full := by
  intro h
  have hm : Moves (fun s (_ : Fin 1) (_ : Fin 1) => s) 1 (fun _ _ (_ : Fin 1) => 1) 0 := fun _ _ => hasDerivAt_id' _
  have h1 := (h 1 (.squaredExponential none) (fun _ => 1) (by norm_num [Smooth, KPar.val])).d0
    (fun s (_ : Fin 1) (_ : Fin 1) => s) (fun (_ : Fin 1) _ => 0) 1 _ 0 hm 0 0
  have h2 := (C79_gaussian (.squaredExponential none : KExpr 1) .squaredExponential (fun _ => 1)).d0
    (fun s (_ : Fin 1) (_ : Fin 1) => s) (fun (_ : Fin 1) _ => 0) 1 _ 0 hm 0 0
  have h3 := h1.unique h2
  have hc := closed_se (none : Option (Dims 1)) trivial (fun _ => 1)
  simp only [KExpr.obj] at h3
  rw [hc.d0kj] at h3
  have hn : ∑ a : Fin (Dims.resolve (none : Option (Dims 1))).k, (1 : ℝ) *
      (Core.se (KPar.val (fun _ => 1) "lengthscale")).G0
        ((Dims.resolve (none : Option (Dims 1))).take fun _ => (1 : ℝ))
        ((Dims.resolve (none : Option (Dims 1))).take fun _ => (0 : ℝ)) a ≠ 0 := by
    change ∑ a : Fin 1, (1 : ℝ) * _ ≠ 0
    rw [Fin.sum_univ_one]
    simp only [Core.se, Dims.take, KPar.val]
    have := Real.exp_pos (-sqd (1 : ℝ) (fun _ : Fin (Dims.resolve (none : Option (Dims 1))).k => (1 : ℝ)) fun _ => 0)
    norm_num
  have h4 : Real.exp (-(1 / 10 ^ 12)) = 1 := by
    have := mul_right_cancel₀ hn ((one_mul _).trans h3)
    exact this.symm
  rw [Real.exp_eq_one_iff] at h4
  norm_num at h4

/-! ## C80 -/

/-- The derivative of the predicted target and the predicted derivative, in terms of the kernels. -/
theorem ol_paths {ε : ℝ} {κ : KernelObj d} {θ : GPParams} (h : PathScaled ε κ θ.kernelParams) (xt : Batch m d)
    (x : ℝ → Batch n d) (t : ℝ) (J : Jac n d v) (u : Fin v) (hm : Moves x t J u) (c : Mat m 1) (mu : ℝ) (j : Fin n) :
    HasDerivAt (fun s => (predictOl θ κ xt (x s) J c mu).1 j 0)
      (ε * (predictOl θ κ xt (x t) J c mu).2 (flat j u) 0) t := by
  have hs := HasDerivAt.fun_sum (u := Finset.univ) fun (i : Fin m) _ => (h.d1 xt x t J u hm i j).const_mul (c i 0)
  refine ((hs.const_add mu).congr_of_eventuallyEq (Filter.Eventually.of_forall fun s => ?_)).congr_deriv ?_
  · simp [predictOl, aLhs, Matrix.mul_apply]
  · simp only [predictOl, Matrix.of_apply, Matrix.mul_apply, Matrix.transpose_apply, Finset.mul_sum]
    exact Finset.sum_congr rfl fun i _ => by ring

theorem derivs_paths {ε : ℝ} {κ : KernelObj d} {θ : GPParams} (h : PathScaled ε κ θ.kernelParams) (xt : Batch m d)
    (Jt : Jac m d w) (x : ℝ → Batch n d) (t : ℝ) (J : Jac n d v) (u : Fin v) (hm : Moves x t J u)
    (c : Mat (m * w) 1) (mu : ℝ) (j : Fin n) :
    HasDerivAt (fun s => predictYDerivsDense θ κ xt Jt (x s) c mu j 0)
      (ε⁻¹ * predictDerivsDense θ κ xt Jt (x t) J c 0 j u) t := by
  have hs := HasDerivAt.fun_sum (u := Finset.univ) fun (i : Fin m) _ =>
    HasDerivAt.fun_sum (u := Finset.univ) fun (q : Fin w) _ =>
      (h.d01 xt Jt x t J u hm i q j).mul_const (c (flat i q) 0)
  refine ((hs.const_add mu).congr_of_eventuallyEq (Filter.Eventually.of_forall fun s => ?_)).congr_deriv ?_
  · simp [predictYDerivsDense, addScalar, Matrix.mul_apply, sum_flat]
  · simp only [predictDerivsDense, unflatCol, predictDerivsFlat, addScalar, aDerivsLhs, Matrix.of_apply, prod_flat,
      Matrix.mul_apply, Matrix.transpose_apply, sum_flat, zero_add, Finset.mul_sum]
    exact Finset.sum_congr rfl fun i _ => Finset.sum_congr rfl fun q _ => by ring

theorem sgpr_derivs_eq {κ : KernelObj d} {θ : GPParams} (hs : Symmetric κ θ.kernelParams) (xl : Batch m d)
    (Jl : Jac m d w) (x : Batch n d) (J : Jac n d v) (c : Mat (m * w) 1) (mu : ℝ) :
    sgprPredictDerivs θ κ xl Jl x J c mu = predictDerivsDense θ κ xl Jl x J c mu ∧
      sgprPredictYDerivs θ κ xl Jl x c mu = predictYDerivsDense θ κ xl Jl x c mu := by
  refine ⟨?_, rfl⟩
  have ht : (Matrix.of (κ.d01kj θ.kernelParams x xl J Jl) : Mat (n * v) (m * w)) =
      (Matrix.of (κ.d01kj θ.kernelParams xl x Jl J) : Mat (m * w) (n * v)).transpose := by
    ext r s
    exact hs.d01kj _ _ _ _ _ _
  unfold sgprPredictDerivs predictDerivsDense predictDerivsFlat aDerivsLhs
  simp only [ht]

/-- The full claim of C80, for GPR models fitted on derivatives: every expression made of twice differentiable
kernels. -/
def C80_full : Prop :=
  ∀ (d : ℕ) (e : KExpr d), ∀ θ : GPParams, Smooth e θ.kernelParams →
    ∀ (m n v w : ℕ) (xt : Batch m d) (Jt : Jac m d w) (x : ℝ → Batch n d) (t : ℝ) (J : Jac n d v) (u : Fin v),
      Moves x t J u → ∀ (c : Mat (m * w) 1) (mu : ℝ) (j : Fin n),
        HasDerivAt (fun s => predictYDerivsDense θ e.obj xt Jt (x s) c mu j 0)
          (predictDerivsDense θ e.obj xt Jt (x t) J c 0 j u) t

/-- **C80**, models fitted on derivatives (`GPR`; dense and iterative): along every path, for every coefficients,
`predict_derivs` is the derivative of `predict_y_derivs`. Same kernels as C79. -/
theorem C80_gpr_derivs_partial (e : KExpr d) (θ : GPParams) (h : JointSmooth e θ.kernelParams)
    (xt : Batch m d) (Jt : Jac m d w) (x : ℝ → Batch n d) (t : ℝ) (J : Jac n d v) (u : Fin v) (hm : Moves x t J u)
    (c : Mat (m * w) 1) (mu : ℝ) (j : Fin n) :
    HasDerivAt (fun s => predictYDerivsDense θ e.obj xt Jt (x s) c mu j 0)
      (predictDerivsDense θ e.obj xt Jt (x t) J c 0 j u) t ∧
    HasDerivAt (fun s => predictYDerivsIter θ e.obj xt Jt (x s) c mu j 0)
      (predictDerivsIter θ e.obj xt Jt (x t) J c 0 j u) t := by
  have h1 := derivs_paths (C79_paths_partial e _ h).scaled xt Jt x t J u hm c mu j
  rw [inv_one, one_mul] at h1
  refine ⟨h1, ?_⟩
  simp only [((C32_iterative_eq_dense e θ xt Jt (x _) J mu).2 c).2,
    ((C32_iterative_eq_dense e θ xt Jt (x t) J 0).2 c).1]
  exact h1

/-- **C80**, sparse models fitted on derivatives (`SGPR`, `SGPR_RPChol`; dense and iterative). -/
theorem C80_sgpr_derivs_partial (e : KExpr d) (θ : GPParams) (h : JointSmooth e θ.kernelParams)
    (xl : Batch m d) (Jl : Jac m d w) (x : ℝ → Batch n d) (t : ℝ) (J : Jac n d v) (u : Fin v) (hm : Moves x t J u)
    (c : Mat (m * w) 1) (mu : ℝ) (j : Fin n) :
    HasDerivAt (fun s => sgprPredictYDerivs θ e.obj xl Jl (x s) c mu j 0)
      (sgprPredictDerivs θ e.obj xl Jl (x t) J c 0 j u) t ∧
    HasDerivAt (fun s => sgprPredictYDerivsIter θ e.obj xl Jl (x s) c mu j 0)
      (sgprPredictDerivsIter θ e.obj xl Jl (x t) J c 0 j u) t := by
  have hs := C21_symmetric e θ.kernelParams
  have h1 := (C80_gpr_derivs_partial e θ h xl Jl x t J u hm c mu j).1
  have h2 : HasDerivAt (fun s => sgprPredictYDerivs θ e.obj xl Jl (x s) c mu j 0)
      (sgprPredictDerivs θ e.obj xl Jl (x t) J c 0 j u) t := by
    rw [(sgpr_derivs_eq hs xl Jl (x t) J c 0).1]
    exact h1
  refine ⟨h2, ?_⟩
  simp only [(C48_predict_derivs e θ xl Jl (x _) J c mu).2.2.1, (C48_predict_derivs e θ xl Jl (x t) J c 0).1]
  exact h2

/-- **C80**, `predict_ol` of a model fitted by `fit_ol`: the predicted derivatives are the derivatives of the
predicted targets. -/
theorem C80_ol_partial (e : KExpr d) (θ : GPParams) (h : JointSmooth e θ.kernelParams)
    (xt : Batch m d) (x : ℝ → Batch n d) (t : ℝ) (J : Jac n d v) (u : Fin v) (hm : Moves x t J u) (c : Mat m 1)
    (mu : ℝ) (j : Fin n) :
    HasDerivAt (fun s => (predictOl θ e.obj xt (x s) J c mu).1 j 0)
      ((predictOl θ e.obj xt (x t) J c mu).2 (flat j u) 0) t := by
  simpa using ol_paths (C79_paths_partial e _ h).scaled xt x t J u hm c mu j

theorem cov1_paths {κ : KernelObj d} {p : KPar} (h : PathTrue κ p) (xt : Batch m d) (Jt : Jac m d w)
    (x : ℝ → Batch n d) (t : ℝ) (J : Jac n d v) (u : Fin v) (hm : Moves x t J u) (J0 : Jac n d v) (a : Obs1 m w)
    (j : Fin n) :
    HasDerivAt (fun s => cov1 κ p xt Jt (x s) J0 a (.inl j)) (cov1 κ p xt Jt (x t) J a (.inr (j, u))) t := by
  rcases a with i | ⟨i, q⟩
  · exact h.d1 xt x t J u hm i j
  · exact h.d01 xt Jt x t J u hm i q j

/-- **C80**, `GPR_TD` with one set of derivatives, dense and iterative: the predicted derivatives are the derivatives
of the predicted targets. -/
theorem C80_td1_partial (e : KExpr d) (θ : TDParams) (h : JointSmooth e θ.kernelParams)
    (xt : Batch m d) (Jt : Jac m d w) (x : ℝ → Batch n d) (t : ℝ) (J : Jac n d v) (u : Fin v) (hm : Moves x t J u)
    (c : Mat (m + m * w) 1) (mu : ℝ) (j : Fin n) :
    HasDerivAt (fun s => (tdPredictDense1 θ e.obj xt Jt (x s) J c mu).1 j 0)
      ((tdPredictDense1 θ e.obj xt Jt (x t) J c mu).2 j u) t ∧
    HasDerivAt (fun s => (tdPredictIter1 θ e.obj xt Jt (x s) J c mu).1 j 0)
      ((tdPredictIter1 θ e.obj xt Jt (x t) J c mu).2 j u) t := by
  have h1 : HasDerivAt (fun s => (tdPredictDense1 θ e.obj xt Jt (x s) J c mu).1 j 0)
      ((tdPredictDense1 θ e.obj xt Jt (x t) J c mu).2 j u) t := by
    simp only [(C76_predict1 e θ xt Jt (x _) J c mu).1, (C76_predict1 e θ xt Jt (x t) J c mu).2.1]
    exact (HasDerivAt.fun_sum (u := Finset.univ) fun a _ => (cov1_paths (C79_paths_partial e _ h) xt Jt x t J u hm J
      a j).mul_const (c (pos1 a) 0)).const_add mu
  refine ⟨h1, ?_⟩
  simp only [(C76_predict1 e θ xt Jt (x _) J c mu).2.2]
  exact h1

/-- **C80**, `GPR_TD` with two sets of derivatives, dense and iterative. -/
theorem C80_td2_partial {v' : ℕ} (e : KExpr d) (θ : TDParams) (h : JointSmooth e θ.kernelParams)
    (xt : Batch m d) (Jt : Jac m d w) (Jt' : Jac m d w') (x : ℝ → Batch n d) (t : ℝ) (J : Jac n d v)
    (J' : Jac n d v') (c : Mat (m + m * w + m * w') 1) (mu : ℝ) (j : Fin n) :
    (∀ u, Moves x t J u →
      HasDerivAt (fun s => (tdPredictDense2 θ e.obj xt Jt Jt' (x s) J J' c mu).1 j 0)
        ((tdPredictDense2 θ e.obj xt Jt Jt' (x t) J J' c mu).2.1 j u) t ∧
      HasDerivAt (fun s => (tdPredictIter2 θ e.obj xt Jt Jt' (x s) J J' c mu).1 j 0)
        ((tdPredictIter2 θ e.obj xt Jt Jt' (x t) J J' c mu).2.1 j u) t) ∧
    (∀ u, Moves x t J' u →
      HasDerivAt (fun s => (tdPredictDense2 θ e.obj xt Jt Jt' (x s) J J' c mu).1 j 0)
        ((tdPredictDense2 θ e.obj xt Jt Jt' (x t) J J' c mu).2.2 j u) t ∧
      HasDerivAt (fun s => (tdPredictIter2 θ e.obj xt Jt Jt' (x s) J J' c mu).1 j 0)
        ((tdPredictIter2 θ e.obj xt Jt Jt' (x t) J J' c mu).2.2 j u) t) := by
  have hp := C79_paths_partial e _ h
  simp only [(C76_predict2 e θ xt Jt Jt' (x _) J J' c mu).2.2.2, and_self,
    (C76_predict2 e θ xt Jt Jt' (x _) J J' c mu).1]
  constructor
  · intro u hm
    rw [(C76_predict2 e θ xt Jt Jt' (x t) J J' c mu).2.1]
    refine (HasDerivAt.fun_sum (u := Finset.univ) fun a _ => HasDerivAt.mul_const ?_ (c (pos2 a) 0)).const_add mu
    rcases a with (i | ⟨i, q⟩) | ⟨i, q⟩
    · exact hp.d1 xt x t J u hm i j
    · exact hp.d01 xt Jt x t J u hm i q j
    · exact hp.d01 xt Jt' x t J u hm i q j
  · intro u hm
    rw [(C76_predict2 e θ xt Jt Jt' (x t) J J' c mu).2.2.1]
    refine (HasDerivAt.fun_sum (u := Finset.univ) fun a _ => HasDerivAt.mul_const ?_ (c (pos2 a) 0)).const_add mu
    rcases a with (i | ⟨i, q⟩) | ⟨i, q⟩
    · exact hp.d1 xt x t J' u hm i j
    · exact hp.d01 xt Jt x t J' u hm i q j
    · exact hp.d01 xt Jt' x t J' u hm i q j

/-- **C80**, `SquaredExponential`, `Constant`, their sums and products with a `Constant`: the derivatives predicted by
models fitted on derivatives are `exp(-1e-12)` times the derivatives of the predicted targets, those of `predict_ol`
`exp(1e-12)` times. -/
theorem C80_gaussian (e : KExpr d) (hg : Gaussian e) (θ : GPParams) (xt : Batch m d)
    (x : ℝ → Batch n d) (t : ℝ) (J : Jac n d v) (u : Fin v) (hm : Moves x t J u) (mu : ℝ) (j : Fin n) :
    (∀ (Jt : Jac m d w) (c : Mat (m * w) 1), HasDerivAt (fun s => predictYDerivsDense θ e.obj xt Jt (x s) c mu j 0)
      (Real.exp (1 / 10 ^ 12) * predictDerivsDense θ e.obj xt Jt (x t) J c 0 j u) t) ∧
    ∀ c : Mat m 1, HasDerivAt (fun s => (predictOl θ e.obj xt (x s) J c mu).1 j 0)
      (Real.exp (-(1 / 10 ^ 12)) * (predictOl θ e.obj xt (x t) J c mu).2 (flat j u) 0) t := by
  have hp := C79_gaussian e hg θ.kernelParams
  refine ⟨fun Jt c => ?_, fun c => ol_paths hp xt x t J u hm c mu j⟩
  have := derivs_paths hp xt Jt x t J u hm c mu j
  rwa [← Real.exp_neg, neg_neg] at this

/-- **C80** is false in general: a `SquaredExponential` model fitted on one derivative, at its training point. -/
theorem C80_false : ¬ C80_full := by
  intro h
  have hm : Moves (fun s (_ : Fin 1) (_ : Fin 1) => s) 0 (fun _ _ (_ : Fin 1) => 1) 0 := fun _ _ => hasDerivAt_id' _
  have h1 := h 1 (.squaredExponential none) ⟨fun _ => 1, 1⟩ (by norm_num [Smooth, KPar.val]) 1 1 1 1
    (fun _ _ => 0) (fun _ _ _ => 1) _ _ _ _ hm (Matrix.of fun _ _ => 1) 0 0
  have h2 := (C80_gaussian (.squaredExponential none : KExpr 1) .squaredExponential ⟨fun _ => 1, 1⟩
    (fun (_ : Fin 1) _ => 0) _ _ _ _ hm 0 0).1 (fun _ _ (_ : Fin 1) => 1) (Matrix.of fun _ _ => 1)
  have h3 := h1.unique h2
  have hc := closed_se (none : Option (Dims 1)) trivial (fun _ => 1)
  have hH : ∀ {k : ℕ} (x : Fin k → ℝ) (a : Fin k), (Core.se 1).H x x a a ≠ 0 := by
    intro k x a
    simp [Core.se]
  have hn : predictDerivsDense (⟨fun _ => 1, 1⟩ : GPParams) (KExpr.squaredExponential none : KExpr 1).obj
      (fun (_ : Fin 1) (_ : Fin 1) => (0 : ℝ)) (fun _ _ (_ : Fin 1) => (1 : ℝ))
      (fun (_ : Fin 1) (_ : Fin 1) => (0 : ℝ)) (fun _ _ (_ : Fin 1) => (1 : ℝ)) (Matrix.of fun _ _ => 1) 0 0 0 ≠ 0 := by
    simp only [predictDerivsDense, unflatCol, predictDerivsFlat, addScalar, aDerivsLhs, Matrix.of_apply, prod_flat,
      Matrix.mul_apply, Matrix.transpose_apply, sum_flat, zero_add, KExpr.obj, hc.d01kj, Fin.sum_univ_one]
    change (∑ a : Fin 1, ∑ b : Fin 1, (1 : ℝ) * _ * 1) * 1 ≠ 0
    rw [Fin.sum_univ_one, Fin.sum_univ_one, one_mul, mul_one, mul_one]
    exact hH _ _
  have h4 : Real.exp (1 / 10 ^ 12) = 1 := by
    have := mul_right_cancel₀ hn ((one_mul _).trans h3)
    exact this.symm
  rw [Real.exp_eq_one_iff] at h4
  norm_num at h4

/-- A model fitted on two samples with three derivatives each, predicting at two samples that move along a line. -/
example (c : Mat (2 + 2 * 3) 1) (mu : ℝ) (j : Fin 2) :
    HasDerivAt (fun s => (tdPredictDense1 exθ (KExpr.matern52 none : KExpr 2).obj exX exJ
        (fun i f => exX i f + s * exJ' i f 0) exJ' c mu).1 j 0)
      ((tdPredictDense1 exθ (KExpr.matern52 none : KExpr 2).obj exX exJ
        (fun i f => exX i f + 5 * exJ' i f 0) exJ' c mu).2 j 0) 5 :=
  (C80_td1_partial _ exθ (by norm_num [JointSmooth, KPar.val, exθ]) exX exJ
    (fun s i f => exX i f + s * exJ' i f 0) 5 exJ' 0
    (fun i f => (((hasDerivAt_id' (5 : ℝ)).mul_const (exJ' i f 0)).const_add (exX i f)).congr_deriv (one_mul _))
    c mu j).1

end GPX.Props
