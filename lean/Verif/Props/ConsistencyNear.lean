import Verif.Lemmas.DerivNear
import Verif.Lemmas.Matern32Paths
import Verif.Props.Consistency

/-!
# C79 and C80 for every twice differentiable kernel

The derivative kernels, hence the predicted derivatives, are derivatives up to `2e-12` of the terms in which a
`SquaredExponential` is differentiated and `2e-6` of those in which a `Matern32` is.
-/

namespace GPX.Props
open GPX GPX.Spec

variable {d m n v w w' : ℕ}

theorem pathTrue_near {e : KExpr d} {p : KPar} (h : PathTrue e.obj p)
    (h0 : ∀ {n m v : ℕ} (x1 : Batch n d) (x2 : Batch m d) (J : Jac n d v) i u j, err0 e p x1 J x2 i u j = 0)
    (h1 : ∀ {n m v : ℕ} (x1 : Batch n d) (x2 : Batch m d) (J : Jac m d v) i j u, err1 e p x1 x2 J i j u = 0)
    (h01 : ∀ {n m v w : ℕ} (x1 : Batch n d) (J1 : Jac n d v) (x2 : Batch m d) (J2 : Jac m d w) i q j u,
      err01 e p x1 J1 x2 J2 i q j u = 0) : PathNear e p where
  d0 x1 x2 t J u hm i j := by rw [h0]; exact .exact (h.d0 x1 x2 t J u hm i j)
  d1 x1 x2 t J u hm i j := by rw [h1]; exact .exact (h.d1 x1 x2 t J u hm i j)
  d01 x1 J1 x2 t J2 u hm i q j _ := by rw [h01]; exact .exact (h.d01 x1 J1 x2 t J2 u hm i q j)

/-- **C79** (partial), every twice differentiable expression: along every path of either dataset the kernel matrix has
derivatives, and `d0kj`, `d1kj` differ from them, and `d01kj` from those of `d0kj`, by at most `2e-12` times the absolute
values of the terms in which a `SquaredExponential` is differentiated and `2e-6` times those in which a `Matern32` is;
nothing if there is neither. The second derivatives of `Matern32` are those of its first off the floor of its distance. -/
theorem C79_near_partial (e : KExpr d) (p : KPar) (h : Smooth e p) : PathNear e p := by
  induction e generalizing p with
  | constant a =>
    exact pathTrue_near (C79_paths_partial (.constant a) p h) (fun _ _ _ _ _ _ => rfl)
      (fun _ _ _ _ _ _ => rfl) (fun _ _ _ _ _ _ _ _ => rfl)
  | linear a =>
    exact pathTrue_near (C79_paths_partial (.linear a) p h) (fun _ _ _ _ _ _ => rfl)
      (fun _ _ _ _ _ _ => rfl) (fun _ _ _ _ _ _ _ _ => rfl)
  | polynomial a ni =>
    exact pathTrue_near (C79_paths_partial (.polynomial a ni) p h) (fun _ _ _ _ _ _ => rfl)
      (fun _ _ _ _ _ _ => rfl) (fun _ _ _ _ _ _ _ _ => rfl)
  | matern52 a =>
    exact pathTrue_near (C79_paths_partial (.matern52 a) p h) (fun _ _ _ _ _ _ => rfl)
      (fun _ _ _ _ _ _ => rfl) (fun _ _ _ _ _ _ _ _ => rfl)
  | expSinSquared a =>
    exact pathTrue_near (C79_paths_partial (.expSinSquared a) p h) (fun _ _ _ _ _ _ => rfl)
      (fun _ _ _ _ _ _ => rfl) (fun _ _ _ _ _ _ _ _ => rfl)
  | matern12 a => exact h.elim
  | matern32 a =>
    exact ⟨fun x1 x2 t J u hm i j => m32_near0 a p x1 x2 t J u hm i j,
      fun x1 x2 t J u hm i j => m32_near1 a p x1 x2 t J u hm i j,
      fun x1 J1 x2 t J2 u hm i q j ho => .exact (m32_near01 a p x1 J1 x2 t J2 u hm i q j ho)⟩
  | squaredExponential a =>
    have hs := se_paths a p
    have e1 : |Real.exp (-(1 / 10 ^ 12)) - 1| ≤ 2 / 10 ^ 12 :=
      (Real.abs_exp_sub_one_le (by rw [abs_neg, abs_of_nonneg] <;> norm_num)).trans (by
        rw [abs_neg, abs_of_nonneg] <;> norm_num)
    have e2 : |(Real.exp (-(1 / 10 ^ 12)))⁻¹ - 1| ≤ 2 / 10 ^ 12 := by
      rw [← Real.exp_neg, neg_neg]
      exact (Real.abs_exp_sub_one_le (by rw [abs_of_nonneg] <;> norm_num)).trans (by rw [abs_of_nonneg] <;> norm_num)
    exact ⟨fun x1 x2 t J u hm i j => .scaled (hs.d0 x1 x2 t J u hm i j) e1,
      fun x1 x2 t J u hm i j => .scaled (hs.d1 x1 x2 t J u hm i j) e1,
      fun x1 J1 x2 t J2 u hm i q j _ => .scaled (hs.d01 x1 J1 x2 t J2 u hm i q j) e2⟩
  | sum e1 e2 ih1 ih2 =>
    have h1 := ih1 _ h.1
    have h2 := ih2 _ h.2
    exact ⟨fun x1 x2 t J u hm i j => ((h1.d0 x1 x2 t J u hm i j).add (h2.d0 x1 x2 t J u hm i j)).of_eq (fun _ => rfl) rfl rfl,
      fun x1 x2 t J u hm i j => ((h1.d1 x1 x2 t J u hm i j).add (h2.d1 x1 x2 t J u hm i j)).of_eq (fun _ => rfl) rfl
        rfl,
      fun x1 J1 x2 t J2 u hm i q j ho =>
        ((h1.d01 x1 J1 x2 t J2 u hm i q j ho.1).add (h2.d01 x1 J1 x2 t J2 u hm i q j ho.2)).of_eq
        (fun _ => rfl) rfl rfl⟩
  | prod e1 e2 ih1 ih2 =>
    have h1 := ih1 _ h.1
    have h2 := ih2 _ h.2
    refine ⟨fun x1 x2 t J u hm i j => ((h1.d0 x1 x2 t J u hm i j).mul (h2.d0 x1 x2 t J u hm i j)).of_eq (fun _ => rfl)
        ?_ rfl,
      fun x1 x2 t J u hm i j => ((h1.d1 x1 x2 t J u hm i j).mul (h2.d1 x1 x2 t J u hm i j)).of_eq (fun _ => rfl)
        ?_ rfl,
      fun x1 J1 x2 t J2 u hm i q j ho =>
        (((h1.d01 x1 J1 x2 t J2 u hm i q j ho.1).mul (h2.d1 x1 x2 t J2 u hm i j)).add
          ((h1.d1 x1 x2 t J2 u hm i j).mul (h2.d01 x1 J1 x2 t J2 u hm i q j ho.2))).of_eq (fun s => ?_) ?_
          (by rw [err01]; ring)⟩
    · simp only [KExpr.obj, KernelObj.prod, prodDeriv0Jac, Arr2.mul, Arr2.add, repeatRows_flat]
      ring
    · simp only [KExpr.obj, KernelObj.prod, prodDeriv1Jac, Arr2.mul, Arr2.add, repeatCols_flat]
      ring
    · simp only [KExpr.obj, KernelObj.prod, prodDeriv0Jac, Arr2.mul, Arr2.add, repeatRows_flat]
      ring
    · simp only [KExpr.obj, KernelObj.prod, prodDeriv01Jac, Arr2.mul, Arr2.add, repeatCols_flat, repeatRows_flat]
      ring

/-- **C80** (partial), `predict_ol`: the predicted derivatives are the derivatives of the predicted targets up to `2e-12` of
the `SquaredExponential` terms and `2e-6` of the `Matern32` terms, weighted with the coefficients. -/
theorem C80_ol_near_partial (e : KExpr d) (θ : GPParams) (h : Smooth e θ.kernelParams)
    (xt : Batch m d) (x : ℝ → Batch n d) (t : ℝ) (J : Jac n d v) (u : Fin v) (hm : Moves x t J u) (c : Mat m 1)
    (mu : ℝ) (j : Fin n) :
    DerivNear (fun s => (predictOl θ e.obj xt (x s) J c mu).1 j 0) ((predictOl θ e.obj xt (x t) J c mu).2 (flat j u) 0)
      (∑ i, err1 e θ.kernelParams xt (x t) J i j u * |c i 0|) t := by
  have hs := (DerivNear.sum fun i : Fin m =>
    ((C79_near_partial e _ h).d1 xt x t J u hm i j).mul_const (c i 0)).const_add mu
  refine hs.of_eq (fun s => ?_) ?_ ?_
  · simp [predictOl, aLhs, Matrix.mul_apply, mul_comm]
  · simp only [predictOl, Matrix.of_apply, Matrix.mul_apply, Matrix.transpose_apply, mul_comm]
  · rfl

/-- **C80** (partial), `GPR` fitted on derivatives, dense and iterative. -/
theorem C80_gpr_derivs_near_partial (e : KExpr d) (θ : GPParams) (h : Smooth e θ.kernelParams)
    (xt : Batch m d) (Jt : Jac m d w) (x : ℝ → Batch n d) (t : ℝ) (J : Jac n d v) (u : Fin v) (hm : Moves x t J u)
    (c : Mat (m * w) 1) (mu : ℝ) (j : Fin n) (ho : ∀ i, OffFloor e θ.kernelParams (xt i) (x t j)) :
    let r := ∑ i, ∑ q, err01 e θ.kernelParams xt Jt (x t) J i q j u * |c (flat i q) 0|
    DerivNear (fun s => predictYDerivsDense θ e.obj xt Jt (x s) c mu j 0)
      (predictDerivsDense θ e.obj xt Jt (x t) J c 0 j u) r t ∧
    DerivNear (fun s => predictYDerivsIter θ e.obj xt Jt (x s) c mu j 0)
      (predictDerivsIter θ e.obj xt Jt (x t) J c 0 j u) r t := by
  intro r
  have hs := (DerivNear.sum fun i : Fin m => DerivNear.sum fun q : Fin w =>
    ((C79_near_partial e _ h).d01 xt Jt x t J u hm i q j (ho i)).mul_const (c (flat i q) 0)).const_add mu
  have h1 : DerivNear (fun s => predictYDerivsDense θ e.obj xt Jt (x s) c mu j 0)
      (predictDerivsDense θ e.obj xt Jt (x t) J c 0 j u) r t := by
    refine hs.of_eq (fun s => ?_) ?_ ?_
    · simp [predictYDerivsDense, addScalar, Matrix.mul_apply, sum_flat]
    · simp only [predictDerivsDense, unflatCol, predictDerivsFlat, addScalar, aDerivsLhs, Matrix.of_apply, prod_flat,
        Matrix.mul_apply, Matrix.transpose_apply, sum_flat, zero_add]
    · rfl
  refine ⟨h1, ?_⟩
  simp only [((C32_iterative_eq_dense e θ xt Jt (x _) J mu).2 c).2,
    ((C32_iterative_eq_dense e θ xt Jt (x t) J 0).2 c).1]
  exact h1

/-- **C80** (partial), sparse models fitted on derivatives, dense and iterative. -/
theorem C80_sgpr_derivs_near_partial (e : KExpr d) (θ : GPParams) (h : Smooth e θ.kernelParams)
    (xl : Batch m d) (Jl : Jac m d w) (x : ℝ → Batch n d) (t : ℝ) (J : Jac n d v) (u : Fin v) (hm : Moves x t J u)
    (c : Mat (m * w) 1) (mu : ℝ) (j : Fin n) (ho : ∀ i, OffFloor e θ.kernelParams (xl i) (x t j)) :
    let r := ∑ i, ∑ q, err01 e θ.kernelParams xl Jl (x t) J i q j u * |c (flat i q) 0|
    DerivNear (fun s => sgprPredictYDerivs θ e.obj xl Jl (x s) c mu j 0)
      (sgprPredictDerivs θ e.obj xl Jl (x t) J c 0 j u) r t ∧
    DerivNear (fun s => sgprPredictYDerivsIter θ e.obj xl Jl (x s) c mu j 0)
      (sgprPredictDerivsIter θ e.obj xl Jl (x t) J c 0 j u) r t := by
  intro r
  have hs := C21_symmetric e θ.kernelParams
  have h1 := (C80_gpr_derivs_near_partial e θ h xl Jl x t J u hm c mu j ho).1
  have h2 : DerivNear (fun s => sgprPredictYDerivs θ e.obj xl Jl (x s) c mu j 0)
      (sgprPredictDerivs θ e.obj xl Jl (x t) J c 0 j u) r t := by
    rw [(sgpr_derivs_eq hs xl Jl (x t) J c 0).1]
    exact h1
  refine ⟨h2, ?_⟩
  simp only [(C48_predict_derivs e θ xl Jl (x _) J c mu).2.2.1, (C48_predict_derivs e θ xl Jl (x t) J c 0).1]
  exact h2

/-- **C80** (partial), `GPR_TD` with one set of derivatives, dense and iterative; the first `m` coefficients belong to the
targets, the others to the derivatives. -/
theorem C80_td1_near_partial (e : KExpr d) (θ : TDParams) (h : Smooth e θ.kernelParams)
    (xt : Batch m d) (Jt : Jac m d w) (x : ℝ → Batch n d) (t : ℝ) (J : Jac n d v) (u : Fin v) (hm : Moves x t J u)
    (c : Mat (m + m * w) 1) (mu : ℝ) (j : Fin n) (ho : ∀ i, OffFloor e θ.kernelParams (xt i) (x t j)) :
    let r := (∑ i, err1 e θ.kernelParams xt (x t) J i j u * |c (Fin.castAdd _ i) 0| +
      ∑ i, ∑ q, err01 e θ.kernelParams xt Jt (x t) J i q j u * |c (Fin.natAdd m (flat i q)) 0|)
    DerivNear (fun s => (tdPredictDense1 θ e.obj xt Jt (x s) J c mu).1 j 0)
      ((tdPredictDense1 θ e.obj xt Jt (x t) J c mu).2 j u) r t ∧
    DerivNear (fun s => (tdPredictIter1 θ e.obj xt Jt (x s) J c mu).1 j 0)
      ((tdPredictIter1 θ e.obj xt Jt (x t) J c mu).2 j u) r t := by
  intro r
  have hp := C79_near_partial e _ h
  have hs : ∀ a : Obs1 m w, DerivNear (fun s => cov1 e.obj θ.kernelParams xt Jt (x s) J a (.inl j))
      (cov1 e.obj θ.kernelParams xt Jt (x t) J a (.inr (j, u)))
      (Sum.elim (fun i => err1 e θ.kernelParams xt (x t) J i j u)
        (fun iq => err01 e θ.kernelParams xt Jt (x t) J iq.1 iq.2 j u) a) t := by
    rintro (i | ⟨i, q⟩)
    · exact hp.d1 xt x t J u hm i j
    · exact hp.d01 xt Jt x t J u hm i q j (ho i)
  have h1 : DerivNear (fun s => (tdPredictDense1 θ e.obj xt Jt (x s) J c mu).1 j 0)
      ((tdPredictDense1 θ e.obj xt Jt (x t) J c mu).2 j u) r t := by
    simp only [(C76_predict1 e θ xt Jt (x _) J c mu).1, (C76_predict1 e θ xt Jt (x t) J c mu).2.1]
    refine ((DerivNear.sum fun a => (hs a).mul_const (c (pos1 a) 0)).const_add mu).of_eq (fun _ => rfl) rfl ?_
    simp only [r, Fintype.sum_sum_type, Fintype.sum_prod_type, Sum.elim_inl, Sum.elim_inr, pos1]
  refine ⟨h1, ?_⟩
  simp only [(C76_predict1 e θ xt Jt (x _) J c mu).2.2]
  exact h1

/-- **C80** (partial), `GPR_TD` with two sets of derivatives, dense and iterative, derivatives of either set. -/
theorem C80_td2_near_partial {v' : ℕ} (e : KExpr d) (θ : TDParams) (h : Smooth e θ.kernelParams)
    (xt : Batch m d) (Jt : Jac m d w) (Jt' : Jac m d w') (x : ℝ → Batch n d) (t : ℝ) (J : Jac n d v)
    (J' : Jac n d v') (c : Mat (m + m * w + m * w') 1) (mu : ℝ) (j : Fin n)
    (ho : ∀ i, OffFloor e θ.kernelParams (xt i) (x t j)) :
    let r := fun {b : ℕ} (K : Jac n d b) (u : Fin b) =>
      (∑ i, err1 e θ.kernelParams xt (x t) K i j u * |c (Fin.castAdd _ (Fin.castAdd _ i)) 0| +
        ∑ i, ∑ q, err01 e θ.kernelParams xt Jt (x t) K i q j u * |c (Fin.castAdd _ (Fin.natAdd m (flat i q))) 0| +
        ∑ i, ∑ q, err01 e θ.kernelParams xt Jt' (x t) K i q j u * |c (Fin.natAdd (m + m * w) (flat i q)) 0|)
    (∀ u, Moves x t J u →
      DerivNear (fun s => (tdPredictDense2 θ e.obj xt Jt Jt' (x s) J J' c mu).1 j 0)
        ((tdPredictDense2 θ e.obj xt Jt Jt' (x t) J J' c mu).2.1 j u) (r J u) t ∧
      DerivNear (fun s => (tdPredictIter2 θ e.obj xt Jt Jt' (x s) J J' c mu).1 j 0)
        ((tdPredictIter2 θ e.obj xt Jt Jt' (x t) J J' c mu).2.1 j u) (r J u) t) ∧
    (∀ u, Moves x t J' u →
      DerivNear (fun s => (tdPredictDense2 θ e.obj xt Jt Jt' (x s) J J' c mu).1 j 0)
        ((tdPredictDense2 θ e.obj xt Jt Jt' (x t) J J' c mu).2.2 j u) (r J' u) t ∧
      DerivNear (fun s => (tdPredictIter2 θ e.obj xt Jt Jt' (x s) J J' c mu).1 j 0)
        ((tdPredictIter2 θ e.obj xt Jt Jt' (x t) J J' c mu).2.2 j u) (r J' u) t) := by
  intro r
  have hp := C79_near_partial e _ h
  simp only [(C76_predict2 e θ xt Jt Jt' (x _) J J' c mu).2.2.2, and_self,
    (C76_predict2 e θ xt Jt Jt' (x _) J J' c mu).1]
  constructor
  · intro u hm
    rw [(C76_predict2 e θ xt Jt Jt' (x t) J J' c mu).2.1]
    have hs : ∀ a : Obs2 m w w', DerivNear (fun s => cov2 e.obj θ.kernelParams xt Jt Jt' (x s) J J' a (.inl (.inl j)))
        (cov2 e.obj θ.kernelParams xt Jt Jt' (x t) J J' a (.inl (.inr (j, u))))
        (Sum.elim (Sum.elim (fun i => err1 e θ.kernelParams xt (x t) J i j u)
          (fun iq => err01 e θ.kernelParams xt Jt (x t) J iq.1 iq.2 j u))
          (fun iq => err01 e θ.kernelParams xt Jt' (x t) J iq.1 iq.2 j u) a) t := by
      rintro ((i | ⟨i, q⟩) | ⟨i, q⟩)
      · exact hp.d1 xt x t J u hm i j
      · exact hp.d01 xt Jt x t J u hm i q j (ho i)
      · exact hp.d01 xt Jt' x t J u hm i q j (ho i)
    refine ((DerivNear.sum fun a => (hs a).mul_const (c (pos2 a) 0)).const_add mu).of_eq (fun _ => rfl) rfl ?_
    simp only [r, Fintype.sum_sum_type, Fintype.sum_prod_type, Sum.elim_inl, Sum.elim_inr, pos2, pos1]
  · intro u hm
    rw [(C76_predict2 e θ xt Jt Jt' (x t) J J' c mu).2.2.1]
    have hs : ∀ a : Obs2 m w w', DerivNear (fun s => cov2 e.obj θ.kernelParams xt Jt Jt' (x s) J J' a (.inl (.inl j)))
        (cov2 e.obj θ.kernelParams xt Jt Jt' (x t) J J' a (.inr (j, u)))
        (Sum.elim (Sum.elim (fun i => err1 e θ.kernelParams xt (x t) J' i j u)
          (fun iq => err01 e θ.kernelParams xt Jt (x t) J' iq.1 iq.2 j u))
          (fun iq => err01 e θ.kernelParams xt Jt' (x t) J' iq.1 iq.2 j u) a) t := by
      rintro ((i | ⟨i, q⟩) | ⟨i, q⟩)
      · exact hp.d1 xt x t J' u hm i j
      · exact hp.d01 xt Jt x t J' u hm i q j (ho i)
      · exact hp.d01 xt Jt' x t J' u hm i q j (ho i)
    refine ((DerivNear.sum fun a => (hs a).mul_const (c (pos2 a) 0)).const_add mu).of_eq (fun _ => rfl) rfl ?_
    simp only [r, Fintype.sum_sum_type, Fintype.sum_prod_type, Sum.elim_inl, Sum.elim_inr, pos2, pos1]

/-- Non-vacuity: `SquaredExponential` times `Matern32`, two samples a unit apart; a moving sample is given beside C79. -/
example : Smooth (.prod (.squaredExponential none) (.matern32 none) : KExpr 2) (fun _ => 1) ∧
    OffFloor (.prod (.squaredExponential none) (.matern32 none) : KExpr 2) (fun _ => 1) ![0, 0] ![1, 0] := by
  refine ⟨⟨by norm_num [KPar.val, KPar.sub, Smooth], by norm_num [KPar.val, KPar.sub, Smooth]⟩, trivial, ?_⟩
  have : activeDist (none : Option (Dims 2)) (KPar.sub (fun _ => 1) "kernel2") ![0, 0] ![1, 0] = 1 := by
    unfold activeDist KPar.val KPar.sub
    refine (Fin.sum_univ_two _).trans ?_
    simp [Dims.resolve, Dims.all]
  rw [OffFloor, this]
  norm_num

end GPX.Props
