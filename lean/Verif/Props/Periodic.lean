import Verif.Spec.Periodic
import Verif.Props.InvarianceMore

/-!
# C160: models with periodic kernels are periodic
-/

namespace GPX.Props
open GPX GPX.Spec

variable {d m n v w l : ℕ}

theorem periods_zero (e : KExpr d) (p : KPar) : Periods e p 0 := by
  induction e generalizing p with
  | constant a => trivial
  | expSinSquared a => exact fun b => ⟨0, by simp⟩
  | sum e1 e2 ih1 ih2 => exact ⟨ih1 _, ih2 _⟩
  | prod e1 e2 ih1 ih2 => exact ⟨ih1 _, ih2 _⟩
  | _ => exact fun _ => rfl

theorem periods_sub (e : KExpr d) (p : KPar) {δ ε : Fin d → ℝ} (h : Periods e p δ) (g : Periods e p ε) :
    Periods e p fun f => δ f - ε f := by
  induction e generalizing p with
  | constant a => trivial
  | expSinSquared a =>
    intro b
    obtain ⟨y, hy⟩ := h b
    obtain ⟨z, hz⟩ := g b
    exact ⟨y - z, by simp only [hy, hz]; push_cast; ring⟩
  | sum e1 e2 ih1 ih2 => exact ⟨ih1 _ h.1 g.1, ih2 _ h.2 g.2⟩
  | prod e1 e2 ih1 ih2 => exact ⟨ih1 _ h.1 g.1, ih2 _ h.2 g.2⟩
  | linear a => exact fun b => by simp only [h b, g b, sub_zero]
  | polynomial a _ => exact fun b => by simp only [h b, g b, sub_zero]
  | squaredExponential a => exact fun b => by simp only [h b, g b, sub_zero]
  | matern12 a => exact fun b => by simp only [h b, g b, sub_zero]
  | matern32 a => exact fun b => by simp only [h b, g b, sub_zero]
  | matern52 a => exact fun b => by simp only [h b, g b, sub_zero]

/-- Kernels that only see their active features. -/
theorem carries_unmoved {κ : KernelObj d} {p : KPar} {ad : Dims d} {c : Core} (h : ClosedJ κ p ad c)
    {T : (Fin d → ℝ) → (Fin d → ℝ)} (hT : ∀ x b, T x (ad.idx b) - x (ad.idx b) = 0) : Carries κ p κ p T id := by
  have ht : ∀ x, ad.take (T x) = ad.take x := fun x => funext fun b => sub_eq_zero.1 (hT x b)
  exact Carries.ofClosed h h (fun x y => by rw [ht, ht]) (fun x y u => by rw [ht, ht]; rfl)
    (fun x y u => by rw [ht, ht]; rfl) (fun x y u => by rw [ht, ht]; rfl) (fun x y u w => by rw [ht, ht]; rfl)

/-- Sine and cosine after `z` half turns. -/
theorem half_turns (per t : ℝ) (hp : per ≠ 0) (z : ℤ) :
    ∃ s : ℝ, s ^ 2 = 1 ∧ Real.sin (Real.pi * (t + z * per) / per) = s * Real.sin (Real.pi * t / per) ∧
      Real.cos (Real.pi * (t + z * per) / per) = s * Real.cos (Real.pi * t / per) := by
  have : Real.pi * (t + z * per) / per = Real.pi * t / per + z * Real.pi := by field_simp
  refine ⟨(-1) ^ z, ?_, ?_, ?_⟩
  · rw [← zpow_natCast, ← zpow_mul, mul_comm, zpow_mul]; norm_num
  · rw [this, Real.sin_add_int_mul_pi]
  · rw [this, Real.cos_add_int_mul_pi]

theorem ess_periodic (lsc per : ℝ) {k : ℕ} {x y x' y' : Fin k → ℝ}
    (h : ∀ a, ∃ z : ℤ, x' a - y' a = x a - y a + z * per) :
    (Core.ess lsc per).K x' y' = (Core.ess lsc per).K x y ∧ (Core.ess lsc per).G0 x' y' = (Core.ess lsc per).G0 x y ∧
    (Core.ess lsc per).G1 x' y' = (Core.ess lsc per).G1 x y ∧ (Core.ess lsc per).C0 x' y' = (Core.ess lsc per).C0 x y ∧
    (Core.ess lsc per).H x' y' = (Core.ess lsc per).H x y := by
  by_cases hp : per = 0
  · have h0 : ∀ a, x' a - y' a = x a - y a := fun a => by
      obtain ⟨z, hz⟩ := h a
      rw [hz, hp, mul_zero, add_zero]
    simp only [Core.ess, essS, h0, and_self]
  · have hq : ∀ a, Real.sin (Real.pi * (x' a - y' a) / per) ^ 2 = Real.sin (Real.pi * (x a - y a) / per) ^ 2 ∧
        essQ lsc per (x' a - y' a) = essQ lsc per (x a - y a) ∧ essR lsc per (x' a - y' a) = essR lsc per (x a - y a) := by
      intro a
      obtain ⟨z, hz⟩ := h a
      obtain ⟨s, hs, h1, h2⟩ := half_turns per (x a - y a) hp z
      rw [hz]
      refine ⟨by rw [h1, mul_pow, hs, one_mul], ?_, ?_⟩
      · unfold essQ
        rw [h1, h2]
        linear_combination (2 * Real.sin (Real.pi * (x a - y a) / per) * Real.cos (Real.pi * (x a - y a) / per) *
          (Real.pi / per) / lsc) * hs
      · unfold essR
        rw [h1, h2, mul_pow, mul_pow, hs, one_mul, one_mul]
    simp only [Core.ess, essS, fun a => (hq a).1, fun a => (hq a).2.1, fun a => (hq a).2.2, and_self]

theorem periodic_carries (e : KExpr d) (p : KPar) {T : (Fin d → ℝ) → (Fin d → ℝ)}
    (hT : ∀ x, Periods e p fun f => T x f - x f) : Carries e.obj p e.obj p T id := by
  induction e generalizing p with
  | constant a =>
    have h := closedJ_constant a p
    exact Carries.ofClosed h h (fun _ _ => rfl) (fun _ _ _ => rfl) (fun _ _ _ => rfl) (fun _ _ _ => rfl)
      (fun _ _ _ _ => rfl)
  | linear a => exact carries_unmoved (closedJ_linear a p) hT
  | polynomial a b => exact carries_unmoved (closedJ_polynomial a b p) hT
  | squaredExponential a => exact carries_unmoved (closedJ_se a p) hT
  | matern12 a => exact carries_unmoved (closedJ_m12 a p) hT
  | matern32 a => exact carries_unmoved (closedJ_m32 a p) hT
  | matern52 a => exact carries_unmoved (closedJ_m52 a p) hT
  | expSinSquared a =>
    have h := closedJ_ess a p
    have hz : ∀ x y b, ∃ z : ℤ, (Dims.resolve a).take (T x) b - (Dims.resolve a).take (T y) b =
        (Dims.resolve a).take x b - (Dims.resolve a).take y b + z * p.val "periodicity" := fun x y b => by
      obtain ⟨z1, h1⟩ := hT x b
      obtain ⟨z2, h2⟩ := hT y b
      refine ⟨z1 - z2, ?_⟩
      simp only [Dims.take]
      push_cast
      linear_combination h1 - h2
    have hc := fun x y => ess_periodic (p.val "lengthscale") (p.val "periodicity") (hz x y)
    exact Carries.ofClosed h h (fun x y => (hc x y).1) (fun x y u => by rw [(hc x y).2.1]; rfl)
      (fun x y u => by rw [(hc x y).2.2.1]; rfl) (fun x y u => by rw [(hc x y).2.2.2.1]; rfl)
      (fun x y u w => by rw [(hc x y).2.2.2.2]; rfl)
  | sum e1 e2 ih1 ih2 => exact Carries.sum (ih1 _ fun x => (hT x).1) (ih2 _ fun x => (hT x).2)
  | prod e1 e2 ih1 ih2 => exact Carries.prod (ih1 _ fun x => (hT x).1) (ih2 _ fun x => (hT x).2)

/-- Samples that differ by periods. -/
def periodSetoid (e : KExpr d) (p : KPar) : Setoid (Fin d → ℝ) where
  r x y := Periods e p fun f => y f - x f
  iseqv := by
    have h0 : Periods e p fun _ => (0 : ℝ) := periods_zero e p
    refine ⟨fun x => by simpa using h0, fun {x y} h => by simpa using periods_sub e p h0 h, fun {x y z} h g => ?_⟩
    have := periods_sub e p g (periods_sub e p h0 h)
    simpa using this

/-- One sample of each class of samples that differ by periods. -/
noncomputable def reduce (e : KExpr d) (p : KPar) (x : Fin d → ℝ) : Fin d → ℝ :=
  (Quotient.mk (periodSetoid e p) x).out

theorem reduce_spec (e : KExpr d) (p : KPar) (x : Fin d → ℝ) : Periods e p fun f => reduce e p x f - x f :=
  (periodSetoid e p).symm (Quotient.mk_out (s := periodSetoid e p) x)

theorem reduce_eq (e : KExpr d) (p : KPar) {x y : Fin d → ℝ} (h : Periods e p fun f => y f - x f) :
    reduce e p y = reduce e p x :=
  congrArg Quotient.out (Quotient.sound (s := periodSetoid e p) ((periodSetoid e p).symm h))

/-- **C160**, models: moving every sample by periods, different samples by different ones (`T`), changes no fit, prediction,
covariance and likelihood of GPR, SGPR and SGPR_RPChol, dense and iterative; jacobians stay as they are (`id`). -/
theorem C160_models (e : KExpr d) (θ : GPParams) (T : (Fin d → ℝ) → (Fin d → ℝ))
    (hT : ∀ x, Periods e θ.kernelParams fun f => T x f - x f) :
    SameModels e.obj θ e.obj θ T id ∧ SameIterative e.obj θ e.obj θ T id ∧ SameRPChol e.obj θ e.obj θ T id ∧
    SameSparseRest e.obj θ e.obj θ T id :=
  have hc := periodic_carries e θ.kernelParams hT
  ⟨hc.same rfl, iterative_of_carries hc rfl, rpchol_of_carries hc rfl, sparseRest_of_carries hc rfl⟩

/-- **C160**, GPR_TD. -/
theorem C160_joint_models (e : KExpr d) (θ : TDParams) (T : (Fin d → ℝ) → (Fin d → ℝ))
    (hT : ∀ x, Periods e θ.kernelParams fun f => T x f - x f) : SameJoint e.obj θ e.obj θ T id :=
  joint_of_carries (periodic_carries e θ.kernelParams hT) ⟨rfl, rfl, rfl⟩

/-- **C160**, kernels: shifting samples of either dataset by periods changes no value and no contracted derivative. -/
theorem C160_kernels (e : KExpr d) (p : KPar) {x1 x1' : Batch n d} {x2 x2' : Batch m d} (h1 : Shifted e p x1 x1')
    (h2 : Shifted e p x2 x2') (J1 : Jac n d v) (J2 : Jac m d w) :
    e.obj.k p x1' x2' = e.obj.k p x1 x2 ∧ e.obj.d0kj p x1' x2' J1 = e.obj.d0kj p x1 x2 J1 ∧
    e.obj.d1kj p x1' x2' J2 = e.obj.d1kj p x1 x2 J2 ∧ e.obj.d01kj p x1' x2' J1 J2 = e.obj.d01kj p x1 x2 J1 J2 := by
  have hc := (periodic_carries e p (T := reduce e p) (reduce_spec e p)).arr
  have e1 : mapBatch (reduce e p) x1' = mapBatch (reduce e p) x1 := funext fun i => reduce_eq e p (h1 i)
  have e2 : mapBatch (reduce e p) x2' = mapBatch (reduce e p) x2 := funext fun i => reduce_eq e p (h2 i)
  refine ⟨?_, ?_, ?_, ?_⟩
  · rw [← hc.k x1', ← hc.k x1, e1, e2]
  · rw [← hc.d0kj x1', ← hc.d0kj x1, e1, e2]
  · rw [← hc.d1kj x1', ← hc.d1kj x1, e1, e2]
  · rw [← hc.d01kj x1', ← hc.d01kj x1, e1, e2]

/-- **C160**, predictions: a fitted model predicts the same targets, covariances and derivatives at points shifted by
periods, and fitting it on shifted data gives the same coefficients. -/
theorem C160_gpr (la : LinAlg) (e : KExpr d) (θ : GPParams) (mf : MeanFun) {o : ℕ} {xt xt' : Batch m d} (y : Mat m o)
    (ht : Shifted e θ.kernelParams xt xt') {x x' : Batch n d} (hx : Shifted e θ.kernelParams x x') (J : Jac n d v)
    (c : Mat m o) (c1 : Mat m 1) (mu : ℝ) :
    fitDense la θ e.obj mf xt' y = fitDense la θ e.obj mf xt y ∧
    lmlDense la θ e.obj mf xt' y = lmlDense la θ e.obj mf xt y ∧
    predictDense θ e.obj xt x' c mu = predictDense θ e.obj xt x c mu ∧
    predictDenseCov la θ e.obj xt x' = predictDenseCov la θ e.obj xt x ∧
    predictOl θ e.obj xt x' J c1 mu = predictOl θ e.obj xt x J c1 mu := by
  have hc := (periodic_carries e θ.kernelParams (T := reduce e θ.kernelParams) (reduce_spec e _)).same rfl
  have e1 : mapBatch (reduce e θ.kernelParams) xt' = mapBatch (reduce e θ.kernelParams) xt :=
    funext fun i => reduce_eq e _ (ht i)
  have e2 : mapBatch (reduce e θ.kernelParams) x' = mapBatch (reduce e θ.kernelParams) x :=
    funext fun i => reduce_eq e _ (hx i)
  refine ⟨?_, ?_, ?_, ?_, ?_⟩
  · rw [← hc.fit la mf xt', ← hc.fit la mf xt, e1]
  · rw [← hc.lml la mf xt', ← hc.lml la mf xt, e1]
  · rw [← hc.predict xt x', ← hc.predict xt x, e2]
  · rw [← hc.predictCov la xt x', ← hc.predictCov la xt x, e2]
  · rw [← hc.predictOl xt x', ← hc.predictOl xt x, e2]

/-- **C160**, models of derivatives and sparse models: predictions at points shifted by periods. -/
theorem C160_others (la : LinAlg) (e : KExpr d) (θ : GPParams) {o : ℕ} (xt : Batch m d) (Jt : Jac m d w)
    {x x' : Batch n d} (hx : Shifted e θ.kernelParams x x') (J : Jac n d v) (c : Mat m o) (cd : Mat (m * w) 1) (mu : ℝ) :
    predictDerivsDense θ e.obj xt Jt x' J cd mu = predictDerivsDense θ e.obj xt Jt x J cd mu ∧
    predictDerivsDenseCov la θ e.obj xt Jt x' J = predictDerivsDenseCov la θ e.obj xt Jt x J ∧
    predictYDerivsDense θ e.obj xt Jt x' cd mu = predictYDerivsDense θ e.obj xt Jt x cd mu ∧
    predictYDerivsDenseCov la θ e.obj xt Jt x' = predictYDerivsDenseCov la θ e.obj xt Jt x ∧
    sgprPredict θ e.obj xt x' c mu = sgprPredict θ e.obj xt x c mu ∧
    sgprPredictDerivs θ e.obj xt Jt x' J cd mu = sgprPredictDerivs θ e.obj xt Jt x J cd mu ∧
    sgprPredictYDerivs θ e.obj xt Jt x' cd mu = sgprPredictYDerivs θ e.obj xt Jt x cd mu := by
  have hc := (periodic_carries e θ.kernelParams (T := reduce e θ.kernelParams) (reduce_spec e _)).same rfl
  have e2 : mapBatch (reduce e θ.kernelParams) x' = mapBatch (reduce e θ.kernelParams) x :=
    funext fun i => reduce_eq e _ (hx i)
  refine ⟨?_, ?_, ?_, ?_, ?_, ?_, ?_⟩
  · rw [← hc.predictDerivs xt Jt x', ← hc.predictDerivs xt Jt x, e2]
  · rw [← hc.predictDerivsCov la xt Jt x', ← hc.predictDerivsCov la xt Jt x, e2]
  · rw [← hc.predictYDerivs xt Jt x', ← hc.predictYDerivs xt Jt x, e2]
  · rw [← hc.predictYDerivsCov la xt Jt x', ← hc.predictYDerivsCov la xt Jt x, e2]
  · rw [← hc.sgprPredict xt x', ← hc.sgprPredict xt x, e2]
  · rw [← hc.sgprPredictDerivs xt Jt x', ← hc.sgprPredictDerivs xt Jt x, e2]
  · rw [← hc.sgprPredictYDerivs xt Jt x', ← hc.sgprPredictYDerivs xt Jt x, e2]

/-- **C160**, GPR_TD: predictions of targets and derivatives at points shifted by periods. -/
theorem C160_joint (e : KExpr d) (θ : TDParams) (xt : Batch m d) (Jt : Jac m d w) (c : Mat (m + m * w) 1) (mu : ℝ)
    (iterative : Bool) {x x' : Batch n d} (hx : Shifted e θ.kernelParams x x') (J : Jac n d v)
    (J' : Option (Σ w', Jac n d w')) :
    tdPredict θ e.obj xt (.one Jt c) mu iterative x' J J' = tdPredict θ e.obj xt (.one Jt c) mu iterative x J J' := by
  have hc := C160_joint_models e θ (reduce e θ.kernelParams) (reduce_spec e _)
  have e2 : mapBatch (reduce e θ.kernelParams) x' = mapBatch (reduce e θ.kernelParams) x :=
    funext fun i => reduce_eq e _ (hx i)
  rw [← hc.predict1 xt Jt c mu iterative x', ← hc.predict1 xt Jt c mu iterative x, e2]

/-- Non-vacuity: `ExpSinSquared` with period 2 on the first feature times `SquaredExponential` on the second: two samples
whose first features are shifted by three periods and by minus one. -/
example : Shifted (.prod (.expSinSquared (some ⟨1, fun _ => 0⟩)) (.squaredExponential (some ⟨1, fun _ => 1⟩)) : KExpr 2)
    (fun _ => 2) (![![0, 5], ![1, 7]] : Batch 2 2) ![![6, 5], ![-1, 7]] := by
  intro i
  fin_cases i
  · exact ⟨fun _ => ⟨3, show (6 : ℝ) - 0 = (3 : ℤ) * 2 by norm_num⟩, fun _ => show (5 : ℝ) - 5 = 0 by norm_num⟩
  · exact ⟨fun _ => ⟨-1, show (-1 : ℝ) - 1 = (-1 : ℤ) * 2 by norm_num⟩, fun _ => show (7 : ℝ) - 7 = 0 by norm_num⟩

end GPX.Props
