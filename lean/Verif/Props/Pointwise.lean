import Verif.Props.SGPR
import Verif.Props.GPRTD
import Verif.Props.Consistency

/-!
# C121: a prediction at one input does not depend on the other inputs asked for
-/

namespace GPX.Props
open GPX GPX.Spec

variable {d k m n o v w w' : ℕ} {la : LinAlg}

/-- The full claim: asking any model for a selection of inputs (in any order, with repetitions) gives the selected
values and the selected block of the covariance. -/
def C121_full : Prop :=
  ∀ (d : ℕ) (e : KExpr d), ∀ (θ : GPParams), Admissible e θ.kernelParams → ∀ (la : LinAlg), la.Exact →
    ∀ (m n k o : ℕ) (xt : Batch m d) (x : Batch n d) (c : Mat m o) (mu : ℝ) (f : Fin k → Fin n),
      (∀ i a, predictDense θ e.obj xt (fun s => x (f s)) c mu i a = predictDense θ e.obj xt x c mu (f i) a) ∧
      (∀ i a, sgprPredict θ e.obj xt (fun s => x (f s)) c mu i a = sgprPredict θ e.obj xt x c mu (f i) a) ∧
      (∀ i j, predictDenseCov la θ e.obj xt (fun s => x (f s)) i j = predictDenseCov la θ e.obj xt x (f i) (f j)) ∧
      (∀ i j, sgprPredictCov la θ e.obj xt (fun s => x (f s)) i j = sgprPredictCov la θ e.obj xt x (f i) (f j))

/-- **C121**, GPR and SGPR, targets: dense and iterative predictions and the covariance of GPR. For every kernel
expression, data, coefficients and selection. -/
theorem C121_targets_partial (ex : la.Exact) (e : KExpr d) (θ : GPParams)
    (xt : Batch m d) (x : Batch n d) (c : Mat m o) (mu : ℝ) (f : Fin k → Fin n) :
    (∀ i a, predictDense θ e.obj xt (fun s => x (f s)) c mu i a = predictDense θ e.obj xt x c mu (f i) a) ∧
    (∀ i a, predictIter θ e.obj xt (fun s => x (f s)) c mu i a = predictIter θ e.obj xt x c mu (f i) a) ∧
    (∀ i a, sgprPredict θ e.obj xt (fun s => x (f s)) c mu i a = sgprPredict θ e.obj xt x c mu (f i) a) ∧
    (∀ i a, sgprPredictIter θ e.obj xt (fun s => x (f s)) c mu i a = sgprPredictIter θ e.obj xt x c mu (f i) a) ∧
    (Admissible e θ.kernelParams → ∀ i j,
      predictDenseCov la θ e.obj xt (fun s => x (f s)) i j = predictDenseCov la θ e.obj xt x (f i) (f j)) := by
  have sw := C63_sampleWise e θ.kernelParams
  have hk : ∀ j i, e.obj.k θ.kernelParams xt (fun s => x (f s)) j i = e.obj.k θ.kernelParams xt x j (f i) :=
    fun j i => sw.k xt x id f j i
  have hk' : ∀ i j, e.obj.k θ.kernelParams (fun s => x (f s)) xt i j = e.obj.k θ.kernelParams x xt (f i) j :=
    fun i j => sw.k x xt f id i j
  have hd : ∀ i a, predictDense θ e.obj xt (fun s => x (f s)) c mu i a = predictDense θ e.obj xt x c mu (f i) a :=
    fun i a => by
      simp only [predictDense, addScalar, Matrix.of_apply, Matrix.mul_apply, Matrix.transpose_apply, aLhs, hk]
  have hs : ∀ i a, sgprPredict θ e.obj xt (fun s => x (f s)) c mu i a = sgprPredict θ e.obj xt x c mu (f i) a :=
    fun i a => by simp only [sgprPredict, addScalar, Matrix.of_apply, Matrix.mul_apply, hk']
  refine ⟨hd, fun i a => ?_, hs, fun i a => ?_, fun h i j => ?_⟩
  · rw [predictIter_eq e, predictIter_eq e, hd]
  · have : ∀ {k : ℕ} (x : Batch k d), sgprPredictIter θ e.obj xt x c mu = sgprPredict θ e.obj xt x c mu := fun x => by
      unfold sgprPredictIter sgprPredict
      rw [sgprAxRhs_eq θ sw]
    rw [this, this, hs]
  · rw [predictDenseCov_eq ex e θ h, predictDenseCov_eq ex e θ h]
    simp only [Matrix.sub_apply, Matrix.mul_apply, Matrix.transpose_apply, aLhs, Matrix.of_apply, hk]
    rw [sw.k x x f f]

/-- **C121**, GPR and SGPR trained on derivatives: predicted derivatives and targets, with and without contracted
coefficients, dense and iterative, and the operator learning predictions. -/
theorem C121_derivs_partial (e : KExpr d) (θ : GPParams) (xt : Batch m d) (Jt : Jac m d w)
    (x : Batch n d) (J : Jac n d v) (c : Mat (m * w) 1) (co : Mat m 1) (jc : Batch m d) (mu : ℝ) (f : Fin k → Fin n)
    (i : Fin k) (u : Fin v) :
    let x' : Batch k d := fun s => x (f s)
    let J' : Jac k d v := fun s => J (f s)
    predictDerivsDense θ e.obj xt Jt x' J' c mu i u = predictDerivsDense θ e.obj xt Jt x J c mu (f i) u ∧
    predictDerivsIter θ e.obj xt Jt x' J' c mu i u = predictDerivsIter θ e.obj xt Jt x J c mu (f i) u ∧
    predictDerivsCoef θ e.obj xt x' J' mu jc i u = predictDerivsCoef θ e.obj xt x J mu jc (f i) u ∧
    predictYDerivsDense θ e.obj xt Jt x' c mu i 0 = predictYDerivsDense θ e.obj xt Jt x c mu (f i) 0 ∧
    predictYDerivsIter θ e.obj xt Jt x' c mu i 0 = predictYDerivsIter θ e.obj xt Jt x c mu (f i) 0 ∧
    predictYDerivsCoef θ e.obj xt x' mu jc i 0 = predictYDerivsCoef θ e.obj xt x mu jc (f i) 0 ∧
    sgprPredictDerivs θ e.obj xt Jt x' J' c mu i u = sgprPredictDerivs θ e.obj xt Jt x J c mu (f i) u ∧
    sgprPredictDerivsIter θ e.obj xt Jt x' J' c mu i u = sgprPredictDerivsIter θ e.obj xt Jt x J c mu (f i) u ∧
    sgprPredictDerivsCoef θ e.obj xt x' J' mu jc i u = sgprPredictDerivsCoef θ e.obj xt x J mu jc (f i) u ∧
    sgprPredictYDerivs θ e.obj xt Jt x' c mu i 0 = sgprPredictYDerivs θ e.obj xt Jt x c mu (f i) 0 ∧
    sgprPredictYDerivsIter θ e.obj xt Jt x' c mu i 0 = sgprPredictYDerivsIter θ e.obj xt Jt x c mu (f i) 0 ∧
    sgprPredictYDerivsCoef θ e.obj xt x' mu jc i 0 = sgprPredictYDerivsCoef θ e.obj xt x mu jc (f i) 0 ∧
    (predictOl θ e.obj xt x' J' co mu).1 i 0 = (predictOl θ e.obj xt x J co mu).1 (f i) 0 ∧
    (predictOl θ e.obj xt x' J' co mu).2 (flat i u) 0 = (predictOl θ e.obj xt x J co mu).2 (flat (f i) u) 0 := by
  intro x' J'
  have sw := C63_sampleWise e θ.kernelParams
  have hk : ∀ j, e.obj.k θ.kernelParams xt x' j i = e.obj.k θ.kernelParams xt x j (f i) :=
    fun j => sw.k xt x id f j i
  have h01 : ∀ s, e.obj.d01kj θ.kernelParams xt x' Jt J' s (flat i u) =
      e.obj.d01kj θ.kernelParams xt x Jt J s (flat (f i) u) := fun s => by
    obtain ⟨a, q, rfl⟩ := flat_surj s
    exact sw.d01kj xt x Jt J id f a q i u
  have h01' : ∀ s, e.obj.d01kj θ.kernelParams x' xt J' Jt (flat i u) s =
      e.obj.d01kj θ.kernelParams x xt J Jt (flat (f i) u) s := fun s => by
    obtain ⟨a, q, rfl⟩ := flat_surj s
    exact sw.d01kj x xt J Jt f id i u a q
  have h0 : ∀ s, e.obj.d0kj θ.kernelParams xt x' Jt s i = e.obj.d0kj θ.kernelParams xt x Jt s (f i) := fun s => by
    obtain ⟨a, q, rfl⟩ := flat_surj s
    exact sw.d0kj xt x Jt id f a q i
  have h1 : ∀ s, e.obj.d1kj θ.kernelParams xt x' J' s (flat i u) =
      e.obj.d1kj θ.kernelParams xt x J s (flat (f i) u) := fun s => sw.d1kj xt x J id f s i u
  have h1' : ∀ s, e.obj.d1kj θ.kernelParams x' xt Jt i s = e.obj.d1kj θ.kernelParams x xt Jt (f i) s := fun s => by
    obtain ⟨a, q, rfl⟩ := flat_surj s
    exact sw.d1kj x xt Jt f id i a q
  have hc : ∀ s, e.obj.d01kjc θ.kernelParams xt x' jc J' s (flat i u) =
      e.obj.d01kjc θ.kernelParams xt x jc J s (flat (f i) u) := fun s => sw.d01kjc xt x jc J id f s i u
  have hc0 : ∀ s, e.obj.d0kjc θ.kernelParams xt x' jc s i = e.obj.d0kjc θ.kernelParams xt x jc s (f i) :=
    fun s => sw.d0kjc xt x jc id f s i
  refine ⟨?_, ?_, ?_, ?_, ?_, ?_, ?_, ?_, ?_, ?_, ?_, ?_, ?_, ?_⟩
  · simp only [predictDerivsDense, predictDerivsFlat, unflatCol, addScalar, Matrix.of_apply, prod_flat,
      Matrix.mul_apply, Matrix.transpose_apply, aDerivsLhs, h01]
  · simp only [predictDerivsIter, unflatCol, addScalar, Matrix.of_apply, prod_flat, (axDerivsLhsFun_eq θ sw).1,
      Matrix.mul_apply, aDerivsLhs, h01']
  · simp only [predictDerivsCoef, unflatCol, Matrix.of_apply, prod_flat, hc]
  · simp only [predictYDerivsDense, addScalar, Matrix.of_apply, Matrix.mul_apply, Matrix.transpose_apply, h0]
  · simp only [predictYDerivsIter, addScalar, Matrix.of_apply, kxDerivs1Fun_eq θ sw, Matrix.mul_apply, h1']
  · simp only [predictYDerivsCoef, Matrix.of_apply, hc0]
  · simp only [sgprPredictDerivs, unflatCol, addScalar, Matrix.of_apply, prod_flat, Matrix.mul_apply, h01']
  · simp only [sgprPredictDerivsIter, unflatCol, addScalar, Matrix.of_apply, prod_flat, sgprAxDerivsRhs_eq θ sw,
      Matrix.mul_apply, h01']
  · simp only [sgprPredictDerivsCoef, unflatCol, Matrix.of_apply, prod_flat, hc]
  · simp only [sgprPredictYDerivs, addScalar, Matrix.of_apply, Matrix.mul_apply, Matrix.transpose_apply, h0]
  · simp only [sgprPredictYDerivsIter, addScalar, Matrix.of_apply, kxDerivs1Fun_eq θ sw, Matrix.mul_apply, h1']
  · simp only [sgprPredictYDerivsCoef, Matrix.of_apply, hc0]
  · simp only [predictOl, Matrix.of_apply, Matrix.mul_apply, Matrix.transpose_apply, aLhs, hk]
  · simp only [predictOl, Matrix.of_apply, Matrix.mul_apply, Matrix.transpose_apply, h1]

/-- **C121**, GPR_TD: targets and derivatives, one and two sets, dense and iterative. -/
theorem C121_td_partial {v' : ℕ} (e : KExpr d) (θ : TDParams) (xt : Batch m d) (Jt : Jac m d v)
    (Jt' : Jac m d v') (x : Batch n d) (J : Jac n d w) (J' : Jac n d w') (c : Mat (m + m * v) 1)
    (c' : Mat (m + m * v + m * v') 1) (mu : ℝ) (f : Fin k → Fin n) (i : Fin k) :
    let x' : Batch k d := fun s => x (f s)
    let Js : Jac k d w := fun s => J (f s)
    let Js' : Jac k d w' := fun s => J' (f s)
    (∀ iter : Bool,
      let pred := fun {n : ℕ} (x : Batch n d) (J : Jac n d w) =>
        if iter then tdPredictIter1 θ e.obj xt Jt x J c mu else tdPredictDense1 θ e.obj xt Jt x J c mu
      (pred x' Js).1 i 0 = (pred x J).1 (f i) 0 ∧ ∀ u, (pred x' Js).2 i u = (pred x J).2 (f i) u) ∧
    (∀ iter : Bool,
      let pred := fun {n : ℕ} (x : Batch n d) (J : Jac n d w) (J' : Jac n d w') =>
        if iter then tdPredictIter2 θ e.obj xt Jt Jt' x J J' c' mu else tdPredictDense2 θ e.obj xt Jt Jt' x J J' c' mu
      (pred x' Js Js').1 i 0 = (pred x J J').1 (f i) 0 ∧
      (∀ u, (pred x' Js Js').2.1 i u = (pred x J J').2.1 (f i) u) ∧
      ∀ u, (pred x' Js Js').2.2 i u = (pred x J J').2.2 (f i) u) := by
  intro x' Js Js'
  have sw := C63_sampleWise e θ.kernelParams
  have hk : ∀ j, e.obj.k θ.kernelParams xt x' j i = e.obj.k θ.kernelParams xt x j (f i) := fun j => sw.k xt x id f j i
  have h0 : ∀ {v : ℕ} (Jt : Jac m d v) a q,
      e.obj.d0kj θ.kernelParams xt x' Jt (flat a q) i = e.obj.d0kj θ.kernelParams xt x Jt (flat a q) (f i) :=
    fun Jt a q => sw.d0kj xt x Jt id f a q i
  have h1 : ∀ {w : ℕ} (J : Jac n d w) s u, e.obj.d1kj θ.kernelParams xt x' (fun s => J (f s)) s (flat i u) =
      e.obj.d1kj θ.kernelParams xt x J s (flat (f i) u) := fun J s u => sw.d1kj xt x J id f s i u
  have h01 : ∀ {v w : ℕ} (Jt : Jac m d v) (J : Jac n d w) a q u,
      e.obj.d01kj θ.kernelParams xt x' Jt (fun s => J (f s)) (flat a q) (flat i u) =
        e.obj.d01kj θ.kernelParams xt x Jt J (flat a q) (flat (f i) u) :=
    fun Jt J a q u => sw.d01kj xt x Jt J id f a q i u
  have c1t : ∀ a, cov1 e.obj θ.kernelParams xt Jt x' Js a (.inl i) = cov1 e.obj θ.kernelParams xt Jt x J a (.inl (f i)) := by
    rintro (a | ⟨a, q⟩)
    · exact hk a
    · exact h0 Jt a q
  have c1d : ∀ a u, cov1 e.obj θ.kernelParams xt Jt x' Js a (.inr (i, u)) =
      cov1 e.obj θ.kernelParams xt Jt x J a (.inr (f i, u)) := by
    rintro (a | ⟨a, q⟩) u
    · exact h1 J a u
    · exact h01 Jt J a q u
  have c2t : ∀ a, cov2 e.obj θ.kernelParams xt Jt Jt' x' Js Js' a (.inl (.inl i)) =
      cov2 e.obj θ.kernelParams xt Jt Jt' x J J' a (.inl (.inl (f i))) := by
    rintro ((a | ⟨a, q⟩) | ⟨a, q⟩)
    · exact hk a
    · exact h0 Jt a q
    · exact h0 Jt' a q
  have c2d : ∀ a u, cov2 e.obj θ.kernelParams xt Jt Jt' x' Js Js' a (.inl (.inr (i, u))) =
      cov2 e.obj θ.kernelParams xt Jt Jt' x J J' a (.inl (.inr (f i, u))) := by
    rintro ((a | ⟨a, q⟩) | ⟨a, q⟩) u
    · exact h1 J a u
    · exact h01 Jt J a q u
    · exact h01 Jt' J a q u
  have c2e : ∀ a u, cov2 e.obj θ.kernelParams xt Jt Jt' x' Js Js' a (.inr (i, u)) =
      cov2 e.obj θ.kernelParams xt Jt Jt' x J J' a (.inr (f i, u)) := by
    rintro ((a | ⟨a, q⟩) | ⟨a, q⟩) u
    · exact h1 J' a u
    · exact h01 Jt J' a q u
    · exact h01 Jt' J' a q u
  refine ⟨fun iter => ?_, fun iter => ?_⟩
  · have A := C76_predict1 e θ xt Jt x' Js c mu
    have B := C76_predict1 e θ xt Jt x J c mu
    have key : (tdPredictDense1 θ e.obj xt Jt x' Js c mu).1 i 0 = (tdPredictDense1 θ e.obj xt Jt x J c mu).1 (f i) 0 ∧
        ∀ u, (tdPredictDense1 θ e.obj xt Jt x' Js c mu).2 i u = (tdPredictDense1 θ e.obj xt Jt x J c mu).2 (f i) u := by
      refine ⟨?_, fun u => ?_⟩
      · rw [A.1, B.1]; simp only [c1t]
      · rw [A.2.1, B.2.1]; simp only [c1d]
    cases iter
    · exact key
    · simp only [if_true]
      rw [A.2.2, B.2.2]
      exact key
  · have A := C76_predict2 e θ xt Jt Jt' x' Js Js' c' mu
    have B := C76_predict2 e θ xt Jt Jt' x J J' c' mu
    have key : (tdPredictDense2 θ e.obj xt Jt Jt' x' Js Js' c' mu).1 i 0 =
          (tdPredictDense2 θ e.obj xt Jt Jt' x J J' c' mu).1 (f i) 0 ∧
        (∀ u, (tdPredictDense2 θ e.obj xt Jt Jt' x' Js Js' c' mu).2.1 i u =
          (tdPredictDense2 θ e.obj xt Jt Jt' x J J' c' mu).2.1 (f i) u) ∧
        ∀ u, (tdPredictDense2 θ e.obj xt Jt Jt' x' Js Js' c' mu).2.2 i u =
          (tdPredictDense2 θ e.obj xt Jt Jt' x J J' c' mu).2.2 (f i) u := by
      refine ⟨?_, fun u => ?_, fun u => ?_⟩
      · rw [A.1, B.1]; simp only [c2t]
      · rw [A.2.1, B.2.1]; simp only [c2d]
      · rw [A.2.2.1, B.2.2.1]; simp only [c2e]
    cases iter
    · exact key
    · simp only [if_true]
      rw [A.2.2.2, B.2.2.2]
      exact key

/-- The full claim is false: `SGPR.predict(full_covariance=True)` puts the prediction points where the training points
belong, so that the variance at a point changes when a second point is asked for. Linear kernel, one inducing point at
`1`, `sigma = 1`: asking for the input `1` once or twice. -/
theorem C121_false : ¬ C121_full := by
  intro h
  have h1 := (h 1 (.linear none) ⟨fun _ => 1, 1⟩ trivial LinAlg.ideal LinAlg.ideal_exact
    1 2 1 0 (fun _ _ => 1) (fun _ _ => 1) 0 0 (fun _ => 0)).2.2.2 0 0
  have hc := fun {n : ℕ} (x : Batch n 1) => C49_at_training_inputs_partial LinAlg.ideal_exact (.linear none : KExpr 1)
    ⟨fun _ => 1, 1⟩ trivial (fun _ _ => 1 : Batch 1 1) x
  rw [hc, hc] at h1
  simp only [projectedCov, Matrix.add_apply, Matrix.sub_apply, Matrix.smul_apply, smul_eq_mul,
    Matrix.inv_subsingleton, Matrix.mul_apply, Matrix.transpose_apply, Matrix.diagonal_apply,
    Finset.univ_unique, Finset.sum_singleton, Matrix.of_apply, sparseEntry, linear_k, Fin.sum_univ_two] at h1
  norm_num at h1

/-- Non-vacuity: a Matern kernel times a linear one, three training samples, two inputs of which the first is asked for
twice. -/
example (c : Mat 3 2) (i : Fin 3) (a : Fin 2) :
    let e : KExpr 2 := .prod (.matern32 none) (.linear (some ⟨1, ![1]⟩))
    let θ : GPParams := ⟨fun _ => 1, 1⟩
    let xt : Batch 3 2 := ![![0, 1], ![2, 1], ![1, 1]]
    let x : Batch 2 2 := ![![0, 1], ![3, 4]]
    predictDense θ e.obj xt (fun s => x (![0, 1, 0] s)) c 5 i a = predictDense θ e.obj xt x c 5 (![0, 1, 0] i) a :=
  (C121_targets_partial LinAlg.ideal_exact (.prod (.matern32 none) (.linear (some ⟨1, ![1]⟩)) : KExpr 2) _ _ _ c 5 _).1
    i a

end GPX.Props
