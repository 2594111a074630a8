import Verif.Spec.Interactions
import Verif.Props.Bounded
import Verif.Model.SGPR
import Verif.Props.KernelAlgebra
import Verif.Lemmas.KernelClosedJ

/-!
# C172: features the kernel does not read, and features it does not let interact
-/

namespace GPX.Props
open GPX GPX.Spec Matrix

variable {d m n o : ℕ} {la : LinAlg}

/-- A kernel sees the features it reads only. -/
theorem kernel_unread (e : KExpr d) (p : KPar) {n m n' m' : ℕ} (x1 : Batch n d) (x2 : Batch m d) (x1' : Batch n' d) (x2' : Batch m' d)
    (i : Fin n) (j : Fin m) (i' : Fin n') (j' : Fin m') (h1 : ∀ f, readsFeature e f → x1 i f = x1' i' f)
    (h2 : ∀ f, readsFeature e f → x2 j f = x2' j' f) : e.obj.k p x1 x2 i j = e.obj.k p x1' x2' i' j' := by
  have leaf : ∀ {κ : KernelObj d} {a : Option (Dims d)} {c : Core} {p : KPar}, ClosedJ κ p (Dims.resolve a) c →
      (∀ f, named a f → x1 i f = x1' i' f) → (∀ f, named a f → x2 j f = x2' j' f) → κ.k p x1 x2 i j = κ.k p x1' x2' i' j' := by
    intro κ a c p hc h1 h2
    have t1 : (Dims.resolve a).take (x1 i) = (Dims.resolve a).take (x1' i') := funext fun b => h1 _ ⟨b, rfl⟩
    have t2 : (Dims.resolve a).take (x2 j) = (Dims.resolve a).take (x2' j') := funext fun b => h2 _ ⟨b, rfl⟩
    rw [hc.k, hc.k, t1, t2]
  induction e generalizing p with
  | constant a => exact ((closedJ_constant a p).k x1 x2 i j).trans ((closedJ_constant a p).k x1' x2' i' j').symm
  | linear a => exact leaf (closedJ_linear a p) h1 h2
  | polynomial a ni => exact leaf (closedJ_polynomial a ni p) h1 h2
  | squaredExponential a => exact leaf (closedJ_se a p) h1 h2
  | matern12 a => exact leaf (closedJ_m12 a p) h1 h2
  | matern32 a => exact leaf (closedJ_m32 a p) h1 h2
  | matern52 a => exact leaf (closedJ_m52 a p) h1 h2
  | expSinSquared a => exact leaf (closedJ_ess a p) h1 h2
  | sum e1 e2 ih1 ih2 =>
    have a1 := ih1 (p.sub "kernel1") (fun f hf => h1 f (Or.inl hf)) fun f hf => h2 f (Or.inl hf)
    have a2 := ih2 (p.sub "kernel2") (fun f hf => h1 f (Or.inr hf)) fun f hf => h2 f (Or.inr hf)
    change e1.obj.k _ x1 x2 i j + e2.obj.k _ x1 x2 i j = e1.obj.k _ x1' x2' i' j' + e2.obj.k _ x1' x2' i' j'
    rw [a1, a2]
  | prod e1 e2 ih1 ih2 =>
    have a1 := ih1 (p.sub "kernel1") (fun f hf => h1 f (Or.inl hf)) fun f hf => h2 f (Or.inl hf)
    have a2 := ih2 (p.sub "kernel2") (fun f hf => h1 f (Or.inr hf)) fun f hf => h2 f (Or.inr hf)
    change e1.obj.k _ x1 x2 i j * e2.obj.k _ x1 x2 i j = e1.obj.k _ x1' x2' i' j' * e2.obj.k _ x1' x2' i' j'
    rw [a1, a2]

/-- **C172**, features no part of the kernel reads: changing them, in the training data and in the inputs of the prediction, changes neither
the fit nor a prediction nor a covariance nor the likelihood. -/
theorem C172_unread (e : KExpr d) (θ : GPParams) (mf : MeanFun) (xt xt' : Batch m d) (y : Mat m o) (x x' : Batch n d)
    (ht : ∀ i f, readsFeature e f → xt i f = xt' i f) (hx : ∀ j f, readsFeature e f → x j f = x' j f) :
    fitDense la θ e.obj mf xt y = fitDense la θ e.obj mf xt' y ∧
    (∀ (c : Mat m o) (mu : ℝ), predictDense θ e.obj xt x c mu = predictDense θ e.obj xt' x' c mu) ∧
    predictDenseCov la θ e.obj xt x = predictDenseCov la θ e.obj xt' x' ∧
    lmlDense la θ e.obj mf xt y = lmlDense la θ e.obj mf xt' y := by
  have k1 : e.obj.k θ.kernelParams xt xt = e.obj.k θ.kernelParams xt' xt' :=
    funext fun i => funext fun j => kernel_unread e _ xt xt xt' xt' i j i j (ht i) (ht j)
  have k2 : e.obj.k θ.kernelParams xt x = e.obj.k θ.kernelParams xt' x' :=
    funext fun i => funext fun j => kernel_unread e _ xt x xt' x' i j i j (ht i) (hx j)
  have k3 : e.obj.k θ.kernelParams x x = e.obj.k θ.kernelParams x' x' :=
    funext fun i => funext fun j => kernel_unread e _ x x x' x' i j i j (hx i) (hx j)
  refine ⟨?_, fun c mu => ?_, ?_, ?_⟩
  · simp only [fitDense, aLhsNoise, aLhs, k1]
  · simp only [predictDense, aLhs, k2]
  · simp only [predictDenseCov, aLhsNoise, aLhs, k1, k2, k3]
  · simp only [lmlDense, aLhsNoise, aLhs, k1]

theorem update_unread (e : KExpr d) (x : Fin d → ℝ) (f g : Fin d) (s s' t t' : ℝ) (hf : s = s' ∨ ¬ readsFeature e f)
    (hg : t = t' ∨ ¬ readsFeature e g) : ∀ h, readsFeature e h → withFeatures x f g s t 0 h = withFeatures x f g s' t' 0 h := by
  intro h hh
  simp only [withFeatures, Function.update_apply]
  by_cases h1 : h = g
  · subst h1
    simp only [if_true]
    exact hg.resolve_right (not_not_intro hh)
  · by_cases h2 : h = f
    · subst h2
      simp only [h1, if_false, if_true]
      exact hf.resolve_right (not_not_intro hh)
    · simp only [h1, h2, if_false]

/-- A kernel has no interaction between features that do not interact. -/
theorem kernel_no_interaction (e : KExpr d) (p : KPar) {f g : Fin d} (hi : ¬ interact e f g) {n : ℕ} (x1 : Batch n d)
    (i : Fin n) (x : Fin d → ℝ) (s s' t t' : ℝ) :
    e.obj.k p x1 (withFeatures x f g s t) i 0 + e.obj.k p x1 (withFeatures x f g s' t') i 0 =
      e.obj.k p x1 (withFeatures x f g s t') i 0 + e.obj.k p x1 (withFeatures x f g s' t) i 0 := by
  have nof : ∀ (e : KExpr d) (p : KPar), ¬ readsFeature e f → ∀ s s' t, e.obj.k p x1 (withFeatures x f g s t) i 0 =
      e.obj.k p x1 (withFeatures x f g s' t) i 0 := fun e p hn s s' t =>
    kernel_unread e p x1 _ x1 _ i 0 i 0 (fun _ _ => rfl) (update_unread e x f g s s' t t (Or.inr hn) (Or.inl rfl))
  have nog : ∀ (e : KExpr d) (p : KPar), ¬ readsFeature e g → ∀ s t t', e.obj.k p x1 (withFeatures x f g s t) i 0 =
      e.obj.k p x1 (withFeatures x f g s t') i 0 := fun e p hn s t t' =>
    kernel_unread e p x1 _ x1 _ i 0 i 0 (fun _ _ => rfl) (update_unread e x f g s s t t' (Or.inl rfl) (Or.inr hn))
  have leaf : ∀ (e : KExpr d) (p : KPar), ¬ (readsFeature e f ∧ readsFeature e g) →
      e.obj.k p x1 (withFeatures x f g s t) i 0 + e.obj.k p x1 (withFeatures x f g s' t') i 0 =
        e.obj.k p x1 (withFeatures x f g s t') i 0 + e.obj.k p x1 (withFeatures x f g s' t) i 0 := fun e p hn => by
    by_cases hf : readsFeature e f
    · have hg : ¬ readsFeature e g := fun hg => hn ⟨hf, hg⟩
      rw [nog e p hg s t t', nog e p hg s' t' t]
    · rw [nof e p hf s s' t, nof e p hf s' s t', add_comm]
  induction e generalizing p with
  | constant a => exact leaf _ p hi
  | linear a =>
    have hk : ∀ s t, (KExpr.linear a).obj.k p x1 (withFeatures x f g s t) i 0 =
        ∑ b, (Dims.resolve a).take (x1 i) b * (Dims.resolve a).take (withFeatures x f g s t 0) b := fun s t =>
      (closedJ_linear a p).k x1 (withFeatures x f g s t) i 0
    simp only [hk, ← Finset.sum_add_distrib, ← mul_add]
    refine Finset.sum_congr rfl fun b _ => congrArg _ ?_
    simp only [Dims.take, withFeatures, Function.update_apply]
    split_ifs with h1 h2
    · exact add_comm _ _
    · rfl
    · rfl
  | polynomial a ni => exact leaf _ p hi
  | squaredExponential a => exact leaf _ p hi
  | matern12 a => exact leaf _ p hi
  | matern32 a => exact leaf _ p hi
  | matern52 a => exact leaf _ p hi
  | expSinSquared a => exact leaf _ p hi
  | sum e1 e2 ih1 ih2 =>
    have a1 := ih1 (p.sub "kernel1") fun h => hi (Or.inl h)
    have a2 := ih2 (p.sub "kernel2") fun h => hi (Or.inr h)
    have hk : ∀ s t, (KExpr.sum e1 e2).obj.k p x1 (withFeatures x f g s t) i 0 =
      e1.obj.k (p.sub "kernel1") x1 (withFeatures x f g s t) i 0 + e2.obj.k (p.sub "kernel2") x1 (withFeatures x f g s t) i 0 :=
      fun _ _ => rfl
    simp only [hk]
    linarith
  | prod e1 e2 ih1 ih2 =>
    have a1 := ih1 (p.sub "kernel1") fun h => hi (Or.inl h)
    have a2 := ih2 (p.sub "kernel2") fun h => hi (Or.inr (Or.inl h))
    have b1 : ¬ (readsFeature e1 f ∧ readsFeature e2 g) := fun h => hi (Or.inr (Or.inr (Or.inl h)))
    have b2 : ¬ (readsFeature e1 g ∧ readsFeature e2 f) := fun h => hi (Or.inr (Or.inr (Or.inr h)))
    have hk : ∀ s t, (KExpr.prod e1 e2).obj.k p x1 (withFeatures x f g s t) i 0 =
      e1.obj.k (p.sub "kernel1") x1 (withFeatures x f g s t) i 0 * e2.obj.k (p.sub "kernel2") x1 (withFeatures x f g s t) i 0 :=
      fun _ _ => rfl
    by_cases c1 : readsFeature e1 f
    · have c2 : ¬ readsFeature e2 g := fun h => b1 ⟨c1, h⟩
      by_cases c3 : readsFeature e1 g
      · have c4 : ¬ readsFeature e2 f := fun h => b2 ⟨c3, h⟩
        simp only [hk]
        rw [nog e2 _ c2 s t t', nof e2 _ c4 s s' t', nog e2 _ c2 s' t t', ← add_mul, a1, add_mul]
      · refine leaf _ p fun h => h.2.elim c3 c2
    · by_cases c3 : readsFeature e1 g
      · have c4 : ¬ readsFeature e2 f := fun h => b2 ⟨c3, h⟩
        exact leaf _ p fun h => h.1.elim c1 c4
      · simp only [hk]
        rw [nog e1 _ c3 s t t', nof e1 _ c1 s s' t', nog e1 _ c3 s' t t', ← mul_add, a2, mul_add]

/-- **C172**, additivity: if two features do not interact in the kernel, they do not interact in the predictions: the effect of changing one
is the same whatever the value of the other. This holds whatever the coefficients, of a fitted GPR or of a sparse model and its inducing
points. -/
theorem C172_no_interaction (e : KExpr d) (θ : GPParams) {f g : Fin d} (hi : ¬ interact e f g) (xt : Batch m d)
    (c : Mat m o) (mu : ℝ) (a : Fin o) (x : Fin d → ℝ) (s s' t t' : ℝ) :
    let pred := fun s t => predictDense θ e.obj xt (withFeatures x f g s t) c mu 0 a
    pred s t - pred s' t = pred s t' - pred s' t' := by
  intro pred
  have hp : ∀ s t, pred s t = mu + ∑ i, e.obj.k θ.kernelParams xt (withFeatures x f g s t) i 0 * c i a := fun s t => by
    have := predict_sub_mu e θ xt (withFeatures x f g s t) c mu 0 a
    simp only [Matrix.of_apply] at this
    rw [← this]; ring
  have : pred s t + pred s' t' = pred s t' + pred s' t := by
    have hsum : (∑ i, e.obj.k θ.kernelParams xt (withFeatures x f g s t) i 0 * c i a) +
        ∑ i, e.obj.k θ.kernelParams xt (withFeatures x f g s' t') i 0 * c i a =
        (∑ i, e.obj.k θ.kernelParams xt (withFeatures x f g s t') i 0 * c i a) +
        ∑ i, e.obj.k θ.kernelParams xt (withFeatures x f g s' t) i 0 * c i a := by
      simp only [← Finset.sum_add_distrib, ← add_mul]
      exact Finset.sum_congr rfl fun i _ => by rw [kernel_no_interaction e _ hi xt i x s s' t t']
    simp only [hp]
    linarith
  linarith

/-- Sparse predictions are sums over the inducing points, as dense ones over the training samples. -/
theorem sparse_predict_sum (e : KExpr d) (θ : GPParams) (xl : Batch m d) (x : Batch n d) (c : Mat m o) (mu : ℝ) :
    sgprPredict θ e.obj xl x c mu = predictDense θ e.obj xl x c mu := by
  funext j a
  simp only [sgprPredict, predictDense, addScalar, Matrix.of_apply, Matrix.mul_apply, Matrix.transpose_apply, aLhs]
  congr 1
  exact Finset.sum_congr rfl fun i _ => by rw [(C21_symmetric e θ.kernelParams).k x xl j i]

/-- **C172**, additivity, for the predictions of sparse models. -/
theorem C172_no_interaction_sparse (e : KExpr d) (θ : GPParams) {f g : Fin d} (hi : ¬ interact e f g) (xl : Batch m d)
    (c : Mat m o) (mu : ℝ) (a : Fin o) (x : Fin d → ℝ) (s s' t t' : ℝ) :
    let pred := fun s t => sgprPredict θ e.obj xl (withFeatures x f g s t) c mu 0 a
    pred s t - pred s' t = pred s t' - pred s' t' := by
  simp only [sparse_predict_sum]
  exact C172_no_interaction e θ hi xl c mu a x s s' t t'

/-- Non-vacuity: in `SquaredExponential([0, 1]) + Constant() * Matern32([2]) + Linear()` the features 0 and 2 do not interact, and 0 and 1
do. -/
example : let e : KExpr 3 := .sum (.sum (.squaredExponential (some ⟨2, ![0, 1]⟩)) (.prod (.constant none)
          (.matern32 (some ⟨1, ![2]⟩)))) (.linear none)
    ¬ interact e 0 2 ∧ interact e 0 1 := by
  intro e
  constructor
  · rintro ((⟨_, ⟨b, hb⟩⟩ | (h | (⟨⟨b, hb⟩, _⟩ | (h | h)))) | h)
    · exact (by decide : ∀ b : Fin 2, (![0, 1] : Fin 2 → Fin 3) b ≠ 2) b hb
    · exact h.1
    · exact (by decide : ∀ b : Fin 1, (![2] : Fin 1 → Fin 3) b ≠ 0) b hb
    · exact h.1
    · exact h.1
    · exact h
  · exact Or.inl (Or.inl ⟨⟨(0 : Fin 2), rfl⟩, ⟨(1 : Fin 2), rfl⟩⟩)

end GPX.Props
