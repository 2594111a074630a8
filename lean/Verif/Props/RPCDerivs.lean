import Verif.Model.RPCDerivs
import Verif.Props.SGPR

/-!
# C73, continued: derivative fits, all likelihoods and the predictions of SGPR_RPChol
-/

namespace GPX.Props
open GPX GPX.Spec

variable {d m n o v w : ℕ} {la : LinAlg} {Key : Type}

theorem takeRows_clamp {B : Type} [Zero B] {k : ℕ} (x : Fin n → B) (p : Fin k → ℕ) (hn : 0 < n) :
    takeRows x p = fun i => x ⟨min (p i) (n - 1), by omega⟩ := by
  funext i
  unfold takeRows rowAt
  rw [dif_pos hn]

/-- **C73**, all functions. For every kernel object, dataset with at least two samples, jacobians, key and number of
inducing points there is one selection `f` of training samples such that the fits (dense, iterative, on targets and on
derivatives) return exactly the samples `x (f i)` and, on derivatives, the jacobians `J (f i)` of the same samples,
with the coefficients and mean of SGPR with these inducing points, and such that the four likelihoods are those of SGPR
with these inducing points. In particular the selection does not depend on the jacobians. -/
theorem C73_rpchol_selection (la : LinAlg) (cg : CG) (logdet : (Mat n 1 → Mat n 1) → ℝ)
    (split : Key → Key × Key) (choice : Key → (Fin n → ℝ) → Fin n) (θ : GPParams) (κ : KernelObj d) (mf : MeanFun)
    (x : Batch n d) (y : Mat n o) (key : Key) (nLocs : ℕ) (hn : 2 ≤ n) :
    ∃ f : Fin nLocs → Fin n,
      rpcFitDense la split choice θ κ mf x y key nLocs =
        .ok ((sgprFitDense la θ κ mf (fun i => x (f i)) x y).1, mf y, fun i => x (f i)) ∧
      rpcFitIter cg split choice θ κ mf x y key nLocs =
        .ok ((sgprFitIter cg θ κ mf (fun i => x (f i)) x y).1, mf y, fun i => x (f i)) ∧
      rpcLmlDense la split choice θ κ mf x y key nLocs =
        .ok (sgprLmlDense la θ κ mf (fun i => x (f i)) x y) ∧
      rpcLmlIter la cg logdet split choice θ κ mf x y key nLocs =
        .ok (sgprLmlIter la cg logdet θ κ mf (fun i => x (f i)) x y) ∧
      ∀ (v : ℕ) (J : Jac n d v),
        (∀ z : Mat n v,
          rpcFitDerivsDense la split choice θ κ mf x z J key nLocs =
            .ok ((sgprFitDerivsDense la θ κ mf (fun i => x (f i)) (fun i => J (f i)) x J z).1, mf (flatCol z),
              fun i => x (f i), fun i => J (f i)) ∧
          rpcFitDerivsIter cg split choice θ κ mf x z J key nLocs =
            .ok ((sgprFitDerivsIter cg θ κ mf (fun i => x (f i)) (fun i => J (f i)) x J z).1, mf (flatCol z),
              fun i => x (f i), fun i => J (f i)) ∧
          ∀ logdet' : (Mat (n * v) 1 → Mat (n * v) 1) → ℝ,
            rpcLmlDerivsIter la cg logdet' split choice θ κ mf x z J key nLocs =
              .ok (sgprLmlDerivsIter la cg logdet' θ κ mf (fun i => x (f i)) (fun i => J (f i)) x J z)) ∧
        ∀ (r : ℕ) (z : Mat r o),
          rpcLmlDerivsDense la split choice θ κ mf x z J key nLocs =
            .ok (sgprLmlDerivsDense la θ κ mf (fun i => x (f i)) (fun i => J (f i)) x J z) := by
  have h1 : n ≠ 1 := by omega
  obtain ⟨r, hr⟩ : ∃ r, rpcholesky split choice key x nLocs κ θ.kernelParams = .ok r := by
    unfold rpcholesky
    rw [if_neg h1]
    exact ⟨_, rfl⟩
  have hx := takeRows_clamp x r.2 (by omega)
  refine ⟨fun i => ⟨min (r.2 i) (n - 1), by omega⟩, ?_, ?_, ?_, ?_, fun v J => ?_⟩
  · unfold rpcFitDense
    rw [hr]
    simp only [hx]
    rfl
  · unfold rpcFitIter
    rw [hr]
    simp only [hx]
    rfl
  · unfold rpcLmlDense
    rw [hr]
    simp only [hx]
  · unfold rpcLmlIter
    rw [hr]
    simp only [hx]
  · have hJ := takeRows_clamp J r.2 (by omega)
    have hs : rpcSelect split choice θ κ x J key nLocs =
        .ok (fun i => x ⟨min (r.2 i) (n - 1), by omega⟩, fun i => J ⟨min (r.2 i) (n - 1), by omega⟩) := by
      unfold rpcSelect
      rw [hr]
      simp only [hx, hJ]
    refine ⟨fun z => ⟨?_, ?_, fun logdet' => ?_⟩, fun r z => ?_⟩
    · unfold rpcFitDerivsDense
      rw [hs]
      rfl
    · unfold rpcFitDerivsIter
      rw [hs]
      rfl
    · unfold rpcLmlDerivsIter
      rw [hs]
    · unfold rpcLmlDerivsDense
      rw [hs]

/-- On a single sample every one of these functions raises `IndexError`, whatever the key and the number of inducing
points. -/
theorem C73_single_sample_raises (la : LinAlg) (cg : CG) (logdet : (Mat 1 1 → Mat 1 1) → ℝ)
    (logdet' : (Mat (1 * v) 1 → Mat (1 * v) 1) → ℝ)
    (split : Key → Key × Key) (choice : Key → (Fin 1 → ℝ) → Fin 1) (θ : GPParams) (κ : KernelObj d) (mf : MeanFun)
    (x : Batch 1 d) (J : Jac 1 d v) (y : Mat 1 o) (z : Mat 1 v) (z' : Mat w o) (key : Key) (nLocs : ℕ) :
    rpcFitDense la split choice θ κ mf x y key nLocs = .error .indexError ∧
    rpcFitIter cg split choice θ κ mf x y key nLocs = .error .indexError ∧
    rpcLmlDense la split choice θ κ mf x y key nLocs = .error .indexError ∧
    rpcLmlIter la cg logdet split choice θ κ mf x y key nLocs = .error .indexError ∧
    rpcFitDerivsDense la split choice θ κ mf x z J key nLocs = .error .indexError ∧
    rpcFitDerivsIter cg split choice θ κ mf x z J key nLocs = .error .indexError ∧
    rpcLmlDerivsDense la split choice θ κ mf x z' J key nLocs = .error .indexError ∧
    rpcLmlDerivsIter la cg logdet' split choice θ κ mf x z J key nLocs = .error .indexError :=
  ⟨rfl, rfl, rfl, rfl, rfl, rfl, rfl, rfl⟩

/-- **C73**, predictions. Take any model fitted on targets by SGPR_RPChol and any fitted on derivatives, with whatever
coefficients `c` and mean `mu` the fit returned. The prediction at a new point is `mu` plus the sum over the selected
*training samples* of kernel times coefficient (kernel derivatives contracted with the jacobians of the selected
samples for the model fitted on derivatives), dense and iterative predictions are the same, and both are for the
samples the fit selected. -/
theorem C73_rpchol_predictions (la : LinAlg) (split : Key → Key × Key) (choice : Key → (Fin n → ℝ) → Fin n)
    (e : KExpr d) (θ : GPParams) (mf : MeanFun) (x : Batch n d) (y : Mat n o) (z : Mat n v)
    (J : Jac n d v) (key : Key) (nLocs : ℕ) (hn : 2 ≤ n)
    {k s : ℕ} (xs : Batch k d) (Js : Jac k d s) :
    (∃ (f : Fin nLocs → Fin n) (c : Mat nLocs o),
      rpcFitDense la split choice θ e.obj mf x y key nLocs = .ok (c, mf y, fun i => x (f i)) ∧
      (rpcPredictDense la θ e.obj (fun i => x (f i)) xs c (mf y)).2 = none ∧
      rpcPredictIter θ e.obj (fun i => x (f i)) xs c (mf y) =
        (rpcPredictDense la θ e.obj (fun i => x (f i)) xs c (mf y)).1 ∧
      ∀ i a, (rpcPredictDense la θ e.obj (fun i => x (f i)) xs c (mf y)).1 i a =
        mf y + ∑ j, e.obj.k θ.kernelParams xs (fun i => x (f i)) i j * c j a) ∧
    ∃ (f : Fin nLocs → Fin n) (c : Mat (nLocs * v) 1),
      rpcFitDerivsDense la split choice θ e.obj mf x z J key nLocs =
        .ok (c, mf (flatCol z), fun i => x (f i), fun i => J (f i)) ∧
      rpcPredictDerivsIter θ e.obj (fun i => x (f i)) (fun i => J (f i)) xs Js c (mf (flatCol z)) =
        rpcPredictDerivsDense θ e.obj (fun i => x (f i)) (fun i => J (f i)) xs Js c (mf (flatCol z)) ∧
      (∀ i u, rpcPredictDerivsDense θ e.obj (fun i => x (f i)) (fun i => J (f i)) xs Js c (mf (flatCol z)) i u =
        mf (flatCol z) + ∑ j, ∑ t, e.obj.d01kj θ.kernelParams xs (fun i => x (f i)) Js (fun i => J (f i))
          (flat i u) (flat j t) * c (flat j t) 0) ∧
      (∀ flag i, rpcPredictYDerivsIter θ e.obj (fun i => x (f i)) (fun i => J (f i)) xs c (mf (flatCol z)) flag i 0 =
        mf (flatCol z) + ∑ j, ∑ t, e.obj.d0kj θ.kernelParams (fun i => x (f i)) xs (fun i => J (f i))
          (flat j t) i * c (flat j t) 0) := by
  obtain ⟨f, h1, -, -, -, h2⟩ := C73_rpchol_selection la idealCG (fun _ => 0) split choice θ e.obj mf x y key nLocs hn
  obtain ⟨hz, -⟩ := h2 v J
  refine ⟨⟨f, _, h1, rfl, ?_, fun i a => ?_⟩, f, _, (hz z).1, ?_, fun i u => ?_, fun flag i => ?_⟩
  · unfold rpcPredictIter rpcPredictDense sgprPredictIter sgprPredict
    simp only
    rw [sgprAxRhs_eq θ (C63_sampleWise e θ.kernelParams)]
  · simp [rpcPredictDense, sgprPredict, addScalar, Matrix.mul_apply]
  · exact (C48_predict_derivs e θ _ _ xs Js _ _).1
  · rw [← sum_flat (fun s => e.obj.d01kj θ.kernelParams xs (fun i => x (f i)) Js (fun i => J (f i)) (flat i u) s *
      (sgprFitDerivsDense la θ e.obj mf (fun i => x (f i)) (fun i => J (f i)) x J z).1 s 0)]
    exact (C48_predict_derivs e θ _ _ xs Js _ _).2.1 i u
  · rw [← sum_flat (fun s => e.obj.d0kj θ.kernelParams (fun i => x (f i)) xs (fun i => J (f i)) s i *
      (sgprFitDerivsDense la θ e.obj mf (fun i => x (f i)) (fun i => J (f i)) x J z).1 s 0)]
    have h := C48_predict_derivs e θ (fun i => x (f i)) (fun i => J (f i)) xs Js
      (sgprFitDerivsDense la θ e.obj mf (fun i => x (f i)) (fun i => J (f i)) x J z).1 (mf (flatCol z))
    unfold rpcPredictYDerivsIter
    rw [h.2.2.1]
    exact h.2.2.2 i

/-- Non-vacuity: two samples suffice, and there are choices among them. -/
example : (2 : ℕ) ≤ 2 ∧ ∃ f g : Fin 2 → Fin 2, f ≠ g := ⟨le_rfl, id, fun _ => 0, fun h => absurd (congrFun h 1) (by decide)⟩

end GPX.Props
