import Verif.Props.GPRTD
import Verif.Spec.GPRTDPredict

/-!
# C97: predictions of GPR_TD with and without the second set of derivatives
-/

namespace GPX.Props
open GPX GPX.Spec

variable {d m n o v w v' w' : ℕ}

/-! ## Helpers -/

theorem cov2_inl (κ : KernelObj d) (p : KPar) (x1 : Batch m d) (J1 : Jac m d v) (J1' : Jac m d v') (x2 : Batch n d)
    (J2 : Jac n d w) {w₁ w₂ : ℕ} (J2' : Jac n d w₁) (J2'' : Jac n d w₂) (a : Obs2 m v v') (b : Obs1 n w) :
    cov2 κ p x1 J1 J1' x2 J2 J2' a (.inl b) = cov2 κ p x1 J1 J1' x2 J2 J2'' a (.inl b) := by
  rcases a with a | ⟨i, u⟩
  · rfl
  · rcases b with j | ⟨j, t⟩ <;> rfl

theorem cov2_inr (κ : KernelObj d) (p : KPar) (x1 : Batch m d) (J1 : Jac m d v) (J1' : Jac m d v') (x2 : Batch n d)
    (J2 : Jac n d w) (J2' : Jac n d w') {w₂ : ℕ} (J2'' : Jac n d w₂) (a : Obs2 m v v') (j : Fin n) (t : Fin w') :
    cov2 κ p x1 J1 J1' x2 J2 J2' a (.inr (j, t)) = cov2 κ p x1 J1 J1' x2 J2' J2'' a (.inl (.inr (j, t))) := by
  rcases a with (i | ⟨i, u⟩) | ⟨i, u⟩ <;> rfl

theorem topRows_vcat {a b : ℕ} (A : Mat a o) (B : Mat b o) : topRows (vcat A B) = A := by
  ext i c
  simp [topRows, vcat]

theorem tdAxRows21_eq {κ : KernelObj d} (θ : TDParams) (h : SampleWise κ θ.kernelParams) (x1 : Batch m d)
    (J1 : Jac m d v) (J1' : Jac m d v') (x2 : Batch n d) (J2 : Jac n d w) (J2' : Jac n d w')
    (z : Mat (n + n * w + n * w') o) :
    tdAxRows21 θ κ x1 J1 x2 J2 J2' z = matRows (topRows (tdALhs2 θ κ x1 J1 J1' x2 J2 J2' * z)) := by
  unfold tdAxRows21 tdALhs2 tdBlocks2
  simp only [laxScan_counter_list, vcat_mul, hcat_mul, topRows_vcat]
  refine rows1 _ _ _ _ (fun i c => ?_) (fun i u c => ?_) <;> simp only [Matrix.add_apply]
  · exact add3
      (mul_row _ _ _ _ _ (fun c => k_row h x1 x2 i 0 c) _)
      (mul_row _ _ _ _ _ (fun c => d1kj_row h x1 x2 J2 i 0 c) _)
      (mul_row _ _ _ _ _ (fun c => d1kj_row h x1 x2 J2' i 0 c) _)
  · exact add3
      (mul_row _ _ _ _ _ (fun c => d0kj_row h x1 x2 J1 i 0 u c) _)
      (mul_row _ _ _ _ _ (fun c => d01kj_row h x1 x2 J1 J2 i 0 u c) _)
      (mul_row _ _ _ _ _ (fun c => d01kj_row h x1 x2 J1 J2' i 0 u c) _)

theorem mean_two (κ : KernelObj d) (p : KPar) (xt : Batch m d) (Jt : Jac m d v) (Jt' : Jac m d v')
    (c : Mat (m + m * v + m * v') 1) (x : Batch n d) (J : Jac n d w) (J' : Jac n d w') :
    (∀ b, ∑ a, cov2 κ p xt Jt Jt' x J J' a (.inl b) * c (pos2 a) 0 = tdMean κ p xt (.two Jt Jt' c) x J b) ∧
    ∀ j t, ∑ a, cov2 κ p xt Jt Jt' x J J' a (.inr (j, t)) * c (pos2 a) 0 =
      tdMean κ p xt (.two Jt Jt' c) x J' (.inr (j, t)) :=
  ⟨fun b => Finset.sum_congr rfl fun a _ => by rw [cov2_inl],
    fun j t => Finset.sum_congr rfl fun a _ => by rw [cov2_inr]⟩

/-- The mixed matrix-free prediction is the beginning of the one with a second set. -/
theorem mixed_iter (e : KExpr d) (θ : TDParams) (xt : Batch m d) (Jt : Jac m d v) (Jt' : Jac m d v')
    (c : Mat (m + m * v + m * v') 1) (mu : ℝ) (x : Batch n d) (J : Jac n d w) (J' : Jac n d w') :
    tdSplit1 mu (rowsToMat _ (tdAxRows21 θ e.obj x J xt Jt Jt' c)) =
      ((tdPredictIter2 θ e.obj xt Jt Jt' x J J' c mu).1, (tdPredictIter2 θ e.obj xt Jt Jt' x J J' c mu).2.1) := by
  rw [tdAxRows21_eq θ (C63_sampleWise e θ.kernelParams) x J J' xt Jt Jt' c, rowsToMat_matRows]
  unfold tdPredictIter2
  rw [(C52_matvec2 e θ x J J' xt Jt Jt' c).2.1]
  rfl

/-! ## C97 -/

/-- **C97**, full statement: whatever the model was trained on and whatever is asked for, both implementations return the
targets, the first derivatives and (if asked for) the second derivatives implied by the trained model. It is false:
`C97_false`. -/
def C97_full : Prop :=
  ∀ (d m n v w : ℕ) (e : KExpr d) (θ : TDParams) (xt : Batch m d) (tr : TDTrained m d v) (mu : ℝ)
    (iterative : Bool) (x : Batch n d) (J : Jac n d w) (J' : Option (Σ w', Jac n d w')),
    ∃ r, tdPredict θ e.obj xt tr mu iterative x J J' = .ok r ∧ TDPredicts e.obj θ.kernelParams xt tr mu x J J' r

/-- **C97**, trained on one set and asked for one set: both implementations are right. -/
theorem C97_one_partial (e : KExpr d) (θ : TDParams) (xt : Batch m d) (Jt : Jac m d v)
    (c : Mat (m + m * v) 1) (mu : ℝ) (iterative : Bool) (x : Batch n d) (J : Jac n d w) :
    ∃ r, tdPredict θ e.obj xt (.one Jt c) mu iterative x J none = .ok r ∧
      TDPredicts e.obj θ.kernelParams xt (.one Jt c) mu x J none r := by
  have h := C76_predict1 e θ xt Jt x J c mu
  cases iterative
  · exact ⟨_, rfl, h.1, h.2.1, rfl⟩
  · refine ⟨_, rfl, ?_⟩
    rw [h.2.2]
    exact ⟨h.1, h.2.1, rfl⟩

/-- **C97**, trained on two sets and asked for two sets, possibly with other numbers of components. -/
theorem C97_two_partial (e : KExpr d) (θ : TDParams) (xt : Batch m d) (Jt : Jac m d v)
    (Jt' : Jac m d v') (c : Mat (m + m * v + m * v') 1) (mu : ℝ) (iterative : Bool) (x : Batch n d) (J : Jac n d w)
    (J' : Jac n d w') :
    ∃ r, tdPredict θ e.obj xt (.two Jt Jt' c) mu iterative x J (some ⟨w', J'⟩) = .ok r ∧
      TDPredicts e.obj θ.kernelParams xt (.two Jt Jt' c) mu x J (some ⟨w', J'⟩) r := by
  have h := C76_predict2 e θ xt Jt Jt' x J J' c mu
  have hm := mean_two e.obj θ.kernelParams xt Jt Jt' c x J J'
  have key : TDPredicts e.obj θ.kernelParams xt (.two Jt Jt' c) mu x J (some ⟨w', J'⟩)
      ((tdPredictDense2 θ e.obj xt Jt Jt' x J J' c mu).1, (tdPredictDense2 θ e.obj xt Jt Jt' x J J' c mu).2.1,
        some ⟨w', (tdPredictDense2 θ e.obj xt Jt Jt' x J J' c mu).2.2⟩) :=
    ⟨fun i => by rw [← hm.1]; exact h.1 i, fun i u => by rw [← hm.1]; exact h.2.1 i u, _, rfl,
      fun i u => by rw [← hm.2]; exact h.2.2.1 i u⟩
  cases iterative
  · exact ⟨_, rfl, key⟩
  · refine ⟨_, rfl, ?_⟩
    rw [h.2.2.2]
    exact key

/-- **C97**, trained on two sets and asked for one: the matrix-free implementation is right (the second training set still
contributes to the targets and to the first derivatives), and agrees with what it says when asked for both sets. -/
theorem C97_two_one_iterative_partial (e : KExpr d) (θ : TDParams) (xt : Batch m d) (Jt : Jac m d v)
    (Jt' : Jac m d v') (c : Mat (m + m * v + m * v') 1) (mu : ℝ) (x : Batch n d) (J : Jac n d w) :
    ∃ r, tdPredict θ e.obj xt (.two Jt Jt' c) mu true x J none = .ok r ∧
      TDPredicts e.obj θ.kernelParams xt (.two Jt Jt' c) mu x J none r ∧
      ∀ (w' : ℕ) (J' : Jac n d w'), ∃ M,
        tdPredict θ e.obj xt (.two Jt Jt' c) mu true x J (some ⟨w', J'⟩) = .ok (r.1, r.2.1, M) := by
  have hx := fun (w' : ℕ) (J' : Jac n d w') => mixed_iter e θ xt Jt Jt' c mu x J J'
  refine ⟨_, rfl, ?_, fun w' J' => ⟨some ⟨w', (tdPredictIter2 θ e.obj xt Jt Jt' x J J' c mu).2.2⟩, ?_⟩⟩
  · obtain ⟨r, hr, h1, h2, _⟩ := C97_two_partial e θ xt Jt Jt' c mu true x J (fun _ _ => (Fin.elim0 : Fin 0 → ℝ))
    have hr' : r = _ := (Except.ok.inj hr).symm
    subst hr'
    dsimp only at h1 h2 ⊢
    rw [hx 0 (fun _ _ => Fin.elim0)]
    exact ⟨h1, h2, rfl⟩
  · dsimp only
    rw [hx w' J']
    rfl

/-- **C97**, what the dense implementation does when asked for one set after training on two: it raises. -/
theorem C97_two_one_dense_raises (κ : KernelObj d) (θ : TDParams) (xt : Batch m d) (Jt : Jac m d v)
    (Jt' : Jac m d v') (c : Mat (m + m * v + m * v') 1) (mu : ℝ) (x : Batch n d) (J : Jac n d w) :
    ∃ err, tdPredict θ κ xt (.two Jt Jt' c) mu false x J none = .error err :=
  ⟨_, rfl⟩

/-- **C97**, asked for two sets after training on one: the matrix-free implementation raises. -/
theorem C97_one_two_iterative_raises (κ : KernelObj d) (θ : TDParams) (xt : Batch m d) (Jt : Jac m d v)
    (c : Mat (m + m * v) 1) (mu : ℝ) (x : Batch n d) (J : Jac n d w) (J' : Jac n d w') :
    ∃ err, tdPredict θ κ xt (.one Jt c) mu true x J (some ⟨w', J'⟩) = .error err :=
  ⟨_, rfl⟩

/-- **C97**, asked for two sets after training on one: the dense implementation returns the right targets and first
derivatives and, silently, second derivatives with no column, whatever `jacobian_2` is. -/
theorem C97_one_two_dense_partial (e : KExpr d) (θ : TDParams) (xt : Batch m d) (Jt : Jac m d v)
    (c : Mat (m + m * v) 1) (mu : ℝ) (x : Batch n d) (J : Jac n d w) (J' : Jac n d w') :
    ∃ y yd, tdPredict θ e.obj xt (.one Jt c) mu false x J (some ⟨w', J'⟩) =
        .ok (y, yd, some ⟨0, Matrix.of fun _ => Fin.elim0⟩) ∧
      TDPredicts e.obj θ.kernelParams xt (.one Jt c) mu x J none (y, yd, none) := by
  have h := C76_predict1 e θ xt Jt x J c mu
  refine ⟨_, _, ?_, h.1, h.2.1, rfl⟩
  have hs : ∀ (l : List ℝ) (a b : ℕ), l.length ≤ a →
      sliceReshape l a b n = ⟨0, Matrix.of fun _ => Fin.elim0⟩ := by
    intro l a b hl
    unfold sliceReshape
    have : (l.take b).drop a = [] := List.drop_eq_nil_of_le (by rw [List.length_take]; omega)
    rw [this]
    have : ∀ (k : ℕ) (_ : k = 0) (f : Mat n k), (⟨k, f⟩ : Σ k, Mat n k) = ⟨0, Matrix.of fun _ => Fin.elim0⟩ := by
      intro k hk f
      subst hk
      congr 1
      ext i j
      exact j.elim0
    exact this _ (by simp) _
  simp only [tdPredict]
  rw [hs _ _ _ (by simp [colList, Nat.mul_comm])]
  rfl

/-- **C97** is false as stated: a model trained on two sets cannot predict targets and first derivatives densely. -/
theorem C97_false : ¬ C97_full := by
  intro h
  obtain ⟨r, hr, _⟩ := h 2 2 2 3 3 (.matern52 none) exθ exX (.two exJ exJ' 0) 0 false exX exJ none
  exact absurd hr (by simp [tdPredict])

/-- A second reason why `C97_full` fails, in which nothing is raised: the silently empty second derivatives. -/
theorem C97_false_silent : ∃ r, tdPredict exθ (KExpr.matern52 none : KExpr 2).obj exX (.one exJ 0) 0 false exX exJ
      (some ⟨1, exJ'⟩) = .ok r ∧
    ¬ TDPredicts (KExpr.matern52 none : KExpr 2).obj exθ.kernelParams exX (.one exJ 0) 0 exX exJ (some ⟨1, exJ'⟩) r := by
  obtain ⟨y, yd, h, _⟩ := C97_one_two_dense_partial (.matern52 none) exθ exX exJ 0 0 exX exJ exJ'
  refine ⟨_, h, fun ⟨_, _, M, hM, _⟩ => ?_⟩
  have := congrArg (fun o : Option (Σ k, Mat 2 k) => o.map Sigma.fst) hM
  simp at this

/-- Non-vacuity of the C97 theorems: two samples in the plane, three first derivatives and one second derivative, all
coefficients one. -/
example : (∃ r, tdPredict exθ (KExpr.matern52 none : KExpr 2).obj exX (.two exJ exJ' (Matrix.of fun _ _ => 1)) 5 true exX exJ
      none = .ok r ∧ TDPredicts (KExpr.matern52 none : KExpr 2).obj exθ.kernelParams exX
        (.two exJ exJ' (Matrix.of fun _ _ => 1)) 5 exX exJ none r) ∧
    ∃ r, tdPredict exθ (KExpr.matern52 none : KExpr 2).obj exX (.two exJ exJ' (Matrix.of fun _ _ => 1)) 5 false exX exJ
      (some ⟨1, exJ'⟩) = .ok r ∧ TDPredicts (KExpr.matern52 none : KExpr 2).obj exθ.kernelParams exX
        (.two exJ exJ' (Matrix.of fun _ _ => 1)) 5 exX exJ (some ⟨1, exJ'⟩) r := by
  obtain ⟨r, h1, h2, _⟩ := C97_two_one_iterative_partial (.matern52 none) exθ exX exJ exJ'
    (Matrix.of fun _ _ => 1) 5 exX exJ
  exact ⟨⟨r, h1, h2⟩, C97_two_partial (.matern52 none) exθ exX exJ exJ' _ 5 false exX exJ exJ'⟩

end GPX.Props
