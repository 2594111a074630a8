import Verif.Spec.RBFNet
import Verif.Props.GPR
import Verif.Props.KernelAlgebra

/-!
# C87: predictions of the network; C88: its training loss; C89: its kernel centering
-/

namespace GPX.Props
open GPX GPX.Spec

variable {d m n o q N : ℕ}

/-- Kernel entries are computed pair by pair. -/
theorem k_pair (e : KExpr d) (p : KPar) (z : Batch m d) (x : Batch n d) (i : Fin m) (j : Fin n) :
    e.obj.k p z x i j = e.obj.k p (fun _ : Fin 1 => z i) (fun _ : Fin 1 => x j) 0 0 :=
  ((C63_sampleWise e p).k z x (fun _ : Fin 1 => i) (fun _ : Fin 1 => j) 0 0).symm

theorem predictLinear_plain (θ : RBFParams d m o) (x : Batch n d) (κ : KernelObj d) (kMean : Option AnyVec) :
    rbfPredictLinear θ x κ false kMean =
      .ok (Matrix.of fun j a => ∑ i, κ.k θ.kernelParams θ.inducing x i j * θ.weights i a, kMean) := rfl

/-- **C87**, without centering: for every kernel expression, dataset, inducing points, weights and output layer the
network returns the output layer of the weighted kernel sums, whatever `k_mean` is, and leaves `k_mean` alone. -/
theorem C87_predict (e : KExpr d) (θ : RBFParams d m o) (x : Batch n d) (kMean : Option AnyVec)
    (layer : Mat n o → Mat n q) :
    rbfPredictLinear θ x e.obj false kMean =
      .ok (Matrix.of (network e.obj θ.kernelParams θ.inducing θ.weights x), kMean) ∧
    rbfPredictWith θ x e.obj layer false kMean =
      .ok (layer (Matrix.of (network e.obj θ.kernelParams θ.inducing θ.weights x)), kMean) := by
  have h : rbfPredictLinear θ x e.obj false kMean =
      .ok (Matrix.of (network e.obj θ.kernelParams θ.inducing θ.weights x), kMean) := by
    rw [predictLinear_plain]
    congr 2
    ext j a
    simp only [Matrix.of_apply, network]
    exact Finset.sum_congr rfl fun i _ => by rw [k_pair e]
  refine ⟨h, ?_⟩
  rw [rbfPredictWith, h]
  rfl

theorem centerWith_entry {gram : Arr2 m n} {gram' : Arr2 m N} (kMean : AnyVec) (g : Fin N → Fin n)
    (h : ∀ i j, gram' i j = gram i (g j)) :
    (∃ e, centerWith gram kMean = .error e ∧ centerWith gram' kMean = .error e) ∨
    ∃ c c', centerWith gram kMean = .ok c ∧ centerWith gram' kMean = .ok c' ∧ ∀ i j, c' i j = c i (g j) := by
  have hm : ∀ (v : Fin m → ℝ) i j, kernelCenter gram' v i j = kernelCenter gram v i (g j) := by
    intro v i j
    simp [kernelCenter, meanAxis0, h]
  unfold centerWith
  split
  · exact .inr ⟨_, _, rfl, rfl, fun i j => hm _ i j⟩
  · split
    · exact .inr ⟨_, _, rfl, rfl, fun i j => hm _ i j⟩
    · exact .inl ⟨_, rfl, rfl⟩

/-- **C87**, batches: with a stored `k_mean` (or without centering) the prediction for a sample does not depend on the
other samples of the call: selecting, repeating or reordering samples selects, repeats or reorders predictions. -/
theorem C87_sampleWise (e : KExpr d) (θ : RBFParams d m o) (x : Batch n d) (center : Bool)
    (kMean : AnyVec) (g : Fin N → Fin n) (pred : Mat n o) (kM : Option AnyVec)
    (h : rbfPredictLinear θ x e.obj center (some kMean) = .ok (pred, kM)) :
    rbfPredictLinear θ (fun s => x (g s)) e.obj center (some kMean) = .ok (Matrix.of fun j => pred (g j), kM) := by
  have hk : ∀ i j, e.obj.k θ.kernelParams θ.inducing (fun s => x (g s)) i j =
      e.obj.k θ.kernelParams θ.inducing x i (g j) := fun i j => by
    rw [k_pair e, ← k_pair e θ.kernelParams θ.inducing x i (g j)]
  cases center with
  | false =>
    rw [predictLinear_plain] at h ⊢
    cases h
    congr 2
    ext j a
    simp [hk]
  | true =>
    unfold rbfPredictLinear at h ⊢
    simp only [if_true] at h ⊢
    rcases centerWith_entry (gram := e.obj.k θ.kernelParams θ.inducing x) kMean g hk with
      ⟨er, h1, -⟩ | ⟨c, c', h1, h2, h3⟩
    · rw [h1] at h; cases h
    · rw [h1] at h
      rw [h2]
      cases h
      simp only [bind, Except.bind, pure, Except.pure, Except.ok.injEq, Prod.mk.injEq, and_true]
      ext j a
      simp [h3]

/-- **C87**, inducing points: their order does not matter. -/
theorem C87_reorder (e : KExpr d) (θ : RBFParams d m o) (x : Batch n d) (σ : Equiv.Perm (Fin m))
    (kMean : Option AnyVec) :
    rbfPredictLinear { θ with inducing := fun i => θ.inducing (σ i), weights := fun i => θ.weights (σ i) } x e.obj
      false kMean = rbfPredictLinear θ x e.obj false kMean := by
  rw [(C87_predict (q := o) e _ x kMean id).1, (C87_predict (q := o) e θ x kMean id).1]
  congr 2
  ext j a
  simp only [Matrix.of_apply, network]
  exact Equiv.sum_comp σ (fun i => e.obj.k θ.kernelParams (fun _ : Fin 1 => θ.inducing i) (fun _ => x j) 0 0 *
    θ.weights i a)

/-- **C87**, weights: predictions are linear in them. -/
theorem C87_linear (θ : RBFParams d m o) (κ : KernelObj d) (x : Batch n d) (kMean : Option AnyVec) (r s : ℝ)
    (w v : Mat m o) (p1 p2 : Mat n o) (kM : Option AnyVec) (center : Bool)
    (h1 : rbfPredictLinear { θ with weights := w } x κ center kMean = .ok (p1, kM))
    (h2 : rbfPredictLinear { θ with weights := v } x κ center kMean = .ok (p2, kM)) :
    rbfPredictLinear { θ with weights := r • w + s • v } x κ center kMean = .ok (r • p1 + s • p2, kM) := by
  have key : ∀ G : Arr2 m n, (Matrix.of fun j a => ∑ i, G i j * (r • w + s • v) i a : Mat n o) =
      r • (Matrix.of fun j a => ∑ i, G i j * w i a) + s • (Matrix.of fun j a => ∑ i, G i j * v i a) := by
    intro G
    ext j a
    simp only [Matrix.of_apply, Matrix.add_apply, Matrix.smul_apply, smul_eq_mul, Finset.mul_sum,
      ← Finset.sum_add_distrib]
    exact Finset.sum_congr rfl fun i _ => by ring
  cases center with
  | false =>
    rw [predictLinear_plain] at h1 h2 ⊢
    cases h1
    cases h2
    rw [key]
  | true =>
    have run : ∀ W : Mat m o, rbfPredictLinear { θ with weights := W } x κ true kMean =
        (centerWith (κ.k θ.kernelParams θ.inducing x)
          (kMean.getD ⟨n, meanAxis0 (κ.k θ.kernelParams θ.inducing x)⟩)).bind fun G =>
          .ok (Matrix.of fun j a => ∑ i, G i j * W i a,
            some (kMean.getD ⟨n, meanAxis0 (κ.k θ.kernelParams θ.inducing x)⟩)) := by
      intro W
      cases kMean <;> rfl
    rw [run] at h1 h2 ⊢
    rcases hc : centerWith (κ.k θ.kernelParams θ.inducing x)
      (kMean.getD ⟨n, meanAxis0 (κ.k θ.kernelParams θ.inducing x)⟩) with er | G
    · rw [hc] at h1; cases h1
    · rw [hc] at h1 h2
      cases h1
      cases h2
      simp only [Except.bind]
      rw [key]

/-- A network with two inducing points and one output, for the examples. -/
noncomputable def twoPoints : RBFParams 1 2 1 :=
  ⟨fun _ => 1, 1, fun i _ => if i = 0 then 2 else 3, fun i _ => (i.val : ℝ) + 1⟩

/-- A network with the linear kernel: at `x = 5` the prediction is `5 · (1 · 2 + 2 · 3) = 40`. -/
example (kMean : Option AnyVec) : ∃ pred, rbfPredictLinear twoPoints (fun (_ : Fin 1) _ => 5)
    (KExpr.obj (d := 1) (.linear none)) false kMean = .ok (pred, kMean) ∧ pred 0 0 = 40 := by
  refine ⟨_, (C87_predict (q := 1) (.linear none) twoPoints _ kMean id).1, ?_⟩
  have hk : ∀ z x : Fin 1 → ℝ, (KExpr.obj (d := 1) (.linear none)).k (fun _ => 1) (fun _ : Fin 1 => z)
      (fun _ : Fin 1 => x) 0 0 = z 0 * x 0 := by
    intro z x
    change ∑ a : Fin 1, z a * x a = _
    simp
  rw [Matrix.of_apply, network]
  simp only [twoPoints, hk, Fin.sum_univ_two]
  norm_num

/-- Samples can be taken one at a time, also with centering on the fresh `k_mean`. -/
example (pred : Mat 3 1) (kM : Option AnyVec) (x : Batch 3 1)
    (h : rbfPredictLinear twoPoints x (KExpr.obj (d := 1) (.matern52 none)) true (rbfInitKMean 2) = .ok (pred, kM)) :
    rbfPredictLinear twoPoints (fun _ : Fin 1 => x 2) (KExpr.obj (d := 1) (.matern52 none)) true (rbfInitKMean 2) =
      .ok (Matrix.of fun _ => pred 2, kM) :=
  C87_sampleWise (.matern52 none) twoPoints x true _ (fun _ => 2) pred kM h

/-! ### the loss -/

/-- The features of the network: one row per sample, one column per inducing point. -/
noncomputable def features (κ : KernelObj d) (p : KPar) (z : Batch m d) (x : Batch n d) : Mat n m :=
  Matrix.of fun j i => κ.k p (fun _ : Fin 1 => z i) (fun _ : Fin 1 => x j) 0 0

theorem trainLoss_eq (e : KExpr d) (θ : RBFParams d m o) (x : Batch n d) (y : Mat n o) :
    rbfTrainLoss θ x y e.obj id false none =
      .ok (ridge (features e.obj θ.kernelParams θ.inducing x) y θ.alpha θ.weights) := by
  rw [rbfTrainLoss]
  simp only
  rw [(C87_predict e θ x none id).2]
  simp only [bind, Except.bind, pure, Except.pure, ridge, network, features, id, Matrix.of_apply,
    Nat.cast_mul, sq]

/-- Expanding the objective around a point where the normal equations hold. -/
theorem ridge_expand (F : Mat n m) (y : Mat n o) (alpha : ℝ) (w v : Mat m o) (hn : 0 < n) (ho : 0 < o)
    (hw : (F.transpose * F + (alpha * o) • (1 : Mat m m)) * w = F.transpose * y) :
    ridge F y alpha v = ridge F y alpha w + (∑ j, ∑ a, (∑ i, F j i * (v i a - w i a)) ^ 2) / (n * o) +
      alpha * (∑ i, ∑ a, (v i a - w i a) ^ 2) / n := by
  have hn' : (n : ℝ) ≠ 0 := Nat.cast_ne_zero.mpr hn.ne'
  have ho' : (o : ℝ) ≠ 0 := Nat.cast_ne_zero.mpr ho.ne'
  -- the normal equations, entry by entry
  have hne : ∀ i a, ∑ j, F j i * ((∑ i', F j i' * w i' a) - y j a) + alpha * o * w i a = 0 := by
    intro i a
    have h := congrFun (congrFun hw i) a
    rw [Matrix.add_mul, Matrix.mul_assoc, Matrix.smul_mul, Matrix.one_mul, Matrix.add_apply, Matrix.smul_apply,
      smul_eq_mul, Matrix.mul_apply, Matrix.mul_apply] at h
    simp only [Matrix.transpose_apply, Matrix.mul_apply] at h
    simp only [mul_sub, Finset.sum_sub_distrib]
    linarith
  -- the cross terms vanish
  have hcross : ∑ j, ∑ a, ((∑ i, F j i * w i a) - y j a) * (∑ i, F j i * (v i a - w i a)) +
      alpha * o * ∑ i, ∑ a, w i a * (v i a - w i a) = 0 := by
    have e1 : ∑ j, ∑ a, ((∑ i, F j i * w i a) - y j a) * (∑ i, F j i * (v i a - w i a)) =
        ∑ i, ∑ a, (∑ j, F j i * ((∑ i', F j i' * w i' a) - y j a)) * (v i a - w i a) := by
      simp only [Finset.mul_sum, Finset.sum_mul]
      rw [Finset.sum_comm]
      rw [Finset.sum_comm (s := Finset.univ (α := Fin m))]
      refine Finset.sum_congr rfl fun a _ => ?_
      rw [Finset.sum_comm]
      exact Finset.sum_congr rfl fun i _ => Finset.sum_congr rfl fun j _ => by ring
    rw [e1, Finset.mul_sum, ← Finset.sum_add_distrib]
    refine Finset.sum_eq_zero fun i _ => ?_
    rw [Finset.mul_sum, ← Finset.sum_add_distrib]
    refine Finset.sum_eq_zero fun a _ => ?_
    have := hne i a
    linear_combination (v i a - w i a) * this
  have e2 : ∑ j, ∑ a, ((∑ i, F j i * v i a) - y j a) ^ 2 = ∑ j, ∑ a, ((∑ i, F j i * w i a) - y j a) ^ 2 +
      2 * (∑ j, ∑ a, ((∑ i, F j i * w i a) - y j a) * (∑ i, F j i * (v i a - w i a))) +
      ∑ j, ∑ a, (∑ i, F j i * (v i a - w i a)) ^ 2 := by
    simp only [Finset.mul_sum (s := Finset.univ (α := Fin n)), Finset.mul_sum (s := Finset.univ (α := Fin o)),
      ← Finset.sum_add_distrib]
    refine Finset.sum_congr rfl fun j _ => Finset.sum_congr rfl fun a _ => ?_
    have : ∑ i, F j i * (v i a - w i a) = ∑ i, F j i * v i a - ∑ i, F j i * w i a := by
      simp only [mul_sub, Finset.sum_sub_distrib]
    rw [this]
    ring
  have e3 : ∑ i, ∑ a, v i a ^ 2 = ∑ i, ∑ a, w i a ^ 2 + 2 * (∑ i, ∑ a, w i a * (v i a - w i a)) +
      ∑ i, ∑ a, (v i a - w i a) ^ 2 := by
    simp only [Finset.mul_sum, ← Finset.sum_add_distrib]
    exact Finset.sum_congr rfl fun i _ => Finset.sum_congr rfl fun a _ => by ring
  rw [ridge, ridge, e2, e3]
  generalize (∑ j, ∑ a, ((∑ i, F j i * w i a) - y j a) * (∑ i, F j i * (v i a - w i a))) = A at hcross ⊢
  generalize (∑ i, ∑ a, w i a * (v i a - w i a)) = B at hcross ⊢
  field_simp
  linear_combination 2 * hcross

/-- **C88**, value: without centering and with the identity output layer the training loss of the network is the
objective of ridge regression on the kernel features. -/
theorem C88_loss (e : KExpr d) (θ : RBFParams d m o) (x : Batch n d) (y : Mat n o) :
    rbfTrainLoss θ x y e.obj id false none =
      .ok (ridge (features e.obj θ.kernelParams θ.inducing x) y θ.alpha θ.weights) :=
  trainLoss_eq e θ x y

/-- **C88**, output layer: with any output layer the loss is the mean squared error of the prediction over all entries
plus the same penalty on the weights; it is nonnegative when `alpha` is. -/
theorem C88_layer (e : KExpr d) (θ : RBFParams d m o) (x : Batch n d) (layer : Mat n o → Mat n q)
    (y : Mat n q) : ∃ pred kM l, rbfPredictWith θ x e.obj layer false none = .ok (pred, kM) ∧
      rbfTrainLoss θ x y e.obj layer false none = .ok l ∧
      l = (∑ j, ∑ a, (pred j a - y j a) ^ 2) / (n * q) + θ.alpha * (∑ i, ∑ a, θ.weights i a ^ 2) / n ∧
      (0 ≤ θ.alpha → 0 ≤ l) := by
  refine ⟨_, _, _, (C87_predict e θ x none layer).2, ?_, rfl, ?_⟩
  · rw [rbfTrainLoss]
    simp only
    rw [(C87_predict e θ x none layer).2]
    simp only [bind, Except.bind, pure, Except.pure, Nat.cast_mul, sq]
  · intro ha
    have h1 : ∀ f : Fin n → Fin q → ℝ, 0 ≤ ∑ j, ∑ a, f j a ^ 2 := fun f =>
      Finset.sum_nonneg fun _ _ => Finset.sum_nonneg fun _ _ => sq_nonneg _
    have h2 : 0 ≤ ∑ i, ∑ a, θ.weights i a ^ 2 :=
      Finset.sum_nonneg fun _ _ => Finset.sum_nonneg fun _ _ => sq_nonneg _
    have := h1 fun j a => layer (Matrix.of (network e.obj θ.kernelParams θ.inducing θ.weights x)) j a - y j a
    positivity

/-- **C88**, minimiser: for a positive `alpha`, whatever the kernel, the data and the inducing points (repeated ones
included), exactly one choice of the weights minimises the training loss: the ridge solution
`(FᵀF + alpha·o·I) w = Fᵀ y`. -/
theorem C88_unique_minimiser (e : KExpr d) (θ : RBFParams d m o) (x : Batch n d) (y : Mat n o)
    (ha : 0 < θ.alpha) (hn : 0 < n) (ho : 0 < o) :
    ∃ w : Mat m o,
      ((features e.obj θ.kernelParams θ.inducing x).transpose * features e.obj θ.kernelParams θ.inducing x +
        (θ.alpha * o) • (1 : Mat m m)) * w = (features e.obj θ.kernelParams θ.inducing x).transpose * y ∧
      ∃ l, rbfTrainLoss { θ with weights := w } x y e.obj id false none = .ok l ∧
        ∀ v, v ≠ w → ∃ l', rbfTrainLoss { θ with weights := v } x y e.obj id false none = .ok l' ∧ l < l' := by
  set F := features e.obj θ.kernelParams θ.inducing x with hF
  have hn' : (0 : ℝ) < n := Nat.cast_pos.mpr hn
  have ho' : (0 : ℝ) < o := Nat.cast_pos.mpr ho
  have hpd : (F.transpose * F + (θ.alpha * o) • (1 : Mat m m)).PosDef :=
    posDef_add_smul_one (gram_posSemidef F) (mul_pos ha ho')
  have hw : (F.transpose * F + (θ.alpha * o) • (1 : Mat m m)) *
      ((F.transpose * F + (θ.alpha * o) • (1 : Mat m m))⁻¹ * (F.transpose * y)) = F.transpose * y := by
    rw [← Matrix.mul_assoc, Matrix.mul_nonsing_inv _ (posDef_isUnit hpd), Matrix.one_mul]
  refine ⟨_, hw, _, C88_loss e _ x y, fun v hv => ⟨_, C88_loss e _ x y, ?_⟩⟩
  simp only
  rw [← hF, ridge_expand F y θ.alpha _ v hn ho hw]
  generalize (F.transpose * F + (θ.alpha * o) • (1 : Mat m m))⁻¹ * (F.transpose * y) = w at hv ⊢
  have hpos : 0 < ∑ i, ∑ a, (v i a - w i a) ^ 2 := by
    obtain ⟨i, a, hia⟩ : ∃ i a, v i a ≠ w i a := by
      by_contra hcon
      push Not at hcon
      exact hv (by ext i a; exact hcon i a)
    refine Finset.sum_pos' (fun _ _ => Finset.sum_nonneg fun _ _ => sq_nonneg _) ⟨i, Finset.mem_univ _, ?_⟩
    refine Finset.sum_pos' (fun _ _ => sq_nonneg _) ⟨a, Finset.mem_univ _, ?_⟩
    have : v i a - w i a ≠ 0 := sub_ne_zero.mpr hia
    positivity
  have h2 : 0 ≤ ∑ j, ∑ a, (∑ i, F j i * (v i a - w i a)) ^ 2 :=
    Finset.sum_nonneg fun _ _ => Finset.sum_nonneg fun _ _ => sq_nonneg _
  have h3 : 0 < θ.alpha * (∑ i, ∑ a, (v i a - w i a) ^ 2) / n := by positivity
  have h4 : 0 ≤ (∑ j, ∑ a, (∑ i, F j i * (v i a - w i a)) ^ 2) / ((n : ℝ) * o) := by positivity
  linarith

/-- The hypotheses are met: the example network with `alpha = 1`, two samples, one output. -/
example : ∃ w : Mat 2 1, ∃ l, rbfTrainLoss { twoPoints with weights := w } (fun (j : Fin 2) _ => (j.val : ℝ))
    (fun j _ => (j.val : ℝ)) (KExpr.obj (d := 1) (.matern32 none)) id false none = .ok l ∧ ∀ v, v ≠ w →
      ∃ l', rbfTrainLoss { twoPoints with weights := v } (fun (j : Fin 2) _ => (j.val : ℝ)) (fun j _ => (j.val : ℝ))
        (KExpr.obj (d := 1) (.matern32 none)) id false none = .ok l' ∧ l < l' :=
  (C88_unique_minimiser (.matern32 none) twoPoints _ _ one_pos two_pos one_pos).imp
    fun _ h => h.2

/-! ### centering -/

/-- **C89**, the full property: a network with `center_kernel` can be evaluated, and its training
loss computed, from a fresh state and from a state without `k_mean`. -/
def C89_full : Prop :=
  ∀ (d m n o : ℕ) (e : KExpr d), ∀ (θ : RBFParams d m o) (x : Batch n d) (y : Mat n o),
    0 < m → 0 < n →
    (∀ kMean, kMean = none ∨ kMean = rbfInitKMean m → ∃ r, rbfPredictLinear θ x e.obj true kMean = .ok r) ∧
    ∀ kMean, kMean = none ∨ kMean = rbfInitKMean m → ∃ l, rbfTrainLoss θ x y e.obj id true kMean = .ok l

/-- **C89**, prediction without a stored `k_mean`: the mean is taken over the wrong axis, so that with `m ≥ 2` inducing
points prediction fails for every number of samples but `m` and one. -/
theorem C89_predict_fails (e : KExpr d) (θ : RBFParams d m o) (x : Batch n d) (_h2 : 2 ≤ m) (hm : n ≠ m)
    (h1 : n ≠ 1) : ∃ er, rbfPredictLinear θ x e.obj true none = .error er :=
  ⟨_, by simp [rbfPredictLinear, centerWith, hm, h1, bind, Except.bind]; rfl⟩

/-- The hypotheses are met: three inducing points, two samples. -/
example : ∃ er, rbfPredictLinear (n := 2) ⟨fun _ => 1, 1, (0 : Mat 3 1), fun i _ => (i.val : ℝ)⟩ (fun i _ => (i.val : ℝ))
    (KExpr.obj (d := 1) (.linear none)) true none = .error er :=
  C89_predict_fails _ _ _ (by norm_num) (by norm_num) (by norm_num)

/-- **C89**, training loss: it fails on every state that stores a `k_mean`, fresh ones included, whether or not
centering is asked for. -/
theorem C89_loss_fails (e : KExpr d) (θ : RBFParams d m o) (x : Batch n d) (layer : Mat n o → Mat n q) (y : Mat n q)
    (center : Bool) (kMean : AnyVec) :
    rbfTrainLoss θ x y e.obj layer center (some kMean) = .error .valueError ∧
    rbfTrainLoss θ x y e.obj layer center (rbfInitKMean m) = .error .valueError := ⟨rfl, rfl⟩

/-- **C89**, what holds: on a fresh state, centred predictions are computed for every number of samples, from the
kernel minus its mean over the inducing points; `k_mean` stays as it was; and adding the same number to all the
weights of an output changes nothing. Missing: the same from a state without `k_mean`, and training. -/
theorem C89_fresh_partial (e : KExpr d) (θ : RBFParams d m o) (x : Batch n d) (hm : 0 < m) :
    ∃ pred : Mat n o, rbfPredictLinear θ x e.obj true (rbfInitKMean m) = .ok (pred, rbfInitKMean m) ∧
      (∀ j a, pred j a = ∑ i, (features e.obj θ.kernelParams θ.inducing x j i -
        (∑ i', features e.obj θ.kernelParams θ.inducing x j i') / m) * θ.weights i a) ∧
      ∀ t : Fin o → ℝ, rbfPredictLinear { θ with weights := Matrix.of fun i a => θ.weights i a + t a } x e.obj true
        (rbfInitKMean m) = .ok (pred, rbfInitKMean m) := by
  have hm' : (m : ℝ) ≠ 0 := Nat.cast_ne_zero.mpr hm.ne'
  have run : ∀ W : Mat m o, rbfPredictLinear { θ with weights := W } x e.obj true (rbfInitKMean m) =
      .ok (Matrix.of fun j a => ∑ i, (features e.obj θ.kernelParams θ.inducing x j i -
        (∑ i', features e.obj θ.kernelParams θ.inducing x j i') / m) * W i a, rbfInitKMean m) := by
    intro W
    have hc : centerWith (e.obj.k θ.kernelParams θ.inducing x) ⟨m, fun _ => 0⟩ =
        .ok (kernelCenter (e.obj.k θ.kernelParams θ.inducing x) fun _ => 0) := by
      rw [centerWith, dif_pos rfl]
    change (centerWith (e.obj.k θ.kernelParams θ.inducing x) ⟨m, fun _ => 0⟩).bind (fun G => Except.ok
      ((Matrix.of fun j a => ∑ i, G i j * W i a : Mat n o), rbfInitKMean m)) = _
    rw [hc]
    simp only [Except.bind]
    congr 2
    ext j a
    simp only [Matrix.of_apply, kernelCenter, meanAxis0, vecMean, features, Finset.sum_const_zero, zero_div, sub_zero,
      add_zero]
    exact Finset.sum_congr rfl fun i _ => by simp only [← k_pair e]
  refine ⟨_, run θ.weights, fun j a => rfl, fun t => ?_⟩
  rw [run]
  congr 2
  ext j a
  simp only [Matrix.of_apply, mul_add, Finset.sum_add_distrib, ← Finset.sum_mul, Finset.sum_sub_distrib,
    Finset.sum_const, Finset.card_univ, Fintype.card_fin, nsmul_eq_mul]
  rw [mul_div_cancel₀ _ hm']
  ring

/-- **C89** does not hold. -/
theorem C89_false : ¬ C89_full := by
  intro h
  obtain ⟨l, hl⟩ := (h 1 1 1 1 (.linear none) ⟨fun _ => 1, 1, 0, fun _ _ => 0⟩ (fun _ _ => 0) 0
    one_pos one_pos).2 _ (.inr rfl)
  cases hl

end GPX.Props
