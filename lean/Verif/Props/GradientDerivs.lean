import Verif.Props.Gradient
import Verif.Props.ContinuityDerivs
import Verif.Props.GPRTD

/-!
# C146: the training objectives of models of derivatives have gradients
-/

namespace GPX.Props
open GPX GPX.Spec

variable {E : Type} [NormedAddCommGroup E] [NormedSpace ℝ E] {d n m o v w : ℕ} {la : LinAlg}

/-! ## Closed forms -/

/-- Every component varies differentiably. -/
def DiffVec {k : ℕ} (x : E → Fin k → ℝ) : Prop := ∀ a, Differentiable ℝ fun t => x t a

/-- All the functions of a closed form vary differentiably. -/
structure CoreDiff (c : E → Core) : Prop where
  K : ∀ {k : ℕ} {x y : E → Fin k → ℝ}, DiffVec x → DiffVec y → Differentiable ℝ fun t => (c t).K (x t) (y t)
  G0 : ∀ {k : ℕ} {x y : E → Fin k → ℝ}, DiffVec x → DiffVec y → ∀ a, Differentiable ℝ fun t => (c t).G0 (x t) (y t) a
  G1 : ∀ {k : ℕ} {x y : E → Fin k → ℝ}, DiffVec x → DiffVec y → ∀ a, Differentiable ℝ fun t => (c t).G1 (x t) (y t) a
  H : ∀ {k : ℕ} {x y : E → Fin k → ℝ}, DiffVec x → DiffVec y → ∀ a b,
    Differentiable ℝ fun t => (c t).H (x t) (y t) a b

theorem diff_take (ad : Dims d) {x : E → Batch n d} (h : DiffEntries x) (i : Fin n) :
    DiffVec fun t => ad.take (x t i) := fun a => h i (ad.idx a)

theorem diff_congr {f g : E → ℝ} (h : ∀ t, f t = g t) (hg : Differentiable ℝ g) : Differentiable ℝ f := by
  rwa [funext h]

theorem _root_.GPX.Spec.DiffKernel.ofClosed {κ : KernelObj d} {p : E → KPar} {ad : Dims d} {c : E → Core}
    (h : ∀ t, ClosedJ κ (p t) ad (c t)) (hc : CoreDiff c) : DiffKernel κ p where
  k h1 h2 i j := by
    refine diff_congr (fun t => (h t).k _ _ _ _) ?_
    exact hc.K (diff_take ad h1 i) (diff_take ad h2 j)
  d0kj h1 h2 hJ r j := by
    obtain ⟨i, u, rfl⟩ := flat_surj r
    refine diff_congr (fun t => (h t).d0kj _ _ _ _ _ _) ?_
    exact diff_sum fun a => (hJ _ _ _).fun_mul (hc.G0 (diff_take ad h1 i) (diff_take ad h2 j) a)
  d1kj h1 h2 hJ i r := by
    obtain ⟨j, u, rfl⟩ := flat_surj r
    refine diff_congr (fun t => (h t).d1kj _ _ _ _ _ _) ?_
    exact diff_sum fun a => (hc.G1 (diff_take ad h1 i) (diff_take ad h2 j) a).fun_mul (hJ _ _ _)
  d01kj h1 h2 hJ1 hJ2 r s := by
    obtain ⟨i, u, rfl⟩ := flat_surj r
    obtain ⟨j, w, rfl⟩ := flat_surj s
    refine diff_congr (fun t => (h t).d01kj _ _ _ _ _ _ _ _) ?_
    exact diff_sum fun a => diff_sum fun b =>
      ((hJ1 _ _ _).fun_mul (hc.H (diff_take ad h1 i) (diff_take ad h2 j) a b)).fun_mul (hJ2 _ _ _)

theorem _root_.GPX.Spec.DiffKernel.sum {κ1 κ2 : KernelObj d} {p : E → KPar}
    (h1 : DiffKernel κ1 fun t => (p t).sub "kernel1") (h2 : DiffKernel κ2 fun t => (p t).sub "kernel2") :
    DiffKernel (.sum κ1 κ2) p where
  k a b i j := (h1.k a b i j).fun_add (h2.k a b i j)
  d0kj a b c i j := (h1.d0kj a b c i j).fun_add (h2.d0kj a b c i j)
  d1kj a b c i j := (h1.d1kj a b c i j).fun_add (h2.d1kj a b c i j)
  d01kj a b c e i j := (h1.d01kj a b c e i j).fun_add (h2.d01kj a b c e i j)

theorem _root_.GPX.Spec.DiffKernel.prod {κ1 κ2 : KernelObj d} {p : E → KPar}
    (h1 : DiffKernel κ1 fun t => (p t).sub "kernel1") (h2 : DiffKernel κ2 fun t => (p t).sub "kernel2") :
    DiffKernel (.prod κ1 κ2) p where
  k a b i j := (h1.k a b i j).fun_mul (h2.k a b i j)
  d0kj a b c r j := by
    obtain ⟨i, u, rfl⟩ := flat_surj r
    simp only [KernelObj.prod, prodDeriv0Jac, Arr2.add, Arr2.mul, repeatRows_flat]
    exact ((h1.k a b i j).fun_mul (h2.d0kj a b c _ j)).fun_add ((h1.d0kj a b c _ j).fun_mul (h2.k a b i j))
  d1kj a b c i r := by
    obtain ⟨j, u, rfl⟩ := flat_surj r
    simp only [KernelObj.prod, prodDeriv1Jac, Arr2.add, Arr2.mul, repeatCols_flat]
    exact ((h1.k a b i j).fun_mul (h2.d1kj a b c i _)).fun_add ((h1.d1kj a b c i _).fun_mul (h2.k a b i j))
  d01kj a b c e r s := by
    obtain ⟨i, u, rfl⟩ := flat_surj r
    obtain ⟨j, w, rfl⟩ := flat_surj s
    simp only [KernelObj.prod, prodDeriv01Jac, Arr2.add, Arr2.mul, repeatRows_flat, repeatCols_flat]
    exact ((((h1.k a b i j).fun_mul (h2.d01kj a b c e _ _)).fun_add
      ((h1.d0kj a b c _ j).fun_mul (h2.d1kj a b e i _))).fun_add
      ((h1.d1kj a b e i _).fun_mul (h2.d0kj a b c _ j))).fun_add ((h1.d01kj a b c e _ _).fun_mul (h2.k a b i j))

/-! ## Leaves -/

theorem diff_scaled {l : E → ℝ} (hl : Differentiable ℝ l) (hp : ∀ t, 0 < l t) {k : ℕ} {x y : E → Fin k → ℝ}
    (hx : DiffVec x) (hy : DiffVec y) (a : Fin k) : Differentiable ℝ fun t => x t a / l t - y t a / l t :=
  (diff_div (hx a) hl fun t => (hp t).ne').fun_sub (diff_div (hy a) hl fun t => (hp t).ne')

theorem diff_sqd {l : E → ℝ} (hl : Differentiable ℝ l) (hp : ∀ t, 0 < l t) {k : ℕ} {x y : E → Fin k → ℝ}
    (hx : DiffVec x) (hy : DiffVec y) : Differentiable ℝ fun t => sqd (l t) (x t) (y t) :=
  diff_sum fun a => (diff_scaled hl hp hx hy a).fun_pow 2

theorem diff_ite (q : Prop) [Decidable q] {f g : E → ℝ} (hf : Differentiable ℝ f) (hg : Differentiable ℝ g) :
    Differentiable ℝ fun t => if q then f t else g t := by
  split_ifs
  · exact hf
  · exact hg

theorem coreDiff_constant {c : E → ℝ} (hc : Differentiable ℝ c) : CoreDiff fun t => Core.constant (c t) where
  K _ _ := hc
  G0 _ _ _ := differentiable_const _
  G1 _ _ _ := differentiable_const _
  H _ _ _ _ := differentiable_const _

theorem diff_dot {k : ℕ} {x y : E → Fin k → ℝ} (hx : DiffVec x) (hy : DiffVec y) :
    Differentiable ℝ fun t => ∑ a, x t a * y t a := diff_sum fun a => (hx a).fun_mul (hy a)

theorem coreDiff_linear : CoreDiff fun _ : E => Core.linear where
  K hx hy := diff_dot hx hy
  G0 _ hy a := hy a
  G1 hx _ a := hx a
  H _ _ _ _ := differentiable_const _

theorem coreDiff_polynomial {g f : E → ℝ} (hg : Differentiable ℝ g) (hf : Differentiable ℝ f)
    (hn : ∀ t, ∃ q : ℕ, 2 ≤ q ∧ g t = q) (ni : Bool) : CoreDiff fun t => Core.polynomial (g t) (f t) ni := by
  have n0 : ∀ t, ∃ q : ℕ, g t = q := fun t => (hn t).imp fun q h => h.2
  have n1 : ∀ t, ∃ q : ℕ, g t - 1 = q := fun t => by
    obtain ⟨q, h2, h⟩ := hn t
    exact ⟨q - 1, by rw [h]; push_cast [show 1 ≤ q by omega]; ring⟩
  have n2 : ∀ t, ∃ q : ℕ, g t - 2 = q := fun t => by
    obtain ⟨q, h2, h⟩ := hn t
    exact ⟨q - 2, by rw [h]; push_cast [h2]; ring⟩
  have hb : ∀ {k : ℕ} {x y : E → Fin k → ℝ}, DiffVec x → DiffVec y →
      Differentiable ℝ fun t => f t + ∑ a, x t a * y t a := fun hx hy => hf.fun_add (diff_dot hx hy)
  have b1 : ∀ {k : ℕ} {x y : E → Fin k → ℝ}, DiffVec x → DiffVec y →
      Differentiable ℝ fun t => g t * (f t + ∑ a, x t a * y t a) ^ (g t - 1) := fun hx hy =>
    hg.fun_mul (diff_natPow (hb hx hy) (hg.sub_const 1) n1)
  constructor
  · intro k x y hx hy
    simp only [Core.polynomial]
    cases ni
    · simpa using diff_natPow (hb hx hy) hg n0
    · exact (diff_natPow (hb hx hy) hg n0).fun_sub (diff_natPow hf hg n0)
  · intro k x y hx hy a
    exact (b1 hx hy).fun_mul (hy a)
  · intro k x y hx hy a
    exact (b1 hx hy).fun_mul (hx a)
  · intro k x y hx hy a b
    exact ((b1 hx hy).mul_const _).fun_add (((hx b).fun_mul
      ((hg.fun_mul (hg.sub_const 1)).fun_mul (diff_natPow (hb hx hy) (hg.sub_const 2) n2))).fun_mul (hy a))

theorem coreDiff_se {l : E → ℝ} (hl : Differentiable ℝ l) (hp : ∀ t, 0 < l t) :
    CoreDiff fun t => Core.se (l t) := by
  have hs : ∀ {k : ℕ} {x y : E → Fin k → ℝ}, DiffVec x → DiffVec y →
      Differentiable ℝ fun t => sqd (l t) (x t) (y t) := fun hx hy => diff_sqd hl hp hx hy
  have hd : ∀ {k : ℕ} {x y : E → Fin k → ℝ}, DiffVec x → DiffVec y → ∀ a,
      Differentiable ℝ fun t => 2 / l t * (x t a / l t - y t a / l t) := fun hx hy a =>
    (diff_div (differentiable_const 2) hl fun t => (hp t).ne').fun_mul (diff_scaled hl hp hx hy a)
  constructor
  · intro k x y hx hy
    exact ((hs hx hy).add_const _).fun_neg.exp
  · intro k x y hx hy a
    exact (hd hx hy a).fun_neg.fun_mul (hs hx hy).fun_neg.exp
  · intro k x y hx hy a
    exact (hd hx hy a).fun_mul (hs hx hy).fun_neg.exp
  · intro k x y hx hy a b
    have hE : Differentiable ℝ fun t => Real.exp (-(sqd (l t) (x t) (y t) + sqDistJitter)) :=
      ((hs hx hy).add_const _).fun_neg.exp
    exact ((hE.fun_neg.fun_mul (hd hx hy a)).fun_mul (hd hx hy b)).fun_add (diff_ite _ (hE.fun_mul
      (diff_div (differentiable_const 2) (hl.fun_pow 2) fun t => pow_ne_zero 2 (hp t).ne')) (differentiable_const _))

theorem diff_m52Dist {s : E → ℝ} (hs : Differentiable ℝ s) (h0 : ∀ t, 0 ≤ s t) :
    Differentiable ℝ fun t => m52Dist (s t) := by
  have hm : ∀ t, m52Dist (s t) = Real.sqrt 5 * Real.sqrt (s t + sqDistJitter) := fun t => by
    unfold m52Dist
    rw [max_eq_left]
    have := h0 t
    unfold maternFloor sqDistJitter
    linarith
  simp only [hm]
  refine ((hs.add_const _).sqrt fun t => ?_).const_mul _
  have := h0 t
  have hj : 0 < sqDistJitter := by unfold sqDistJitter; positivity
  linarith

theorem coreDiff_m52 {l : E → ℝ} (hl : Differentiable ℝ l) (hp : ∀ t, 0 < l t) :
    CoreDiff fun t => Core.m52 (l t) := by
  have hs : ∀ {k : ℕ} {x y : E → Fin k → ℝ}, DiffVec x → DiffVec y →
      Differentiable ℝ fun t => m52Dist (sqd (l t) (x t) (y t)) := fun hx hy =>
    diff_m52Dist (diff_sqd hl hp hx hy) fun t => Finset.sum_nonneg fun a _ => sq_nonneg _
  have hE : ∀ {k : ℕ} {x y : E → Fin k → ℝ}, DiffVec x → DiffVec y →
      Differentiable ℝ fun t => Real.exp (-m52Dist (sqd (l t) (x t) (y t))) := fun hx hy => (hs hx hy).fun_neg.exp
  have hd : ∀ {k : ℕ} {x y : E → Fin k → ℝ}, DiffVec x → DiffVec y → ∀ a,
      Differentiable ℝ fun t => Real.sqrt 5 * (x t a / l t - y t a / l t) := fun hx hy a =>
    (diff_scaled hl hp hx hy a).const_mul _
  have h3 : Differentiable ℝ fun t => Real.sqrt 5 / (3 * l t) :=
    diff_div (differentiable_const _) (hl.const_mul 3) fun t => mul_ne_zero three_ne_zero (hp t).ne'
  have h5 : Differentiable ℝ fun t => 5 / (3 * l t ^ 2) :=
    diff_div (differentiable_const _) ((hl.fun_pow 2).const_mul 3) fun t =>
      mul_ne_zero three_ne_zero (pow_ne_zero 2 (hp t).ne')
  constructor
  · intro k x y hx hy
    exact (((hs hx hy).const_add 1).fun_add (diff_div ((hs hx hy).fun_pow 2) (differentiable_const (3 : ℝ))
      fun _ => by norm_num)).fun_mul (hE hx hy)
  · intro k x y hx hy a
    exact ((h3.fun_neg.fun_mul ((hs hx hy).const_add 1)).fun_mul (hE hx hy)).fun_mul (hd hx hy a)
  · intro k x y hx hy a
    exact ((h3.fun_mul ((hs hx hy).const_add 1)).fun_mul (hE hx hy)).fun_mul (hd hx hy a)
  · intro k x y hx hy a b
    exact (((h5.fun_mul (hE hx hy)).fun_neg.fun_mul (hd hx hy a)).fun_mul (hd hx hy b)).fun_add
      (diff_ite _ ((h5.fun_mul (hE hx hy)).fun_mul ((hs hx hy).const_add 1)) (differentiable_const _))

theorem coreDiff_ess {l r : E → ℝ} (hl : Differentiable ℝ l) (hp : ∀ t, 0 < l t) (hr : Differentiable ℝ r)
    (hq : ∀ t, 0 < r t) : CoreDiff fun t => Core.ess (l t) (r t) := by
  have hd : ∀ {k : ℕ} {x y : E → Fin k → ℝ}, DiffVec x → DiffVec y → ∀ a,
      Differentiable ℝ fun t => Real.pi * (x t a - y t a) / r t := fun hx hy a =>
    diff_div (((hx a).fun_sub (hy a)).const_mul _) hr fun t => (hq t).ne'
  have hpr : Differentiable ℝ fun t => Real.pi / r t := diff_div (differentiable_const _) hr fun t => (hq t).ne'
  have hE : ∀ {k : ℕ} {x y : E → Fin k → ℝ}, DiffVec x → DiffVec y →
      Differentiable ℝ fun t => Real.exp (-4 * essS (l t) (r t) (x t) (y t)) := fun hx hy =>
    ((diff_sum fun a => diff_div ((hd hx hy a).sin.fun_pow 2) hl fun t => (hp t).ne').const_mul _).exp
  have hQ : ∀ {k : ℕ} {x y : E → Fin k → ℝ}, DiffVec x → DiffVec y → ∀ a,
      Differentiable ℝ fun t => essQ (l t) (r t) (x t a - y t a) := fun hx hy a =>
    diff_div (((((hd hx hy a).sin).const_mul _).fun_mul (hd hx hy a).cos).fun_mul hpr) hl fun t => (hp t).ne'
  have hR : ∀ {k : ℕ} {x y : E → Fin k → ℝ}, DiffVec x → DiffVec y → ∀ a,
      Differentiable ℝ fun t => essR (l t) (r t) (x t a - y t a) := fun hx hy a =>
    diff_div (((((hd hx hy a).cos.fun_pow 2).fun_sub ((hd hx hy a).sin.fun_pow 2)).const_mul _).fun_mul
      (hpr.fun_pow 2)) hl fun t => (hp t).ne'
  constructor
  · intro k x y hx hy
    exact hE hx hy
  · intro k x y hx hy a
    exact ((hQ hx hy a).const_mul _).fun_mul (hE hx hy)
  · intro k x y hx hy a
    exact ((hQ hx hy a).const_mul _).fun_mul (hE hx hy)
  · intro k x y hx hy a b
    exact ((diff_ite _ ((hR hx hy a).const_mul _) (differentiable_const _)).fun_sub
      (((hQ hx hy a).const_mul _).fun_mul (hQ hx hy b))).fun_mul (hE hx hy)

/-- **C146**, kernels: the kernel matrix and the derivative kernels of a smooth expression are differentiable functions
of the hyperparameters, both datasets and both jacobians. -/
theorem C146_kernel (e : KExpr d) (hn : NoMatern32 e) (p : E → KPar)
    (hp : ∀ path, Differentiable ℝ fun t => p t path) (ha : ∀ t, Smooth e (p t)) : DiffKernel e.obj p := by
  induction e generalizing p with
  | constant a => exact .ofClosed (fun t => closedJ_constant a (p t)) (coreDiff_constant (hp ["variance"]))
  | linear a => exact .ofClosed (fun t => closedJ_linear a (p t)) coreDiff_linear
  | polynomial a ni =>
    exact .ofClosed (fun t => closedJ_polynomial a ni (p t))
      (coreDiff_polynomial (hp ["degree"]) (hp ["offset"]) (fun t => (ha t).1) ni)
  | squaredExponential a =>
    exact .ofClosed (fun t => closedJ_se a (p t)) (coreDiff_se (hp ["lengthscale"]) ha)
  | matern12 a =>
    exact .ofClosed (c := fun _ => Core.linear) (ad := Dims.resolve a) (fun t => (ha t).elim) coreDiff_linear
  | matern32 a => exact hn.elim
  | matern52 a => exact .ofClosed (fun t => closedJ_m52 a (p t)) (coreDiff_m52 (hp ["lengthscale"]) ha)
  | expSinSquared a =>
    exact .ofClosed (fun t => closedJ_ess a (p t)) (coreDiff_ess (hp ["lengthscale"]) (fun t => (ha t).1)
      (hp ["periodicity"]) fun t => (ha t).2)
  | sum e1 e2 ih1 ih2 =>
    exact (ih1 hn.1 (fun t => (p t).sub "kernel1") (fun path => hp _) fun t => (ha t).1).sum
      (ih2 hn.2 (fun t => (p t).sub "kernel2") (fun path => hp _) fun t => (ha t).2)
  | prod e1 e2 ih1 ih2 =>
    exact (ih1 hn.1 (fun t => (p t).sub "kernel1") (fun path => hp _) fun t => (ha t).1).prod
      (ih2 hn.2 (fun t => (p t).sub "kernel2") (fun path => hp _) fun t => (ha t).2)

/-! ## Models -/

theorem diff_flatCol {y : E → Mat n v} (h : DiffMat y) : DiffMat fun t => flatCol (y t) := fun r _ =>
  h r.divNat r.modNat

theorem diff_derivsLhs (e : KExpr d) (hn : NoMatern32 e) {θ : E → GPParams} (hθ : DiffParams θ)
    (hd : ∀ t, Smooth e (θ t).kernelParams) {x : E → Batch n d} (hx : DiffEntries x) {J : E → Jac n d v}
    (hJ : DiffJac J) : DiffMat fun t => aDerivsLhsNoise (θ t) e.obj (x t) (J t) (x t) (J t) := fun r s => by
  have hk := C146_kernel e hn _ hθ.kernel hd
  exact (hk.d01kj hx hx hJ hJ r s).fun_add (((hθ.sigma.fun_pow 2).add_const _).mul_const _)

/-- **C146**, GPR trained on derivatives: coefficients, predicted derivatives and their covariance, predicted values
and log marginal likelihood are differentiable functions of the hyperparameters, the noise, the training inputs and
jacobians, the targets, the prediction points and their jacobians.
Every twice differentiable kernel but `Matern32`, whenever the training covariances, noise included, are positive
definite. -/
theorem C146_gpr_posDef (ex : la.Exact) (e : KExpr d) (hn : NoMatern32 e) {θ : E → GPParams} (hθ : DiffParams θ)
    (hd : ∀ t, Smooth e (θ t).kernelParams) {mf : MeanFun} (hm : DiffMean E mf) {xt : E → Batch m d}
    (hxt : DiffEntries xt) {Jt : E → Jac m d w} (hJt : DiffJac Jt)
    (hp : ∀ t, (aDerivsLhsNoise (θ t) e.obj (xt t) (Jt t) (xt t) (Jt t)).PosDef) {y : E → Mat m w} (hy : DiffMat y)
    {x : E → Batch n d} (hx : DiffEntries x) {J : E → Jac n d v} (hJ : DiffJac J) :
    (DiffMat fun t => (fitDerivsDense la (θ t) e.obj mf (xt t) (Jt t) (y t)).1) ∧
    (DiffMat fun t => predictDerivsDense (θ t) e.obj (xt t) (Jt t) (x t) (J t)
      (fitDerivsDense la (θ t) e.obj mf (xt t) (Jt t) (y t)).1
      (fitDerivsDense la (θ t) e.obj mf (xt t) (Jt t) (y t)).2) ∧
    (DiffMat fun t => predictDerivsDenseCov la (θ t) e.obj (xt t) (Jt t) (x t) (J t)) ∧
    (DiffMat fun t => predictYDerivsDense (θ t) e.obj (xt t) (Jt t) (x t)
      (fitDerivsDense la (θ t) e.obj mf (xt t) (Jt t) (y t)).1
      (fitDerivsDense la (θ t) e.obj mf (xt t) (Jt t) (y t)).2) ∧
    Differentiable ℝ fun t => lmlDerivsDense la (θ t) e.obj mf (xt t) (Jt t) (y t) := by
  have hk := C146_kernel e hn _ hθ.kernel hd
  have hg : ∀ {a b p q : ℕ} {x1 : E → Batch a d} {x2 : E → Batch b d} {J1 : E → Jac a d p} {J2 : E → Jac b d q},
      DiffEntries x1 → DiffEntries x2 → DiffJac J1 → DiffJac J2 →
      DiffMat fun t => aDerivsLhs (θ t) e.obj (x1 t) (J1 t) (x2 t) (J2 t) := fun h1 h2 h3 h4 r s =>
    hk.d01kj h1 h2 h3 h4 r s
  have hC := diff_derivsLhs e hn hθ hd hxt hJt
  have hyf := diff_flatCol hy
  have hmu := hm _ _ _ hyf
  have hyc := diff_center hm hyf
  have hc := diff_solve ex hC hp hyc
  have hK := hg hxt hx hJt hJ
  have hK0 : DiffMat fun t => (Matrix.of (e.obj.d0kj (θ t).kernelParams (xt t) (x t) (Jt t)) : Mat (m * w) n) :=
    fun r j => hk.d0kj hxt hx hJt r j
  refine ⟨hc, fun i u => hmu.fun_add (diff_mul (A := fun t => (aDerivsLhs (θ t) e.obj (xt t) (Jt t) (x t)
    (J t)).transpose) (fun i j => hK j i) hc _ 0), fun r s => (hg hx hx hJ hJ r s).fun_sub
    (diff_schur ex hC hp hK r s), fun i c => hmu.fun_add (diff_mul (A := fun t => (Matrix.of (e.obj.d0kj
    (θ t).kernelParams (xt t) (x t) (Jt t)) : Mat (m * w) n).transpose) (fun i j => hK0 j i) hc i c),
    diff_lmlTail ex hC hp hyc⟩

/-- **C146**, GPR trained on derivatives: coefficients, predicted derivatives and their covariance, predicted values
and log marginal likelihood are differentiable functions of the hyperparameters, the noise, the training inputs and
jacobians, the targets, the prediction points and their jacobians. -/
theorem C146_gpr (ex : la.Exact) (e : KExpr d) {θ : E → GPParams} (hθ : DiffParams θ)
    (hd : ∀ t, DerivSmooth e (θ t).kernelParams) {mf : MeanFun} (hm : DiffMean E mf) {xt : E → Batch m d}
    (hxt : DiffEntries xt) {Jt : E → Jac m d w} (hJt : DiffJac Jt) {y : E → Mat m w} (hy : DiffMat y)
    {x : E → Batch n d} (hx : DiffEntries x) {J : E → Jac n d v} (hJ : DiffJac J) :
    (DiffMat fun t => (fitDerivsDense la (θ t) e.obj mf (xt t) (Jt t) (y t)).1) ∧
    (DiffMat fun t => predictDerivsDense (θ t) e.obj (xt t) (Jt t) (x t) (J t)
      (fitDerivsDense la (θ t) e.obj mf (xt t) (Jt t) (y t)).1
      (fitDerivsDense la (θ t) e.obj mf (xt t) (Jt t) (y t)).2) ∧
    (DiffMat fun t => predictDerivsDenseCov la (θ t) e.obj (xt t) (Jt t) (x t) (J t)) ∧
    (DiffMat fun t => predictYDerivsDense (θ t) e.obj (xt t) (Jt t) (x t)
      (fitDerivsDense la (θ t) e.obj mf (xt t) (Jt t) (y t)).1
      (fitDerivsDense la (θ t) e.obj mf (xt t) (Jt t) (y t)).2) ∧
    Differentiable ℝ fun t => lmlDerivsDense la (θ t) e.obj mf (xt t) (Jt t) (y t) :=
  C146_gpr_posDef ex e (derivSmooth_smooth (hd 0)).2 hθ (fun t => (derivSmooth_smooth (hd t)).1) hm hxt hJt
    (fun t => posDef_add_smul_one (C65_gram_partial e (θ t).kernelParams (hd t) (xt t) (Jt t)) (noise_pos (θ t)))
    hy hx hJ

/-- **C146**, the gradient of the log marginal likelihood of GPR trained on derivatives, along any differentiable curve
of hyperparameters and noise; `K'` holds the derivatives of the entries of the derivative Gram matrix.
Every twice differentiable kernel but `Matern32`, whenever the training covariances, noise included, are positive
definite. -/
theorem C146_gradient_posDef (ex : la.Exact) (e : KExpr d) (hn : NoMatern32 e) {θ : ℝ → GPParams} (hθ : DiffParams θ)
    (hd : ∀ t, Smooth e (θ t).kernelParams) (mf : MeanFun) (x : Batch n d) (J : Jac n d v)
    (hp : ∀ t, (aDerivsLhsNoise (θ t) e.obj x J x J).PosDef) (y : Mat n v) (t : ℝ)
    (K' : Mat (n * v) (n * v))
    (hK : EntryDerivs (fun s => Matrix.of (e.obj.d01kj (θ s).kernelParams x x J J)) K' t) (s' : ℝ)
    (hs : HasDerivAt (fun s => (θ s).sigma) s' t) :
    HasDerivAt (fun s => lmlDerivsDense la (θ s) e.obj mf x J y)
      ((∑ i, ∑ j, (fitDerivsDense la (θ t) e.obj mf x J y).1 i 0 *
          (K' + (2 * (θ t).sigma * s') • (1 : Mat (n * v) (n * v))) i j *
          (fitDerivsDense la (θ t) e.obj mf x J y).1 j 0 -
        ((Matrix.of (e.obj.d01kj (θ t).kernelParams x x J J) + ((θ t).sigma ^ 2 + 1 / 10 ^ 10) •
          (1 : Mat (n * v) (n * v)))⁻¹ * (K' + (2 * (θ t).sigma * s') • (1 : Mat (n * v) (n * v)))).trace) /
        (2 * (n * v : ℕ))) t := by
  have hC : DiffMat fun t => aDerivsLhsNoise (θ t) e.obj x J x J := diff_derivsLhs e hn hθ hd
    (x := fun _ => x) (J := fun _ => J) (fun i j => differentiable_const _) (fun i f u => differentiable_const _)
  have hC' : EntryDerivs (fun s => aDerivsLhsNoise (θ s) e.obj x J x J)
      (K' + (2 * (θ t).sigma * s') • (1 : Mat (n * v) (n * v))) t := by
    intro i j
    have h1 := (hs.fun_pow 2).add_const noiseJitter
    have h2 := (hK i j).fun_add (h1.mul_const ((1 : Mat (n * v) (n * v)) i j))
    refine h2.congr_deriv ?_
    simp only [Matrix.add_apply, Matrix.smul_apply, smul_eq_mul]
    push_cast
    ring
  have h := deriv_lmlTail ex hC' hC hp (centerBy (flatCol y) (mf (flatCol y)))
  have hc : (fitDerivsDense la (θ t) e.obj mf x J y).1 =
      (aDerivsLhsNoise (θ t) e.obj x J x J)⁻¹ * centerBy (flatCol y) (mf (flatCol y)) :=
    ex.solve_eq (posDef_isUnit (hp t)) _
  rw [Fin.sum_univ_one] at h
  rw [hc]
  exact h

/-- **C146**, the gradient of the log marginal likelihood of GPR trained on derivatives, along any differentiable curve
of hyperparameters and noise; `K'` holds the derivatives of the entries of the derivative Gram matrix. -/
theorem C146_gradient (ex : la.Exact) (e : KExpr d) {θ : ℝ → GPParams} (hθ : DiffParams θ)
    (hd : ∀ t, DerivSmooth e (θ t).kernelParams) (mf : MeanFun) (x : Batch n d) (J : Jac n d v) (y : Mat n v) (t : ℝ)
    (K' : Mat (n * v) (n * v))
    (hK : EntryDerivs (fun s => Matrix.of (e.obj.d01kj (θ s).kernelParams x x J J)) K' t) (s' : ℝ)
    (hs : HasDerivAt (fun s => (θ s).sigma) s' t) :
    HasDerivAt (fun s => lmlDerivsDense la (θ s) e.obj mf x J y)
      ((∑ i, ∑ j, (fitDerivsDense la (θ t) e.obj mf x J y).1 i 0 *
          (K' + (2 * (θ t).sigma * s') • (1 : Mat (n * v) (n * v))) i j *
          (fitDerivsDense la (θ t) e.obj mf x J y).1 j 0 -
        ((Matrix.of (e.obj.d01kj (θ t).kernelParams x x J J) + ((θ t).sigma ^ 2 + 1 / 10 ^ 10) •
          (1 : Mat (n * v) (n * v)))⁻¹ * (K' + (2 * (θ t).sigma * s') • (1 : Mat (n * v) (n * v)))).trace) /
        (2 * (n * v : ℕ))) t :=
  C146_gradient_posDef ex e (derivSmooth_smooth (hd 0)).2 hθ (fun t => (derivSmooth_smooth (hd t)).1) mf x J
    (fun t => posDef_add_smul_one (C65_gram_partial e (θ t).kernelParams (hd t) x J) (noise_pos (θ t))) y t K' hK s' hs

/-! ## Joint models -/

theorem diff_hcat {r a b : ℕ} {A : E → Mat r a} {B : E → Mat r b} (hA : DiffMat A) (hB : DiffMat B) :
    DiffMat fun t => hcat (A t) (B t) := fun i j => by
  refine Fin.addCases (fun q => ?_) (fun q => ?_) j
  · simpa [hcat] using hA i q
  · simpa [hcat] using hB i q

theorem diff_vcat {r a b : ℕ} {A : E → Mat a r} {B : E → Mat b r} (hA : DiffMat A) (hB : DiffMat B) :
    DiffMat fun t => vcat (A t) (B t) := fun i j => by
  refine Fin.addCases (fun q => ?_) (fun q => ?_) i
  · simpa [vcat] using hA q j
  · simpa [vcat] using hB q j

theorem diff_tdLhs (e : KExpr d) (hn : NoMatern32 e) {θ : E → TDParams} (hθ : DiffTDParams θ)
    (hd : ∀ t, Smooth e (θ t).kernelParams) {x : E → Batch n d} (hx : DiffEntries x) {J : E → Jac n d v}
    (hJ : DiffJac J) : DiffMat fun t => tdALhsNoise1 (θ t) e.obj (x t) (J t) (x t) (J t) := by
  have hk := C146_kernel e hn _ hθ.kernel hd
  exact diff_vcat (diff_hcat (fun i j => (hk.k hx hx i j).fun_add (((hθ.targets.fun_pow 2).add_const _).mul_const _))
    fun i r => hk.d1kj hx hx hJ i r) (diff_hcat (fun r j => hk.d0kj hx hx hJ r j)
    fun r s => (hk.d01kj hx hx hJ hJ r s).fun_add (((hθ.derivs.fun_pow 2).add_const _).mul_const _))

/-- **C146**, GPR_TD: the coefficients, the predicted values and derivatives and the log marginal likelihood of a model
trained on values and derivatives together.
Every twice differentiable kernel but `Matern32`, whenever the training covariances, noise included, are positive
definite. -/
theorem C146_td_posDef (ex : la.Exact) (e : KExpr d) (hn : NoMatern32 e) {θ : E → TDParams} (hθ : DiffTDParams θ)
    (hd : ∀ t, Smooth e (θ t).kernelParams) {mf : MeanFun} (hm : DiffMean E mf) {xt : E → Batch m d}
    (hxt : DiffEntries xt) {Jt : E → Jac m d w} (hJt : DiffJac Jt)
    (hp : ∀ t, (tdALhsNoise1 (θ t) e.obj (xt t) (Jt t) (xt t) (Jt t)).PosDef) {y : E → Mat m 1} (hy : DiffMat y)
    {yd : E → Mat m w} (hyd : DiffMat yd) {x : E → Batch n d} (hx : DiffEntries x) {J : E → Jac n d v}
    (hJ : DiffJac J) :
    (DiffMat fun t => (tdFitDense1 la (θ t) e.obj mf (xt t) (y t) (Jt t) (yd t)).1) ∧
    (DiffMat fun t => (tdPredictDense1 (θ t) e.obj (xt t) (Jt t) (x t) (J t)
      (tdFitDense1 la (θ t) e.obj mf (xt t) (y t) (Jt t) (yd t)).1
      (tdFitDense1 la (θ t) e.obj mf (xt t) (y t) (Jt t) (yd t)).2).1) ∧
    (DiffMat fun t => (tdPredictDense1 (θ t) e.obj (xt t) (Jt t) (x t) (J t)
      (tdFitDense1 la (θ t) e.obj mf (xt t) (y t) (Jt t) (yd t)).1
      (tdFitDense1 la (θ t) e.obj mf (xt t) (y t) (Jt t) (yd t)).2).2) ∧
    Differentiable ℝ fun t => tdLmlDense1 la (θ t) e.obj mf (xt t) (y t) (Jt t) (yd t) := by
  have hk := C146_kernel e hn _ hθ.kernel hd
  have hC := diff_tdLhs e hn hθ hd hxt hJt
  have hmu := hm _ _ _ hy
  have hr : DiffMat fun t => tdRhs1 mf (y t) (yd t) := diff_vcat (diff_center hm hy) (diff_flatCol hyd)
  have hc := diff_solve ex hC hp hr
  have hK : DiffMat fun t => tdALhs1 (θ t) e.obj (xt t) (Jt t) (x t) (J t) :=
    diff_vcat (diff_hcat (fun i j => hk.k hxt hx i j) fun i r => hk.d1kj hxt hx hJ i r)
      (diff_hcat (fun r j => hk.d0kj hxt hx hJt r j) fun r s => hk.d01kj hxt hx hJt hJ r s)
  have hP := diff_mul (A := fun t => (tdALhs1 (θ t) e.obj (xt t) (Jt t) (x t) (J t)).transpose)
    (fun i j => hK j i) hc
  exact ⟨hc, fun i c => (hP _ c).fun_add hmu, fun i u => hP _ _, diff_lmlTail ex hC hp hr⟩

/-- **C146**, GPR_TD: the coefficients, the predicted values and derivatives and the log marginal likelihood of a model
trained on values and derivatives together. -/
theorem C146_td (ex : la.Exact) (e : KExpr d) {θ : E → TDParams} (hθ : DiffTDParams θ)
    (hd : ∀ t, JointSmooth e (θ t).kernelParams) {mf : MeanFun} (hm : DiffMean E mf) {xt : E → Batch m d}
    (hxt : DiffEntries xt) {Jt : E → Jac m d w} (hJt : DiffJac Jt) {y : E → Mat m 1} (hy : DiffMat y)
    {yd : E → Mat m w} (hyd : DiffMat yd) {x : E → Batch n d} (hx : DiffEntries x) {J : E → Jac n d v}
    (hJ : DiffJac J) :
    (DiffMat fun t => (tdFitDense1 la (θ t) e.obj mf (xt t) (y t) (Jt t) (yd t)).1) ∧
    (DiffMat fun t => (tdPredictDense1 (θ t) e.obj (xt t) (Jt t) (x t) (J t)
      (tdFitDense1 la (θ t) e.obj mf (xt t) (y t) (Jt t) (yd t)).1
      (tdFitDense1 la (θ t) e.obj mf (xt t) (y t) (Jt t) (yd t)).2).1) ∧
    (DiffMat fun t => (tdPredictDense1 (θ t) e.obj (xt t) (Jt t) (x t) (J t)
      (tdFitDense1 la (θ t) e.obj mf (xt t) (y t) (Jt t) (yd t)).1
      (tdFitDense1 la (θ t) e.obj mf (xt t) (y t) (Jt t) (yd t)).2).2) ∧
    Differentiable ℝ fun t => tdLmlDense1 la (θ t) e.obj mf (xt t) (y t) (Jt t) (yd t) :=
  C146_td_posDef ex e (jointSmooth_smooth (hd 0)).2 hθ (fun t => (jointSmooth_smooth (hd t)).1) hm hxt hJt
    (fun t => (C78_well_posed_partial e (θ t) (hd t) (xt t) (Jt t) (Jt t)).1) hy hyd hx hJ

theorem deriv_tdTail (ex : la.Exact) {C : ℝ → Mat m m} {C' : Mat m m} {t : ℝ} (hC : EntryDerivs C C' t)
    (hd : DiffMat C) (hp : ∀ t, (C t).PosDef) (y : Mat m 1) (c : Mat m 1) (hc : c = (C t)⁻¹ * y) :
    HasDerivAt (fun s => lmlTail la (C s) y)
      ((∑ i, ∑ j, c i 0 * C' i j * c j 0 - ((C t)⁻¹ * C').trace) / (2 * m)) t := by
  have h := deriv_lmlTail ex hC hd hp y
  rw [Fin.sum_univ_one, ← hc] at h
  exact h

/-- **C146**, the gradient of the log marginal likelihood of GPR_TD: along any differentiable curve of hyperparameters
and noises, with `C'` the derivatives of the entries of the joint covariance matrix (noises included), it is
`(cᵀ C' c - tr (C⁻¹ C')) / 2(n + n v)` with the fitted coefficients `c`.
Every twice differentiable kernel but `Matern32`, whenever the training covariances, noise included, are positive
definite. -/
theorem C146_td_gradient_posDef (ex : la.Exact) (e : KExpr d) (hn : NoMatern32 e) {θ : ℝ → TDParams} (hθ : DiffTDParams θ)
    (hd : ∀ t, Smooth e (θ t).kernelParams) (mf : MeanFun) (x : Batch n d) (y : Mat n 1) (J : Jac n d v)
    (hp : ∀ t, (tdALhsNoise1 (θ t) e.obj x J x J).PosDef)
    (yd : Mat n v) (t : ℝ) (C' : Mat (n + n * v) (n + n * v))
    (hC' : EntryDerivs (fun s => tdALhsNoise1 (θ s) e.obj x J x J) C' t) :
    HasDerivAt (fun s => tdLmlDense1 la (θ s) e.obj mf x y J yd)
      ((∑ i, ∑ j, (tdFitDense1 la (θ t) e.obj mf x y J yd).1 i 0 * C' i j *
          (tdFitDense1 la (θ t) e.obj mf x y J yd).1 j 0 -
        ((tdALhsNoise1 (θ t) e.obj x J x J)⁻¹ * C').trace) / (2 * (n + n * v : ℕ))) t := by
  have hC : DiffMat fun t => tdALhsNoise1 (θ t) e.obj x J x J := diff_tdLhs e hn hθ hd
    (x := fun _ => x) (J := fun _ => J) (fun i j => differentiable_const _) (fun i f u => differentiable_const _)
  exact deriv_tdTail ex hC' hC hp (tdRhs1 mf y yd) _ (ex.solve_eq (posDef_isUnit (hp t)) _)

/-- **C146**, the gradient of the log marginal likelihood of GPR_TD: along any differentiable curve of hyperparameters
and noises, with `C'` the derivatives of the entries of the joint covariance matrix (noises included), it is
`(cᵀ C' c - tr (C⁻¹ C')) / 2(n + n v)` with the fitted coefficients `c`. -/
theorem C146_td_gradient (ex : la.Exact) (e : KExpr d) {θ : ℝ → TDParams} (hθ : DiffTDParams θ)
    (hd : ∀ t, JointSmooth e (θ t).kernelParams) (mf : MeanFun) (x : Batch n d) (y : Mat n 1) (J : Jac n d v)
    (yd : Mat n v) (t : ℝ) (C' : Mat (n + n * v) (n + n * v))
    (hC' : EntryDerivs (fun s => tdALhsNoise1 (θ s) e.obj x J x J) C' t) :
    HasDerivAt (fun s => tdLmlDense1 la (θ s) e.obj mf x y J yd)
      ((∑ i, ∑ j, (tdFitDense1 la (θ t) e.obj mf x y J yd).1 i 0 * C' i j *
          (tdFitDense1 la (θ t) e.obj mf x y J yd).1 j 0 -
        ((tdALhsNoise1 (θ t) e.obj x J x J)⁻¹ * C').trace) / (2 * (n + n * v : ℕ))) t :=
  C146_td_gradient_posDef ex e (jointSmooth_smooth (hd 0)).2 hθ (fun t => (jointSmooth_smooth (hd t)).1) mf x y J
    (fun t => (C78_well_posed_partial e (θ t) (hd t) x J J).1) yd t C' hC'

/-! ## Non-vacuity -/

example : DiffParams movingParams ∧
    (∀ t, DerivSmooth (.sum (.squaredExponential none) (.prod (.constant none) (.expSinSquared none)) : KExpr 1)
      (movingParams t).kernelParams) ∧
    DiffJac (fun t : ℝ => (fun _ _ _ => t ^ 2 : Jac 2 1 1)) :=
  ⟨⟨differentiable_id, fun _ => Real.differentiable_exp⟩,
    fun t => .sum (.squaredExponential (Real.exp_pos t)) (.scaleLeft (Real.exp_pos t).le
      (.joint ⟨Real.exp_pos t, Real.exp_pos t⟩)),
    fun _ _ _ => differentiable_id.fun_pow 2⟩

example : DiffTDParams (fun t : ℝ => (⟨fun _ => Real.exp t, t, t ^ 2, 0⟩ : TDParams)) ∧
    ∀ t : ℝ, JointSmooth (.matern52 none : KExpr 2) (fun _ => Real.exp t) :=
  ⟨⟨differentiable_id, differentiable_id.fun_pow 2, differentiable_const _, fun _ => Real.differentiable_exp⟩,
    fun t => Real.exp_pos t⟩

end GPX.Props
