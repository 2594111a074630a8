import Verif.Props.Continuity
import Verif.Props.JointPSD

/-!
# C132: models of derivatives do not jump either, unless `Matern12` is used
-/

namespace GPX.Props
open GPX GPX.Spec

variable {T : Type} [TopologicalSpace T] {d n m o v w : ℕ} {la : LinAlg}

/-! ## Closed forms -/

/-- All the functions of a closed form vary continuously. -/
structure CoreCont (c : T → Core) : Prop where
  K : ∀ {k : ℕ} {x y : T → Fin k → ℝ}, Continuous x → Continuous y → Continuous fun t => (c t).K (x t) (y t)
  G0 : ∀ {k : ℕ} {x y : T → Fin k → ℝ}, Continuous x → Continuous y → ∀ a, Continuous fun t => (c t).G0 (x t) (y t) a
  G1 : ∀ {k : ℕ} {x y : T → Fin k → ℝ}, Continuous x → Continuous y → ∀ a, Continuous fun t => (c t).G1 (x t) (y t) a
  H : ∀ {k : ℕ} {x y : T → Fin k → ℝ}, Continuous x → Continuous y → ∀ a b,
    Continuous fun t => (c t).H (x t) (y t) a b

theorem cont_jac {J : T → Jac n d v} (h : Continuous J) (i : Fin n) (f : Fin d) (u : Fin v) :
    Continuous fun t => J t i f u :=
  (continuous_apply u).comp ((continuous_apply f).comp ((continuous_apply i).comp h))

theorem cont_take (ad : Dims d) {x : T → Batch n d} (h : Continuous x) (i : Fin n) :
    Continuous fun t => ad.take (x t i) :=
  continuous_pi fun a => cont_entry h i (ad.idx a)

theorem _root_.GPX.Spec.ContinuousKernel.ofClosed {κ : KernelObj d} {p : T → KPar} {ad : Dims d} {c : T → Core}
    (h : ∀ t, ClosedJ κ (p t) ad (c t)) (hc : CoreCont c) : ContinuousKernel κ p where
  k h1 h2 i j := by
    exact (hc.K (cont_take ad h1 i) (cont_take ad h2 j)).congr fun t => ((h t).k _ _ _ _).symm
  d0kj h1 h2 hJ r j := by
    obtain ⟨i, u, rfl⟩ := flat_surj r
    refine Continuous.congr ?_ fun t => ((h t).d0kj _ _ _ _ _ _).symm
    exact continuous_finsetSum _ fun a _ => (cont_jac hJ _ _ _).mul (hc.G0 (cont_take ad h1 i) (cont_take ad h2 j) a)
  d1kj h1 h2 hJ i r := by
    obtain ⟨j, u, rfl⟩ := flat_surj r
    refine Continuous.congr ?_ fun t => ((h t).d1kj _ _ _ _ _ _).symm
    exact continuous_finsetSum _ fun a _ => (hc.G1 (cont_take ad h1 i) (cont_take ad h2 j) a).mul (cont_jac hJ _ _ _)
  d01kj h1 h2 hJ1 hJ2 r s := by
    obtain ⟨i, u, rfl⟩ := flat_surj r
    obtain ⟨j, w, rfl⟩ := flat_surj s
    refine Continuous.congr ?_ fun t => ((h t).d01kj _ _ _ _ _ _ _ _).symm
    exact continuous_finsetSum _ fun a _ => continuous_finsetSum _ fun b _ =>
      ((cont_jac hJ1 _ _ _).mul (hc.H (cont_take ad h1 i) (cont_take ad h2 j) a b)).mul (cont_jac hJ2 _ _ _)

theorem _root_.GPX.Spec.ContinuousKernel.sum {κ1 κ2 : KernelObj d} {p : T → KPar} (h1 : ContinuousKernel κ1 fun t => (p t).sub "kernel1")
    (h2 : ContinuousKernel κ2 fun t => (p t).sub "kernel2") : ContinuousKernel (.sum κ1 κ2) p where
  k a b i j := (h1.k a b i j).add (h2.k a b i j)
  d0kj a b c i j := (h1.d0kj a b c i j).add (h2.d0kj a b c i j)
  d1kj a b c i j := (h1.d1kj a b c i j).add (h2.d1kj a b c i j)
  d01kj a b c e i j := (h1.d01kj a b c e i j).add (h2.d01kj a b c e i j)

theorem _root_.GPX.Spec.ContinuousKernel.prod {κ1 κ2 : KernelObj d} {p : T → KPar} (h1 : ContinuousKernel κ1 fun t => (p t).sub "kernel1")
    (h2 : ContinuousKernel κ2 fun t => (p t).sub "kernel2") : ContinuousKernel (.prod κ1 κ2) p where
  k a b i j := (h1.k a b i j).mul (h2.k a b i j)
  d0kj a b c r j := by
    obtain ⟨i, u, rfl⟩ := flat_surj r
    simp only [KernelObj.prod, prodDeriv0Jac, Arr2.add, Arr2.mul, repeatRows_flat]
    exact ((h1.k a b i j).mul (h2.d0kj a b c _ j)).add ((h1.d0kj a b c _ j).mul (h2.k a b i j))
  d1kj a b c i r := by
    obtain ⟨j, u, rfl⟩ := flat_surj r
    simp only [KernelObj.prod, prodDeriv1Jac, Arr2.add, Arr2.mul, repeatCols_flat]
    exact ((h1.k a b i j).mul (h2.d1kj a b c i _)).add ((h1.d1kj a b c i _).mul (h2.k a b i j))
  d01kj a b c e r s := by
    obtain ⟨i, u, rfl⟩ := flat_surj r
    obtain ⟨j, w, rfl⟩ := flat_surj s
    simp only [KernelObj.prod, prodDeriv01Jac, Arr2.add, Arr2.mul, repeatRows_flat, repeatCols_flat]
    exact ((((h1.k a b i j).mul (h2.d01kj a b c e _ _)).add ((h1.d0kj a b c _ j).mul (h2.d1kj a b e i _))).add
      ((h1.d1kj a b e i _).mul (h2.d0kj a b c _ j))).add ((h1.d01kj a b c e _ _).mul (h2.k a b i j))

/-! ## Leaves -/

theorem cont_sqd {l : T → ℝ} (hl : Continuous l) (hp : ∀ t, 0 < l t) {k : ℕ} {x y : T → Fin k → ℝ}
    (hx : Continuous x) (hy : Continuous y) : Continuous fun t => sqd (l t) (x t) (y t) :=
  continuous_finsetSum _ fun a _ => (((continuous_apply a).comp hx |>.div hl fun t => (hp t).ne').sub
    ((continuous_apply a).comp hy |>.div hl fun t => (hp t).ne')).pow 2

theorem cont_ite (q : Prop) [Decidable q] {f g : T → ℝ} (hf : Continuous f) (hg : Continuous g) :
    Continuous fun t => if q then f t else g t := by
  split_ifs
  · exact hf
  · exact hg

theorem coreCont_constant {c : T → ℝ} (hc : Continuous c) : CoreCont fun t => Core.constant (c t) where
  K _ _ := hc
  G0 _ _ _ := continuous_const
  G1 _ _ _ := continuous_const
  H _ _ _ _ := continuous_const

theorem cont_dot {k : ℕ} {x y : T → Fin k → ℝ} (hx : Continuous x) (hy : Continuous y) :
    Continuous fun t => ∑ a, x t a * y t a :=
  continuous_finsetSum _ fun a _ => ((continuous_apply a).comp hx).mul ((continuous_apply a).comp hy)

theorem coreCont_linear : CoreCont fun _ : T => Core.linear where
  K hx hy := cont_dot hx hy
  G0 _ hy a := (continuous_apply a).comp hy
  G1 hx _ a := (continuous_apply a).comp hx
  H _ _ _ _ := continuous_const

theorem coreCont_polynomial {g f : T → ℝ} (hg : Continuous g) (hf : Continuous f)
    (hn : ∀ t, ∃ q : ℕ, 2 ≤ q ∧ g t = q) (ni : Bool) : CoreCont fun t => Core.polynomial (g t) (f t) ni := by
  have n0 : ∀ t, ∃ q : ℕ, g t = q := fun t => (hn t).imp fun q h => h.2
  have n1 : ∀ t, ∃ q : ℕ, g t - 1 = q := fun t => by
    obtain ⟨q, h2, h⟩ := hn t
    exact ⟨q - 1, by rw [h]; push_cast [show 1 ≤ q by omega]; ring⟩
  have n2 : ∀ t, ∃ q : ℕ, g t - 2 = q := fun t => by
    obtain ⟨q, h2, h⟩ := hn t
    exact ⟨q - 2, by rw [h]; push_cast [h2]; ring⟩
  have hb : ∀ {k : ℕ} {x y : T → Fin k → ℝ}, Continuous x → Continuous y →
      Continuous fun t => f t + ∑ a, x t a * y t a := fun hx hy => hf.add (cont_dot hx hy)
  have b1 : ∀ {k : ℕ} {x y : T → Fin k → ℝ}, Continuous x → Continuous y →
      Continuous fun t => g t * (f t + ∑ a, x t a * y t a) ^ (g t - 1) := fun hx hy =>
    hg.mul (cont_natPow (hb hx hy) (hg.sub continuous_const) n1)
  constructor
  · intro k x y hx hy
    simp only [Core.polynomial]
    cases ni
    · simpa using cont_natPow (hb hx hy) hg n0
    · exact (cont_natPow (hb hx hy) hg n0).sub (cont_natPow hf hg n0)
  · intro k x y hx hy a
    exact (b1 hx hy).mul ((continuous_apply a).comp hy)
  · intro k x y hx hy a
    exact (b1 hx hy).mul ((continuous_apply a).comp hx)
  · intro k x y hx hy a b
    exact ((b1 hx hy).mul continuous_const).add ((((continuous_apply b).comp hx).mul
      ((hg.mul (hg.sub continuous_const)).mul (cont_natPow (hb hx hy) (hg.sub continuous_const) n2))).mul
      ((continuous_apply a).comp hy))

theorem coreCont_se {l : T → ℝ} (hl : Continuous l) (hp : ∀ t, 0 < l t) : CoreCont fun t => Core.se (l t) := by
  have hs : ∀ {k : ℕ} {x y : T → Fin k → ℝ}, Continuous x → Continuous y → Continuous fun t => sqd (l t) (x t) (y t) :=
    fun hx hy => cont_sqd hl hp hx hy
  have hd : ∀ {k : ℕ} {x y : T → Fin k → ℝ}, Continuous x → Continuous y → ∀ a,
      Continuous fun t => 2 / l t * (x t a / l t - y t a / l t) := fun hx hy a =>
    (continuous_const.div hl fun t => (hp t).ne').mul (((continuous_apply a).comp hx |>.div hl fun t => (hp t).ne').sub
      ((continuous_apply a).comp hy |>.div hl fun t => (hp t).ne'))
  constructor
  · intro k x y hx hy
    exact Real.continuous_exp.comp ((hs hx hy).add continuous_const).neg
  · intro k x y hx hy a
    exact (hd hx hy a).neg.mul (Real.continuous_exp.comp (hs hx hy).neg)
  · intro k x y hx hy a
    exact (hd hx hy a).mul (Real.continuous_exp.comp (hs hx hy).neg)
  · intro k x y hx hy a b
    have hE : Continuous fun t => Real.exp (-(sqd (l t) (x t) (y t) + sqDistJitter)) :=
      Real.continuous_exp.comp ((hs hx hy).add continuous_const).neg
    exact ((hE.neg.mul (hd hx hy a)).mul (hd hx hy b)).add (cont_ite _ (hE.mul (continuous_const.div (hl.pow 2)
      fun t => pow_ne_zero 2 (hp t).ne')) continuous_const)

theorem coreCont_m52 {l : T → ℝ} (hl : Continuous l) (hp : ∀ t, 0 < l t) : CoreCont fun t => Core.m52 (l t) := by
  have hs : ∀ {k : ℕ} {x y : T → Fin k → ℝ}, Continuous x → Continuous y →
      Continuous fun t => m52Dist (sqd (l t) (x t) (y t)) := fun hx hy =>
    continuous_const.mul ((((cont_sqd hl hp hx hy).add continuous_const).max continuous_const).sqrt)
  have hE : ∀ {k : ℕ} {x y : T → Fin k → ℝ}, Continuous x → Continuous y →
      Continuous fun t => Real.exp (-m52Dist (sqd (l t) (x t) (y t))) := fun hx hy =>
    Real.continuous_exp.comp (hs hx hy).neg
  have hd : ∀ {k : ℕ} {x y : T → Fin k → ℝ}, Continuous x → Continuous y → ∀ a,
      Continuous fun t => Real.sqrt 5 * (x t a / l t - y t a / l t) := fun hx hy a =>
    continuous_const.mul (((continuous_apply a).comp hx |>.div hl fun t => (hp t).ne').sub
      ((continuous_apply a).comp hy |>.div hl fun t => (hp t).ne'))
  have h3 : Continuous fun t => Real.sqrt 5 / (3 * l t) := continuous_const.div (continuous_const.mul hl) fun t =>
    mul_ne_zero three_ne_zero (hp t).ne'
  have h5 : Continuous fun t => 5 / (3 * l t ^ 2) := continuous_const.div (continuous_const.mul (hl.pow 2)) fun t =>
    mul_ne_zero three_ne_zero (pow_ne_zero 2 (hp t).ne')
  constructor
  · intro k x y hx hy
    exact ((continuous_const.add (hs hx hy)).add (((hs hx hy).pow 2).div_const 3)).mul (hE hx hy)
  · intro k x y hx hy a
    exact ((h3.neg.mul (continuous_const.add (hs hx hy))).mul (hE hx hy)).mul (hd hx hy a)
  · intro k x y hx hy a
    exact ((h3.mul (continuous_const.add (hs hx hy))).mul (hE hx hy)).mul (hd hx hy a)
  · intro k x y hx hy a b
    exact (((h5.mul (hE hx hy)).neg.mul (hd hx hy a)).mul (hd hx hy b)).add
      (cont_ite _ ((h5.mul (hE hx hy)).mul (continuous_const.add (hs hx hy))) continuous_const)

theorem coreCont_ess {l r : T → ℝ} (hl : Continuous l) (hp : ∀ t, 0 < l t) (hr : Continuous r)
    (hq : ∀ t, 0 < r t) : CoreCont fun t => Core.ess (l t) (r t) := by
  have hd : ∀ {k : ℕ} {x y : T → Fin k → ℝ}, Continuous x → Continuous y → ∀ a,
      Continuous fun t => Real.pi * (x t a - y t a) / r t := fun hx hy a =>
    (continuous_const.mul (((continuous_apply a).comp hx).sub ((continuous_apply a).comp hy))).div hr
      fun t => (hq t).ne'
  have hpr : Continuous fun t => Real.pi / r t := continuous_const.div hr fun t => (hq t).ne'
  have hE : ∀ {k : ℕ} {x y : T → Fin k → ℝ}, Continuous x → Continuous y →
      Continuous fun t => Real.exp (-4 * essS (l t) (r t) (x t) (y t)) := fun hx hy =>
    Real.continuous_exp.comp (continuous_const.mul (continuous_finsetSum _ fun a _ =>
      ((Real.continuous_sin.comp (hd hx hy a)).pow 2).div hl fun t => (hp t).ne'))
  have hQ : ∀ {k : ℕ} {x y : T → Fin k → ℝ}, Continuous x → Continuous y → ∀ a,
      Continuous fun t => essQ (l t) (r t) (x t a - y t a) := fun hx hy a =>
    (((continuous_const.mul (Real.continuous_sin.comp (hd hx hy a))).mul (Real.continuous_cos.comp (hd hx hy a))).mul
      hpr).div hl fun t => (hp t).ne'
  have hR : ∀ {k : ℕ} {x y : T → Fin k → ℝ}, Continuous x → Continuous y → ∀ a,
      Continuous fun t => essR (l t) (r t) (x t a - y t a) := fun hx hy a =>
    ((continuous_const.mul (((Real.continuous_cos.comp (hd hx hy a)).pow 2).sub
      ((Real.continuous_sin.comp (hd hx hy a)).pow 2))).mul (hpr.pow 2)).div hl fun t => (hp t).ne'
  constructor
  · intro k x y hx hy
    exact hE hx hy
  · intro k x y hx hy a
    exact (continuous_const.mul (hQ hx hy a)).mul (hE hx hy)
  · intro k x y hx hy a
    exact (continuous_const.mul (hQ hx hy a)).mul (hE hx hy)
  · intro k x y hx hy a b
    exact ((cont_ite _ (continuous_const.mul (hR hx hy a)) continuous_const).sub
      ((continuous_const.mul (hQ hx hy a)).mul (hQ hx hy b))).mul (hE hx hy)

/-- **C132**, kernels: the kernel matrix and the derivative kernels of a smooth expression are continuous functions of
the hyperparameters, both datasets and both jacobians. -/
theorem C132_kernel (e : KExpr d) (hn : NoMatern32 e) (p : T → KPar)
    (hp : ∀ path, Continuous fun t => p t path) (ha : ∀ t, Smooth e (p t)) : ContinuousKernel e.obj p := by
  induction e generalizing p with
  | constant a => exact .ofClosed (fun t => closedJ_constant a (p t)) (coreCont_constant (hp ["variance"]))
  | linear a => exact .ofClosed (fun t => closedJ_linear a (p t)) coreCont_linear
  | polynomial a ni =>
    exact .ofClosed (fun t => closedJ_polynomial a ni (p t))
      (coreCont_polynomial (hp ["degree"]) (hp ["offset"]) (fun t => (ha t).1) ni)
  | squaredExponential a =>
    exact .ofClosed (fun t => closedJ_se a (p t)) (coreCont_se (hp ["lengthscale"]) ha)
  | matern12 a =>
    exact .ofClosed (c := fun _ => Core.linear) (ad := Dims.resolve a) (fun t => (ha t).elim) coreCont_linear
  | matern32 a => exact hn.elim
  | matern52 a => exact .ofClosed (fun t => closedJ_m52 a (p t)) (coreCont_m52 (hp ["lengthscale"]) ha)
  | expSinSquared a =>
    exact .ofClosed (fun t => closedJ_ess a (p t)) (coreCont_ess (hp ["lengthscale"]) (fun t => (ha t).1)
      (hp ["periodicity"]) fun t => (ha t).2)
  | sum e1 e2 ih1 ih2 =>
    exact (ih1 hn.1 (fun t => (p t).sub "kernel1") (fun path => hp _) fun t => (ha t).1).sum
      (ih2 hn.2 (fun t => (p t).sub "kernel2") (fun path => hp _) fun t => (ha t).2)
  | prod e1 e2 ih1 ih2 =>
    exact (ih1 hn.1 (fun t => (p t).sub "kernel1") (fun path => hp _) fun t => (ha t).1).prod
      (ih2 hn.2 (fun t => (p t).sub "kernel2") (fun path => hp _) fun t => (ha t).2)

theorem smooth_admissible {e : KExpr d} {p : KPar} (h : Smooth e p) : Admissible e p := by
  induction e generalizing p with
  | constant a => exact h
  | linear a => trivial
  | polynomial a ni => exact ⟨h.1.imp fun q hq => hq.2, h.2⟩
  | squaredExponential a => exact h
  | matern12 a => exact h.elim
  | matern32 a => exact h
  | matern52 a => exact h
  | expSinSquared a => exact h
  | sum e1 e2 ih1 ih2 => exact ⟨ih1 h.1, ih2 h.2⟩
  | prod e1 e2 ih1 ih2 => exact ⟨ih1 h.1, ih2 h.2⟩

theorem jointSmooth_smooth {e : KExpr d} {p : KPar} (h : JointSmooth e p) : Smooth e p ∧ NoMatern32 e := by
  induction e generalizing p with
  | constant a => exact ⟨h, trivial⟩
  | linear a => exact ⟨trivial, trivial⟩
  | polynomial a ni => exact ⟨h, trivial⟩
  | squaredExponential a => exact h.elim
  | matern12 a => exact h.elim
  | matern32 a => exact h.elim
  | matern52 a => exact ⟨h, trivial⟩
  | expSinSquared a => exact ⟨h, trivial⟩
  | sum e1 e2 ih1 ih2 => exact ⟨⟨(ih1 h.1).1, (ih2 h.2).1⟩, (ih1 h.1).2, (ih2 h.2).2⟩
  | prod e1 e2 ih1 ih2 => exact ⟨⟨(ih1 h.1).1, (ih2 h.2).1⟩, (ih1 h.1).2, (ih2 h.2).2⟩

theorem derivSmooth_smooth {e : KExpr d} {p : KPar} (h : DerivSmooth e p) : Smooth e p ∧ NoMatern32 e := by
  induction h with
  | joint h => exact jointSmooth_smooth h
  | squaredExponential h => exact ⟨h, trivial⟩
  | sum _ _ h1 h2 => exact ⟨⟨h1.1, h2.1⟩, h1.2, h2.2⟩
  | scaleLeft h1 _ h2 => exact ⟨⟨h1, h2.1⟩, trivial, h2.2⟩
  | scaleRight _ h1 h2 => exact ⟨⟨h2.1, h1⟩, h2.2, trivial⟩

theorem cont_flatCol {y : T → Mat n v} (h : Continuous y) : Continuous fun t => flatCol (y t) :=
  continuous_matrix fun r _ => (continuous_apply r.modNat).comp ((continuous_apply r.divNat).comp h)

theorem cont_unflatCol {y : T → Mat (n * v) 1} (h : Continuous y) : Continuous fun t => unflatCol (y t) :=
  continuous_matrix fun i u => (continuous_apply 0).comp ((continuous_apply (finProdFinEquiv (i, u))).comp h)

/-- The statement of C132 over all kernel expressions: the derivatives predicted by a model trained on values are
continuous functions of the prediction points. -/
def C132_full : Prop :=
  ∀ (d n m v : ℕ) (e : KExpr d) (θ : GPParams) (_ : Admissible e θ.kernelParams)
    (la : LinAlg) (_ : la.Exact) (xt : Batch m d) (y : Mat m 1) (J : Jac n d v),
    Continuous fun x : Batch n d => (predictOl θ e.obj xt x J (fitDense la θ e.obj zeroMean xt y).1
      (fitDense la θ e.obj zeroMean xt y).2).2

/-- **C132**, derivatives of a model trained on values: for every smooth kernel expression without `Matern32`, the
derivatives predicted by `predict_ol` are continuous in the hyperparameters, the data, the prediction points and their
jacobians. -/
theorem C132_slopes_partial (ex : la.Exact) (e : KExpr d) (hn : NoMatern32 e) {θ : T → GPParams}
    (hθ : ContinuousParams θ) (ha : ∀ t, Smooth e (θ t).kernelParams) {mf : MeanFun} (hm : ContinuousMean mf)
    {xt : T → Batch m d} (hxt : Continuous xt) {y : T → Mat m 1} (hy : Continuous y) {x : T → Batch n d}
    (hx : Continuous x) {J : T → Jac n d v} (hJ : Continuous J) :
    Continuous fun t => predictOl (θ t) e.obj (xt t) (x t) (J t) (fitDense la (θ t) e.obj mf (xt t) (y t)).1
      (fitDense la (θ t) e.obj mf (xt t) (y t)).2 := by
  have hk := C132_kernel e hn _ hθ.kernel ha
  have hc := (C131_gpr (n := n) ex e hθ (fun t => smooth_admissible (ha t)) hm hxt hy hx).1
  have hK : Continuous fun t => aLhs (θ t) e.obj (xt t) (x t) := continuous_matrix fun i j => hk.k hxt hx i j
  have hdK : Continuous fun t => (Matrix.of (e.obj.d1kj (θ t).kernelParams (xt t) (x t) (J t)) : Mat m (n * v)) :=
    continuous_matrix fun i r => hk.d1kj hxt hx hJ i r
  have h1 := hc.fst.matrix_transpose.matrix_mul hK
  have h2 := hc.fst.matrix_transpose.matrix_mul hdK
  exact Continuous.prodMk
    (continuous_matrix fun i _ => hc.snd.add ((continuous_apply i).comp ((continuous_apply 0).comp h1)))
    (continuous_matrix fun r _ => (continuous_apply r).comp ((continuous_apply 0).comp h2))

/-- **C132**, GPR trained on derivatives: coefficients, predicted derivatives and their covariance, predicted values
and log marginal likelihood, for every expression for which the derivative Gram matrices are positive semidefinite. -/
theorem C132_gpr_partial (ex : la.Exact) (e : KExpr d) {θ : T → GPParams} (hθ : ContinuousParams θ)
    (hd : ∀ t, DerivSmooth e (θ t).kernelParams) {mf : MeanFun} (hm : ContinuousMean mf) {xt : T → Batch m d}
    (hxt : Continuous xt) {Jt : T → Jac m d w} (hJt : Continuous Jt) {y : T → Mat m w} (hy : Continuous y)
    {x : T → Batch n d} (hx : Continuous x) {J : T → Jac n d v} (hJ : Continuous J) :
    (Continuous fun t => fitDerivsDense la (θ t) e.obj mf (xt t) (Jt t) (y t)) ∧
    (Continuous fun t => predictDerivsDense (θ t) e.obj (xt t) (Jt t) (x t) (J t)
      (fitDerivsDense la (θ t) e.obj mf (xt t) (Jt t) (y t)).1
      (fitDerivsDense la (θ t) e.obj mf (xt t) (Jt t) (y t)).2) ∧
    (Continuous fun t => predictDerivsDenseCov la (θ t) e.obj (xt t) (Jt t) (x t) (J t)) ∧
    (Continuous fun t => predictYDerivsDense (θ t) e.obj (xt t) (Jt t) (x t)
      (fitDerivsDense la (θ t) e.obj mf (xt t) (Jt t) (y t)).1
      (fitDerivsDense la (θ t) e.obj mf (xt t) (Jt t) (y t)).2) ∧
    Continuous fun t => lmlDerivsDense la (θ t) e.obj mf (xt t) (Jt t) (y t) := by
  rcases isEmpty_or_nonempty T with hT | ⟨⟨t0⟩⟩
  · exact ⟨continuous_of_const fun t => hT.elim t, continuous_of_const fun t => hT.elim t,
      continuous_of_const fun t => hT.elim t, continuous_of_const fun t => hT.elim t,
      continuous_of_const fun t => hT.elim t⟩
  have hk := C132_kernel e (derivSmooth_smooth (hd t0)).2 _ hθ.kernel fun t => (derivSmooth_smooth (hd t)).1
  have hg : ∀ {a b p q : ℕ} {x1 : T → Batch a d} {x2 : T → Batch b d} {J1 : T → Jac a d p} {J2 : T → Jac b d q},
      Continuous x1 → Continuous x2 → Continuous J1 → Continuous J2 →
      Continuous fun t => aDerivsLhs (θ t) e.obj (x1 t) (J1 t) (x2 t) (J2 t) := fun h1 h2 h3 h4 =>
    continuous_matrix fun r s => hk.d01kj h1 h2 h3 h4 r s
  have hC : Continuous fun t => aDerivsLhsNoise (θ t) e.obj (xt t) (Jt t) (xt t) (Jt t) :=
    (hg hxt hxt hJt hJt).add (cont_noise hθ (m * w))
  have hp : ∀ t, (aDerivsLhsNoise (θ t) e.obj (xt t) (Jt t) (xt t) (Jt t)).PosDef := fun t =>
    posDef_add_smul_one (C65_gram_partial e (θ t).kernelParams (hd t) (xt t) (Jt t)) (noise_pos (θ t))
  have hyf := cont_flatCol hy
  have hmu : Continuous fun t => mf (flatCol (y t)) := (hm _ _).comp hyf
  have hyc := cont_center hm hyf
  have hc := cont_solve ex hC hp hyc
  have hK := hg hxt hx hJt hJ
  have hK0 : Continuous fun t => (Matrix.of (e.obj.d0kj (θ t).kernelParams (xt t) (x t) (Jt t)) : Mat (m * w) n) :=
    continuous_matrix fun r j => hk.d0kj hxt hx hJt r j
  exact ⟨hc.prodMk hmu, cont_unflatCol (cont_addScalar hmu (hK.matrix_transpose.matrix_mul hc)),
    (hg hx hx hJ hJ).sub (cont_schur ex hC hp hK), cont_addScalar hmu (hK0.matrix_transpose.matrix_mul hc),
    cont_lmlTail ex hC hp hyc⟩

/-- **C132**, SGPR trained on derivatives: coefficients, predicted derivatives and predicted values; the inducing
points and their jacobians vary as well. -/
theorem C132_sgpr_partial (ex : la.Exact) (e : KExpr d) {θ : T → GPParams} (hθ : ContinuousParams θ)
    (hd : ∀ t, DerivSmooth e (θ t).kernelParams) {mf : MeanFun} (hm : ContinuousMean mf) {l q : ℕ}
    {xl : T → Batch l d} (hxl : Continuous xl) {Jl : T → Jac l d q} (hJl : Continuous Jl) {xt : T → Batch m d}
    (hxt : Continuous xt) {Jt : T → Jac m d w} (hJt : Continuous Jt) {y : T → Mat m w} (hy : Continuous y)
    {x : T → Batch n d} (hx : Continuous x) {J : T → Jac n d v} (hJ : Continuous J) :
    (Continuous fun t => sgprFitDerivsDense la (θ t) e.obj mf (xl t) (Jl t) (xt t) (Jt t) (y t)) ∧
    (Continuous fun t => sgprPredictDerivs (θ t) e.obj (xl t) (Jl t) (x t) (J t)
      (sgprFitDerivsDense la (θ t) e.obj mf (xl t) (Jl t) (xt t) (Jt t) (y t)).1
      (sgprFitDerivsDense la (θ t) e.obj mf (xl t) (Jl t) (xt t) (Jt t) (y t)).2) ∧
    Continuous fun t => sgprPredictYDerivs (θ t) e.obj (xl t) (Jl t) (x t)
      (sgprFitDerivsDense la (θ t) e.obj mf (xl t) (Jl t) (xt t) (Jt t) (y t)).1
      (sgprFitDerivsDense la (θ t) e.obj mf (xl t) (Jl t) (xt t) (Jt t) (y t)).2 := by
  rcases isEmpty_or_nonempty T with hT | ⟨⟨t0⟩⟩
  · exact ⟨continuous_of_const fun t => hT.elim t, continuous_of_const fun t => hT.elim t,
      continuous_of_const fun t => hT.elim t⟩
  have hk := C132_kernel e (derivSmooth_smooth (hd t0)).2 _ hθ.kernel fun t => (derivSmooth_smooth (hd t)).1
  have hg : ∀ {a b p q : ℕ} {x1 : T → Batch a d} {x2 : T → Batch b d} {J1 : T → Jac a d p} {J2 : T → Jac b d q},
      Continuous x1 → Continuous x2 → Continuous J1 → Continuous J2 →
      Continuous fun t => (Matrix.of (e.obj.d01kj (θ t).kernelParams (x1 t) (x2 t) (J1 t) (J2 t)) :
        Mat (a * p) (b * q)) := fun h1 h2 h3 h4 =>
    continuous_matrix fun r s => hk.d01kj h1 h2 h3 h4 r s
  have hB := hg hxl hxt hJl hJt
  have hA : Continuous fun t => (sgprADerivsLhs (θ t) e.obj (xl t) (Jl t) (xt t) (Jt t)).1 :=
    (((hθ.sigma.pow 2).smul (hg hxl hxl hJl hJl)).add (hB.matrix_mul hB.matrix_transpose)).add continuous_const
  have hp : ∀ t, (sgprADerivsLhs (θ t) e.obj (xl t) (Jl t) (xt t) (Jt t)).1.PosDef := fun t =>
    sparse_posDef (C65_gram_partial e (θ t).kernelParams (hd t) (xl t) (Jl t)) _ _
  have hyf := cont_flatCol hy
  have hmu : Continuous fun t => mf (flatCol (y t)) := (hm _ _).comp hyf
  have hc := cont_solve ex hA hp (hB.matrix_mul (cont_center hm hyf))
  have hK0 : Continuous fun t => (Matrix.of (e.obj.d0kj (θ t).kernelParams (xl t) (x t) (Jl t)) : Mat (l * q) n) :=
    continuous_matrix fun r j => hk.d0kj hxl hx hJl r j
  exact ⟨hc.prodMk hmu, cont_unflatCol (cont_addScalar hmu ((hg hx hxl hJ hJl).matrix_mul hc)),
    cont_addScalar hmu (hK0.matrix_transpose.matrix_mul hc)⟩

/-! ## `Matern12` -/

/-- The slope of the `Matern12` kernel at distance `x` as the code computes it. -/
noncomputable def m12Slope (x : ℝ) : ℝ :=
  (KernelObj.matern12 (d := 1) none).d1kj (fun _ => 1) (fun _ _ => 0 : Batch 1 1)
    (fun _ _ => x : Batch 1 1) (fun _ _ _ => 1 : Jac 1 1 1) 0 (flat 0 0)

theorem m12Slope_eq (x : ℝ) : m12Slope x = -(x * (if maternFloor < x ^ 2 then 1 else
      if x ^ 2 = maternFloor then 1 / 2 else 0) * (Real.sqrt (max (x ^ 2) maternFloor))⁻¹) *
        Real.exp (-Real.sqrt (max (x ^ 2) maternFloor)) := by
  unfold m12Slope
  rw [(closedJ_m12 none _).d1kj]
  have hs : sqd 1 ((Dims.resolve (none : Option (Dims 1))).take fun _ => (0 : ℝ))
      ((Dims.resolve (none : Option (Dims 1))).take fun _ => x) = x ^ 2 := by
    show ∑ a : Fin 1, (0 / 1 - x / 1) ^ 2 = x ^ 2
    simp
  show ∑ a : Fin 1, _ * _ = _
  rw [Fin.sum_univ_one]
  simp only [Core.m12, Core.ofEx, m12Ex, Ex.D, Ex.eval, eval_D_sqDistEx_inr, eval_sqDistEx, KPar.val, hs]
  simp only [Dims.take]
  ring

theorem m12Slope_gap {x : ℝ} (h0 : 0 ≤ x) (h1 : x ≤ 1) : m12Slope x = 0 ∨ m12Slope x ≤ -(Real.exp (-1) / 2) := by
  have hf : 0 < maternFloor := by unfold maternFloor; positivity
  rw [m12Slope_eq]
  have he : Real.exp (-1) ≤ Real.exp (-x) := Real.exp_le_exp.mpr (by linarith)
  have hp := Real.exp_pos (-1)
  rcases lt_trichotomy maternFloor (x ^ 2) with h | h | h
  · right
    have hx : 0 < x := by
      rcases h0.lt_or_eq with h2 | h2
      · exact h2
      · rw [← h2] at h; simp at h; linarith
    rw [if_pos h, max_eq_left h.le, Real.sqrt_sq h0, mul_one, mul_inv_cancel₀ hx.ne']
    linarith
  · right
    have hx : 0 < x := by
      rcases h0.lt_or_eq with h2 | h2
      · exact h2
      · rw [← h2] at h; simp at h; linarith
    rw [if_neg h.not_lt, if_pos h.symm, max_eq_left h.le, Real.sqrt_sq h0]
    have : x * (1 / 2) * x⁻¹ = 1 / 2 := by field_simp
    rw [this]
    linarith
  · left
    rw [if_neg h.le.not_gt, if_neg h.ne]
    simp

theorem m12Slope_jumps : ¬ Continuous m12Slope := by
  intro hc
  have hp := Real.exp_pos (-1)
  have h0 : m12Slope 0 = 0 := by rw [m12Slope_eq]; simp
  have h1 : m12Slope 1 = -Real.exp (-1) := by
    have hf : maternFloor < 1 := by unfold maternFloor; norm_num
    rw [m12Slope_eq]
    simp [hf, hf.le]
  have hiv := intermediate_value_Icc' (zero_le_one (α := ℝ)) hc.continuousOn
  obtain ⟨x, hx, he⟩ := hiv (show -(Real.exp (-1) / 4) ∈ Set.Icc (m12Slope 1) (m12Slope 0) by
    rw [h0, h1]; constructor <;> linarith)
  rcases m12Slope_gap hx.1 hx.2 with h | h <;> linarith

/-- **C132** does not hold for `Matern12`: the predicted derivative jumps where the prediction point crosses a training
point. -/
theorem C132_false : ¬ C132_full := by
  intro h
  obtain ⟨θ, hθ⟩ : ∃ θ : GPParams, θ = ⟨fun _ => 1, 0⟩ := ⟨_, rfl⟩
  have hadm : Admissible (.matern12 none : KExpr 1) θ.kernelParams := by
    rw [hθ]
    exact one_pos
  have hc := h 1 1 1 1 (.matern12 none) θ hadm LinAlg.ideal LinAlg.ideal_exact (fun _ _ => 0) (fun _ _ => 1)
    (fun _ _ _ => 1)
  obtain ⟨c, hcd⟩ : ∃ c, c = (fitDense LinAlg.ideal θ (KExpr.matern12 none : KExpr 1).obj zeroMean
    (fun _ _ => 0 : Batch 1 1) (fun _ _ => 1 : Mat 1 1)).1 := ⟨_, rfl⟩
  have hA := LinAlg.ideal_exact.solve (aLhsNoise θ (KExpr.matern12 none : KExpr 1).obj (fun _ _ => 0 : Batch 1 1)
    (fun _ _ => 0)) (centerBy (fun _ _ => 1 : Mat 1 1) (zeroMean (fun _ _ => 1 : Mat 1 1)))
    (posDef_isUnit (aLhsNoise_posDef _ θ hadm _))
  have hc0 : c 0 0 ≠ 0 := by
    intro hz
    have h1 := congrFun (congrFun hA 0) 0
    rw [Matrix.mul_apply, Fin.sum_univ_one] at h1
    have h2 : LinAlg.ideal.solve (aLhsNoise θ (KExpr.matern12 none : KExpr 1).obj (fun _ _ => 0 : Batch 1 1)
        (fun _ _ => 0)) (centerBy (fun _ _ => 1 : Mat 1 1) (zeroMean (fun _ _ => 1 : Mat 1 1))) 0 0 = 0 := by
      have hz' := hz
      rw [hcd] at hz'
      exact hz'
    rw [h2, mul_zero] at h1
    simp [centerBy, zeroMean] at h1
  rw [← hcd] at hc
  have hs : Continuous fun t : ℝ => c 0 0 * m12Slope t := by
    have hx : Continuous fun t : ℝ => (fun _ _ => t : Batch 1 1) := by fun_prop
    refine ((continuous_apply 0).comp ((continuous_apply (flat 0 0)).comp (hc.comp hx))).congr fun t => ?_
    simp only [Function.comp, predictOl, Matrix.of_apply, Matrix.mul_apply, Fin.sum_univ_one, Matrix.transpose_apply]
    rw [hθ]
    rfl
  refine m12Slope_jumps ((hs.div_const (c 0 0)).congr fun t => ?_)
  field_simp

/-! ## Non-vacuity -/

example : (∀ t, DerivSmooth (.sum (.matern52 none) (.prod (.constant none) (.squaredExponential none)) : KExpr 2)
      (movingParams t).kernelParams) ∧
    Continuous (fun t : ℝ => lmlDerivsDense LinAlg.ideal (movingParams t)
      (.sum (.matern52 none) (.prod (.constant none) (.squaredExponential none)) : KExpr 2).obj dataMean
      (fun i f => (i : ℕ) * t + (f : ℕ) : Batch 3 2) (fun _ f u => t + (f : ℕ) * (u : ℕ) : Jac 3 2 2)
      (fun i u => t ^ (i : ℕ) + (u : ℕ) : Mat 3 2)) := by
  have ha : ∀ t, DerivSmooth (.sum (.matern52 none) (.prod (.constant none) (.squaredExponential none)) : KExpr 2)
      (movingParams t).kernelParams := fun t =>
    .sum (.joint (Real.exp_pos t)) (.scaleLeft (Real.exp_pos t).le (.squaredExponential (Real.exp_pos t)))
  have hx : Continuous (fun t : ℝ => (fun i f => (i : ℕ) * t + (f : ℕ) : Batch 3 2)) := by fun_prop
  have hJ : Continuous (fun t : ℝ => (fun _ f u => t + (f : ℕ) * (u : ℕ) : Jac 3 2 2)) := by fun_prop
  have hy : Continuous (fun t : ℝ => (fun i u => t ^ (i : ℕ) + (u : ℕ) : Mat 3 2)) :=
    continuous_matrix fun i j => by fun_prop
  exact ⟨ha, (C132_gpr_partial (n := 3) LinAlg.ideal_exact (.sum (.matern52 none) (.prod (.constant none)
    (.squaredExponential none)) : KExpr 2) movingParams_continuous ha
    continuous_dataMean hx hJ hy hx hJ).2.2.2.2⟩

end GPX.Props
