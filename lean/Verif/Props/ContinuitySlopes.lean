import Verif.Props.ContinuityDerivs
import Verif.Props.JointSlack

/-!
# C132: slopes of models with `Matern32`, and models of derivatives with products of kernels
-/

namespace GPX.Props
open GPX GPX.Spec

variable {T : Type} [TopologicalSpace T] {d n m o v w : ℕ} {la : LinAlg}

/-- The kernel and its first derivative kernels vary continuously. -/
structure SlopesCont {d : ℕ} (κ : KernelObj d) (p : T → KPar) : Prop where
  k : ∀ {n m : ℕ} {x1 : T → Batch n d} {x2 : T → Batch m d}, Continuous x1 → Continuous x2 →
    ∀ i j, Continuous fun t => κ.k (p t) (x1 t) (x2 t) i j
  d0kj : ∀ {n m v : ℕ} {x1 : T → Batch n d} {x2 : T → Batch m d} {J : T → Jac n d v}, Continuous x1 → Continuous x2 →
    Continuous J → ∀ r j, Continuous fun t => κ.d0kj (p t) (x1 t) (x2 t) (J t) r j
  d1kj : ∀ {n m v : ℕ} {x1 : T → Batch n d} {x2 : T → Batch m d} {J : T → Jac m d v}, Continuous x1 → Continuous x2 →
    Continuous J → ∀ i r, Continuous fun t => κ.d1kj (p t) (x1 t) (x2 t) (J t) i r

theorem SlopesCont.of {κ : KernelObj d} {p : T → KPar} (h : ContinuousKernel κ p) : SlopesCont κ p :=
  ⟨h.k, h.d0kj, h.d1kj⟩

theorem SlopesCont.sum {κ1 κ2 : KernelObj d} {p : T → KPar} (h1 : SlopesCont κ1 fun t => (p t).sub "kernel1")
    (h2 : SlopesCont κ2 fun t => (p t).sub "kernel2") : SlopesCont (.sum κ1 κ2) p where
  k a b i j := (h1.k a b i j).add (h2.k a b i j)
  d0kj a b c i j := (h1.d0kj a b c i j).add (h2.d0kj a b c i j)
  d1kj a b c i j := (h1.d1kj a b c i j).add (h2.d1kj a b c i j)

theorem SlopesCont.prod {κ1 κ2 : KernelObj d} {p : T → KPar} (h1 : SlopesCont κ1 fun t => (p t).sub "kernel1")
    (h2 : SlopesCont κ2 fun t => (p t).sub "kernel2") : SlopesCont (.prod κ1 κ2) p where
  k a b i j := (h1.k a b i j).mul (h2.k a b i j)
  d0kj a b c r j := by
    obtain ⟨i, u, rfl⟩ := flat_surj r
    simp only [KernelObj.prod, prodDeriv0Jac, Arr2.add, Arr2.mul, repeatRows_flat]
    exact ((h1.k a b i j).mul (h2.d0kj a b c _ j)).add ((h1.d0kj a b c _ j).mul (h2.k a b i j))
  d1kj a b c i r := by
    obtain ⟨j, u, rfl⟩ := flat_surj r
    simp only [KernelObj.prod, prodDeriv1Jac, Arr2.add, Arr2.mul, repeatCols_flat]
    exact ((h1.k a b i j).mul (h2.d1kj a b c i _)).add ((h1.d1kj a b c i _).mul (h2.k a b i j))

theorem slopesCont_m32 (a : Option (Dims d)) {p : T → KPar} (hl : Continuous fun t => (p t).val "lengthscale")
    (hp : ∀ t, 0 < (p t).val "lengthscale") : SlopesCont (KernelObj.matern32 a) p := by
  have hE : ∀ {k : ℕ} {x y : T → Fin k → ℝ}, Continuous x → Continuous y → Continuous fun t =>
      Real.exp (-Real.sqrt (max (3 * sqd ((p t).val "lengthscale") (x t) (y t)) maternFloor)) := fun hx hy =>
    Real.continuous_exp.comp (((continuous_const.mul (cont_sqd hl hp hx hy)).max continuous_const).sqrt).neg
  have hd : ∀ {k : ℕ} {x y : T → Fin k → ℝ}, Continuous x → Continuous y → ∀ b, Continuous fun t =>
      -(3 / (p t).val "lengthscale") * (x t b / (p t).val "lengthscale" - y t b / (p t).val "lengthscale") :=
    fun hx hy b => ((continuous_const.div hl fun t => (hp t).ne').neg).mul
      (((continuous_apply b).comp hx |>.div hl fun t => (hp t).ne').sub
        ((continuous_apply b).comp hy |>.div hl fun t => (hp t).ne'))
  constructor
  · intro n m x1 x2 h1 h2 i j
    have hs : Continuous fun t => Real.sqrt (3 * (sqd ((p t).val "lengthscale") ((Dims.resolve a).take (x1 t i))
        ((Dims.resolve a).take (x2 t j)) + sqDistJitter)) :=
      (continuous_const.mul ((cont_sqd hl hp (cont_take _ h1 i) (cont_take _ h2 j)).add continuous_const)).sqrt
    refine Continuous.congr (((continuous_const (y := (1 : ℝ))).add hs).mul (Real.continuous_exp.comp hs.neg)) fun t => ?_
    exact (((closedJ_m32 a (p t)).k _ _ _ _).trans (m32_core _ _).1).symm
  · intro n m v x1 x2 J h1 h2 hJ r j
    obtain ⟨i, u, rfl⟩ := flat_surj r
    refine Continuous.congr ?_ fun t => ((closedJ_m32 a (p t)).d0kj _ _ _ _ _ _).symm
    refine continuous_finsetSum _ fun b _ => (cont_jac hJ _ _ _).mul ?_
    exact ((hd (cont_take _ h1 i) (cont_take _ h2 j) b).mul (hE (cont_take _ h1 i) (cont_take _ h2 j))).congr fun t =>
      ((m32_core _ _).2.1 b).symm
  · intro n m v x1 x2 J h1 h2 hJ i r
    obtain ⟨j, u, rfl⟩ := flat_surj r
    refine Continuous.congr ?_ fun t => ((closedJ_m32 a (p t)).d1kj _ _ _ _ _ _).symm
    refine continuous_finsetSum _ fun b _ => Continuous.mul ?_ (cont_jac hJ _ _ _)
    exact ((hd (cont_take _ h2 j) (cont_take _ h1 i) b).mul (hE (cont_take _ h1 i) (cont_take _ h2 j))).congr fun t =>
      ((m32_core _ _).2.2.1 b).symm

theorem slopesCont_expr (e : KExpr d) (p : T → KPar) (hp : ∀ path, Continuous fun t => p t path)
    (ha : ∀ t, Smooth e (p t)) : SlopesCont e.obj p := by
  induction e generalizing p with
  | matern32 a => exact slopesCont_m32 a (hp ["lengthscale"]) ha
  | sum e1 e2 ih1 ih2 =>
    exact (ih1 (fun t => (p t).sub "kernel1") (fun path => hp _) fun t => (ha t).1).sum
      (ih2 (fun t => (p t).sub "kernel2") (fun path => hp _) fun t => (ha t).2)
  | prod e1 e2 ih1 ih2 =>
    exact (ih1 (fun t => (p t).sub "kernel1") (fun path => hp _) fun t => (ha t).1).prod
      (ih2 (fun t => (p t).sub "kernel2") (fun path => hp _) fun t => (ha t).2)
  | constant a => exact .of (C132_kernel (.constant a) trivial p hp ha)
  | linear a => exact .of (C132_kernel (.linear a) trivial p hp ha)
  | polynomial a ni => exact .of (C132_kernel (.polynomial a ni) trivial p hp ha)
  | squaredExponential a => exact .of (C132_kernel (.squaredExponential a) trivial p hp ha)
  | matern12 a => exact .of (C132_kernel (.matern12 a) trivial p hp ha)
  | matern52 a => exact .of (C132_kernel (.matern52 a) trivial p hp ha)
  | expSinSquared a => exact .of (C132_kernel (.expSinSquared a) trivial p hp ha)

/-- **C132** (partial), derivatives of a model trained on values: for every kernel expression without `Matern12`, the
derivatives predicted by `predict_ol` are continuous in the hyperparameters, the data, the prediction points and their
jacobians. Missing from the full claim: `Matern12`, for which it fails (`C132_false`). -/
theorem C132_slopes_all_partial (ex : la.Exact) (e : KExpr d) {θ : T → GPParams} (hθ : ContinuousParams θ)
    (ha : ∀ t, Smooth e (θ t).kernelParams) {mf : MeanFun} (hm : ContinuousMean mf) {xt : T → Batch m d}
    (hxt : Continuous xt) {y : T → Mat m 1} (hy : Continuous y) {x : T → Batch n d} (hx : Continuous x)
    {J : T → Jac n d v} (hJ : Continuous J) :
    Continuous fun t => predictOl (θ t) e.obj (xt t) (x t) (J t) (fitDense la (θ t) e.obj mf (xt t) (y t)).1
      (fitDense la (θ t) e.obj mf (xt t) (y t)).2 := by
  have hk := slopesCont_expr e _ hθ.kernel ha
  have hc := (C131_gpr (n := n) ex e hθ (fun t => smooth_admissible (ha t)) hm hxt hy hx).1
  have hK : Continuous fun t => aLhs (θ t) e.obj (xt t) (x t) := continuous_matrix fun i j => hk.k hxt hx i j
  have hdK : Continuous fun t => (Matrix.of (e.obj.d1kj (θ t).kernelParams (xt t) (x t) (J t)) : Mat m (n * v)) :=
    continuous_matrix fun i r => hk.d1kj hxt hx hJ i r
  have h1 := hc.fst.matrix_transpose.matrix_mul hK
  have h2 := hc.fst.matrix_transpose.matrix_mul hdK
  exact Continuous.prodMk
    (continuous_matrix fun i _ => hc.snd.add ((continuous_apply i).comp ((continuous_apply 0).comp h1)))
    (continuous_matrix fun r _ => (continuous_apply r).comp ((continuous_apply 0).comp h2))

/-- **C132** (partial), GPR trained on derivatives, for every expression without `Matern12` and `Matern32`, products with
`SquaredExponential` included: coefficients, predicted derivatives and their covariance, predicted values and log marginal
likelihood are continuous wherever the noise variance exceeds the sum of the slacks of the training derivatives. -/
theorem C132_gpr_slack_partial (ex : la.Exact) (e : KExpr d) (hn : NoMatern32 e) {θ : T → GPParams}
    (hθ : ContinuousParams θ) (ha : ∀ t, Smooth e (θ t).kernelParams) {mf : MeanFun} (hm : ContinuousMean mf)
    {xt : T → Batch m d} (hxt : Continuous xt) {Jt : T → Jac m d w} (hJt : Continuous Jt)
    (hs : ∀ t, ∑ i, ∑ u, slack e (θ t).kernelParams (xt t i, some fun f => Jt t i f u)
      (xt t i, some fun f => Jt t i f u) < (θ t).noise) {y : T → Mat m w} (hy : Continuous y)
    {x : T → Batch n d} (hx : Continuous x) {J : T → Jac n d v} (hJ : Continuous J) :
    (Continuous fun t => fitDerivsDense la (θ t) e.obj mf (xt t) (Jt t) (y t)) ∧
    (Continuous fun t => predictDerivsDense (θ t) e.obj (xt t) (Jt t) (x t) (J t)
      (fitDerivsDense la (θ t) e.obj mf (xt t) (Jt t) (y t)).1
      (fitDerivsDense la (θ t) e.obj mf (xt t) (Jt t) (y t)).2) ∧
    (Continuous fun t => predictDerivsDenseCov la (θ t) e.obj (xt t) (Jt t) (x t) (J t)) ∧
    (Continuous fun t => predictYDerivsDense (θ t) e.obj (xt t) (Jt t) (x t)
      (fitDerivsDense la (θ t) e.obj mf (xt t) (Jt t) (y t)).1
      (fitDerivsDense la (θ t) e.obj mf (xt t) (Jt t) (y t)).2) ∧
    Continuous fun t => lmlDerivsDense la (θ t) e.obj mf (xt t) (Jt t) (y t) := by
  have hk := C132_kernel e hn _ hθ.kernel ha
  have hg : ∀ {a b p q : ℕ} {x1 : T → Batch a d} {x2 : T → Batch b d} {J1 : T → Jac a d p} {J2 : T → Jac b d q},
      Continuous x1 → Continuous x2 → Continuous J1 → Continuous J2 →
      Continuous fun t => aDerivsLhs (θ t) e.obj (x1 t) (J1 t) (x2 t) (J2 t) := fun h1 h2 h3 h4 =>
    continuous_matrix fun r s => hk.d01kj h1 h2 h3 h4 r s
  have hC : Continuous fun t => aDerivsLhsNoise (θ t) e.obj (xt t) (Jt t) (xt t) (Jt t) :=
    (hg hxt hxt hJt hJt).add (cont_noise hθ (m * w))
  have hp : ∀ t, (aDerivsLhsNoise (θ t) e.obj (xt t) (Jt t) (xt t) (Jt t)).PosDef := fun t =>
    C65_fit_slack_partial e (θ t) (ha t) (xt t) (fun i j => separated_noMatern32 e _ hn _ _) (Jt t) (hs t)
  have hyf := cont_flatCol hy
  have hmu : Continuous fun t => mf (flatCol (y t)) := (hm _ _).comp hyf
  have hyc := cont_center hm hyf
  have hc := cont_solve ex hC hp hyc
  have hK := hg hxt hx hJt hJ
  have hK0 : Continuous fun t => (Matrix.of (e.obj.d0kj (θ t).kernelParams (xt t) (x t) (Jt t)) : Mat (m * w) n) :=
    continuous_matrix fun r j => hk.d0kj hxt hx hJt r j
  exact ⟨hc.prodMk hmu, cont_unflatCol (cont_addScalar hmu (hK.matrix_transpose.matrix_mul hc)),
    (hg hx hx hJ hJ).sub (cont_schur ex hC hp hK), cont_addScalar hmu (hK0.matrix_transpose.matrix_mul hc),
    cont_lmlTail ex hC hp hyc⟩

/-! ## Non-vacuity -/

example : Continuous (fun t : ℝ => (predictOl (movingParams t) (.prod (.matern32 none) (.linear none) : KExpr 2).obj
      (fun i f => (i : ℕ) * t + (f : ℕ) : Batch 3 2) (fun _ _ => t ^ 2 : Batch 1 2) (fun _ f _ => (f : ℕ) : Jac 1 2 1)
      (fitDense LinAlg.ideal (movingParams t) (.prod (.matern32 none) (.linear none) : KExpr 2).obj dataMean
        (fun i f => (i : ℕ) * t + (f : ℕ) : Batch 3 2) (fun i _ => t + (i : ℕ) : Mat 3 1)).1
      (fitDense LinAlg.ideal (movingParams t) (.prod (.matern32 none) (.linear none) : KExpr 2).obj dataMean
        (fun i f => (i : ℕ) * t + (f : ℕ) : Batch 3 2) (fun i _ => t + (i : ℕ) : Mat 3 1)).2).2) := by
  have ha : ∀ t, Smooth (.prod (.matern32 none) (.linear none) : KExpr 2) (movingParams t).kernelParams := fun t =>
    ⟨Real.exp_pos t, trivial⟩
  have hx : Continuous (fun t : ℝ => (fun i f => (i : ℕ) * t + (f : ℕ) : Batch 3 2)) := by fun_prop
  have hx' : Continuous (fun t : ℝ => (fun _ _ => t ^ 2 : Batch 1 2)) := by fun_prop
  have hJ : Continuous (fun _ : ℝ => (fun _ f _ => (f : ℕ) : Jac 1 2 1)) := continuous_const
  have hy : Continuous (fun t : ℝ => (fun i _ => t + (i : ℕ) : Mat 3 1)) := continuous_matrix fun i j => by fun_prop
  exact (C132_slopes_all_partial LinAlg.ideal_exact (.prod (.matern32 none) (.linear none) : KExpr 2)
    movingParams_continuous ha continuous_dataMean hx hy hx' hJ).snd

/-- `SquaredExponential` times `Linear`, which is not `DerivSmooth`: the targets vary. -/
example : Continuous (fun t : ℝ => lmlDerivsDense LinAlg.ideal ⟨fun _ => 1, 1⟩
    (.prod (.squaredExponential none) (.linear none) : KExpr 2).obj dataMean exX exJ
    (fun i u => t ^ (i : ℕ) + (u : ℕ))) := by
  have hy : Continuous (fun t : ℝ => (fun i u => t ^ (i : ℕ) + (u : ℕ) : Mat 2 3)) :=
    continuous_matrix fun i j => by fun_prop
  exact (C132_gpr_slack_partial (n := 2) LinAlg.ideal_exact (.prod (.squaredExponential none) (.linear none) : KExpr 2)
    ⟨trivial, trivial⟩ (θ := fun _ : ℝ => ⟨fun _ => 1, 1⟩) ⟨continuous_const, fun _ => continuous_const⟩
    (fun _ => ⟨by norm_num [Smooth, KPar.val, KPar.sub], trivial⟩) continuous_dataMean continuous_const continuous_const
    (fun _ => exSlack_lt.trans_le (by norm_num [GPParams.noise, noiseJitter])) hy continuous_const
    (x := fun _ => exX) (J := fun _ => exJ) continuous_const).2.2.2.2

end GPX.Props
