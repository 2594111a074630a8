import Verif.Spec.Continuity
import Verif.Props.KernelValues
import Verif.Props.Likelihood
import Verif.Props.SGPR
import Mathlib.Topology.Algebra.GroupWithZero
import Mathlib.Analysis.SpecialFunctions.Pow.Continuity

/-!
# C131: nothing jumps
-/

namespace GPX.Props
open GPX GPX.Spec

variable {T : Type} [TopologicalSpace T] {d n m o : ℕ} {la : LinAlg}

theorem cont_entry {n m : ℕ} {x : T → Batch n m} (h : Continuous x) (i : Fin n) (a : Fin m) :
    Continuous fun t => x t i a :=
  (continuous_apply a).comp ((continuous_apply i).comp h)

theorem cont_sqDist (ad : Dims d) (l : T → ℝ) (hl : Continuous l) (hp : ∀ t, 0 < l t) {x1 : T → Batch n d}
    {x2 : T → Batch m d} (h1 : Continuous x1) (h2 : Continuous x2) (i : Fin n) (j : Fin m) :
    Continuous fun t => squaredDistances (scaled ad (l t) (x1 t)) (scaled ad (l t) (x2 t)) i j := by
  have e1 : ∀ a, Continuous fun t => scaled ad (l t) (x1 t) i a := fun a =>
    (cont_entry h1 i _).div hl fun t => (hp t).ne'
  have e2 : ∀ a, Continuous fun t => scaled ad (l t) (x2 t) j a := fun a =>
    (cont_entry h2 j _).div hl fun t => (hp t).ne'
  unfold squaredDistances
  refine (((continuous_finsetSum _ fun a _ => (e1 a).pow 2).sub
    (continuous_const.mul (continuous_finsetSum _ fun a _ => (e1 a).mul (e2 a)))).add
    (continuous_finsetSum _ fun a _ => (e2 a).pow 2)).add continuous_const

/-- A continuous function with natural values is locally constant, so the power it is the exponent of is continuous. -/
theorem cont_natPow {f g : T → ℝ} (hf : Continuous f) (hg : Continuous g) (hn : ∀ t, ∃ q : ℕ, g t = q) :
    Continuous fun t => f t ^ g t := by
  rw [continuous_iff_continuousAt]
  intro t
  obtain ⟨q, hq⟩ := hn t
  have hev : ∀ᶠ s in nhds t, g s = q := by
    have : ∀ᶠ s in nhds t, |g s - q| < 1 := by
      have hc : ContinuousAt (fun s => |g s - q|) t := ((hg.sub continuous_const).abs).continuousAt
      refine hc.eventually (gt_mem_nhds ?_) |>.mono fun s hs => hs
      simp [hq]
    refine this.mono fun s hs => ?_
    obtain ⟨r, hr⟩ := hn s
    rw [hr] at hs ⊢
    have h1 : |((r : ℤ) - (q : ℤ) : ℤ)| < 1 := by
      have : |(((r : ℤ) - (q : ℤ) : ℤ) : ℝ)| < 1 := by push_cast; exact hs
      exact_mod_cast this
    have h2 : (r : ℤ) - q = 0 := Int.abs_lt_one_iff.mp h1
    have h3 : r = q := by omega
    rw [h3]
  have hc : ContinuousAt (fun s => f s ^ q) t := (hf.pow q).continuousAt
  refine hc.congr (hev.mono fun s hs => ?_)
  simp only [hs, Real.rpow_natCast]

theorem cont_matmul (ad : Dims d) {x1 : T → Batch n d} {x2 : T → Batch m d} (h1 : Continuous x1)
    (h2 : Continuous x2) (i : Fin n) (j : Fin m) :
    Continuous fun t => matmulT (ad.takeCols (x1 t)) (ad.takeCols (x2 t)) i j := by
  unfold matmulT
  exact continuous_finsetSum _ fun a _ => (cont_entry h1 i _).mul (cont_entry h2 j _)

theorem ess_value (a : Option (Dims d)) (p : KPar) (x1 : Batch n d) (x2 : Batch m d) (i : Fin n) (j : Fin m) :
    (KernelObj.expSinSquared a).k p x1 x2 i j =
      Real.exp (-4 * ∑ b, Real.sin (Real.pi * |x1 i ((Dims.resolve a).idx b) -
        x2 j ((Dims.resolve a).idx b)| / p.val "periodicity") ^ 2 / p.val "lengthscale") := by
  rw [(closed_ess a p).k]
  simp only [Core.ess, essS]
  congr 2
  refine Finset.sum_congr rfl fun b _ => ?_
  have := sin_abs_sq (p.val "periodicity") (x1 i ((Dims.resolve a).idx b) - x2 j ((Dims.resolve a).idx b))
  simp only [Dims.take]
  rw [← this, div_eq_mul_inv _ (p.val "periodicity")]
  ring

/-- **C131**, kernels: every entry of the kernel matrix of every kernel expression is a continuous function of the
hyperparameters and of both datasets, as long as the hyperparameters are admissible. -/
theorem C131_kernel (e : KExpr d) (p : T → KPar) (hp : ∀ path, Continuous fun t => p t path)
    (ha : ∀ t, Admissible e (p t)) {x1 : T → Batch n d} {x2 : T → Batch m d} (h1 : Continuous x1)
    (h2 : Continuous x2) (i : Fin n) (j : Fin m) : Continuous fun t => e.obj.k (p t) (x1 t) (x2 t) i j := by
  induction e generalizing p with
  | constant a => exact continuous_const.mul (hp _)
  | linear a => exact cont_matmul _ h1 h2 i j
  | polynomial a ni =>
    have hb := (hp ["offset"]).add (cont_matmul (Dims.resolve a) h1 h2 i j)
    have hd := hp ["degree"]
    have hn : ∀ t, ∃ q : ℕ, p t ["degree"] = q := fun t => (ha t).1
    cases ni
    · exact cont_natPow hb hd hn
    · exact (cont_natPow hb hd hn).sub (cont_natPow (hp ["offset"]) hd hn)
  | squaredExponential a =>
    exact Real.continuous_exp.comp (cont_sqDist (Dims.resolve a) _ (hp ["lengthscale"]) ha h1 h2 i j).neg
  | matern12 a =>
    exact Real.continuous_exp.comp (((cont_sqDist (Dims.resolve a) _ (hp ["lengthscale"]) ha h1 h2 i j).max
      continuous_const).sqrt).neg
  | matern32 a =>
    have hD := continuous_const (y := Real.sqrt 3) |>.mul ((cont_sqDist (Dims.resolve a) _ (hp ["lengthscale"]) ha
      h1 h2 i j).max (continuous_const (y := maternFloor))).sqrt
    exact (continuous_const.add hD).mul (Real.continuous_exp.comp hD.neg)
  | matern52 a =>
    have hD := continuous_const (y := Real.sqrt 5) |>.mul ((cont_sqDist (Dims.resolve a) _ (hp ["lengthscale"]) ha
      h1 h2 i j).max (continuous_const (y := maternFloor))).sqrt
    exact ((continuous_const.add hD).add ((hD.pow 2).div_const 3)).mul (Real.continuous_exp.comp hD.neg)
  | expSinSquared a =>
    have hf : ∀ t, (KExpr.expSinSquared a : KExpr d).obj.k (p t) (x1 t) (x2 t) i j =
        Real.exp (-4 * ∑ b, Real.sin (Real.pi * |x1 t i ((Dims.resolve a).idx b) -
          x2 t j ((Dims.resolve a).idx b)| / p t ["periodicity"]) ^ 2 / p t ["lengthscale"]) := fun t =>
      ess_value a (p t) (x1 t) (x2 t) i j
    simp only [hf]
    refine Real.continuous_exp.comp (continuous_const.mul (continuous_finsetSum _ fun b _ => ?_))
    refine ((Real.continuous_sin.comp (Continuous.div (continuous_const.mul ((cont_entry h1 i _).sub
      (cont_entry h2 j _)).abs) (hp ["periodicity"]) fun t => (ha t).2.ne')).pow 2).div (hp ["lengthscale"])
      fun t => (ha t).1.ne'
  | sum e1 e2 ih1 ih2 =>
    exact (ih1 (fun t => (p t).sub "kernel1") (fun path => hp _) fun t => (ha t).1).add
      (ih2 (fun t => (p t).sub "kernel2") (fun path => hp _) fun t => (ha t).2)
  | prod e1 e2 ih1 ih2 =>
    exact (ih1 (fun t => (p t).sub "kernel1") (fun path => hp _) fun t => (ha t).1).mul
      (ih2 (fun t => (p t).sub "kernel2") (fun path => hp _) fun t => (ha t).2)

/-! ## Models -/

theorem cont_gram (e : KExpr d) {θ : T → GPParams} (hθ : ContinuousParams θ)
    (ha : ∀ t, Admissible e (θ t).kernelParams) {x1 : T → Batch n d} {x2 : T → Batch m d} (h1 : Continuous x1)
    (h2 : Continuous x2) : Continuous fun t => (Matrix.of (e.obj.k (θ t).kernelParams (x1 t) (x2 t)) : Mat n m) :=
  continuous_matrix fun i j => C131_kernel e _ hθ.kernel ha h1 h2 i j

theorem cont_noise {θ : T → GPParams} (hθ : ContinuousParams θ) (n : ℕ) :
    Continuous fun t => (θ t).noise • (1 : Mat n n) :=
  ((hθ.sigma.pow 2).add continuous_const).smul continuous_const

theorem cont_inv {A : T → Mat n n} (hA : Continuous A) (hu : ∀ t, IsUnit (A t).det) : Continuous fun t => (A t)⁻¹ := by
  have he : ∀ t, (A t)⁻¹ = ((A t).det)⁻¹ • (A t).adjugate := fun t => by
    rw [Matrix.inv_def, Ring.inverse_eq_inv']
  simp only [he]
  exact (hA.matrix_det.inv₀ fun t => (hu t).ne_zero).smul hA.matrix_adjugate

theorem cont_center {mf : MeanFun} (hm : ContinuousMean mf) {y : T → Mat n o} (hy : Continuous y) :
    Continuous fun t => centerBy (y t) (mf (y t)) :=
  continuous_matrix fun i c => ((continuous_apply c).comp ((continuous_apply i).comp hy)).sub ((hm n o).comp hy)

theorem cont_lmlTail (ex : la.Exact) {C : T → Mat m m} (hC : Continuous C) (hp : ∀ t, (C t).PosDef)
    {y : T → Mat m o} (hy : Continuous y) : Continuous fun t => lmlTail la (C t) (y t) := by
  have hCi := cont_inv hC fun t => posDef_isUnit (hp t)
  rcases Nat.eq_zero_or_pos m with rfl | hm0
  · simp only [lmlTail, Nat.cast_zero, div_zero]
    exact continuous_const
  · have hf : ∀ t, lmlTail la (C t) (y t) = (-(1 / 2) * (∑ c, ∑ i, ∑ j, y t i c * (C t)⁻¹ i j * y t j c) -
        1 / 2 * Real.log (C t).det - m * (1 / 2) * Real.log (2 * Real.pi)) / m := by
      intro t
      rw [eq_div_iff (by positivity), mul_comm]
      exact lmlTail_eq (hp t) ex _
    simp only [hf]
    have e1 : ∀ i c, Continuous fun t => y t i c := fun i c =>
      (continuous_apply c).comp ((continuous_apply i).comp hy)
    have e2 : ∀ i j, Continuous fun t => (C t)⁻¹ i j := fun i j =>
      (continuous_apply j).comp ((continuous_apply i).comp hCi)
    exact Continuous.div_const (((continuous_const.mul (continuous_finsetSum _ fun c _ =>
      continuous_finsetSum _ fun i _ => continuous_finsetSum _ fun j _ => ((e1 i c).mul (e2 i j)).mul (e1 j c))).sub
      (continuous_const.mul (hC.matrix_det.log fun t => (hp t).det_pos.ne'))).sub continuous_const) _

theorem cont_solve (ex : la.Exact) {A : T → Mat m m} (hA : Continuous A) (hp : ∀ t, (A t).PosDef) {b : T → Mat m o}
    (hb : Continuous b) : Continuous fun t => la.solve (A t) (b t) := by
  simp only [fun t => ex.solve_eq (posDef_isUnit (hp t)) (b t)]
  exact (cont_inv hA fun t => posDef_isUnit (hp t)).matrix_mul hb

theorem cont_schur (ex : la.Exact) {A : T → Mat m m} (hA : Continuous A) (hp : ∀ t, (A t).PosDef) {B : T → Mat m n}
    (hB : Continuous B) : Continuous fun t => (la.solveLower (la.cholesky (A t)) (B t)).transpose *
      la.solveLower (la.cholesky (A t)) (B t) := by
  simp only [fun t => ex.gram (hp t) (B t)]
  exact (hB.matrix_transpose.matrix_mul (cont_inv hA fun t => posDef_isUnit (hp t))).matrix_mul hB

theorem cont_addScalar {mu : T → ℝ} (hm : Continuous mu) {a : T → Mat n o} (ha : Continuous a) :
    Continuous fun t => addScalar (mu t) (a t) :=
  continuous_matrix fun i c => hm.add ((continuous_apply c).comp ((continuous_apply i).comp ha))

/-- **C131**, GPR: the coefficients, the predictions, their covariance and the log marginal likelihood are continuous
functions of the hyperparameters, the noise, the training inputs, the targets and the prediction points, all of which
may vary at the same time. -/
theorem C131_gpr (ex : la.Exact) (e : KExpr d) {θ : T → GPParams} (hθ : ContinuousParams θ)
    (ha : ∀ t, Admissible e (θ t).kernelParams) {mf : MeanFun} (hm : ContinuousMean mf) {xt : T → Batch m d}
    (hxt : Continuous xt) {y : T → Mat m o} (hy : Continuous y) {x : T → Batch n d} (hx : Continuous x) :
    (Continuous fun t => fitDense la (θ t) e.obj mf (xt t) (y t)) ∧
    (Continuous fun t => predictDense (θ t) e.obj (xt t) (x t) (fitDense la (θ t) e.obj mf (xt t) (y t)).1
      (fitDense la (θ t) e.obj mf (xt t) (y t)).2) ∧
    (Continuous fun t => predictDenseCov la (θ t) e.obj (xt t) (x t)) ∧
    Continuous fun t => lmlDense la (θ t) e.obj mf (xt t) (y t) := by
  have hp : ∀ t, (aLhsNoise (θ t) e.obj (xt t) (xt t)).PosDef := fun t => aLhsNoise_posDef e (θ t) (ha t) (xt t)
  have hC : Continuous fun t => aLhsNoise (θ t) e.obj (xt t) (xt t) := (cont_gram e hθ ha hxt hxt).add (cont_noise hθ m)
  have hmu : Continuous fun t => mf (y t) := (hm m o).comp hy
  have hyc := cont_center hm hy
  have hc := cont_solve ex hC hp hyc
  have hK : Continuous fun t => aLhs (θ t) e.obj (xt t) (x t) := cont_gram e hθ ha hxt hx
  exact ⟨hc.prodMk hmu, cont_addScalar hmu (hK.matrix_transpose.matrix_mul hc),
    (cont_gram e hθ ha hx hx).sub (cont_schur ex hC hp hK), cont_lmlTail ex hC hp hyc⟩

/-- **C131**, SGPR: the same for the sparse model; the inducing points vary as well. -/
theorem C131_sgpr (ex : la.Exact) (e : KExpr d) {θ : T → GPParams} (hθ : ContinuousParams θ)
    (ha : ∀ t, Admissible e (θ t).kernelParams) {mf : MeanFun} (hm : ContinuousMean mf) {l : ℕ} {xl : T → Batch l d}
    (hxl : Continuous xl) {xt : T → Batch m d} (hxt : Continuous xt) {y : T → Mat m o} (hy : Continuous y)
    {x : T → Batch n d} (hx : Continuous x) :
    (Continuous fun t => sgprFitDense la (θ t) e.obj mf (xl t) (xt t) (y t)) ∧
    (Continuous fun t => sgprPredict (θ t) e.obj (xl t) (x t) (sgprFitDense la (θ t) e.obj mf (xl t) (xt t) (y t)).1
      (sgprFitDense la (θ t) e.obj mf (xl t) (xt t) (y t)).2) ∧
    (Continuous fun t => sgprPredictCov la (θ t) e.obj (xl t) (x t)) ∧
    Continuous fun t => sgprLmlDense la (θ t) e.obj mf (xl t) (xt t) (y t) := by
  have hs2 : Continuous fun t => (θ t).sigma ^ 2 := hθ.sigma.pow 2
  have hKll := cont_gram e hθ ha hxl hxl
  have hA : ∀ {q : ℕ} {z : T → Batch q d}, Continuous z → Continuous fun t => (sgprALhs (θ t) e.obj (xl t) (z t)).1 :=
    fun hz => ((hs2.smul hKll).add ((cont_gram e hθ ha hxl hz).matrix_mul
      (cont_gram e hθ ha hxl hz).matrix_transpose)).add continuous_const
  have hp : ∀ {q : ℕ} (z : T → Batch q d) (t : T), (sgprALhs (θ t) e.obj (xl t) (z t)).1.PosDef := fun z t =>
    sgprALhs_posDef e (θ t) (ha t) (xl t) (z t)
  have hmu : Continuous fun t => mf (y t) := (hm m o).comp hy
  have hyc := cont_center hm hy
  have hc := cont_solve ex (hA hxt) (hp xt) ((cont_gram e hθ ha hxl hxt).matrix_mul hyc)
  have hKm : Continuous fun t => (Matrix.of (e.obj.k (θ t).kernelParams (xl t) (xl t)) : Mat l l) +
      noiseJitter • (1 : Mat l l) := hKll.add continuous_const
  have hKp : ∀ t, ((Matrix.of (e.obj.k (θ t).kernelParams (xl t) (xl t)) : Mat l l) +
      noiseJitter • (1 : Mat l l)).PosDef := fun t =>
    posDef_add_smul_one (C22_gram_posSemidef e (θ t).kernelParams (ha t) (xl t)) jitter_pos'
  refine ⟨hc.prodMk hmu, cont_addScalar hmu ((cont_gram e hθ ha hx hxl).matrix_mul hc), ?_, ?_⟩
  · exact ((cont_gram e hθ ha hx hx).sub (cont_schur ex hKm hKp (cont_gram e hθ ha hxl hx))).add
      (hs2.smul (cont_schur ex (hA hx) (hp x) (cont_gram e hθ ha hxl hx)))
  · have hG := cont_schur ex hKm hKp (cont_gram e hθ ha hxl hxt)
    refine cont_lmlTail ex ((hG.add (hs2.smul continuous_const)).add continuous_const) (fun t => ?_) hyc
    have hq := posDef_add_smul_one (gram_posSemidef (la.solveLower (la.cholesky
      ((Matrix.of (e.obj.k (θ t).kernelParams (xl t) (xl t)) : Mat l l) + noiseJitter • (1 : Mat l l)))
      (Matrix.of (e.obj.k (θ t).kernelParams (xl t) (xt t)) : Mat l m))) (noise_pos (θ t))
    unfold GPParams.noise at hq
    rw [add_smul, ← add_assoc] at hq
    exact hq

/-! ## Non-vacuity -/

theorem continuous_zeroMean : ContinuousMean zeroMean := fun _ _ => continuous_const

theorem continuous_dataMean : ContinuousMean dataMean := fun n o => by
  unfold dataMean
  exact Continuous.div_const (continuous_finsetSum _ fun i _ => continuous_finsetSum _ fun c _ =>
    (continuous_apply c).comp (continuous_apply i)) _

/-- Lengthscale and noise vary with `t`, one training input moves away from the other. -/
noncomputable def movingParams (t : ℝ) : GPParams := ⟨fun _ => Real.exp t, t⟩

theorem movingParams_continuous : ContinuousParams movingParams :=
  ⟨continuous_id, fun _ => Real.continuous_exp⟩

example : (∀ t, Admissible (.sum (.matern12 none) (.prod (.constant none) (.expSinSquared none)) : KExpr 1)
      (movingParams t).kernelParams) ∧
    Continuous (fun t : ℝ => (fun i _ => (i : ℕ) * t : Batch 2 1)) ∧
    Continuous (fun t : ℝ => lmlDense LinAlg.ideal (movingParams t)
      (.sum (.matern12 none) (.prod (.constant none) (.expSinSquared none)) : KExpr 1).obj dataMean
      (fun i _ => (i : ℕ) * t : Batch 2 1) (fun _ _ => t ^ 2 : Mat 2 1)) := by
  have ha : ∀ t, Admissible (.sum (.matern12 none) (.prod (.constant none) (.expSinSquared none)) : KExpr 1)
      (movingParams t).kernelParams := fun t =>
    ⟨Real.exp_pos t, (Real.exp_pos t).le, Real.exp_pos t, Real.exp_pos t⟩
  have hx : Continuous (fun t : ℝ => (fun i _ => (i : ℕ) * t : Batch 2 1)) := by fun_prop
  have hy : Continuous (fun t : ℝ => (fun _ _ => t ^ 2 : Mat 2 1)) := continuous_matrix fun i j => by fun_prop
  exact ⟨ha, hx, (C131_gpr (n := 2) LinAlg.ideal_exact _ movingParams_continuous ha continuous_dataMean hx hy
    hx).2.2.2⟩

end GPX.Props
