import Verif.Spec.Gradient
import Verif.Props.Continuity
import Verif.Props.Bijectors
import Mathlib.Analysis.Calculus.LocalExtr.Basic
import Mathlib.Analysis.Calculus.Deriv.Mul
import Mathlib.Analysis.Calculus.Deriv.Add
import Mathlib.Analysis.SpecialFunctions.Log.Deriv
import Mathlib.Analysis.SpecialFunctions.ExpDeriv
import Mathlib.Analysis.SpecialFunctions.Sqrt
import Mathlib.Analysis.SpecialFunctions.Trigonometric.Deriv

/-!
# C145: the training objective has a gradient everywhere, and which one
-/

namespace GPX.Props
open GPX GPX.Spec

variable {E : Type} [NormedAddCommGroup E] [NormedSpace ℝ E] {d n m o : ℕ} {la : LinAlg}

/-! ## Kernels -/

theorem diff_sum {ι : Type} [Fintype ι] {f : ι → E → ℝ} (h : ∀ i, Differentiable ℝ (f i)) :
    Differentiable ℝ fun t => ∑ i, f i t := Differentiable.fun_sum fun i _ => h i

theorem diff_prod {ι : Type} [Fintype ι] {f : ι → E → ℝ} (h : ∀ i, Differentiable ℝ (f i)) :
    Differentiable ℝ fun t => ∏ i, f i t := by
  classical
  intro t
  have := (HasFDerivAt.finsetProd (u := Finset.univ) fun i _ => (h i t).hasFDerivAt).differentiableAt
  refine this.congr_of_eventuallyEq (Filter.Eventually.of_forall fun s => ?_)
  simp

theorem diff_div {f g : E → ℝ} (hf : Differentiable ℝ f) (hg : Differentiable ℝ g) (h0 : ∀ t, g t ≠ 0) :
    Differentiable ℝ fun t => f t / g t := by
  simp only [div_eq_mul_inv]
  exact hf.fun_mul (hg.fun_inv h0)

theorem diff_sqDist (ad : Dims d) (l : E → ℝ) (hl : Differentiable ℝ l) (hp : ∀ t, 0 < l t) {x1 : E → Batch n d}
    {x2 : E → Batch m d} (h1 : DiffEntries x1) (h2 : DiffEntries x2) (i : Fin n) (j : Fin m) :
    Differentiable ℝ fun t => squaredDistances (scaled ad (l t) (x1 t)) (scaled ad (l t) (x2 t)) i j := by
  have e1 : ∀ a, Differentiable ℝ fun t => scaled ad (l t) (x1 t) i a := fun a =>
    diff_div (h1 i _) hl fun t => (hp t).ne'
  have e2 : ∀ a, Differentiable ℝ fun t => scaled ad (l t) (x2 t) j a := fun a =>
    diff_div (h2 j _) hl fun t => (hp t).ne'
  unfold squaredDistances
  exact ((((diff_sum fun a => (e1 a).fun_pow 2).fun_sub
    ((diff_sum fun a => (e1 a).fun_mul (e2 a)).const_mul 2)).fun_add
    (diff_sum fun a => (e2 a).fun_pow 2)).add_const _)

/-- The squared distances the kernels are built on are never below the jitter that is added to them. -/
theorem jitter_le_sqDist {k : ℕ} (x1 : Batch n k) (x2 : Batch m k) (i : Fin n) (j : Fin m) :
    sqDistJitter ≤ squaredDistances x1 x2 i j := by
  have : (∑ a, x1 i a ^ 2) - 2 * (∑ a, x1 i a * x2 j a) + (∑ a, x2 j a ^ 2) = ∑ a, (x1 i a - x2 j a) ^ 2 := by
    rw [Finset.mul_sum, ← Finset.sum_sub_distrib, ← Finset.sum_add_distrib]
    exact Finset.sum_congr rfl fun a _ => by ring
  unfold squaredDistances
  rw [this]
  have h : 0 ≤ ∑ a, (x1 i a - x2 j a) ^ 2 := Finset.sum_nonneg fun a _ => sq_nonneg _
  linarith

/-- The distance of the Matérn kernels is differentiable: the jitter keeps it off the floor and off the kink of the
square root. -/
theorem diff_dist (ad : Dims d) (l : E → ℝ) (hl : Differentiable ℝ l) (hp : ∀ t, 0 < l t) {x1 : E → Batch n d}
    {x2 : E → Batch m d} (h1 : DiffEntries x1) (h2 : DiffEntries x2) (i : Fin n) (j : Fin m) :
    Differentiable ℝ fun t =>
      Real.sqrt (max (squaredDistances (scaled ad (l t) (x1 t)) (scaled ad (l t) (x2 t)) i j) maternFloor) := by
  have hb : ∀ t, maternFloor ≤ squaredDistances (scaled ad (l t) (x1 t)) (scaled ad (l t) (x2 t)) i j := fun t => by
    have := jitter_le_sqDist (scaled ad (l t) (x1 t)) (scaled ad (l t) (x2 t)) i j
    unfold sqDistJitter at this
    unfold maternFloor
    linarith
  simp only [fun t => max_eq_left (hb t)]
  exact (diff_sqDist ad l hl hp h1 h2 i j).sqrt fun t => by
    have := hb t
    have h0 : 0 < maternFloor := by unfold maternFloor; positivity
    linarith

theorem diff_natPow {f g : E → ℝ} (hf : Differentiable ℝ f) (hg : Differentiable ℝ g) (hn : ∀ t, ∃ q : ℕ, g t = q) :
    Differentiable ℝ fun t => f t ^ g t := by
  intro t
  obtain ⟨q, hq⟩ := hn t
  have hev : ∀ᶠ s in nhds t, g s = q := by
    have : ∀ᶠ s in nhds t, |g s - q| < 1 := by
      have hc : ContinuousAt (fun s => |g s - q|) t := ((hg.continuous.sub continuous_const).abs).continuousAt
      refine hc.eventually (gt_mem_nhds ?_) |>.mono fun s hs => hs
      simp [hq]
    refine this.mono fun s hs => ?_
    obtain ⟨r, hr⟩ := hn s
    rw [hr] at hs ⊢
    have h1 : |((r : ℤ) - (q : ℤ) : ℤ)| < 1 := by
      have : |(((r : ℤ) - (q : ℤ) : ℤ) : ℝ)| < 1 := by push_cast; exact hs
      exact_mod_cast this
    have h2 : (r : ℤ) - q = 0 := Int.abs_lt_one_iff.mp h1
    have h3 : r = q := by omega
    rw [h3]
  have hc : DifferentiableAt ℝ (fun s => f s ^ q) t := (hf t).fun_pow q
  refine hc.congr_of_eventuallyEq (hev.mono fun s hs => ?_)
  simp only [hs, Real.rpow_natCast]

theorem diff_matmul (ad : Dims d) {x1 : E → Batch n d} {x2 : E → Batch m d} (h1 : DiffEntries x1)
    (h2 : DiffEntries x2) (i : Fin n) (j : Fin m) :
    Differentiable ℝ fun t => matmulT (ad.takeCols (x1 t)) (ad.takeCols (x2 t)) i j := by
  unfold matmulT
  exact diff_sum fun a => (h1 i _).fun_mul (h2 j _)

/-- `ess_value` without the absolute value, which the square of the sine does not see. -/
theorem ess_value' (a : Option (Dims d)) (p : KPar) (x1 : Batch n d) (x2 : Batch m d) (i : Fin n) (j : Fin m) :
    (KernelObj.expSinSquared a).k p x1 x2 i j =
      Real.exp (-4 * ∑ b, Real.sin (Real.pi * (x1 i ((Dims.resolve a).idx b) -
        x2 j ((Dims.resolve a).idx b)) / p.val "periodicity") ^ 2 / p.val "lengthscale") := by
  rw [ess_value]
  congr 2
  refine Finset.sum_congr rfl fun b _ => ?_
  congr 1
  rcases abs_choice (x1 i ((Dims.resolve a).idx b) - x2 j ((Dims.resolve a).idx b)) with h | h
  · rw [h]
  · rw [h, mul_neg, neg_div, Real.sin_neg, neg_sq]

/-- **C145**, kernels: every entry of the kernel matrix of every kernel expression is a differentiable function of the
hyperparameters and of both datasets, as long as the hyperparameters are admissible — also where points coincide. -/
theorem C145_kernel (e : KExpr d) (p : E → KPar) (hp : ∀ path, Differentiable ℝ fun t => p t path)
    (ha : ∀ t, Admissible e (p t)) {x1 : E → Batch n d} {x2 : E → Batch m d} (h1 : DiffEntries x1)
    (h2 : DiffEntries x2) : DiffEntries fun t => e.obj.k (p t) (x1 t) (x2 t) := by
  intro i j
  induction e generalizing p with
  | constant a => exact (hp _).const_mul _
  | linear a => exact diff_matmul _ h1 h2 i j
  | polynomial a ni =>
    have hb := (hp ["offset"]).fun_add (diff_matmul (Dims.resolve a) h1 h2 i j)
    have hd := hp ["degree"]
    have hn : ∀ t, ∃ q : ℕ, p t ["degree"] = q := fun t => (ha t).1
    cases ni
    · exact diff_natPow hb hd hn
    · exact (diff_natPow hb hd hn).fun_sub (diff_natPow (hp ["offset"]) hd hn)
  | squaredExponential a =>
    exact (diff_sqDist (Dims.resolve a) _ (hp ["lengthscale"]) ha h1 h2 i j).fun_neg.exp
  | matern12 a =>
    exact (diff_dist (Dims.resolve a) _ (hp ["lengthscale"]) ha h1 h2 i j).fun_neg.exp
  | matern32 a =>
    have hD := (diff_dist (Dims.resolve a) _ (hp ["lengthscale"]) ha h1 h2 i j).const_mul (Real.sqrt 3)
    exact (hD.const_add 1).fun_mul hD.fun_neg.exp
  | matern52 a =>
    have hD := (diff_dist (Dims.resolve a) _ (hp ["lengthscale"]) ha h1 h2 i j).const_mul (Real.sqrt 5)
    exact ((hD.const_add 1).fun_add (diff_div (hD.fun_pow 2) (differentiable_const (3 : ℝ)) fun _ => by norm_num)).fun_mul hD.fun_neg.exp
  | expSinSquared a =>
    have hf : ∀ t, (KExpr.expSinSquared a : KExpr d).obj.k (p t) (x1 t) (x2 t) i j =
        Real.exp (-4 * ∑ b, Real.sin (Real.pi * (x1 t i ((Dims.resolve a).idx b) -
          x2 t j ((Dims.resolve a).idx b)) / p t ["periodicity"]) ^ 2 / p t ["lengthscale"]) := fun t =>
      ess_value' a (p t) (x1 t) (x2 t) i j
    simp only [hf]
    refine ((diff_sum fun b => ?_).const_mul _).exp
    exact diff_div ((diff_div (((h1 i _).fun_sub (h2 j _)).const_mul Real.pi) (hp ["periodicity"]) fun t =>
      (ha t).2.ne').sin.fun_pow 2) (hp ["lengthscale"]) fun t => (ha t).1.ne'
  | sum e1 e2 ih1 ih2 =>
    exact (ih1 (fun t => (p t).sub "kernel1") (fun path => hp _) fun t => (ha t).1).fun_add
      (ih2 (fun t => (p t).sub "kernel2") (fun path => hp _) fun t => (ha t).2)
  | prod e1 e2 ih1 ih2 =>
    exact (ih1 (fun t => (p t).sub "kernel1") (fun path => hp _) fun t => (ha t).1).fun_mul
      (ih2 (fun t => (p t).sub "kernel2") (fun path => hp _) fun t => (ha t).2)

/-! ## Linear algebra -/

theorem diff_mul {A : E → Mat n m} {B : E → Mat m o} (hA : DiffMat A) (hB : DiffMat B) :
    DiffMat fun t => A t * B t := fun i j => by
  simp only [Matrix.mul_apply]
  exact diff_sum fun a => (hA i a).fun_mul (hB a j)

theorem diff_det {A : E → Mat n n} (hA : DiffMat A) : Differentiable ℝ fun t => (A t).det := by
  simp only [Matrix.det_apply']
  exact diff_sum fun σ => (diff_prod fun i => hA (σ i) i).const_mul _

theorem diff_inv {A : E → Mat n n} (hA : DiffMat A) (hu : ∀ t, IsUnit (A t).det) :
    DiffMat fun t => (A t)⁻¹ := fun i j => by
  have he : ∀ t, (A t)⁻¹ i j = ((A t).det)⁻¹ * ((A t).updateRow j (Pi.single i 1)).det := fun t => by
    rw [Matrix.inv_def, Ring.inverse_eq_inv', Matrix.smul_apply, smul_eq_mul, Matrix.adjugate_apply]
  simp only [he]
  refine ((diff_det hA).fun_inv fun t => (hu t).ne_zero).fun_mul (diff_det fun a b => ?_)
  by_cases h : a = j
  · subst h
    simp
  · simp only [Matrix.updateRow_ne h]
    exact hA a b

theorem diff_center {mf : MeanFun} (hm : DiffMean E mf) {y : E → Mat n o} (hy : DiffMat y) :
    DiffMat fun t => centerBy (y t) (mf (y t)) := fun i c => (hy i c).fun_sub (hm n o y hy)

theorem diff_lmlTail (ex : la.Exact) {C : E → Mat m m} (hC : DiffMat C) (hp : ∀ t, (C t).PosDef)
    {y : E → Mat m o} (hy : DiffMat y) : Differentiable ℝ fun t => lmlTail la (C t) (y t) := by
  have hCi := diff_inv hC fun t => posDef_isUnit (hp t)
  rcases Nat.eq_zero_or_pos m with rfl | hm0
  · simp only [lmlTail, Nat.cast_zero, div_zero]
    exact differentiable_const _
  · have hf : ∀ t, lmlTail la (C t) (y t) = (-(1 / 2) * (∑ c, ∑ i, ∑ j, y t i c * (C t)⁻¹ i j * y t j c) -
        1 / 2 * Real.log (C t).det - m * (1 / 2) * Real.log (2 * Real.pi)) / m := by
      intro t
      rw [eq_div_iff (by positivity), mul_comm]
      exact lmlTail_eq (hp t) ex _
    simp only [hf]
    refine diff_div ?_ (differentiable_const _) fun _ => by positivity
    exact (((diff_sum fun c => diff_sum fun i => diff_sum fun j =>
      ((hy i c).fun_mul (hCi i j)).fun_mul (hy j c)).const_mul _).fun_sub
      (((diff_det hC).log fun t => (hp t).det_pos.ne').const_mul _)).sub_const _

theorem diff_solve (ex : la.Exact) {A : E → Mat m m} (hA : DiffMat A) (hp : ∀ t, (A t).PosDef)
    {b : E → Mat m o} (hb : DiffMat b) : DiffMat fun t => la.solve (A t) (b t) := by
  simp only [fun t => ex.solve_eq (posDef_isUnit (hp t)) (b t)]
  exact diff_mul (diff_inv hA fun t => posDef_isUnit (hp t)) hb

theorem diff_schur (ex : la.Exact) {A : E → Mat m m} (hA : DiffMat A) (hp : ∀ t, (A t).PosDef)
    {B : E → Mat m n} (hB : DiffMat B) :
    DiffMat fun t => (la.solveLower (la.cholesky (A t)) (B t)).transpose *
      la.solveLower (la.cholesky (A t)) (B t) := by
  simp only [fun t => ex.gram (hp t) (B t)]
  exact diff_mul (diff_mul (A := fun t => (B t).transpose) (fun i j => hB j i)
    (diff_inv hA fun t => posDef_isUnit (hp t))) hB

/-! ## Models -/

theorem diff_lhs (e : KExpr d) {θ : E → GPParams} (hθ : DiffParams θ) (ha : ∀ t, Admissible e (θ t).kernelParams)
    {x : E → Batch n d} (hx : DiffEntries x) : DiffMat fun t => aLhsNoise (θ t) e.obj (x t) (x t) := fun i j =>
  (C145_kernel e _ hθ.kernel ha hx hx i j).fun_add (((hθ.sigma.fun_pow 2).add_const _).mul_const _)

/-- **C145**, GPR: the coefficients, the mean, the predictions, their covariance and the log marginal likelihood are
differentiable functions of the hyperparameters, the noise, the training inputs, the targets and the prediction
points, all of which may vary at the same time. -/
theorem C145_gpr (ex : la.Exact) (e : KExpr d) {θ : E → GPParams} (hθ : DiffParams θ)
    (ha : ∀ t, Admissible e (θ t).kernelParams) {mf : MeanFun} (hm : DiffMean E mf) {xt : E → Batch m d}
    (hxt : DiffEntries xt) {y : E → Mat m o} (hy : DiffMat y) {x : E → Batch n d}
    (hx : DiffEntries x) :
    (DiffMat fun t => (fitDense la (θ t) e.obj mf (xt t) (y t)).1) ∧
    (DiffMat fun t => predictDense (θ t) e.obj (xt t) (x t) (fitDense la (θ t) e.obj mf (xt t) (y t)).1
      (fitDense la (θ t) e.obj mf (xt t) (y t)).2) ∧
    (DiffMat fun t => predictDenseCov la (θ t) e.obj (xt t) (x t)) ∧
    Differentiable ℝ fun t => lmlDense la (θ t) e.obj mf (xt t) (y t) := by
  have hp : ∀ t, (aLhsNoise (θ t) e.obj (xt t) (xt t)).PosDef := fun t => aLhsNoise_posDef e (θ t) (ha t) (xt t)
  have hC := diff_lhs e hθ ha hxt
  have hmu := hm m o y hy
  have hyc := diff_center hm hy
  have hc := diff_solve ex hC hp hyc
  have hK : DiffMat fun t => aLhs (θ t) e.obj (xt t) (x t) := C145_kernel e _ hθ.kernel ha hxt hx
  refine ⟨hc, fun i c => hmu.fun_add (diff_mul (A := fun t => (aLhs (θ t) e.obj (xt t) (x t)).transpose)
    (fun i j => hK j i) hc i c), fun i j => ?_, diff_lmlTail ex hC hp hyc⟩
  exact (C145_kernel e _ hθ.kernel ha hx hx i j).fun_sub (diff_schur ex hC hp hK i j)

/-- **C145**, SGPR: the same for the sparse model; the inducing points vary as well. -/
theorem C145_sgpr (ex : la.Exact) (e : KExpr d) {θ : E → GPParams} (hθ : DiffParams θ)
    (ha : ∀ t, Admissible e (θ t).kernelParams) {mf : MeanFun} (hm : DiffMean E mf) {l : ℕ} {xl : E → Batch l d}
    (hxl : DiffEntries xl) {xt : E → Batch m d} (hxt : DiffEntries xt) {y : E → Mat m o} (hy : DiffMat y)
    {x : E → Batch n d} (hx : DiffEntries x) :
    (DiffMat fun t => (sgprFitDense la (θ t) e.obj mf (xl t) (xt t) (y t)).1) ∧
    (DiffMat fun t => sgprPredict (θ t) e.obj (xl t) (x t) (sgprFitDense la (θ t) e.obj mf (xl t) (xt t) (y t)).1
      (sgprFitDense la (θ t) e.obj mf (xl t) (xt t) (y t)).2) ∧
    (DiffMat fun t => sgprPredictCov la (θ t) e.obj (xl t) (x t)) ∧
    Differentiable ℝ fun t => sgprLmlDense la (θ t) e.obj mf (xl t) (xt t) (y t) := by
  have hs2 : Differentiable ℝ fun t => (θ t).sigma ^ 2 := hθ.sigma.fun_pow 2
  have hK : ∀ {q r : ℕ} {z : E → Batch q d} {w : E → Batch r d}, DiffEntries z → DiffEntries w →
      DiffMat fun t => (Matrix.of (e.obj.k (θ t).kernelParams (z t) (w t)) : Mat q r) := fun hz hw =>
    C145_kernel e _ hθ.kernel ha hz hw
  have hA : ∀ {q : ℕ} {z : E → Batch q d}, DiffEntries z → DiffMat fun t => (sgprALhs (θ t) e.obj (xl t) (z t)).1 :=
    fun hz i j => ((hs2.fun_mul (hK hxl hxl i j)).fun_add (diff_mul (hK hxl hz)
      (B := fun t => (Matrix.of (e.obj.k (θ t).kernelParams (xl t) _)).transpose) (fun i j => hK hxl hz j i)
      i j)).add_const _
  have hp : ∀ {q : ℕ} (z : E → Batch q d) (t : E), (sgprALhs (θ t) e.obj (xl t) (z t)).1.PosDef := fun z t =>
    sgprALhs_posDef e (θ t) (ha t) (xl t) (z t)
  have hmu := hm m o y hy
  have hyc := diff_center hm hy
  have hc := diff_solve ex (hA hxt) (hp xt) (diff_mul (hK hxl hxt) hyc)
  have hKm : DiffMat fun t => (Matrix.of (e.obj.k (θ t).kernelParams (xl t) (xl t)) : Mat l l) +
      noiseJitter • (1 : Mat l l) := fun i j => (hK hxl hxl i j).add_const _
  have hKp : ∀ t, ((Matrix.of (e.obj.k (θ t).kernelParams (xl t) (xl t)) : Mat l l) +
      noiseJitter • (1 : Mat l l)).PosDef := fun t =>
    posDef_add_smul_one (C22_gram_posSemidef e (θ t).kernelParams (ha t) (xl t)) jitter_pos'
  refine ⟨hc, fun i c => hmu.fun_add (diff_mul (hK hx hxl) hc i c), fun i j => ?_, ?_⟩
  · exact ((hK hx hx i j).fun_sub (diff_schur ex hKm hKp (hK hxl hx) i j)).fun_add
      (hs2.fun_mul (diff_schur ex (hA hx) (hp x) (hK hxl hx) i j))
  · have hG := diff_schur ex hKm hKp (hK hxl hxt)
    refine diff_lmlTail ex (fun i j => ((hG i j).fun_add (hs2.mul_const _)).add_const _) (fun t => ?_) hyc
    have hq := posDef_add_smul_one (gram_posSemidef (la.solveLower (la.cholesky
      ((Matrix.of (e.obj.k (θ t).kernelParams (xl t) (xl t)) : Mat l l) + noiseJitter • (1 : Mat l l)))
      (Matrix.of (e.obj.k (θ t).kernelParams (xl t) (xt t)) : Mat l m))) (noise_pos (θ t))
    unfold GPParams.noise at hq
    rw [add_smul, ← add_assoc] at hq
    exact hq

/-! ## The gradient -/

/-- Jacobi's formula. -/
theorem deriv_det {A : ℝ → Mat n n} {A' : Mat n n} {t : ℝ} (hA : EntryDerivs A A' t) :
    HasDerivAt (fun s => (A s).det) (((A t).adjugate * A').trace) t := by
  have h1 : HasDerivAt (fun s => (A s).det)
      (∑ σ : Equiv.Perm (Fin n), ((Equiv.Perm.sign σ : ℤ) : ℝ) *
        ∑ i, (∏ j ∈ Finset.univ.erase i, A t (σ j) j) • A' (σ i) i) t := by
    simp only [Matrix.det_apply']
    exact HasDerivAt.fun_sum fun σ _ =>
      (HasDerivAt.fun_finsetProd (u := Finset.univ) fun i _ => hA (σ i) i).const_mul _
  convert h1 using 1
  have h2 : ∀ i, ((A t).adjugate * A') i i = ∑ σ : Equiv.Perm (Fin n), ((Equiv.Perm.sign σ : ℤ) : ℝ) *
      ((∏ j ∈ Finset.univ.erase i, A t (σ j) j) * A' (σ i) i) := by
    intro i
    have : ((A t).adjugate * A') i i = ((A t).updateCol i fun k => A' k i).det := by
      rw [← Matrix.cramer_apply, Matrix.cramer_eq_adjugate_mulVec]
      rfl
    rw [this, Matrix.det_apply']
    refine Finset.sum_congr rfl fun σ _ => ?_
    rw [← Finset.prod_erase_mul _ _ (Finset.mem_univ i), Matrix.updateCol_self]
    congr 2
    exact Finset.prod_congr rfl fun j hj => Matrix.updateCol_ne (Finset.ne_of_mem_erase hj)
  simp only [Matrix.trace, Matrix.diag, h2, Finset.mul_sum, smul_eq_mul]
  exact Finset.sum_comm

theorem deriv_inv {A : ℝ → Mat n n} {A' : Mat n n} {t : ℝ} (hA : EntryDerivs A A' t) (hd : DiffMat A)
    (hu : ∀ s, IsUnit (A s).det) : EntryDerivs (fun s => (A s)⁻¹) (-((A t)⁻¹ * A' * (A t)⁻¹)) t := by
  have hB := diff_inv hd hu
  obtain ⟨B', hB'⟩ : ∃ B' : Mat n n, EntryDerivs (fun s => (A s)⁻¹) B' t :=
    ⟨fun i j => deriv (fun s => (A s)⁻¹ i j) t, fun i j => (hB i j t).hasDerivAt⟩
  have h0 : A' * (A t)⁻¹ + A t * B' = 0 := by
    ext i j
    have h1 : HasDerivAt (fun s => (A s * (A s)⁻¹) i j) ((A' * (A t)⁻¹ + A t * B') i j) t := by
      simp only [Matrix.mul_apply, Matrix.add_apply, ← Finset.sum_add_distrib]
      exact HasDerivAt.fun_sum fun a _ => (hA i a).fun_mul (hB' a j)
    have h2 : (fun s => (A s * (A s)⁻¹) i j) = fun _ => (1 : Mat n n) i j := by
      funext s
      rw [Matrix.mul_nonsing_inv _ (hu s)]
    rw [h2] at h1
    exact h1.unique (hasDerivAt_const _ _)
  have h3 : B' = -((A t)⁻¹ * A' * (A t)⁻¹) := by
    have := congrArg (fun M => (A t)⁻¹ * M) h0
    simp only [Matrix.mul_add, ← Matrix.mul_assoc, Matrix.nonsing_inv_mul _ (hu t), Matrix.one_mul,
      Matrix.mul_zero] at this
    exact eq_neg_of_add_eq_zero_right this
  rwa [← h3]

theorem deriv_lmlTail (ex : la.Exact) {C : ℝ → Mat m m} {C' : Mat m m} {t : ℝ} (hC : EntryDerivs C C' t)
    (hd : DiffMat C) (hp : ∀ t, (C t).PosDef) (y : Mat m o) :
    HasDerivAt (fun s => lmlTail la (C s) y)
      ((∑ c, ∑ i, ∑ j, ((C t)⁻¹ * y) i c * C' i j * ((C t)⁻¹ * y) j c - ((C t)⁻¹ * C').trace) / (2 * m)) t := by
  have hu := fun s => posDef_isUnit (hp s)
  have hi := deriv_inv hC hd hu
  rcases Nat.eq_zero_or_pos m with rfl | hm0
  · simp only [lmlTail, Nat.cast_zero, div_zero, mul_zero]
    exact hasDerivAt_const _ _
  · have hm : (m : ℝ) ≠ 0 := by positivity
    have hf : ∀ t, lmlTail la (C t) y = (-(1 / 2) * (∑ c, ∑ i, ∑ j, y i c * (C t)⁻¹ i j * y j c) -
        1 / 2 * Real.log (C t).det - m * (1 / 2) * Real.log (2 * Real.pi)) / m := by
      intro t
      rw [eq_div_iff hm, mul_comm]
      exact lmlTail_eq (hp t) ex _
    simp only [hf]
    have hdet := (deriv_det hC).log (hp t).det_pos.ne'
    have hq : HasDerivAt (fun s => ∑ c, ∑ i, ∑ j, y i c * (C s)⁻¹ i j * y j c)
        (∑ c, ∑ i, ∑ j, y i c * (-((C t)⁻¹ * C' * (C t)⁻¹)) i j * y j c) t :=
      HasDerivAt.fun_sum fun c _ => HasDerivAt.fun_sum fun i _ => HasDerivAt.fun_sum fun j _ =>
        ((hi i j).const_mul _).mul_const _
    have hall := (((hq.const_mul (-(1 / 2))).fun_sub (hdet.const_mul (1 / 2))).sub_const
      (m * (1 / 2) * Real.log (2 * Real.pi))).div_const (m : ℝ)
    refine hall.congr_deriv ?_
    have hs : ((C t)⁻¹).transpose = (C t)⁻¹ := (hp t).isHermitian.inv.eq
    have e1 : ∀ c, ∑ i, ∑ j, y i c * (-((C t)⁻¹ * C' * (C t)⁻¹)) i j * y j c =
        -∑ i, ∑ j, ((C t)⁻¹ * y) i c * C' i j * ((C t)⁻¹ * y) j c := by
      intro c
      have f1 : ∀ (M : Mat m m) (u v : Mat m o), ∑ i, ∑ j, u i c * M i j * v j c = (u.transpose * M * v) c c := by
        intro M u v
        rw [Matrix.mul_assoc, Matrix.mul_apply]
        refine Finset.sum_congr rfl fun i _ => ?_
        rw [Matrix.mul_apply, Finset.mul_sum]
        exact Finset.sum_congr rfl fun j _ => by rw [Matrix.transpose_apply, mul_assoc]
      rw [f1, f1, Matrix.transpose_mul, hs, Matrix.mul_neg, Matrix.neg_mul, Matrix.neg_apply]
      simp only [Matrix.mul_assoc]
    have e2 : ((C t).adjugate * C').trace / (C t).det = ((C t)⁻¹ * C').trace := by
      rw [Matrix.inv_def, Ring.inverse_eq_inv', Matrix.smul_mul, Matrix.trace_smul, smul_eq_mul, div_eq_inv_mul]
    rw [e2]
    simp only [e1, Finset.sum_neg_distrib]
    field_simp

/-- **C145**, the gradient of the log marginal likelihood of GPR: along any differentiable curve of hyperparameters
and noise, with `K'` the derivatives of the entries of the kernel matrix and `s'` the derivative of `sigma`, the
derivative of the log marginal likelihood per sample is
`(Σ_c c_cᵀ (K' + 2 sigma s' 1) c_c - tr (C⁻¹ (K' + 2 sigma s' 1))) / 2n`, where `C` is the kernel matrix plus
`sigma² + 1e-10` on the diagonal and the columns of `c` are the fitted coefficients. -/
theorem C145_gradient (ex : la.Exact) (e : KExpr d) {θ : ℝ → GPParams} (hθ : DiffParams θ)
    (ha : ∀ t, Admissible e (θ t).kernelParams) (mf : MeanFun) (x : Batch n d) (y : Mat n o) (t : ℝ) (K' : Mat n n)
    (hK : EntryDerivs (fun s => Matrix.of (e.obj.k (θ s).kernelParams x x)) K' t) (s' : ℝ)
    (hs : HasDerivAt (fun s => (θ s).sigma) s' t) :
    HasDerivAt (fun s => lmlDense la (θ s) e.obj mf x y)
      ((∑ c, ∑ i, ∑ j, (fitDense la (θ t) e.obj mf x y).1 i c * (K' + (2 * (θ t).sigma * s') • (1 : Mat n n)) i j *
          (fitDense la (θ t) e.obj mf x y).1 j c -
        ((Matrix.of (e.obj.k (θ t).kernelParams x x) + ((θ t).sigma ^ 2 + 1 / 10 ^ 10) • (1 : Mat n n))⁻¹ *
          (K' + (2 * (θ t).sigma * s') • (1 : Mat n n))).trace) / (2 * n)) t := by
  have hp : ∀ t, (aLhsNoise (θ t) e.obj x x).PosDef := fun t => aLhsNoise_posDef e (θ t) (ha t) x
  have hC : DiffMat fun t => aLhsNoise (θ t) e.obj x x := diff_lhs e hθ ha fun i j => differentiable_const _
  have hC' : EntryDerivs (fun s => aLhsNoise (θ s) e.obj x x) (K' + (2 * (θ t).sigma * s') • (1 : Mat n n)) t := by
    intro i j
    have h1 := (hs.fun_pow 2).add_const noiseJitter
    have h2 := (hK i j).fun_add (h1.mul_const ((1 : Mat n n) i j))
    refine h2.congr_deriv ?_
    simp only [Matrix.add_apply, Matrix.smul_apply, smul_eq_mul]
    push_cast
    ring
  have h := deriv_lmlTail ex hC' hC hp (centerBy y (mf y))
  have hc : (fitDense la (θ t) e.obj mf x y).1 = (aLhsNoise (θ t) e.obj x x)⁻¹ * centerBy y (mf y) :=
    ex.solve_eq (posDef_isUnit (hp t)) _
  rw [hc]
  exact h

/-! ## Optima -/

/-- **C145**, optima are stationary: hyperparameters and noise at which no admissible choice has a larger log marginal
likelihood are a stationary point. -/
theorem C145_optimum (ex : la.Exact) (e : KExpr d) (mf : MeanFun) (x : Batch n d) (y : Mat n o) (θ₀ : GPParams)
    (hmax : ∀ θ : GPParams, Admissible e θ.kernelParams → lmlDense la θ e.obj mf x y ≤ lmlDense la θ₀ e.obj mf x y) :
    StationaryPoint e (fun θ => lmlDense la θ e.obj mf x y) θ₀ := by
  intro θ hθ ha h0
  have hC : DiffMat fun t => aLhsNoise (θ t) e.obj x x := diff_lhs e hθ ha fun i j => differentiable_const _
  have hd : Differentiable ℝ fun t => lmlDense la (θ t) e.obj mf x y :=
    diff_lmlTail ex hC (fun t => aLhsNoise_posDef e (θ t) (ha t) x) fun i c => differentiable_const _
  have hl : IsLocalMax (fun t => lmlDense la (θ t) e.obj mf x y) 0 :=
    Filter.Eventually.of_forall fun t => by
      simp only [h0]
      exact hmax (θ t) (ha t)
  have := (hd 0).hasDerivAt
  rwa [hl.deriv_eq_zero] at this

theorem noise_curve (p : KPar) (s : ℝ) : DiffParams fun t : ℝ => (⟨p, s + t⟩ : GPParams) :=
  ⟨differentiable_id.const_add s, fun _ => differentiable_const _⟩

/-- The condition on the noise, along a curve on which only the noise moves. -/
theorem noise_identity (ex : la.Exact) (e : KExpr d) (mf : MeanFun) (x : Batch n d) (y : Mat n o) {θ : ℝ → GPParams}
    (hθ : DiffParams θ) (hk : ∀ t, (θ t).kernelParams = (θ 0).kernelParams) (h : Admissible e (θ 0).kernelParams)
    (hs : (θ 0).sigma ≠ 0) (s' : ℝ) (hs' : HasDerivAt (fun t => (θ t).sigma) s' 0) (hs0 : s' ≠ 0)
    (hz : HasDerivAt (fun t => lmlDense la (θ t) e.obj mf x y) 0 0) :
    ∑ i, ∑ c, (fitDense la (θ 0) e.obj mf x y).1 i c ^ 2 =
      ((Matrix.of (e.obj.k (θ 0).kernelParams x x) + ((θ 0).sigma ^ 2 + 1 / 10 ^ 10) • (1 : Mat n n))⁻¹).trace := by
  rcases Nat.eq_zero_or_pos n with rfl | hn
  · simp [Matrix.trace]
  have hg := C145_gradient ex e hθ (fun t => by rw [hk]; exact h) mf x y 0 0
    (fun i j => by
      simp only [hk]
      exact hasDerivAt_const (0 : ℝ) (e.obj.k (θ 0).kernelParams x x i j)) s' hs'
  have hu := hg.unique hz
  obtain ⟨θ₀, hθ₀⟩ : ∃ θ₀, θ₀ = θ 0 := ⟨_, rfl⟩
  rw [← hθ₀] at hu hs ⊢
  simp only [zero_add, Matrix.mul_smul, Matrix.mul_one, Matrix.trace_smul, smul_eq_mul, Matrix.smul_apply] at hu
  have hn' : (2 * n : ℝ) ≠ 0 := by positivity
  rw [div_eq_zero_iff, or_iff_left hn'] at hu
  have e1 : ∑ c, ∑ i, ∑ j, (fitDense la θ₀ e.obj mf x y).1 i c * (2 * θ₀.sigma * s' * (1 : Mat n n) i j) *
      (fitDense la θ₀ e.obj mf x y).1 j c =
      2 * θ₀.sigma * s' * ∑ i, ∑ c, (fitDense la θ₀ e.obj mf x y).1 i c ^ 2 := by
    rw [Finset.sum_comm, Finset.mul_sum]
    refine Finset.sum_congr rfl fun i _ => ?_
    rw [Finset.mul_sum]
    refine Finset.sum_congr rfl fun c _ => ?_
    rw [Finset.sum_eq_single i (fun j _ hj => by rw [Matrix.one_apply_ne hj.symm]; ring) (by simp)]
    rw [Matrix.one_apply_eq]
    ring
  rw [e1] at hu
  have h2 : 2 * θ₀.sigma * s' ≠ 0 := mul_ne_zero (mul_ne_zero two_ne_zero hs) hs0
  exact mul_left_cancel₀ h2 (sub_eq_zero.mp hu)

/-- **C145**, the noise at a stationary point: unless `sigma = 0`, the squares of all coefficients add up to the trace
of the inverse of the regularised kernel matrix. -/
theorem C145_noise (ex : la.Exact) (e : KExpr d) (mf : MeanFun) (x : Batch n d) (y : Mat n o) (θ₀ : GPParams)
    (h : Admissible e θ₀.kernelParams) (hs : θ₀.sigma ≠ 0)
    (hst : StationaryPoint e (fun θ => lmlDense la θ e.obj mf x y) θ₀) :
    ∑ i, ∑ c, (fitDense la θ₀ e.obj mf x y).1 i c ^ 2 =
      ((Matrix.of (e.obj.k θ₀.kernelParams x x) + (θ₀.sigma ^ 2 + 1 / 10 ^ 10) • (1 : Mat n n))⁻¹).trace := by
  have hθ := noise_curve θ₀.kernelParams θ₀.sigma
  have h0 : (fun t : ℝ => (⟨θ₀.kernelParams, θ₀.sigma + t⟩ : GPParams)) 0 = θ₀ := by simp
  have h1 := noise_identity ex e mf x y hθ (fun _ => rfl) h (by simpa using hs) 1
    ((hasDerivAt_id' (0 : ℝ)).const_add θ₀.sigma) one_ne_zero (hst _ hθ (fun _ => h) h0)
  have h2 : (⟨θ₀.kernelParams, θ₀.sigma + 0⟩ : GPParams) = θ₀ := h0
  rw [h2] at h1
  exact h1

/-- Hyperparameters of `variance * e` with another variance. -/
noncomputable def withVariance (p : KPar) (v : ℝ) : KPar := fun path => if path = ["kernel1", "variance"] then v else p path

/-- The condition on the variance, along a curve on which only the variance in front of the kernel moves. -/
theorem calibrated_identity (ex : la.Exact) (a : Option (Dims d)) (e : KExpr d) (mf : MeanFun) (x : Batch n d)
    (y : Mat n o) {θ : ℝ → GPParams} (hθ : DiffParams θ)
    (ha : ∀ t, Admissible (.prod (.constant a) e) (θ t).kernelParams)
    (hsub : ∀ t, (θ t).kernelParams.sub "kernel2" = (θ 0).kernelParams.sub "kernel2")
    (hσ : ∀ t, (θ t).sigma = (θ 0).sigma) (hv : 0 < (θ 0).kernelParams ["kernel1", "variance"]) (v' : ℝ)
    (hv' : HasDerivAt (fun t => (θ t).kernelParams ["kernel1", "variance"]) v' 0) (hv0 : v' ≠ 0)
    (hz : HasDerivAt (fun t => lmlDense la (θ t) (KExpr.prod (.constant a) e : KExpr d).obj mf x y) 0 0)
    (hN : ∑ i, ∑ c, (fitDense la (θ 0) (KExpr.prod (.constant a) e : KExpr d).obj mf x y).1 i c ^ 2 =
      ((Matrix.of ((KExpr.prod (.constant a) e : KExpr d).obj.k (θ 0).kernelParams x x) +
        ((θ 0).sigma ^ 2 + 1 / 10 ^ 10) • (1 : Mat n n))⁻¹).trace) :
    ∑ i, ∑ c, (y i c - mf y) * (fitDense la (θ 0) (KExpr.prod (.constant a) e : KExpr d).obj mf x y).1 i c = n := by
  rcases Nat.eq_zero_or_pos n with rfl | hn
  · simp
  obtain ⟨ke, hke⟩ : ∃ ke : KExpr d, ke = .prod (.constant a) e := ⟨_, rfl⟩
  have hval : ∀ (p : KPar) (i j : Fin n), ke.obj.k p x x i j =
      p ["kernel1", "variance"] * e.obj.k (p.sub "kernel2") x x i j := by
    intro p i j
    rw [hke]
    change 1 * p ["kernel1", "variance"] * _ = _
    rw [one_mul]
  rw [← hke] at hz ha hN ⊢
  have hg := C145_gradient ex ke hθ ha mf x y 0
    ((v' / (θ 0).kernelParams ["kernel1", "variance"]) • Matrix.of (ke.obj.k (θ 0).kernelParams x x)) (fun i j => by
    simp only [Matrix.of_apply, hval, hsub, Matrix.smul_apply, smul_eq_mul]
    refine (hv'.mul_const (e.obj.k ((θ 0).kernelParams.sub "kernel2") x x i j)).congr_deriv ?_
    field_simp) 0 (by
    have : (fun t => (θ t).sigma) = fun _ => (θ 0).sigma := funext hσ
    rw [this]
    exact hasDerivAt_const _ _)
  have hu := hg.unique hz
  have h := ha 0
  have hr : v' / (θ 0).kernelParams ["kernel1", "variance"] ≠ 0 := div_ne_zero hv0 hv.ne'
  generalize v' / (θ 0).kernelParams ["kernel1", "variance"] = ρ at hu hr
  obtain ⟨θ₀, hθ₀⟩ : ∃ θ₀, θ₀ = θ 0 := ⟨_, rfl⟩
  rw [← hθ₀] at hu hN h ⊢
  simp only [mul_zero, zero_smul, add_zero] at hu
  have hn' : (2 * n : ℝ) ≠ 0 := by positivity
  rw [div_eq_zero_iff, or_iff_left hn'] at hu
  have hp := aLhsNoise_posDef ke θ₀ h x
  have hcol : aLhsNoise θ₀ ke.obj x x * (fitDense la θ₀ ke.obj mf x y).1 = centerBy y (mf y) := by
    change aLhsNoise θ₀ ke.obj x x * la.solve _ _ = _
    rw [ex.solve_eq (posDef_isUnit hp), Matrix.mul_nonsing_inv_cancel_left _ _ (posDef_isUnit hp)]
  set c := (fitDense la θ₀ ke.obj mf x y).1
  set K : Mat n n := Matrix.of (ke.obj.k θ₀.kernelParams x x) with hK
  have hCdef : aLhsNoise θ₀ ke.obj x x = K + (θ₀.sigma ^ 2 + 1 / 10 ^ 10) • (1 : Mat n n) := rfl
  set z := θ₀.sigma ^ 2 + 1 / 10 ^ 10
  have hye : ∀ i b, y i b - mf y = ∑ j, K i j * c j b + z * c i b := by
    intro i b
    have := congrFun (congrFun hcol i) b
    rw [hCdef, Matrix.add_mul, Matrix.smul_mul, Matrix.one_mul, Matrix.add_apply, Matrix.mul_apply,
      Matrix.smul_apply, smul_eq_mul] at this
    exact this.symm
  have htr : ((K + z • (1 : Mat n n))⁻¹ * K).trace = n - z * ((K + z • (1 : Mat n n))⁻¹).trace := by
    have h1 : (K + z • (1 : Mat n n))⁻¹ * K = 1 - z • (K + z • (1 : Mat n n))⁻¹ := by
      have h2 : (K + z • (1 : Mat n n))⁻¹ * (K + z • (1 : Mat n n)) = 1 :=
        Matrix.nonsing_inv_mul _ (posDef_isUnit (hCdef ▸ hp))
      rw [Matrix.mul_add, Matrix.mul_smul, Matrix.mul_one] at h2
      exact eq_sub_of_add_eq h2
    rw [h1, Matrix.trace_sub, Matrix.trace_one, Matrix.trace_smul, smul_eq_mul, Fintype.card_fin]
  have e1 : ∑ b, ∑ i, ∑ j, c i b * (ρ • K) i j * c j b = ρ * ∑ i, ∑ b, (∑ j, K i j * c j b) * c i b := by
    rw [Finset.sum_comm, Finset.mul_sum]
    refine Finset.sum_congr rfl fun i _ => ?_
    rw [Finset.mul_sum]
    refine Finset.sum_congr rfl fun b _ => ?_
    rw [Finset.sum_mul, Finset.mul_sum]
    exact Finset.sum_congr rfl fun j _ => by rw [Matrix.smul_apply, smul_eq_mul]; ring
  rw [e1, Matrix.mul_smul, Matrix.trace_smul, smul_eq_mul, htr] at hu
  have hu := mul_left_cancel₀ hr (sub_eq_zero.mp hu)
  have e2 : ∑ i, ∑ b, (y i b - mf y) * c i b = ∑ i, ∑ b, (∑ j, K i j * c j b) * c i b + z * ∑ i, ∑ b, c i b ^ 2 := by
    simp only [hye, Finset.mul_sum, ← Finset.sum_add_distrib]
    exact Finset.sum_congr rfl fun i _ => Finset.sum_congr rfl fun b _ => by ring
  rw [e2, hN]
  linarith

/-- **C145**, optimal signal variance and noise are calibrated: for a kernel with a variance in front, at every
stationary point with positive variance and nonzero noise, the centred targets satisfy
`Σ_c (y_c - mean)ᵀ C⁻¹ (y_c - mean) = n`: the squared residuals, measured in units of the covariance the model assigns
them, are one on average. -/
theorem C145_calibrated (ex : la.Exact) (a : Option (Dims d)) (e : KExpr d) (mf : MeanFun) (x : Batch n d)
    (y : Mat n o) (θ₀ : GPParams) (h : Admissible (.prod (.constant a) e) θ₀.kernelParams) (hs : θ₀.sigma ≠ 0)
    (hv : 0 < θ₀.kernelParams ["kernel1", "variance"])
    (hst : StationaryPoint (.prod (.constant a) e)
      (fun θ => lmlDense la θ (KExpr.prod (.constant a) e : KExpr d).obj mf x y) θ₀) :
    ∑ i, ∑ c, (y i c - mf y) * (fitDense la θ₀ (KExpr.prod (.constant a) e : KExpr d).obj mf x y).1 i c = n := by
  obtain ⟨v, hv0⟩ : ∃ v, v = θ₀.kernelParams ["kernel1", "variance"] := ⟨_, rfl⟩
  have hsub : ∀ w, (withVariance θ₀.kernelParams w).sub "kernel2" = θ₀.kernelParams.sub "kernel2" := by
    intro w
    funext path
    simp [KPar.sub, withVariance]
  have hvar : ∀ w, withVariance θ₀.kernelParams w ["kernel1", "variance"] = w := fun w => by simp [withVariance]
  have hθ : DiffParams fun t : ℝ => (⟨withVariance θ₀.kernelParams (v * Real.exp t), θ₀.sigma⟩ : GPParams) := by
    refine ⟨differentiable_const _, fun path => ?_⟩
    by_cases hp : path = ["kernel1", "variance"]
    · simp only [withVariance, hp, if_true]
      exact Real.differentiable_exp.const_mul v
    · simp only [withVariance, if_neg hp]
      exact differentiable_const _
  have ha : ∀ t, Admissible (.prod (.constant a) e) (withVariance θ₀.kernelParams (v * Real.exp t)) := by
    intro t
    refine ⟨?_, ?_⟩
    · change 0 ≤ withVariance θ₀.kernelParams (v * Real.exp t) ["kernel1", "variance"]
      rw [hvar]
      rw [hv0]
      exact (mul_pos hv (Real.exp_pos t)).le
    · rw [hsub]
      exact h.2
  have h00 : withVariance θ₀.kernelParams v = θ₀.kernelParams := by
    funext path
    by_cases hp : path = ["kernel1", "variance"]
    · rw [hp, hvar, hv0]
    · simp [withVariance, hp]
  have h0 : (fun t : ℝ => (⟨withVariance θ₀.kernelParams (v * Real.exp t), θ₀.sigma⟩ : GPParams)) 0 = θ₀ := by
    simp [h00]
  have h2 : (⟨withVariance θ₀.kernelParams (v * Real.exp 0), θ₀.sigma⟩ : GPParams) = θ₀ := h0
  have h1 := calibrated_identity ex a e mf x y hθ ha (fun t => by simp only [hsub]) (fun _ => rfl)
    (by rw [h2]; exact hv) v (by
      simp only [hvar]
      refine ((Real.hasDerivAt_exp 0).const_mul v).congr_deriv ?_
      rw [Real.exp_zero, mul_one]) (by rw [hv0]; exact hv.ne') (hst _ hθ ha h0)
    (by rw [h2]; exact C145_noise ex _ mf x y θ₀ h hs hst)
  rw [h2] at h1
  exact h1

/-! ## Unconstrained parameters -/

theorem deriv_softplus (x : ℝ) : HasDerivAt GPX.softplus (Real.exp x / (Real.exp x + 1)) x := by
  have h1 : HasDerivAt (fun x => Real.exp x + Real.exp 0) (Real.exp x) x := (Real.hasDerivAt_exp x).add_const _
  have h2 := (h1.log (by positivity)).add_const spJitter
  rw [Real.exp_zero] at h2
  have hf : GPX.softplus = fun x => Real.log (Real.exp x + 1) + spJitter := by
    funext z
    unfold GPX.softplus logaddexp
    rw [Real.exp_zero]
  rw [hf]
  exact h2

/-- **C145**, bijectors: every bijector has a strictly positive derivative everywhere, so the training objective, as a
function of the unconstrained parameters the optimizers work on, has a gradient everywhere as well, and that gradient
vanishes exactly where the gradient with respect to the hyperparameters does. -/
theorem C145_bijectors (b : Bijector) (hb : Spec.sensible b) (u : ℝ) : ∃ D, 0 < D ∧ HasDerivAt b.forward D u := by
  have hsp : ∀ x : ℝ, 0 < Real.exp x / (Real.exp x + 1) := fun x => by positivity
  cases b with
  | softplus => exact ⟨_, hsp u, deriv_softplus u⟩
  | softMin m =>
    refine ⟨_, hsp (u - m), ?_⟩
    exact (((deriv_softplus (u - m)).comp_sub_const u m).add_const m)
  | softMax M =>
    refine ⟨_, hsp (M - u), ?_⟩
    have h := ((deriv_softplus (M - u)).comp_const_sub M u).fun_neg.add_const M
    rw [neg_neg] at h
    exact h
  | softMinMax m M =>
    have hw : 0 < M - m := sub_pos.mpr hb
    have hsw : 0 < GPX.softplus (M - m) := by
      have h1 : 0 ≤ Real.log (Real.exp (M - m) + Real.exp 0) :=
        Real.log_nonneg (by rw [Real.exp_zero]; linarith [Real.exp_pos (M - m)])
      have h2 : 0 < spJitter := by unfold spJitter; positivity
      unfold GPX.softplus logaddexp
      linarith
    have h1 := (deriv_softplus (u - m)).comp_sub_const u m
    have h2 := HasDerivAt.comp u (deriv_softplus (M - m - GPX.softplus (u - m))) (h1.const_sub (M - m))
    have h3 := ((h2.fun_neg.mul_const (M - m)).div_const (GPX.softplus (M - m))).add_const M
    refine ⟨_, ?_, h3⟩
    have e1 := hsp (u - m)
    have e2 := hsp (M - m - GPX.softplus (u - m))
    rw [mul_neg, neg_neg]
    positivity
  | identity => exact ⟨1, one_pos, hasDerivAt_id' u⟩

/-! ## Non-vacuity -/

theorem diff_zeroMean : DiffMean E zeroMean := fun _ _ _ _ => differentiable_const _

theorem diff_dataMean : DiffMean E dataMean := fun n o y hy => by
  unfold dataMean
  simp only [div_eq_mul_inv]
  exact (diff_sum fun i => diff_sum fun c => hy i c).mul_const _

/-- Lengthscale, variance and noise vary, one training input moves away from the other and passes through it. -/
example : DiffParams movingParams ∧
    (∀ t, Admissible (.sum (.matern12 none) (.prod (.constant none) (.expSinSquared none)) : KExpr 1)
      (movingParams t).kernelParams) ∧
    DiffEntries (fun t : ℝ => (fun i _ => (i : ℕ) * t : Batch 2 1)) ∧
    DiffMat (fun t : ℝ => (fun _ _ => t ^ 2 : Mat 2 1)) :=
  ⟨⟨differentiable_id, fun _ => Real.differentiable_exp⟩,
    fun t => ⟨Real.exp_pos t, (Real.exp_pos t).le, Real.exp_pos t, Real.exp_pos t⟩,
    fun i j => differentiable_id.const_mul _, fun i j => differentiable_id.fun_pow 2⟩

/-- The log marginal likelihood of one sample. -/
theorem lmlTail_one (ex : la.Exact) {C : Mat 1 1} (hC : C.PosDef) (y : Mat 1 1) :
    lmlTail la C y = -(1 / 2) * (y 0 0 ^ 2 / C 0 0) - 1 / 2 * Real.log (C 0 0) - 1 / 2 * Real.log (2 * Real.pi) := by
  have h := lmlTail_eq hC ex y
  have hi : C⁻¹ 0 0 = (C 0 0)⁻¹ := by
    rw [Matrix.inv_def, Ring.inverse_eq_inv', Matrix.adjugate_fin_one, Matrix.det_fin_one]
    simp
  rw [Matrix.det_fin_one] at h
  simp only [Fin.sum_univ_one, Nat.cast_one, one_mul, Fin.isValue, hi] at h
  rw [h, div_eq_mul_inv]
  ring

/-- The hypotheses of `C145_optimum`, `C145_noise` and `C145_calibrated` are met: one sample with target
`sqrt (2 + 1e-10)`, unit variance and `sigma = 1` maximise the likelihood over all admissible parameters. -/
example : ∃ (y : Mat 1 1) (θ₀ : GPParams),
    Admissible (.prod (.constant none) (.constant none) : KExpr 1) θ₀.kernelParams ∧ θ₀.sigma ≠ 0 ∧
    0 < θ₀.kernelParams ["kernel1", "variance"] ∧
    (∀ θ : GPParams, Admissible (.prod (.constant none) (.constant none) : KExpr 1) θ.kernelParams →
      lmlDense LinAlg.ideal θ (.prod (.constant none) (.constant none) : KExpr 1).obj zeroMean (fun _ _ => 0) y ≤
      lmlDense LinAlg.ideal θ₀ (.prod (.constant none) (.constant none) : KExpr 1).obj zeroMean (fun _ _ => 0) y) ∧
    StationaryPoint (.prod (.constant none) (.constant none) : KExpr 1) (fun θ =>
      lmlDense LinAlg.ideal θ (.prod (.constant none) (.constant none) : KExpr 1).obj zeroMean (fun _ _ => 0) y) θ₀ := by
  obtain ⟨e, he⟩ : ∃ e : KExpr 1, e = .prod (.constant none) (.constant none) := ⟨_, rfl⟩
  obtain ⟨A, hA⟩ : ∃ A : ℝ, A = 2 + 1 / 10 ^ 10 := ⟨_, rfl⟩
  have hA0 : 0 < A := by rw [hA]; positivity
  have hadm : Admissible e (fun _ => 1) := by rw [he]; exact ⟨zero_le_one, zero_le_one⟩
  have hmax : ∀ θ : GPParams, Admissible e θ.kernelParams →
      lmlDense LinAlg.ideal θ e.obj zeroMean (fun _ _ => 0) (fun _ _ => Real.sqrt A : Mat 1 1) ≤
      lmlDense LinAlg.ideal ⟨fun _ => 1, 1⟩ e.obj zeroMean (fun _ _ => 0) (fun _ _ => Real.sqrt A : Mat 1 1) := by
    intro θ h
    have hp := aLhsNoise_posDef e θ h (fun _ _ => 0 : Batch 1 1)
    have hp1 := aLhsNoise_posDef e ⟨fun _ => 1, 1⟩ hadm (fun _ _ => 0 : Batch 1 1)
    have ha := hp.diag_pos (i := 0)
    have h1 : aLhsNoise ⟨fun _ => 1, 1⟩ e.obj (fun _ _ => 0 : Batch 1 1) (fun _ _ => 0 : Batch 1 1) 0 0 = A := by
      rw [he, hA]
      change (1 * 1 : ℝ) * (1 * 1) + ((1 : ℝ) ^ 2 + 1 / 10 ^ 10) * (1 : Mat 1 1) 0 0 = _
      rw [Matrix.one_apply_eq]
      ring
    have hy : centerBy (fun _ _ => Real.sqrt A : Mat 1 1) (zeroMean (fun _ _ => Real.sqrt A : Mat 1 1)) 0 0 ^ 2 = A := by
      change (Real.sqrt A - 0) ^ 2 = A
      rw [sub_zero, Real.sq_sqrt hA0.le]
    unfold lmlDense
    rw [lmlTail_one LinAlg.ideal_exact hp, lmlTail_one LinAlg.ideal_exact hp1, h1, hy, div_self hA0.ne']
    generalize aLhsNoise θ e.obj (fun _ _ => 0 : Batch 1 1) (fun _ _ => 0 : Batch 1 1) 0 0 = a at ha ⊢
    have hl := Real.log_le_sub_one_of_pos (div_pos hA0 ha)
    rw [Real.log_div hA0.ne' ha.ne'] at hl
    linarith
  refine ⟨fun _ _ => Real.sqrt A, ⟨fun _ => 1, 1⟩, he ▸ hadm, one_ne_zero, one_pos, he ▸ hmax, ?_⟩
  rw [← he]
  exact C145_optimum LinAlg.ideal_exact e _ _ _ _ hmax

example : Spec.sensible (.softMinMax 0 1) := zero_lt_one

end GPX.Props
