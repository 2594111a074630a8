import Verif.Props.NormalLaw
import Verif.Props.SGPR

/-!
# C151-C154: the likelihood as a probability density; errors of predictions
-/

namespace GPX.Props
open GPX GPX.Spec MeasureTheory ProbabilityTheory Matrix

variable {d m n o v w v' w' : ℕ} {Ω : Type} {la : LinAlg} [MeasurableSpace Ω]

/-! ## C151 -/

/-- A likelihood that is the logarithm of a Gaussian density. -/
theorem density_of_lml {I : Type} [Fintype I] [DecidableEq I] {A : Matrix I I ℝ} (hA : A.PosDef) (μ : I → ℝ)
    {l : (I → ℝ) → ℝ} (hl : ∀ y, l y = Real.log (normalDensity A (y - μ))) :
    normalLaw μ A = volume.withDensity fun y => ENNReal.ofReal (Real.exp (l y)) := by
  rw [normalLaw_normalDensity μ hA]
  congr 1
  funext y
  rw [hl, Real.exp_log (normalDensity_pos hA _)]

theorem lml_density_gpr (ex : la.Exact) (e : KExpr d) (θ : GPParams) (h : Admissible e θ.kernelParams)
    (mf : MeanFun) (mu : ℝ) (hmf : ∀ y : Mat n 1, mf y = mu) (x : Batch n d) (y : Fin n → ℝ) :
    n * lmlDense la θ e.obj mf x (column y) = Real.log (normalDensity (dataCov e.obj θ x) (y - fun _ => mu)) := by
  rw [(C34_single_output_partial ex e θ h mf x (column y)).1, normalDensity_fin, hmf]
  rfl

theorem lml_density_derivs (ex : la.Exact) (e : KExpr d) (θ : GPParams)
    (h : DerivSmooth e θ.kernelParams) (mf : MeanFun) (mu : ℝ) (hmf : ∀ y : Mat (n * v) 1, mf y = mu) (x : Batch n d)
    (J : Jac n d v) (y : Fin (n * v) → ℝ) :
    (n * v : ℕ) * lmlDerivsDense la θ e.obj mf x J (Matrix.of fun i u => y (flat i u)) =
      Real.log (normalDensity (dataCovDerivs e.obj θ x J) (y - fun _ => mu)) := by
  rw [(C34_derivs ex e θ mf x J _ (C65_gram_partial e θ.kernelParams h x J)).1, normalDensity_fin, hmf]
  congr 2
  funext r
  simp [flatCol, flat_eta]

theorem sparseCov_posDef (e : KExpr d) (θ : GPParams) (h : Admissible e θ.kernelParams) (xl : Batch m d) (x : Batch n d) :
    (sparseCov e.obj θ xl x).PosDef := by
  have hk := posDef_add_smul_one (C22_gram_posSemidef e θ.kernelParams h xl) jitter_pos'
  exact posDef_add_smul_one (psd_sandwich (show ((Matrix.of (e.obj.k θ.kernelParams xl xl) : Mat m m) +
    (1 / 10 ^ 10 : ℝ) • (1 : Mat m m))⁻¹.PosSemidef from hk.inv.posSemidef) _) (by positivity)

theorem lml_density_sgpr (ex : la.Exact) (e : KExpr d) (θ : GPParams)
    (h : Admissible e θ.kernelParams) (mf : MeanFun) (mu : ℝ) (hmf : ∀ y : Mat n 1, mf y = mu) (xl : Batch m d)
    (x : Batch n d) (y : Fin n → ℝ) :
    n * sgprLmlDense la θ e.obj mf xl x (column y) =
      Real.log (normalDensity (sparseCov e.obj θ xl x) (y - fun _ => mu)) := by
  rw [(C71_sparse_likelihood ex e θ h mf xl x (column y)).1, normalDensity_fin, hmf]
  rfl

theorem dataCov1_posDef (e : KExpr d) (θ : TDParams) (h : JointSmooth e θ.kernelParams)
    (x : Batch n d) (J : Jac n d v) :
    (Matrix.of (dataCov1 e.obj θ x J) : Matrix (Obs1 n v) (Obs1 n v) ℝ).PosDef := by
  have hA : (Matrix.of (dataCov1 e.obj θ x J) : Matrix (Obs1 n v) (Obs1 n v) ℝ) =
      Matrix.diagonal (noise1 θ) + Matrix.of (cov1 e.obj θ.kernelParams x J x J) := by
    ext a b
    simp [dataCov1, Matrix.diagonal_apply, add_comm]
  rw [hA]
  exact (Matrix.posDef_diagonal_iff.2 (noise1_pos θ)).add_posSemidef (C78_joint_partial e θ.kernelParams h x J J).1

theorem lml_density_td1 (ex : la.Exact) (e : KExpr d) (θ : TDParams)
    (h : JointSmooth e θ.kernelParams) (mf : MeanFun) (mu : ℝ) (hmf : ∀ y : Mat n 1, mf y = mu) (x : Batch n d)
    (hn : n ≠ 0) (J : Jac n d v) (y : Obs1 n v → ℝ) :
    (n + n * v : ℕ) * tdLmlDense1 la θ e.obj mf x (targetsOf y) J (derivsOf y) =
      Real.log (normalDensity (Matrix.of (dataCov1 e.obj θ x J)) (y - priorMean1 mu)) := by
  have hp := C52_posDef1 e.obj θ x J (C78_joint_partial e θ.kernelParams h x J J).1
  rw [(C53_one_set_partial ex e θ mf x hn (targetsOf y) J (derivsOf y) hp).1, ← normalDensity_fin,
    ← normalDensity_reindex (Equiv.ofBijective (pos1 : Obs1 n v → _) pos1_bij)]
  congr 2
  · ext a b
    exact (C52_entries1 e.obj θ x J x J).2.2 a b
  · funext a
    rw [Function.comp_apply, Equiv.ofBijective_apply, rhs1_pos, hmf]
    rcases a with i | ⟨i, u⟩ <;> simp [residual1, priorMean1, targetsOf, derivsOf]

/-- **C151**, GPR with one output and a constant mean function. The exponential of the log marginal likelihood (times
the number of samples, by which the code divides) is the probability density of the targets under the model. -/
theorem C151_gpr (ex : la.Exact) (e : KExpr d) (θ : GPParams) (h : Admissible e θ.kernelParams)
    (mf : MeanFun) (mu : ℝ) (hmf : ∀ y : Mat n 1, mf y = mu) (x : Batch n d) :
    normalLaw (fun _ => mu) (dataCov e.obj θ x) =
      volume.withDensity fun y => ENNReal.ofReal (Real.exp (n * lmlDense la θ e.obj mf x (column y))) :=
  density_of_lml (aLhsNoise_posDef e θ h x) _ (lml_density_gpr ex e θ h mf mu hmf x)

/-- **C151**, GPR trained on derivatives. -/
theorem C151_gpr_derivs (ex : la.Exact) (e : KExpr d) (θ : GPParams)
    (h : DerivSmooth e θ.kernelParams) (mf : MeanFun) (mu : ℝ) (hmf : ∀ y : Mat (n * v) 1, mf y = mu) (x : Batch n d)
    (J : Jac n d v) :
    normalLaw (fun _ => mu) (dataCovDerivs e.obj θ x J) = volume.withDensity fun y =>
      ENNReal.ofReal (Real.exp ((n * v : ℕ) * lmlDerivsDense la θ e.obj mf x J (Matrix.of fun i u => y (flat i u)))) :=
  density_of_lml (C65_fit_well_posed_partial e θ h x J) _ (lml_density_derivs ex e θ h mf mu hmf x J)

/-- **C151**, SGPR with one output and a constant mean function, for the covariance of the sparse model. -/
theorem C151_sgpr (ex : la.Exact) (e : KExpr d) (θ : GPParams) (h : Admissible e θ.kernelParams)
    (mf : MeanFun) (mu : ℝ) (hmf : ∀ y : Mat n 1, mf y = mu) (xl : Batch m d) (x : Batch n d) :
    normalLaw (fun _ => mu) (sparseCov e.obj θ xl x) =
      volume.withDensity fun y => ENNReal.ofReal (Real.exp (n * sgprLmlDense la θ e.obj mf xl x (column y))) :=
  density_of_lml (sparseCov_posDef e θ h xl x) _ (lml_density_sgpr ex e θ h mf mu hmf xl x)

/-- **C151**, GPR_TD with one set of derivatives and a constant mean function. -/
theorem C151_gpr_td1 (ex : la.Exact) (e : KExpr d) (θ : TDParams)
    (h : JointSmooth e θ.kernelParams) (mf : MeanFun) (mu : ℝ) (hmf : ∀ y : Mat n 1, mf y = mu) (x : Batch n d)
    (hn : n ≠ 0) (J : Jac n d v) :
    normalLaw (priorMean1 mu) (Matrix.of (dataCov1 e.obj θ x J)) = volume.withDensity fun y =>
      ENNReal.ofReal (Real.exp ((n + n * v : ℕ) *
        tdLmlDense1 la θ e.obj mf x (targetsOf y) J (derivsOf y))) :=
  density_of_lml (dataCov1_posDef e θ h x J) _ (lml_density_td1 ex e θ h mf mu hmf x hn J)

/-- **C151**, consequence: over all targets, the exponential of the likelihood integrates to one. -/
theorem C151_gpr_total (ex : la.Exact) (e : KExpr d) (θ : GPParams) (h : Admissible e θ.kernelParams)
    (mf : MeanFun) (mu : ℝ) (hmf : ∀ y : Mat n 1, mf y = mu) (x : Batch n d) :
    ∫⁻ y : Fin n → ℝ, ENNReal.ofReal (Real.exp (n * lmlDense la θ e.obj mf x (column y))) = 1 := by
  have hp := normalLaw_prob (fun _ : Fin n => mu) (aLhsNoise_posDef e θ h x).posSemidef
  have h1 := hp.measure_univ
  have h2 := C151_gpr ex e θ h mf mu hmf x
  rw [show dataCov e.obj θ x = aLhsNoise θ e.obj x x from rfl] at h2
  rw [h2, withDensity_apply _ MeasurableSet.univ, Measure.restrict_univ] at h1
  exact h1

/-! ## C152 -/

/-- Comparison of expected likelihoods that are logarithms of Gaussian densities. -/
theorem expected_lml {I : Type} [Fintype I] [DecidableEq I] {A₀ A : Matrix I I ℝ} (hA₀ : A₀.PosDef) (hA : A.PosDef)
    (μ₀ μ : I → ℝ) {N : ℕ} (hN : N ≠ 0) {l₀ l : (I → ℝ) → ℝ} (hl₀ : ∀ y, N * l₀ y = Real.log (normalDensity A₀ (y - μ₀)))
    (hl : ∀ y, N * l y = Real.log (normalDensity A (y - μ))) {P : Measure Ω} {Y : Ω → I → ℝ}
    (hY : IsNormal P Y μ₀ A₀) :
    Integrable (fun ω => l (Y ω)) P ∧ ∫ ω, l (Y ω) ∂P ≤ ∫ ω, l₀ (Y ω) ∂P ∧
      (∫ ω, l (Y ω) ∂P = ∫ ω, l₀ (Y ω) ∂P ↔ A = A₀ ∧ μ = μ₀) := by
  have hN0 : (0 : ℝ) < N := by exact_mod_cast Nat.pos_of_ne_zero hN
  have key : ∀ {B : Matrix I I ℝ} (_ : B.PosDef) (ν : I → ℝ) {g : (I → ℝ) → ℝ}
      (_ : ∀ y, N * g y = Real.log (normalDensity B (y - ν))), Integrable (fun ω => g (Y ω)) P ∧
      ∫ ω, g (Y ω) ∂P = (N : ℝ)⁻¹ * ∫ y, Real.log (normalDensity B (y - ν)) ∂normalLaw μ₀ A₀ := by
    intro B hB ν g hg
    have hi := integrable_log_density μ₀ ν hA₀ hB
    have e : ∀ y, g y = (N : ℝ)⁻¹ * Real.log (normalDensity B (y - ν)) := fun y => by
      rw [← hg, inv_mul_cancel_left₀ hN0.ne']
    have hi2 : Integrable g (normalLaw μ₀ A₀) :=
      (hi.const_mul (N : ℝ)⁻¹).congr (Filter.Eventually.of_forall fun y => (e y).symm)
    rw [← hY.2] at hi2
    refine ⟨hi2.comp_measurable hY.1, ?_⟩
    have h3 := integral_map hY.1.aemeasurable hi2.aestronglyMeasurable
    rw [hY.2] at h3
    rw [← h3, integral_congr_ae (Filter.Eventually.of_forall e), integral_const_mul]
  obtain ⟨i1, e1⟩ := key hA μ hl
  obtain ⟨i0, e0⟩ := key hA₀ μ₀ hl₀
  obtain ⟨g1, g2⟩ := gibbs μ₀ μ hA₀ hA
  refine ⟨i1, ?_, ?_, ?_⟩
  · rw [e1, e0]
    exact mul_le_mul_of_nonneg_left g1 (by positivity)
  · intro heq
    rw [e1, e0] at heq
    exact (g2 (mul_left_cancel₀ (inv_ne_zero hN0.ne') heq)).symm
  · rintro ⟨rfl, rfl⟩
    rw [e1, e0]

/-- **C152**, GPR with one output and constant mean functions. Let the targets be drawn from the model with kernel `e₀`
and hyperparameters `θ₀`. Then no kernel and hyperparameters have a larger expected log marginal likelihood, and those
that reach it give the targets the same mean and covariance. -/
theorem C152_gpr (ex : la.Exact) (e₀ e : KExpr d) (θ₀ θ : GPParams)
    (h₀ : Admissible e₀ θ₀.kernelParams) (h : Admissible e θ.kernelParams) (mf₀ mf : MeanFun) (mu₀ mu : ℝ)
    (hmf₀ : ∀ y : Mat n 1, mf₀ y = mu₀) (hmf : ∀ y : Mat n 1, mf y = mu) (x : Batch n d) (hn : n ≠ 0) (P : Measure Ω)
    (Y : Ω → Fin n → ℝ) (hY : IsNormal P Y (fun _ => mu₀) (dataCov e₀.obj θ₀ x)) :
    Integrable (fun ω => lmlDense la θ e.obj mf x (column (Y ω))) P ∧
    ∫ ω, lmlDense la θ e.obj mf x (column (Y ω)) ∂P ≤ ∫ ω, lmlDense la θ₀ e₀.obj mf₀ x (column (Y ω)) ∂P ∧
    (∫ ω, lmlDense la θ e.obj mf x (column (Y ω)) ∂P = ∫ ω, lmlDense la θ₀ e₀.obj mf₀ x (column (Y ω)) ∂P ↔
      dataCov e.obj θ x = dataCov e₀.obj θ₀ x ∧ mu = mu₀) := by
  obtain ⟨h1, h2, h3⟩ := expected_lml (aLhsNoise_posDef e₀ θ₀ h₀ x) (aLhsNoise_posDef e θ h x) _ _ hn
    (lml_density_gpr ex e₀ θ₀ h₀ mf₀ mu₀ hmf₀ x) (lml_density_gpr ex e θ h mf mu hmf x) hY
  refine ⟨h1, h2, h3.trans ⟨fun ⟨a, b⟩ => ⟨a, ?_⟩, fun ⟨a, b⟩ => ⟨a, by rw [b]⟩⟩⟩
  exact congrFun b ⟨0, Nat.pos_of_ne_zero hn⟩

/-- **C152**, SGPR: targets drawn from the law of one sparse model (its kernel, hyperparameters, inducing points and constant mean). No other
kernel, hyperparameters, inducing points (any number of them) or constant mean have a larger expected likelihood. -/
theorem C152_sgpr {m₀ : ℕ} (ex : la.Exact) (e₀ e : KExpr d) (θ₀ θ : GPParams)
    (h₀ : Admissible e₀ θ₀.kernelParams) (h : Admissible e θ.kernelParams) (mf₀ mf : MeanFun) (mu₀ mu : ℝ)
    (hmf₀ : ∀ y : Mat n 1, mf₀ y = mu₀) (hmf : ∀ y : Mat n 1, mf y = mu) (xl₀ : Batch m₀ d) (xl : Batch m d) (x : Batch n d) (hn : n ≠ 0)
    (P : Measure Ω) (Y : Ω → Fin n → ℝ) (hY : IsNormal P Y (fun _ => mu₀) (sparseCov e₀.obj θ₀ xl₀ x)) :
    Integrable (fun ω => sgprLmlDense la θ e.obj mf xl x (column (Y ω))) P ∧
    ∫ ω, sgprLmlDense la θ e.obj mf xl x (column (Y ω)) ∂P ≤ ∫ ω, sgprLmlDense la θ₀ e₀.obj mf₀ xl₀ x (column (Y ω)) ∂P ∧
    (∫ ω, sgprLmlDense la θ e.obj mf xl x (column (Y ω)) ∂P = ∫ ω, sgprLmlDense la θ₀ e₀.obj mf₀ xl₀ x (column (Y ω)) ∂P ↔
      sparseCov e.obj θ xl x = sparseCov e₀.obj θ₀ xl₀ x ∧ mu = mu₀) := by
  obtain ⟨h1, h2, h3⟩ := expected_lml (sparseCov_posDef e₀ θ₀ h₀ xl₀ x) (sparseCov_posDef e θ h xl x) _ _ hn
    (lml_density_sgpr ex e₀ θ₀ h₀ mf₀ mu₀ hmf₀ xl₀ x) (lml_density_sgpr ex e θ h mf mu hmf xl x) hY
  refine ⟨h1, h2, h3.trans ⟨fun ⟨a, b⟩ => ⟨a, ?_⟩, fun ⟨a, b⟩ => ⟨a, by rw [b]⟩⟩⟩
  exact congrFun b ⟨0, Nat.pos_of_ne_zero hn⟩

/-- **C152**, SGPR on targets drawn from a dense model: whatever the inducing points and hyperparameters of the sparse model, its expected
likelihood is at most that of the dense model, with equality only when the sparse model gives the targets the same mean and covariance. -/
theorem C152_sparse_below_dense (ex : la.Exact) (e₀ e : KExpr d) (θ₀ θ : GPParams)
    (h₀ : Admissible e₀ θ₀.kernelParams) (h : Admissible e θ.kernelParams) (mf₀ mf : MeanFun) (mu₀ mu : ℝ)
    (hmf₀ : ∀ y : Mat n 1, mf₀ y = mu₀) (hmf : ∀ y : Mat n 1, mf y = mu) (xl : Batch m d) (x : Batch n d) (hn : n ≠ 0)
    (P : Measure Ω) (Y : Ω → Fin n → ℝ) (hY : IsNormal P Y (fun _ => mu₀) (dataCov e₀.obj θ₀ x)) :
    ∫ ω, sgprLmlDense la θ e.obj mf xl x (column (Y ω)) ∂P ≤ ∫ ω, lmlDense la θ₀ e₀.obj mf₀ x (column (Y ω)) ∂P ∧
    (∫ ω, sgprLmlDense la θ e.obj mf xl x (column (Y ω)) ∂P = ∫ ω, lmlDense la θ₀ e₀.obj mf₀ x (column (Y ω)) ∂P ↔
      sparseCov e.obj θ xl x = dataCov e₀.obj θ₀ x ∧ mu = mu₀) := by
  obtain ⟨-, h2, h3⟩ := expected_lml (aLhsNoise_posDef e₀ θ₀ h₀ x) (sparseCov_posDef e θ h xl x) _ _ hn
    (lml_density_gpr ex e₀ θ₀ h₀ mf₀ mu₀ hmf₀ x) (lml_density_sgpr ex e θ h mf mu hmf xl x) hY
  refine ⟨h2, h3.trans ⟨fun ⟨a, b⟩ => ⟨a, ?_⟩, fun ⟨a, b⟩ => ⟨a, by rw [b]⟩⟩⟩
  exact congrFun b ⟨0, Nat.pos_of_ne_zero hn⟩

/-- **C152**, GPR trained on derivatives. -/
theorem C152_gpr_derivs (ex : la.Exact) (e₀ e : KExpr d) (θ₀ θ : GPParams)
    (h₀ : DerivSmooth e₀ θ₀.kernelParams) (h : DerivSmooth e θ.kernelParams) (mf : MeanFun)
    (hmf : ∀ y : Mat (n * v) 1, mf y = 0) (x : Batch n d) (J : Jac n d v) (hn : n * v ≠ 0) (P : Measure Ω)
    (Y : Ω → Fin (n * v) → ℝ) (hY : IsNormal P Y 0 (dataCovDerivs e₀.obj θ₀ x J)) :
    let l := fun (e : KExpr d) (θ : GPParams) ω =>
      lmlDerivsDense la θ e.obj mf x J (Matrix.of fun i u => Y ω (flat i u))
    Integrable (l e θ) P ∧ ∫ ω, l e θ ω ∂P ≤ ∫ ω, l e₀ θ₀ ω ∂P ∧
    (∫ ω, l e θ ω ∂P = ∫ ω, l e₀ θ₀ ω ∂P ↔ dataCovDerivs e.obj θ x J = dataCovDerivs e₀.obj θ₀ x J) := by
  obtain ⟨h1, h2, h3⟩ := expected_lml (C65_fit_well_posed_partial e₀ θ₀ h₀ x J)
    (C65_fit_well_posed_partial e θ h x J) _ _ hn (lml_density_derivs ex e₀ θ₀ h₀ mf 0 hmf x J)
    (lml_density_derivs ex e θ h mf 0 hmf x J) hY
  exact ⟨h1, h2, h3.trans ⟨fun ⟨a, b⟩ => a, fun a => ⟨a, rfl⟩⟩⟩

/-- **C152**, GPR_TD with one set of derivatives. -/
theorem C152_gpr_td1 (ex : la.Exact) (e₀ e : KExpr d) (θ₀ θ : TDParams)
    (h₀ : JointSmooth e₀ θ₀.kernelParams) (h : JointSmooth e θ.kernelParams) (mf₀ mf : MeanFun) (mu₀ mu : ℝ)
    (hmf₀ : ∀ y : Mat n 1, mf₀ y = mu₀) (hmf : ∀ y : Mat n 1, mf y = mu) (x : Batch n d) (J : Jac n d v) (hn : n ≠ 0)
    (P : Measure Ω) (Y : Ω → Obs1 n v → ℝ) (hY : IsNormal P Y (priorMean1 mu₀) (Matrix.of (dataCov1 e₀.obj θ₀ x J))) :
    let l := fun (e : KExpr d) (θ : TDParams) (mf : MeanFun) ω =>
      tdLmlDense1 la θ e.obj mf x (targetsOf (Y ω)) J (derivsOf (Y ω))
    Integrable (l e θ mf) P ∧ ∫ ω, l e θ mf ω ∂P ≤ ∫ ω, l e₀ θ₀ mf₀ ω ∂P ∧
    (∫ ω, l e θ mf ω ∂P = ∫ ω, l e₀ θ₀ mf₀ ω ∂P ↔ dataCov1 e.obj θ x J = dataCov1 e₀.obj θ₀ x J ∧ mu = mu₀) := by
  obtain ⟨h1, h2, h3⟩ := expected_lml (dataCov1_posDef e₀ θ₀ h₀ x J) (dataCov1_posDef e θ h x J) _ _
    (by omega : n + n * v ≠ 0) (lml_density_td1 ex e₀ θ₀ h₀ mf₀ mu₀ hmf₀ x hn J)
    (lml_density_td1 ex e θ h mf mu hmf x hn J) hY
  refine ⟨h1, h2, h3.trans ⟨fun ⟨a, b⟩ => ⟨a, ?_⟩, fun ⟨a, b⟩ => ⟨congrArg _ a, by rw [b]⟩⟩⟩
  exact congrFun b (Sum.inl ⟨0, Nat.pos_of_ne_zero hn⟩)

/-! ## C153 -/

/-- **C153**, for every model whose predictions are those of C150: the expected squared error of each prediction is the
predicted variance; every other way to compute a prediction from the observations has an expected squared error at least
as large; and one that is as good makes the same predictions, with probability one. -/
theorem C153_best_prediction {I K : Type} [Fintype I] [DecidableEq I] [Fintype K] [DecidableEq K] (P : Measure Ω)
    [IsProbabilityMeasure P] (Y : Ω → I → ℝ) (g : Ω → K → ℝ) (f : (I → ℝ) → K → ℝ) (C : Matrix K K ℝ)
    (h : PosteriorLaw P Y g f C) (j : K) :
    ∫ ω, (g ω j - f (Y ω) j) ^ 2 ∂P = C j j ∧
    ∀ u : (I → ℝ) → ℝ, Measurable u → MemLp (fun ω => g ω j - u (Y ω)) 2 P →
      C j j ≤ ∫ ω, (g ω j - u (Y ω)) ^ 2 ∂P ∧
      (∫ ω, (g ω j - u (Y ω)) ^ 2 ∂P = C j j → ∀ᵐ ω ∂P, u (Y ω) = f (Y ω) j) := by
  obtain ⟨-, h2, h3⟩ := h.mean_square j
  refine ⟨h2, fun u hu hL => ?_⟩
  obtain ⟨e, hi⟩ := h3 u hu hL
  have h0 : 0 ≤ ∫ ω, (f (Y ω) j - u (Y ω)) ^ 2 ∂P := integral_nonneg fun ω => sq_nonneg _
  refine ⟨by linarith, fun heq => ?_⟩
  have hz : ∫ ω, (f (Y ω) j - u (Y ω)) ^ 2 ∂P = 0 := by linarith
  have := (integral_eq_zero_iff_of_nonneg (fun ω => sq_nonneg _) hi).mp hz
  filter_upwards [this] with ω hω
  have h5 : (f (Y ω) j - u (Y ω)) ^ 2 = 0 := hω
  exact (sub_eq_zero.mp (pow_eq_zero_iff (two_ne_zero)|>.mp h5)).symm

/-- **C153**, GPR: the diagonal of the covariance returned by `predict(full_covariance=True)` is the expected squared
error of the predicted mean, and no other prediction from the same targets does better. -/
theorem C153_gpr (ex : la.Exact) (e : KExpr d) (θ : GPParams) (h : Admissible e θ.kernelParams) (mf : MeanFun) (mu : ℝ)
    (hmf : ∀ y : Mat m 1, mf y = mu) (xt : Batch m d) (x : Batch n d) (P : Measure Ω) [IsProbabilityMeasure P]
    (Y : Ω → Fin m → ℝ) (g : Ω → Fin n → ℝ)
    (hP : NoisyObservations P Y g (fun _ => mu)
      (Matrix.fromBlocks (Matrix.of (e.obj.k θ.kernelParams xt xt)) (Matrix.of (e.obj.k θ.kernelParams xt x))
        (Matrix.of (e.obj.k θ.kernelParams xt x)).transpose (Matrix.of (e.obj.k θ.kernelParams x x)))
      fun _ => θ.sigma ^ 2 + 1 / 10 ^ 10) (j : Fin n) :
    let predicted := fun y : Fin m → ℝ => predictDense θ e.obj xt x (fitDense la θ e.obj mf xt (column y)).1
      (fitDense la θ e.obj mf xt (column y)).2 j 0
    ∫ ω, (g ω j - predicted (Y ω)) ^ 2 ∂P = predictDenseCov la θ e.obj xt x j j ∧
    ∀ u : (Fin m → ℝ) → ℝ, Measurable u → MemLp (fun ω => g ω j - u (Y ω)) 2 P →
      ∫ ω, (g ω j - predicted (Y ω)) ^ 2 ∂P ≤ ∫ ω, (g ω j - u (Y ω)) ^ 2 ∂P ∧
      (∫ ω, (g ω j - u (Y ω)) ^ 2 ∂P = ∫ ω, (g ω j - predicted (Y ω)) ^ 2 ∂P →
        ∀ᵐ ω ∂P, u (Y ω) = predicted (Y ω)) := by
  obtain ⟨h1, h2⟩ := C153_best_prediction P Y g _ _ (C150_gpr ex e θ h mf mu hmf xt x P Y g hP) j
  refine ⟨h1, fun u hu hL => ?_⟩
  obtain ⟨h3, h4⟩ := h2 u hu hL
  exact ⟨h1.trans_le h3, fun heq => h4 (heq.trans h1)⟩

/-! ## C154 -/

/-- **C154**, for every model whose predictions are those of C150: the probability that the truth lies within `z`
predicted standard deviations of the prediction is the probability that a standard normal number lies in `[-z, z]`; where
the predicted variance is zero, the prediction is right with probability one. -/
theorem C154_coverage {I K : Type} [Fintype I] [DecidableEq I] [Fintype K] [DecidableEq K] (P : Measure Ω)
    [IsProbabilityMeasure P] (Y : Ω → I → ℝ) (g : Ω → K → ℝ) (f : (I → ℝ) → K → ℝ) (C : Matrix K K ℝ)
    (h : PosteriorLaw P Y g f C) (j : K) (z : ℝ) :
    (0 < C j j → P {ω | |g ω j - f (Y ω) j| ≤ z * Real.sqrt (C j j)} = gaussianReal 0 1 (Set.Icc (-z) z)) ∧
    (C j j = 0 → ∀ᵐ ω ∂P, g ω j = f (Y ω) j) :=
  h.coverage j z

/-- **C154**, GPR: the intervals `mean ± z √variance` contain the truth with the nominal probability. -/
theorem C154_gpr (ex : la.Exact) (e : KExpr d) (θ : GPParams) (h : Admissible e θ.kernelParams) (mf : MeanFun) (mu : ℝ)
    (hmf : ∀ y : Mat m 1, mf y = mu) (xt : Batch m d) (x : Batch n d) (P : Measure Ω) [IsProbabilityMeasure P]
    (Y : Ω → Fin m → ℝ) (g : Ω → Fin n → ℝ)
    (hP : NoisyObservations P Y g (fun _ => mu)
      (Matrix.fromBlocks (Matrix.of (e.obj.k θ.kernelParams xt xt)) (Matrix.of (e.obj.k θ.kernelParams xt x))
        (Matrix.of (e.obj.k θ.kernelParams xt x)).transpose (Matrix.of (e.obj.k θ.kernelParams x x)))
      fun _ => θ.sigma ^ 2 + 1 / 10 ^ 10) (j : Fin n) (z : ℝ) (hpos : 0 < predictDenseCov la θ e.obj xt x j j) :
    P {ω | |g ω j - predictDense θ e.obj xt x (fitDense la θ e.obj mf xt (column (Y ω))).1
        (fitDense la θ e.obj mf xt (column (Y ω))).2 j 0| ≤ z * Real.sqrt (predictDenseCov la θ e.obj xt x j j)} =
      gaussianReal 0 1 (Set.Icc (-z) z) :=
  (C154_coverage P Y g _ _ (C150_gpr ex e θ h mf mu hmf xt x P Y g hP) j z).1 hpos

/-- Beside C150, C153 and C154: for every kernel, hyperparameters and inputs there are random targets as in the
hypotheses. -/
example (e : KExpr d) (θ : GPParams) (h : Admissible e θ.kernelParams) (mu : ℝ) (xt : Batch m d) (x : Batch n d) :
    ∃ (Ω : Type) (_ : MeasurableSpace Ω) (P : Measure Ω) (_ : IsProbabilityMeasure P) (Y : Ω → Fin m → ℝ)
      (g : Ω → Fin n → ℝ), NoisyObservations P Y g (fun _ => mu)
      (Matrix.fromBlocks (Matrix.of (e.obj.k θ.kernelParams xt xt)) (Matrix.of (e.obj.k θ.kernelParams xt x))
        (Matrix.of (e.obj.k θ.kernelParams xt x)).transpose (Matrix.of (e.obj.k θ.kernelParams x x)))
      fun _ => θ.sigma ^ 2 + 1 / 10 ^ 10 :=
  exists_noisyObservations _ (joint_psd e θ.kernelParams h xt x) fun _ => by positivity

/-- The same for targets and derivatives. -/
example (e : KExpr d) (θ : TDParams) (h : JointSmooth e θ.kernelParams) (mu : ℝ) (xt : Batch m d)
    (Jt : Jac m d v) (x : Batch n d) (J : Jac n d w) :
    ∃ (Ω : Type) (_ : MeasurableSpace Ω) (P : Measure Ω) (_ : IsProbabilityMeasure P) (Y : Ω → Obs1 m v → ℝ)
      (g : Ω → Obs1 n w → ℝ), NoisyObservations P Y g (Sum.elim (priorMean1 mu) (priorMean1 mu))
      (Matrix.fromBlocks (Matrix.of (cov1 e.obj θ.kernelParams xt Jt xt Jt))
        (Matrix.of (cov1 e.obj θ.kernelParams xt Jt x J)) (Matrix.of (cov1 e.obj θ.kernelParams xt Jt x J)).transpose
        (Matrix.of (cov1 e.obj θ.kernelParams x J x J))) (noise1 θ) :=
  exists_noisyObservations _ (joint_observations e θ.kernelParams h xt Jt Jt x J J).2 fun a => (noise1_pos θ a).le

/-- Beside C152: targets drawn from the model exist. -/
example (e : KExpr d) (θ : GPParams) (h : Admissible e θ.kernelParams) (mu : ℝ) (x : Batch n d) :
    IsProbabilityMeasure (normalLaw (fun _ => mu) (dataCov e.obj θ x)) ∧
      IsNormal (normalLaw (fun _ => mu) (dataCov e.obj θ x)) id (fun _ => mu) (dataCov e.obj θ x) :=
  ⟨normalLaw_prob _ (aLhsNoise_posDef e θ h x).posSemidef, measurable_id, Measure.map_id⟩

/-- Beside C151-C154: a concrete kernel, hyperparameters and mean function as in the hypotheses. -/
example : Admissible (.matern52 none : KExpr 2) (fun _ => 1) ∧
    JointSmooth (.matern52 none : KExpr 2) (fun _ => 1) ∧ DerivSmooth (.matern52 none : KExpr 2) (fun _ => 1) ∧
    LinAlg.ideal.Exact ∧ ∀ y : Mat 2 1, (fun {n o} (_ : Mat n o) => (3 : ℝ) : MeanFun) y = 3 :=
  ⟨by norm_num [Admissible, KPar.val], by norm_num [JointSmooth, KPar.val],
    .joint (by norm_num [JointSmooth, KPar.val]), LinAlg.ideal_exact, fun _ => rfl⟩

/-- Beside C152 for the sparse models: such targets exist for every kernel and inducing points. -/
example (x : Batch 3 2) (xl : Batch 2 2) : ∃ (P : Measure (Fin 3 → ℝ)), IsProbabilityMeasure P ∧
    IsNormal P id (fun _ => 0) (sparseCov (.matern52 none : KExpr 2).obj ⟨fun _ => 1, 1⟩ xl x) :=
  ⟨_, normalLaw_prob _ (sparseCov_posDef (.matern52 none) ⟨fun _ => 1, 1⟩ (by norm_num [Admissible, KPar.val]) xl x).posSemidef,
    measurable_id, Measure.map_id⟩

/-- Beside C152: targets drawn with noise `sigma = 1`; hyperparameters with `sigma = 2` are strictly less likely on
average. -/
example (x : Batch 3 2) (P : Measure Ω) (Y : Ω → Fin 3 → ℝ)
    (hY : IsNormal P Y (fun _ => 0) (dataCov (.matern52 none : KExpr 2).obj ⟨fun _ => 1, 1⟩ x)) :
    ∫ ω, lmlDense LinAlg.ideal ⟨fun _ => 1, 2⟩ (.matern52 none : KExpr 2).obj zeroMean x (column (Y ω)) ∂P <
      ∫ ω, lmlDense LinAlg.ideal ⟨fun _ => 1, 1⟩ (.matern52 none : KExpr 2).obj zeroMean x (column (Y ω)) ∂P := by
  have ha : Admissible (.matern52 none : KExpr 2) (fun _ => 1) := by norm_num [Admissible, KPar.val]
  obtain ⟨-, h2, h3⟩ := C152_gpr LinAlg.ideal_exact (.matern52 none : KExpr 2) (.matern52 none)
    ⟨fun _ => 1, 1⟩ ⟨fun _ => 1, 2⟩ ha ha zeroMean zeroMean 0 0 (fun _ => rfl) (fun _ => rfl) x (by norm_num) P Y hY
  refine lt_of_le_of_ne h2 fun heq => ?_
  have := congrFun (congrFun (h3.mp heq).1 0) 0
  simp only [dataCov, Matrix.add_apply, Matrix.smul_apply, Matrix.one_apply_eq, smul_eq_mul, mul_one, add_right_inj] at this
  norm_num at this

end GPX.Props
