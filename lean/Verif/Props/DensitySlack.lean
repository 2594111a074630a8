import Verif.Props.DensityLaw
import Verif.Props.Objective
import Verif.Lemmas.SlackBlocks

/-!
# C133, C151, C152 for every kernel whose training covariance is positive definite

`Props/DensityLaw.lean` and `Props/Objective.lean` prove these claims for kernels whose derivative covariances are
positive semidefinite. Here they only need the covariance of the training observations, noise included, to be positive
definite, which C65 and C78 give for every twice differentiable kernel once the noise exceeds the slack.
-/

namespace GPX.Props
open GPX GPX.Spec MeasureTheory ProbabilityTheory Matrix

variable {d m n o v w v' w' : ℕ} {Ω : Type} {la : LinAlg} [MeasurableSpace Ω]

/-! ## The training covariances -/

theorem dataCov1_of_system {e : KExpr d} {θ : TDParams} {x : Batch n d} {J : Jac n d v}
    (h : (tdALhsNoise1 θ e.obj x J x J).PosDef) :
    (Matrix.of (dataCov1 e.obj θ x J) : Matrix (Obs1 n v) (Obs1 n v) ℝ).PosDef := by
  have h1 := h.submatrix (e := (pos1 : Obs1 n v → _)) pos1_bij.1
  convert h1
  ext a b
  exact ((C52_entries1 e.obj θ x J x J).2.2 a b).symm

theorem system_of_dataCov1 {e : KExpr d} {θ : TDParams} {x : Batch n d} {J : Jac n d v}
    (h : (Matrix.of (dataCov1 e.obj θ x J) : Matrix (Obs1 n v) (Obs1 n v) ℝ).PosDef) :
    (tdALhsNoise1 θ e.obj x J x J).PosDef :=
  posDef_reindex pos1 pos1_bij _ _ (C52_entries1 e.obj θ x J x J).2.2 h

theorem dataCov2_of_system {e : KExpr d} {θ : TDParams} {x : Batch n d} {J : Jac n d v} {J' : Jac n d v'}
    (h : (tdALhsNoise2 θ e.obj x J J' x J J').PosDef) :
    (Matrix.of (dataCov2 e.obj θ x J J') : Matrix (Obs2 n v v') (Obs2 n v v') ℝ).PosDef := by
  have h1 := h.submatrix (e := (pos2 : Obs2 n v v' → _)) pos2_bij.1
  convert h1
  ext a b
  exact ((C52_entries2 e.obj θ x J J' x J J').2.2 a b).symm

theorem system_of_dataCov2 {e : KExpr d} {θ : TDParams} {x : Batch n d} {J : Jac n d v} {J' : Jac n d v'}
    (h : (Matrix.of (dataCov2 e.obj θ x J J') : Matrix (Obs2 n v v') (Obs2 n v v') ℝ).PosDef) :
    (tdALhsNoise2 θ e.obj x J J' x J J').PosDef :=
  posDef_reindex pos2 pos2_bij _ _ (C52_entries2 e.obj θ x J J' x J J').2.2 h

/-! ## C151 -/

theorem lml_density_derivs_posDef (ex : la.Exact) (e : KExpr d) (θ : GPParams) (mf : MeanFun) (mu : ℝ)
    (hmf : ∀ y : Mat (n * v) 1, mf y = mu) (x : Batch n d) (J : Jac n d v) (hp : (dataCovDerivs e.obj θ x J).PosDef)
    (y : Fin (n * v) → ℝ) :
    (n * v : ℕ) * lmlDerivsDense la θ e.obj mf x J (Matrix.of fun i u => y (flat i u)) =
      Real.log (normalDensity (dataCovDerivs e.obj θ x J) (y - fun _ => mu)) := by
  unfold lmlDerivsDense
  rw [lmlTail_eq (show (aDerivsLhsNoise θ e.obj x J x J).PosDef from hp) ex, normalDensity_fin, log_gaussDensity hp]
  simp only [Finset.univ_unique, Finset.sum_singleton, hmf]
  have hr : ∀ r, centerBy (flatCol (Matrix.of fun i u => y (flat i u))) mu r 0 = y r - mu := fun r => by
    simp [centerBy, flatCol, flat_eta]
  simp only [Fin.default_eq_zero, hr]
  rfl

theorem lml_density_td1_posDef (ex : la.Exact) (e : KExpr d) (θ : TDParams) (mf : MeanFun) (mu : ℝ)
    (hmf : ∀ y : Mat n 1, mf y = mu) (x : Batch n d) (hn : n ≠ 0) (J : Jac n d v)
    (hp : (Matrix.of (dataCov1 e.obj θ x J) : Matrix (Obs1 n v) (Obs1 n v) ℝ).PosDef) (y : Obs1 n v → ℝ) :
    (n + n * v : ℕ) * tdLmlDense1 la θ e.obj mf x (targetsOf y) J (derivsOf y) =
      Real.log (normalDensity (Matrix.of (dataCov1 e.obj θ x J)) (y - priorMean1 mu)) := by
  rw [(C53_one_set_partial ex e θ mf x hn (targetsOf y) J (derivsOf y) (system_of_dataCov1 hp)).1, ← normalDensity_fin,
    ← normalDensity_reindex (Equiv.ofBijective (pos1 : Obs1 n v → _) pos1_bij)]
  congr 2
  · ext a b
    exact (C52_entries1 e.obj θ x J x J).2.2 a b
  · funext a
    rw [Function.comp_apply, Equiv.ofBijective_apply, rhs1_pos, hmf]
    rcases a with i | ⟨i, u⟩ <;> simp [residual1, priorMean1, targetsOf, derivsOf]

theorem lml_density_td2_posDef (ex : la.Exact) (e : KExpr d) (θ : TDParams) (mf : MeanFun) (mu : ℝ)
    (hmf : ∀ y : Mat n 1, mf y = mu) (x : Batch n d) (hn : n ≠ 0) (J : Jac n d v) (J' : Jac n d v')
    (hp : (Matrix.of (dataCov2 e.obj θ x J J') : Matrix (Obs2 n v v') (Obs2 n v v') ℝ).PosDef) (y : Obs2 n v v' → ℝ) :
    (n + n * v : ℕ) * tdLmlDense2 la θ e.obj mf x (targetsOf (y ∘ Sum.inl)) J J' (derivsOf (y ∘ Sum.inl))
        (derivs2Of y) - (n * v' : ℕ) * (1 / 2) * Real.log (2 * Real.pi) =
      Real.log (normalDensity (Matrix.of (dataCov2 e.obj θ x J J')) (y - priorMean2 mu)) := by
  rw [(C53_two_sets_partial ex e θ mf x hn (targetsOf (y ∘ Sum.inl)) J J' (derivsOf (y ∘ Sum.inl)) (derivs2Of y)
      (system_of_dataCov2 hp)).1, add_sub_cancel_right, ← normalDensity_fin,
    ← normalDensity_reindex (Equiv.ofBijective (pos2 : Obs2 n v v' → _) pos2_bij)]
  congr 2
  · ext a b
    exact (C52_entries2 e.obj θ x J J' x J J').2.2 a b
  · funext a
    rw [Function.comp_apply, Equiv.ofBijective_apply, rhs2_pos, hmf]
    rcases a with (i | ⟨i, u⟩) | ⟨i, u⟩ <;>
      simp [residual2, residual1, priorMean2, priorMean1, targetsOf, derivsOf, derivs2Of]

/-- **C151**, GPR trained on derivatives, whenever the covariance of the training derivatives is positive definite. -/
theorem C151_gpr_derivs_posDef (ex : la.Exact) (e : KExpr d) (θ : GPParams) (mf : MeanFun) (mu : ℝ)
    (hmf : ∀ y : Mat (n * v) 1, mf y = mu) (x : Batch n d) (J : Jac n d v)
    (hp : (dataCovDerivs e.obj θ x J).PosDef) :
    normalLaw (fun _ => mu) (dataCovDerivs e.obj θ x J) = volume.withDensity fun y =>
      ENNReal.ofReal (Real.exp ((n * v : ℕ) * lmlDerivsDense la θ e.obj mf x J (Matrix.of fun i u => y (flat i u)))) :=
  density_of_lml hp _ (lml_density_derivs_posDef ex e θ mf mu hmf x J hp)

/-- **C151**, GPR_TD with one set of derivatives, whenever the covariance of targets and derivatives is positive
definite. -/
theorem C151_gpr_td1_posDef (ex : la.Exact) (e : KExpr d) (θ : TDParams) (mf : MeanFun) (mu : ℝ)
    (hmf : ∀ y : Mat n 1, mf y = mu) (x : Batch n d) (hn : n ≠ 0) (J : Jac n d v)
    (hp : (Matrix.of (dataCov1 e.obj θ x J) : Matrix (Obs1 n v) (Obs1 n v) ℝ).PosDef) :
    normalLaw (priorMean1 mu) (Matrix.of (dataCov1 e.obj θ x J)) = volume.withDensity fun y =>
      ENNReal.ofReal (Real.exp ((n + n * v : ℕ) *
        tdLmlDense1 la θ e.obj mf x (targetsOf y) J (derivsOf y))) :=
  density_of_lml hp _ (lml_density_td1_posDef ex e θ mf mu hmf x hn J hp)

/-- **C151** for two sets of derivatives, which the claim leaves out: the code multiplies `log 2π` by the number of
observations without the second set, so the exponential of the likelihood is the density times `(2π)^(n v' / 2)`. -/
theorem C151_gpr_td2 (ex : la.Exact) (e : KExpr d) (θ : TDParams) (mf : MeanFun) (mu : ℝ)
    (hmf : ∀ y : Mat n 1, mf y = mu) (x : Batch n d) (hn : n ≠ 0) (J : Jac n d v) (J' : Jac n d v')
    (hp : (Matrix.of (dataCov2 e.obj θ x J J') : Matrix (Obs2 n v v') (Obs2 n v v') ℝ).PosDef) :
    normalLaw (priorMean2 mu) (Matrix.of (dataCov2 e.obj θ x J J')) = volume.withDensity fun y =>
      ENNReal.ofReal (Real.exp ((n + n * v : ℕ) * tdLmlDense2 la θ e.obj mf x (targetsOf (y ∘ Sum.inl)) J J'
        (derivsOf (y ∘ Sum.inl)) (derivs2Of y) - (n * v' : ℕ) * (1 / 2) * Real.log (2 * Real.pi))) :=
  density_of_lml hp _ (lml_density_td2_posDef ex e θ mf mu hmf x hn J J' hp)

/-! ## C152 -/

/-- **C152**, GPR trained on derivatives, for all kernels and hyperparameters with positive definite training
covariances. -/
theorem C152_gpr_derivs_posDef (ex : la.Exact) (e₀ e : KExpr d) (θ₀ θ : GPParams) (mf : MeanFun)
    (hmf : ∀ y : Mat (n * v) 1, mf y = 0) (x : Batch n d) (J : Jac n d v)
    (h₀ : (dataCovDerivs e₀.obj θ₀ x J).PosDef) (h : (dataCovDerivs e.obj θ x J).PosDef)
    (hn : n * v ≠ 0) (P : Measure Ω)
    (Y : Ω → Fin (n * v) → ℝ) (hY : IsNormal P Y 0 (dataCovDerivs e₀.obj θ₀ x J)) :
    let l := fun (e : KExpr d) (θ : GPParams) ω =>
      lmlDerivsDense la θ e.obj mf x J (Matrix.of fun i u => Y ω (flat i u))
    Integrable (l e θ) P ∧ ∫ ω, l e θ ω ∂P ≤ ∫ ω, l e₀ θ₀ ω ∂P ∧
    (∫ ω, l e θ ω ∂P = ∫ ω, l e₀ θ₀ ω ∂P ↔ dataCovDerivs e.obj θ x J = dataCovDerivs e₀.obj θ₀ x J) := by
  obtain ⟨h1, h2, h3⟩ := expected_lml h₀ h _ _ hn (lml_density_derivs_posDef ex e₀ θ₀ mf 0 hmf x J h₀)
    (lml_density_derivs_posDef ex e θ mf 0 hmf x J h) hY
  exact ⟨h1, h2, h3.trans ⟨fun ⟨a, b⟩ => a, fun a => ⟨a, rfl⟩⟩⟩

/-- **C152**, GPR_TD with one set of derivatives, for all kernels and hyperparameters with positive definite training
covariances. -/
theorem C152_gpr_td1_posDef (ex : la.Exact) (e₀ e : KExpr d) (θ₀ θ : TDParams) (mf₀ mf : MeanFun) (mu₀ mu : ℝ)
    (hmf₀ : ∀ y : Mat n 1, mf₀ y = mu₀) (hmf : ∀ y : Mat n 1, mf y = mu) (x : Batch n d) (J : Jac n d v) (hn : n ≠ 0)
    (h₀ : (Matrix.of (dataCov1 e₀.obj θ₀ x J) : Matrix (Obs1 n v) (Obs1 n v) ℝ).PosDef)
    (h : (Matrix.of (dataCov1 e.obj θ x J) : Matrix (Obs1 n v) (Obs1 n v) ℝ).PosDef)
    (P : Measure Ω) (Y : Ω → Obs1 n v → ℝ) (hY : IsNormal P Y (priorMean1 mu₀) (Matrix.of (dataCov1 e₀.obj θ₀ x J))) :
    let l := fun (e : KExpr d) (θ : TDParams) (mf : MeanFun) ω =>
      tdLmlDense1 la θ e.obj mf x (targetsOf (Y ω)) J (derivsOf (Y ω))
    Integrable (l e θ mf) P ∧ ∫ ω, l e θ mf ω ∂P ≤ ∫ ω, l e₀ θ₀ mf₀ ω ∂P ∧
    (∫ ω, l e θ mf ω ∂P = ∫ ω, l e₀ θ₀ mf₀ ω ∂P ↔ dataCov1 e.obj θ x J = dataCov1 e₀.obj θ₀ x J ∧ mu = mu₀) := by
  obtain ⟨h1, h2, h3⟩ := expected_lml h₀ h _ _ (by omega : n + n * v ≠ 0)
    (lml_density_td1_posDef ex e₀ θ₀ mf₀ mu₀ hmf₀ x hn J h₀) (lml_density_td1_posDef ex e θ mf mu hmf x hn J h) hY
  refine ⟨h1, h2, h3.trans ⟨fun ⟨a, b⟩ => ⟨a, ?_⟩, fun ⟨a, b⟩ => ⟨congrArg _ a, by rw [b]⟩⟩⟩
  exact congrFun b (Sum.inl ⟨0, Nat.pos_of_ne_zero hn⟩)

/-- **C152**, GPR_TD with two sets of derivatives: the missing constant is the same for all hyperparameters, so the
comparison stands. -/
theorem C152_gpr_td2 (ex : la.Exact) (e₀ e : KExpr d) (θ₀ θ : TDParams) (mf₀ mf : MeanFun) (mu₀ mu : ℝ)
    (hmf₀ : ∀ y : Mat n 1, mf₀ y = mu₀) (hmf : ∀ y : Mat n 1, mf y = mu) (x : Batch n d) (J : Jac n d v)
    (J' : Jac n d v') (hn : n ≠ 0)
    (h₀ : (Matrix.of (dataCov2 e₀.obj θ₀ x J J') : Matrix (Obs2 n v v') (Obs2 n v v') ℝ).PosDef)
    (h : (Matrix.of (dataCov2 e.obj θ x J J') : Matrix (Obs2 n v v') (Obs2 n v v') ℝ).PosDef)
    (P : Measure Ω) [IsProbabilityMeasure P] (Y : Ω → Obs2 n v v' → ℝ)
    (hY : IsNormal P Y (priorMean2 mu₀) (Matrix.of (dataCov2 e₀.obj θ₀ x J J'))) :
    let l := fun (e : KExpr d) (θ : TDParams) (mf : MeanFun) ω =>
      tdLmlDense2 la θ e.obj mf x (targetsOf (Y ω ∘ Sum.inl)) J J' (derivsOf (Y ω ∘ Sum.inl)) (derivs2Of (Y ω))
    Integrable (l e θ mf) P ∧ ∫ ω, l e θ mf ω ∂P ≤ ∫ ω, l e₀ θ₀ mf₀ ω ∂P ∧
    (∫ ω, l e θ mf ω ∂P = ∫ ω, l e₀ θ₀ mf₀ ω ∂P ↔
      dataCov2 e.obj θ x J J' = dataCov2 e₀.obj θ₀ x J J' ∧ mu = mu₀) := by
  intro l
  have hN : n + n * v ≠ 0 := by omega
  have hN0 : ((n + n * v : ℕ) : ℝ) ≠ 0 := by exact_mod_cast hN
  obtain ⟨c, hc⟩ : ∃ c : ℝ, (n + n * v : ℕ) * c = (n * v' : ℕ) * (1 / 2) * Real.log (2 * Real.pi) :=
    ⟨_, mul_div_cancel₀ _ hN0⟩
  have key := fun (e : KExpr d) (θ : TDParams) (mf : MeanFun) (mu : ℝ) (hmf : ∀ y : Mat n 1, mf y = mu)
      (h : (Matrix.of (dataCov2 e.obj θ x J J') : Matrix (Obs2 n v v') (Obs2 n v v') ℝ).PosDef) (y : Obs2 n v v' → ℝ) =>
    (by rw [mul_sub, hc]; exact lml_density_td2_posDef ex e θ mf mu hmf x hn J J' h y :
      (n + n * v : ℕ) * (tdLmlDense2 la θ e.obj mf x (targetsOf (y ∘ Sum.inl)) J J' (derivsOf (y ∘ Sum.inl))
        (derivs2Of y) - c) = Real.log (normalDensity (Matrix.of (dataCov2 e.obj θ x J J')) (y - priorMean2 mu)))
  obtain ⟨i1, h2, h3⟩ := expected_lml h₀ h _ _ hN (key e₀ θ₀ mf₀ mu₀ hmf₀ h₀) (key e θ mf mu hmf h) hY
  obtain ⟨i0, -, -⟩ := expected_lml h₀ h₀ _ _ hN (key e₀ θ₀ mf₀ mu₀ hmf₀ h₀) (key e₀ θ₀ mf₀ mu₀ hmf₀ h₀) hY
  have add : ∀ (e : KExpr d) (θ : TDParams) (mf : MeanFun), Integrable (fun ω => l e θ mf ω - c) P →
      Integrable (l e θ mf) P ∧ ∫ ω, (l e θ mf ω - c) ∂P = ∫ ω, l e θ mf ω ∂P - c := by
    intro e θ mf hi
    have hI : Integrable (l e θ mf) P := (hi.add (integrable_const c)).congr
      (Filter.Eventually.of_forall fun ω => by simp)
    refine ⟨hI, ?_⟩
    rw [integral_sub hI (integrable_const c)]
    simp
  obtain ⟨j1, e1⟩ := add e θ mf i1
  obtain ⟨j0, e0⟩ := add e₀ θ₀ mf₀ i0
  change ∫ ω, (l e θ mf ω - c) ∂P ≤ ∫ ω, (l e₀ θ₀ mf₀ ω - c) ∂P at h2
  change ∫ ω, (l e θ mf ω - c) ∂P = ∫ ω, (l e₀ θ₀ mf₀ ω - c) ∂P ↔ _ at h3
  rw [e1, e0] at h2 h3
  rw [sub_left_inj] at h3
  refine ⟨j1, by linarith, h3.trans ⟨fun ⟨a, b⟩ => ⟨a, ?_⟩, fun ⟨a, b⟩ => ⟨congrArg _ a, by rw [b]⟩⟩⟩
  exact congrFun b (Sum.inl (Sum.inl ⟨0, Nat.pos_of_ne_zero hn⟩))

/-! ## C133 -/

/-- A covariance that is positive semidefinite up to `S`, plus a diagonal: what is left after removing `c`. -/
theorem shift_of_slack {I : Type} [Fintype I] [DecidableEq I] {N : ℕ} (pos : I → Fin N) (hpos : Function.Bijective pos)
    (A : Mat N N) (C S : I → I → ℝ) (z : I → ℝ) (hC : (Matrix.of fun a b => C a b + S a b).PosSemidef)
    (hS : (Matrix.of S).PosSemidef) (hz : ∀ a b, S a b = z a * S a b * z b) (hz2 : ∀ a, z a * z a = z a)
    (s : I → ℝ) {c : ℝ} (hs : ∀ a, c + (∑ b, S b b) * z a < s a)
    (hA : ∀ a b, A (pos a) (pos b) = C a b + if a = b then s a else 0) : (A - c • (1 : Mat N N)).PosSemidef := by
  have h1 := posDef_of_slack C S z hC hS hz hz2 (fun a => s a - c) fun a => by linarith [hs a]
  have h2 := h1.posSemidef.submatrix (Equiv.ofBijective pos hpos).symm
  convert h2
  ext i j
  obtain ⟨a, rfl⟩ := hpos.2 i
  obtain ⟨b, rfl⟩ := hpos.2 j
  have e : ∀ a, (Equiv.ofBijective pos hpos).symm (pos a) = a := fun a =>
    (Equiv.ofBijective pos hpos).symm_apply_apply a
  rw [Matrix.submatrix_apply, e, e, Matrix.sub_apply, hA, Matrix.add_apply, Matrix.diagonal_apply, Matrix.of_apply,
    Matrix.smul_apply, Matrix.one_apply, smul_eq_mul]
  by_cases hab : a = b
  · subst hab
    simp
    ring
  · simp [hab, hpos.1.ne hab]

theorem lmlTail_shift {N : ℕ} (ex : la.Exact) {A : Mat N N} {c : ℝ} (hc : 0 < c)
    (hA : (A - c • (1 : Mat N N)).PosSemidef) (hN : 0 < N) (y : Mat N o) :
    lmlTail la A y ≤ -(1 / 2) * Real.log (2 * Real.pi * c) := by
  have h := lmlTail_le ex hA hc hN y
  rwa [sub_add_cancel] at h

/-- **C133**, GPR trained on derivatives, every twice differentiable kernel: the bound with the noise that is left after
the slack. -/
theorem C133_gpr_derivs_slack (ex : la.Exact) (e : KExpr d) (θ : GPParams) (h : Smooth e θ.kernelParams)
    (mf : MeanFun) (x : Batch n d) (hx : ∀ i j, Separated e θ.kernelParams (x i) (x j)) (J : Jac n d v) (y : Mat n v)
    (hn : 0 < n * v) (c : ℝ) (hc : 0 < c)
    (hs : c + ∑ i, ∑ u, slack e θ.kernelParams (x i, some fun f => J i f u) (x i, some fun f => J i f u) <
      θ.sigma ^ 2 + 1 / 10 ^ 10) :
    lmlDerivsDense la θ e.obj mf x J y ≤ -(1 / 2) * Real.log (2 * Real.pi * c) := by
  obtain ⟨h1, h2⟩ := C65_slack_partial e θ.kernelParams h x hx J
  refine lmlTail_shift ex hc (shift_of_slack (fun a : Fin n × Fin v => flat a.1 a.2) ?_ _ _ _ (fun _ => 1) h1 h2
    (fun a b => by simp) (fun _ => by simp) (fun _ => θ.sigma ^ 2 + 1 / 10 ^ 10)
    (fun a => by rw [mul_one, Fintype.sum_prod_type]; exact hs) fun a b => ?_) hn _
  · have : (fun a : Fin n × Fin v => flat a.1 a.2) = finProdFinEquiv := funext fun a => (prod_flat a.1 a.2).symm
    rw [this]
    exact finProdFinEquiv.bijective
  · simp only [aDerivsLhsNoise, aDerivsLhs, Matrix.add_apply, Matrix.smul_apply, Matrix.one_apply, smul_eq_mul, Matrix.of_apply]
    by_cases hab : a = b
    · subst hab
      simp [GPParams.noise, noiseJitter]
    · have : flat a.1 a.2 ≠ flat b.1 b.2 := fun h => hab (by
        rw [← prod_flat, ← prod_flat] at h
        exact finProdFinEquiv.injective h)
      rw [if_neg hab, if_neg this]
      ring

/-- **C133**, GPR_TD with one set of derivatives, every twice differentiable kernel without `Matern32`: the slack is
taken from the noise of the derivatives only. -/
theorem C133_td_slack (ex : la.Exact) (e : KExpr d) (θ : TDParams) (h : Smooth e θ.kernelParams) (hm : NoMatern32 e)
    (mf : MeanFun) (x : Batch n d) (y : Mat n 1) (J : Jac n d v) (yd : Mat n v) (hn : 0 < n) (c : ℝ) (hc : 0 < c)
    (ht : c < θ.sigmaTargets ^ 2 + 1 / 10 ^ 10)
    (hs : c + ∑ a, slack e θ.kernelParams (observable1 x J a) (observable1 x J a) < θ.sigmaDerivs ^ 2 + 1 / 10 ^ 10) :
    tdLmlDense1 la θ e.obj mf x y J yd ≤ -(1 / 2) * Real.log (2 * Real.pi * c) := by
  obtain ⟨h1, _, s1, _⟩ := C78_slack_partial e θ.kernelParams h x (fun i j => separated_noMatern32 e _ hm _ _) J J
  have hz := slack_noMatern32 e θ.kernelParams hm
  refine lmlTail_shift ex hc (shift_of_slack pos1 pos1_bij _ _ _ (fun a => if isTarget1 a then 0 else 1) h1 s1
    (fun a b => ?_) (fun a => ?_) (noise1 θ) (fun a => ?_) (C52_entries1 e.obj θ x J x J).2.2) (by omega) _
  · rcases a with i | ⟨i, u⟩ <;> rcases b with j | ⟨j, w⟩ <;> simp [observable1, isTarget1, hz]
  · split_ifs <;> simp
  · rcases a with i | ⟨i, u⟩
    · simpa [isTarget1, noise1] using ht
    · simpa only [isTarget1, noise1, Bool.false_eq_true, if_false, mul_one] using hs

/-! ## Non-vacuity: `SquaredExponential` times `Linear`, whose derivative covariances can be indefinite -/

abbrev exSE : KExpr 2 := .prod (.squaredExponential none) (.linear none)

theorem exSE_smooth : Smooth exSE (fun _ => 1) := ⟨by norm_num [Smooth, KPar.val, KPar.sub], trivial⟩

theorem exSE_derivs {σ : ℝ} (hσ : 1 ≤ σ ^ 2) : (dataCovDerivs exSE.obj ⟨fun _ => 1, σ⟩ exX exJ).PosDef :=
  C65_fit_slack_partial exSE ⟨fun _ => 1, σ⟩ exSE_smooth exX (fun i j => ⟨trivial, trivial⟩) exJ
    (exSlack_lt.trans_le (by simp only [GPParams.noise, noiseJitter]; linarith [show (0 : ℝ) < 1e-10 by norm_num]))

theorem exSE_sum : ∑ a, slack exSE (fun _ => 1) (observable1 exX exJ a) (observable1 exX exJ a) < 1 := by
  have hz : ∀ i, slack exSE (fun _ => 1) (exX i, none) (exX i, none) = 0 := fun i =>
    slack_noMatern32 exSE _ ⟨trivial, trivial⟩ _ _ (.inl rfl)
  simp only [Fintype.sum_sum_type, observable1, Fintype.sum_prod_type, hz, Finset.sum_const_zero, zero_add]
  exact exSlack_lt

theorem exSE_td {s t r : ℝ} (hs : 1 ≤ s ^ 2) :
    (Matrix.of (dataCov1 exSE.obj ⟨fun _ => 1, t, s, r⟩ exX exJ) : Matrix (Obs1 2 3) (Obs1 2 3) ℝ).PosDef := by
  refine dataCov1_of_system ((C78_well_posed_slack_partial exSE ⟨fun _ => 1, t, s, r⟩ exSE_smooth ⟨trivial, trivial⟩
    exX exJ exJ').1 (exSE_sum.trans_le ?_))
  show (1 : ℝ) ≤ s ^ 2 + 1 / 10 ^ 10
  linarith [show (0 : ℝ) < 1 / 10 ^ 10 by norm_num]

/-- Beside C151. -/
example : normalLaw (fun _ => 3) (dataCovDerivs exSE.obj ⟨fun _ => 1, 1⟩ exX exJ) = volume.withDensity fun y =>
    ENNReal.ofReal (Real.exp ((2 * 3 : ℕ) * lmlDerivsDense LinAlg.ideal ⟨fun _ => 1, 1⟩ exSE.obj
      (fun {n o} (_ : Mat n o) => 3) exX exJ (Matrix.of fun i u => y (flat i u)))) :=
  C151_gpr_derivs_posDef LinAlg.ideal_exact exSE ⟨fun _ => 1, 1⟩ (fun {n o} (_ : Mat n o) => 3) 3 (fun _ => rfl) exX exJ
    (exSE_derivs (by norm_num))

/-- Beside C152: derivatives with noise `1` and `2` and without noise on the targets; the true noise is strictly
preferred on average. -/
example (P : Measure Ω) (Y : Ω → Obs1 2 3 → ℝ)
    (hY : IsNormal P Y (priorMean1 0) (Matrix.of (dataCov1 exSE.obj ⟨fun _ => 1, 0, 1, 0⟩ exX exJ))) :
    ∫ ω, tdLmlDense1 LinAlg.ideal ⟨fun _ => 1, 0, 2, 0⟩ exSE.obj zeroMean exX (targetsOf (Y ω)) exJ (derivsOf (Y ω)) ∂P <
    ∫ ω, tdLmlDense1 LinAlg.ideal ⟨fun _ => 1, 0, 1, 0⟩ exSE.obj zeroMean exX (targetsOf (Y ω)) exJ
      (derivsOf (Y ω)) ∂P := by
  obtain ⟨-, h2, h3⟩ := C152_gpr_td1_posDef LinAlg.ideal_exact exSE exSE ⟨fun _ => 1, 0, 1, 0⟩ ⟨fun _ => 1, 0, 2, 0⟩
    zeroMean zeroMean 0 0 (fun _ => rfl) (fun _ => rfl) exX exJ (by norm_num) (exSE_td (by norm_num))
    (exSE_td (by norm_num)) P Y hY
  refine lt_of_le_of_ne h2 fun heq => ?_
  have := congrFun (congrFun (h3.mp heq).1 (Sum.inr (0, 0))) (Sum.inr (0, 0))
  simp only [dataCov1, noise1, if_true, add_right_inj] at this
  norm_num at this

/-- Beside C133: the likelihood of a joint model is at most `-log(2π)/2` whatever the data. -/
example (y : Mat 2 1) (yd : Mat 2 3) :
    tdLmlDense1 LinAlg.ideal ⟨fun _ => 1, 1, 2, 0⟩ exSE.obj zeroMean exX y exJ yd ≤
      -(1 / 2) * Real.log (2 * Real.pi * 1) := by
  refine C133_td_slack LinAlg.ideal_exact exSE ⟨fun _ => 1, 1, 2, 0⟩ exSE_smooth ⟨trivial, trivial⟩ zeroMean exX y exJ yd
    (by norm_num) 1 one_pos (by norm_num) ?_
  show 1 + _ < (2 : ℝ) ^ 2 + 1 / 10 ^ 10
  exact (add_lt_add_right exSE_sum 1).trans (by norm_num)

end GPX.Props
