import Verif.Spec.Merge
import Verif.Props.Frames

/-!
# C158: how derivatives are split into sets does not matter

Two sets of derivatives with the same noise are one set with the components side by side, and a model without
derivative components is a model of the targets alone.
-/

namespace GPX.Props
open GPX GPX.Spec Matrix

variable {d m n o v w v' w' : ℕ} {la : LinAlg}

/-- Selecting the components of the first set. -/
def selLeft (v w : ℕ) : Mat (v + w) v := Matrix.of fun t u => if t = Fin.castAdd w u then 1 else 0
/-- Selecting the components of the second set. -/
def selRight (v w : ℕ) : Mat (v + w) w := Matrix.of fun t u => if t = Fin.natAdd v u then 1 else 0

theorem inFrames_selLeft (J : Jac n d v) (J' : Jac n d w) : inFrames (fun _ => selLeft v w) (joinJac J J') = J := by
  funext i f u
  simp [inFrames, selLeft, joinJac]

theorem inFrames_selRight (J : Jac n d v) (J' : Jac n d w) : inFrames (fun _ => selRight v w) (joinJac J J') = J' := by
  funext i f u
  simp [inFrames, selRight, joinJac]

/-- The observation of the merged set. -/
def mergeObs : Obs2 n v w → Obs1 n (v + w)
  | .inl (.inl i) => .inl i
  | .inl (.inr (i, u)) => .inr (i, Fin.castAdd w u)
  | .inr (i, u) => .inr (i, Fin.natAdd v u)

theorem mergeObs_bij : Function.Bijective (mergeObs : Obs2 n v w → _) := by
  constructor
  · rintro ((i | ⟨i, u⟩) | ⟨i, u⟩) ((j | ⟨j, t⟩) | ⟨j, t⟩) h <;> simp only [mergeObs, Sum.inl.injEq, Sum.inr.injEq,
      Prod.mk.injEq, reduceCtorEq, Fin.ext_iff, Fin.val_castAdd, Fin.val_natAdd] at h ⊢
    · exact h
    · exact h
    · omega
    · omega
    · omega
  · rintro (i | ⟨i, t⟩)
    · exact ⟨.inl (.inl i), rfl⟩
    · refine Fin.addCases (fun u => ⟨.inl (.inr (i, u)), rfl⟩) (fun u => ⟨.inr (i, u), rfl⟩) t

theorem cov_merge {κ : KernelObj d} {p : KPar} (h : FrameLinear κ p) (x1 : Batch m d) (J1 : Jac m d v) (J1' : Jac m d w)
    (x2 : Batch n d) (J2 : Jac n d v') (J2' : Jac n d w') (a : Obs2 m v w) (b : Obs2 n v' w') :
    cov2 κ p x1 J1 J1' x2 J2 J2' a b = cov1 κ p x1 (joinJac J1 J1') x2 (joinJac J2 J2') (mergeObs a) (mergeObs b) := by
  have l0 : ∀ i u j, κ.d0kj p x1 x2 J1 (flat i u) j = κ.d0kj p x1 x2 (joinJac J1 J1') (flat i (Fin.castAdd w u)) j :=
    fun i u j => by
      have := h.d0kj x1 x2 (joinJac J1 J1') (fun _ => selLeft v w) i u j
      rw [inFrames_selLeft] at this
      simpa [selLeft] using this
  have r0 : ∀ i u j, κ.d0kj p x1 x2 J1' (flat i u) j = κ.d0kj p x1 x2 (joinJac J1 J1') (flat i (Fin.natAdd v u)) j :=
    fun i u j => by
      have := h.d0kj x1 x2 (joinJac J1 J1') (fun _ => selRight v w) i u j
      rw [inFrames_selRight] at this
      simpa [selRight] using this
  have l1 : ∀ i j u, κ.d1kj p x1 x2 J2 i (flat j u) = κ.d1kj p x1 x2 (joinJac J2 J2') i (flat j (Fin.castAdd w' u)) :=
    fun i j u => by
      have := h.d1kj x1 x2 (joinJac J2 J2') (fun _ => selLeft v' w') i j u
      rw [inFrames_selLeft] at this
      simpa [selLeft] using this
  have r1 : ∀ i j u, κ.d1kj p x1 x2 J2' i (flat j u) = κ.d1kj p x1 x2 (joinJac J2 J2') i (flat j (Fin.natAdd v' u)) :=
    fun i j u => by
      have := h.d1kj x1 x2 (joinJac J2 J2') (fun _ => selRight v' w') i j u
      rw [inFrames_selRight] at this
      simpa [selRight] using this
  have ll : ∀ {q : ℕ} (J : Jac n d q) i u j t, κ.d01kj p x1 x2 J1 J (flat i u) (flat j t) =
      κ.d01kj p x1 x2 (joinJac J1 J1') J (flat i (Fin.castAdd w u)) (flat j t) := fun J i u j t => by
    have := h.left x1 x2 (joinJac J1 J1') (fun _ => selLeft v w) J i u j t
    rw [inFrames_selLeft] at this
    simpa [selLeft] using this
  have lr : ∀ {q : ℕ} (J : Jac n d q) i u j t, κ.d01kj p x1 x2 J1' J (flat i u) (flat j t) =
      κ.d01kj p x1 x2 (joinJac J1 J1') J (flat i (Fin.natAdd v u)) (flat j t) := fun J i u j t => by
    have := h.left x1 x2 (joinJac J1 J1') (fun _ => selRight v w) J i u j t
    rw [inFrames_selRight] at this
    simpa [selRight] using this
  have rl : ∀ {q : ℕ} (J : Jac m d q) i u j t, κ.d01kj p x1 x2 J J2 (flat i u) (flat j t) =
      κ.d01kj p x1 x2 J (joinJac J2 J2') (flat i u) (flat j (Fin.castAdd w' t)) := fun J i u j t => by
    have := h.right x1 x2 J (joinJac J2 J2') (fun _ => selLeft v' w') i u j t
    rw [inFrames_selLeft] at this
    simpa [selLeft] using this
  have rr : ∀ {q : ℕ} (J : Jac m d q) i u j t, κ.d01kj p x1 x2 J J2' (flat i u) (flat j t) =
      κ.d01kj p x1 x2 J (joinJac J2 J2') (flat i u) (flat j (Fin.natAdd v' t)) := fun J i u j t => by
    have := h.right x1 x2 J (joinJac J2 J2') (fun _ => selRight v' w') i u j t
    rw [inFrames_selRight] at this
    simpa [selRight] using this
  rcases a with (i | ⟨i, u⟩) | ⟨i, u⟩ <;> rcases b with (j | ⟨j, t⟩) | ⟨j, t⟩ <;>
    simp only [cov2, cov1, mergeObs]
  · exact l1 i j t
  · exact r1 i j t
  · exact l0 i u j
  · rw [ll, rl]
  · rw [ll, rr]
  · exact r0 i u j
  · rw [lr, rl]
  · rw [lr, rr]

theorem residual_merge (mu : ℝ) (y : Mat n 1) (yd : Mat n v) (yd' : Mat n w) (a : Obs2 n v w) :
    residual2 mu y yd yd' a = residual1 mu y (joinCols yd yd') (mergeObs a) := by
  rcases a with (i | ⟨i, u⟩) | ⟨i, u⟩ <;> simp [residual2, residual1, mergeObs, joinCols]

/-- The place in the data of two sets of the observation at a place of the merged data. -/
noncomputable def unmerge : Fin (n + n * (v + w)) ≃ Fin (n + n * v + n * w) :=
  posE1.symm.trans ((Equiv.ofBijective _ (mergeObs_bij (n := n) (v := v) (w := w))).symm.trans posE2)

theorem unmerge_pos (a : Obs2 n v w) : unmerge (pos1 (mergeObs a)) = pos2 a := by
  have hm : (Equiv.ofBijective _ mergeObs_bij).symm (mergeObs a) = a :=
    (Equiv.ofBijective _ mergeObs_bij).symm_apply_apply a
  show posE2 ((Equiv.ofBijective _ mergeObs_bij).symm (posE1.symm (pos1 (mergeObs a)))) = _
  rw [posE1_symm, hm]
  rfl

theorem noise_merge {θ : TDParams} (hθ : θ.sigmaDerivs2 = θ.sigmaDerivs) (a : Obs2 n v w) :
    noise2 θ a = noise1 θ (mergeObs a) := by
  rcases a with (i | ⟨i, u⟩) | ⟨i, u⟩ <;> simp [noise2, noise1, mergeObs, hθ]

theorem lhsNoise_merge (e : KExpr d) {θ : TDParams} (hθ : θ.sigmaDerivs2 = θ.sigmaDerivs) (x : Batch n d)
    (J : Jac n d v) (J' : Jac n d w) :
    tdALhsNoise1 θ e.obj x (joinJac J J') x (joinJac J J') =
      (tdALhsNoise2 θ e.obj x J J' x J J').submatrix unmerge unmerge := by
  ext s t
  obtain ⟨a, rfl⟩ := pos1_bij.2 s
  obtain ⟨b, rfl⟩ := pos1_bij.2 t
  obtain ⟨a, rfl⟩ := mergeObs_bij.2 a
  obtain ⟨b, rfl⟩ := mergeObs_bij.2 b
  rw [submatrix_apply, unmerge_pos, unmerge_pos, (C52_entries1 e.obj θ x (joinJac J J') x (joinJac J J')).2.2,
    (C52_entries2 _ θ x J J' x J J').2.2, dataCov1, dataCov2, cov_merge (frameLinear e _), noise_merge hθ]
  simp only [mergeObs_bij.1.eq_iff]

theorem rhs_merge (mf : MeanFun) (y : Mat n 1) (yd : Mat n v) (yd' : Mat n w) :
    tdRhs1 mf y (joinCols yd yd') = (tdRhs2 mf y yd yd').submatrix unmerge id := by
  ext s c
  rw [Subsingleton.elim c 0]
  obtain ⟨a, rfl⟩ := pos1_bij.2 s
  obtain ⟨a, rfl⟩ := mergeObs_bij.2 a
  rw [submatrix_apply, unmerge_pos, id_eq, rhs1_pos, rhs2_pos, residual_merge]

theorem tdLmlTail_reindex (ex : la.Exact) {N M : ℕ} (σ : Fin N ≃ Fin M) {C : Mat M M} (hC : C.PosDef) (y : Mat M 1)
    (k : ℕ) : tdLmlTail la (C.submatrix σ σ) (y.submatrix σ id) k = tdLmlTail la C y k := by
  have hC' : (C.submatrix σ σ).PosDef := hC.submatrix σ.injective
  unfold tdLmlTail
  simp only
  rw [quad_sum hC' ex, quad_sum hC ex, ex.logdet hC', ex.logdet hC, Matrix.det_submatrix_equiv_self,
    Matrix.inv_submatrix_equiv]
  simp only [submatrix_apply, id_eq]
  congr 4
  refine Finset.sum_congr rfl fun c _ => ?_
  rw [← σ.sum_comp]
  refine Finset.sum_congr rfl fun i _ => ?_
  rw [← σ.sum_comp]

/-- **C158**, two sets: with the same noise on both, the model with two sets of derivatives predicts what the model
with one set, the components side by side, predicts. For every kernel expression, mean function and dataset with a
positive definite training matrix (for the kernels of C78 every dataset). -/
theorem C158_two_sets (ex : la.Exact) (e : KExpr d) (θ : TDParams) (hθ : θ.sigmaDerivs2 = θ.sigmaDerivs) (mf : MeanFun)
    (x : Batch n d) (y : Mat n 1) (J : Jac n d v) (J' : Jac n d w) (yd : Mat n v) (yd' : Mat n w)
    (hp : (tdALhsNoise2 θ e.obj x J J' x J J').PosDef) :
    let two := tdFitDense2 la θ e.obj mf x y J J' yd yd'
    let one := tdFitDense1 la θ e.obj mf x y (joinJac J J') (joinCols yd yd')
    ∀ {m r r' : ℕ} (xs : Batch m d) (Js : Jac m d r) (Js' : Jac m d r'),
      let pred := tdPredictDense2 θ e.obj x J J' xs Js Js' two.1 two.2
      tdPredictDense1 θ e.obj x (joinJac J J') xs (joinJac Js Js') one.1 one.2 =
        (pred.1, joinCols pred.2.1 pred.2.2) := by
  intro two one m r r' xs Js Js' pred
  have F := frameLinear e θ.kernelParams
  have hn := noise_merge (n := n) (v := v) (w := w) hθ
  have h2 := C76_fit2 ex e.obj θ mf x y J J' yd yd' hp
  have hp1 : (tdALhsNoise1 θ e.obj x (joinJac J J') x (joinJac J J')).PosDef := by
    rw [lhsNoise_merge e hθ]
    exact hp.submatrix unmerge.injective
  obtain ⟨-, -, huniq⟩ := C76_fit1 ex e.obj θ mf x y (joinJac J J') (joinCols yd yd') hp1
  -- the coefficients of the model with two sets, restacked
  let c' : Mat (n + n * (v + w)) 1 := Matrix.of fun s _ =>
    two.1 (pos2 ((Equiv.ofBijective _ mergeObs_bij).symm (posE1.symm s))) 0
  have hm : ∀ a : Obs2 n v w, (Equiv.ofBijective _ mergeObs_bij).symm (mergeObs a) = a := fun a =>
    (Equiv.ofBijective _ mergeObs_bij).symm_apply_apply a
  have hc' : ∀ a : Obs2 n v w, c' (pos1 (mergeObs a)) 0 = two.1 (pos2 a) 0 := fun a => by
    show two.1 (pos2 ((Equiv.ofBijective _ mergeObs_bij).symm (posE1.symm (pos1 (mergeObs a))))) 0 = _
    rw [posE1_symm, hm]
  have hsum : ∀ f : Obs1 n (v + w) → ℝ, ∑ b, f b = ∑ b : Obs2 n v w, f (mergeObs b) := fun f =>
    ((Equiv.ofBijective _ mergeObs_bij).sum_comp f).symm
  have hone : c' = one.1 := huniq c' fun a => by
    obtain ⟨a, rfl⟩ := mergeObs_bij.2 a
    rw [← residual_merge, hsum]
    refine Eq.trans ?_ (h2.2.1 a)
    refine Finset.sum_congr rfl fun b _ => ?_
    rw [hc', dataCov1, dataCov2, cov_merge F, hn]
    simp only [mergeObs_bij.1.eq_iff]
    rfl
  have hmu : one.2 = two.2 := rfl
  have key : ∀ b : Obs2 m r r', ((tdALhs1 θ e.obj x (joinJac J J') xs (joinJac Js Js')).transpose * one.1)
      (pos1 (mergeObs b)) 0 = ((tdALhs2 θ e.obj x J J' xs Js Js').transpose * two.1) (pos2 b) 0 := fun b => by
    rw [Matrix.mul_apply, Matrix.mul_apply, sum_pos pos1_bij, sum_pos pos2_bij, hsum]
    refine Finset.sum_congr rfl fun a _ => ?_
    rw [transpose_apply, transpose_apply, (C52_entries1 e.obj θ x (joinJac J J') xs (joinJac Js Js')).2.1, (C52_entries2 _ θ x J J' xs Js Js').2.1,
      ← cov_merge F, ← hone, hc']
  refine Prod.ext ?_ ?_
  · ext i c
    rw [Subsingleton.elim c 0]
    show _ + one.2 = _ + two.2
    rw [hmu]
    exact congrArg (· + two.2) (key (.inl (.inl i)))
  · ext i t
    have hu : (tdPredictDense1 θ e.obj x (joinJac J J') xs (joinJac Js Js') one.1 one.2).2 i t =
        ((tdALhs1 θ e.obj x (joinJac J J') xs (joinJac Js Js')).transpose * one.1) (pos1 (.inr (i, t))) 0 := by
      simp only [tdPredictDense1, tdSplit1, unflatCol, Matrix.of_apply, prod_flat]; rfl
    rw [hu]
    refine Fin.addCases (fun u => ?_) (fun u => ?_) t
    · refine (key (.inl (.inr (i, u)))).trans ?_
      simp only [joinCols, Matrix.of_apply, Fin.append_left, pred, tdPredictDense2, tdSplit2, tdSplit1, unflatCol,
        prod_flat]
      rfl
    · refine (key (.inr (i, u))).trans ?_
      simp only [joinCols, Matrix.of_apply, Fin.append_right, pred, tdPredictDense2, tdSplit2, unflatCol, prod_flat]
      rfl

/-- **C158**, the log marginal likelihood of two sets with the same noise. The dense method divides by the number of
targets and of derivatives of the first set only (see C53): up to that normalisation it is the log likelihood of the
merged set. -/
theorem C158_two_sets_likelihood (ex : la.Exact) (e : KExpr d) (θ : TDParams) (hθ : θ.sigmaDerivs2 = θ.sigmaDerivs)
    (mf : MeanFun) (hn : 0 < n) (x : Batch n d) (y : Mat n 1) (J : Jac n d v) (J' : Jac n d w) (yd : Mat n v) (yd' : Mat n w)
    (hp : (tdALhsNoise2 θ e.obj x J J' x J J').PosDef) :
    (n * (1 + v) : ℝ) * tdLmlDense2 la θ e.obj mf x y J J' yd yd' =
      (n * (1 + v + w) : ℝ) * tdLmlDense1 la θ e.obj mf x y (joinJac J J') (joinCols yd yd') +
        n * w / 2 * Real.log (2 * Real.pi) := by
  unfold tdLmlDense1 tdLmlDense2
  rw [lhsNoise_merge e hθ, rhs_merge, tdLmlTail_reindex ex unmerge hp]
  unfold tdLmlTail
  have hn' : (0 : ℝ) < n := Nat.cast_pos.2 hn
  have h1 : (n * (1 + v) : ℝ) ≠ 0 := by positivity
  have h2 : (n * (1 + v + w) : ℝ) ≠ 0 := by positivity
  have e1 : ((n + n * v : ℕ) : ℝ) = n * (1 + v) := by push_cast; ring
  have e2 : ((n + n * (v + w) : ℕ) : ℝ) = n * (1 + v + w) := by push_cast; ring
  rw [e1, e2]
  simp only
  rw [mul_div_cancel₀ _ h1, mul_div_cancel₀ _ h2]
  ring

/-! ## No derivative components -/

theorem pos1_none_bij : Function.Bijective fun i : Fin n => pos1 (Sum.inl i : Obs1 n 0) := by
  constructor
  · intro i j h
    exact Sum.inl_injective (pos1_bij.1 h)
  · intro s
    obtain ⟨a | ⟨i, u⟩, rfl⟩ := pos1_bij.2 s
    · exact ⟨a, rfl⟩
    · exact u.elim0

/-- The targets among the observations of a model without derivative components. -/
noncomputable def targetE : Fin n ≃ Fin (n + n * 0) := Equiv.ofBijective _ pos1_none_bij

theorem lhsNoise_none (e : KExpr d) (θ : TDParams) (x : Batch n d) (J : Jac n d 0) :
    aLhsNoise ⟨θ.kernelParams, θ.sigmaTargets⟩ e.obj x x = (tdALhsNoise1 θ e.obj x J x J).submatrix targetE targetE := by
  ext i j
  show _ = tdALhsNoise1 θ e.obj x J x J (pos1 (.inl i)) (pos1 (.inl j))
  rw [(C52_entries1 e.obj θ x J x J).2.2, dataCov1]
  simp only [cov1, noise1, Sum.inl.injEq, aLhsNoise, aLhs, GPParams.noise, Matrix.add_apply, Matrix.smul_apply,
    Matrix.one_apply, Matrix.of_apply, smul_eq_mul, mul_ite, mul_one, mul_zero, noiseJitter]

theorem rhs_none (mf : MeanFun) (y : Mat n 1) (yd : Mat n 0) :
    centerBy y (mf y) = (tdRhs1 mf y yd).submatrix targetE id := by
  ext i c
  rw [Subsingleton.elim c 0]
  show _ = tdRhs1 mf y yd (pos1 (.inl i)) 0
  rw [rhs1_pos]
  rfl

/-- **C158**, no components: `GPR_TD` with derivatives of no components is `GPR` trained on the targets, with the noise
of the targets: same predicted targets and same log marginal likelihood. -/
theorem C158_no_components (ex : la.Exact) (e : KExpr d) (θ : TDParams) (mf : MeanFun) (x : Batch n d) (y : Mat n 1)
    (J : Jac n d 0) (yd : Mat n 0) (hp : (tdALhsNoise1 θ e.obj x J x J).PosDef) :
    let td := tdFitDense1 la θ e.obj mf x y J yd
    let θ' : GPParams := ⟨θ.kernelParams, θ.sigmaTargets⟩
    let gp := fitDense la θ' e.obj mf x y
    tdLmlDense1 la θ e.obj mf x y J yd = lmlDense la θ' e.obj mf x y ∧
      ∀ {m r : ℕ} (xs : Batch m d) (Js : Jac m d r),
        (tdPredictDense1 θ e.obj x J xs Js td.1 td.2).1 = predictDense θ' e.obj x xs gp.1 gp.2 := by
  intro td θ' gp
  have hp0 : (aLhsNoise θ' e.obj x x).PosDef := by
    rw [lhsNoise_none e θ x J]
    exact hp.submatrix targetE.injective
  refine ⟨?_, fun {m r} xs Js => ?_⟩
  · unfold tdLmlDense1 lmlDense
    rw [lhsNoise_none e θ x J, rhs_none mf y yd]
    exact (tdLmlTail_reindex ex targetE hp _ _).symm
  · have hgp : gp.1 = td.1.submatrix targetE id := by
      refine solve_unique (posDef_isUnit hp0) (ex.solve _ _ (posDef_isUnit hp0)) ?_
      rw [lhsNoise_none e θ x J, Matrix.submatrix_mul_equiv, rhs_none mf y yd]
      exact congrArg (fun z : Mat (n + n * 0) 1 => z.submatrix targetE id) (ex.solve _ _ (posDef_isUnit hp))
    ext i c
    rw [Subsingleton.elim c 0]
    show ((tdALhs1 θ e.obj x J xs Js).transpose * td.1) (pos1 (.inl i)) 0 + td.2 =
      gp.2 + ((aLhs θ' e.obj x xs).transpose * gp.1) i 0
    rw [add_comm, Matrix.mul_apply, Matrix.mul_apply, ← targetE.sum_comp]
    congr 1
    refine Finset.sum_congr rfl fun j _ => ?_
    rw [hgp]
    show tdALhs1 θ e.obj x J xs Js (pos1 (.inl j)) (pos1 (.inl i)) * _ = _
    rw [(C52_entries1 e.obj θ x J xs Js).2.1]
    rfl

/-- Non-vacuity: a joint model in the plane with the derivatives of the model of C157 given as two sets. -/
example (mf : MeanFun) (y : Mat 2 1) (yd : Mat 2 3) (yd' : Mat 2 1) (xs : Batch 1 2) (Js : Jac 1 2 3) :
    let θ : TDParams := { exθ with sigmaDerivs2 := exθ.sigmaDerivs }
    let κ := (KExpr.matern52 none : KExpr 2).obj
    let two := tdFitDense2 LinAlg.ideal θ κ mf exX y exJ exJ' yd yd'
    let one := tdFitDense1 LinAlg.ideal θ κ mf exX y (joinJac exJ exJ') (joinCols yd yd')
    (tdPredictDense1 θ κ exX (joinJac exJ exJ') xs (joinJac Js Js) one.1 one.2).1 =
      (tdPredictDense2 θ κ exX exJ exJ' xs Js Js two.1 two.2).1 := by
  intro θ κ two one
  exact congrArg Prod.fst (C158_two_sets LinAlg.ideal_exact _ θ rfl mf exX y exJ exJ' yd yd'
    (C78_well_posed_partial _ θ (by norm_num [JointSmooth, KPar.val, θ, exθ]) exX exJ exJ').2 xs Js Js)

end GPX.Props
