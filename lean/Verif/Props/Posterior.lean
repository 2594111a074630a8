import Verif.Model.Posterior
import Verif.Props.Params
import Verif.Props.SGPR
import Verif.Props.Logdet

/-! # C92, C93 and an addition to C54: likelihoods and posteriors of a model state -/

namespace GPX.Props
open GPX Spec

variable {K M C R L : Type}

/-! ### `log_prior` of array-valued parameters -/

theorem Arr.add_shape_ne {a b r : Arr} (h : a.add b = .ok r) (hab : a.shape ≠ [] ∨ b.shape ≠ []) : r.shape ≠ [] := by
  unfold Arr.add at h
  split at h
  · rename_i he
    cases h
    rcases hab with h | h
    · exact h
    · rw [← he] at h; exact h
  · rename_i hne
    split at h
    · rename_i h1 _
      cases h
      intro h2
      exact hne (h1.trans h2.symm)
    · rename_i h1 _ _
      cases h
      intro h2
      exact hne (h2.trans h1.symm)
    · cases h

theorem logPrior_fold_shape (ps : List Param) (acc r : Arr)
    (h : ps.foldlM (fun (acc : Arr) p => acc.add (p.value.map p.prior.dist.logpdf)) acc = .ok r)
    (hne : acc.shape ≠ [] ∨ ∃ p ∈ ps, p.value.shape ≠ []) : r.shape ≠ [] := by
  induction ps generalizing acc with
  | nil =>
    cases h
    rcases hne with h | ⟨p, hp, _⟩
    · exact h
    · simp at hp
  | cons p ps ih =>
    rw [List.foldlM_cons] at h
    rcases e : acc.add (p.value.map p.prior.dist.logpdf) with er | a
    · rw [e] at h; cases h
    · rw [e] at h
      refine ih a h ?_
      rcases hne with h0 | ⟨q, hq, h0⟩
      · exact .inl (Arr.add_shape_ne e (.inl h0))
      · rcases List.mem_cons.mp hq with rfl | hq
        · exact .inl (Arr.add_shape_ne e (.inr h0))
        · exact .inr ⟨q, hq, h0⟩

/-- C54, the negative side for all states: as soon as one parameter, at any depth, is not a zero-dimensional array,
`log_prior` and `log_posterior` do not return a scalar (they return an array or raise). -/
theorem C54_array_never_scalar (params : Dict Param) (h : ∃ p ∈ params.leaves, p.value.shape ≠ []) :
    (∀ r, logPrior params = .ok r → r.shape ≠ []) ∧
    ∀ (lml : ℝ) (dt : Key) (r : Arr), logPosterior ⟨[], dt, [lml]⟩ params = .ok r → r.shape ≠ [] := by
  have h1 : ∀ r, logPrior params = .ok r → r.shape ≠ [] := by
    intro r hr
    obtain ⟨p, hp, hs⟩ := h
    exact logPrior_fold_shape _ _ _ hr (.inr ⟨p, (mem_leaves_sortKeys _ _).mpr hp, hs⟩)
  refine ⟨h1, fun lml dt r hr => ?_⟩
  rw [logPosterior] at hr
  rcases e : logPrior params with er | a
  · rw [e] at hr; cases hr
  · rw [e] at hr
    exact Arr.add_shape_ne hr (.inr (h1 a e))

theorem Arr.add_wf {a b r : Arr} (h : a.add b = .ok r) (ha : a.WF) (hb : b.WF) : r.WF := by
  unfold Arr.add at h
  split at h
  · rename_i he
    cases h
    simp only [Arr.WF, List.length_zipWith] at *
    rw [ha, hb, he, min_self]
  · split at h
    · cases h; simpa [Arr.WF] using hb
    · cases h; simpa [Arr.WF] using ha
    · cases h

theorem logPrior_fold_wf (ps : List Param) (acc r : Arr)
    (h : ps.foldlM (fun (acc : Arr) p => acc.add (p.value.map p.prior.dist.logpdf)) acc = .ok r)
    (ha : acc.WF) (hps : ∀ p ∈ ps, p.value.WF) : r.WF := by
  induction ps generalizing acc with
  | nil => cases h; exact ha
  | cons p ps ih =>
    rw [List.foldlM_cons] at h
    rcases e : acc.add (p.value.map p.prior.dist.logpdf) with er | a
    · rw [e] at h; cases h
    · rw [e] at h
      refine ih a h (Arr.add_wf e ha ?_) fun q hq => hps q (by simp [hq])
      simpa [Arr.WF, Arr.map] using hps p (by simp)

/-! ### C92 -/

/-- The independent statement of "posterior = likelihood + prior": errors of the likelihood and of the prior are
raised, otherwise every entry of the posterior is the likelihood plus the entry of the log prior, and for scalar
parameters it is the likelihood plus the sum of all log-prior densities. -/
def LikelihoodPlusPrior (post : Except Err Arr) (lml : Except Err ℝ) (params : Dict Param) : Prop :=
  (∀ e, lml = .error e → post = .error e) ∧
  (∀ l e, lml = .ok l → logPrior params = .error e → post = .error e) ∧
  (∀ l p, lml = .ok l → logPrior params = .ok p →
    ∃ r, post = .ok r ∧ r.shape = p.shape ∧ r.data = p.data.map (l + ·)) ∧
  (∀ l, lml = .ok l → (∀ p ∈ params.leaves, ∃ x, p.value.shape = [] ∧ p.value.data = [x]) →
    ∃ dt, post = .ok ⟨[], dt, [l + priorSum params]⟩)

theorem plusPrior_spec (lml : Except Err ℝ) (params : Dict Param) (hw : ∀ p ∈ params.leaves, p.value.WF) :
    LikelihoodPlusPrior (plusPrior lml params) lml params := by
  refine ⟨?_, ?_, ?_, ?_⟩
  · rintro e rfl; rfl
  · rintro l e rfl he
    simp only [plusPrior, bind, Except.bind, logPosterior, he]
  · rintro l p rfl hp
    have hwf : p.WF := logPrior_fold_wf _ _ _ hp (by simp [Arr.WF])
      fun q hq => hw q ((mem_leaves_sortKeys _ _).mp hq)
    simp only [plusPrior, bind, Except.bind, logPosterior, hp]
    obtain ⟨sh, dt, da⟩ := p
    rcases sh with _ | ⟨a, sh⟩
    · simp only [Arr.WF, List.prod_nil, List.length_eq_one_iff] at hwf
      obtain ⟨z, rfl⟩ := hwf
      exact ⟨_, rfl, rfl, rfl⟩
    · exact ⟨_, rfl, rfl, rfl⟩
  · rintro l rfl hs
    exact ⟨_, (C54_log_posterior_partial params l "float".toList hs).2⟩

/-- The parameter arrays of a state fill their shapes (an invariant of every real array). -/
def ArraysWF (s : ModelState K M C) : Prop := ∀ p ∈ s.params.leaves, p.value.WF

/-- The full claim of C92: in the three models (`sgprLocs`, `rpcLocs` are how the two sparse ones read their inducing
points), for every state, data and arguments, `log_posterior` is the log marginal likelihood *with the same arguments*
plus the log prior. -/
def C92_full : Prop :=
  ∀ (K M C R : Type) (key0 : R) (s : ModelState K M C) (x y : Arr) (a : LikArgs R), ArraysWF s →
    (∀ num : GprLikNum K M R, LikelihoodPlusPrior (gprLogPosterior num s x y a) (gprLml num s x y a) s.params) ∧
    (∀ num : SparseLikNum K M (Arr × Option Arr) R,
      LikelihoodPlusPrior (sparseLogPosterior key0 sgprLocs num s x y a) (sparseLml sgprLocs num s x y a) s.params) ∧
    (∀ num : SparseLikNum K M (OptVal C × OptVal C) R,
      LikelihoodPlusPrior (sparseLogPosterior key0 rpcLocs num s x y a) (sparseLml rpcLocs num s x y a) s.params)

/-- C92, the likelihoods themselves: each of the optional arguments, the parameters, kernel and mean function of the
state (the zero mean for derivatives) and the data reach the numerical function under their own names, and only the
iterative functions see the optional ones. Stated on a record of what the numerical functions were called with. -/
theorem C92_arguments (zeroMean : M) (dense derivsDense : Dict Param × Arr × Arr × Arr × K × M → ℝ)
    (iter derivsIter : Dict Param × Arr × Arr × Arr × K × M → LikArgs R → ℝ) (s : ModelState K M C) (x y jacobian : Arr)
    (a : LikArgs R) :
    let num : GprLikNum K M R :=
      { dense := fun p x y k m => .ok (dense (p, x, y, jacobian, k, m))
        iter := fun p x y k m ne nl kl np kp =>
          .ok (iter (p, x, y, jacobian, k, m) ⟨true, ne, nl, kl, np, kp⟩)
        derivsDense := fun p x j y k m => .ok (derivsDense (p, x, y, j, k, m))
        derivsIter := fun p x j y k m ne nl kl np kp =>
          .ok (derivsIter (p, x, y, j, k, m) ⟨true, ne, nl, kl, np, kp⟩) }
    let snum : SparseLikNum K M Unit R :=
      { dense := fun p _ x y k m => .ok (dense (p, x, y, jacobian, k, m))
        iter := fun p _ x y k m ne nl kl =>
          .ok (iter (p, x, y, jacobian, k, m) { iterative := true, numEvals := ne, numLanczos := nl, keyLanczos := kl })
        derivsDense := fun p _ x y j k m => .ok (derivsDense (p, x, y, j, k, m))
        derivsIter := fun p _ x y j k m ne nl kl =>
          .ok (derivsIter (p, x, y, j, k, m) { iterative := true, numEvals := ne, numLanczos := nl, keyLanczos := kl }) }
    gprLml num s x y { a with iterative := true } =
      .ok (iter (s.params, x, y, jacobian, s.kernel, s.meanFn) { a with iterative := true }) ∧
    gprLml num s x y { a with iterative := false } = .ok (dense (s.params, x, y, jacobian, s.kernel, s.meanFn)) ∧
    gprLmlDerivs zeroMean num s x y jacobian { a with iterative := true } =
      .ok (derivsIter (s.params, x, y, jacobian, s.kernel, zeroMean) { a with iterative := true }) ∧
    gprLmlDerivs zeroMean num s x y jacobian { a with iterative := false } =
      .ok (derivsDense (s.params, x, y, jacobian, s.kernel, zeroMean)) ∧
    sparseLml (fun _ => .ok ()) snum s x y { a with iterative := true, nPivots := none, keyPrecond := none } =
      .ok (iter (s.params, x, y, jacobian, s.kernel, s.meanFn)
        { a with iterative := true, nPivots := none, keyPrecond := none }) ∧
    sparseLml (fun _ => .ok ()) snum s x y { a with iterative := false } =
      .ok (dense (s.params, x, y, jacobian, s.kernel, s.meanFn)) ∧
    sparseLmlDerivs zeroMean (fun _ => .ok ()) snum s x y jacobian
        { a with iterative := true, nPivots := none, keyPrecond := none } =
      .ok (derivsIter (s.params, x, y, jacobian, s.kernel, zeroMean)
        { a with iterative := true, nPivots := none, keyPrecond := none }) ∧
    sparseLmlDerivs zeroMean (fun _ => .ok ()) snum s x y jacobian { a with iterative := false } =
      .ok (derivsDense (s.params, x, y, jacobian, s.kernel, zeroMean)) :=
  ⟨rfl, rfl, rfl, rfl, rfl, rfl, rfl, rfl⟩

/-- C92 for `GPR`, for every state, data and arguments, on targets and on derivatives. -/
theorem C92_gpr_partial (num : GprLikNum K M R) (zeroMean : M) (s : ModelState K M C) (x y jacobian : Arr)
    (a : LikArgs R) (hs : ArraysWF s) :
    LikelihoodPlusPrior (gprLogPosterior num s x y a) (gprLml num s x y a) s.params ∧
    LikelihoodPlusPrior (gprLogPosteriorDerivs zeroMean num s x y jacobian a)
      (gprLmlDerivs zeroMean num s x y jacobian a) s.params :=
  ⟨plusPrior_spec _ _ hs, plusPrior_spec _ _ hs⟩

/-- C92 for the sparse models on derivatives, for every state, data and arguments. -/
theorem C92_sparse_derivs_partial (zeroMean : M) (locs : ModelState K M C → Except Err L)
    (num : SparseLikNum K M L R) (s : ModelState K M C) (x y jacobian : Arr) (a : LikArgs R) (hs : ArraysWF s) :
    LikelihoodPlusPrior (sparseLogPosteriorDerivs zeroMean locs num s x y jacobian a)
      (sparseLmlDerivs zeroMean locs num s x y jacobian a) s.params :=
  plusPrior_spec _ _ hs

/-- C92 for the sparse models on targets, for dense likelihoods and for the default Lanczos key. Missing: iterative
likelihoods with another key, for which it is false. -/
theorem C92_sparse_partial (key0 : R) (locs : ModelState K M C → Except Err L) (num : SparseLikNum K M L R)
    (s : ModelState K M C) (x y : Arr) (a : LikArgs R) (hs : ArraysWF s)
    (ha : a.iterative = false ∨ a.keyLanczos = key0) :
    LikelihoodPlusPrior (sparseLogPosterior key0 locs num s x y a) (sparseLml locs num s x y a) s.params := by
  have h : sparseLogPosterior key0 locs num s x y a = plusPrior (sparseLml locs num s x y a) s.params := by
    unfold sparseLogPosterior sparseLml
    rcases ha with h | h
    · simp only [h]; rfl
    · simp only [h]
  rw [h]
  exact plusPrior_spec _ _ hs

/-- C92, the failing side for all states of the sparse models: `log_posterior` and `neg_log_posterior` do not depend on
the Lanczos key they are given. -/
theorem C92_sparse_ignores_key (key0 : R) (locs : ModelState K M C → Except Err L) (num : SparseLikNum K M L R)
    (s : ModelState K M C) (x y : Arr) (a : LikArgs R) (key : R) :
    sparseLogPosterior key0 locs num s x y { a with keyLanczos := key } =
      sparseLogPosterior key0 locs num s x y a ∧
    sparseNegLogPosterior key0 locs num s x y { a with keyLanczos := key } =
      sparseNegLogPosterior key0 locs num s x y a :=
  ⟨rfl, rfl⟩

/-- The independent statement of "is the negative of": same errors, opposite numbers. -/
def IsNegative (neg : Except Err ℝ) (pos : Except Err ℝ) : Prop :=
  (∀ e, neg = .error e ↔ pos = .error e) ∧ ∀ l, pos = .ok l → neg = .ok (-l)

/-- The same for arrays: same errors, same shape, opposite entries. -/
def IsNegativeArr (neg : Except Err Arr) (pos : Except Err Arr) : Prop :=
  (∀ e, neg = .error e ↔ pos = .error e) ∧
  ∀ p, pos = .ok p → ∃ q, neg = .ok q ∧ q.shape = p.shape ∧ q.data = p.data.map (fun x => -x)

theorem negNumber_spec (r : Except Err ℝ) : IsNegative (negNumber r) r := by
  rcases r with e | l
  · exact ⟨fun e' => ⟨fun h => h, fun h => h⟩, fun l h => by cases h⟩
  · refine ⟨fun e' => ⟨fun h => (by cases h), fun h => (by cases h)⟩, fun l' h => ?_⟩
    cases h; rfl

theorem negResult_spec (r : Except Err Arr) : IsNegativeArr (negResult r) r := by
  rcases r with e | l
  · exact ⟨fun e' => ⟨fun h => (by cases h; rfl), fun h => (by cases h; rfl)⟩, fun l h => by cases h⟩
  · refine ⟨fun e' => ⟨fun h => (by cases h), fun h => (by cases h)⟩, fun l' h => ?_⟩
    cases h; exact ⟨_, rfl, rfl, rfl⟩

/-- C92. Every `neg_*` function of the three models is the negative of the function it is named after, with the same
arguments, for every state, data and arguments. -/
theorem C92_negatives (zeroMean : M) (key0 : R) (gnum : GprLikNum K M R) (locs : ModelState K M C → Except Err L)
    (num : SparseLikNum K M L R) (s : ModelState K M C) (x y jacobian : Arr) (a : LikArgs R) :
    IsNegative (gprNegLml gnum s x y a) (gprLml gnum s x y a) ∧
    IsNegative (gprNegLmlDerivs zeroMean gnum s x y jacobian a) (gprLmlDerivs zeroMean gnum s x y jacobian a) ∧
    IsNegativeArr (gprNegLogPosterior gnum s x y a) (gprLogPosterior gnum s x y a) ∧
    IsNegativeArr (gprNegLogPosteriorDerivs zeroMean gnum s x y jacobian a)
      (gprLogPosteriorDerivs zeroMean gnum s x y jacobian a) ∧
    IsNegative (sparseNegLml locs num s x y a) (sparseLml locs num s x y a) ∧
    IsNegative (sparseNegLmlDerivs zeroMean locs num s x y jacobian a)
      (sparseLmlDerivs zeroMean locs num s x y jacobian a) ∧
    IsNegativeArr (sparseNegLogPosterior key0 locs num s x y a) (sparseLogPosterior key0 locs num s x y a) ∧
    IsNegativeArr (sparseNegLogPosteriorDerivs zeroMean locs num s x y jacobian a)
      (sparseLogPosteriorDerivs zeroMean locs num s x y jacobian a) :=
  ⟨negNumber_spec _, negNumber_spec _, negResult_spec _, negResult_spec _, negNumber_spec _, negNumber_spec _,
    negResult_spec _, negResult_spec _⟩

/-! #### A real likelihood that depends on the key -/

/-- Probe vectors: `(1, 1)` or `(1, -1)`, according to the key. -/
def probe (key : Bool) : Arr2 2 1 := fun i _ => if key then 1 else if i = 0 then 1 else -1

/-- The log-determinant estimate of `lanczos_logdet` with one probe and one Lanczos step, for a matrix-free product on
columns. -/
noncomputable def oneStepLogdet (eigh : Eigh) (key : Bool) (matvec : Mat 2 1 → Mat 2 1) : ℝ :=
  lanczosLogdet (fun k : Bool => (k, k)) (fun _ => 0) probe eigh
    (fun z => fun i => matvec (Matrix.of fun i _ => z i) i 0) 0 key

theorem logdetTerm_one {eigh : Eigh} (he : eigh.Exact) (t : Arr2 1 1) :
    logdetTerm eigh (m := 0) t = Real.log (max (t 0 0) (1 / 10 ^ 36)) := by
  obtain ⟨h1, h2⟩ := he (m := 1) (Matrix.of t) (by
    ext i j
    have := Subsingleton.elim i j
    subst this
    simp [Matrix.conjTranspose_apply])
  have g1 := congrFun (congrFun h1 0) 0
  have g2 := congrFun (congrFun h2 0) 0
  simp [Matrix.mul_apply, Matrix.diagonal_apply] at g1 g2
  unfold logdetTerm
  simp only [Nat.reduceAdd, Finset.univ_unique, Finset.sum_singleton, Fin.default_eq_zero, Fin.isValue]
  have h3 : ((eigh (Matrix.of t)).2 0 0) ^ 2 = 1 := by rw [sq]; exact g1
  have h4 : (eigh (Matrix.of t)).1 0 = t 0 0 := by rw [g2]; linear_combination -(eigh (Matrix.of t)).1 0 * g1
  rw [h3, h4, one_mul]

theorem oneStepLogdet_eq {eigh : Eigh} (he : eigh.Exact) (key : Bool) (A : Mat 2 2) :
    oneStepLogdet eigh key (fun z : Mat 2 1 => A * z) =
      2 * Real.log (max ((A 0 0 + A 1 1 + (if key then 1 else -1) * (A 0 1 + A 1 0)) / 2) (1 / 10 ^ 36)) := by
  have hs : ∀ k : Bool, vnorm (column (probe k) 0) = Real.sqrt 2 := by
    intro k
    unfold vnorm column probe
    congr 1
    cases k <;> norm_num [Fin.sum_univ_two]
  have h2 : Real.sqrt 2 * Real.sqrt 2 = 2 := Real.mul_self_sqrt (by norm_num)
  have h0 : Real.sqrt 2 ≠ 0 := by positivity
  have ht : ∀ u : Vec 2, (lanczosTridiagonal (fun k : Bool => (k, k)) (fun _ => 0)
      (fun z : Vec 2 => fun i => (A * (Matrix.of fun i _ => z i : Mat 2 1)) i 0) (0 + 1) u key).1 0 0 =
      A 0 0 * u 0 * u 0 + A 0 1 * u 1 * u 0 + A 1 0 * u 0 * u 1 + A 1 1 * u 1 * u 1 := by
    intro u
    have hset : ∀ v : ℝ, setEntry (fun _ _ => (0 : ℝ)) 0 0 v (0 : Fin (0 + 1)) (0 : Fin (0 + 1)) = v := by
      intro v; simp [setEntry]
    refine (hset (vdot (fun i => (A * (Matrix.of fun i _ => u i : Mat 2 1) : Mat 2 1) i 0) u)).trans ?_
    simp only [vdot, Fin.sum_univ_two, Matrix.mul_apply, Matrix.of_apply]
    ring
  unfold oneStepLogdet lanczosLogdet
  simp only [laxScan, List.ofFn_succ, List.ofFn_zero]
  rw [logdetTerm_one he, ht]
  simp only [column, hs, probe]
  have e1 : (((2 : ℕ) : ℝ) / ((1 : ℕ) : ℝ)) = 2 := by norm_num
  rw [e1, zero_add]
  congr 3
  cases key
  · simp only [Bool.false_eq_true, if_false, if_true, Fin.isValue, one_ne_zero]
    field_simp
    rw [sq, h2]
    ring
  · simp only [if_true]
    field_simp
    rw [sq, h2]
    ring

/-- The inducing point `1`, the data `1, 1` with targets `0, 0`, a linear kernel and unit noise. -/
noncomputable def keyLml (la : LinAlg) (cg : CG) (eigh : Eigh) (key : Bool) : ℝ :=
  sgprLmlIter la cg (oneStepLogdet eigh key) ⟨fun _ => 1, 1⟩ (KExpr.linear (d := 1) none).obj zeroMean
    (fun (_ : Fin 1) _ => 1) (fun (_ : Fin 2) _ => 1) (0 : Mat 2 1)

/-- C92. The iterative likelihood of SGPR really depends on the Lanczos key: with exact solvers, on two equal samples,
the two possible probe vectors give different values. -/
theorem C92_key_matters {la : LinAlg} (ex : la.Exact) (cg : CG) {eigh : Eigh} (he : eigh.Exact) :
    keyLml la cg eigh true ≠ keyLml la cg eigh false := by
  have ha : Admissible (KExpr.linear (d := 1) none) (fun _ => 1) := by simp [Admissible]
  have hmv : (sgprHx la ⟨fun _ => 1, 1⟩ (KExpr.linear (d := 1) none).obj (fun (_ : Fin 1) _ => 1)
      (fun (_ : Fin 2) _ => 1) : Mat 2 1 → Mat 2 1) = fun z : Mat 2 1 =>
      sparseCov (KExpr.linear (d := 1) none).obj ⟨fun _ => 1, 1⟩ (fun (_ : Fin 1) _ => 1) (fun (_ : Fin 2) _ => 1) * z :=
    funext fun z => C48_likelihood_operator ex _ _ ha _ _ z
  have hg := (posDef_add_smul_one (C22_gram_posSemidef (KExpr.linear (d := 1) none) (fun _ => 1) ha
    (fun (_ : Fin 1) _ => 1)) jitter_pos').inv.diag_pos (i := 0)
  intro h
  unfold keyLml sgprLmlIter at h
  simp only [lmlIterTail, hmv] at h
  have h' : oneStepLogdet eigh true (fun z : Mat 2 1 => sparseCov (KExpr.linear (d := 1) none).obj ⟨fun _ => 1, 1⟩
      (fun (_ : Fin 1) _ => 1) (fun (_ : Fin 2) _ => 1) * z) =
      oneStepLogdet eigh false (fun z : Mat 2 1 => sparseCov (KExpr.linear (d := 1) none).obj ⟨fun _ => 1, 1⟩
      (fun (_ : Fin 1) _ => 1) (fun (_ : Fin 2) _ => 1) * z) := by
    have := (div_left_inj' (two_ne_zero' ℝ)).mp h
    linarith
  rw [oneStepLogdet_eq he, oneStepLogdet_eq he] at h'
  have hone : ∀ {p q : ℕ}, (Matrix.of ((KExpr.linear (d := 1) none).obj.k (fun _ => 1) (fun (_ : Fin p) _ => 1)
      (fun (_ : Fin q) _ => 1)) : Mat p q) = Matrix.of fun _ _ => 1 := by
    intro p q
    ext i j
    simp [KExpr.obj, KernelObj.linear, linearK, matmulT, Dims.resolve, Dims.takeCols, Dims.take, Dims.all]
  simp only [hone, noiseJitter] at hg
  have hent : ∀ i j : Fin 2, sparseCov (KExpr.linear (d := 1) none).obj ⟨fun _ => 1, 1⟩ (fun (_ : Fin 1) _ => 1)
      (fun (_ : Fin 2) _ => 1) i j =
      ((Matrix.of fun _ _ => 1 : Mat 1 1) + (1 / 10 ^ 10 : ℝ) • (1 : Mat 1 1))⁻¹ 0 0 +
        (1 + 1 / 10 ^ 10) * (1 : Mat 2 2) i j := by
    intro i j
    simp only [sparseCov, hone]
    simp [Matrix.mul_apply]
  simp only [hent] at h'
  generalize ((Matrix.of fun _ _ => 1 : Mat 1 1) + (1 / 10 ^ 10 : ℝ) • (1 : Mat 1 1))⁻¹ 0 0 = g at hg h'
  have e00 : (1 : Mat 2 2) 0 0 = 1 := rfl
  have e11 : (1 : Mat 2 2) 1 1 = 1 := rfl
  have e01 : (1 : Mat 2 2) 0 1 = 0 := rfl
  have e10 : (1 : Mat 2 2) 1 0 = 0 := rfl
  simp only [e00, e11, e01, e10, if_true, Bool.false_eq_true, if_false] at h'
  have hl := Real.log_injOn_pos (Set.mem_Ioi.mpr (lt_max_of_lt_right (by norm_num)))
    (Set.mem_Ioi.mpr (lt_max_of_lt_right (by norm_num))) (mul_left_cancel₀ (two_ne_zero' ℝ) h')
  rw [max_eq_left (by norm_num; linarith), max_eq_left (by norm_num; linarith)] at hl
  linarith

/-- The real iterative likelihood of SGPR on fixed data, as a function of the Lanczos key. -/
noncomputable def keyNum : SparseLikNum Unit Unit (Arr × Option Arr) Bool where
  dense _ _ _ _ _ _ := .error .typeError
  iter _ _ _ _ _ _ _ _ key := .ok (keyLml LinAlg.ideal idealCG idealEigh key)
  derivsDense _ _ _ _ _ _ _ := .error .typeError
  derivsIter _ _ _ _ _ _ _ _ _ _ := .error .typeError

/-- A state with one scalar parameter `x_locs`. -/
noncomputable def keyState : ModelState Unit Unit Unit := ⟨(), (), .leaf "x_locs".toList exSigma .nil, []⟩

theorem keyState_scalar : ∀ p ∈ keyState.params.leaves, ∃ x, p.value.shape = [] ∧ p.value.data = [x] := by
  intro p hp
  simp only [keyState, Dict.leaves, List.mem_singleton] at hp
  subst hp
  exact ⟨3, rfl, rfl⟩

/-- C92 is false of the code: `log_posterior` of the sparse models evaluates the likelihood with another key. -/
theorem C92_false : ¬ C92_full := by
  intro h
  obtain ⟨_, h2, _⟩ := h Unit Unit Unit Bool false keyState ⟨[], [], []⟩ ⟨[], [], []⟩
    { iterative := true, numEvals := 1, numLanczos := 1, keyLanczos := true } (by
      intro p hp
      obtain ⟨x, h1, h2⟩ := keyState_scalar p hp
      simp [Arr.WF, h1, h2])
  obtain ⟨dt, e1⟩ := (h2 keyNum).2.2.2 (keyLml LinAlg.ideal idealCG idealEigh true) rfl keyState_scalar
  have e2 : sparseLogPosterior false sgprLocs keyNum keyState ⟨[], [], []⟩ ⟨[], [], []⟩
      { iterative := true, numEvals := 1, numLanczos := 1, keyLanczos := true } =
      .ok ⟨[], "float".toList, [keyLml LinAlg.ideal idealCG idealEigh false + priorSum keyState.params]⟩ :=
    (C54_log_posterior_partial keyState.params (keyLml LinAlg.ideal idealCG idealEigh false) "float".toList
      keyState_scalar).2
  rw [e1] at e2
  simp only [Except.ok.injEq, Arr.mk.injEq, List.cons.injEq, add_left_inj] at e2
  exact C92_key_matters LinAlg.ideal_exact idealCG idealEigh_exact e2.2.2.1

/-- Non-vacuity of the hypotheses of C92: a state with scalar and array-valued parameters at two depths. -/
example : ArraysWF exState := by
  intro p hp
  simp only [exState, exParams, Dict.leaves, List.mem_cons, List.append_nil, List.not_mem_nil, or_false] at hp
  rcases hp with rfl | rfl | rfl <;> simp [Arr.WF, exSigma, exLength, exVec]

/-- Non-vacuity of `C54_array_never_scalar`: the same state. -/
example : ∃ p ∈ exState.params.leaves, p.value.shape ≠ [] :=
  ⟨exVec, by simp [exState, exParams, Dict.leaves], by simp [exVec]⟩

/-! ### C93 -/

/-- C93. Likelihoods and posteriors on derivatives do not depend on the mean function of the state, in the three
models, for every state, data and arguments. -/
theorem C93_mean_ignored (zeroMean : M) (gnum : GprLikNum K M R) (snum : SparseLikNum K M (Arr × Option Arr) R)
    (rnum : SparseLikNum K M (OptVal C × OptVal C) R) (s : ModelState K M C) (mean' : M) (x y jacobian : Arr)
    (a : LikArgs R) :
    gprLmlDerivs zeroMean gnum { s with meanFn := mean' } x y jacobian a =
      gprLmlDerivs zeroMean gnum s x y jacobian a ∧
    gprLogPosteriorDerivs zeroMean gnum { s with meanFn := mean' } x y jacobian a =
      gprLogPosteriorDerivs zeroMean gnum s x y jacobian a ∧
    sparseLmlDerivs zeroMean sgprLocsDerivs snum { s with meanFn := mean' } x y jacobian a =
      sparseLmlDerivs zeroMean sgprLocsDerivs snum s x y jacobian a ∧
    sparseLogPosteriorDerivs zeroMean sgprLocsDerivs snum { s with meanFn := mean' } x y jacobian a =
      sparseLogPosteriorDerivs zeroMean sgprLocsDerivs snum s x y jacobian a ∧
    sparseLmlDerivs zeroMean rpcLocs rnum { s with meanFn := mean' } x y jacobian a =
      sparseLmlDerivs zeroMean rpcLocs rnum s x y jacobian a ∧
    sparseLogPosteriorDerivs zeroMean rpcLocs rnum { s with meanFn := mean' } x y jacobian a =
      sparseLogPosteriorDerivs zeroMean rpcLocs rnum s x y jacobian a :=
  ⟨rfl, rfl, rfl, rfl, rfl, rfl⟩

section
variable {K M C R : Type}

/-- C71, where the likelihood is evaluated: the inducing points and jacobians handed to the numerical likelihoods of
SGPR are the values of the parameters `x_locs` and `jacobian_locs` of the state, and the dense or the iterative
function is called as asked; without `x_locs`, and for derivatives without `jacobian_locs`, the call raises
`KeyError`. -/
theorem C71_inducing_points (zeroMean : M) (num : SparseLikNum K M (Arr × Option Arr) R) (s : ModelState K M C)
    (x y jacobian : Arr) (a : LikArgs R) :
    (∀ p : Param, s.params.get? "x_locs".toList = some (.inl p) →
      (a.iterative = false → sparseLml sgprLocs num s x y a =
        num.dense s.params (p.value, none) x y s.kernel s.meanFn) ∧
      (a.iterative = true → sparseLml sgprLocs num s x y a =
        num.iter s.params (p.value, none) x y s.kernel s.meanFn a.numEvals a.numLanczos a.keyLanczos) ∧
      (∀ q : Param, s.params.get? "jacobian_locs".toList = some (.inl q) →
        (a.iterative = false → sparseLmlDerivs zeroMean sgprLocsDerivs num s x y jacobian a =
          num.derivsDense s.params (p.value, some q.value) x y jacobian s.kernel zeroMean) ∧
        (a.iterative = true → sparseLmlDerivs zeroMean sgprLocsDerivs num s x y jacobian a =
          num.derivsIter s.params (p.value, some q.value) x y jacobian s.kernel zeroMean a.numEvals a.numLanczos
            a.keyLanczos)) ∧
      (s.params.get? "jacobian_locs".toList = none →
        sparseLmlDerivs zeroMean sgprLocsDerivs num s x y jacobian a = .error .keyError)) ∧
    (s.params.get? "x_locs".toList = none → sparseLml sgprLocs num s x y a = .error .keyError ∧
      sparseLmlDerivs zeroMean sgprLocsDerivs num s x y jacobian a = .error .keyError) := by
  refine ⟨fun p hp => ⟨fun hi => ?_, fun hi => ?_, fun q hq => ⟨fun hi => ?_, fun hi => ?_⟩, fun hq => ?_⟩,
    fun hp => ⟨?_, ?_⟩⟩ <;>
  simp_all only [sparseLml, sparseLmlDerivs, sgprLocs, sgprLocsDerivs, paramValue, bind, Except.bind, pure,
    Except.pure, if_true, Bool.false_eq_true, if_false]

/-- C71 for SGPR_RPChol: the selection of the inducing points is done with the key and the number of points stored in
the state. -/
theorem C71_rpc_selection (zeroMean : M) (num : SparseLikNum K M (OptVal C × OptVal C) R) (s : ModelState K M C)
    (x y jacobian : Arr) (a : LikArgs R) (key nLocs : OptVal C) (hk : s.attr "key".toList = .ok key)
    (hn : s.attr "n_locs".toList = .ok nLocs) :
    (a.iterative = false →
      sparseLml rpcLocs num s x y a = num.dense s.params (key, nLocs) x y s.kernel s.meanFn ∧
      sparseLmlDerivs zeroMean rpcLocs num s x y jacobian a =
        num.derivsDense s.params (key, nLocs) x y jacobian s.kernel zeroMean) ∧
    (a.iterative = true →
      sparseLml rpcLocs num s x y a =
        num.iter s.params (key, nLocs) x y s.kernel s.meanFn a.numEvals a.numLanczos a.keyLanczos ∧
      sparseLmlDerivs zeroMean rpcLocs num s x y jacobian a =
        num.derivsIter s.params (key, nLocs) x y jacobian s.kernel zeroMean a.numEvals a.numLanczos a.keyLanczos) := by
  constructor <;> intro hi <;>
  simp only [sparseLml, sparseLmlDerivs, rpcLocs, hk, hn, bind, Except.bind, pure, Except.pure, hi, if_true,
    Bool.false_eq_true, if_false, and_self]

/-- Non-vacuity: a state with inducing points and jacobians. -/
example (p q : Param) : Dict.get? "x_locs".toList (.leaf "jacobian_locs".toList q (.leaf "x_locs".toList p .nil)) =
      some (.inl p) ∧
    Dict.get? "jacobian_locs".toList (.leaf "jacobian_locs".toList q (.leaf "x_locs".toList p .nil)) = some (.inl q) :=
  ⟨rfl, rfl⟩

end

end GPX.Props
