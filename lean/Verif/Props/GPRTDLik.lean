import Verif.Model.GPRTDLik
import Verif.Props.GPRTD

/-!
# C107: the likelihood functions of GPR_TD and their optional arguments
-/

namespace GPX.Props
open GPX GPX.Spec

variable {d n v : ℕ} {Key : Type}

theorem denseSets1 (la : LinAlg) (θ : TDParams) (κ : KernelObj d) (mf : MeanFun) (x : Batch n d) (y : Mat n 1)
    (J : Jac n d v) (yd : Mat n v) :
    tdLmlDenseSets la θ κ mf x y J none yd none = .ok (tdLmlDense1 la θ κ mf x y J yd) :=
  dif_pos (show (tdRhsSets mf y yd none).1 = (tdCovSets θ κ x J none).1 from rfl)

theorem denseSets2 (la : LinAlg) (θ : TDParams) (κ : KernelObj d) (mf : MeanFun) (x : Batch n d) (y : Mat n 1)
    {v' : ℕ} (J : Jac n d v) (J' : Jac n d v') (yd : Mat n v) (yd' : Mat n v') :
    tdLmlDenseSets la θ κ mf x y J (some ⟨v', J'⟩) yd (some ⟨v', yd'⟩) =
      .ok (tdLmlDense2 la θ κ mf x y J J' yd yd') :=
  dif_pos (show (tdRhsSets mf y yd (some ⟨v', yd'⟩)).1 = (tdCovSets θ κ x J (some ⟨v', J'⟩)).1 from rfl)

/-- **C107** with one set of derivatives: `neg_log_marginal_likelihood(…)` times the number of observations is minus the
Gaussian log density of the residuals; with `iterative=True`, exact solves, an exact log-determinant, pivots and key it
is the same number. -/
theorem C107_one_set (t : TDTools n v Key) (ex : t.la.Exact) (hcg : CGExact t.cg)
    (numEvals numLanczos : ℕ) (keyLanczos : Key)
    (hl : ∀ {N : ℕ} (A : Mat N N), A.PosDef →
      t.logdet numEvals numLanczos keyLanczos (fun z : Mat N 1 => A * z) = Real.log A.det)
    (e : KExpr d) (θ : TDParams) (mf : MeanFun) (x : Batch n d) (hn : 2 ≤ n) (y : Mat n 1)
    (J : Jac n d v) (yd : Mat n v) (hp : (tdALhsNoise1 θ e.obj x J x J).PosDef)
    (nPivots : ℕ) (key : Key) :
    ∃ l, (n + n * v : ℕ) * l =
        Real.log (gaussDensity (tdALhsNoise1 θ e.obj x J x J) fun s => tdRhs1 mf y yd s 0) ∧
      tdNegLml t θ e.obj mf x y J yd (numEvals := numEvals) (numLanczos := numLanczos) (keyLanczos := keyLanczos) =
        .ok (-l) ∧
      tdNegLml t θ e.obj mf x y J yd (iterative := true) (numEvals := numEvals) (numLanczos := numLanczos)
        (keyLanczos := keyLanczos) (nPivots := some nPivots) (keyPrecond := some key) = .ok (-l) := by
  obtain ⟨h1, h2⟩ := C53_one_set_partial ex e θ mf x (by omega) y J yd hp
  refine ⟨_, h1, ?_, ?_⟩
  · unfold tdNegLml tdLml
    rw [if_neg (by decide), denseSets1]
  · have h3 := h2 t.cg hcg Key t.split t.choice1 (t.logdet numEvals numLanczos keyLanczos) (fun A hA => hl A hA)
      nPivots key (by omega)
    unfold tdNegLml tdLml tdLmlIterSets pivotArgs
    rw [if_pos rfl]
    simp only [h3]

/-- **C107** with a second set: when jacobians and derivatives of the second set have the same number of components
both enter the likelihood, dense and iterative. -/
theorem C107_two_sets (t : TDTools n v Key) (ex : t.la.Exact) (hcg : CGExact t.cg)
    (numEvals numLanczos : ℕ) (keyLanczos : Key)
    (hl : ∀ {N : ℕ} (A : Mat N N), A.PosDef →
      t.logdet numEvals numLanczos keyLanczos (fun z : Mat N 1 => A * z) = Real.log A.det)
    (e : KExpr d) (θ : TDParams) (mf : MeanFun) (x : Batch n d) (hn : 2 ≤ n) (y : Mat n 1)
    {v' : ℕ} (J : Jac n d v) (J' : Jac n d v') (yd : Mat n v) (yd' : Mat n v')
    (hp : (tdALhsNoise2 θ e.obj x J J' x J J').PosDef)
    (nPivots : ℕ) (key : Key) :
    let logp := Real.log (gaussDensity (tdALhsNoise2 θ e.obj x J J' x J J') fun s => tdRhs2 mf y yd yd' s 0)
    (∃ l, (n + n * v : ℕ) * l = logp + (n * v' : ℕ) * (1 / 2) * Real.log (2 * Real.pi) ∧
      tdNegLml t θ e.obj mf x y J yd (some ⟨v', J'⟩) (some ⟨v', yd'⟩) (numEvals := numEvals)
        (numLanczos := numLanczos) (keyLanczos := keyLanczos) = .ok (-l)) ∧
    ∃ l, (n + n * v + n * v' : ℕ) * l = logp ∧
      tdNegLml t θ e.obj mf x y J yd (some ⟨v', J'⟩) (some ⟨v', yd'⟩) (iterative := true) (numEvals := numEvals)
        (numLanczos := numLanczos) (keyLanczos := keyLanczos) (nPivots := some nPivots) (keyPrecond := some key) =
        .ok (-l) := by
  obtain ⟨h1, h2⟩ := C53_two_sets_partial ex e θ mf x (by omega) y J J' yd yd' hp
  refine ⟨⟨_, h1, ?_⟩, ?_⟩
  · unfold tdNegLml tdLml
    rw [if_neg (by decide), denseSets2]
  · obtain ⟨l, h3, h4⟩ := h2 t.cg hcg Key t.split t.choice2 (t.logdet numEvals numLanczos keyLanczos)
      (fun A hA => hl A hA) nPivots key (by omega)
    refine ⟨l, h4, ?_⟩
    unfold tdNegLml tdLml tdLmlIterSets pivotArgs
    rw [if_pos rfl]
    simp only [dif_pos, h3]

/-- **C107**, incomplete second sets are never dropped: jacobians without derivatives, derivatives without jacobians,
or sets with different numbers of components raise, dense or iterative, whatever the other arguments. -/
theorem C107_incomplete_raises (t : TDTools n v Key) (κ : KernelObj d) (θ : TDParams) (mf : MeanFun) (x : Batch n d)
    (hn : 0 < n) (y : Mat n 1) (J : Jac n d v) (yd : Mat n v) {v' w' : ℕ} (J' : Jac n d v') (yd' : Mat n w')
    (hne : v' ≠ w') (iterative : Bool) (numEvals numLanczos : ℕ) (keyLanczos : Key) (nPivots : Option ℕ)
    (keyPrecond : Option Key) :
    (∃ e, tdNegLml t θ κ mf x y J yd (some ⟨v', J'⟩) (some ⟨w', yd'⟩) iterative numEvals numLanczos keyLanczos nPivots
      keyPrecond = .error e) ∧
    (0 < v' → ∃ e, tdNegLml t θ κ mf x y J yd (some ⟨v', J'⟩) none iterative numEvals numLanczos keyLanczos nPivots
      keyPrecond = .error e) ∧
    (0 < w' → ∃ e, tdNegLml t θ κ mf x y J yd none (some ⟨w', yd'⟩) iterative numEvals numLanczos keyLanczos nPivots
      keyPrecond = .error e) := by
  have key : ∀ (J2 : JacSet n d) (yd2 : DerivSet n), (tdRhsSets mf y yd yd2).1 ≠ (tdCovSets θ κ x J J2).1 →
      (∀ a, pivotArgs nPivots keyPrecond = .ok a → ∃ e, tdLmlIterSets t θ κ mf x y J J2 yd yd2 numEvals numLanczos
        keyLanczos nPivots keyPrecond = .error e) →
      ∃ e, tdNegLml t θ κ mf x y J yd J2 yd2 iterative numEvals numLanczos keyLanczos nPivots keyPrecond =
        .error e := by
    intro J2 yd2 h1 h2
    unfold tdNegLml tdLml
    cases iterative
    · rw [if_neg (by decide)]
      unfold tdLmlDenseSets
      simp only [dif_neg h1]
      exact ⟨_, rfl⟩
    · rw [if_pos rfl]
      cases hp : pivotArgs nPivots keyPrecond with
      | error e =>
        refine ⟨e, ?_⟩
        unfold tdLmlIterSets
        rw [hp]
      | ok a =>
        obtain ⟨e, he⟩ := h2 a hp
        exact ⟨e, by rw [he]⟩
  have hite : ∀ (p : Prop) [Decidable p], ∃ e, (if p then (.error .valueError : Except Err ℝ) else .error .typeError) =
      .error e := by
    intro p _
    split
    · exact ⟨_, rfl⟩
    · exact ⟨_, rfl⟩
  refine ⟨key _ _ ?_ ?_, fun hv => key _ _ ?_ ?_, fun hw => key _ _ ?_ ?_⟩
  · simp only [tdRhsSets, tdCovSets]
    intro h
    exact hne (Nat.eq_of_mul_eq_mul_left hn (Nat.add_left_cancel h)).symm
  · intro a ha
    unfold tdLmlIterSets
    rw [ha]
    simp only [dif_neg (Ne.symm hne)]
    exact hite _
  · simp only [tdRhsSets, tdCovSets]
    have := Nat.mul_pos hn hv
    omega
  · intro a ha
    unfold tdLmlIterSets
    rw [ha]
    exact hite _
  · simp only [tdRhsSets, tdCovSets]
    have := Nat.mul_pos hn hw
    omega
  · intro a ha
    unfold tdLmlIterSets
    rw [ha]
    exact hite _

/-- **C107**, the iterative likelihood cannot be used with its own defaults: without the number of pivots or without
the key it raises `TypeError`, for all data; on a single sample it raises whatever is given. -/
theorem C107_iterative_needs_pivots (t : TDTools n v Key) (κ : KernelObj d) (θ : TDParams) (mf : MeanFun) (x : Batch n d)
    (y : Mat n 1) (J : Jac n d v) (yd : Mat n v) (J2 : JacSet n d) (yd2 : DerivSet n)
    (numEvals numLanczos : ℕ) (keyLanczos : Key) (nPivots : Option ℕ) (keyPrecond : Option Key) :
    (nPivots = none ∨ keyPrecond = none →
      tdNegLml t θ κ mf x y J yd J2 yd2 true numEvals numLanczos keyLanczos nPivots keyPrecond = .error .typeError) ∧
    (n = 1 → ∃ e, tdNegLml t θ κ mf x y J yd J2 yd2 true numEvals numLanczos keyLanczos nPivots keyPrecond =
      .error e) := by
  constructor
  · intro h
    have hp : pivotArgs nPivots keyPrecond = .error .typeError := by
      rcases h with rfl | rfl
      · rfl
      · cases nPivots <;> rfl
    unfold tdNegLml tdLml tdLmlIterSets
    rw [if_pos rfl, hp]
  · rintro rfl
    unfold tdNegLml tdLml tdLmlIterSets
    rw [if_pos rfl]
    cases pivotArgs nPivots keyPrecond with
    | error e => exact ⟨e, rfl⟩
    | ok a =>
      refine ⟨.valueError, ?_⟩
      rcases J2 with _ | ⟨v', J'⟩ <;> rcases yd2 with _ | ⟨w', yd'⟩
      · rfl
      · rfl
      · rfl
      · by_cases h : w' = v'
        · subst h
          simp only [dif_pos]
          rfl
        · simp only [dif_neg h]
          rfl

/-- Tools with exact solvers and an arbitrary random generator, for the example. -/
noncomputable def exTDTools : TDTools 2 3 ℕ where
  la := LinAlg.ideal
  cg := idealCG
  split := fun k => (k, k + 1)
  choice1 := fun _ _ => 0
  choice2 := fun _ _ => 0
  logdet := fun {N} _ _ _ f => by
    classical
    exact if h : ∃ A : Mat N N, A.PosDef ∧ f = fun z : Mat N 1 => A * z then Real.log h.choose.det else 0

theorem exTDTools_logdet {N : ℕ} (A : Mat N N) (hA : A.PosDef) :
    exTDTools.logdet 1 2 3 (fun z : Mat N 1 => A * z) = Real.log A.det := by
  have h : ∃ B : Mat N N, B.PosDef ∧ (fun z : Mat N 1 => A * z) = fun z : Mat N 1 => B * z := ⟨A, hA, rfl⟩
  have e : exTDTools.logdet 1 2 3 (fun z : Mat N 1 => A * z) = Real.log h.choose.det := dif_pos h
  rw [e]
  have h2 : A = h.choose := by
    ext i j
    have h3 := congrFun (congrFun (congrFun h.choose_spec.2 (Matrix.of fun a _ => if a = j then 1 else 0)) i) 0
    simpa [Matrix.mul_apply] using h3
  rw [← h2]

/-- Non-vacuity: the Matern 5/2 kernel, two points in the plane, three and one derivatives. -/
example (mf : MeanFun) (y : Mat 2 1) (yd : Mat 2 3) (yd' : Mat 2 1) :
    (∃ l, tdNegLml exTDTools exθ (KExpr.matern52 none : KExpr 2).obj mf exX y exJ yd (iterative := true)
      (numEvals := 1) (numLanczos := 2) (keyLanczos := 3) (nPivots := some 4) (keyPrecond := some 5) = .ok (-l)) ∧
    ∃ l, tdNegLml exTDTools exθ (KExpr.matern52 none : KExpr 2).obj mf exX y exJ yd (some ⟨1, exJ'⟩) (some ⟨1, yd'⟩)
      (numEvals := 1) (numLanczos := 2) (keyLanczos := 3) = .ok (-l) :=
  ⟨(C107_one_set exTDTools LinAlg.ideal_exact idealCG_exact 1 2 3 (fun A hA => exTDTools_logdet A hA) _ exθ
      mf exX le_rfl y exJ yd ex_pd.1 4 5).imp fun _ h => h.2.2,
    ((C107_two_sets exTDTools LinAlg.ideal_exact idealCG_exact 1 2 3 (fun A hA => exTDTools_logdet A hA) _
      exθ mf exX le_rfl y exJ exJ' yd yd' ex_pd.2 4 5).1).imp fun _ h => h.2⟩

end GPX.Props
