import Verif.Lemmas.DictIndex
import Verif.Lemmas.Optim
import Verif.Props.Defaults
import Verif.Props.Gradient
import Verif.Props.Objective
import Verif.Props.GradientDerivs
import Verif.Props.Posterior
import Verif.Spec.Unconstrained

/-!
# C147: the objective an external minimiser sees
-/

namespace GPX.Props
open GPX GPX.Spec

variable {K M C : Type} {d n o : ℕ} {la : LinAlg}

/-! ## Reading a proposal -/

theorem at_eq_lookup (path : List Key) (D : Dict Param) :
    D.at? path = (lookup path D).bind (fun v => v.elim some fun _ => none) := by
  induction path generalizing D with
  | nil => rfl
  | cons k ks ih =>
    rw [lookup, Dict.at?]
    rcases D.get? k with _ | b | s <;> simp only
    · rfl
    · split_ifs <;> rfl
    · exact ih s

theorem unravel_length (D : Dict Param) (hok : ParamsOK D) (xt : List ℝ) (d' : Dict Param)
    (h : unravelForward D xt = .ok d') : xt.length = numTrainable D := by
  by_contra hl
  rw [C12_unravel_wrong_length _ xt hl] at h
  cases h

/-- Where the proposal at `xt` takes the parameter at `path` from: a position in `xt`, or nowhere. -/
theorem read_at (D : Dict Param) (hok : ParamsOK D) (path : List Key) (p : Param)
    (hp : lookup path D = some (.inl p)) :
    ∃ i, D.sortKeys.idx path = some i ∧ D.treeLeaves[i]? = some p ∧
      ∀ xt d', unravelForward D xt = .ok d' → d'.at? path = some (if p.trainable then { p with value := { p.value with
        data := ((xt.drop (offset D.treeLeaves i)).take p.value.data.length).map p.bijector.forward } } else p) := by
  rw [← lookup_sortKeys, Dict.lookup_idx] at hp
  obtain ⟨i, h1, h2⟩ := hp
  refine ⟨i, h1, h2, fun xt d' h => ?_⟩
  have hl := unravel_length D hok xt d' h
  obtain ⟨cs, d'', g1, g2, g3, g4, g5⟩ := unravelForward_ok D xt hok (by rw [sizes_sum]; exact hl)
  rw [h] at g3
  cases g3
  have h3 := mergePure_get _ _ g2 i p h2
  rw [g1, ← g5] at h3
  have h4 : d'.idx path = some i := by
    rw [← Dict.idx_map (fun _ => ()), g4, Dict.idx_map, h1]
  exact at_of_lookup _ _ _ ((Dict.lookup_idx _ _ _).mpr ⟨i, h4, h3⟩)

theorem read_at_none (D : Dict Param) (hok : ParamsOK D) (path : List Key)
    (hp : ∀ p, lookup path D ≠ some (.inl p)) (xt : List ℝ) (d' : Dict Param) (h : unravelForward D xt = .ok d') :
    d'.at? path = none := by
  have hl := unravel_length D hok xt d' h
  obtain ⟨cs, d'', g1, g2, g3, g4, g5⟩ := unravelForward_ok D xt hok (by rw [sizes_sum]; exact hl)
  rw [h] at g3
  cases g3
  rw [at_eq_lookup]
  rcases hx : lookup path d' with _ | q | u
  · rfl
  · exfalso
    obtain ⟨i, h1, h2⟩ := (Dict.lookup_idx _ _ _).mp hx
    have h4 : D.sortKeys.idx path = some i := by
      rw [← Dict.idx_map (fun _ => ()), ← g4, Dict.idx_map, h1]
    obtain ⟨p, hp'⟩ : ∃ p, D.sortKeys.leaves[i]? = some p := ⟨_, List.getElem?_eq_getElem (Dict.idx_lt _ _ _ h4)⟩
    exact hp p (by rw [← lookup_sortKeys]; exact (Dict.lookup_idx _ _ _).mpr ⟨i, h4, hp'⟩)
  · rfl

theorem offset_le (D : Dict Param) (i : ℕ) (p : Param) (hp : D.treeLeaves[i]? = some p) (ht : p.trainable = true) :
    offset D.treeLeaves i + p.value.data.length ≤ numTrainable D := by
  rw [← sizes_sum, ← offset_total]
  have hi : i < D.treeLeaves.length := by
    by_contra hc
    rw [List.getElem?_eq_none (by omega)] at hp
    cases hp
  exact offset_add_le _ _ _ hi p hp ht

/-- Every number the model reads from a proposal is either the same for all proposals, or the image under a bijector
of one coordinate of the proposed vector. -/
theorem read_entry (D : Dict Param) (hok : ParamsOK D) (path : List Key) (k : ℕ) :
    (∃ c : Option ℝ, ∀ xt d', unravelForward D xt = .ok d' → d'.entryAt? path k = c) ∨
    ∃ p i, D.sortKeys.idx path = some i ∧ D.treeLeaves[i]? = some p ∧ p.trainable = true ∧
      k < p.value.data.length ∧ lookup path D = some (.inl p) ∧
      ∀ xt d', unravelForward D xt = .ok d' →
        d'.entryAt? path k = (xt[offset D.treeLeaves i + k]?).map p.bijector.forward := by
  by_cases hp : ∃ p, lookup path D = some (.inl p)
  · obtain ⟨p, hp⟩ := hp
    obtain ⟨i, h1, h2, h3⟩ := read_at D hok path p hp
    by_cases ht : p.trainable = true ∧ k < p.value.data.length
    · refine .inr ⟨p, i, h1, h2, ht.1, ht.2, hp, fun xt d' h => ?_⟩
      rw [Dict.entryAt?, h3 xt d' h, if_pos ht.1]
      simp only [Option.bind_some, List.getElem?_map, List.getElem?_take, if_pos ht.2, List.getElem?_drop]
    · by_cases ht' : p.trainable = true
      · refine .inl ⟨none, fun xt d' h => ?_⟩
        rw [Dict.entryAt?, h3 xt d' h, if_pos ht']
        simp only [Option.bind_some, List.getElem?_map, List.getElem?_take, if_neg fun hk => ht ⟨ht', hk⟩,
          Option.map_none]
      · refine .inl ⟨p.value.data[k]?, fun xt d' h => ?_⟩
        rw [Dict.entryAt?, h3 xt d' h, if_neg ht']
        rfl
  · refine .inl ⟨none, fun xt d' h => ?_⟩
    rw [Dict.entryAt?, read_at_none D hok path (fun p h => hp ⟨p, h⟩) xt d' h]
    rfl

theorem scalarAt_eq (D : Dict Param) (path : List Key) : D.scalarAt? path = D.entryAt? path 0 := by
  simp only [Dict.scalarAt?, Dict.entryAt?, List.head?_eq_getElem?]

theorem at_sort (D : Dict Param) (path : List Key) : D.sortKeys.at? path = D.at? path := by
  rw [at_eq_lookup, at_eq_lookup, lookup_sortKeys]

/-! ## The family of proposals -/

theorem ravel_length (D : Dict Param) : (ravelBackward D).length = numTrainable D := by
  rw [← sizes_sum, ravelBackward, sizes, List.length_flatMap]
  simp

/-- The state built from the vector `u`. -/
noncomputable def proposal (s : ModelState K M C) (u : Fin (ravelBackward s.params).length → ℝ) : ModelState K M C :=
  match proposeOn s s (List.ofFn u) with
  | .ok r => r
  | .error _ => s

theorem proposal_spec (s : ModelState K M C) (hok : ParamsOK s.params)
    (u : Fin (ravelBackward s.params).length → ℝ) : proposeOn s s (List.ofFn u) = .ok (proposal s u) := by
  obtain ⟨r, hr⟩ := proposeOn_total s s (List.ofFn u) hok (by rw [List.length_ofFn, ravel_length])
  simp only [proposal, hr]

theorem evaluateAt_eq (loss : ModelState K M C → Except Err ℝ) (s r : ModelState K M C) (xt : List ℝ) (v : ℝ) :
    scipyMinimize (evaluateAt xt) loss s = .ok (r, v) ↔ proposeOn s s xt = .ok r ∧ loss r = .ok v := by
  rw [scipyMinimize_eq]
  constructor
  · rintro ⟨x, h1, h2⟩
    simp only [evaluateAt, bind, Except.bind] at h1
    rcases h3 : proposeOn s s xt with e | r'
    · rw [h3] at h1; cases h1
    · rw [h3] at h1
      simp only at h1
      rcases h4 : loss r' with e | v'
      · rw [h4] at h1; cases h1
      · rw [h4] at h1
        simp only [pure, Except.pure, Except.ok.injEq, Prod.mk.injEq] at h1
        obtain ⟨rfl, rfl⟩ := h1
        rw [h3] at h2
        cases h2
        exact ⟨rfl, h4⟩
  · rintro ⟨h1, h2⟩
    exact ⟨xt, by simp [evaluateAt, bind, Except.bind, h1, h2, pure, Except.pure], h1⟩

theorem proposal_entry (s : ModelState K M C) (hok : ParamsOK s.params) (path : List Key) (k : ℕ) :
    (∃ c : Option ℝ, ∀ u, (proposal s u).params.entryAt? path k = c) ∨
    ∃ p i, ∃ hi : offset s.params.treeLeaves i + k < (ravelBackward s.params).length,
      s.params.sortKeys.idx path = some i ∧ s.params.treeLeaves[i]? = some p ∧ p.trainable = true ∧
      k < p.value.data.length ∧ lookup path s.params = some (.inl p) ∧
      ∀ u, (proposal s u).params.entryAt? path k = some (p.bijector.forward (u ⟨_, hi⟩)) := by
  have hr : ∀ u, ∃ d', unravelForward s.params (List.ofFn u) = .ok d' ∧
      ∀ path k, (proposal s u).params.entryAt? path k = d'.entryAt? path k := by
    intro u
    obtain ⟨-, -, -, -, d', h1, h2, -⟩ := proposeOn_ok s s _ hok _ (proposal_spec s hok u)
    refine ⟨d', h1, fun path k => ?_⟩
    rw [h2, Dict.entryAt?, Dict.entryAt?, at_sort]
  rcases read_entry s.params hok path k with ⟨c, hc⟩ | ⟨p, i, h1, h2, h3, h4, h5, h6⟩
  · refine .inl ⟨c, fun u => ?_⟩
    obtain ⟨d', g1, g2⟩ := hr u
    rw [g2, hc _ _ g1]
  · have hi : offset s.params.treeLeaves i + k < (ravelBackward s.params).length := by
      have := offset_le s.params i p h2 h3
      rw [ravel_length]
      omega
    refine .inr ⟨p, i, hi, h1, h2, h3, h4, h5, fun u => ?_⟩
    obtain ⟨d', g1, g2⟩ := hr u
    rw [g2, h6 _ _ g1, List.getElem?_ofFn, dif_pos hi]
    rfl

/-- Every number read from the proposals varies differentiably with the vector. -/
theorem proposal_diff (s : ModelState K M C) (hok : ParamsOK s.params)
    (hb : ∀ p ∈ s.params.leaves, sensible p.bijector) (path : List Key) (k : ℕ) :
    Differentiable ℝ fun u => ((proposal s u).params.entryAt? path k).getD 0 := by
  rcases proposal_entry s hok path k with ⟨c, hc⟩ | ⟨p, i, hi, h1, h2, h3, h4, h5, h6⟩
  · simp only [hc]
    exact differentiable_const _
  · simp only [h6, Option.getD_some]
    have hd : Differentiable ℝ p.bijector.forward := fun v => by
      obtain ⟨D, -, hD⟩ := C145_bijectors p.bijector (hb p (lookup_mem _ _ _ h5)) v
      exact hD.differentiableAt
    exact hd.comp (differentiable_apply (𝕜 := ℝ) (⟨_, hi⟩ : Fin (ravelBackward s.params).length))

theorem proposal_params (s : ModelState K M C) (hok : ParamsOK s.params)
    (hb : ∀ p ∈ s.params.leaves, sensible p.bijector) :
    DiffParams fun u => GPParams.ofDict (proposal s u).params := by
  constructor
  · simp only [GPParams.ofDict, scalarAt_eq]
    exact proposal_diff s hok hb _ 0
  · intro path
    simp only [GPParams.ofDict, scalarAt_eq]
    exact proposal_diff s hok hb _ 0

theorem proposal_locs (s : ModelState K M C) (hok : ParamsOK s.params)
    (hb : ∀ p ∈ s.params.leaves, sensible p.bijector) (l : ℕ) :
    DiffEntries fun u => (proposal s u).params.xLocs l d := fun _ _ => proposal_diff s hok hb _ _

theorem proposal_locs_present (s : ModelState K M C) (hok : ParamsOK s.params)
    (h : ∃ p, s.params.at? ["x_locs".toList] = some p) (u : Fin (ravelBackward s.params).length → ℝ) :
    ∃ q, (proposal s u).params.get? "x_locs".toList = some (.inl q) := by
  have key : ∀ D : Dict Param, (∃ p, D.at? ["x_locs".toList] = some p) ↔ ∃ q, D.get? "x_locs".toList = some (.inl q) := by
    intro D
    rw [Dict.at?]
    rcases D.get? "x_locs".toList with _ | b | s
    · simp
    · simp
    · simp [Dict.at?]
  rw [← key]
  obtain ⟨p, hp⟩ := h
  have hl : lookup ["x_locs".toList] s.params = some (.inl p) := by
    rw [at_eq_lookup] at hp
    rcases hx : lookup ["x_locs".toList] s.params with _ | q | w <;> rw [hx] at hp
    · cases hp
    · simp only [Option.bind_some, Sum.elim_inl, Option.some.injEq] at hp
      rw [hp]
    · cases hp
  obtain ⟨i, -, -, h3⟩ := read_at s.params hok _ p hl
  obtain ⟨-, -, -, -, d', h1, h2, -⟩ := proposeOn_ok s s _ hok _ (proposal_spec s hok u)
  exact ⟨_, by rw [h2, at_sort]; exact h3 _ _ h1⟩

/-- A proposal is a state reached by training. -/
theorem proposal_trained (D : Dict Param) (b : Prop) (s : ModelState K M C) (h : Trained b D s)
    (hok : ParamsOK s.params) (u : Fin (ravelBackward s.params).length → ℝ) : Trained b D (proposal s u) :=
  .scipy (evaluateAt (List.ofFn u)) (fun _ => .ok 0) s _ 0 h ((evaluateAt_eq _ _ _ _ _).mpr ⟨proposal_spec s hok u, rfl⟩)

theorem trained_sensible {e : KExpr d} {D : Dict Param} (hD : Sound D) {s : ModelState K M C}
    (h : Trained (¬ HasPolynomial e) D s) : ∀ p ∈ s.params.leaves, sensible p.bijector := by
  obtain ⟨-, h2, h3⟩ := trained_invariant e D hD s h
  exact sensible_of_settled hD h2 h3

/-! ## C147 -/

/-- The objective does not depend on how the mean function treats other targets. -/
def constMean (c : ℝ) : MeanFun := fun _ => c

theorem diff_constMean (E : Type) [NormedAddCommGroup E] [NormedSpace ℝ E] (c : ℝ) : DiffMean E (constMean c) :=
  fun _ _ _ _ => differentiable_const _

/-- **C147**, GPR. For every kernel expression, a model built with default parameters and trained in any way (that keeps
the degree of a polynomial), and every dataset: the negative log marginal likelihood SciPy minimises is defined at
every vector of numbers of the right length, depends on it differentiably, and is bounded from below. -/
theorem C147_gpr (ex : la.Exact) (e : KExpr d) (D : Dict Param) (hD : BuiltByDefault e D) {R : Type}
    (num : GprLikNum K M R) (mf : MeanFun) (x : Batch n d) (y : Mat n o) (xa ya : Arr) (s : ModelState K M C)
    (hnum : ∀ params, num.dense params xa ya s.kernel s.meanFn =
      .ok (lmlDense la (GPParams.ofDict params) e.obj mf x y))
    (h : Trained (¬ HasPolynomial e) D s) (a : LikArgs R) (ha : a.iterative = false) :
    ∃ f, SeenBySciPy (fun s' => gprNegLml num s' xa ya a) s f ∧ Differentiable ℝ f ∧
      (0 < n → ∀ u, -(1 / 2 * Real.log (10 ^ 10 / (2 * Real.pi))) ≤ f u) := by
  obtain ⟨hs, -⟩ := built_spec hD
  have hok := (trained_invariant e D hs s h).1
  have hadm : ∀ u, Admissible e (GPParams.ofDict (proposal s u).params).kernelParams := fun u =>
    (C86_partial e D hD _ (proposal_trained D _ s h hok u)).1
  refine ⟨fun u => -lmlDense la (GPParams.ofDict (proposal s u).params) e.obj mf x y, fun u => ?_, ?_, fun hn u => ?_⟩
  · refine ⟨proposal s u, (evaluateAt_eq _ _ _ _ _).mpr ⟨proposal_spec s hok u, ?_⟩⟩
    obtain ⟨-, h1, h2, -⟩ := proposeOn_ok s s _ hok _ (proposal_spec s hok u)
    simp only [gprNegLml, gprLml, ha, h1, h2, hnum]
    rfl
  · exact ((C145_gpr ex e (proposal_params s hok (trained_sensible hs h)) hadm (diff_constMean _ (mf y))
      (xt := fun _ => x) (fun _ _ => differentiable_const _) (y := fun _ => y)
      (fun _ _ => differentiable_const _) (x := fun _ => x) fun _ _ => differentiable_const _).2.2.2).fun_neg
  · exact neg_le_neg (C133_bounded ex e _ (hadm u) mf x x y hn).1

/-- **C147**, SGPR. The same when the inducing points, read from the parameters of the model, are trained with the
hyperparameters (they are if the user passes a trainable parameter). -/
theorem C147_sgpr (ex : la.Exact) (e : KExpr d) (D : Dict Param) (hD : BuiltByDefault e D) {R : Type}
    (num : SparseLikNum K M (Arr × Option Arr) R) (mf : MeanFun) (l : ℕ) (x : Batch n d) (y : Mat n o) (xa ya : Arr)
    (s : ModelState K M C)
    (hnum : ∀ params locs, num.dense params locs xa ya s.kernel s.meanFn =
      .ok (sgprLmlDense la (GPParams.ofDict params) e.obj mf (params.xLocs l d) x y))
    (hloc : ∃ p, s.params.at? ["x_locs".toList] = some p)
    (h : Trained (¬ HasPolynomial e) D s) (a : LikArgs R) (ha : a.iterative = false) :
    ∃ f, SeenBySciPy (fun s' => sparseNegLml sgprLocs num s' xa ya a) s f ∧ Differentiable ℝ f ∧
      (0 < n → ∀ u, -(1 / 2 * Real.log (10 ^ 10 / (2 * Real.pi))) ≤ f u) := by
  obtain ⟨hs, -⟩ := built_spec hD
  have hok := (trained_invariant e D hs s h).1
  have hadm : ∀ u, Admissible e (GPParams.ofDict (proposal s u).params).kernelParams := fun u =>
    (C86_partial e D hD _ (proposal_trained D _ s h hok u)).1
  refine ⟨fun u => -sgprLmlDense la (GPParams.ofDict (proposal s u).params) e.obj mf
    ((proposal s u).params.xLocs l d) x y, fun u => ?_, ?_, fun hn u => ?_⟩
  · refine ⟨proposal s u, (evaluateAt_eq _ _ _ _ _).mpr ⟨proposal_spec s hok u, ?_⟩⟩
    obtain ⟨-, h1, h2, -⟩ := proposeOn_ok s s _ hok _ (proposal_spec s hok u)
    obtain ⟨q, hq⟩ := proposal_locs_present s hok hloc u
    simp only [sparseNegLml, sparseLml, sgprLocs, paramValue, hq, ha, h1, h2, bind, Except.bind, pure, Except.pure, hnum]
    rfl
  · exact ((C145_sgpr ex e (proposal_params s hok (trained_sensible hs h)) hadm (diff_constMean _ (mf y))
      (proposal_locs s hok (trained_sensible hs h) l)
      (xt := fun _ => x) (fun _ _ => differentiable_const _) (y := fun _ => y)
      (fun _ _ => differentiable_const _) (x := fun _ => x) fun _ _ => differentiable_const _).2.2.2).fun_neg
  · exact neg_le_neg (C133_bounded ex e _ (hadm u) mf ((proposal s u).params.xLocs l d) x y hn).2

theorem rows_get {l : ℕ} (X : Batch l d) (i : Fin l) (j : Fin d) :
    (rowMajor X)[i.val * d + j.val]? = some (X i j) := by
  have h : rowMajor X = List.ofFn fun k : Fin (l * d) => X k.divNat k.modNat := by
    rw [rowMajor, List.ofFn_mul]
    congr 1
    refine congrArg List.ofFn (funext fun a => congrArg List.ofFn (funext fun b => ?_))
    rw [show (⟨a.val * d + b.val, _⟩ : Fin (l * d)) = flat a b from Fin.ext (by simp [flat]), flat_divNat, flat_modNat]
  have hk : i.val * d + j.val < l * d := by
    have h1 := i.isLt
    have h2 := j.isLt
    nlinarith [Nat.mul_le_mul_right d (Nat.succ_le_of_lt h1)]
  rw [h, List.getElem?_ofFn, dif_pos hk,
    show (⟨i.val * d + j.val, hk⟩ : Fin (l * d)) = flat i j from Fin.ext (by simp [flat]), flat_divNat, flat_modNat]

/-- **C147**, the inducing points. When the parameter `x_locs` of a model holds the rows of `X` one after the other, the
likelihood is computed with the inducing points `X`. At another vector it is computed with `X` again if the parameter is
not trainable; otherwise coordinate `j` of point `i` comes from the vector's entry `i d + j` after the first of them. -/
theorem C147_locations (s : ModelState K M C) (hok : ParamsOK s.params) {l : ℕ} (X : Batch l d) (p : Param)
    (hp : lookup ["x_locs".toList] s.params = some (.inl p)) (hX : p.value.data = rowMajor X) :
    s.params.xLocs l d = X ∧
    (p.trainable = false → ∀ xt loss r v, scipyMinimize (evaluateAt xt) loss s = .ok (r, v) → r.params.xLocs l d = X) ∧
    (p.trainable = true → ∃ first, ∀ xt loss r v, scipyMinimize (evaluateAt xt) loss s = .ok (r, v) → ∀ i j,
      (xt[first + (i.val * d + j.val)]?).map p.bijector.forward = some (r.params.xLocs l d i j)) := by
  have hat := at_of_lookup _ _ _ hp
  obtain ⟨m, h1, h2, h3⟩ := read_at s.params hok _ p hp
  have hr : ∀ xt r, proposeOn s s xt = .ok r → ∃ d', unravelForward s.params xt = .ok d' ∧
      ∀ path, r.params.at? path = d'.at? path := by
    intro xt r h
    obtain ⟨-, -, -, -, d', g1, g2, -⟩ := proposeOn_ok s s _ hok _ h
    exact ⟨d', g1, fun path => by rw [g2, at_sort]⟩
  refine ⟨?_, fun ht xt loss r v h => ?_, fun ht => ⟨offset s.params.treeLeaves m, fun xt loss r v h i j => ?_⟩⟩
  · funext i j
    rw [Dict.xLocs, Dict.entryAt?, hat, Option.bind_some, hX, rows_get]
    rfl
  · obtain ⟨d', g1, g2⟩ := hr xt r ((evaluateAt_eq _ _ _ _ _).mp h).1
    funext i j
    rw [Dict.xLocs, Dict.entryAt?, g2, h3 _ _ g1, ht]
    simp only [Bool.false_eq_true, if_false, Option.bind_some]
    rw [hX, rows_get]
    rfl
  · have hk : i.val * d + j.val < p.value.data.length := by
      by_contra hc
      have := rows_get X i j
      rw [← hX, List.getElem?_eq_none (not_lt.mp hc)] at this
      cases this
    obtain ⟨d', g1, g2⟩ := hr xt r ((evaluateAt_eq _ _ _ _ _).mp h).1
    have hi : offset s.params.treeLeaves m + (i.val * d + j.val) < xt.length := by
      have := offset_le s.params m p h2 ht
      rw [unravel_length _ hok _ _ g1]
      omega
    rw [Dict.xLocs, Dict.entryAt?, g2, h3 _ _ g1, ht]
    simp only [if_true, Option.bind_some, List.getElem?_map, List.getElem?_take, hk, List.getElem?_drop,
      List.getElem?_eq_getElem hi, Option.map_some, Option.getD_some]

/-- Three inducing points with two coordinates each, the third coordinate pair at the end. -/
example : rowMajor (fun i j => 2 * i + j : Batch 3 2) = [0, 1, 2, 3, 4, 5] := by
  norm_num [rowMajor, List.ofFn_succ]

/-- **C147**, GPR trained on derivatives (`scipy_minimize_derivs`), for kernel expressions whose derivative covariances
are well posed at all admissible hyperparameters. -/
theorem C147_derivs (ex : la.Exact) (e : KExpr d) (hde : ∀ p, Admissible e p → DerivSmooth e p)
    (D : Dict Param) (hD : BuiltByDefault e D) {R : Type} (num : GprLikNum K M R) (zm : M) {v : ℕ} (x : Batch n d)
    (J : Jac n d v) (y : Mat n v) (xa ya ja : Arr) (s : ModelState K M C)
    (hnum : ∀ params, num.derivsDense params xa ja ya s.kernel zm =
      .ok (lmlDerivsDense la (GPParams.ofDict params) e.obj zeroMean x J y))
    (h : Trained (¬ HasPolynomial e) D s) (a : LikArgs R) (ha : a.iterative = false) :
    ∃ f, SeenBySciPy (fun s' => gprNegLmlDerivs zm num s' xa ya ja a) s f ∧ Differentiable ℝ f ∧
      (0 < n * v → ∀ u, -(1 / 2 * Real.log (10 ^ 10 / (2 * Real.pi))) ≤ f u) := by
  obtain ⟨hs, -⟩ := built_spec hD
  have hok := (trained_invariant e D hs s h).1
  have hadm : ∀ u, DerivSmooth e (GPParams.ofDict (proposal s u).params).kernelParams := fun u =>
    hde _ (C86_partial e D hD _ (proposal_trained D _ s h hok u)).1
  refine ⟨fun u => -lmlDerivsDense la (GPParams.ofDict (proposal s u).params) e.obj zeroMean x J y, fun u => ?_, ?_,
    fun hn u => ?_⟩
  · refine ⟨proposal s u, (evaluateAt_eq _ _ _ _ _).mpr ⟨proposal_spec s hok u, ?_⟩⟩
    obtain ⟨-, h1, h2, -⟩ := proposeOn_ok s s _ hok _ (proposal_spec s hok u)
    simp only [gprNegLmlDerivs, gprLmlDerivs, ha, h1, hnum]
    rfl
  · exact ((C146_gpr ex e (proposal_params s hok (trained_sensible hs h)) hadm (diff_constMean _ 0)
      (xt := fun _ => x) (fun _ _ => differentiable_const _) (Jt := fun _ => J)
      (fun _ _ _ => differentiable_const _) (y := fun _ => y) (fun _ _ => differentiable_const _)
      (x := fun _ => x) (fun _ _ => differentiable_const _) (J := fun _ => J)
      fun _ _ _ => differentiable_const _).2.2.2.2).fun_neg
  · exact neg_le_neg ((C133_gpr_derivs ex e _ (hadm u) zeroMean x J y hn).1.trans (jitter_bound (noise_ge _)))

/-- Kernel expressions for which every admissible setting has well posed derivative covariances. -/
example :
    ∀ p, Admissible (.sum (.prod (.constant none) (.squaredExponential none)) (.matern52 none) : KExpr 2) p →
      DerivSmooth (.sum (.prod (.constant none) (.squaredExponential none)) (.matern52 none) : KExpr 2) p :=
  fun _ h => .sum (.scaleLeft h.1.1 (.squaredExponential h.1.2)) (.joint h.2)

/-! ## The log posterior -/

/-- A scalar parameter whose prior, if it is a Gamma distribution, is only evaluated at positive numbers. -/
def ScalarPrior (p : Param) : Prop :=
  p.value.shape = [] ∧ p.value.data.length = 1 ∧ sensible p.bijector ∧
    ∀ a r, p.prior.dist = .gamma a r → p.bijector = .softplus

theorem default_priors (e : KExpr d) : ∀ kp, e.defaultParams = .ok kp → ∀ p ∈ kp.leaves, ScalarPrior p := by
  have g : ∀ x t, ScalarPrior ⟨scalarArr x, t, .softplus, gammaPrior⟩ := fun _ _ => ⟨rfl, rfl, trivial, fun _ _ _ => rfl⟩
  have two : ∀ e1 e2 : KExpr d, (∀ kp, e1.defaultParams = .ok kp → ∀ p ∈ kp.leaves, ScalarPrior p) →
      (∀ kp, e2.defaultParams = .ok kp → ∀ p ∈ kp.leaves, ScalarPrior p) → ∀ kp, (do
        let p1 ← e1.defaultParams
        let p2 ← e2.defaultParams
        pure (.node "kernel1".toList p1 (.node "kernel2".toList p2 .nil)) : Except Err (Dict Param)) = .ok kp →
      ∀ p ∈ kp.leaves, ScalarPrior p := by
    intro e1 e2 h1 h2 kp hkp
    obtain ⟨k1, a1, -⟩ := default_spec e1
    obtain ⟨k2, b1, -⟩ := default_spec e2
    simp only [a1, b1, bind, Except.bind] at hkp
    cases hkp
    intro p hp
    simp only [Dict.leaves, List.append_nil, List.mem_append] at hp
    exact hp.elim (h1 _ a1 p) (h2 _ b1 p)
  induction e with
  | sum e1 e2 h1 h2 => exact two e1 e2 h1 h2
  | prod e1 e2 h1 h2 => exact two e1 e2 h1 h2
  | linear _ => intro kp hkp; cases hkp; simp [Dict.leaves]
  | polynomial _ _ =>
    intro kp hkp
    cases hkp
    intro p hp
    simp only [Dict.leaves, List.mem_cons, List.not_mem_nil, or_false] at hp
    rcases hp with rfl | rfl
    · exact g _ _
    · refine ⟨rfl, rfl, trivial, fun a r hc => ?_⟩
      cases hc
  | expSinSquared _ =>
    intro kp hkp
    cases hkp
    intro p hp
    simp only [Dict.leaves, List.mem_cons, List.not_mem_nil, or_false] at hp
    rcases hp with rfl | rfl <;> exact g _ _
  | _ =>
    intro kp hkp
    cases hkp
    intro p hp
    simp only [Dict.leaves, List.mem_cons, List.not_mem_nil, or_false] at hp
    subst hp
    exact g _ _

theorem gpr_priors {e : KExpr d} {D : Dict Param} (hD : gprInitParams e = .ok D) : ∀ p ∈ D.leaves, ScalarPrior p := by
  obtain ⟨kp, g1, -⟩ := default_spec e
  simp only [gprInitParams, g1, bind, Except.bind] at hD
  cases hD
  intro p hp
  simp only [Dict.leaves, List.mem_append, List.mem_cons, List.not_mem_nil, or_false] at hp
  rcases hp with hp | rfl
  · exact default_priors e kp g1 p hp
  · exact ⟨rfl, rfl, trivial, fun _ _ _ => rfl⟩

theorem trained_priors {e : KExpr d} {D : Dict Param} (hs : Sound D) (hD : ∀ p ∈ D.leaves, ScalarPrior p)
    {s : ModelState K M C} (h : Trained (¬ HasPolynomial e) D s) : ∀ p ∈ s.params.leaves, ScalarPrior p := by
  obtain ⟨-, h2, h3⟩ := trained_invariant e D hs s h
  intro p hp
  have h1 := (treeLeaves_rel hs.2.1 h2 h3).1
  have hp' : p ∈ s.params.treeLeaves := (mem_leaves_sortKeys _ _).mpr hp
  have h3 : ∀ q ∈ D.treeLeaves, ScalarPrior q := fun q hq => hD q ((mem_leaves_sortKeys _ _).mp hq)
  generalize D.treeLeaves = l at h1 h3
  generalize s.params.treeLeaves = l' at h1 hp'
  induction h1 with
  | nil => simp at hp'
  | cons hab _ ih =>
    rcases List.mem_cons.mp hp' with rfl | hp'
    · obtain ⟨b1, b2, b3, b4⟩ := h3 _ List.mem_cons_self
      exact ⟨hab.2.2.2.1.trans b1, hab.2.2.2.2.2.1.trans b2, by rw [hab.2.1]; exact b3, fun a r hr => by
        rw [hab.2.1]; exact b4 a r (by rw [← hab.2.2.1]; exact hr)⟩
    · exact ih (fun q hq => h3 q (List.mem_cons_of_mem _ hq)) hp'

theorem diff_logpdf {p : Param} (h : ScalarPrior p) :
    Differentiable ℝ fun v => p.prior.dist.logpdf (p.bijector.forward v) := by
  have hd : Differentiable ℝ p.bijector.forward := fun v => by
    obtain ⟨D, -, hD⟩ := C145_bijectors p.bijector h.2.2.1 v
    exact hD.differentiableAt
  rcases hp : p.prior.dist with ⟨l, c⟩ | ⟨a, r⟩
  · simp only [Prior.logpdf, normalLogpdf]
    exact ((hd.sub_const l).fun_pow 2).const_mul _ |>.const_sub _
  · have hb := h.2.2.2 a r hp
    simp only [Prior.logpdf, gammaLogpdf]
    have hpos : ∀ v, p.bijector.forward v ≠ 0 := fun v => by
      have := C01_forward_in_range p.bijector h.2.2.1 v
      rw [hb] at this ⊢
      exact (show (0 : ℝ) < _ from this).ne'
    exact (((hd.log hpos).const_mul _).const_add _).fun_sub (hd.const_mul r)

/-- The log prior of the proposals varies differentiably with the vector, and every proposal has scalar parameters. -/
theorem proposal_prior (s : ModelState K M C) (hok : ParamsOK s.params) (hsp : ∀ p ∈ s.params.leaves, ScalarPrior p) :
    (Differentiable ℝ fun u => priorSum (proposal s u).params) ∧
    ∀ u, ∀ p ∈ (proposal s u).params.leaves, ∃ v, p.value.shape = [] ∧ p.value.data = [v] := by
  obtain ⟨P, hP⟩ : ∃ P, P = s.params.treeLeaves := ⟨_, rfl⟩
  have hmem : ∀ (i : Fin P.length), ScalarPrior P[i] := fun i =>
    have : ∀ q ∈ P, ScalarPrior q := fun q hq => by
      rw [hP] at hq
      exact hsp _ ((mem_leaves_sortKeys _ _).mp hq)
    this _ (List.getElem_mem _)
  have hoff : ∀ i : Fin P.length, P[i].trainable = true → offset P i < (ravelBackward s.params).length := by
    intro i ht
    have := offset_le s.params i P[i] (by rw [← hP]; exact List.getElem?_eq_getElem _) ht
    rw [(hmem i).2.1, ← hP] at this
    rw [ravel_length]
    omega
  -- the parameters of the proposals
  have hread : ∀ u, ∃ L : List Param, ((proposal s u).params.leaves.Perm L) ∧
      L = List.ofFn fun i : Fin P.length => if ht : P[i].trainable = true then
        { P[i] with value := { P[i].value with data := [P[i].bijector.forward (u ⟨_, hoff i ht⟩)] } } else P[i] := by
    intro u
    obtain ⟨hl, -, -, -, d', g1, g2, -⟩ := proposeOn_ok s s _ hok _ (proposal_spec s hok u)
    obtain ⟨cs, d'', f1, f2, f3, f4, f5⟩ := unravelForward_ok s.params (List.ofFn u) hok (by rw [sizes_sum]; exact hl)
    rw [g1] at f3
    cases f3
    refine ⟨d'.leaves, by rw [g2]; exact Dict.treeLeaves_perm d', ?_⟩
    rw [f5]
    refine List.ext_getElem? fun i => ?_
    rw [← hP] at f2 ⊢
    by_cases hi : i < P.length
    · rw [mergePure_get P cs f2 i P[i] (List.getElem?_eq_getElem hi), List.getElem?_ofFn, dif_pos hi, f1]
      congr 1
      by_cases ht : P[i].trainable = true
      · have h1 : P[i].value.data.length = 1 := (hmem ⟨i, hi⟩).2.1
        have h2 := hoff ⟨i, hi⟩ ht
        rw [if_pos ht, dif_pos (show P[(⟨i, hi⟩ : Fin P.length)].trainable = true from ht), h1, List.take_one,
          List.head?_drop, List.getElem?_ofFn, dif_pos h2]
        rfl
      · rw [if_neg ht, dif_neg (show ¬ P[(⟨i, hi⟩ : Fin P.length)].trainable = true from ht)]
        rfl
    · have hlen : (mergePure P cs).length = P.length := (mergePure_forall₂ P cs f2).length_eq.symm
      rw [List.getElem?_eq_none (by omega), List.getElem?_eq_none (by rw [List.length_ofFn]; omega)]
  constructor
  · have hsum : ∀ u, priorSum (proposal s u).params = ∑ i : Fin P.length, if ht : P[i].trainable = true then
        P[i].prior.dist.logpdf (P[i].bijector.forward (u ⟨_, hoff i ht⟩)) else
        (P[i].value.data.map P[i].prior.dist.logpdf).sum := by
      intro u
      obtain ⟨L, h1, h2⟩ := hread u
      rw [priorSum, (h1.map _).sum_eq, h2, List.map_ofFn, List.sum_ofFn]
      refine Finset.sum_congr rfl fun i _ => ?_
      by_cases ht : P[i].trainable = true
      · simp only [Function.comp, dif_pos ht, List.map_cons, List.map_nil, List.sum_cons, List.sum_nil, add_zero]
      · simp only [Function.comp, dif_neg ht]
    simp only [hsum]
    refine Differentiable.fun_sum fun i _ => ?_
    by_cases ht : P[i].trainable = true
    · simp only [dif_pos ht]
      exact (diff_logpdf (hmem i)).comp
        (differentiable_apply (𝕜 := ℝ) (⟨_, hoff i ht⟩ : Fin (ravelBackward s.params).length))
    · simp only [dif_neg ht]
      exact differentiable_const _
  · intro u p hp
    obtain ⟨L, h1, h2⟩ := hread u
    rw [h1.mem_iff, h2, List.mem_ofFn] at hp
    obtain ⟨i, rfl⟩ := hp
    by_cases ht : P[i].trainable = true
    · rw [dif_pos ht]
      exact ⟨_, (hmem i).1, rfl⟩
    · rw [dif_neg ht]
      obtain ⟨v, hv⟩ := List.length_eq_one_iff.mp (hmem i).2.1
      exact ⟨v, (hmem i).1, hv⟩

/-- **C147**, the negative log posterior of GPR, the other loss offered for training: a single number at every vector,
and differentiable. -/
theorem C147_posterior (ex : la.Exact) (e : KExpr d) (D : Dict Param) (hD : gprInitParams e = .ok D) {R : Type}
    (num : GprLikNum K M R) (mf : MeanFun) (x : Batch n d) (y : Mat n o) (xa ya : Arr) (s : ModelState K M C)
    (hnum : ∀ params, num.dense params xa ya s.kernel s.meanFn =
      .ok (lmlDense la (GPParams.ofDict params) e.obj mf x y))
    (h : Trained (¬ HasPolynomial e) D s) (a : LikArgs R) (ha : a.iterative = false) :
    ∃ f, SeenBySciPy (fun s' => scalarResult (gprNegLogPosterior num s' xa ya a)) s f ∧ Differentiable ℝ f := by
  obtain ⟨f, h1, h2, -⟩ := C147_gpr ex e D (.inl hD) num mf x y xa ya s hnum h a ha
  obtain ⟨hs, -⟩ := built_spec (.inl hD : BuiltByDefault e D)
  have hok := (trained_invariant e D hs s h).1
  obtain ⟨q1, q2⟩ := proposal_prior s hok (trained_priors hs (gpr_priors hD) h)
  refine ⟨fun u => f u - priorSum (proposal s u).params, fun u => ?_, h2.fun_sub q1⟩
  refine ⟨proposal s u, (evaluateAt_eq _ _ _ _ _).mpr ⟨proposal_spec s hok u, ?_⟩⟩
  obtain ⟨r, hr⟩ := h1 u
  obtain ⟨g1, g2⟩ := (evaluateAt_eq _ _ _ _ _).mp hr
  rw [proposal_spec s hok u] at g1
  cases g1
  obtain ⟨-, k1, k2, -⟩ := proposeOn_ok s s _ hok _ (proposal_spec s hok u)
  simp only [gprNegLml, gprLml, ha, k1, k2, hnum, negNumber, bind, Except.bind, pure, Except.pure] at g2
  have g3 := Except.ok.inj g2
  simp only [gprNegLogPosterior, gprLogPosterior, gprLml, ha, k1, k2, hnum, negResult, plusPrior, bind, Except.bind,
    pure, Except.pure]
  rw [if_neg (by simp)]
  simp only
  rw [(C54_log_posterior_partial _ _ _ (q2 u)).2]
  simp only [scalarResult, Arr.neg, Arr.map, List.map_cons, List.map_nil, ← g3]
  congr 1
  ring

/-! ## Converged runs -/

/-- A trainable scalar parameter is read from a coordinate of its own. -/
theorem proposal_coordinate (s : ModelState K M C) (hok : ParamsOK s.params) (path₀ : List Key) (p₀ : Param)
    (hp : lookup path₀ s.params = some (.inl p₀)) (ht : p₀.trainable = true) (hl : 0 < p₀.value.data.length) :
    ∃ κ, (∀ u, (proposal s u).params.entryAt? path₀ 0 = some (p₀.bijector.forward (u κ))) ∧
      ∀ path, path ≠ path₀ → ∀ u u', (∀ j, j ≠ κ → u j = u' j) →
        (proposal s u).params.entryAt? path 0 = (proposal s u').params.entryAt? path 0 := by
  obtain ⟨i, h1, h2, h3⟩ := read_at s.params hok path₀ p₀ hp
  have hi : offset s.params.treeLeaves i < (ravelBackward s.params).length := by
    have := offset_le s.params i p₀ h2 ht
    rw [ravel_length]
    omega
  refine ⟨⟨_, hi⟩, fun u => ?_, fun path hne u u' huu => ?_⟩
  · obtain ⟨-, -, -, -, d', g1, g2, -⟩ := proposeOn_ok s s _ hok _ (proposal_spec s hok u)
    rw [g2, Dict.entryAt?, at_sort, h3 _ _ g1, if_pos ht]
    simp only [Option.bind_some, List.getElem?_map, List.getElem?_take, if_pos hl, List.getElem?_drop, add_zero]
    rw [List.getElem?_ofFn, dif_pos hi]
    rfl
  · rcases proposal_entry s hok path 0 with ⟨c, hc⟩ | ⟨p, i', hi', a1, a2, a3, a4, -, a6⟩
    · rw [hc, hc]
    · rw [a6, a6, huu]
      intro he
      have he : offset s.params.treeLeaves i' = offset s.params.treeLeaves i := by
        have := congrArg Fin.val he
        simpa using this
      rcases lt_trichotomy i i' with hlt | heq | hlt
      · have := offset_add_le _ _ _ hlt p₀ h2 ht
        omega
      · subst heq
        exact hne (Dict.idx_inj _ _ _ _ a1 h1)
      · have := offset_add_le _ _ _ hlt p a2 a3
        omega

theorem built_sigma {e : KExpr d} {D : Dict Param} (h : BuiltByDefault e D) :
    ∃ p, lookup ["sigma".toList] D = some (.inl p) ∧ p.trainable = true ∧ p.bijector = .softplus ∧
      p.value.data.length = 1 := by
  obtain ⟨kp, g1, -⟩ := default_spec e
  rcases h with h | ⟨x, j, -, -, h⟩
  · simp only [gprInitParams, g1, bind, Except.bind] at h
    cases h
    exact ⟨_, rfl, rfl, rfl, rfl⟩
  · simp only [sgprInitParams, g1, bind, Except.bind] at h
    cases j <;> cases h <;> exact ⟨_, rfl, rfl, rfl, rfl⟩

/-- The curve that moves one coordinate. -/
noncomputable def moveCoord {q : ℕ} (u : Fin q → ℝ) (κ : Fin q) (t : ℝ) : Fin q → ℝ := u + t • Pi.single κ 1

theorem moveCoord_self {q : ℕ} (u : Fin q → ℝ) (κ : Fin q) (t : ℝ) : moveCoord u κ t κ = u κ + t := by
  simp [moveCoord]

theorem moveCoord_ne {q : ℕ} (u : Fin q → ℝ) (κ j : Fin q) (t : ℝ) (hj : j ≠ κ) : moveCoord u κ t j = u j := by
  simp [moveCoord, hj]

theorem moveCoord_zero {q : ℕ} (u : Fin q → ℝ) (κ : Fin q) : moveCoord u κ 0 = u := by simp [moveCoord]

theorem moveCoord_deriv {q : ℕ} (u : Fin q → ℝ) (κ : Fin q) (t : ℝ) :
    HasDerivAt (moveCoord u κ) (Pi.single κ 1) t := by
  have h := ((hasDerivAt_id' t).smul_const (Pi.single κ (1 : ℝ) : Fin q → ℝ)).const_add u
  rw [one_smul] at h
  exact h

theorem diff_moveCoord {q : ℕ} (u : Fin q → ℝ) (κ : Fin q) {f : (Fin q → ℝ) → ℝ} (hf : Differentiable ℝ f) :
    Differentiable ℝ fun t => f (moveCoord u κ t) := fun t =>
  (hf _).comp t (moveCoord_deriv u κ t).differentiableAt

/-- A trainable scalar parameter of the initial dictionary, in a trained state. -/
theorem trained_scalar {e : KExpr d} {D : Dict Param} (hD : Sound D) {s : ModelState K M C}
    (h : Trained (¬ HasPolynomial e) D s) (path : List Key) (p₀ : Param) (hp : lookup path D = some (.inl p₀))
    (ht : p₀.trainable = true) (hb : p₀.bijector = .softplus) (hl : p₀.value.data.length = 1) :
    (∃ p, lookup path s.params = some (.inl p) ∧ p.trainable = true ∧ p.bijector = .softplus ∧
      0 < p.value.data.length) ∧ ∃ v, s.params.entryAt? path 0 = some v ∧ 0 < v := by
  obtain ⟨-, -, hset⟩ := trained_invariant e D hD s h
  obtain ⟨p, v, a1, a2, a3, a4⟩ := scalar_read hset path p₀ hp hl
  refine ⟨⟨p, a1, a2.1.trans ht, a2.2.1.trans hb, by rw [a3]; simp⟩, v, by rw [← scalarAt_eq]; exact a4, ?_⟩
  have := a2.2.2.2.2.2.2.1 v (by rw [a3]; simp)
  rw [hb] at this
  exact this

/-- **C147**, a converged run: when the gradient of the objective vanishes at the vector the minimiser stops at, the
returned model satisfies the condition on the noise, and, if its kernel has a trainable variance in front, its squared
residuals measured in units of the covariance add up to the number of samples. -/
theorem C147_converged (ex : la.Exact) (e : KExpr d) (D : Dict Param) (hD : BuiltByDefault e D) {R : Type}
    (num : GprLikNum K M R) (mf : MeanFun) (x : Batch n d) (y : Mat n o) (xa ya : Arr) (s : ModelState K M C)
    (hnum : ∀ params, num.dense params xa ya s.kernel s.meanFn =
      .ok (lmlDense la (GPParams.ofDict params) e.obj mf x y))
    (h : Trained (¬ HasPolynomial e) D s) (a : LikArgs R) (ha : a.iterative = false)
    (f : (Fin (ravelBackward s.params).length → ℝ) → ℝ) (hf : SeenBySciPy (fun s' => gprNegLml num s' xa ya a) s f)
    (u : Fin (ravelBackward s.params).length → ℝ) (hu : fderiv ℝ f u = 0) (r : ModelState K M C) (v : ℝ)
    (hr : scipyMinimize (evaluateAt (List.ofFn u)) (fun s' => gprNegLml num s' xa ya a) s = .ok (r, v)) :
    (∑ i, ∑ c, (fitDense la (GPParams.ofDict r.params) e.obj mf x y).1 i c ^ 2 =
      ((Matrix.of (e.obj.k (GPParams.ofDict r.params).kernelParams x x) +
        ((GPParams.ofDict r.params).sigma ^ 2 + 1 / 10 ^ 10) • (1 : Mat n n))⁻¹).trace) ∧
    ∀ (b : Option (Dims d)) (e' : KExpr d), e = .prod (.constant b) e' →
      ∑ i, ∑ c, (y i c - mf y) * (fitDense la (GPParams.ofDict r.params) e.obj mf x y).1 i c = n := by
  obtain ⟨hs, kp, hkp, hkl, -⟩ := built_spec hD
  have hok := (trained_invariant e D hs s h).1
  have htr : ∀ u, Trained (¬ HasPolynomial e) D (proposal s u) := fun u => proposal_trained D _ s h hok u
  have hadm : ∀ u, Admissible e (GPParams.ofDict (proposal s u).params).kernelParams := fun u =>
    (C86_partial e D hD _ (htr u)).1
  have hpr : r = proposal s u := by
    have := ((evaluateAt_eq _ _ _ _ _).mp hr).1
    rw [proposal_spec s hok u] at this
    cases this
    rfl
  have hfe : f = fun u => -lmlDense la (GPParams.ofDict (proposal s u).params) e.obj mf x y := by
    funext u'
    obtain ⟨r', hr'⟩ := hf u'
    obtain ⟨g1, g2⟩ := (evaluateAt_eq _ _ _ _ _).mp hr'
    rw [proposal_spec s hok u'] at g1
    cases g1
    obtain ⟨-, h1, h2, -⟩ := proposeOn_ok s s _ hok _ (proposal_spec s hok u')
    simp only [gprNegLml, gprLml, ha, h1, h2, hnum] at g2
    exact (Except.ok.inj g2).symm
  have hpar := proposal_params s hok (trained_sensible hs h)
  have hfd : Differentiable ℝ f := by
    rw [hfe]
    exact ((C145_gpr ex e hpar hadm (diff_constMean _ (mf y))
      (xt := fun _ => x) (fun _ _ => differentiable_const _) (y := fun _ => y)
      (fun _ _ => differentiable_const _) (x := fun _ => x) fun _ _ => differentiable_const _).2.2.2).fun_neg
  -- the objective has derivative zero along every coordinate
  have hz : ∀ κ, HasDerivAt (fun t => lmlDense la (GPParams.ofDict (proposal s (moveCoord u κ t)).params) e.obj mf x y)
      0 0 := by
    intro κ
    have h1 : HasFDerivAt f (fderiv ℝ f u) (moveCoord u κ 0) := by
      rw [moveCoord_zero]
      exact (hfd u).hasFDerivAt
    have h2 := (h1.comp_hasDerivAt (0 : ℝ) (moveCoord_deriv u κ 0)).fun_neg
    rw [hu] at h2
    simp only [hfe, Function.comp_def, neg_neg, zero_apply, neg_zero] at h2
    exact h2
  have hθ : ∀ κ, DiffParams fun t => GPParams.ofDict (proposal s (moveCoord u κ t)).params := fun κ =>
    ⟨diff_moveCoord u κ hpar.sigma, fun path => diff_moveCoord u κ (hpar.kernel path)⟩
  have h0 : ∀ κ, GPParams.ofDict (proposal s (moveCoord u κ 0)).params = GPParams.ofDict r.params := fun κ => by
    rw [moveCoord_zero, hpr]
  have hmove : ∀ κ t j, j ≠ κ → moveCoord u κ t j = moveCoord u κ 0 j := fun κ t j hj => by
    rw [moveCoord_ne _ _ _ _ hj, moveCoord_ne _ _ _ _ hj]
  have hcoord : ∀ (path : List Key) (κ) (p : Param), p.bijector = .softplus →
      (∀ u, (proposal s u).params.entryAt? path 0 = some (p.bijector.forward (u κ))) →
      ∃ c, c ≠ 0 ∧ HasDerivAt (fun t => ((proposal s (moveCoord u κ t)).params.entryAt? path 0).getD 0) c 0 := by
    intro path κ p hb hp
    obtain ⟨c, hc, hd⟩ := C145_bijectors .softplus trivial (u κ)
    refine ⟨c, hc.ne', ?_⟩
    simp only [hp, hb, Option.getD_some, moveCoord_self]
    have h1 : HasDerivAt (fun t : ℝ => u κ + t) 1 0 := (hasDerivAt_id' (0 : ℝ)).const_add (u κ)
    have h2 : HasDerivAt Bijector.softplus.forward c (u κ + 0) := by rw [add_zero]; exact hd
    refine (h2.comp (0 : ℝ) h1).congr_deriv (mul_one c)
  -- the noise
  have hnoise : ∑ i, ∑ c, (fitDense la (GPParams.ofDict r.params) e.obj mf x y).1 i c ^ 2 =
      ((Matrix.of (e.obj.k (GPParams.ofDict r.params).kernelParams x x) +
        ((GPParams.ofDict r.params).sigma ^ 2 + 1 / 10 ^ 10) • (1 : Mat n n))⁻¹).trace := by
    obtain ⟨p₀, b1, b2, b3, b4⟩ := built_sigma hD
    obtain ⟨⟨p, c1, c2, c3, c4⟩, -⟩ := trained_scalar hs h _ p₀ b1 b2 b3 b4
    obtain ⟨κ, k1, k2⟩ := proposal_coordinate s hok _ p c1 c2 c4
    obtain ⟨s', hs0, hs'⟩ := hcoord _ κ p c3 k1
    have hsig : (fun t => (GPParams.ofDict (proposal s (moveCoord u κ t)).params).sigma) =
        fun t => ((proposal s (moveCoord u κ t)).params.entryAt? ["sigma".toList] 0).getD 0 := by
      funext t
      simp only [GPParams.ofDict, scalarAt_eq]
    have := noise_identity ex e mf x y (hθ κ) (fun t => ?_) (hadm _) (C86_partial e D hD _ (htr _)).2.ne' s'
      (by rw [hsig]; exact hs') hs0 (hz κ)
    · rw [h0] at this
      exact this
    · funext path
      simp only [GPParams.ofDict, scalarAt_eq]
      rw [k2 _ (by simp) _ _ (hmove κ t)]
  refine ⟨hnoise, ?_⟩
  rintro b e' rfl
  -- the variance
  obtain ⟨p₀, b1, b2, b3, b4⟩ : ∃ p, lookup ["kernel_params".toList, "kernel1".toList, "variance".toList] D =
      some (.inl p) ∧ p.trainable = true ∧ p.bijector = .softplus ∧ p.value.data.length = 1 := by
    rw [hkl _ (by simp)]
    obtain ⟨kp', g1, -⟩ := default_spec e'
    simp only [KExpr.defaultParams, g1, bind, Except.bind] at hkp
    cases hkp
    exact ⟨_, rfl, rfl, rfl, rfl⟩
  obtain ⟨⟨p, c1, c2, c3, c4⟩, -⟩ := trained_scalar hs h _ p₀ b1 b2 b3 b4
  obtain ⟨κ, k1, k2⟩ := proposal_coordinate s hok _ p c1 c2 c4
  obtain ⟨v', hv0, hv'⟩ := hcoord _ κ p c3 k1
  have hpath : ∀ q, (GPParams.ofDict (proposal s q).params).kernelParams ["kernel1", "variance"] =
      ((proposal s q).params.entryAt? ["kernel_params".toList, "kernel1".toList, "variance".toList] 0).getD 0 := fun q => by
    simp only [GPParams.ofDict, scalarAt_eq]
    rfl
  have := calibrated_identity ex b e' mf x y (hθ κ) (fun t => hadm _) (fun t => ?_) (fun t => ?_) ?_ v'
    (by simp only [hpath]; exact hv') hv0 (hz κ) (by rw [h0]; exact hnoise)
  · rw [h0] at this
    exact this
  · funext path
    simp only [GPParams.ofDict, scalarAt_eq, KPar.sub]
    rw [k2 _ ?_ _ _ (hmove κ t)]
    intro hc
    have := congrArg (fun l : List Key => l[1]?) hc
    simp at this
  · simp only [GPParams.ofDict, scalarAt_eq]
    rw [k2 _ (by simp) _ _ (hmove κ t)]
  · obtain ⟨-, w, hw, hw0⟩ := trained_scalar hs (htr (moveCoord u κ 0)) _ p₀ b1 b2 b3 b4
    rw [hpath, hw]
    exact hw0

/-! ## Non-vacuity -/

/-- One sample whose target is as large as its standard deviation: no other hyperparameters explain it better. -/
theorem exists_optimum (ex : la.Exact) (e : KExpr 1) (θ₀ : GPParams) (h₀ : Admissible e θ₀.kernelParams) :
    ∃ y : Mat 1 1, ∀ θ : GPParams, Admissible e θ.kernelParams →
      lmlDense la θ e.obj zeroMean (fun _ _ => 0 : Batch 1 1) y ≤ lmlDense la θ₀ e.obj zeroMean (fun _ _ => 0) y := by
  have hp0 := aLhsNoise_posDef e θ₀ h₀ (fun _ _ => 0 : Batch 1 1)
  obtain ⟨A, hA⟩ : ∃ A, A = aLhsNoise θ₀ e.obj (fun _ _ => 0 : Batch 1 1) (fun _ _ => 0) 0 0 := ⟨_, rfl⟩
  have hA0 : 0 < A := by rw [hA]; exact hp0.diag_pos
  refine ⟨fun _ _ => Real.sqrt A, fun θ h => ?_⟩
  have hp := aLhsNoise_posDef e θ h (fun _ _ => 0 : Batch 1 1)
  have hc : ∀ B : ℝ, centerBy (fun _ _ => B : Mat 1 1) (zeroMean (fun _ _ => B : Mat 1 1)) 0 0 = B := fun B => by
    simp [centerBy, zeroMean]
  have e1 := lmlTail_one ex hp (centerBy (fun _ _ => Real.sqrt A) (zeroMean (fun _ _ => Real.sqrt A : Mat 1 1)))
  have e2 := lmlTail_one ex hp0 (centerBy (fun _ _ => Real.sqrt A) (zeroMean (fun _ _ => Real.sqrt A : Mat 1 1)))
  rw [hc, Real.sq_sqrt hA0.le] at e1 e2
  change lmlTail la _ _ ≤ lmlTail la _ _
  rw [e1, e2, ← hA, div_self hA0.ne']
  have hB : 0 < aLhsNoise θ e.obj (fun _ _ => 0 : Batch 1 1) (fun _ _ => 0) 0 0 := hp.diag_pos
  obtain ⟨B, hBe⟩ : ∃ B, B = aLhsNoise θ e.obj (fun _ _ => 0 : Batch 1 1) (fun _ _ => 0) 0 0 := ⟨_, rfl⟩
  rw [← hBe] at hB ⊢
  have h1 := Real.log_le_sub_one_of_pos (div_pos hA0 hB)
  rw [Real.log_div hA0.ne' hB.ne'] at h1
  linarith

/-- The dense likelihood of GPR on one dataset, as the numerical layer. -/
noncomputable def exLik (e : KExpr 1) (y : Mat 1 1) : GprLikNum Unit Unit Unit where
  dense := fun params _ _ _ _ => .ok (lmlDense LinAlg.ideal (GPParams.ofDict params) e.obj zeroMean (fun _ _ => 0) y)
  iter := fun _ _ _ _ _ _ _ _ _ _ => .error .valueError
  derivsDense := fun _ _ _ _ _ _ => .error .valueError
  derivsIter := fun _ _ _ _ _ _ _ _ _ _ _ => .error .valueError

/-- For every kernel expression there are a default model, a dataset and a vector at which the gradient vanishes. -/
theorem exists_converged (e : KExpr 1) (xa ya : Arr) : ∃ (D : Dict Param) (s : ModelState Unit Unit Unit) (y : Mat 1 1)
    (f : (Fin (ravelBackward s.params).length → ℝ) → ℝ) (u : Fin (ravelBackward s.params).length → ℝ)
    (r : ModelState Unit Unit Unit) (v : ℝ),
    gprInitParams e = .ok D ∧ Trained (¬ HasPolynomial e) D s ∧
    SeenBySciPy (fun s' => gprNegLml (exLik e y) s' xa ya ⟨false, 1, 1, (), none, none⟩) s f ∧ fderiv ℝ f u = 0 ∧
    scipyMinimize (evaluateAt (List.ofFn u)) (fun s' => gprNegLml (exLik e y) s' xa ya ⟨false, 1, 1, (), none, none⟩) s =
      .ok (r, v) := by
  obtain ⟨D, s, hD, hs⟩ := (C86_constructed (K := Unit) (M := Unit) (C := Unit) e () () []).1
  have ht : Trained (¬ HasPolynomial e) D s := .init () () [] s hs
  obtain ⟨hsd, -⟩ := built_spec (.inl hD : BuiltByDefault e D)
  have hok := (trained_invariant e D hsd s ht).1
  have hadm : ∀ u, Admissible e (GPParams.ofDict (proposal s u).params).kernelParams := fun u =>
    (C86_partial e D (.inl hD) _ (proposal_trained D _ s ht hok u)).1
  obtain ⟨y, hy⟩ := exists_optimum LinAlg.ideal_exact e (GPParams.ofDict (proposal s 0).params) (hadm 0)
  obtain ⟨f, h1, h2, -⟩ := C147_gpr LinAlg.ideal_exact e D (.inl hD) (exLik e y) zeroMean (fun _ _ => 0) y xa ya s
    (fun _ => rfl) ht ⟨false, 1, 1, (), none, none⟩ rfl
  have hval : ∀ u, f u = -lmlDense LinAlg.ideal (GPParams.ofDict (proposal s u).params) e.obj zeroMean (fun _ _ => 0) y := by
    intro u
    obtain ⟨r, hr⟩ := h1 u
    obtain ⟨g1, g2⟩ := (evaluateAt_eq _ _ _ _ _).mp hr
    rw [proposal_spec s hok u] at g1
    cases g1
    exact (Except.ok.inj g2).symm
  obtain ⟨r, hr⟩ := h1 0
  refine ⟨D, s, y, f, 0, r, f 0, hD, ht, h1, ?_, hr⟩
  have hmin : IsLocalMin f 0 := Filter.Eventually.of_forall fun u => by
    rw [hval, hval]
    exact neg_le_neg (hy _ (hadm u))
  exact hmin.fderiv_eq_zero

/-- A sparse model with two trainable inducing points meets the hypotheses of `C147_sgpr`. -/
example : ∃ (D : Dict Param) (s : ModelState Unit Unit Unit),
    BuiltByDefault (.matern12 none : KExpr 1) D ∧ Trained (¬ HasPolynomial (.matern12 none : KExpr 1)) D s ∧
    (∃ p, s.params.at? ["x_locs".toList] = some p ∧ p.trainable = true) ∧ 2 < (ravelBackward s.params).length := by
  obtain ⟨p, hp⟩ : ∃ p : Param, p = ⟨⟨[2, 1], float64, [0, 1]⟩, true, .identity, ⟨.normal 0 1, [2, 1], float64⟩⟩ := ⟨_, rfl⟩
  have hu : UserParam p := by
    rw [hp]
    exact ⟨⟨rfl, rfl⟩, trivial, by simp [Arr.WF], fun _ _ => trivial⟩
  obtain ⟨D, s, hD, hs⟩ := (C86_constructed (K := Unit) (M := Unit) (C := Unit) (.matern12 none : KExpr 1) () () []).2 p
    none hu (by simp)
  have hok := (built_spec (.inr ⟨p, none, hu, by simp, hD⟩ : BuiltByDefault (.matern12 none : KExpr 1) D)).1.1
  refine ⟨D, s, .inr ⟨p, none, hu, by simp, hD⟩, .init () () [] s hs, ?_, ?_⟩
  · rw [ModelState.new_ok _ _ _ _ hok] at hs
    cases hs
    cases hD
    exact ⟨p, by rw [at_sort]; rfl, by rw [hp]⟩
  · rw [ModelState.new_ok _ _ _ _ hok] at hs
    cases hs
    rw [ravel_length, ← sizes_sum]
    change 2 < (sizes D.sortKeys.treeLeaves).sum
    rw [sizes_sum]
    have h1 : numTrainable D.sortKeys = numTrainable D :=
      (((Dict.treeLeaves_perm D).filter _).map _).sum_eq
    rw [h1]
    cases hD
    simp [numTrainable, Dict.leaves, hp, scalarArr]

end GPX.Props
