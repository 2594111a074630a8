import Verif.Model.API
import Verif.Lemmas.Params
import Verif.Lemmas.Optim
import Verif.Props.Restarts

/-!
# Helper lemmas for the estimator interface
-/

namespace GPX
variable {K M C O W R Out : Type}

/-- `Parameter.__init__` either raises or stores its arguments. -/
theorem Param.new_id {p q : Param} (h : Param.new p.value p.trainable p.bijector p.prior = .ok q) : q = p := by
  unfold Param.new at h
  split_ifs at h
  cases h
  rfl

theorem mapE_id {α : Type} {f : α → Except Err α} (hf : ∀ a b, f a = .ok b → b = a) (d d' : Dict α)
    (h : d.mapE f = .ok d') : d' = d := by
  induction d generalizing d' with
  | nil => cases h; rfl
  | leaf k a r ih =>
    simp only [Dict.mapE, bind, Except.bind] at h
    rcases ha : f a with e | b
    · rw [ha] at h; cases h
    rw [ha] at h
    simp only at h
    rcases hr : Dict.mapE f r with e | r'
    · rw [hr] at h; cases h
    rw [hr] at h
    cases h
    rw [hf a b ha, ih r' hr]
  | node k s r ihs ihr =>
    simp only [Dict.mapE, bind, Except.bind] at h
    rcases hs : Dict.mapE f s with e | s'
    · rw [hs] at h; cases h
    rw [hs] at h
    simp only at h
    rcases hr : Dict.mapE f r with e | r'
    · rw [hr] at h; cases h
    rw [hr] at h
    cases h
    rw [ihs s' hs, ihr r' hr]

/-- A state that could be constructed holds the sorted parameters and the converted options. -/
theorem ModelState.new_eq {kernel : K} {meanFn : M} {params : Dict Param} {kwargs : List (Key × OptVal C)}
    {s : ModelState K M C} (h : ModelState.new kernel meanFn params kwargs = .ok s) :
    s = ⟨kernel, meanFn, params.sortKeys, kwargs.map (fun kv => (kv.1, kv.2.norm))⟩ := by
  unfold ModelState.new at h
  rcases hp : params.sortKeys.mapE (fun p => Param.new p.value p.trainable p.bijector p.prior) with e | p'
  · rw [hp] at h; cases h
  rw [hp] at h
  cases h
  rw [mapE_id (fun a b hab => Param.new_id hab) _ _ hp]

theorem ModelState.update_eq {s r : ModelState K M C} {u : StateUpdate K M C} (h : (s.update u).1 = .ok r) :
    r = ⟨u.kernel.getD s.kernel, u.meanFn.getD s.meanFn, (u.params.getD s.params).sortKeys,
      (u.opts.foldl (fun acc kv => assocSet kv.1 kv.2 acc) s.opts).map (fun kv => (kv.1, kv.2.norm))⟩ :=
  ModelState.new_eq h

/-- The two states have the same kernel, mean function and options; sorted parameters stay sorted. -/
structure SameBut (s s' : ModelState K M C) : Prop where
  kernel : s'.kernel = s.kernel
  meanFn : s'.meanFn = s.meanFn
  opts : ∀ k, (assocGet k s'.opts).map OptVal.norm = (assocGet k s.opts).map OptVal.norm
  sorted : s.params.sortKeys = s.params → s'.params.sortKeys = s'.params

theorem SameBut.refl (s : ModelState K M C) : SameBut s s := ⟨rfl, rfl, fun _ => rfl, id⟩

theorem SameBut.trans {a b c : ModelState K M C} (h1 : SameBut a b) (h2 : SameBut b c) : SameBut a c :=
  ⟨h2.kernel.trans h1.kernel, h2.meanFn.trans h1.meanFn, fun k => (h2.opts k).trans (h1.opts k),
    fun h => h2.sorted (h1.sorted h)⟩

theorem sameBut_update {s r : ModelState K M C} {p : Option (Dict Param)}
    (h : (s.update { params := p }).1 = .ok r) : SameBut s r := by
  rw [ModelState.update_eq h]
  refine ⟨rfl, rfl, fun k => ?_, fun _ => Dict.sortKeys_idem _⟩
  simp only [List.foldl_nil, assocGet_map, Option.map_map]
  congr 1
  funext x
  exact norm_idem x

theorem sameBut_randomize {nxt : R → R} {sample : PriorObj → R → Arr} {key : R} {s r : ModelState K M C}
    (h : s.randomize nxt sample key [] = .ok r) : SameBut s r := by
  unfold ModelState.randomize at h
  rcases h1 : (s.update {}).1 with e | s1
  · rw [h1] at h; cases h
  rw [h1] at h
  simp only [bind, Except.bind] at h
  rcases h2 : rebuildParams s1.params (randomizeLoop nxt sample s1.params.treeLeaves key).1 with e | p
  · rw [h2] at h; cases h
  rw [h2] at h
  exact (sameBut_update h1).trans (sameBut_update h)

/-- A minimiser that only changes parameters. -/
def KeepsState (minim : W → ModelState K M C → Except Err (ModelState K M C × O) × W) : Prop :=
  ∀ w s s' o w', minim w s = (.ok (s', o), w') → SameBut s s'

theorem scipyMinimize_keeps (solve : (List ℝ → Except Err ℝ) → List ℝ → Except Err (List ℝ × O))
    (lossFn : ModelState K M C → Except Err ℝ) {s s' : ModelState K M C} {o : O}
    (h : scipyMinimize solve lossFn s = .ok (s', o)) : SameBut s s' := by
  unfold scipyMinimize at h
  simp only [bind, Except.bind] at h
  generalize solve _ _ = r at h
  rcases r with e | r
  · cases h
  simp only at h
  rcases h2 : unravelForward s.params r.1 with e | p
  · rw [h2] at h; cases h
  rw [h2] at h
  simp only at h
  rcases h3 : (s.update { params := some p }).1 with e | s1
  · rw [h3] at h; cases h
  rw [h3] at h
  cases h
  exact sameBut_update h3

theorem nloptOptimize_keeps (solve : (List ℝ → Except Err ℝ) → List ℝ → Except Err (List ℝ × O))
    (orig : ModelState K M C) (lossFn : ModelState K M C → Except Err ℝ) {s s' : ModelState K M C} {o : O}
    (h : nloptOptimize solve orig lossFn s = .ok (s', o)) : SameBut s s' := by
  unfold nloptOptimize at h
  simp only [bind, Except.bind] at h
  generalize solve _ _ = r at h
  rcases r with e | r
  · cases h
  simp only at h
  rcases h2 : unravelForward orig.params r.1 with e | p
  · rw [h2] at h; cases h
  rw [h2] at h
  simp only at h
  rcases h3 : (s.update { params := some p }).1 with e | s1
  · rw [h3] at h; cases h
  rw [h3] at h
  cases h
  exact sameBut_update h3

theorem randomizedMinimization_keeps {minim : W → ModelState K M C → Except Err (ModelState K M C × O) × W}
    (hk : KeepsState minim) {nxt : R → R} {sample : PriorObj → R → Arr} {loss : ModelState K M C → ℝ}
    {key : Option R} {s res : ModelState K M C} {n : ℕ} {rh : Bool} {w w' : W} {o : O}
    {hist : Option (List (ModelState K M C) × List ℝ)}
    (h : randomizedMinimization minim (fun k s => s.randomize nxt sample k []) loss nxt key s n rh w =
      (.ok (res, o, hist), w')) : SameBut s res ∧ (rh = true → hist.isSome) := by
  obtain ⟨start, fin, opt, ws, h0, -, -, hm, hr, ⟨best, hb, hres, -⟩, hh⟩ :=
    Props.C15_restarts_best minim _ loss nxt key s n rh w w' res o hist h
  have key' : ∀ i ≤ n, SameBut s (fin i) := by
    intro i
    induction i with
    | zero => intro _; rw [← h0]; exact hk _ _ _ _ _ (hm 0 (Nat.zero_le _))
    | succ i ih =>
      intro hi
      obtain ⟨k, -, hk'⟩ := hr i (by omega)
      exact ((ih (by omega)).trans (sameBut_randomize hk')).trans (hk _ _ _ _ _ (hm (i + 1) hi))
  refine ⟨hres ▸ key' best hb, ?_⟩
  intro hrh
  simp_all

end GPX
