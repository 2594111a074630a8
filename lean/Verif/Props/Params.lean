import Verif.Lemmas.Params
import Verif.Props.Bijectors

/-! # C10-C14, C46, C54, C58: parameters and model states -/

namespace GPX.Props
open GPX Spec

variable {K M C : Type}

/-! ### Concrete objects used to show that hypotheses can be met -/

noncomputable section examples

/-- A trainable scalar parameter with a Gamma(2,1)-like prior. -/
def exLength : Param :=
  ⟨⟨[], "f".toList, [2]⟩, true, .softplus, ⟨.gamma 2 1, [], "f".toList⟩⟩

/-- A frozen scalar parameter. -/
def exSigma : Param :=
  ⟨⟨[], "f".toList, [3]⟩, false, .softplus, ⟨.normal 0 1, [], "f".toList⟩⟩

/-- A trainable vector parameter, bounded on both sides. -/
def exVec : Param :=
  ⟨⟨[2], "f".toList, [1, 2]⟩, true, .softMinMax 0 5, ⟨.normal 0 1, [2], "f".toList⟩⟩

/-- A nested parameter dictionary, keys not in sorted order. -/
def exParams : Dict Param :=
  .leaf "sigma".toList exSigma
    (.node "kernel_params".toList (.leaf "lengthscale".toList exLength
      (.leaf "a".toList exVec .nil)) .nil)

def exState : ModelState Unit Unit Unit :=
  ⟨(), (), exParams, [("c".toList, .none), ("loss_fn".toList, .callable ())]⟩

theorem exParams_ok : ParamsOK exParams := by
  intro p hp
  simp only [exParams, Dict.leaves, List.mem_cons,
    List.append_nil, List.not_mem_nil, or_false] at hp
  rcases hp with rfl | rfl | rfl <;> exact ⟨rfl, rfl⟩

end examples

/-! ### C10 -/

/-- C10. `state.update(d)` is the overlay of `d` on the state: kernel, mean function, parameters (as
seen through key paths) and registered options are those of `d` where given, and those of the old
state elsewhere. -/
theorem C10_update_overlay (s : ModelState K M C) (u : StateUpdate K M C) (hs : ParamsOK s.params)
    (hu : UpdateOK u) :
    ∃ r, (s.update u).1 = .ok r ∧ viewOf r = overlay (viewOf s) u ∧ ParamsOK r.params := by
  have h := ModelState.update_ok s u (paramsOK_getD s u hs hu.1)
  refine ⟨_, h, viewOf_update s _ u hs hu h, ?_⟩
  exact ModelState.new_paramsOK h

/-- C10, any finite sequence of updates: the final state is the overlay, in order, of all of them. -/
theorem C10_update_sequence (us : List (StateUpdate K M C)) (s : ModelState K M C)
    (hs : ParamsOK s.params) (hus : ∀ u ∈ us, UpdateOK u) :
    ∃ r, us.foldlM (fun s u => (s.update u).1) s = .ok r ∧ viewOf r = us.foldl overlay (viewOf s) ∧
      ParamsOK r.params := by
  induction us generalizing s with
  | nil => exact ⟨s, rfl, rfl, hs⟩
  | cons u us ih =>
    obtain ⟨r1, h1, h2, h3⟩ := C10_update_overlay s u hs (hus u (by simp))
    obtain ⟨r, h4, h5, h6⟩ := ih r1 h3 (fun v hv => hus v (by simp [hv]))
    refine ⟨r, ?_, ?_, h6⟩
    · rw [List.foldlM_cons, h1]; exact h4
    · rw [h5, h2]; rfl

/-- Non-vacuity: a state and an update of parameters and options. -/
example : ParamsOK exState.params ∧
    UpdateOK ({ params := some exParams, opts := [("c".toList, .bool true)] } :
      StateUpdate Unit Unit Unit) :=
  ⟨exParams_ok, fun d hd => by simp at hd; subst hd; exact exParams_ok, by simp⟩

/-- C10, what the overlay means for an option that is given, one that is not, and the parameters. -/
theorem C10_overlay_reads (s r : ModelState K M C) (u : StateUpdate K M C) (hs : ParamsOK s.params)
    (hu : UpdateOK u) (h : (s.update u).1 = .ok r) :
    (∀ k v, assocGet k u.opts = some v → (assocGet k r.opts).map OptVal.norm = some v.norm) ∧
    (∀ k, assocGet k u.opts = none →
      (assocGet k r.opts).map OptVal.norm = (assocGet k s.opts).map OptVal.norm) ∧
    (∀ d, u.params = some d → SameDict r.params d) ∧
    (u.params = none → SameDict r.params s.params) := by
  have hv := viewOf_update s r u hs hu h
  have ho := congrArg View.opts hv
  have hp := congrArg View.params hv
  refine ⟨fun k v hk => ?_, fun k hk => ?_, fun d hd path => ?_, fun hd path => ?_⟩
  · have := congrFun ho k
    simpa [viewOf, overlay, hk] using this
  · have := congrFun ho k
    simpa [viewOf, overlay, hk] using this
  · have := congrFun hp path
    simpa [viewOf, overlay, hd] using this
  · have := congrFun hp path
    simpa [viewOf, overlay, hd] using this

/-! ### C11 -/

/-- C11, full statement: neither `update` method changes the dictionary passed by the caller. -/
def C11_full : Prop :=
  (∀ (s : ModelState Unit Unit Unit) (u : StateUpdate Unit Unit Unit), (s.update u).2 = u) ∧
  (∀ (p : Param) (u : ParamUpdate), (p.update u).2 = u)

/-- C11 is false of the code: `kernel`, `mean_function`, `params` (and `value`, `trainable`,
`bijector`, `prior`) are popped from the caller's dictionary. -/
theorem C11_update_preserves_false : ¬ C11_full := by
  intro h
  have h1 := h.1 exState { kernel := some () }
  have h2 := congrArg StateUpdate.kernel h1
  simp [ModelState.update] at h2

/-- C11, exactly what is left of the caller's dictionary, and when it is unchanged. -/
theorem C11_update_preserves_partial (s : ModelState K M C) (u : StateUpdate K M C) :
    ((s.update u).2 = u ↔ u.kernel = none ∧ u.meanFn = none ∧ u.params = none) ∧
      (s.update u).2.opts = u.opts := by
  refine ⟨⟨fun h => ?_, fun h => ?_⟩, rfl⟩
  · have h1 := congrArg StateUpdate.kernel h
    have h2 := congrArg StateUpdate.meanFn h
    have h3 := congrArg StateUpdate.params h
    exact ⟨h1.symm, h2.symm, h3.symm⟩
  · obtain ⟨k, m, p, o⟩ := u
    simp only at h
    obtain ⟨rfl, rfl, rfl⟩ := h
    rfl

/-- C11 for `Parameter.update`: a dictionary with any recognised entry is emptied of it. -/
theorem C11_parameter_update_partial (p : Param) (u : ParamUpdate) :
    (p.update u).2 = u ↔ u.value = none ∧ u.trainable = none ∧ u.bijector = none ∧ u.prior = none := by
  obtain ⟨v, t, b, q⟩ := u
  refine ⟨fun h => ?_, fun h => ?_⟩
  · have h1 := congrArg ParamUpdate.value h
    have h2 := congrArg ParamUpdate.trainable h
    have h3 := congrArg ParamUpdate.bijector h
    have h4 := congrArg ParamUpdate.prior h
    exact ⟨h1.symm, h2.symm, h3.symm, h4.symm⟩
  · simp only at h
    obtain ⟨rfl, rfl, rfl, rfl⟩ := h
    rfl

/-! ### C12 -/

/-- The number of scalars the optimiser works on. -/
def numTrainable (d : Dict Param) : Nat :=
  ((d.leaves.filter (·.trainable)).map (fun p => p.value.data.length)).sum

theorem sizes_sum (d : Dict Param) : (sizes d.treeLeaves).sum = numTrainable d := by
  exact (((Dict.treeLeaves_perm d).filter _).map _).sum_eq

/-- C12. Whatever vector of the right length the optimiser proposes, the rebuilt parameters have the
same key paths; every frozen parameter is exactly the old one; every trainable parameter keeps its
shape, dtype, bijector, prior and flag, and all its entries lie in the range of its bijector. -/
theorem C12_unravel_respects (params : Dict Param) (xt : List ℝ) (hok : ParamsOK params)
    (hb : ∀ p ∈ params.leaves, sensible p.bijector) (hl : xt.length = numTrainable params) :
    ∃ d', unravelForward params xt = .ok d' ∧
      AtEveryPath (fun p p' =>
        (p.trainable = false → p' = p) ∧
        (p.trainable = true → p'.trainable = true ∧ p'.bijector = p.bijector ∧ p'.prior = p.prior ∧
          p'.value.shape = p.value.shape ∧ p'.value.dtype = p.value.dtype ∧
          p'.value.data.length = p.value.data.length ∧
          ∀ x ∈ p'.value.data, x ∈ range p.bijector)) params d' := by
  obtain ⟨cs, d', h1, h2, h3, h4, h5⟩ := unravelForward_ok params xt hok
    (by rw [sizes_sum]; exact hl)
  refine ⟨d', h3, atEveryPath_sort (atEveryPath_of_rel (rel_of_forall₂ _ _ h4 ?_))⟩
  rw [h5]
  have hall : ∀ p ∈ params.treeLeaves, sensible p.bijector := fun p hp =>
    hb p ((mem_leaves_sortKeys _ _).mp hp)
  have h6 := mergePure_forall₂ params.treeLeaves cs h2
  have h7 : List.Forall₂ (fun (p : Param) (_ : Param) => sensible p.bijector)
      params.treeLeaves (mergePure params.treeLeaves cs) := by
    rw [List.forall₂_iff_zip]
    exact ⟨h6.length_eq, fun {a b} hab => hall a (List.of_mem_zip hab).1⟩
  rw [List.forall₂_iff_zip] at h6 h7 ⊢
  refine ⟨h6.1, fun {p p'} hpp => ?_⟩
  have hp := h6.2 hpp
  have hs := h7.2 hpp
  refine ⟨hp.1, fun ht => ?_⟩
  obtain ⟨c, hc, rfl⟩ := hp.2 ht
  refine ⟨ht, rfl, rfl, rfl, rfl, by simpa using hc, ?_⟩
  intro x hx
  simp only [List.mem_map] at hx
  obtain ⟨u, _, rfl⟩ := hx
  exact C01_forward_in_range p.bijector hs u

/-- C12, every entry of the proposal is used: the new trainable values, in tree order, are the
forward images of consecutive pieces of the vector. -/
theorem C12_unravel_uses_all (params : Dict Param) (xt : List ℝ) (hok : ParamsOK params)
    (hl : xt.length = numTrainable params) :
    ∃ d' pieces, unravelForward params xt = .ok d' ∧ pieces.flatten = xt ∧
      (d'.treeLeaves.filter (·.trainable)).map (·.value.data) =
        List.zipWith (fun p c => c.map p.bijector.forward)
          (params.treeLeaves.filter (·.trainable)) pieces := by
  obtain ⟨cs, d', h1, h2, h3, h4, h5⟩ := unravelForward_ok params xt hok
    (by rw [sizes_sum]; exact hl)
  refine ⟨d', cs, h3, h1, ?_⟩
  rw [Dict.treeLeaves_of_struct params d' h4, h5, mergePure_trainables _ _ h2]

/-- C12, a vector of any other length is refused. -/
theorem C12_unravel_wrong_length (params : Dict Param) (xt : List ℝ)
    (hl : xt.length ≠ numTrainable params) : unravelForward params xt = .error .valueError := by
  have h : unravelChunks ((params.treeLeaves.filter (·.trainable)).map
      (fun p => p.value.data.length)) xt = .error .valueError :=
    unravelChunks_err _ _ (by rw [show ((params.treeLeaves.filter (·.trainable)).map
      (fun p => p.value.data.length)).sum = numTrainable params from sizes_sum params]; exact hl)
  rw [unravelForward, h]; rfl

/-- Non-vacuity: the example dictionary takes three numbers and has a frozen parameter. -/
example : ParamsOK exParams ∧ (∀ p ∈ exParams.leaves, sensible p.bijector) ∧
    ([1, -7, 4] : List ℝ).length = numTrainable exParams := by
  refine ⟨exParams_ok, ?_, ?_⟩
  · intro p hp
    simp only [exParams, Dict.leaves, List.mem_cons,
      List.append_nil, List.not_mem_nil, or_false] at hp
    rcases hp with rfl | rfl | rfl
    · exact trivial
    · exact trivial
    · simp only [sensible, exVec]; norm_num
  · simp [numTrainable, exParams, Dict.leaves, exLength, exVec, exSigma]

/-! ### C13 -/

/-- `forward (backward v)` is `v` up to the jitter, for every bijector, wherever `backward` is
defined. -/
theorem C13_entry_roundtrip (b : Bijector) (v : ℝ) (h : invertibleAt b v) :
    |b.forward (b.backward v) - v| ≤ tol b := by
  have hj := spJitter_pos
  cases b with
  | softplus => rw [C02_softplus_roundtrip v h]; simp [tol, abs_of_pos hj]
  | softMin m => rw [C02_softmin_roundtrip m v h]; simp [tol, abs_of_pos hj]
  | softMax m => rw [C02_softmax_roundtrip m v h]; simp [tol, abs_of_pos hj]
  | softMinMax m M => exact C02_softminmax_roundtrip_partial m M v h.1 h.2.1 h.2.2
  | identity => simp [Bijector.forward, Bijector.backward, tol]

/-- C13. Unraveling the raveled trainables gives the parameters back at every key path: frozen ones
exactly, trainable ones up to the jitter of their bijector; the vector has one entry per trainable
scalar. -/
theorem C13_ravel_roundtrip (params : Dict Param) (hok : ParamsOK params)
    (hinv : ∀ p ∈ params.leaves, p.trainable = true → ∀ x ∈ p.value.data, invertibleAt p.bijector x) :
    (ravelBackward params).length = numTrainable params ∧
    ∃ d', unravelForward params (ravelBackward params) = .ok d' ∧
      AtEveryPath (fun p p' =>
        (p.trainable = false → p' = p) ∧
        (p.trainable = true → p'.trainable = true ∧ p'.bijector = p.bijector ∧ p'.prior = p.prior ∧
          closeUnder p.bijector p.value p'.value)) params d' := by
  have hlen : (ravelBackward params).length = numTrainable params := by
    rw [← sizes_sum, ravelBackward, List.length_flatMap]
    simp [sizes]
  refine ⟨hlen, ?_⟩
  set cs := (params.treeLeaves.filter (·.trainable)).map (fun p => p.value.data.map p.bijector.backward)
    with hcs
  have hflat : ravelBackward params = cs.flatten := by
    rw [ravelBackward, List.flatMap_def]
  have hsz : cs.map List.length = sizes params.treeLeaves := by
    rw [hcs, List.map_map, sizes]; simp [Function.comp_def]
  have hchunks : unravelChunks ((params.treeLeaves.filter (·.trainable)).map
      (fun p => p.value.data.length)) (ravelBackward params) = .ok cs := by
    have := unravelChunks_flatMap cs
    rw [hsz] at this
    rw [hflat]; exact this
  have hok' : ∀ p ∈ params.treeLeaves, ParamOK p := fun p hp =>
    hok p ((mem_leaves_sortKeys _ _).mp hp)
  have hrel := mergePure_backward params.treeLeaves
  rw [← hcs] at hrel
  obtain ⟨d', h4, h5, h6⟩ := Dict.treeUnflatten_spec params (mergePure params.treeLeaves cs)
    hrel.length_eq.symm
  refine ⟨d', ?_, ?_⟩
  · simp only [unravelForward, hchunks, bind, Except.bind, mergeTrainables_ok _ _ hok' hsz, h4]
  · refine atEveryPath_sort (atEveryPath_of_rel (rel_of_forall₂ _ _ h5 ?_))
    rw [h6]
    rw [List.forall₂_iff_zip] at hrel ⊢
    refine ⟨hrel.1, fun {p p'} hpp => ?_⟩
    have e := hrel.2 hpp
    have hmem : p ∈ params.leaves := (mem_leaves_sortKeys _ _).mp (List.of_mem_zip hpp).1
    refine ⟨fun ht => by simp [e, ht], fun ht => ?_⟩
    rw [if_pos ht] at e
    subst e
    refine ⟨ht, rfl, rfl, rfl, rfl, ?_⟩
    simp only [Arr.map]
    rw [List.forall₂_map_right_iff, List.forall₂_same]
    exact fun x hx => C13_entry_roundtrip _ _ (hinv p hmem ht x hx)

/-- Non-vacuity: the example dictionary has its trainable values where `backward` is defined. -/
example : ParamsOK exParams ∧
    ∀ p ∈ exParams.leaves, p.trainable = true → ∀ x ∈ p.value.data, invertibleAt p.bijector x := by
  refine ⟨exParams_ok, ?_⟩
  intro p hp
  simp only [exParams, Dict.leaves, List.mem_cons,
    List.append_nil, List.not_mem_nil, or_false] at hp
  rcases hp with rfl | rfl | rfl
  · intro h; simp [exSigma] at h
  · intro _ x hx
    simp only [exLength, List.mem_singleton] at hx
    subst hx
    show (0:ℝ) < 2
    norm_num
  · intro _ x hx
    have hj : spJitter < 1 := by
      unfold spJitter
      rw [div_lt_one (by positivity)]
      exact one_lt_pow₀ (by norm_num) (by norm_num)
    have hs : (5:ℝ) < softplus (5 - 0) := by
      rw [softplus_eq]
      have h1 : Real.log (Real.exp 5) < Real.log (Real.exp (5-0) + 1) :=
        Real.log_lt_log (Real.exp_pos _) (by simp)
      rw [Real.log_exp] at h1
      linarith [spJitter_pos]
    have hlow : 0 + spJitter * (5 - 0) / softplus (5 - 0) < 1 := by
      rw [zero_add, div_lt_one (by linarith)]
      nlinarith [spJitter_pos]
    simp only [exVec, List.mem_cons, List.not_mem_nil, or_false] at hx
    rcases hx with rfl | rfl
    · exact ⟨by norm_num, by norm_num, hlow⟩
    · exact ⟨by norm_num, by norm_num, by linarith⟩

/-! ### C14 -/

/-- C14. `randomize` returns a state with the same key paths in which every frozen parameter is
unchanged and every trainable one has the constrained prior draw made with its own random key; keys of
different trainable parameters differ as long as repeated splitting does not revisit a key; kernel and
mean function are kept and the options are overlaid as requested. -/
theorem C14_randomize {R : Type} (nxt : R → R) (sample : PriorObj → R → Arr)
    (s : ModelState K M C) (key : R) (opt : List (Key × OptVal C))
    (hok : ParamsOK s.params) (hopt : (opt.map Prod.fst).Nodup)
    (hsample : ∀ q k, (sample q k).shape = q.shape ∧ (sample q k).dtype = q.dtype)
    (hsplit : ∀ a ≤ s.params.leaves.length, ∀ b ≤ s.params.leaves.length,
      nxt^[a] key = nxt^[b] key → a = b) :
    ∃ r, s.randomize nxt sample key opt = .ok r ∧ r.kernel = s.kernel ∧ r.meanFn = s.meanFn ∧
      (∀ k, (assocGet k r.opts).map OptVal.norm =
        ((assocGet k opt).or (assocGet k s.opts)).map OptVal.norm) ∧
      (∀ path, lookup path s.params = none ↔ lookup path r.params = none) ∧
      (∀ path, lookup path s.params = some (.inr ()) ↔ lookup path r.params = some (.inr ())) ∧
      ∃ keyOf : List Key → R,
        (∀ path p, lookup path s.params = some (.inl p) →
          lookup path r.params = some (.inl (if p.trainable
            then { p with value := (sample p.prior (keyOf path)).map p.bijector.forward }
            else p))) ∧
        (∀ path path' p p', path ≠ path' → lookup path s.params = some (.inl p) →
          lookup path' s.params = some (.inl p') → p.trainable = true → p'.trainable = true →
          keyOf path ≠ keyOf path') := by
  -- the copy
  have hcopy := ModelState.update_ok s ({} : StateUpdate K M C) hok
  simp only [Option.getD_none, List.foldl_nil] at hcopy
  set st : ModelState K M C := ⟨s.kernel, s.meanFn, s.params.sortKeys,
    s.opts.map (fun kv => (kv.1, kv.2.norm))⟩ with hst
  have hleaves : st.params.treeLeaves = s.params.sortKeys.leaves := by
    show s.params.sortKeys.sortKeys.leaves = _
    rw [Dict.sortKeys_idem]
  set ps := s.params.sortKeys.leaves with hps
  have hokps : ∀ p ∈ ps, ParamOK p := fun p hp => hok p ((mem_leaves_sortKeys _ _).mp hp)
  have hlenps : ps.length = s.params.leaves.length := (Dict.treeLeaves_perm s.params).length_eq
  have hloop := randomizeLoop_forall₂ nxt sample ps 0 key
  set vs := (randomizeLoop nxt sample ps key).1 with hvs
  set tg := tags nxt ps 0 key with htg
  have htgf : tg.map Prod.fst = ps := tags_fst nxt ps 0 key
  have hvalid : List.Forall₂ (fun (p : Param) (v : Arr) => v.shape = p.prior.shape ∧
      v.dtype = p.prior.dtype) st.params.treeLeaves vs := by
    rw [hleaves, ← htgf, List.forall₂_map_left_iff]
    rw [List.forall₂_iff_zip] at hloop ⊢
    refine ⟨hloop.1, fun {t v} htv => ?_⟩
    have e := hloop.2 htv
    have hmem : t.1 ∈ ps := by
      rw [← htgf]; exact List.mem_map.mpr ⟨t, (List.of_mem_zip htv).1, rfl⟩
    split at e
    · rw [e]; exact hsample _ _
    · rw [e]; exact hokps _ hmem
  obtain ⟨d', h1, h2, h3, h4⟩ := rebuildParams_ok st.params vs hvalid
  have h2' : d'.map (fun _ => ()) = s.params.sortKeys.map (fun _ => ()) := by
    rw [h2]; show s.params.sortKeys.sortKeys.map _ = _; rw [Dict.sortKeys_idem]
  rw [hleaves] at h3
  have hupd := ModelState.update_ok st ({ params := some d', opts := opt } : StateUpdate K M C) h4
  simp only [Option.getD_none, Option.getD_some] at hupd
  have hsorted : d'.sortKeys = d' := Dict.sortKeys_of_sorted _
    (Dict.sorted_of_map_eq _ _ h2' (Dict.sorted_sortKeys _))
  -- tagged dictionary
  obtain ⟨D, hD1, hD2, hD3⟩ := Dict.refill_spec s.params.sortKeys tg [] (by
    rw [← hps, ← htgf]; simp)
  have hDfst : D.map Prod.fst = s.params.sortKeys := by
    apply Dict.eq_of_struct_leaves
    · rw [Dict.map_map]
      rw [show (((fun _ => ()) : Param → Unit) ∘ (Prod.fst : Param × ℕ × R → Param)) = fun _ => () from rfl, hD2]
    · rw [Dict.leaves_map, hD3, htgf]
  have hrel : Dict.Rel (fun (t : Param × ℕ × R) p' => p' = if t.1.trainable then
      { t.1 with value := (sample t.1.prior t.2.2).map t.1.bijector.forward } else t.1) D d' := by
    apply rel_of_forall₂
    · rw [hD2, h2']
    · rw [hD3, h3, ← htgf]
      clear_value vs tg
      clear hvs h3 htg hvalid h1 htgf hD1 hD3
      induction hloop with
      | nil => exact .nil
      | @cons t v ts vs e _ ih =>
        rw [List.map_cons, List.zipWith_cons_cons]
        refine .cons ?_ ih
        rw [e]
        split <;> rename_i ht <;> simp [ht]
        obtain ⟨⟨a, b, c, d⟩, e⟩ := t
        simp at ht
        simp [ht]
  have hat := atEveryPath_of_rel hrel
  have hlookD : ∀ path, lookup path s.params = (lookup path D).map (Sum.map Prod.fst id) := by
    intro path
    rw [← lookup_sortKeys path s.params, ← hDfst]
    generalize D = D
    induction path generalizing D with
    | nil => rfl
    | cons k ks ih =>
      have hg : (D.map Prod.fst).get? k = (D.get? k).map (Dict.mapItem Prod.fst) := by
        induction D using Dict.consInduction with
        | h0 => rfl
        | h1 k0 z r ih2 =>
          rw [Dict.map_cons, Dict.get?_cons, Dict.get?_cons, ih2]
          split <;> rfl
      rw [lookup, lookup, hg]
      rcases D.get? k with _ | a | sD
      · rfl
      · simp only [Option.map_some, Dict.mapItem]
        split <;> rfl
      · exact ih sD
  refine ⟨⟨s.kernel, s.meanFn, d', (opt.foldl (fun acc kv => assocSet kv.1 kv.2 acc) st.opts).map
        (fun kv => (kv.1, kv.2.norm))⟩, ?_, rfl, rfl, ?_, ?_, ?_, fun path => ?_, ?_⟩
  · rw [ModelState.randomize, hcopy]
    simp only [bind, Except.bind]
    rw [show (randomizeLoop nxt sample st.params.treeLeaves key).1 = vs by rw [hleaves], h1]
    simp only
    rw [hupd, hsorted]
  · intro k
    simp only
    rw [assocGet_map, assocGet_fold _ _ _ hopt]
    cases assocGet k opt with
    | none =>
      simp only [Option.none_or, hst]
      rw [assocGet_map]
      cases assocGet k s.opts <;> simp [norm_idem]
    | some x => simp [norm_idem]
  · intro path
    simp only
    have := hat path
    rw [hlookD]
    rcases e1 : lookup path D with _ | t | u <;> rcases e2 : lookup path d' with _ | t' | u' <;>
      simp [e1, e2] at this ⊢
  · intro path
    simp only
    have := hat path
    rw [hlookD]
    rcases e1 : lookup path D with _ | t | u <;> rcases e2 : lookup path d' with _ | t' | u' <;>
      simp [e1, e2] at this ⊢
  · exact match lookup path D with
      | some (.inl t) => t.2.2
      | _ => key
  · · constructor
      · intro path p hp
        simp only
        have := hat path
        rw [hlookD] at hp
        rcases e1 : lookup path D with _ | t | u <;> rw [e1] at hp this <;>
          simp only [Option.map_none, Option.map_some, Sum.map_inl, Sum.map_inr, reduceCtorEq,
            Option.some.injEq, Sum.inl.injEq] at hp
        subst hp
        rcases e2 : lookup path d' with _ | t' | u' <;> rw [e2] at this <;> simp only at this
        rw [this]
      · intro path path' p p' hne hp hp' ht ht'
        rw [hlookD] at hp hp'
        rcases e1 : lookup path D with _ | t | u <;> rw [e1] at hp <;>
          simp only [Option.map_none, Option.map_some, Sum.map_inl, Sum.map_inr, reduceCtorEq,
            Option.some.injEq, Sum.inl.injEq] at hp
        rcases e2 : lookup path' D with _ | t' | u' <;> rw [e2] at hp' <;>
          simp only [Option.map_none, Option.map_some, Sum.map_inl, Sum.map_inr, reduceCtorEq,
            Option.some.injEq, Sum.inl.injEq] at hp'
        subst hp hp'
        simp only [e1, e2]
        have hpw := tags_pairwise nxt ps 0 key (by rw [hlenps]; exact hsplit)
        rw [← htg] at hpw
        have htt : t ≠ t' := by
          rintro rfl
          exact hne (lookup_inj path path' D (by rw [hD3]; exact tags_nodup nxt ps 0 key) t e1 e2)
        have hsym : Std.Symm (fun (t t' : Param × ℕ × R) => t.1.trainable = true →
            t'.1.trainable = true → t.2.2 ≠ t'.2.2) :=
          ⟨fun a b h h1 h2 e => h h2 h1 e.symm⟩
        exact hpw.forall (by rw [← hD3]; exact lookup_mem path D t e1)
          (by rw [← hD3]; exact lookup_mem path' D t' e2) htt ht ht'

/-- Non-vacuity: keys as natural numbers, splitting as successor, a sampler of the right shape. -/
example : (∀ q k, ((fun q k => ⟨q.shape, q.dtype, [(k : ℝ)]⟩ : PriorObj → ℕ → Arr) q k).shape = q.shape ∧
      ((fun q k => ⟨q.shape, q.dtype, [(k : ℝ)]⟩ : PriorObj → ℕ → Arr) q k).dtype = q.dtype) ∧
    (∀ a ≤ exState.params.leaves.length, ∀ b ≤ exState.params.leaves.length,
      Nat.succ^[a] 7 = Nat.succ^[b] 7 → a = b) := by
  refine ⟨fun q k => ⟨rfl, rfl⟩, ?_⟩
  intro a _ b _ h
  simp only [Nat.succ_iterate] at h
  omega

/-! ### C46 -/

/-- C46. The recursive type check accepts a nested dictionary iff every leaf at every depth is a
`Parameter`; otherwise it raises `ValueError`. -/
theorem C46_recursive_check {α : Type} (isParam : α → Bool) (d : Dict α) (hk : d.KeysDistinct) :
    (checkRecursive isParam d = .ok () ↔
      ∀ path a, lookup path d = some (.inl a) → isParam a = true) ∧
    (checkRecursive isParam d = .ok () ∨ checkRecursive isParam d = .error .valueError) := by
  have h1 : checkRecursive isParam d = .ok () ↔ ∀ a ∈ d.leaves, isParam a = true := by
    clear hk
    induction d with
    | nil => simp [checkRecursive, Dict.leaves]
    | leaf k a r ih =>
      by_cases h : isParam a = true <;> simp [checkRecursive, Dict.leaves, h, ih]
    | node k s r ih1 ih =>
      simp only [checkRecursive, Dict.leaves, List.mem_append]
      rcases e : checkRecursive isParam s with x | u
      · have := ih1.not.mp (by rw [e]; simp)
        simp only [bind, Except.bind, reduceCtorEq, false_iff]
        intro h; exact this (fun a ha => h a (Or.inl ha))
      · have := ih1.mp (by rw [e])
        simp only [bind, Except.bind, ih]
        exact ⟨fun h a ha => ha.elim (this a) (h a), fun h a ha => h a (Or.inr ha)⟩
  have h2 : ∀ a ∈ d.leaves, ∃ path, lookup path d = some (.inl a) := by
    clear h1
    induction d with
    | nil => simp [Dict.leaves]
    | leaf k b r ih =>
      intro a ha
      rcases List.mem_cons.mp ha with rfl | ha
      · exact ⟨[k], by simp [lookup, Dict.get?]⟩
      · obtain ⟨path, hp⟩ := ih hk.2 a ha
        refine ⟨path, ?_⟩
        cases path with
        | nil => simp [lookup] at hp
        | cons q qs =>
          rw [lookup] at hp ⊢
          have hq : q ≠ k := by
            rintro rfl
            rw [(Dict.get?_eq_none _ _).mpr hk.1] at hp; cases hp
          simpa [Dict.get?, hq] using hp
    | node k s r ih1 ih =>
      intro a ha
      rcases List.mem_append.mp ha with ha | ha
      · obtain ⟨path, hp⟩ := ih1 hk.2.1 a ha
        exact ⟨k :: path, by simpa [lookup, Dict.get?] using hp⟩
      · obtain ⟨path, hp⟩ := ih hk.2.2 a ha
        refine ⟨path, ?_⟩
        cases path with
        | nil => simp [lookup] at hp
        | cons q qs =>
          rw [lookup] at hp ⊢
          have hq : q ≠ k := by
            rintro rfl
            rw [(Dict.get?_eq_none _ _).mpr hk.1] at hp; cases hp
          simpa [Dict.get?, hq] using hp
  refine ⟨⟨fun h path a hp => h1.mp h a (lookup_mem path d a hp), fun h => h1.mpr fun a ha => ?_⟩, ?_⟩
  · obtain ⟨path, hp⟩ := h2 a ha
    exact h path a hp
  · clear h1 h2 hk
    induction d with
    | nil => left; rfl
    | leaf k a r ih =>
      rw [checkRecursive]
      split
      · exact ih
      · right; rfl
    | node k s r ih1 ih =>
      rw [checkRecursive]
      rcases ih1 with e | e <;> rw [e]
      · exact ih
      · right; rfl

/-- Non-vacuity: a nested dictionary with distinct keys, accepted, and one rejected because of a
leaf two levels down. -/
example : (Dict.node "a".toList (.leaf "b".toList true .nil) (.leaf "c".toList true .nil)).KeysDistinct ∧
    checkRecursive id (Dict.node "a".toList (.leaf "b".toList true .nil) (.leaf "c".toList true .nil)) = .ok () ∧
    checkRecursive id (Dict.node "a".toList (.node "b".toList (.leaf "d".toList false .nil) .nil)
      (.leaf "c".toList true .nil)) = .error .valueError := by
  refine ⟨by simp [Dict.KeysDistinct, Dict.keys], rfl, rfl⟩

/-- C46. Constructing a `Parameter` is refused, with `ValueError`, iff value and prior disagree in shape
or dtype; otherwise the object holds exactly what was passed. -/
theorem C46_parameter_guard (v : Arr) (t : Bool) (b : Bijector) (q : PriorObj) :
    ((v.shape ≠ q.shape ∨ v.dtype ≠ q.dtype) → Param.new v t b q = .error .valueError) ∧
    ((v.shape = q.shape ∧ v.dtype = q.dtype) → Param.new v t b q = .ok ⟨v, t, b, q⟩) := by
  constructor
  · intro h
    unfold Param.new
    split
    · rfl
    · split
      · rfl
      · rename_i h1 h2
        exact absurd h (by simp only [not_or]; exact ⟨h1, h2⟩)
  · rintro ⟨h1, h2⟩
    exact Param.new_ok' _ _ _ _ h1 h2

/-- C46. No sequence of operations produces a state holding an ill-typed parameter: whatever the
constructor or `update` return has consistent parameters, without any assumption on the arguments. -/
theorem C46_states_consistent (kernel : K) (meanFn : M) (params : Dict Param)
    (kw : List (Key × OptVal C)) (s r : ModelState K M C) (u : StateUpdate K M C) :
    (ModelState.new kernel meanFn params kw = .ok s → ParamsOK s.params) ∧
    ((s.update u).1 = .ok r → ParamsOK r.params) :=
  ⟨ModelState.new_paramsOK, ModelState.new_paramsOK⟩

/-! ### C54 -/

/-- The independent statement: the sum over all parameters, at any depth, and over all their entries of
the log-prior density. -/
noncomputable def priorSum (params : Dict Param) : ℝ :=
  (params.leaves.map (fun p => (p.value.data.map p.prior.dist.logpdf).sum)).sum

/-- C54, full statement: `log_prior` is a scalar equal to that sum. -/
def C54_full : Prop :=
  ∀ params : Dict Param, ParamsOK params → (∀ p ∈ params.leaves, p.value.WF) →
    ∃ dt, logPrior params = .ok ⟨[], dt, [priorSum params]⟩

theorem logPrior_fold (ps : List Param) (hs : ∀ p ∈ ps, ∃ x, p.value.shape = [] ∧ p.value.data = [x])
    (x0 : ℝ) (dt : Key) :
    ps.foldlM (fun (acc : Arr) p => acc.add (p.value.map p.prior.dist.logpdf)) ⟨[], dt, [x0]⟩ =
      .ok ⟨[], dt, [x0 + (ps.map (fun p => (p.value.data.map p.prior.dist.logpdf).sum)).sum]⟩ := by
  induction ps generalizing x0 with
  | nil => simp; rfl
  | cons p ps ih =>
    obtain ⟨x, h1, h2⟩ := hs p (by simp)
    rw [List.foldlM_cons]
    have : (⟨[], dt, [x0]⟩ : Arr).add (p.value.map p.prior.dist.logpdf) =
        .ok ⟨[], dt, [x0 + p.prior.dist.logpdf x]⟩ := by
      simp [Arr.add, Arr.map, h1, h2]
    rw [this]
    simp only [bind, Except.bind]
    rw [ih (fun q hq => hs q (by simp [hq]))]
    simp [h2, add_assoc]

/-- C54 for scalar parameters (any tree, any depth, any number of them): `log_prior` is the sum of all
log-prior densities, `log_posterior` is the log marginal likelihood plus that sum. Missing for the full
statement: array-valued parameters, for which it is false of the code. -/
theorem C54_log_posterior_partial (params : Dict Param) (lml : ℝ) (dt : Key)
    (hs : ∀ p ∈ params.leaves, ∃ x, p.value.shape = [] ∧ p.value.data = [x]) :
    (∃ dt', logPrior params = .ok ⟨[], dt', [priorSum params]⟩) ∧
    logPosterior ⟨[], dt, [lml]⟩ params = .ok ⟨[], dt, [lml + priorSum params]⟩ := by
  have hp : logPrior params = .ok ⟨[], "float".toList, [priorSum params]⟩ := by
    rw [logPrior, logPrior_fold params.treeLeaves (fun p hp => hs p ((mem_leaves_sortKeys _ _).mp hp)), zero_add]
    have : (params.treeLeaves.map (fun p => (p.value.data.map p.prior.dist.logpdf).sum)).sum =
        priorSum params := ((Dict.treeLeaves_perm params).map _).sum_eq
    rw [this]
  refine ⟨⟨_, hp⟩, ?_⟩
  rw [logPosterior, hp]
  simp [bind, Except.bind, Arr.add]

/-- Non-vacuity: two scalar parameters at different depths. -/
example : ∀ p ∈ (Dict.leaf "sigma".toList exSigma (.node "k".toList
    (.leaf "l".toList exLength .nil) .nil)).leaves, ∃ x, p.value.shape = [] ∧ p.value.data = [x] := by
  intro p hp
  simp only [Dict.leaves, List.append_nil, List.mem_cons, List.not_mem_nil, or_false] at hp
  rcases hp with rfl | rfl
  · exact ⟨3, rfl, rfl⟩
  · exact ⟨2, rfl, rfl⟩

/-- C54 is false of the code for array-valued parameters: the log densities of the entries are not
summed, `log_prior` is an array of the parameter's shape. -/
theorem C54_log_prior_false : ¬ C54_full := by
  intro h
  obtain ⟨dt, e⟩ := h (.leaf "w".toList exVec .nil)
    (by intro p hp; simp only [Dict.leaves, List.mem_singleton] at hp; subst hp; exact ⟨rfl, rfl⟩)
    (by intro p hp; simp only [Dict.leaves, List.mem_singleton] at hp; subst hp; simp [Arr.WF, exVec])
  simp [logPrior, Dict.treeLeaves, Dict.sortKeys, Dict.insLeaf, Dict.leaves, exVec, Arr.add, Arr.map,
    bind, Except.bind, pure, Except.pure] at e

/-! ### C58 -/

/-- C58. Any mode other than the two names is rejected with `ValueError`. -/
theorem C58_transform_mode (s : ModelState K M C) (mode : Key) (h1 : mode ≠ "forward".toList)
    (h2 : mode ≠ "backward".toList) : s.transform mode = .error .valueError := by
  simp only [ModelState.transform, if_neg h1, if_neg h2]

theorem transform_aux (s : ModelState K M C) (f : Param → ℝ → ℝ) (hok : ParamsOK s.params) :
    ∃ d', rebuildParams s.params (s.params.treeLeaves.map (fun p => p.value.map (f p))) = .ok d' ∧
      d' = s.params.sortKeys.map (fun p => { p with value := p.value.map (f p) }) ∧ ParamsOK d' := by
  obtain ⟨d', h1, h2, h3, h4⟩ := rebuildParams_ok s.params
    (s.params.treeLeaves.map (fun p => p.value.map (f p))) (by
      rw [List.forall₂_map_right_iff, List.forall₂_same]
      intro p hp
      exact hok p ((mem_leaves_sortKeys _ _).mp hp))
  refine ⟨d', h1, Dict.eq_of_struct_leaves _ _ ?_ ?_, h4⟩
  · rw [h2, Dict.map_map]
  · rw [h3, Dict.leaves_map, List.zipWith_map_right, List.zipWith_self]; rfl

/-- C58. `transform` succeeds for both modes, changes nothing but parameter values, and applies the
bijector of each parameter (frozen ones included) entrywise. -/
theorem C58_transform_values (s : ModelState K M C) (hok : ParamsOK s.params) :
    (∃ r, s.transform "forward".toList = .ok r ∧ r.kernel = s.kernel ∧ r.meanFn = s.meanFn ∧
      (∀ k, (assocGet k r.opts).map OptVal.norm = (assocGet k s.opts).map OptVal.norm) ∧
      ParamsOK r.params ∧
      AtEveryPath (fun p p' => p' = { p with value := p.value.map p.bijector.forward })
        s.params r.params) ∧
    (∃ r, s.transform "backward".toList = .ok r ∧ r.kernel = s.kernel ∧ r.meanFn = s.meanFn ∧
      (∀ k, (assocGet k r.opts).map OptVal.norm = (assocGet k s.opts).map OptVal.norm) ∧
      ParamsOK r.params ∧
      AtEveryPath (fun p p' => p' = { p with value := p.value.map p.bijector.backward })
        s.params r.params) := by
  have main : ∀ f : Param → ℝ → ℝ, ∃ r : ModelState K M C,
      (do
        let newParams ← rebuildParams s.params
          (s.params.treeLeaves.map (fun p => p.value.map (f p)))
        (s.update { params := some newParams }).1) = Except.ok r ∧ r.kernel = s.kernel ∧
      r.meanFn = s.meanFn ∧
      (∀ k, (assocGet k r.opts).map OptVal.norm = (assocGet k s.opts).map OptVal.norm) ∧
      ParamsOK r.params ∧
      AtEveryPath (fun p p' => p' = { p with value := p.value.map (f p) }) s.params r.params := by
    intro f
    obtain ⟨d', h1, h2, h3⟩ := transform_aux s f hok
    rw [h1]
    simp only [bind, Except.bind]
    have hu := ModelState.update_ok s ({ params := some d' } : StateUpdate K M C) h3
    refine ⟨_, hu, rfl, rfl, ?_, ModelState.new_paramsOK hu, ?_⟩
    · intro k
      simp only [List.foldl_nil]
      rw [assocGet_map]
      cases assocGet k s.opts <;> simp [norm_idem]
    · simp only [Option.getD_some]
      apply atEveryPath_sort'
      apply atEveryPath_sort
      rw [h2]
      exact atEveryPath_of_rel (Dict.Rel.map_self _ _ _ (fun p _ => rfl))
  constructor
  · simp only [ModelState.transform, if_true]
    exact main (fun p => p.bijector.forward)
  · simp only [ModelState.transform]
    rw [if_neg (by decide), if_pos trivial]
    exact main (fun p => p.bijector.backward)

theorem atEveryPath_comp {α β γ : Type} {R : α → β → Prop} {S : β → γ → Prop} {T : α → γ → Prop}
    {a : Dict α} {b : Dict β} {c : Dict γ} (h1 : AtEveryPath R a b) (h2 : AtEveryPath S b c)
    (h : ∀ x ∈ a.leaves, ∀ y z, R x y → S y z → T x z) : AtEveryPath T a c := by
  intro path
  have g1 := h1 path
  have g2 := h2 path
  rcases e1 : lookup path a with _ | x | u <;> rcases e2 : lookup path b with _ | y | v <;>
    rcases e3 : lookup path c with _ | z | w <;> simp [e1, e2, e3] at g1 g2 ⊢
  exact h x (lookup_mem path a x e1) y z g1 g2

/-- C58. Backward then forward gives every parameter back up to the jitter of its bijector. -/
theorem C58_transform_roundtrip (s : ModelState K M C) (hok : ParamsOK s.params)
    (hinv : ∀ p ∈ s.params.leaves, ∀ x ∈ p.value.data, invertibleAt p.bijector x) :
    ∃ r r', s.transform "backward".toList = .ok r ∧ r.transform "forward".toList = .ok r' ∧
      AtEveryPath (fun p p' => p'.trainable = p.trainable ∧ p'.bijector = p.bijector ∧
        p'.prior = p.prior ∧ closeUnder p.bijector p.value p'.value) s.params r'.params := by
  obtain ⟨r, h1, _, _, _, h2, h3⟩ := (C58_transform_values s hok).2
  obtain ⟨r', h4, _, _, _, h5, h6⟩ := (C58_transform_values r h2).1
  refine ⟨r, r', h1, h4, atEveryPath_comp h3 h6 ?_⟩
  rintro p hp y z rfl rfl
  refine ⟨rfl, rfl, rfl, rfl, rfl, ?_⟩
  simp only [Arr.map, List.map_map]
  rw [List.forall₂_map_right_iff, List.forall₂_same]
  exact fun x hx => C13_entry_roundtrip _ _ (hinv p hp x hx)

/-- Non-vacuity: a state with a trainable and a frozen positive parameter. -/
example : let d : Dict Param := .leaf "s".toList exSigma (.leaf "l".toList exLength .nil)
    ParamsOK d ∧ ∀ p ∈ d.leaves, ∀ x ∈ p.value.data, invertibleAt p.bijector x := by
  constructor
  · intro p hp
    simp only [Dict.leaves, List.mem_cons, List.not_mem_nil, or_false] at hp
    rcases hp with rfl | rfl <;> exact ⟨rfl, rfl⟩
  · intro p hp x hx
    simp only [Dict.leaves, List.mem_cons, List.not_mem_nil, or_false] at hp
    rcases hp with rfl | rfl
    · simp only [exSigma, List.mem_singleton] at hx; subst hx
      show (0:ℝ) < 3; norm_num
    · simp only [exLength, List.mem_singleton] at hx; subst hx
      show (0:ℝ) < 2; norm_num

end GPX.Props
