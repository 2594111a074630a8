import Verif.Model.Optim
import Verif.Props.Params
import Verif.Spec.Optax

namespace GPX
open Spec Props
noncomputable section
variable {K M C O : Type}

/-- Rebuild the parameters on `orig` from a vector and put them into `s`. -/
def proposeOn (orig s : ModelState K M C) (xt : List ℝ) : Except Err (ModelState K M C) := do
  let params ← unravelForward orig.params xt
  (s.update { params := some params }).1

theorem unravelForward_paramsOK (params : Dict Param) (xt : List ℝ) (hok : ParamsOK params)
    (d' : Dict Param) (h : unravelForward params xt = .ok d') : ParamsOK d' := by
  by_cases hl : xt.length = numTrainable params
  · obtain ⟨cs, d, h1, h2, h3, h4, h5⟩ := unravelForward_ok params xt hok (by rw [sizes_sum]; exact hl)
    rw [h3] at h
    cases h
    intro p hp
    rw [h5] at hp
    have hf := mergePure_forall₂ params.treeLeaves cs h2
    obtain ⟨q, hq, hr⟩ : ∃ q ∈ params.treeLeaves, (q.trainable = false → p = q) ∧
      (q.trainable = true → ∃ c : List ℝ, c.length = q.value.data.length ∧
        p = { q with value := { q.value with data := c.map q.bijector.forward } }) := by
      clear h2 h5 h4 h3 hl h1
      generalize mergePure params.treeLeaves cs = l' at hf hp
      generalize params.treeLeaves = l at hf ⊢
      induction hf with
      | nil => simp at hp
      | cons hab _ ih =>
        rcases List.mem_cons.mp hp with rfl | hp
        · exact ⟨_, List.mem_cons_self, hab⟩
        · obtain ⟨q, hq, hh⟩ := ih hp
          exact ⟨q, List.mem_cons_of_mem _ hq, hh⟩
    have hqok := hok q ((mem_leaves_sortKeys _ _).mp hq)
    cases ht : q.trainable with
    | false => rw [hr.1 ht]; exact hqok
    | true =>
      obtain ⟨c, -, rfl⟩ := hr.2 ht
      exact hqok
  · rw [C12_unravel_wrong_length params xt hl] at h
    cases h

/-- What a proposal looks like. -/
theorem proposeOn_ok (orig s : ModelState K M C) (xt : List ℝ) (hok : ParamsOK orig.params)
    (r : ModelState K M C) (h : proposeOn orig s xt = .ok r) :
    xt.length = numTrainable orig.params ∧ r.kernel = s.kernel ∧ r.meanFn = s.meanFn ∧
    (∀ k, (assocGet k r.opts).map OptVal.norm = (assocGet k s.opts).map OptVal.norm) ∧
    ∃ d', unravelForward orig.params xt = .ok d' ∧ r.params = d'.sortKeys ∧ ParamsOK r.params := by
  have hl : xt.length = numTrainable orig.params := by
    by_contra hl
    rw [proposeOn, C12_unravel_wrong_length _ xt hl] at h
    cases h
  obtain ⟨cs, d', h1, h2, h3, h4, h5⟩ := unravelForward_ok orig.params xt hok (by rw [sizes_sum]; exact hl)
  have hd := unravelForward_paramsOK _ _ hok _ h3
  have hu := ModelState.update_ok s { params := some d' } hd
  simp only [proposeOn, h3, bind, Except.bind] at h
  rw [hu] at h
  cases h
  refine ⟨hl, rfl, rfl, ?_, d', h3, rfl, ?_⟩
  · intro k
    simp only [List.foldl_nil, assocGet_map, Option.map_map]
    congr 1
    funext x
    exact norm_idem x
  · exact fun p hp => hd p ((mem_leaves_sortKeys _ _).mp hp)

theorem proposeOn_total (orig s : ModelState K M C) (xt : List ℝ) (hok : ParamsOK orig.params)
    (hl : xt.length = numTrainable orig.params) : ∃ r, proposeOn orig s xt = .ok r := by
  obtain ⟨cs, d', h1, h2, h3, h4, h5⟩ := unravelForward_ok orig.params xt hok (by rw [sizes_sum]; exact hl)
  have hd := unravelForward_paramsOK _ _ hok _ h3
  have hu := ModelState.update_ok s { params := some d' } hd
  exact ⟨_, by simp only [proposeOn, h3, bind, Except.bind]; exact hu⟩

theorem proposeOn_respects (orig s : ModelState K M C) (xt : List ℝ) (hok : ParamsOK orig.params)
    (hb : ∀ p ∈ orig.params.leaves, sensible p.bijector)
    (r : ModelState K M C) (h : proposeOn orig s xt = .ok r) :
    AtEveryPath (fun p p' =>
        (p.trainable = false → p' = p) ∧
        (p.trainable = true → p'.trainable = true ∧ p'.bijector = p.bijector ∧ p'.prior = p.prior ∧
          p'.value.shape = p.value.shape ∧ p'.value.dtype = p.value.dtype ∧
          p'.value.data.length = p.value.data.length ∧
          ∀ x ∈ p'.value.data, x ∈ range p.bijector)) orig.params r.params := by
  obtain ⟨hl, -, -, -, d', h1, h2, -⟩ := proposeOn_ok orig s xt hok r h
  obtain ⟨d, h3, h4⟩ := C12_unravel_respects orig.params xt hok hb hl
  rw [h1] at h3
  cases h3
  rw [h2]
  exact atEveryPath_sort' h4

theorem proposeOn_start (orig s : ModelState K M C) (hok : ParamsOK orig.params)
    (hinv : ∀ p ∈ orig.params.leaves, p.trainable = true → ∀ x ∈ p.value.data, invertibleAt p.bijector x)
    (r : ModelState K M C) (h : proposeOn orig s (ravelBackward orig.params) = .ok r) :
    AtEveryPath (fun p p' =>
        (p.trainable = false → p' = p) ∧
        (p.trainable = true → p'.trainable = true ∧ p'.bijector = p.bijector ∧ p'.prior = p.prior ∧
          closeUnder p.bijector p.value p'.value)) orig.params r.params := by
  obtain ⟨hl, -, -, -, d', h1, h2, -⟩ := proposeOn_ok orig s _ hok r h
  obtain ⟨-, d, h3, h4⟩ := C13_ravel_roundtrip orig.params hok hinv
  rw [h1] at h3
  cases h3
  rw [h2]
  exact atEveryPath_sort' h4

theorem scipyMinimize_eq (solve : (List ℝ → Except Err ℝ) → List ℝ → Except Err (List ℝ × O))
    (lossFn : ModelState K M C → Except Err ℝ) (s : ModelState K M C) (r : ModelState K M C) (o : O) :
    scipyMinimize solve lossFn s = .ok (r, o) ↔
      ∃ x, solve (fun xt => proposeOn s s xt >>= lossFn) (ravelBackward s.params) = .ok (x, o) ∧
        proposeOn s s x = .ok r := by
  have hobj : (fun xt => (do
      let params ← unravelForward s.params xt
      let ustate ← (s.update { params := some params }).1
      lossFn ustate)) = (fun xt => proposeOn s s xt >>= lossFn) := by
    funext xt
    simp only [proposeOn, bind, Except.bind]
    cases unravelForward s.params xt <;> rfl
  simp only [scipyMinimize, hobj]
  rcases solve (fun xt => proposeOn s s xt >>= lossFn) (ravelBackward s.params) with e | ⟨x, o'⟩
  · simp [bind, Except.bind]
  · simp only [proposeOn, bind, Except.bind, pure, Except.pure]
    rcases hu : unravelForward s.params x with e | d
    · constructor
      · intro h; cases h
      · rintro ⟨x', h1, h2⟩
        cases h1
        rw [hu] at h2
        cases h2
    · constructor
      · intro h
        refine ⟨x, ?_⟩
        simp only at h
        rcases h3 : (s.update { params := some d }).1 with e | s'
        · rw [h3] at h; cases h
        · rw [h3] at h; cases h
          exact ⟨rfl, by rw [hu]; exact h3⟩
      · rintro ⟨x', h1, h2⟩
        cases h1
        rw [hu] at h2
        simp only at h2
        simp only [h2]

theorem nloptOptimize_eq (solve : (List ℝ → Except Err ℝ) → List ℝ → Except Err (List ℝ × O))
    (lossFn : ModelState K M C → Except Err ℝ) (orig s : ModelState K M C) (r : ModelState K M C) (o : O) :
    nloptOptimize solve orig lossFn s = .ok (r, o) ↔
      ∃ x, solve (fun xt => proposeOn orig s xt >>= lossFn) (ravelBackward s.params) = .ok (x, o) ∧
        proposeOn orig s x = .ok r := by
  have hobj : (fun xt => (do
      let params ← unravelForward orig.params xt
      let ustate ← (s.update { params := some params }).1
      lossFn ustate)) = (fun xt => proposeOn orig s xt >>= lossFn) := by
    funext xt
    simp only [proposeOn, bind, Except.bind]
    cases unravelForward orig.params xt <;> rfl
  simp only [nloptOptimize, hobj]
  rcases solve (fun xt => proposeOn orig s xt >>= lossFn) (ravelBackward s.params) with e | ⟨x, o'⟩
  · simp [bind, Except.bind]
  · simp only [proposeOn, bind, Except.bind, pure, Except.pure]
    rcases hu : unravelForward orig.params x with e | d
    · constructor
      · intro h; cases h
      · rintro ⟨x', h1, h2⟩
        cases h1
        rw [hu] at h2
        cases h2
    · constructor
      · intro h
        refine ⟨x, ?_⟩
        simp only at h
        rcases h3 : (s.update { params := some d }).1 with e | s'
        · rw [h3] at h; cases h
        · rw [h3] at h; cases h
          exact ⟨rfl, by rw [hu]; exact h3⟩
      · rintro ⟨x', h1, h2⟩
        cases h1
        rw [hu] at h2
        simp only at h2
        simp only [h2]

end
end GPX

namespace GPX
open Spec Props
noncomputable section
variable {K M C O L : Type}

/-! ### optax -/

theorem optaxLoop_ok (opt : Optimizer K M C O) (losses : ModelState K M C → Except Err L) (n : ℕ)
    (o : O) (s sf : ModelState K M C) (of : O) (ls : List L)
    (h : optaxLoop opt losses n o s = .ok (sf, of, ls)) :
    ∃ (it : ℕ → ModelState K M C) (os : ℕ → O), it 0 = s ∧ os 0 = o ∧ it n = sf ∧ os n = of ∧
      ls.length = n ∧
      ∀ i < n, ∃ l, ls[i]? = some l ∧ losses (it i) = .ok l ∧
        applyUpdates (it i) (opt.update (it i) (os i)).1 = .ok (it (i+1)) ∧
        os (i+1) = (opt.update (it i) (os i)).2 := by
  induction n generalizing o s ls with
  | zero =>
    simp only [optaxLoop, Except.ok.injEq, Prod.mk.injEq] at h
    obtain ⟨rfl, rfl, rfl⟩ := h
    exact ⟨fun _ => s, fun _ => o, rfl, rfl, rfl, rfl, rfl, by simp⟩
  | succ n ih =>
    simp only [optaxLoop, optaxStep, bind, Except.bind, pure, Except.pure] at h
    rcases h1 : losses s with e | l
    · rw [h1] at h; cases h
    rw [h1] at h
    simp only at h
    rcases h2 : applyUpdates s (opt.update s o).1 with e | s'
    · rw [h2] at h; cases h
    rw [h2] at h
    simp only at h
    rcases h3 : optaxLoop opt losses n (opt.update s o).2 s' with e | ⟨a, b, c⟩
    · rw [h3] at h; cases h
    rw [h3] at h
    simp only [Except.ok.injEq, Prod.mk.injEq] at h
    obtain ⟨rfl, rfl, rfl⟩ := h
    obtain ⟨it, os, g1, g2, g3, g4, g5, g6⟩ := ih _ _ _ h3
    refine ⟨fun i => match i with | 0 => s | i+1 => it i, fun i => match i with | 0 => o | i+1 => os i,
      rfl, rfl, g3, g4, by simp [g5], ?_⟩
    intro i hi
    rcases i with _ | i
    · exact ⟨l, rfl, h1, by simpa only [g1] using h2, g2⟩
    · obtain ⟨l', k1, k2, k3, k4⟩ := g6 i (by omega)
      exact ⟨l', by simpa using k1, k2, k3, k4⟩

theorem constrainedTrain_ok (opt : Optimizer K M C O) (losses : ModelState K M C → Except Err L) (n : ℕ)
    (s r : ModelState K M C) (of : O) (ls : List L)
    (h : constrainedTrain opt losses n s = .ok (r, of, ls)) :
    ∃ (it : ℕ → ModelState K M C) (os : ℕ → O), s.transform "backward".toList = .ok (it 0) ∧
      os 0 = opt.init (it 0) ∧ (it n).transform "forward".toList = .ok r ∧ os n = of ∧
      ls.length = n ∧
      ∀ i < n, ∃ l b, ls[i]? = some l ∧ (it i).transform "forward".toList = .ok b ∧ losses b = .ok l ∧
        applyUpdates (it i) (opt.update (it i) (os i)).1 = .ok (it (i+1)) ∧
        os (i+1) = (opt.update (it i) (os i)).2 := by
  unfold constrainedTrain at h
  generalize hL : (fun s : ModelState K M C => (do
    let b ← s.transform "forward".toList
    losses b)) = LL at h
  simp only [bind, Except.bind, pure, Except.pure] at h
  rcases h1 : s.transform "backward".toList with e | s0
  · rw [h1] at h; cases h
  rw [h1] at h
  simp only at h
  rcases h3 : optaxLoop opt LL n (opt.init s0) s0 with e | ⟨a, b, c⟩
  · rw [h3] at h; cases h
  rw [h3] at h
  simp only at h
  rcases h4 : a.transform "forward".toList with e | r'
  · rw [h4] at h; cases h
  rw [h4] at h
  simp only [Except.ok.injEq, Prod.mk.injEq] at h
  obtain ⟨rfl, rfl, rfl⟩ := h
  obtain ⟨it, os, g1, g2, g3, g4, g5, g6⟩ := optaxLoop_ok _ _ _ _ _ _ _ _ h3
  refine ⟨it, os, by rw [g1], by rw [g2, g1], by rw [g3]; exact h4, g4, g5, ?_⟩
  intro i hi
  obtain ⟨l, k1, k2, k3, k4⟩ := g6 i hi
  subst hL
  simp only [bind, Except.bind] at k2
  rcases k5 : (it i).transform "forward".toList with e | b'
  · rw [k5] at k2; cases k2
  · rw [k5] at k2
    exact ⟨l, b', k1, rfl, k2, k3, k4⟩

/-- What one update does to the leaves. -/
theorem applyUpdates_ok (s : ModelState K M C) (us : List Arr) (hok : ParamsOK s.params)
    (hl : us.length = s.params.treeLeaves.length) :
    ∃ s', applyUpdates s us = .ok s' ∧ s'.kernel = s.kernel ∧ s'.meanFn = s.meanFn ∧
      (∀ k, (assocGet k s'.opts).map OptVal.norm = (assocGet k s.opts).map OptVal.norm) ∧
      ParamsOK s'.params ∧
      s'.params.sortKeys.map (fun _ => ()) = s.params.sortKeys.map (fun _ => ()) ∧
      s'.params.treeLeaves = List.zipWith (fun p u => { p with value := Arr.plus p.value u })
        s.params.treeLeaves us := by
  obtain ⟨d', h1, h2, h3, h4⟩ := rebuildParams_ok s.params
    (List.zipWith (fun p u => Arr.plus p.value u) s.params.treeLeaves us) (by
      have hok' : ∀ p ∈ s.params.treeLeaves, ParamOK p := fun p hp => hok p ((mem_leaves_sortKeys _ _).mp hp)
      generalize s.params.treeLeaves = ps at hl hok'
      induction ps generalizing us with
      | nil => simp
      | cons p ps ih =>
        cases us with
        | nil => simp at hl
        | cons u us =>
          refine List.Forall₂.cons (hok' p (by simp)) (ih us (by simpa using hl) (fun q hq => hok' q (by simp [hq]))))
  have hu := ModelState.update_ok s { params := some d' } h4
  have hs : d'.Sorted := Dict.sorted_of_map_eq _ _ h2 (Dict.sorted_sortKeys _)
  have htl : d'.treeLeaves = d'.leaves := by
    have := Dict.treeLeaves_of_struct s.params d' h2
    exact this
  have happ : applyUpdates s us = .ok ⟨s.kernel, s.meanFn, d'.sortKeys,
      s.opts.map (fun kv => (kv.1, kv.2.norm))⟩ := by
    simp only [applyUpdates, h1, bind, Except.bind]; exact hu
  refine ⟨_, happ, rfl, rfl, ?_, ?_, ?_, ?_⟩
  · intro k
    simp only [assocGet_map, Option.map_map]
    congr 1
    funext x
    exact norm_idem x
  · exact fun p hp => h4 p ((mem_leaves_sortKeys _ _).mp hp)
  · rw [← h2]
    rw [Dict.sortKeys_of_sorted _ (Dict.sorted_sortKeys _), Dict.sortKeys_of_sorted _ hs]
  · simp only [Dict.treeLeaves]
    rw [Dict.sortKeys_of_sorted _ (Dict.sorted_sortKeys _)]
    have : d'.sortKeys.leaves = d'.leaves := htl
    rw [this, h3]
    clear h1 h2 h3 h4 hu hs htl this happ
    have : s.params.treeLeaves = s.params.sortKeys.leaves := rfl
    rw [← this]
    generalize s.params.treeLeaves = ps at hl
    induction ps generalizing us with
    | nil => rfl
    | cons p ps ih =>
      cases us with
      | nil => rfl
      | cons u us => simp only [List.zipWith_cons_cons]; rw [ih us (by simpa using hl)]

end
end GPX

namespace GPX
open Spec Props
noncomputable section
variable {K M C O L : Type}

theorem atEveryPath_of_treeLeaves {α β : Type} {R : α → β → Prop} (d : Dict α) (d' : Dict β)
    (h : d'.sortKeys.map (fun _ => ()) = d.sortKeys.map (fun _ => ()))
    (hl : List.Forall₂ R d.treeLeaves d'.treeLeaves) : AtEveryPath R d d' := by
  have h1 := atEveryPath_of_rel (rel_of_forall₂ d.sortKeys d'.sortKeys h hl)
  intro path
  have := h1 path
  rwa [lookup_sortKeys, lookup_sortKeys] at this

theorem transform_leaves (mode : Key) (f : Param → ℝ → ℝ) (s r : ModelState K M C) (hok : ParamsOK s.params)
    (hm : (mode = "forward".toList ∧ ∀ p, f p = p.bijector.forward) ∨
      (mode = "backward".toList ∧ ∀ p, f p = p.bijector.backward))
    (h : s.transform mode = .ok r) :
    r.kernel = s.kernel ∧ r.meanFn = s.meanFn ∧
      (∀ k, (assocGet k r.opts).map OptVal.norm = (assocGet k s.opts).map OptVal.norm) ∧
      ParamsOK r.params ∧
      r.params.sortKeys.map (fun _ => ()) = s.params.sortKeys.map (fun _ => ()) ∧
      r.params.treeLeaves = s.params.treeLeaves.map (fun p => { p with value := p.value.map (f p) }) := by
  obtain ⟨d', h1, h2, h3⟩ := transform_aux s f hok
  have hu := ModelState.update_ok s { params := some d' } h3
  have hr : r = ⟨s.kernel, s.meanFn, d'.sortKeys, s.opts.map (fun kv => (kv.1, kv.2.norm))⟩ := by
    rcases hm with ⟨rfl, hf⟩ | ⟨rfl, hf⟩
    · have : (fun p : Param => p.value.map p.bijector.forward) = (fun p => p.value.map (f p)) := by
        funext p; rw [hf]
      rw [ModelState.transform, if_pos rfl, this, h1] at h
      simp only [bind, Except.bind] at h
      rw [hu] at h
      cases h
      rfl
    · have : (fun p : Param => p.value.map p.bijector.backward) = (fun p => p.value.map (f p)) := by
        funext p; rw [hf]
      rw [ModelState.transform, if_neg (by decide), if_pos rfl, this, h1] at h
      simp only [bind, Except.bind] at h
      rw [hu] at h
      cases h
      rfl
  subst hr
  have hst : d'.map (fun _ => ()) = s.params.sortKeys.map (fun _ => ()) := by
    rw [h2, Dict.map_map]
  have hs : d'.Sorted := Dict.sorted_of_map_eq _ _ hst (Dict.sorted_sortKeys _)
  have hss : d'.sortKeys.sortKeys = d' := by
    rw [Dict.sortKeys_of_sorted _ (Dict.sorted_sortKeys _), Dict.sortKeys_of_sorted _ hs]
  refine ⟨rfl, rfl, ?_, ?_, ?_, ?_⟩
  · intro k
    simp only [assocGet_map, Option.map_map]
    congr 1
    funext x
    exact norm_idem x
  · exact fun p hp => h3 p ((mem_leaves_sortKeys _ _).mp hp)
  · rw [hss, hst]
  · simp only [Dict.treeLeaves, hss]
    rw [h2, Dict.leaves_map]

theorem forall₂_trans {α β γ : Type} {R : α → β → Prop} {S : β → γ → Prop} {T : α → γ → Prop}
    (h : ∀ a b c, R a b → S b c → T a c) {l1 : List α} {l2 : List β} {l3 : List γ}
    (h1 : List.Forall₂ R l1 l2) (h2 : List.Forall₂ S l2 l3) : List.Forall₂ T l1 l3 := by
  induction h1 generalizing l3 with
  | nil => cases h2; exact .nil
  | cons hab _ ih =>
    cases h2 with
    | cons hbc ht => exact .cons (h _ _ _ hab hbc) (ih ht)

/-- What gradient steps preserve of a parameter. -/
def Keeps (p p' : Param) : Prop :=
  p'.trainable = p.trainable ∧ p'.bijector = p.bijector ∧ p'.prior = p.prior ∧
    p'.value.shape = p.value.shape ∧ p'.value.dtype = p.value.dtype ∧
    p'.value.data.length = p.value.data.length ∧ (p.trainable = false → p'.value = p.value)

theorem applyUpdates_keeps (s s' : ModelState K M C) (us : List Arr) (hok : ParamsOK s.params)
    (hus : GoodUpdates s us) (h : applyUpdates s us = .ok s') :
    List.Forall₂ Keeps s.params.treeLeaves s'.params.treeLeaves ∧ ParamsOK s'.params ∧
      s'.params.sortKeys.map (fun _ => ()) = s.params.sortKeys.map (fun _ => ()) ∧
      s'.kernel = s.kernel ∧ s'.meanFn = s.meanFn ∧
      (∀ k, (assocGet k s'.opts).map OptVal.norm = (assocGet k s.opts).map OptVal.norm) := by
  obtain ⟨s1, h1, h2, h3, h4, h5, h6, h7⟩ := applyUpdates_ok s us hok hus.length_eq.symm
  rw [h] at h1
  cases h1
  refine ⟨?_, h5, h6, h2, h3, h4⟩
  rw [h7]
  unfold GoodUpdates at hus
  clear h7 h
  generalize s.params.treeLeaves = ps at hus
  induction hus with
  | nil => exact .nil
  | @cons p u ps us hpu _ ih =>
    refine .cons ⟨rfl, rfl, rfl, rfl, rfl, ?_, ?_⟩ ih
    · simp [Arr.plus, hpu.1]
    · intro ht
      have hz := hpu.2 ht
      have hlen := hpu.1
      obtain ⟨⟨sh, dt, data⟩, _, _, _⟩ := p
      obtain ⟨ush, udt, udata⟩ := u
      simp only [Arr.plus, Arr.mk.injEq, true_and] at hz hlen ⊢
      clear hpu ht
      induction data generalizing udata with
      | nil => simp
      | cons x xs ihx =>
        cases udata with
        | nil => simp at hlen
        | cons y ys =>
          simp only [List.zipWith_cons_cons]
          rw [hz y (by simp), add_zero, ihx ys (fun z hz' => hz z (by simp [hz'])) (by simpa using hlen)]

theorem iterates_keep (it : ℕ → ModelState K M C) (us : ℕ → List Arr) (n : ℕ)
    (hok : ParamsOK (it 0).params)
    (hus : ∀ s (i : ℕ), i < n → s = it i → GoodUpdates s (us i))
    (h : ∀ i < n, applyUpdates (it i) (us i) = .ok (it (i+1))) :
    List.Forall₂ Keeps (it 0).params.treeLeaves (it n).params.treeLeaves ∧ ParamsOK (it n).params ∧
      (it n).params.sortKeys.map (fun _ => ()) = (it 0).params.sortKeys.map (fun _ => ()) ∧
      (it n).kernel = (it 0).kernel ∧ (it n).meanFn = (it 0).meanFn ∧
      (∀ k, (assocGet k (it n).opts).map OptVal.norm = (assocGet k (it 0).opts).map OptVal.norm) := by
  induction n with
  | zero =>
    refine ⟨?_, hok, rfl, rfl, rfl, fun _ => rfl⟩
    rw [List.forall₂_same]
    intro p _
    exact ⟨rfl, rfl, rfl, rfl, rfl, rfl, fun _ => rfl⟩
  | succ n ih =>
    obtain ⟨a1, a2, a3, a4, a5, a6⟩ := ih (fun s i hi => hus s i (by omega)) (fun i hi => h i (by omega))
    obtain ⟨b1, b2, b3, b4, b5, b6⟩ := applyUpdates_keeps (it n) (it (n+1)) (us n) a2
      (hus _ n (by omega) rfl) (h n (by omega))
    refine ⟨forall₂_trans ?_ a1 b1, b2, by rw [b3, a3], by rw [b4, a4], by rw [b5, a5],
      fun k => by rw [b6, a6]⟩
    rintro p q r ⟨c1, c2, c3, c4, c5, c6, c7⟩ ⟨d1, d2, d3, d4, d5, d6, d7⟩
    exact ⟨d1.trans c1, d2.trans c2, d3.trans c3, d4.trans c4, d5.trans c5, d6.trans c6,
      fun ht => (d7 (c1.trans ht)).trans (c7 ht)⟩

/-! ### particle swarm -/

/-- `best` is the outcome of the repetitions before `r`. -/
def PsoInv (pso : ℕ → List ℝ × FVal) (r : ℕ) (best : Option (List ℝ × FVal)) : Prop :=
  (best = none ∧ ∀ j < r, ¬ (pso j).2.lt FVal.inf) ∨
  ∃ i < r, best = some (pso i) ∧ (pso i).2.lt FVal.inf ∧ (∀ j < r, ¬ (pso j).2.lt (pso i).2) ∧
    ∀ j < i, (pso j).2 = FVal.nan ∨ (pso i).2.lt (pso j).2

theorem FVal.lt_trans {a b c : FVal} (h : a.lt b) (h' : b.lt c) : a.lt c := by
  rcases a with _ | a <;> rcases b with _ | b <;> rcases c with _ | c <;>
    simp_all only [FVal.lt]
  exact h.trans h'

theorem FVal.lt_irrefl (a : FVal) : ¬ a.lt a := by
  rcases a with _ | a <;> simp [FVal.lt]

/-- Everything that is not below a number `b` that is above `a` is `nan` or above `a`. -/
theorem FVal.nan_or_lt {a b c : FVal} (h : a.lt b) (h' : ¬ c.lt b) : c = FVal.nan ∨ a.lt c := by
  rcases a with _ | a <;> rcases b with _ | b <;> rcases c with _ | c <;>
    simp_all only [FVal.lt, FVal.nan, not_lt, not_false_eq_true, true_or, reduceCtorEq, false_or]
  exact h.trans_le h'

theorem psoLoop_inv (pso : ℕ → List ℝ × FVal) (n r : ℕ) (best : Option (List ℝ × FVal))
    (h : PsoInv pso r best) : PsoInv pso (r + n) (psoLoop pso n r best) := by
  induction n generalizing r best with
  | zero => exact h
  | succ n ih =>
    rw [show r + (n + 1) = (r + 1) + n by omega]
    refine ih (r+1) _ ?_
    rcases h with ⟨rfl, h⟩ | ⟨i, hi, rfl, h1, h2, h3⟩
    · by_cases ht : (pso r).2.lt FVal.inf
      · rw [if_pos ht]
        refine .inr ⟨r, by omega, rfl, ht, fun j hj hlt => ?_, fun j hj => FVal.nan_or_lt ht (h j hj)⟩
        rcases Nat.lt_succ_iff_lt_or_eq.mp hj with hj | rfl
        · exact h j hj (FVal.lt_trans hlt ht)
        · exact FVal.lt_irrefl _ hlt
      · rw [if_neg ht]
        refine .inl ⟨rfl, fun j hj => ?_⟩
        rcases Nat.lt_succ_iff_lt_or_eq.mp hj with hj | rfl
        · exact h j hj
        · exact ht
    · by_cases ht : (pso r).2.lt (pso i).2
      · simp only [if_pos ht]
        refine .inr ⟨r, by omega, rfl, FVal.lt_trans ht h1, fun j hj hlt => ?_,
          fun j hj => FVal.nan_or_lt ht (h2 j hj)⟩
        rcases Nat.lt_succ_iff_lt_or_eq.mp hj with hj | rfl
        · exact h2 j hj (FVal.lt_trans hlt ht)
        · exact FVal.lt_irrefl _ hlt
      · simp only [if_neg ht]
        refine .inr ⟨i, by omega, rfl, h1, fun j hj => ?_, h3⟩
        rcases Nat.lt_succ_iff_lt_or_eq.mp hj with hj | rfl
        · exact h2 j hj
        · exact ht

theorem psoLoop_none (pso : ℕ → List ℝ × FVal) (n : ℕ) (h : ∀ j < n, ¬ (pso j).2.lt FVal.inf) :
    psoLoop pso n 0 none = none := by
  have := psoLoop_inv pso n 0 none (.inl ⟨rfl, by simp⟩)
  rw [Nat.zero_add] at this
  rcases this with ⟨e, -⟩ | ⟨i, hi, -, h1, -⟩
  · exact e
  · exact absurd h1 (h i hi)

theorem psoLoop_best (pso : ℕ → List ℝ × FVal) (n : ℕ) (hn : ∃ j < n, (pso j).2.lt FVal.inf) :
    ∃ i < n, psoLoop pso n 0 none = some (pso i) ∧ (pso i).2.lt FVal.inf ∧
      (∀ j < n, ¬ (pso j).2.lt (pso i).2) ∧
      ∀ j < i, (pso j).2 = FVal.nan ∨ (pso i).2.lt (pso j).2 := by
  have := psoLoop_inv pso n 0 none (.inl ⟨rfl, by simp⟩)
  rw [Nat.zero_add] at this
  rcases this with ⟨-, h⟩ | ⟨i, hi, h⟩
  · obtain ⟨j, hj, hlt⟩ := hn
    exact absurd hlt (h j hj)
  · exact ⟨i, hi, h⟩

theorem copyValues_ok (ps qs : List Param) (h : List.Forall₂ (fun (p q : Param) =>
      q.value.shape = p.prior.shape ∧ q.value.dtype = p.prior.dtype) ps qs) :
    copyValues ps qs = .ok (List.zipWith (fun (p q : Param) => { p with value := q.value }) ps qs) := by
  induction h with
  | nil => rfl
  | @cons p q ps qs hpq _ ih =>
    have : (p.update { value := some q.value }).1 = .ok { p with value := q.value } := by
      simp only [Param.update, Option.getD_some, Option.getD_none]
      exact Param.new_ok' _ _ _ _ hpq.1 hpq.2
    simp only [copyValues, this, ih, bind, Except.bind, pure, Except.pure, List.zipWith_cons_cons]

/-- The state with identity bijectors, `pso_optimize.py:81-84`. -/
def psoFake (s : ModelState K M C) : Except Err (ModelState K M C) := do
  let fakeParams ← s.params.sortKeys.mapE (fun p => (p.update { bijector := some .identity }).1)
  (s.update { params := some fakeParams }).1

theorem psoFake_ok (s : ModelState K M C) (hok : ParamsOK s.params) :
    ∃ fake, psoFake s = .ok fake ∧ fake.kernel = s.kernel ∧ fake.meanFn = s.meanFn ∧
      (∀ k, (assocGet k fake.opts).map OptVal.norm = (assocGet k s.opts).map OptVal.norm) ∧
      ParamsOK fake.params ∧
      fake.params.sortKeys.map (fun _ => ()) = s.params.sortKeys.map (fun _ => ()) ∧
      fake.params.treeLeaves = s.params.treeLeaves.map (fun p => { p with bijector := .identity }) := by
  have h1 : s.params.sortKeys.mapE (fun p => (p.update { bijector := some .identity }).1) =
      .ok (s.params.sortKeys.map (fun p => { p with bijector := .identity })) := by
    apply mapE_ok
    intro p hp
    have := hok p ((mem_leaves_sortKeys _ _).mp hp)
    simp only [Param.update, Option.getD_some, Option.getD_none]
    exact Param.new_ok' _ _ _ _ this.1 this.2
  set d' := s.params.sortKeys.map (fun p : Param => { p with bijector := .identity }) with hd'
  have hst : d'.map (fun _ => ()) = s.params.sortKeys.map (fun _ => ()) := by rw [hd', Dict.map_map]
  have hs : d'.Sorted := Dict.sorted_of_map_eq _ _ hst (Dict.sorted_sortKeys _)
  have hss : d'.sortKeys = d' := Dict.sortKeys_of_sorted _ hs
  have hp : ParamsOK d' := by
    intro p hp
    rw [hd', Dict.leaves_map, List.mem_map] at hp
    obtain ⟨q, hq, rfl⟩ := hp
    exact hok q ((mem_leaves_sortKeys _ _).mp hq)
  have hu := ModelState.update_ok s { params := some d' } hp
  have : psoFake s = .ok ⟨s.kernel, s.meanFn, d'.sortKeys, s.opts.map (fun kv => (kv.1, kv.2.norm))⟩ := by
    simp only [psoFake, h1, bind, Except.bind]; exact hu
  refine ⟨_, this, rfl, rfl, ?_, ?_, ?_, ?_⟩
  · intro k
    simp only [assocGet_map, Option.map_map]
    congr 1
    funext x
    exact norm_idem x
  · simp only [hss]; exact hp
  · simp only [hss]; exact hst
  · simp only [Dict.treeLeaves, hss]
    rw [hd', Dict.leaves_map]

theorem psoMinimize_eq (s : ModelState K M C) (search : (List ℝ → Except Err ℝ) → ℕ → List ℝ × FVal)
    (lossFn : ModelState K M C → Except Err ℝ) (rep : ℕ) (fake : ModelState K M C)
    (hf : psoFake s = .ok fake) :
    psoMinimize search lossFn rep s =
      (match psoLoop (search (fun xt => proposeOn fake fake xt >>= lossFn)) rep 0 none with
      | none => .error .nameError
      | some best => do
        let fake' ← proposeOn fake fake best.1
        let leaves ← copyValues s.params.treeLeaves fake'.params.treeLeaves
        match s.params.treeUnflatten leaves with
        | none => .error .valueError
        | some optim => (s.update { params := some optim }).1) := by
  have hobj : (fun xt => (do
      let params ← unravelForward fake.params xt
      let ustate ← (fake.update { params := some params }).1
      lossFn ustate)) = (fun xt => proposeOn fake fake xt >>= lossFn) := by
    funext xt
    simp only [proposeOn, bind, Except.bind]
    cases unravelForward fake.params xt <;> rfl
  unfold psoMinimize
  unfold psoFake at hf
  rcases h1 : s.params.sortKeys.mapE (fun p => (p.update { bijector := some .identity }).1) with e | d
  · rw [h1] at hf; cases hf
  rw [h1] at hf
  replace hf : (s.update { params := some d }).1 = .ok fake := hf
  simp only [bind, Except.bind] at hobj ⊢
  rw [h1]
  simp only
  rw [hf]
  simp only
  rw [hobj]
  generalize psoLoop _ rep 0 none = L
  rcases L with _ | best
  · rfl
  · simp only [proposeOn, bind, Except.bind]
    cases unravelForward fake.params best.1 <;> rfl

end
end GPX
