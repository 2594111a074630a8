import Verif.Lemmas.DictIndex
import Verif.Lemmas.Optim
import Verif.Model.StateGrad

namespace GPX
open Spec Props
noncomputable section
variable {K M C O : Type} {α : Type}

/-! ### states given by their leaves -/

theorem dict_ext (d d' : Dict α) (h : d'.map (fun _ => ()) = d.map (fun _ => ())) (hl : d'.leaves = d.leaves) : d' = d := by
  induction d generalizing d' with
  | nil => cases d' <;> simp_all [Dict.map]
  | leaf k a r ih =>
    cases d' with
    | nil => simp [Dict.map] at h
    | node k' s' r' => simp [Dict.map] at h
    | leaf k' a' r' =>
      simp only [Dict.map, Dict.leaf.injEq, true_and] at h
      simp only [Dict.leaves, List.cons.injEq] at hl
      rw [h.1, hl.1, ih r' h.2 hl.2]
  | node k s r ih1 ih2 =>
    cases d' with
    | nil => simp [Dict.map] at h
    | leaf k' a' r' => simp [Dict.map] at h
    | node k' s' r' =>
      simp only [Dict.map, Dict.node.injEq] at h
      simp only [Dict.leaves] at hl
      have hlen : s'.leaves.length = s.leaves.length := by
        rw [← Dict.leaves_map_length (fun _ => ()) s', h.2.1, Dict.leaves_map_length]
      obtain ⟨h1, h2⟩ := List.append_inj hl hlen
      rw [h.1, ih1 s' h.2.1 h1, ih2 r' h.2.2 h2]

/-- The state with the leaves `ps` in place of those of `s`, as the constructor builds it. -/
def withLeaves (s : ModelState K M C) (ps : List Param) : ModelState K M C :=
  ⟨s.kernel, s.meanFn, (s.params.treeUnflatten ps).getD .nil, s.opts.map fun kv => (kv.1, kv.2.norm)⟩

/-- The lists of leaves that fit the state. -/
def Fits (s : ModelState K M C) (ps : List Param) : Prop :=
  ps.length = s.params.treeLeaves.length ∧ ∀ p ∈ ps, ParamOK p

theorem unflatten_of (s : ModelState K M C) (ps : List Param) (d' : Dict Param)
    (h2 : d'.map (fun _ => ()) = s.params.sortKeys.map (fun _ => ())) (h3 : d'.leaves = ps) :
    s.params.treeUnflatten ps = some d' := by
  obtain ⟨d, g1, g2, g3⟩ := Dict.treeUnflatten_spec s.params ps (by
    rw [← h3, ← Dict.leaves_map_length (fun _ => ()) d', h2, Dict.leaves_map_length]; rfl)
  rw [g1, dict_ext d d' (by rw [h2, g2]) (by rw [h3, g3])]

theorem withLeaves_spec (s : ModelState K M C) (ps : List Param) (h : Fits s ps) :
    s.params.treeUnflatten ps = some (withLeaves s ps).params ∧
    (withLeaves s ps).params.map (fun _ => ()) = s.params.sortKeys.map (fun _ => ()) ∧
    (withLeaves s ps).params.leaves = ps ∧ (withLeaves s ps).params.sortKeys = (withLeaves s ps).params ∧
    (withLeaves s ps).params.treeLeaves = ps ∧ ParamsOK (withLeaves s ps).params := by
  obtain ⟨d, g1, g2, g3⟩ := Dict.treeUnflatten_spec s.params ps h.1
  have hd : (withLeaves s ps).params = d := by simp [withLeaves, g1]
  have hs : d.sortKeys = d := Dict.sortKeys_of_sorted _ (Dict.sorted_of_map_eq _ _ g2 (Dict.sorted_sortKeys _))
  rw [hd]
  exact ⟨g1, g2, g3, hs, by rw [Dict.treeLeaves, hs, g3], fun p hp => h.2 p (by rwa [g3] at hp)⟩

theorem fits_withLeaves (s : ModelState K M C) (ps qs : List Param) (hp : Fits s ps) :
    Fits (withLeaves s ps) qs ↔ Fits s qs := by
  rw [Fits, Fits, (withLeaves_spec s ps hp).2.2.2.2.1, hp.1]

theorem withLeaves_withLeaves (s : ModelState K M C) (ps qs : List Param) (hp : Fits s ps) (hq : Fits s qs) :
    withLeaves (withLeaves s ps) qs = withLeaves s qs := by
  obtain ⟨-, a2, -, a4, -, -⟩ := withLeaves_spec s ps hp
  obtain ⟨-, b2, b3, b4, -, -⟩ := withLeaves_spec (withLeaves s ps) qs ((fits_withLeaves s ps qs hp).mpr hq)
  obtain ⟨-, c2, c3, c4, -, -⟩ := withLeaves_spec s qs hq
  have hd : (withLeaves (withLeaves s ps) qs).params = (withLeaves s qs).params :=
    dict_ext _ _ (by rw [b2, a4, a2, c2]) (by rw [b3, c3])
  have ho : (withLeaves (withLeaves s ps) qs).opts = (withLeaves s qs).opts := by
    simp only [withLeaves, List.map_map]
    congr 1
    funext kv
    simp [norm_idem]
  rw [show withLeaves (withLeaves s ps) qs = ⟨s.kernel, s.meanFn, _, _⟩ from rfl,
    show withLeaves s qs = ⟨s.kernel, s.meanFn, _, _⟩ from rfl]
  congr 1

theorem fits_of (s : ModelState K M C) (values : List Arr)
    (h : List.Forall₂ (fun (p : Param) (v : Arr) => v.shape = p.prior.shape ∧ v.dtype = p.prior.dtype)
      s.params.treeLeaves values) :
    Fits s (List.zipWith (fun p v => (⟨v, p.trainable, p.bijector, p.prior⟩ : Param)) s.params.treeLeaves values) ∧
    ∃ d', rebuildParams s.params values = .ok d' ∧ ParamsOK d' ∧ d'.sortKeys = (withLeaves s
      (List.zipWith (fun p v => (⟨v, p.trainable, p.bijector, p.prior⟩ : Param)) s.params.treeLeaves values)).params := by
  obtain ⟨d', h1, h2, h3, h4⟩ := rebuildParams_ok s.params values h
  refine ⟨⟨by simp [h.length_eq], fun p hp => h4 p (by rw [h3]; exact hp)⟩, d', h1, h4, ?_⟩
  have hs : d'.sortKeys = d' := Dict.sortKeys_of_sorted _ (Dict.sorted_of_map_eq _ _ h2 (Dict.sorted_sortKeys _))
  rw [hs, withLeaves, unflatten_of s _ d' h2 h3]
  rfl

theorem treeUnflatten_withLeaves (s : ModelState K M C) (values : List Arr)
    (h : List.Forall₂ (fun (p : Param) (v : Arr) => v.shape = p.prior.shape ∧ v.dtype = p.prior.dtype)
      s.params.treeLeaves values) :
    ModelState.treeUnflatten s.treeFlatten.2 values = .ok (withLeaves s
      (List.zipWith (fun p v => (⟨v, p.trainable, p.bijector, p.prior⟩ : Param)) s.params.treeLeaves values)) := by
  obtain ⟨-, d', h1, h2, h3⟩ := fits_of s values h
  simp only [ModelState.treeUnflatten, ModelState.treeFlatten, h1, bind, Except.bind, ModelState.new_ok _ _ _ _ h2, h3]
  rfl

theorem update_withLeaves (s : ModelState K M C) (values : List Arr)
    (h : List.Forall₂ (fun (p : Param) (v : Arr) => v.shape = p.prior.shape ∧ v.dtype = p.prior.dtype)
      s.params.treeLeaves values) :
    (do let params ← rebuildParams s.params values
        (s.update { params := some params }).1) = .ok (withLeaves s
      (List.zipWith (fun p v => (⟨v, p.trainable, p.bijector, p.prior⟩ : Param)) s.params.treeLeaves values)) := by
  obtain ⟨-, d', h1, h2, h3⟩ := fits_of s values h
  simp only [h1, bind, Except.bind]
  rw [ModelState.update_ok s { params := some d' } h2]
  simp only [Option.getD_none, Option.getD_some, List.foldl_nil, h3]
  rfl

theorem treeLeaves_ok (s : ModelState K M C) (hok : ParamsOK s.params) : ∀ p ∈ s.params.treeLeaves, ParamOK p :=
  fun p hp => hok p ((mem_leaves_sortKeys _ _).mp hp)

theorem fits_self (s : ModelState K M C) (hok : ParamsOK s.params) : Fits s s.params.treeLeaves :=
  ⟨rfl, treeLeaves_ok s hok⟩

theorem zipWith_map_self (ps : List Param) (f : Param → Arr) :
    List.zipWith (fun p v => (⟨v, p.trainable, p.bijector, p.prior⟩ : Param)) ps (ps.map f) =
      ps.map fun p => { p with value := f p } := by
  induction ps with
  | nil => rfl
  | cons p ps ih => simp [ih]

/-- A parameter with its value mapped to the constrained range. -/
def fwd (p : Param) : Param := { p with value := p.value.map p.bijector.forward }

/-- A parameter with its value mapped to the unconstrained space. -/
def bwd (p : Param) : Param := { p with value := p.value.map p.bijector.backward }

theorem transform_forward (s : ModelState K M C) (hok : ParamsOK s.params) :
    s.transform "forward".toList = .ok (withLeaves s (s.params.treeLeaves.map fwd)) := by
  rw [ModelState.transform, if_pos rfl, update_withLeaves, zipWith_map_self]
  · rfl
  · rw [List.forall₂_map_right_iff, List.forall₂_same]
    exact fun p hp => treeLeaves_ok s hok p hp

theorem transform_backward (s : ModelState K M C) (hok : ParamsOK s.params) :
    s.transform "backward".toList = .ok (withLeaves s (s.params.treeLeaves.map bwd)) := by
  rw [ModelState.transform, if_neg (by decide), if_pos rfl, update_withLeaves, zipWith_map_self]
  · rfl
  · rw [List.forall₂_map_right_iff, List.forall₂_same]
    exact fun p hp => treeLeaves_ok s hok p hp

/-- A parameter with an array added to its value. -/
def addTo (p : Param) (u : Arr) : Param := { p with value := Arr.plus p.value u }

theorem zipWith_zipWith_self (ps : List Param) (us : List Arr) :
    List.zipWith (fun p v => (⟨v, p.trainable, p.bijector, p.prior⟩ : Param)) ps
      (List.zipWith (fun p u => Arr.plus p.value u) ps us) = List.zipWith addTo ps us := by
  induction ps generalizing us with
  | nil => rfl
  | cons p ps ih =>
    cases us with
    | nil => rfl
    | cons u us => simp only [List.zipWith_cons_cons, ih]; rfl

theorem applyUpdates_withLeaves (s : ModelState K M C) (us : List Arr) (hok : ParamsOK s.params)
    (hl : us.length = s.params.treeLeaves.length) :
    applyUpdates s us = .ok (withLeaves s (List.zipWith addTo s.params.treeLeaves us)) := by
  rw [applyUpdates, update_withLeaves, zipWith_zipWith_self]
  have h := treeLeaves_ok s hok
  generalize s.params.treeLeaves = ps at hl h
  induction ps generalizing us with
  | nil => simp
  | cons p ps ih =>
    cases us with
    | nil => simp at hl
    | cons u us => exact .cons (h p (by simp)) (ih us (by simpa using hl) fun q hq => h q (by simp [hq]))

/-! ### the vector of trainable numbers -/

/-- The numbers of the trainable leaves, one after the other. -/
def raw (ps : List Param) : List ℝ := (ps.filter (·.trainable)).flatMap (·.value.data)

theorem raw_cons (p : Param) (ps : List Param) :
    raw (p :: ps) = (if p.trainable then p.value.data else []) ++ raw ps := by
  by_cases ht : p.trainable = true <;> simp [raw, ht]

theorem raw_length (ps : List Param) : (raw ps).length = (sizes ps).sum := by
  induction ps with
  | nil => rfl
  | cons p ps ih =>
    rw [raw_cons, List.length_append, ih]
    by_cases ht : p.trainable = true <;> simp [sizes, ht]

theorem sizes_map_fwd (ps : List Param) : sizes (ps.map fwd) = sizes ps := by
  induction ps with
  | nil => rfl
  | cons p ps ih =>
    simp only [sizes, List.map_cons, List.filter_cons] at ih ⊢
    by_cases ht : p.trainable = true
    · simp only [fwd, ht, if_true, List.map_cons, Arr.map, List.length_map] at ih ⊢
      rw [ih]
    · simpa only [fwd, ht, Bool.false_eq_true, if_false] using ih

theorem keeps_sizes {ps qs : List Param} (h : List.Forall₂ Keeps ps qs) : sizes qs = sizes ps := by
  induction h with
  | nil => rfl
  | @cons p q ps qs hpq _ ih =>
    obtain ⟨h1, -, -, -, -, h6, -⟩ := hpq
    simp only [sizes, List.filter_cons] at ih ⊢
    by_cases ht : p.trainable = true
    · simp only [h1, ht, if_true, List.map_cons, h6, ih]
    · simpa only [h1, ht, Bool.false_eq_true, if_false] using ih

theorem mergePure_fwd {ps qs : List Param} (h : List.Forall₂ Keeps ps qs) :
    mergePure (ps.map fwd) ((qs.filter (·.trainable)).map (·.value.data)) = qs.map fwd := by
  induction h with
  | nil => rfl
  | @cons p q ps qs hpq _ ih =>
    obtain ⟨h1, h2, h3, h4, h5, h6, h7⟩ := hpq
    obtain ⟨⟨sh, dt, dat⟩, tr, bi, pr⟩ := p
    obtain ⟨⟨sh', dt', dat'⟩, tr', bi', pr'⟩ := q
    simp only at h1 h2 h3 h4 h5 h6 h7
    subst h1; subst h2; subst h3; subst h4; subst h5
    rcases tr' with _ | _
    · simp only [true_implies, Arr.mk.injEq, true_and] at h7
      subst h7
      simp only [List.map_cons, List.filter_cons, mergePure, fwd, Bool.false_eq_true, if_false]
      rw [← ih]
    · simp only [List.map_cons, List.filter_cons, mergePure, fwd, if_true]
      rw [← ih]
      rfl

/-- Constraining an unconstrained state that differs from `s` in trainable values is the proposal of these values on
the constrained `s`. -/
theorem forward_eq_propose (s : ModelState K M C) (hok : ParamsOK s.params) (qs : List Param)
    (hq : List.Forall₂ Keeps s.params.treeLeaves qs) (hqok : ∀ q ∈ qs, ParamOK q) :
    (withLeaves s qs).transform "forward".toList =
      proposeOn (withLeaves s (s.params.treeLeaves.map fwd)) (withLeaves s (s.params.treeLeaves.map fwd)) (raw qs) := by
  have fq : Fits s qs := ⟨hq.length_eq.symm, hqok⟩
  have fb : Fits s (s.params.treeLeaves.map fwd) := ⟨by simp, fun p hp => by
    obtain ⟨q, h1, rfl⟩ := List.mem_map.mp hp
    exact treeLeaves_ok s hok q h1⟩
  have ff : Fits s (qs.map fwd) := ⟨by simp [fq.1], fun p hp => by
    obtain ⟨q, h1, rfl⟩ := List.mem_map.mp hp
    exact hqok q h1⟩
  obtain ⟨-, -, -, -, a5, a6⟩ := withLeaves_spec s qs fq
  obtain ⟨-, b2, -, b4, b5, b6⟩ := withLeaves_spec s _ fb
  obtain ⟨-, c2, c3, c4, c5, c6⟩ := withLeaves_spec s _ ff
  rw [transform_forward _ a6, a5, withLeaves_withLeaves s _ _ fq ff]
  set b := withLeaves s (s.params.treeLeaves.map fwd) with hb
  have hsz : sizes b.params.treeLeaves = sizes qs := by rw [b5, sizes_map_fwd, keeps_sizes hq]
  obtain ⟨cs, d', h1, h2, h3, h4, h5⟩ := unravelForward_ok b.params (raw qs) b6 (by rw [raw_length, hsz])
  have hcs : cs = (qs.filter (·.trainable)).map (·.value.data) := by
    rw [List.eq_iff_flatten_eq]
    refine ⟨by rw [h1, raw, List.flatMap_def], ?_⟩
    rw [h2, hsz, sizes, List.map_map]
    rfl
  rw [hcs, b5, mergePure_fwd hq] at h5
  have hd : d' = (withLeaves s (qs.map fwd)).params := dict_ext _ _ (by rw [h4, b4, b2, c2]) (by rw [h5, c3])
  have hu := ModelState.update_ok b { params := some d' } (by rw [hd]; exact c6)
  simp only [proposeOn, h3, bind, Except.bind]
  rw [hu]
  simp only [Option.getD_none, Option.getD_some, List.foldl_nil]
  rw [hd, c4]
  congr 1
  rw [show withLeaves s (qs.map fwd) = ⟨s.kernel, s.meanFn, (withLeaves s (qs.map fwd)).params,
    s.opts.map fun kv => (kv.1, kv.2.norm)⟩ from rfl]
  congr 1
  simp only [hb, withLeaves, List.map_map]
  congr 1
  funext kv
  simp [norm_idem]

/-! ### the gradient -/

theorem modify_add_zero (l : List ℝ) (k : ℕ) : l.modify k (· + 0) = l := by
  have : (fun x : ℝ => x + 0) = id := by funext x; simp
  rw [this, List.modify_id]

theorem bump_zero (a : Arr) (k : ℕ) : a.bump k 0 = a := by
  simp only [Arr.bump, modify_add_zero]

/-- The leaves of the traced state. -/
def movedLeaves (ps : List Param) (i k : ℕ) (t : ℝ) : List Param :=
  ps.mapIdx fun j p => if j = i ∧ p.trainable = true then { p with value := p.value.bump k t } else p

theorem movedLeaves_cons_zero (p : Param) (ps : List Param) (k : ℕ) (t : ℝ) :
    movedLeaves (p :: ps) 0 k t = (if p.trainable = true then { p with value := p.value.bump k t } else p) :: ps := by
  simp only [movedLeaves, List.mapIdx_cons, true_and, Nat.add_eq_zero_iff, one_ne_zero, and_false, false_and, if_false]
  congr 1
  exact List.ext_getElem? fun n => by simp

theorem movedLeaves_cons_succ (p : Param) (ps : List Param) (i k : ℕ) (t : ℝ) :
    movedLeaves (p :: ps) (i + 1) k t = p :: movedLeaves ps i k t := by
  simp [movedLeaves, List.mapIdx_cons]

theorem traced_leaves (ps : List Param) (i k : ℕ) (t : ℝ) :
    List.zipWith (fun p v => (⟨v, p.trainable, p.bijector, p.prior⟩ : Param)) ps
      (List.zipWith (fun (p : Param) c => if p.trainable then c t else stopGradient c t) ps
        ((ps.map (·.value)).mapIdx fun j a t => if j = i then a.bump k t else a)) = movedLeaves ps i k t := by
  apply List.ext_getElem?
  intro n
  simp only [movedLeaves, List.getElem?_zipWith, List.getElem?_mapIdx, List.getElem?_map]
  rcases ps[n]? with _ | p
  · rfl
  · simp only [Option.map_some]
    by_cases hn : n = i
    · by_cases ht : p.trainable = true
      · simp [hn, ht]
      · have ht' : p.trainable = false := by simpa using ht
        simp [hn, ht', stopGradient, bump_zero, Option.map_some]
        obtain ⟨a, b, c, d⟩ := p
        simp only at ht'
        rw [ht']
    · simp [hn, stopGradient]

theorem traced_eq (s : ModelState K M C) (hok : ParamsOK s.params) (i k : ℕ) (t : ℝ) :
    s.traced (s.children i k) t = .ok (withLeaves s (movedLeaves s.params.treeLeaves i k t)) := by
  rw [ModelState.traced, treeUnflatten_withLeaves]
  · simp only [ModelState.children, ModelState.treeFlatten]
    rw [traced_leaves]
  · have h := treeLeaves_ok s hok
    simp only [ModelState.children, ModelState.treeFlatten]
    rw [List.forall₂_iff_get]
    refine ⟨by simp, fun n h1 h2 => ?_⟩
    simp only [List.get_eq_getElem, List.getElem_zipWith, List.getElem_mapIdx, List.getElem_map, stopGradient]
    have hp := h _ (List.getElem_mem h1)
    split_ifs <;> exact hp

theorem movedLeaves_keeps (ps : List Param) (i k : ℕ) (t : ℝ) : List.Forall₂ Keeps ps (movedLeaves ps i k t) := by
  rw [List.forall₂_iff_get]
  refine ⟨by simp [movedLeaves], fun n h1 h2 => ?_⟩
  simp only [movedLeaves, List.get_eq_getElem, List.getElem_mapIdx]
  split_ifs with h
  · exact ⟨rfl, rfl, rfl, rfl, rfl, by simp [Arr.bump], fun ht => absurd h.2 (by simp [ht])⟩
  · exact ⟨rfl, rfl, rfl, rfl, rfl, rfl, fun _ => rfl⟩

theorem movedLeaves_ok (ps : List Param) (h : ∀ p ∈ ps, ParamOK p) (i k : ℕ) (t : ℝ) :
    ∀ p ∈ movedLeaves ps i k t, ParamOK p := by
  intro p hp
  simp only [movedLeaves, List.mem_mapIdx] at hp
  obtain ⟨j, hj, rfl⟩ := hp
  have hq := h _ (List.getElem_mem hj)
  split_ifs <;> exact hq

theorem movedLeaves_frozen (ps : List Param) (i k : ℕ) (t : ℝ) (p : Param) (hp : ps[i]? = some p)
    (ht : p.trainable = false) : movedLeaves ps i k t = ps := by
  apply List.ext_getElem?
  intro n
  simp only [movedLeaves, List.getElem?_mapIdx]
  rcases hn : ps[n]? with _ | q
  · rfl
  · simp only [Option.map_some]
    rw [if_neg]
    rintro ⟨rfl, h⟩
    rw [hp] at hn
    cases hn
    simp [ht] at h

theorem offset_zero (ps : List Param) : offset ps 0 = 0 := by simp [offset, sizes]

theorem offset_succ (p : Param) (ps : List Param) (i : ℕ) :
    offset (p :: ps) (i + 1) = (if p.trainable then p.value.data.length else 0) + offset ps i := by
  by_cases ht : p.trainable = true <;> simp [offset, sizes, ht]

theorem modify_append_left (l l' : List ℝ) (k : ℕ) (hk : k < l.length) (f : ℝ → ℝ) :
    (l ++ l').modify k f = l.modify k f ++ l' := by
  induction l generalizing k with
  | nil => simp at hk
  | cons x l ih =>
    cases k with
    | zero => rfl
    | succ k => simp only [List.cons_append, List.modify_succ_cons, ih k (by simpa using hk)]

theorem modify_append_right (l l' : List ℝ) (k : ℕ) (f : ℝ → ℝ) :
    (l ++ l').modify (l.length + k) f = l ++ l'.modify k f := by
  induction l with
  | nil => simp
  | cons x l ih =>
    rw [List.length_cons, show l.length + 1 + k = (l.length + k) + 1 by omega]
    simp only [List.cons_append, List.modify_succ_cons, ih]

/-- Moving one entry of a trainable leaf moves one coordinate of the vector. -/
theorem raw_moved (ps : List Param) (i k : ℕ) (t : ℝ) (p : Param) (hp : ps[i]? = some p) (ht : p.trainable = true)
    (hk : k < p.value.data.length) : raw (movedLeaves ps i k t) = (raw ps).modify (offset ps i + k) (· + t) := by
  induction ps generalizing i with
  | nil => simp at hp
  | cons q ps ih =>
    cases i with
    | zero =>
      simp only [List.getElem?_cons_zero, Option.some.injEq] at hp
      subst hp
      rw [movedLeaves_cons_zero, if_pos ht, raw_cons, raw_cons, offset_zero]
      simp only [ht, if_true, Arr.bump, zero_add]
      rw [modify_append_left _ _ _ hk]
    | succ i =>
      simp only [List.getElem?_cons_succ] at hp
      rw [movedLeaves_cons_succ, raw_cons, raw_cons, ih i hp, offset_succ]
      by_cases hq : q.trainable = true
      · simp only [hq, if_true]
        rw [add_assoc, modify_append_right]
      · simp [hq]

end
end GPX

namespace GPX
open Spec Props
noncomputable section
variable {K M C O : Type} {α : Type}

theorem stateGrad_eq (loss : ModelState K M C → Except Err ℝ) (s : ModelState K M C) (hok : ParamsOK s.params) :
    stateGrad loss s = s.params.treeLeaves.mapIdx fun i p => ⟨p.value.shape, p.value.dtype,
      (List.range p.value.data.length).map fun k =>
        deriv (fun t => numOf (loss (withLeaves s (movedLeaves s.params.treeLeaves i k t)))) 0⟩ := by
  rw [stateGrad]
  apply List.ext_getElem?
  intro n
  simp only [ModelState.treeFlatten, List.getElem?_mapIdx, List.getElem?_map, Option.map_map]
  congr 1
  funext p
  simp only [Function.comp, traced_eq s hok, bind, Except.bind]

/-- What a path leads to in a state rebuilt with other leaves. -/
theorem lookup_withLeaves (s : ModelState K M C) (hok : ParamsOK s.params) (ps : List Param) (h : Fits s ps)
    (path : List Key) (i : ℕ) (hi : s.params.sortKeys.idx path = some i) :
    lookup path (withLeaves s ps).params = ps[i]?.map .inl := by
  obtain ⟨-, a2, a3, -⟩ := withLeaves_spec s ps h
  have hx : (withLeaves s ps).params.idx path = some i := by
    rw [← Dict.idx_map (fun _ => ()), a2, Dict.idx_map, hi]
  have hlt := Dict.idx_lt _ _ _ hx
  rw [a3] at hlt
  rw [List.getElem?_eq_getElem hlt]
  exact (Dict.lookup_idx _ _ _).mpr ⟨i, hx, by rw [a3, List.getElem?_eq_getElem hlt]⟩

theorem lookup_withLeaves_other (s : ModelState K M C) (hok : ParamsOK s.params) (ps : List Param) (h : Fits s ps)
    (path : List Key) (hi : s.params.sortKeys.idx path = none) :
    lookup path (withLeaves s ps).params = lookup path s.params := by
  obtain ⟨-, a2, a3, a4, -⟩ := withLeaves_spec s ps h
  have hall : AtEveryPath (fun _ _ => True) s.params (withLeaves s ps).params := by
    refine atEveryPath_of_treeLeaves _ _ (by rw [a4, a2]) ?_
    rw [Dict.treeLeaves, Dict.treeLeaves, a4, a3, List.forall₂_iff_get]
    exact ⟨by rw [h.1]; rfl, fun _ _ _ => trivial⟩
  have hp := hall path
  rw [← lookup_sortKeys path s.params] at hp ⊢
  rcases h1 : lookup path s.params.sortKeys with _ | p | u <;> rcases h2 : lookup path (withLeaves s ps).params with _ | q | w <;>
    simp_all
  · obtain ⟨j, hj, -⟩ := (Dict.lookup_idx _ _ _).mp h1
    rw [hi] at hj
    cases hj

/-! ### entrywise optimisers -/

/-- The memory of an entrywise optimiser that has seen no gradient for frozen parameters. -/
def Asleep {σ : Type} (e : EntryRule σ) (ps : List Param) (m : List (List σ)) : Prop :=
  List.Forall₂ (fun (p : Param) l => l.length = p.value.data.length ∧ (p.trainable = false → ∀ x ∈ l, x = e.init)) ps m

theorem goodUpdates_length {s : ModelState K M C} {us : List Arr} (h : GoodUpdates s us) :
    us.length = s.params.treeLeaves.length := (List.Forall₂.length_eq h).symm

theorem entryRule_step {σ : Type} (e : EntryRule σ) (he : ∀ t, e.step t e.init 0 = (0, e.init)) (t : ℕ) (ps : List Param)
    (g : List Arr) (m : List (List σ))
    (hg : List.Forall₂ (fun (p : Param) (u : Arr) => u.data.length = p.value.data.length ∧
      (p.trainable = false → ∀ x ∈ u.data, x = 0)) ps g) (hm : Asleep e ps m) :
    List.Forall₂ (fun (p : Param) (u : Arr) => u.data.length = p.value.data.length ∧
      (p.trainable = false → ∀ x ∈ u.data, x = 0)) ps
      (List.zipWith (fun (a : Arr) m => { a with data := List.zipWith (fun x s => (e.step t s x).1) a.data m }) g m) ∧
    Asleep e ps (List.zipWith (fun (a : Arr) m => List.zipWith (fun x s => (e.step t s x).2) a.data m) g m) := by
  unfold Asleep at hm ⊢
  induction hg generalizing m with
  | nil => cases hm; exact ⟨.nil, .nil⟩
  | @cons p u ps us hpu _ ih =>
    cases hm with
    | @cons _ l _ ls hl hls =>
      obtain ⟨i1, i2⟩ := ih ls hls
      refine ⟨.cons ⟨by simp [hpu.1, hl.1], fun ht x hx => ?_⟩ i1, .cons ⟨by simp [hpu.1, hl.1], fun ht x hx => ?_⟩ i2⟩
      · simp only [List.mem_iff_getElem, List.getElem_zipWith, List.length_zipWith] at hx
        obtain ⟨n, hn, rfl⟩ := hx
        rw [hpu.2 ht _ (List.getElem_mem _), hl.2 ht _ (List.getElem_mem _), he]
      · simp only [List.mem_iff_getElem, List.getElem_zipWith, List.length_zipWith] at hx
        obtain ⟨n, hn, rfl⟩ := hx
        rw [hpu.2 ht _ (List.getElem_mem _), hl.2 ht _ (List.getElem_mem _), he]

theorem goodGrad (loss : ModelState K M C → Except Err ℝ) (s : ModelState K M C) (hok : ParamsOK s.params) :
    GoodUpdates s (stateGrad loss s) := by
  rw [GoodUpdates, stateGrad_eq loss s hok, List.forall₂_iff_get]
  refine ⟨by simp, fun n h1 h2 => ⟨by simp, fun ht x hx => ?_⟩⟩
  simp only [List.get_eq_getElem, List.getElem_mapIdx, List.mem_map] at hx ht
  obtain ⟨k, -, rfl⟩ := hx
  simp only [movedLeaves_frozen _ _ k _ _ (List.getElem?_eq_getElem h1) ht, deriv_const]

theorem entryRule_run {σ : Type} (e : EntryRule σ) (he : ∀ t, e.step t e.init 0 = (0, e.init))
    (loss : ModelState K M C → Except Err ℝ) (s : ModelState K M C) (o : ℕ × List (List σ))
    (h : InRun ((e.transform (K := K) (M := M) (C := C)).onLoss loss) s o) :
    ParamsOK s.params ∧ Asleep e s.params.treeLeaves o.2 := by
  induction h with
  | start s hok =>
    refine ⟨hok, ?_⟩
    simp only [Asleep, GradTransform.onLoss, EntryRule.transform, ModelState.treeFlatten, List.map_map]
    rw [List.forall₂_map_right_iff, List.forall₂_same]
    intro p _
    refine ⟨by simp, fun _ x hx => ?_⟩
    simp only [Function.comp, List.mem_map] at hx
    obtain ⟨_, _, rfl⟩ := hx
    rfl
  | step s s' o _ hu ih =>
    obtain ⟨hok, hm⟩ := ih
    obtain ⟨h1, h2⟩ := entryRule_step e he (o.1 + 1) _ _ _ (goodGrad loss s hok) hm
    obtain ⟨k1, k2, -⟩ := applyUpdates_keeps s s' _ hok h1 hu
    refine ⟨k2, ?_⟩
    have h3 : Asleep e s.params.treeLeaves (((e.transform (K := K) (M := M) (C := C)).onLoss loss).update s o).2.2 := h2
    unfold Asleep at h3 ⊢
    rw [List.forall₂_iff_get] at h3 k1 ⊢
    refine ⟨by rw [← k1.1, h3.1], fun n g1 g2 => ?_⟩
    obtain ⟨a1, -, -, -, -, a6, -⟩ := k1.2 n (by rw [k1.1]; exact g1) g1
    obtain ⟨b1, b2⟩ := h3.2 n (by rw [k1.1]; exact g1) g2
    exact ⟨by rw [b1, a6], fun ht => b2 (by rw [← a1]; exact ht)⟩

theorem entryRule_quiet {σ : Type} (e : EntryRule σ) (he : ∀ t, e.step t e.init 0 = (0, e.init))
    (loss : ModelState K M C → Except Err ℝ) : Quiet ((e.transform (K := K) (M := M) (C := C)).onLoss loss) := by
  intro s o h
  obtain ⟨hok, hm⟩ := entryRule_run e he loss s o h
  exact (entryRule_step e he (o.1 + 1) _ _ _ (goodGrad loss s hok) hm).1

end
end GPX
