import Verif.Lemmas.StateGrad
import Verif.Props.Unconstrained

/-!
# Training with gradients: what SciPy and Optax differentiate, and the first step of gradient descent
-/

namespace GPX
open GPX.Spec GPX.Props
noncomputable section
variable {K M C O : Type}

/-! ### lists as vectors -/

/-- A list as a vector. -/
def vec (N : ℕ) (l : List ℝ) : Fin N → ℝ := fun κ => l[κ.1]?.getD 0

theorem ofFn_vec (l : List ℝ) (N : ℕ) (h : l.length = N) : List.ofFn (vec N l) = l := by
  subst h
  apply List.ext_getElem (by simp)
  intro i h1 h2
  simp [vec, h2]

theorem vec_modify (l : List ℝ) (N : ℕ) (h : l.length = N) (c : ℕ) (hc : c < N) (t : ℝ) :
    vec N (l.modify c (· + t)) = moveCoord (vec N l) ⟨c, hc⟩ t := by
  funext j
  have hj : j.1 < l.length := h ▸ j.2
  by_cases hjc : j = ⟨c, hc⟩
  · subst hjc
    rw [moveCoord_self]
    simp [vec, hj]
  · rw [moveCoord_ne _ _ _ _ hjc]
    have : c ≠ j.1 := fun e => hjc (Fin.ext e.symm)
    simp [vec, this]

/-! ### the loss differentiated by `_step` is the objective of SciPy -/

theorem num_fwd (s : ModelState K M C) (hok : ParamsOK s.params) :
    (ravelBackward (withLeaves s (s.params.treeLeaves.map fwd)).params).length = (raw s.params.treeLeaves).length := by
  have fb : Fits s (s.params.treeLeaves.map fwd) := ⟨by simp, fun p hp => by
    obtain ⟨q, h1, rfl⟩ := List.mem_map.mp hp
    exact treeLeaves_ok s hok q h1⟩
  obtain ⟨-, -, -, -, b5, -⟩ := withLeaves_spec s _ fb
  rw [ravel_length, ← sizes_sum, b5, sizes_map_fwd, raw_length]

theorem boundedLoss_value {N : ℕ} (loss : ModelState K M C → Except Err ℝ) (s b : ModelState K M C) (hok : ParamsOK s.params)
    (hb : s.transform "forward".toList = .ok b) (hN : (ravelBackward b.params).length = N)
    (f : (Fin N → ℝ) → ℝ) (hf : ∀ u, ∃ r, scipyMinimize (evaluateAt (List.ofFn u)) loss b = .ok (r, f u))
    (qs : List Param) (hq : List.Forall₂ Keeps s.params.treeLeaves qs) (hqok : ∀ q ∈ qs, ParamOK q) :
    boundedLoss loss (withLeaves s qs) = .ok (f (vec N (raw qs))) := by
  rw [transform_forward s hok] at hb
  cases hb
  obtain ⟨r, hr⟩ := hf (vec N (raw qs))
  have hl : (raw qs).length = N := by
    rw [← hN, num_fwd s hok, raw_length, raw_length, keeps_sizes hq]
  rw [ofFn_vec _ _ hl, evaluateAt_eq] at hr
  rw [boundedLoss, forward_eq_propose s hok qs hq hqok, hr.1]
  exact hr.2

/-- The partial derivatives, by number. -/
def partials {N : ℕ} (f : (Fin N → ℝ) → ℝ) (w : Fin N → ℝ) (c : ℕ) : ℝ :=
  if h : c < N then fderiv ℝ f w (Pi.single ⟨c, h⟩ 1) else 0

/-- Arrays that move the trainable entries by the numbers `H`. -/
def steps (H : ℕ → ℝ) (ps : List Param) : List Arr :=
  ps.mapIdx fun i p => ⟨p.value.shape, p.value.dtype,
    (List.range p.value.data.length).map fun k => if p.trainable then H (offset ps i + k) else 0⟩

theorem grad_of_values {N : ℕ} (loss : ModelState K M C → Except Err ℝ) (s : ModelState K M C) (hok : ParamsOK s.params)
    (f : (Fin N → ℝ) → ℝ) (hl : (raw s.params.treeLeaves).length = N)
    (hval : ∀ qs, List.Forall₂ Keeps s.params.treeLeaves qs → (∀ q ∈ qs, ParamOK q) →
      loss (withLeaves s qs) = .ok (f (vec N (raw qs)))) (hd : Differentiable ℝ f) :
    stateGrad loss s = steps (partials f (vec N (raw s.params.treeLeaves))) s.params.treeLeaves := by
  rw [stateGrad_eq _ s hok, steps]
  apply List.ext_getElem (by simp)
  intro i h1 h2
  simp only [List.getElem_mapIdx]
  have hi : i < s.params.treeLeaves.length := by simpa using h1
  congr 1
  apply List.map_congr_left
  intro k hk
  rw [List.mem_range] at hk
  have e1 : ∀ t, numOf (loss (withLeaves s (movedLeaves s.params.treeLeaves i k t))) =
      f (vec N (raw (movedLeaves s.params.treeLeaves i k t))) := fun t => by
    rw [hval _ (movedLeaves_keeps _ _ _ _) (movedLeaves_ok _ (treeLeaves_ok s hok) _ _ _)]
    rfl
  simp only [e1]
  have hp : s.params.treeLeaves[i]? = some s.params.treeLeaves[i] := List.getElem?_eq_getElem hi
  by_cases ht : (s.params.treeLeaves[i]).trainable = true
  · rw [if_pos ht]
    simp only [raw_moved _ i k _ _ hp ht hk]
    generalize offset s.params.treeLeaves i + k = c
    by_cases hc : c < N
    · rw [partials, dif_pos hc]
      simp only [vec_modify _ N hl c hc]
      have h1 : HasFDerivAt f (fderiv ℝ f (vec N (raw s.params.treeLeaves)))
          (moveCoord (vec N (raw s.params.treeLeaves)) ⟨c, hc⟩ 0) := by
        rw [moveCoord_zero]
        exact (hd _).hasFDerivAt
      exact (h1.comp_hasDerivAt (0 : ℝ) (moveCoord_deriv _ _ 0)).deriv
    · rw [partials, dif_neg hc]
      have : ∀ t, (raw s.params.treeLeaves).modify c (· + t) = raw s.params.treeLeaves := fun t =>
        List.modify_eq_self (by omega)
      simp only [this, deriv_const]
  · rw [if_neg ht]
    simp only [movedLeaves_frozen _ i k _ _ hp (by simpa using ht), deriv_const]

/-! ### rules applied entry by entry -/

/-- The memory of the trainable entries. -/
def rawMem {σ : Type} : List Param → List (List σ) → List σ
  | p :: ps, l :: m => (if p.trainable then l else []) ++ rawMem ps m
  | _, _ => []

/-- What the rule adds to the values. -/
def ruleUpd {σ : Type} (e : EntryRule σ) (t : ℕ) (g : List Arr) (m : List (List σ)) : List Arr :=
  List.zipWith (fun (a : Arr) m => { a with data := List.zipWith (fun x s => (e.step t s x).1) a.data m }) g m

/-- The memory after a step. -/
def ruleMem {σ : Type} (e : EntryRule σ) (t : ℕ) (g : List Arr) (m : List (List σ)) : List (List σ) :=
  List.zipWith (fun (a : Arr) m => List.zipWith (fun x s => (e.step t s x).2) a.data m) g m

theorem steps_cons (H : ℕ → ℝ) (p : Param) (ps : List Param) :
    steps H (p :: ps) = ⟨p.value.shape, p.value.dtype,
          (List.range p.value.data.length).map fun k => if p.trainable then H k else 0⟩ ::
        steps (fun c => H ((if p.trainable then p.value.data.length else 0) + c)) ps := by
  simp only [steps, List.mapIdx_cons, offset_zero, zero_add, offset_succ, add_assoc]

theorem raw_rule {σ : Type} (e : EntryRule σ) (t : ℕ) (H : ℕ → ℝ) (ps : List Param) (m : List (List σ))
    (hm : List.Forall₂ (fun (p : Param) l => l.length = p.value.data.length) ps m) :
    raw (List.zipWith addTo ps (ruleUpd e t (steps H ps) m)) =
      (raw ps).mapIdx (fun c x => x + (e.step t ((rawMem ps m)[c]?.getD e.init) (H c)).1) := by
  induction hm generalizing H with
  | nil => rfl
  | @cons p l ps m hl _ ih =>
    have ih' := ih fun c => H ((if p.trainable then p.value.data.length else 0) + c)
    rw [ruleUpd] at ih'
    rw [steps_cons, ruleUpd, List.zipWith_cons_cons, List.zipWith_cons_cons, raw_cons, ih', raw_cons, List.mapIdx_append]
    by_cases ht : p.trainable = true
    · simp only [ht, if_true, rawMem]
      rw [if_pos (by simpa [addTo] using ht)]
      congr 1
      · apply List.ext_getElem
        · simp [addTo, Arr.plus, hl]
        · intro i h1 h2
          have hi : i < p.value.data.length := by simpa using h2
          simp [addTo, Arr.plus, List.getElem?_append_left (hl.symm ▸ hi), hl.symm ▸ hi]
      · congr 1
        funext i x
        rw [← hl, List.getElem?_append_right (by omega), Nat.add_sub_cancel, add_comm i]
    · simp [ht, addTo, rawMem]

theorem rawMem_rule {σ : Type} (e : EntryRule σ) (t : ℕ) (H : ℕ → ℝ) (ps : List Param) (m : List (List σ))
    (hm : List.Forall₂ (fun (p : Param) l => l.length = p.value.data.length) ps m) :
    rawMem ps (ruleMem e t (steps H ps) m) = (rawMem ps m).mapIdx (fun c s => (e.step t s (H c)).2) := by
  induction hm generalizing H with
  | nil => rfl
  | @cons p l ps m hl _ ih =>
    have ih' := ih fun c => H ((if p.trainable then p.value.data.length else 0) + c)
    rw [ruleMem] at ih'
    rw [steps_cons, ruleMem, List.zipWith_cons_cons, rawMem, ih', rawMem, List.mapIdx_append]
    by_cases ht : p.trainable = true
    · simp only [ht, if_true]
      congr 1
      · apply List.ext_getElem
        · simp [hl]
        · intro i h1 h2
          simp
      · congr 1
        funext i x
        rw [← hl, add_comm i]
    · simp [ht]

theorem rawMem_keeps {σ : Type} {ps qs : List Param} (h : List.Forall₂ Keeps ps qs) (m : List (List σ)) :
    rawMem qs m = rawMem ps m := by
  induction h generalizing m with
  | nil => cases m <;> rfl
  | @cons p q ps qs hpq _ ih =>
    cases m with
    | nil => rfl
    | cons l m => rw [rawMem, rawMem, ih, hpq.1]

theorem rawMem_length {σ : Type} (ps : List Param) (m : List (List σ))
    (hm : List.Forall₂ (fun (p : Param) l => l.length = p.value.data.length) ps m) :
    (rawMem ps m).length = (raw ps).length := by
  induction hm with
  | nil => rfl
  | @cons p l ps m hl _ ih =>
    rw [rawMem, raw_cons, List.length_append, List.length_append, ih]
    split_ifs <;> simp [hl]

theorem rawMem_init {σ : Type} (e : EntryRule σ) (ps : List Param) :
    ∀ x ∈ rawMem ps ((ps.map (·.value)).map fun a => a.data.map fun _ => e.init), x = e.init := by
  induction ps with
  | nil => intro x hx; simp [rawMem] at hx
  | cons p ps ih =>
    intro x hx
    simp only [List.map_cons, rawMem, List.mem_append] at hx
    rcases hx with hx | hx
    · split_ifs at hx
      · simp at hx; exact hx.2
      · simp at hx
    · exact ih x hx

theorem raw_bwd (ps : List Param) :
    raw (ps.map bwd) = (ps.filter (·.trainable)).flatMap fun p => p.value.data.map p.bijector.backward := by
  induction ps with
  | nil => rfl
  | cons p ps ih =>
    rw [List.map_cons, raw_cons, ih]
    by_cases ht : p.trainable = true
    · simp [ht, bwd, Arr.map]
    · simp [ht, bwd]

/-! ### runs do not fail -/

theorem optaxLoop_total {L : Type} (opt : Optimizer K M C O) (losses : ModelState K M C → Except Err L)
    (P : ModelState K M C → O → Prop)
    (hP : ∀ s o, P s o → (∃ l, losses s = .ok l) ∧
      ∃ s', applyUpdates s (opt.update s o).1 = .ok s' ∧ P s' (opt.update s o).2) (n : ℕ) :
    ∀ o s, P s o → ∃ sf of ls, optaxLoop opt losses n o s = .ok (sf, of, ls) ∧ P sf of := by
  induction n with
  | zero => exact fun o s h => ⟨s, o, [], rfl, h⟩
  | succ n ih =>
    intro o s h
    obtain ⟨⟨l, h1⟩, s', h2, h3⟩ := hP s o h
    obtain ⟨sf, of, ls, h4, h5⟩ := ih _ _ h3
    refine ⟨sf, of, l :: ls, ?_, h5⟩
    simp only [optaxLoop, optaxStep, h1, h2, bind, Except.bind, pure, Except.pure, h4]

/-! ### the trajectory -/

/-- The states of a run from `s`. -/
def Along {σ : Type} (e : EntryRule σ) (s : ModelState K M C) (t : ModelState K M C) (o : ℕ × List (List σ)) : Prop :=
  t = withLeaves s t.params.treeLeaves ∧ List.Forall₂ Keeps s.params.treeLeaves t.params.treeLeaves ∧
    ParamsOK t.params ∧ Asleep e t.params.treeLeaves o.2

theorem keeps_trans {ps qs rs : List Param} (h : List.Forall₂ Keeps ps qs) (h' : List.Forall₂ Keeps qs rs) :
    List.Forall₂ Keeps ps rs := by
  induction h generalizing rs with
  | nil => cases h'; exact .nil
  | @cons p q ps qs hpq _ ih =>
    cases h' with
    | @cons _ r _ rs hqr h2 =>
      refine .cons ?_ (ih h2)
      obtain ⟨a1, a2, a3, a4, a5, a6, a7⟩ := hpq
      obtain ⟨b1, b2, b3, b4, b5, b6, b7⟩ := hqr
      exact ⟨b1.trans a1, b2.trans a2, b3.trans a3, b4.trans a4, b5.trans a5, b6.trans a6,
        fun ht => (b7 (a1.trans ht)).trans (a7 ht)⟩

theorem asleep_lengths {σ : Type} {e : EntryRule σ} {ps : List Param} {m : List (List σ)} (h : Asleep e ps m) :
    List.Forall₂ (fun (p : Param) l => l.length = p.value.data.length) ps m := h.imp fun _ _ h => h.1

theorem along_step {σ : Type} (e : EntryRule σ) (he : ∀ t, e.step t e.init 0 = (0, e.init))
    (loss : ModelState K M C → Except Err ℝ) (s t : ModelState K M C) (o : ℕ × List (List σ)) (h : Along e s t o) :
    ∃ t', applyUpdates t (((e.transform (K := K) (M := M) (C := C)).onLoss loss).update t o).1 = .ok t' ∧
      Along e s t' (((e.transform (K := K) (M := M) (C := C)).onLoss loss).update t o).2 ∧
      t'.params.treeLeaves = List.zipWith addTo t.params.treeLeaves (ruleUpd e (o.1 + 1) (stateGrad loss t) o.2) := by
  obtain ⟨h1, h2, h3, h4⟩ := h
  have hstep := entryRule_step e he (o.1 + 1) _ _ _ (goodGrad loss t h3) h4
  have hgu : GoodUpdates t (((e.transform (K := K) (M := M) (C := C)).onLoss loss).update t o).1 := hstep.1
  have hl := goodUpdates_length hgu
  have happ := applyUpdates_withLeaves t _ h3 hl
  obtain ⟨k1, k2, -⟩ := applyUpdates_keeps t _ _ h3 hgu happ
  have hfit : Fits t (List.zipWith addTo t.params.treeLeaves
      (((e.transform (K := K) (M := M) (C := C)).onLoss loss).update t o).1) := by
    refine ⟨by simp [hl], fun p hp => ?_⟩
    rw [List.mem_iff_getElem] at hp
    obtain ⟨n, hn, rfl⟩ := hp
    simp only [List.getElem_zipWith]
    have hn' : n < t.params.treeLeaves.length := by
      rw [List.length_zipWith] at hn
      omega
    have := treeLeaves_ok t h3 _ (List.getElem_mem hn')
    exact this
  obtain ⟨-, -, -, -, a5, -⟩ := withLeaves_spec t _ hfit
  refine ⟨_, happ, ⟨?_, keeps_trans h2 k1, k2, ?_⟩, by rw [a5]; rfl⟩
  · rw [a5]
    have f1 : Fits s t.params.treeLeaves := ⟨h2.length_eq.symm, treeLeaves_ok t h3⟩
    have f2 : Fits s (List.zipWith addTo t.params.treeLeaves
      (((e.transform (K := K) (M := M) (C := C)).onLoss loss).update t o).1) :=
      ⟨by rw [hfit.1, f1.1], hfit.2⟩
    conv_lhs => rw [h1]
    have := withLeaves_withLeaves s _ _ f1 f2
    rw [← h1] at this ⊢
    exact this
  · have h5 := hstep.2
    rw [Asleep] at h5 ⊢
    have : List.Forall₂ (fun (p : Param) (l : List σ) => l.length = p.value.data.length ∧
        (p.trainable = false → ∀ x ∈ l, x = e.init)) t.params.treeLeaves
        (((e.transform (K := K) (M := M) (C := C)).onLoss loss).update t o).2.2 := h5
    clear h5
    revert this k1
    generalize (withLeaves t _).params.treeLeaves = qs
    generalize t.params.treeLeaves = ps
    generalize (((e.transform (K := K) (M := M) (C := C)).onLoss loss).update t o).2.2 = m
    intro k1 h5
    induction k1 generalizing m with
    | nil => cases h5; exact .nil
    | @cons p q ps qs hpq _ ih =>
      cases h5 with
      | @cons _ l _ m h6 h7 =>
        exact .cons ⟨by rw [h6.1, hpq.2.2.2.2.2.1], fun ht => h6.2 (hpq.1 ▸ ht)⟩ (ih m h7)

/-- A step of the run, seen on the trainable entries. -/
theorem along_vectors {σ : Type} {N : ℕ} (e : EntryRule σ) (loss : ModelState K M C → Except Err ℝ)
    (s b t t' : ModelState K M C) (o : ℕ × List (List σ)) (hok : ParamsOK s.params)
    (hb : s.transform "forward".toList = .ok b) (hN : (ravelBackward b.params).length = N)
    (f : (Fin N → ℝ) → ℝ) (hf : ∀ u, ∃ r, scipyMinimize (evaluateAt (List.ofFn u)) loss b = .ok (r, f u))
    (hd : Differentiable ℝ f) (h : Along e s t o) (h' : List.Forall₂ Keeps t.params.treeLeaves t'.params.treeLeaves)
    (ht' : t'.params.treeLeaves = List.zipWith addTo t.params.treeLeaves
      (ruleUpd e (o.1 + 1) (stateGrad (boundedLoss loss) t) o.2)) (κ : Fin N) :
    (raw t.params.treeLeaves).length = N ∧
    vec N (raw t'.params.treeLeaves) κ = vec N (raw t.params.treeLeaves) κ +
      (e.step (o.1 + 1) ((rawMem t.params.treeLeaves o.2)[κ.1]?.getD e.init)
        (fderiv ℝ f (vec N (raw t.params.treeLeaves)) (Pi.single κ 1))).1 ∧
    (rawMem t'.params.treeLeaves (ruleMem e (o.1 + 1) (stateGrad (boundedLoss loss) t) o.2))[κ.1]?.getD e.init =
      (e.step (o.1 + 1) ((rawMem t.params.treeLeaves o.2)[κ.1]?.getD e.init)
        (fderiv ℝ f (vec N (raw t.params.treeLeaves)) (Pi.single κ 1))).2 := by
  obtain ⟨h1, h2, h3, h4⟩ := h
  have hl : (raw t.params.treeLeaves).length = N := by
    rw [transform_forward s hok] at hb
    cases hb
    rw [← hN, num_fwd s hok, raw_length, raw_length, keeps_sizes h2]
  have hlm := rawMem_length _ _ (asleep_lengths h4)
  -- the loss at states near `t`
  have hg : stateGrad (boundedLoss loss) t = steps (partials f (vec N (raw t.params.treeLeaves))) t.params.treeLeaves := by
    have hft : t.transform "forward".toList = .ok (withLeaves t (t.params.treeLeaves.map fwd)) := transform_forward t h3
    have hprop : ∀ qs, List.Forall₂ Keeps t.params.treeLeaves qs → (∀ q ∈ qs, ParamOK q) →
        boundedLoss loss (withLeaves t qs) = .ok (f (vec N (raw qs))) := by
      intro qs hq hqok
      have f1 : Fits s t.params.treeLeaves := ⟨h2.length_eq.symm, treeLeaves_ok t h3⟩
      have f2 : Fits s qs := ⟨by rw [← hq.length_eq, f1.1], hqok⟩
      have e1 : withLeaves t qs = withLeaves s qs := by
        have := withLeaves_withLeaves s _ _ f1 f2
        rwa [← h1] at this
      rw [e1]
      exact boundedLoss_value loss s b hok hb hN f hf qs (keeps_trans h2 hq) hqok
    exact grad_of_values (boundedLoss loss) t h3 f hl hprop hd
  have hκ : κ.1 < (raw t.params.treeLeaves).length := hl ▸ κ.2
  have hκm : κ.1 < (rawMem t.params.treeLeaves o.2).length := hlm ▸ hκ
  refine ⟨hl, ?_, ?_⟩
  · rw [ht', hg]
    simp only [vec]
    rw [raw_rule e _ _ _ _ (asleep_lengths h4), List.getElem?_mapIdx, List.getElem?_eq_getElem hκ]
    simp [partials, vec]
  · rw [rawMem_keeps h', hg, rawMem_rule e _ _ _ _ (asleep_lengths h4), List.getElem?_mapIdx,
      List.getElem?_eq_getElem hκm]
    simp [partials, vec]

end
end GPX
