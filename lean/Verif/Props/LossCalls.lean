import Verif.Spec.LossCalls

/-!
# C84: the fitting methods can evaluate their loss; C85: `loss_kwargs` belongs to the caller
-/

namespace GPX.Props
open GPX GPX.Spec

variable {V α : Type}

theorem bind_ok {f : Sig} {npos : ℕ} {kw : List Key} : f.bind npos kw = .ok () ↔ Accepts f npos kw := by
  unfold Sig.bind
  constructor
  · intro h
    split_ifs at h with h1 h2 h3 h4
    refine ⟨by omega, ?_, ?_, ?_⟩
    · intro k hk p hp he
      exact h2 (List.any_eq_true.2 ⟨k, hk, List.any_eq_true.2 ⟨p, hp, by simpa using he⟩⟩)
    · intro k hk
      by_contra hc
      refine h3 (List.any_eq_true.2 ⟨k, hk, ?_⟩)
      rw [Bool.not_eq_true', List.any_eq_false]
      intro p hp he
      exact hc ⟨p, hp, by simpa using he⟩
    · intro p hp h0
      by_contra hc
      refine h4 (List.any_eq_true.2 ⟨p, hp, ?_⟩)
      rw [h0, Bool.not_false, Bool.true_and, Bool.not_eq_true', List.any_eq_false]
      intro k hk he
      exact hc ((by simpa using he : k = p.1) ▸ hk)
  · rintro ⟨h1, h2, h3, h4⟩
    rw [if_neg (by omega), if_neg, if_neg, if_neg]
    · intro h
      obtain ⟨p, hp, he⟩ := List.any_eq_true.1 h
      simp only [Bool.and_eq_true, Bool.not_eq_true', List.any_eq_false] at he
      exact he.2 p.1 (h4 p hp he.1) (by simp)
    · intro h
      obtain ⟨k, hk, he⟩ := List.any_eq_true.1 h
      rw [Bool.not_eq_true', List.any_eq_false] at he
      obtain ⟨p, hp, e⟩ := h3 k hk
      exact he p hp (by simpa using e)
    · intro h
      obtain ⟨k, hk, he⟩ := List.any_eq_true.1 h
      obtain ⟨p, hp, e⟩ := List.any_eq_true.1 he
      exact h2 k hk p hp (by simpa using e)

theorem bind_error {f : Sig} {npos : ℕ} {kw : List Key} (h : ¬ Accepts f npos kw) :
    f.bind npos kw = .error .typeError := by
  have hn : f.bind npos kw ≠ .ok () := fun e => h (bind_ok.1 e)
  revert hn
  unfold Sig.bind
  split_ifs <;> simp

theorem mem_assocSet {k k' : Key} {v : V} {l : List (Key × V)} :
    k' ∈ (assocSet k v l).map (fun e => e.1) ↔ k' = k ∨ k' ∈ l.map (fun e => e.1) := by
  induction l with
  | nil => simp [assocSet]
  | cons a l ih =>
    obtain ⟨a, b⟩ := a
    unfold assocSet
    split_ifs with h
    · subst h; simp
    · simp only [List.map_cons, List.mem_cons, ih]; tauto

/-- The names bound by `fit`, `fit_derivs` and `GPR_TD.fit`. -/
theorem mem_fitKw {k : Key} {kw : Option (List (Key × V))} {it np kp : V} :
    k ∈ (fitLossKwargs kw it np kp).map (fun e => e.1) ↔
      k = "key_precond".toList ∨ k = "n_pivots".toList ∨ k = "iterative".toList ∨
        k ∈ (kw.getD []).map (fun e => e.1) := by
  simp only [fitLossKwargs, mem_assocSet]

/-- The names bound by a method: `fixed` ones and the caller's. -/
def FitMethod.fixed : FitMethod → List Key
  | .fit | .fitDerivs | .fitTD => ["key_precond".toList, "n_pivots".toList, "iterative".toList]
  | .fitNlopt => ["iterative".toList]
  | .fitOl => []

theorem mem_lossKw {m : FitMethod} {k : Key} {kw : Option (List (Key × V))} {it np kp : V}
    (h : k ∈ (m.lossKw kw it np kp).map (fun e => e.1)) : k ∈ FitMethod.fixed m ∨ k ∈ names kw := by
  cases m <;> simp only [FitMethod.lossKw, mem_fitKw, nloptLossKwargs, mem_assocSet, FitMethod.fixed, names,
    List.mem_cons, List.not_mem_nil, or_false, List.map_nil] at h ⊢ <;> tauto

theorem fixed_mem {m : FitMethod} {k : Key} (kw : Option (List (Key × V))) (it np kp : V) (h : k ∈ FitMethod.fixed m) :
    k ∈ (m.lossKw kw it np kp).map (fun e => e.1) := by
  cases m <;> simp only [FitMethod.lossKw, mem_fitKw, nloptLossKwargs, mem_assocSet, FitMethod.fixed,
    List.mem_cons, List.not_mem_nil, or_false] at h ⊢ <;> tauto

theorem callPartial_ok {loss : Sig} {kw : List (Key × V)} {more : List Key} {npos : ℕ}
    (h : Accepts loss npos (kw.map (fun e => e.1) ++ more)) (body : Except Err α) :
    callPartial loss kw more npos body = body := by
  unfold callPartial
  rw [bind_ok.2 h]

theorem callPartial_error {loss : Sig} {kw : List (Key × V)} {more : List Key} {npos : ℕ}
    (h : ¬ Accepts loss npos (kw.map (fun e => e.1) ++ more)) (body : Except Err α) :
    callPartial loss kw more npos body = .error .typeError := by
  unfold callPartial
  rw [bind_error h]

/-- What has to be checked for a method and a loss: a finite condition. -/
def Fits (m : FitMethod) (loss : Sig) : Prop :=
  3 ≤ loss.params.length ∧
  (∀ k ∈ FitMethod.fixed m ++ m.dataKw ++ optionalNames loss, ∀ p ∈ loss.params.take 3, p.1 ≠ k) ∧
  (∀ k ∈ "state".toList :: "x".toList :: "y".toList :: FitMethod.fixed m ++ m.dataKw, ∃ p ∈ loss.params, p.1 = k) ∧
  (∀ p ∈ loss.params.drop 3, p.2 = false → p.1 ∈ m.dataKw) ∧
  (∀ p ∈ loss.params, p.2 = false → p.1 ∈ "state".toList :: "x".toList :: "y".toList :: m.dataKw)

instance (m : FitMethod) (loss : Sig) : Decidable (Fits m loss) := by unfold Fits; infer_instance

theorem optional_known {f : Sig} {k : Key} (h : k ∈ optionalNames f) : ∃ p ∈ f.params, p.1 = k := by
  simp only [optionalNames, List.mem_map, List.mem_filter] at h
  obtain ⟨p, ⟨hp, _⟩, e⟩ := h
  exact ⟨p, hp, e⟩

theorem calls_of_fits {m : FitMethod} {loss : Sig} (h : Fits m loss) (kw : Option (List (Key × V)))
    (hk : ∀ k ∈ names kw, k ∈ optionalNames loss) (it np kp : V) (body : Except Err α) :
    m.trainCall loss kw it np kp body = body ∧ m.finalCall loss kw it np kp body = body := by
  obtain ⟨h1, h2, h3, h4, h5⟩ := h
  constructor
  · apply callPartial_ok
    refine ⟨h1, fun k hmem => ?_, fun k hmem => ?_, fun p hp h0 => ?_⟩
    · rcases List.mem_append.1 hmem with hmem | hmem
      · rcases mem_lossKw hmem with hf | hf
        · exact h2 k (by simp [hf])
        · exact h2 k (by simp [hk k hf])
      · exact h2 k (by simp [hmem])
    · rcases List.mem_append.1 hmem with hmem | hmem
      · rcases mem_lossKw hmem with hf | hf
        · exact h3 k (by simp [hf])
        · exact optional_known (hk k hf)
      · exact h3 k (by simp [hmem])
    · exact List.mem_append_right _ (h4 p hp h0)
  · apply callPartial_ok
    refine ⟨Nat.zero_le _, fun k hmem p hp => by simp at hp, fun k hmem => ?_, fun p hp h0 => ?_⟩
    · rcases List.mem_append.1 hmem with hmem | hmem
      · rcases mem_lossKw hmem with hf | hf
        · exact h3 k (by simp [hf])
        · exact optional_known (hk k hf)
      · exact h3 k (by simp only [List.cons_append, List.mem_cons, List.mem_append] at hmem ⊢; tauto)
    · exact List.mem_append_right _ (h5 p (by simpa using hp) h0)

/-! ## C84 -/

/-- **C84**, the full claim: with its default loss, each fitting method of each class can evaluate the loss, during
and after the minimisation, whatever `loss_kwargs` among the optional arguments of the loss is given. -/
def C84_full : Prop :=
  ∀ (cls : GPClass), ∀ m ∈ cls.methods, ∀ (kw : Option (List (Key × ℝ))),
    (∀ k ∈ names kw, k ∈ optionalNames cls.defaultLoss) → ∀ (it np kp : ℝ) (body : Except Err ℝ),
      m.trainCall cls.defaultLoss kw it np kp body = body ∧ m.finalCall cls.defaultLoss kw it np kp body = body

/-- **C84**, what holds: `GPR.fit` and `GPR.fit_nlopt` with the default loss, `GPR.fit_derivs` with a derivative loss,
`GPR.fit_ol` with `mse_loss`, `fit_nlopt` of the sparse models and `GPR_TD.fit` with the default loss, evaluate the
loss with any `loss_kwargs` among its optional arguments. -/
theorem C84_partial (m : FitMethod) (loss : Sig)
    (h : (m, loss) ∈ [(FitMethod.fit, GPClass.gpr.defaultLoss), (.fitNlopt, GPClass.gpr.defaultLoss),
      (.fitDerivs, gprLossDerivs), (.fitOl, gprMseLoss), (.fitNlopt, GPClass.sgpr.defaultLoss),
      (.fitNlopt, GPClass.sgprRpchol.defaultLoss), (.fitTD, GPClass.gprTD.defaultLoss)])
    (kw : Option (List (Key × V))) (hk : ∀ k ∈ names kw, k ∈ optionalNames loss) (it np kp : V) (body : Except Err α) :
    m.trainCall loss kw it np kp body = body ∧ m.finalCall loss kw it np kp body = body := by
  refine calls_of_fits ?_ kw hk it np kp body
  simp only [List.mem_cons, List.not_mem_nil, or_false, Prod.mk.injEq] at h
  rcases h with ⟨rfl, rfl⟩ | ⟨rfl, rfl⟩ | ⟨rfl, rfl⟩ | ⟨rfl, rfl⟩ | ⟨rfl, rfl⟩ | ⟨rfl, rfl⟩ | ⟨rfl, rfl⟩ <;> decide

/-- **C84**: a keyword in `loss_kwargs` that the loss does not have is refused with TypeError (by the methods that
take `loss_kwargs`). -/
theorem C84_unknown (m : FitMethod) (hm : m ≠ .fitOl) (loss : Sig) (kw : Option (List (Key × V))) (k : Key)
    (hk : k ∈ names kw) (hu : ∀ p ∈ loss.params, p.1 ≠ k) (it np kp : V) (body : Except Err α) :
    m.trainCall loss kw it np kp body = .error .typeError := by
  apply callPartial_error
  intro h
  obtain ⟨p, hp, e⟩ := h.known k (List.mem_append_left _ (by
    cases m <;> simp only [FitMethod.lossKw, mem_fitKw, nloptLossKwargs, mem_assocSet, names] at hk ⊢ <;> tauto))
  exact hu p hp e

theorem train_error {m : FitMethod} {loss : Sig} {k : Key} (hk : k ∈ FitMethod.fixed m ∨ k ∈ m.dataKw)
    (hu : ∀ p ∈ loss.params, p.1 ≠ k) (kw : Option (List (Key × V))) (it np kp : V) (body : Except Err α) :
    m.trainCall loss kw it np kp body = .error .typeError := by
  apply callPartial_error
  intro h
  obtain ⟨p, hp, e⟩ := h.known k (by
    rcases hk with hk | hk
    · exact List.mem_append_left _ (fixed_mem kw it np kp hk)
    · exact List.mem_append_right _ hk)
  exact hu p hp e

/-- **C84** fails: `fit` and `fit_derivs` of the sparse models cannot evaluate any of the losses of their module,
`fit_derivs` of GPR cannot evaluate its default loss (nor `mse_loss`), and `fit_ol` can evaluate neither the default
loss nor the derivative losses, whatever `loss_kwargs` is given: TypeError. -/
theorem C84_raises (cls : GPClass) (m : FitMethod) (loss : Sig)
    (h : (cls, m, loss) ∈ [(.sgpr, FitMethod.fit, sgprLoss), (.sgpr, .fit, sgprLossDerivs),
      (.sgpr, .fitDerivs, sgprLoss), (.sgpr, .fitDerivs, sgprLossDerivs), (.sgprRpchol, .fit, sgprLoss),
      (.sgprRpchol, .fit, sgprLossDerivs), (.sgprRpchol, .fitDerivs, sgprLoss),
      (.sgprRpchol, .fitDerivs, sgprLossDerivs), (.gpr, .fitDerivs, gprLoss), (.gpr, .fitDerivs, gprMseLoss),
      (.gpr, .fitOl, gprLoss), (.gpr, .fitOl, gprLossDerivs)])
    (kw : Option (List (Key × V))) (it np kp : V) (body : Except Err α) :
    m.trainCall loss kw it np kp body = .error .typeError := by
  simp only [List.mem_cons, List.not_mem_nil, or_false, Prod.mk.injEq] at h
  rcases h with ⟨rfl, rfl, rfl⟩ | ⟨rfl, rfl, rfl⟩ | ⟨rfl, rfl, rfl⟩ | ⟨rfl, rfl, rfl⟩ | ⟨rfl, rfl, rfl⟩ |
    ⟨rfl, rfl, rfl⟩ | ⟨rfl, rfl, rfl⟩ | ⟨rfl, rfl, rfl⟩ | ⟨rfl, rfl, rfl⟩ | ⟨rfl, rfl, rfl⟩ | ⟨rfl, rfl, rfl⟩ |
    ⟨rfl, rfl, rfl⟩
  iterate 8 exact train_error (k := "n_pivots".toList) (by decide) (by decide) kw it np kp body
  · exact train_error (k := "jacobian".toList) (by decide) (by decide) kw it np kp body
  · exact train_error (k := "iterative".toList) (by decide) (by decide) kw it np kp body
  · exact train_error (k := "y_derivs".toList) (by decide) (by decide) kw it np kp body
  · exact train_error (k := "y_derivs".toList) (by decide) (by decide) kw it np kp body

/-- **C84**, consequence: with such a loss the minimisation raises, for every solver that evaluates its objective at
the starting vector. -/
theorem C84_fit_raises {K M C O : Type} (cls : GPClass) (m : FitMethod) (loss : Sig)
    (h : (cls, m, loss) ∈ [(.sgpr, FitMethod.fit, sgprLoss), (.sgpr, .fit, sgprLossDerivs),
      (.sgpr, .fitDerivs, sgprLoss), (.sgpr, .fitDerivs, sgprLossDerivs), (.sgprRpchol, .fit, sgprLoss),
      (.sgprRpchol, .fit, sgprLossDerivs), (.sgprRpchol, .fitDerivs, sgprLoss),
      (.sgprRpchol, .fitDerivs, sgprLossDerivs), (.gpr, .fitDerivs, gprLoss), (.gpr, .fitDerivs, gprMseLoss),
      (.gpr, .fitOl, gprLoss), (.gpr, .fitOl, gprLossDerivs)])
    (solve : (List ℝ → Except Err ℝ) → List ℝ → Except Err (List ℝ × O))
    (hs : ∀ f x0 e, f x0 = .error e → solve f x0 = .error e)
    (kw : Option (List (Key × V))) (it np kp : V) (body : ModelState K M C → Except Err ℝ) (s : ModelState K M C) :
    ∃ e, scipyMinimize solve (fun s => m.trainCall loss kw it np kp (body s)) s = .error e := by
  have hl : ∀ s, m.trainCall loss kw it np kp (body s) = .error .typeError := fun s =>
    C84_raises cls m loss h kw it np kp (body s)
  unfold scipyMinimize
  simp only [hl]
  obtain ⟨e, he⟩ : ∃ e, (do
      let params ← unravelForward s.params (ravelBackward s.params)
      let _ ← (s.update { params := some params }).1
      .error .typeError : Except Err ℝ) = .error e := by
    rcases unravelForward s.params (ravelBackward s.params) with e | p
    · exact ⟨e, rfl⟩
    · rcases h2 : (s.update { params := some p }).1 with e | s'
      · exact ⟨e, by simp [bind, Except.bind, h2]⟩
      · exact ⟨.typeError, by simp [bind, Except.bind, h2]⟩
  have := hs (fun xt => do
      let params ← unravelForward s.params xt
      let _ ← (s.update { params := some params }).1
      .error .typeError) (ravelBackward s.params) e he
  exact ⟨e, by rw [this]; rfl⟩

theorem C84_false : ¬ C84_full := by
  intro h
  have := (h .sgpr .fit (by decide) none (by simp [names]) 0 0 0 (.ok 0)).1
  rw [show GPClass.sgpr.defaultLoss = sgprLoss from rfl, C84_raises .sgpr .fit sgprLoss (by simp)] at this
  cases this

/-- `GPR.fit(x, y, loss_kwargs={"num_evals": 5})` evaluates the loss. -/
example (body : Except Err ℝ) :
    FitMethod.fit.trainCall gprLoss (some [("num_evals".toList, (5 : ℝ))]) 0 0 0 body = body :=
  (C84_partial .fit gprLoss (List.mem_cons_self ..) (some [("num_evals".toList, (5 : ℝ))])
    (by decide) 0 0 0 body).1

/-- `GPR.fit(x, y, loss_kwargs={"steps": 5})` raises TypeError. -/
example (body : Except Err ℝ) :
    FitMethod.fit.trainCall gprLoss (some [("steps".toList, (5 : ℝ))]) 0 0 0 body = .error .typeError :=
  C84_unknown .fit (by decide) gprLoss _ "steps".toList (by decide) (by decide) 0 0 0 body

/-- A solver that evaluates its objective at the starting vector. -/
example : ∀ (f : List ℝ → Except Err ℝ) (x0 : List ℝ) (e : Err), f x0 = .error e →
    (do let v ← f x0; pure (x0, v) : Except Err (List ℝ × ℝ)) = .error e := by
  intro f x0 e h
  rw [h]; rfl

/-! ## C85 -/

/-- **C85**, the full claim: the dictionary `loss_kwargs` given to `fit`, `fit_derivs` or `fit_nlopt` is the same
after the call. -/
def C85_full : Prop :=
  ∀ (kw : List (Key × ℝ)) (it np kp : ℝ), fitLossKwargs (some kw) it np kp = kw ∧ nloptLossKwargs (some kw) it = kw

theorem assocGet_set (k k' : Key) (v : V) (l : List (Key × V)) :
    assocGet k' (assocSet k v l) = if k' = k then some v else assocGet k' l := by
  induction l with
  | nil => simp [assocSet, assocGet]
  | cons a l ih =>
    obtain ⟨a, b⟩ := a
    unfold assocSet
    split_ifs with h h' h'
    · subst h h'; simp [assocGet]
    · subst h; simp [assocGet, h']
    · subst h'
      rw [assocGet, if_neg h, ih, if_pos rfl]
    · rw [assocGet, assocGet, ih, if_neg h']

/-- **C85**, what holds: only the entries `iterative`, `n_pivots` and `key_precond` change, to the values of this
call; all others keep their value, none disappears. -/
theorem C85_partial (kw : List (Key × V)) (it np kp : V) (k : Key) :
    assocGet k (fitLossKwargs (some kw) it np kp) =
      (if k = "key_precond".toList then some kp else if k = "n_pivots".toList then some np
        else if k = "iterative".toList then some it else assocGet k kw) ∧
    assocGet k (nloptLossKwargs (some kw) it) = if k = "iterative".toList then some it else assocGet k kw := by
  simp only [fitLossKwargs, nloptLossKwargs, assocGet_set, Option.getD_some]
  exact ⟨trivial, trivial⟩

/-- **C85** fails with visible consequences: a dictionary with which `SGPR.fit_nlopt` can evaluate its loss no longer
works after it has been given to `GPR.fit` once. -/
theorem C85_leak (kw : List (Key × V)) (hk : ∀ k ∈ names (some kw), k ∈ optionalNames sgprLoss)
    (it np kp it' np' kp' : V) (body : Except Err α) :
    FitMethod.fitNlopt.trainCall sgprLoss (some kw) it' np' kp' body = body ∧
    FitMethod.fitNlopt.trainCall sgprLoss (some (fitLossKwargs (some kw) it np kp)) it' np' kp' body =
      .error .typeError :=
  ⟨(C84_partial .fitNlopt sgprLoss (by simp [GPClass.defaultLoss]) (some kw) hk it' np' kp' body).1,
    C84_unknown .fitNlopt (by decide) sgprLoss _ "n_pivots".toList (by
      show _ ∈ (fitLossKwargs (some kw) it np kp).map _
      rw [mem_fitKw]; simp) (by decide) it' np' kp' body⟩

theorem C85_false : ¬ C85_full := by
  intro h
  have := (h [] 0 0 0).1
  simp [fitLossKwargs, assocSet] at this

/-- The dictionary `{"num_evals": 5}`. -/
example (body : Except Err ℝ) : FitMethod.fitNlopt.trainCall sgprLoss
    (some (fitLossKwargs (some [("num_evals".toList, (5 : ℝ))]) 0 0 0)) 0 0 0 body = .error .typeError :=
  (C85_leak [("num_evals".toList, (5 : ℝ))] (by decide) 0 0 0 0 0 0 body).2

end GPX.Props
