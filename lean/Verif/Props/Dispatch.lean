import Verif.Lemmas.Dispatch

/-!
# C134: every method of a model reaches the function of its class, with its arguments
-/

namespace GPX.Props
open GPX

variable {V : Type}

/-- The function of the class's module that a method is documented to compute. -/
def documented : GPMethod → String
  | .construct => "init"
  | .defaultParams => "default_params"
  | .samplePrior => "sample_prior"
  | .samplePosterior => "sample_posterior"
  | .samplePriorDerivs => "sample_prior_derivs"
  | .samplePosteriorDerivs => "sample_posterior_derivs"
  | .predict => "predict"
  | .predictDerivs => "predict_derivs"
  | .predictYDerivs => "predict_y_derivs"
  | .predictOl => "predict_ol"
  | .lml => "log_marginal_likelihood"
  | .lmlDerivs => "log_marginal_likelihood_derivs"
  | .mseLoss => "mse_loss"
  | .fit | .fitNlopt => "fit"
  | .fitDerivs => "fit_derivs"
  | .fitOl => "fit_ol"

/-- The arguments of methods that concern the method itself (the choice of the sampled distribution, the sign of the result,
the optimisation before the linear fit) and not the function it calls. -/
def ownArguments : GPMethod → List String
  | .samplePrior | .samplePosterior | .samplePriorDerivs | .samplePosteriorDerivs => ["kind"]
  | .lml | .lmlDerivs => ["return_negative"]
  | .fit | .fitDerivs | .fitOl | .fitNlopt =>
    ["minimize", "num_restarts", "key", "return_history", "loss_kwargs", "opt_kwargs", "opt"]
  | _ => []

/-- The function `f` got the arguments of the method: `env` are the values of the parameters of the method, `vals` those of the
function. The state is that of the object, a parameter that both have has the same value, the others their defaults (the
fitting methods set the key of the preconditioner to that of the defaults), and the function has all the arguments of
the method that are not its own. -/
def GotArguments (cls : ModelClass) (m : GPMethod) (f : PySig) (env vals : String → Option (ArgVal V)) : Prop :=
  (∀ p ∈ f.names,
    (p = "state" → vals p = some .state) ∧
    (p ∈ (m.sig cls).names → vals p = env p) ∧
    (p ≠ "state" → p ∉ (m.sig cls).names →
      (p = "key_precond" ∧ (m = .fit ∨ m = .fitDerivs) → vals p = some (.text "gpxargs.key_precond")) ∧
      (¬ (p = "key_precond" ∧ (m = .fit ∨ m = .fitDerivs)) →
        ∃ d, (p, some d) ∈ f.params ∧ vals p = some (.text d)))) ∧
  ∀ p ∈ (m.sig cls).names, p ∈ f.names ∨ p ∈ ownArguments m

/-- **C134**, full statement: for every class, method and arguments that the method accepts, the documented function of the
class's module runs with the arguments of the method. -/
def C134_full : Prop :=
  ∀ (V : Type) (cls : ModelClass) (m : GPMethod) (pos : List V) (kw : List (String × V)) (env : String → Option (ArgVal V)),
    (m.sig cls).bindVals (pos.map .given) (kw.map fun a => (a.1, .given a.2)) = .ok env →
    ∃ f vals, (∃ attr, (attr, documented m, f) ∈ cls.attrs) ∧ callMethod cls m pos kw = .ok (documented m, vals) ∧
      GotArguments cls m f env vals

/-- The methods that do not work: `mse_loss` in every class, and `fit`, `fit_derivs`, `fit_ol` and `predict_ol` of the
sparse models. -/
def Broken (cls : ModelClass) (m : GPMethod) : Prop :=
  m = .mseLoss ∨ (cls ≠ .gpr ∧ (m = .fit ∨ m = .fitDerivs ∨ m = .fitOl ∨ m = .predictOl))

instance (cls : ModelClass) (m : GPMethod) : Decidable (Broken cls m) := by unfold Broken; infer_instance

/-- What the broken methods raise: `TypeError` when the function does not have a parameter, `AttributeError` when there is no
function. -/
def brokenError : GPMethod → Err
  | .fit | .fitDerivs => .typeError
  | _ => .attributeError

/-- The symbolic part: the calls in the source. -/
def Good (cls : ModelClass) (m : GPMethod) : Prop :=
  match cls.attrs.lookup (m.call cls).1 with
  | none => False
  | some (name, f) =>
    name = documented m ∧
    f.toSig.bind (m.call cls).2.1.length ((m.call cls).2.2.map fun a => a.1.toList) = .ok () ∧
    (∀ p ∈ f.names, f.source (m.call cls).2.1 (m.call cls).2.2 p =
      if p = "state" then some .selfState
      else if p ∈ (m.sig cls).names then some (.var p)
      else if p = "key_precond" ∧ (m = .fit ∨ m = .fitDerivs) then some (.text "gpxargs.key_precond")
      else (f.params.lookup p).join.map .text) ∧
    (∀ p ∈ f.names, p ≠ "state" ∧ p ∉ (m.sig cls).names → ((f.params.lookup p).join.isSome)) ∧
    (∀ p ∈ (m.sig cls).names, p ≠ "state" ∧ (p ∈ f.names ∨ p ∈ ownArguments m))

/-- The calls in the source, checked for each class and method. -/
theorem good_all (cls : ModelClass) (m : GPMethod) (h : ¬ Broken cls m) : Good cls m := by
  cases cls <;> cases m <;> first
    | exact absurd (by decide) h
    | (unfold Good; refine ⟨rfl, rfl, by decide, by decide, by decide⟩)

/-- The broken calls. -/
theorem broken_all (cls : ModelClass) (m : GPMethod) (h : Broken cls m) :
    (cls.attrs.lookup (m.call cls).1 = none ∧ brokenError m = .attributeError) ∨
    ∃ name f, cls.attrs.lookup (m.call cls).1 = some (name, f) ∧
      f.toSig.bind (m.call cls).2.1.length ((m.call cls).2.2.map fun a => a.1.toList) = .error .typeError ∧
      brokenError m = .typeError := by
  cases cls <;> cases m <;> first
    | exact absurd h (by decide)
    | exact .inl ⟨rfl, rfl⟩
    | exact .inr ⟨_, _, rfl, rfl, rfl⟩

/-- A local variable among the given names. -/
def varIn (names : List String) : CallArg → Bool
  | .var p => names.contains p
  | _ => true

/-- The local variables in the calls are parameters of the method. -/
theorem call_vars (cls : ModelClass) (m : GPMethod) :
    ∀ a, (a ∈ (m.call cls).2.1 ∨ ∃ q, (q, a) ∈ (m.call cls).2.2) → ∀ p, a = .var p → p ∈ (m.sig cls).names := by
  have h : ∀ p, (CallArg.var p ∈ (m.call cls).2.1 ++ (m.call cls).2.2.map Prod.snd) → p ∈ (m.sig cls).names := by
    have : ∀ a ∈ (m.call cls).2.1 ++ (m.call cls).2.2.map Prod.snd, varIn (m.sig cls).names a = true := by
      cases cls <;> cases m <;> decide
    intro p hp
    simpa [varIn] using this _ hp
  rintro a ha p rfl
  apply h
  rw [List.mem_append]
  rcases ha with ha | ⟨q, hq⟩
  · exact .inl ha
  · exact .inr (List.mem_map.2 ⟨_, hq, rfl⟩)

/-- **C134**, what holds, for every class, method and arguments that the method accepts: unless the method is one of the
broken ones, the documented function runs with the arguments of the method; the broken ones raise, whatever their
arguments. Missing: the broken methods. -/
theorem C134_dispatch_partial (cls : ModelClass) (m : GPMethod) (pos : List V) (kw : List (String × V))
    (env : String → Option (ArgVal V))
    (h : (m.sig cls).bindVals (pos.map .given) (kw.map fun a => (a.1, .given a.2)) = .ok env) :
    (¬ Broken cls m → ∃ f vals, (∃ attr, (attr, documented m, f) ∈ cls.attrs) ∧
      callMethod cls m pos kw = .ok (documented m, vals) ∧ GotArguments cls m f env vals) ∧
    (Broken cls m → callMethod cls m pos kw = .error (brokenError m)) := by
  obtain ⟨hb, rfl⟩ := bindVals_ok.1 h
  set env := (m.sig cls).value (pos.map ArgVal.given) (kw.map fun a => (a.1, ArgVal.given a.2)) with henv
  have hsome : ∀ a : CallArg, (a ∈ (m.call cls).2.1 ∨ ∃ q, (q, a) ∈ (m.call cls).2.2) → (a.eval env).isSome := by
    intro a ha
    rcases a with p | _ | t
    · exact value_isSome hb p (call_vars cls m _ ha p rfl)
    · rfl
    · rfl
  obtain ⟨pos', hp1, hp2⟩ := mapM_pos (CallArg.eval env) (m.call cls).2.1 fun a ha => hsome a (.inl ha)
  have hs : ∀ a ∈ (m.call cls).2.2, (a.2.eval env).isSome := fun a ha => hsome a.2 (.inr ⟨a.1, ha⟩)
  obtain ⟨kw', hk1, hk2, hk3⟩ := mapM_kw (CallArg.eval env) (m.call cls).2.2 hs
  have hlen : pos'.length = (m.call cls).2.1.length := by simpa using (congrArg List.length hp2).symm
  have hnames : (kw'.map fun a => a.1.toList) = (m.call cls).2.2.map fun a => a.1.toList := by
    have := congrArg (List.map String.toList) hk2
    rw [List.map_map, List.map_map] at this
    exact this
  have hcall : callMethod cls m pos kw = (match cls.attrs.lookup (m.call cls).1 with
      | none => .error .attributeError
      | some (name, f) => (f.bindVals pos' kw').map fun vals => (name, vals)) := by
    unfold callMethod
    rw [h]
    simp only [bind, Except.bind]
    rcases cls.attrs.lookup (m.call cls).1 with _ | ⟨name, f⟩
    · rfl
    · simp only [hp1, hk1]
      rcases f.bindVals pos' kw' with e | v <;> rfl
  refine ⟨fun hg => ?_, fun hbr => ?_⟩
  · have good := good_all cls m hg
    unfold Good at good
    rcases hl : cls.attrs.lookup (m.call cls).1 with _ | ⟨name, f⟩
    · rw [hl] at good; exact good.elim
    rw [hl] at good
    obtain ⟨rfl, g1, g2, g3, g4⟩ := good
    refine ⟨f, f.value pos' kw', ?_, ?_, ?_, fun p hp => (g4 p hp).2⟩
    · obtain ⟨l1, l2, h1, -⟩ := List.lookup_eq_some_iff.1 hl
      exact ⟨(m.call cls).1, by rw [h1]; simp⟩
    · rw [hcall, hl]
      dsimp only
      rw [bindVals_ok.2 ⟨by rw [hlen, hnames]; exact g1, rfl⟩]
      rfl
    · intro p hp
      have hv := value_source f env (m.call cls).2.1 (m.call cls).2.2 pos' kw' hp2 hk3 hs p
      rw [g2 p hp] at hv
      refine ⟨?_, ?_, ?_⟩
      · rintro rfl
        rw [hv]; rfl
      · intro hm
        rw [hv, if_neg (g4 p hm).1, if_pos hm]; rfl
      · intro h1 h2
        rw [if_neg h1, if_neg h2] at hv
        constructor
        · intro h3
          rw [hv, if_pos h3]; rfl
        · intro h3
          rw [if_neg h3] at hv
          have := g3 p hp ⟨h1, h2⟩
          rcases hd : f.params.lookup p with _ | ⟨_ | d⟩
          · rw [hd] at this; cases this
          · rw [hd] at this; cases this
          · rw [hd] at hv
            obtain ⟨l1, l2, h4, -⟩ := List.lookup_eq_some_iff.1 hd
            exact ⟨d, by rw [h4]; simp, hv⟩
  · rcases broken_all cls m hbr with ⟨h1, h2⟩ | ⟨name, f, h1, h2, h3⟩
    · rw [hcall, h1, h2]
    · rw [hcall, h1, h3]
      dsimp only
      rw [bindVals_error (by rw [hlen, hnames]; exact h2)]
      rfl

/-- **C134** fails: `mse_loss` raises on every model. -/
theorem C134_false : ¬ C134_full := by
  intro h
  obtain ⟨f, vals, -, h1, -⟩ := h Unit .gpr .mseLoss [(), (), (), ()] [] _ rfl
  rw [((C134_dispatch_partial .gpr .mseLoss [(), (), (), ()] [] _ rfl).2 (by decide))] at h1
  cases h1

/-- **C134**, `init`: the method `init` of an object, called with the arguments of a constructor, runs the same function on the
same values as the constructor. -/
theorem C134_init (cls : ModelClass) (pos : List V) (kw : List (String × V)) (r : String × (String → Option (ArgVal V)))
    (h : callMethod cls .construct pos kw = .ok r) :
    ∃ r', callInit cls pos kw = .ok r' ∧ r'.1 = r.1 ∧ ∀ p ∈ cls.ctor.names, r'.2 p = r.2 p := by
  rcases hb : (GPMethod.construct.sig cls).bindVals (pos.map ArgVal.given) (kw.map fun a => (a.1, ArgVal.given a.2)) with e | env
  · unfold callMethod at h
    rw [hb] at h
    cases h
  have hnb : ¬ Broken cls .construct := by cases cls <;> decide
  obtain ⟨f, vals, -, h1, h2⟩ := (C134_dispatch_partial cls .construct pos kw env hb).1 hnb
  rw [h1] at h
  cases h
  obtain ⟨hb', rfl⟩ := bindVals_ok.1 hb
  obtain ⟨g, hg, hm⟩ : ∃ g, cls.attrs.lookup "_init_fun" = some ("init", g) ∧ MoreDefaults cls.ctor g := by
    cases cls
    · exact ⟨_, rfl, by simp [MoreDefaults, ModelClass.ctor, pOpt, pReq]⟩
    · exact ⟨_, rfl, by simp [MoreDefaults, ModelClass.ctor, pOpt, pReq]⟩
    · exact ⟨_, rfl, by simp [MoreDefaults, ModelClass.ctor, pOpt, pReq]⟩
  refine ⟨("init", g.value (pos.map ArgVal.given) (kw.map fun a => (a.1, ArgVal.given a.2))), ?_, rfl, fun p hp => ?_⟩
  · unfold callInit
    rw [hg]
    dsimp only
    rw [bindVals_ok.2 ⟨hm.bind _ _ hb', rfl⟩]
    rfl
  · dsimp only
    rw [hm.value _ _ p (value_isSome hb' p hp)]
    have hf : p ∈ f.names := (h2.2 p hp).resolve_right (by simp [ownArguments])
    exact ((h2.1 p hf).2.1 hp).symm

/-- **C134**, defaults: an optional argument of a method that is an optional parameter of the function it reaches has the same
default there. -/
theorem C134_defaults (cls : ModelClass) (m : GPMethod) (attr : String) (f : PySig)
    (hf : cls.attrs.lookup (m.call cls).1 = some (attr, f)) (p d d' : String) (h : (p, some d) ∈ (m.sig cls).params)
    (h' : (p, some d') ∈ f.params) : d = d' := by
  have key : ∀ (cls : ModelClass) (m : GPMethod), ∀ a ∈ cls.attrs.lookup (m.call cls).1, ∀ q ∈ (m.sig cls).params, ∀ q' ∈ a.2.params,
      q.1 = q'.1 → q.2.isSome → q'.2.isSome → q.2 = q'.2 := by
    intro cls m
    cases cls <;> cases m <;> decide
  have := key cls m (attr, f) hf (p, some d) h (p, some d') h' rfl rfl rfl
  exact Option.some.inj this

/-- What an argument that concerns the method itself is when it is left out: draws from the prior, the likelihood and not its
negative, hyperparameters optimised once from their present values, without a key, a history or further options. -/
def ownDefault : String → Option String
  | "kind" => some "'prior'"
  | "return_negative" => some "False"
  | "minimize" => some "True"
  | "num_restarts" => some "0"
  | "key" => some "None"
  | "return_history" => some "False"
  | "loss_kwargs" => some "None"
  | "opt_kwargs" => some "None"
  | _ => none

/-- **C134**, defaults of the arguments that concern the method itself: in every call that leaves one out it has the value above,
the same in every fitting method; the one without such a value, `opt` of `fit_nlopt`, cannot be left out. -/
theorem C134_own_defaults (cls : ModelClass) (m : GPMethod) (pos : List V) (kw : List (String × V))
    (env : String → Option (ArgVal V))
    (h : (m.sig cls).bindVals (pos.map .given) (kw.map fun a => (a.1, .given a.2)) = .ok env)
    (p : String) (hp : p ∈ ownArguments m) (hs : p ∈ (m.sig cls).names) (h1 : pos.length ≤ (m.sig cls).names.idxOf p)
    (h2 : p ∉ kw.map Prod.fst) : ∃ d, ownDefault p = some d ∧ env p = some (.text d) := by
  have key : ∀ (cls : ModelClass) (m : GPMethod), ∀ p ∈ ownArguments m, p ∈ (m.sig cls).names →
      (m.sig cls).params.lookup p = some (ownDefault p) := by
    intro cls m
    cases cls <;> cases m <;> decide
  obtain ⟨hb, rfl⟩ := bindVals_ok.1 h
  have hv : (m.sig cls).value (pos.map ArgVal.given) (kw.map fun a => (a.1, ArgVal.given a.2)) p =
      (ownDefault p).map ArgVal.text := by
    have hk : (kw.map fun a => (a.1, ArgVal.given a.2)).lookup p = (none : Option (ArgVal V)) := by
      rw [List.lookup_eq_none_iff]
      intro a ha
      obtain ⟨b, hb, rfl⟩ := List.mem_map.1 ha
      have : p ≠ b.1 := fun hc => h2 (List.mem_map.2 ⟨b, hb, hc.symm⟩)
      simpa using this
    unfold PySig.value
    rw [if_neg (by rw [List.length_map]; exact not_lt.2 h1), hk, key cls m p hp hs]
    cases ownDefault p <;> rfl
  have hsome := value_isSome hb p hs
  rw [hv] at hsome ⊢
  rcases hd : ownDefault p with _ | d
  · rw [hd] at hsome; cases hsome
  · exact ⟨d, rfl, rfl⟩

/-- What an argument of the numerical functions is when it is left out: dense algebra, no covariance, one sample, and the global settings
of the stochastic likelihood. -/
def numericalDefault : String → Option String
  | "iterative" => some "False"
  | "full_covariance" => some "False"
  | "n_samples" => some "1"
  | "num_evals" => some "gpxargs.num_evals"
  | "num_lanczos" => some "gpxargs.num_lanczos"
  | "key_lanczos" => some "gpxargs.key_lanczos"
  | "n_pivots" => some "None"
  | "key_precond" => some "None"
  | "coeff" => some "1.0"
  | _ => none

/-- **C134**, defaults of the numerical arguments: in every method and every function of every class that takes one of them as an optional
argument, its default is the one above. -/
theorem C134_numerical_defaults (cls : ModelClass) (m : GPMethod) (f : PySig)
    (hf : f = m.sig cls ∨ ∃ attr fn, (attr, fn, f) ∈ cls.attrs) (p d d' : String) (hp : numericalDefault p = some d)
    (h : (p, some d') ∈ f.params) : d' = d := by
  have key : ∀ (cls : ModelClass) (m : GPMethod), (∀ q ∈ (m.sig cls).params, q.2.isSome → (numericalDefault q.1).isSome →
        q.2 = numericalDefault q.1) ∧
      ∀ a ∈ cls.attrs, ∀ q ∈ a.2.2.params, q.2.isSome → (numericalDefault q.1).isSome → q.2 = numericalDefault q.1 := by
    intro cls m
    cases cls <;> cases m <;> decide
  have : (some d' : Option String) = numericalDefault p := by
    rcases hf with rfl | ⟨attr, fn, hf⟩
    · exact (key cls m).1 (p, some d') h rfl (by rw [hp]; rfl)
    · exact (key cls m).2 (attr, fn, f) hf (p, some d') h rfl (by rw [hp]; rfl)
  rw [hp] at this
  exact Option.some.inj this

/-- Non-vacuity: `log_marginal_likelihood` takes `iterative`, and `sample` takes `n_samples`. -/
example : ("iterative", some "False") ∈ (GPMethod.lml.sig .gpr).params ∧ ("n_samples", some "1") ∈ (GPMethod.samplePrior.sig .sgpr).params ∧
    numericalDefault "iterative" = some "False" := by decide

/-- Non-vacuity: `fit(x, y, num_restarts=3)` optimises and keeps no history. -/
example : ∃ env : String → Option (ArgVal String), (GPMethod.fit.sig .gpr).bindVals (["x0", "y0"].map .given)
      ([("num_restarts", "3")].map fun a => (a.1, .given a.2)) = .ok env ∧
    env "minimize" = some (.text "True") ∧ env "num_restarts" = some (.given "3") ∧ env "return_history" = some (.text "False") :=
  ⟨_, rfl, rfl, rfl, rfl⟩

/-- Non-vacuity: a call of `predict` of an SGPR with one positional and one keyword argument; `full_covariance` keeps its
default. -/
example : ∃ vals, callMethod .sgpr .predict ["x0"] [("iterative", "True")] = .ok ("predict", vals) ∧
    vals "x" = some (.given "x0") ∧ vals "iterative" = some (.given "True") ∧ vals "state" = some .state ∧
    vals "full_covariance" = some (.text "False") :=
  ⟨_, rfl, rfl, rfl, rfl, rfl⟩

end GPX.Props
