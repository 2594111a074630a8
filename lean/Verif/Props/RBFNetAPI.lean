import Verif.Model.RBFNetAPI
import Verif.Props.SparseAPI
import Verif.Props.SaveLoad
import Verif.Props.Pytree
import Verif.Props.Bijectors

/-! # C101 – C104: the radial basis function network as an object -/

namespace GPX.Props
open GPX Spec

variable {K M C R Out : Type}

/-- What is fixed when a network is constructed. -/
structure RbfSetup (K M C R : Type) where
  draw : R → List ℕ → List ℝ
  kernelDefault : K → Except Err (Dict Param)
  noMean : M
  key : R
  kernel : K
  inducing : Param
  numOutput : ℕ
  kernelParams : Option (Dict Param)
  alpha : Option Param
  layer : C
  lossFn : C
  center : Bool

/-- `RBFNet(key, kernel, …)`. -/
noncomputable def RbfSetup.build (c : RbfSetup K M C R) : Except Err (ModelState K M C) :=
  rbfInit c.draw c.kernelDefault c.noMean c.key c.kernel c.inducing c.numOutput c.kernelParams c.alpha c.layer c.lossFn
    c.center

/-- The kernel parameters of the network: the given ones, or the defaults of the kernel. -/
def RbfSetup.HasKernelParams (c : RbfSetup K M C R) (kp : Dict Param) : Prop :=
  match c.kernelParams with
  | some d => d = kp
  | none => c.kernelDefault c.kernel = .ok kp

theorem kernelParams_eq {c : RbfSetup K M C R} {kp : Dict Param} (hkp : c.HasKernelParams kp) :
    rbfKernelParams c.kernelDefault c.kernel c.kernelParams = .ok kp := by
  unfold RbfSetup.HasKernelParams at hkp
  rcases h : c.kernelParams with _ | d
  · rw [h] at hkp; exact hkp
  · rw [h] at hkp; cases hkp; rfl

theorem build_cases {c : RbfSetup K M C R} {s : ModelState K M C} (h : c.build = .ok s) :
    ∃ kp m sh alpha weights, c.HasKernelParams kp ∧ c.inducing.value.shape = m :: sh ∧ rbfDefaultAlpha = .ok alpha ∧
      rbfDefaultWeights c.draw c.key m c.numOutput = .ok weights ∧
      ModelState.new c.kernel c.noMean (.leaf alphaKey (c.alpha.getD alpha) (.leaf inducingPointsKey c.inducing
        (.node kernelParamsKey kp (.leaf weightsKey weights .nil))))
        [(outputLayerKey, .callable c.layer), (lossFnKey, .callable c.lossFn), (centerKernelKey, .bool c.center),
          (kMeanKey, .arr (zerosArr m))] = .ok s := by
  unfold RbfSetup.build rbfInit at h
  obtain ⟨kp, hkp, h⟩ := sparse_bind_ok h
  have hk : c.HasKernelParams kp := by
    unfold RbfSetup.HasKernelParams
    rcases hc : c.kernelParams with _ | d
    · rw [hc] at hkp; exact hkp
    · rw [hc] at hkp; cases hkp; rfl
  rcases hsh : c.inducing.value.shape with _ | ⟨m, sh⟩
  · rw [hsh] at h; cases h
  rw [hsh] at h
  obtain ⟨al, hal, h⟩ := sparse_bind_ok h
  obtain ⟨w, hw, h⟩ := sparse_bind_ok h
  exact ⟨kp, m, sh, al, w, hk, rfl, hal, hw, h⟩

theorem defaultAlpha_eq : rbfDefaultAlpha = .ok ⟨scalarArr 1, true, .softplus, normalPrior⟩ :=
  Param.new_ok' _ _ _ _ rfl rfl

theorem defaultWeights_eq (draw : R → List ℕ → List ℝ) (key : R) (m o : ℕ) :
    rbfDefaultWeights draw key m o =
      .ok ⟨⟨[m, o], float64, draw key [m, o]⟩, true, .identity, ⟨.normal 0 1, [m, o], float64⟩⟩ :=
  Param.new_ok' _ _ _ _ rfl rfl

/-! ## C101 -/

/-- **C101**. A network that is given valid parameters, and inducing points that are not a scalar, is constructed. It has the
given kernel, output layer, loss and centering flag; its parameters are the given inducing points, the given kernel
parameters or the defaults of the kernel, the given `alpha` or the trainable 1.0 constrained by a softplus, and weights drawn
from a standard normal distribution, one for each pair of an inducing point and an output; the stored mean of the kernel is
zero, with one entry for each inducing point. There is nothing else among the parameters. -/
theorem C101_init (c : RbfSetup K M C R) (kp : Dict Param) (hkp : c.HasKernelParams kp) (hk : ParamsOK kp)
    (hi : ParamOK c.inducing) (ha : ∀ a, c.alpha = some a → ParamOK a) (m : ℕ) (sh : List ℕ)
    (hm : c.inducing.value.shape = m :: sh) :
    ∃ s, c.build = .ok s ∧ s.kernel = c.kernel ∧ s.meanFn = c.noMean ∧
      s.attr "output_layer".toList = .ok (.callable c.layer) ∧ s.attr "loss_fn".toList = .ok (.callable c.lossFn) ∧
      s.attr "center_kernel".toList = .ok (.bool c.center) ∧
      s.attr "k_mean".toList = .ok (.arr ⟨[m], float64, List.replicate m 0⟩) ∧
      lookup ["alpha".toList] s.params =
        some (.inl (c.alpha.getD ⟨⟨[], float64, [1]⟩, true, .softplus, ⟨.normal 0 1, [], float64⟩⟩)) ∧
      lookup ["inducing_points".toList] s.params = some (.inl c.inducing) ∧
      lookup ["weights".toList] s.params = some (.inl ⟨⟨[m, c.numOutput], float64, c.draw c.key [m, c.numOutput]⟩, true,
        .identity, ⟨.normal 0 1, [m, c.numOutput], float64⟩⟩) ∧
      (∀ path, lookup ("kernel_params".toList :: path) s.params = lookup path kp) ∧
      ∀ k path, k ∉ ["alpha".toList, "inducing_points".toList, "weights".toList, "kernel_params".toList] →
        lookup (k :: path) s.params = none := by
  set P : Dict Param := .leaf alphaKey (c.alpha.getD ⟨scalarArr 1, true, .softplus, normalPrior⟩)
    (.leaf inducingPointsKey c.inducing (.node kernelParamsKey kp (.leaf weightsKey
      ⟨⟨[m, c.numOutput], float64, c.draw c.key [m, c.numOutput]⟩, true, .identity,
        ⟨.normal 0 1, [m, c.numOutput], float64⟩⟩ .nil))) with hP
  have hok : ParamsOK P := by
    intro p hp
    simp only [hP, Dict.leaves, List.mem_cons, List.mem_append, List.not_mem_nil, or_false] at hp
    rcases hp with rfl | rfl | hp | rfl
    · rcases h : c.alpha with _ | a
      · exact ⟨rfl, rfl⟩
      · exact ha a h
    · exact hi
    · exact hk p hp
    · exact ⟨rfl, rfl⟩
  have hs : c.build = .ok ⟨c.kernel, c.noMean, P.sortKeys, [(outputLayerKey, .callable c.layer),
      (lossFnKey, .callable c.lossFn), (centerKernelKey, .bool c.center), (kMeanKey, .arr (zerosArr m))]⟩ := by
    have e1 := kernelParams_eq hkp
    unfold RbfSetup.build rbfInit
    rw [e1, hm, defaultAlpha_eq]
    simp only [bind, Except.bind]
    rw [defaultWeights_eq]
    simp only
    exact ModelState.new_ok _ _ P _ hok
  refine ⟨_, hs, rfl, rfl, rfl, rfl, rfl, rfl, ?_, ?_, ?_, fun path => ?_, fun k path hne => ?_⟩
  · rw [lookup_sortKeys]; rfl
  · rw [lookup_sortKeys]; rfl
  · rw [lookup_sortKeys]; rfl
  · rw [lookup_sortKeys]; rfl
  · rw [lookup_sortKeys]
    have : P.get? k = none := by
      simp only [List.mem_cons, List.not_mem_nil, or_false, not_or] at hne
      simp only [hP, Dict.get?]
      rw [if_neg (show k ≠ alphaKey from hne.1), if_neg (show k ≠ inducingPointsKey from hne.2.1),
        if_neg (show k ≠ kernelParamsKey from hne.2.2.2), if_neg (show k ≠ weightsKey from hne.2.2.1)]
    simp only [lookup, this]

/-- **C101**. Inducing points that are a scalar are refused. -/
theorem C101_scalar_inducing (c : RbfSetup K M C R) (kp : Dict Param) (hkp : c.HasKernelParams kp)
    (hm : c.inducing.value.shape = []) : c.build = .error .indexError := by
  have e1 := kernelParams_eq hkp
  unfold RbfSetup.build rbfInit
  rw [e1, hm]
  rfl

/-- The random functions of JAX: drawing from a prior gives an array that fits it, and the keys derived from one key by
splitting it, once for every parameter, differ. -/
structure GoodRandom (nxt : R → R) (sample : PriorObj → R → Arr) (key : R) (s : ModelState K M C) : Prop where
  sample : ∀ q k, (sample q k).shape = q.shape ∧ (sample q k).dtype = q.dtype
  split : ∀ a ≤ s.params.leaves.length, ∀ b ≤ s.params.leaves.length, nxt^[a] key = nxt^[b] key → a = b

/-- The states a network can be in: after construction, after any number of calls of the fitting methods (which raise, see
`C103_fit_raises`; `rest` stands for the training they do not reach), and for the networks returned by `randomize`. -/
inductive RbfReach (c : RbfSetup K M C R) (identityFn trainLossFn : C) : ModelState K M C → Prop
  | init {s} : c.build = .ok s → RbfReach c identityFn trainLossFn s
  | fit {s} (rest) : RbfReach c identityFn trainLossFn s → RbfReach c identityFn trainLossFn (rbfnetFit rest s).2
  | fitNlopt {s} (rest) : RbfReach c identityFn trainLossFn s →
      RbfReach c identityFn trainLossFn (rbfnetFitNlopt rest s).2
  | fitOptax {s} (rest) : RbfReach c identityFn trainLossFn s →
      RbfReach c identityFn trainLossFn (rbfnetFitOptax rest s).2
  | randomize {s r} (nxt : R → R) (sample : PriorObj → R → Arr) (key : R) (reset : Bool) :
      RbfReach c identityFn trainLossFn s → GoodRandom nxt sample key s →
      rbfRandomize nxt sample identityFn trainLossFn key reset s = .ok r → RbfReach c identityFn trainLossFn r

/-- Values read from the options of a state are as `jnp.asarray` leaves them. -/
theorem constructed_norm {s : ModelState K M C} (h : Constructed s) (k : Key) :
    (assocGet k s.opts).map OptVal.norm = assocGet k s.opts := by
  obtain ⟨_, _, _, kw, h⟩ := h
  rw [ModelState.new_eq h]
  simp only [assocGet_map, Option.map_map]
  congr 1
  funext x
  exact norm_idem x

theorem constructed_update {s r : ModelState K M C} {u : StateUpdate K M C} (h : (s.update u).1 = .ok r) :
    Constructed r := ⟨_, _, _, _, h⟩

theorem constructed_randomize {nxt : R → R} {sample : PriorObj → R → Arr} {key : R} {o : List (Key × OptVal C)}
    {s r : ModelState K M C} (h : s.randomize nxt sample key o = .ok r) : Constructed r := by
  unfold ModelState.randomize at h
  obtain ⟨_, _, h⟩ := sparse_bind_ok h
  obtain ⟨_, _, h⟩ := sparse_bind_ok h
  exact constructed_update h

/-! ## C103 -/

/-- The state left behind by the fitting methods, and the exception. -/
theorem C103_fit_raises (rest : ModelState K M C → Except Err (ModelState K M C)) (s : ModelState K M C)
    (hs : ParamsOK s.params) :
    (rbfnetFit rest s).1 = .error .typeError ∧ (rbfnetFitOptax rest s).1 = .error .typeError ∧
    (rbfnetFitNlopt rest s).1 = .error .typeError ∧ (rbfnetFitNlopt rest s).2 = s ∧
    ∃ r, (s.update { opts := [("k_mean".toList, .none)] }).1 = .ok r ∧ (rbfnetFit rest s).2 = r ∧
      (rbfnetFitOptax rest s).2 = r := by
  obtain ⟨r, hr, -⟩ := C10_update_overlay s ({ opts := [("k_mean".toList, .none)] } : StateUpdate K M C) hs
    ⟨by simp, by simp⟩
  refine ⟨?_, ?_, rfl, rfl, r, hr, ?_, ?_⟩
  · unfold rbfnetFit; rw [hr]; rfl
  · unfold rbfnetFitOptax kMeanKey; rw [hr]; rfl
  · unfold rbfnetFit; rw [hr]; rfl
  · unfold rbfnetFitOptax kMeanKey; rw [hr]; rfl

/-- **C103**, full statement: when a fitting method of a network raises, the network is what it was. -/
def C103_full : Prop :=
  ∀ (c : RbfSetup Unit Unit Bool ℕ) (s : ModelState Unit Unit Bool)
    (rest : ModelState Unit Unit Bool → Except Err (ModelState Unit Unit Bool)), c.build = .ok s →
    ((∃ e, (rbfnetFit rest s).1 = .error e) → viewOf (rbfnetFit rest s).2 = viewOf s) ∧
    ((∃ e, (rbfnetFitNlopt rest s).1 = .error e) → viewOf (rbfnetFitNlopt rest s).2 = viewOf s) ∧
    ((∃ e, (rbfnetFitOptax rest s).1 = .error e) → viewOf (rbfnetFitOptax rest s).2 = viewOf s)

/-- **C103**, what holds: `fit_nlopt` leaves the network as it was, `fit` and `fit_optax` as it was except for the stored mean
of the kernel, which is lost (it is `None` afterwards). -/
theorem C103_partial (rest : ModelState K M C → Except Err (ModelState K M C)) (s : ModelState K M C)
    (hs : ParamsOK s.params) :
    viewOf (rbfnetFitNlopt rest s).2 = viewOf s ∧
    ∀ r, r = (rbfnetFit rest s).2 ∨ r = (rbfnetFitOptax rest s).2 →
      viewOf r = { viewOf s with opts := fun k => if k = "k_mean".toList then some .none else (viewOf s).opts k } := by
  obtain ⟨-, -, -, h4, r, h5, h6, h7⟩ := C103_fit_raises rest s hs
  refine ⟨by rw [h4], ?_⟩
  obtain ⟨r', hr', hv, -⟩ := C10_update_overlay s ({ opts := [("k_mean".toList, .none)] } : StateUpdate K M C) hs
    ⟨by simp, by simp⟩
  rw [h5] at hr'
  cases hr'
  have key : viewOf r = { viewOf s with opts := fun k => if k = "k_mean".toList then some .none else (viewOf s).opts k } := by
    rw [hv]
    unfold overlay
    congr 1
    funext k
    by_cases hk : k = "k_mean".toList
    · subst hk; rfl
    · have : assocGet k ([("k_mean".toList, .none)] : List (Key × OptVal C)) = none := by
        simp only [assocGet]
        rw [if_neg hk]
      rw [this, if_neg hk]
  rintro r' (rfl | rfl)
  · rw [h6]; exact key
  · rw [h7]; exact key

/-! ## C102 -/

/-- **C102**, full statement: the network returned by `randomize` differs from the given one in the values of its parameters
only: it predicts as the given network would with these values. -/
def C102_full : Prop :=
  ∀ (num : RbfNumerics Unit Bool Bool) (nxt : ℕ → ℕ) (sample : PriorObj → ℕ → Arr) (key : ℕ) (reset : Bool)
    (s r : ModelState Unit Unit Bool), Constructed s → rbfRandomize nxt sample true true key reset s = .ok r →
    ∀ x linearOnly, rbfPredict num r x linearOnly = rbfPredict num { s with params := r.params } x linearOnly

/-- **C102**, what holds: with `reset=False`. -/
theorem C102_no_reset_partial (num : RbfNumerics K C Out) (nxt : R → R) (sample : PriorObj → R → Arr)
    (identityFn trainLossFn : C) (key : R) (s r : ModelState K M C) (hs : Constructed s)
    (h : rbfRandomize nxt sample identityFn trainLossFn key false s = .ok r) :
    r.kernel = s.kernel ∧ r.meanFn = s.meanFn ∧ (∀ k, r.attr k = s.attr k) ∧
    ∀ x linearOnly, rbfPredict num r x linearOnly = rbfPredict num { s with params := r.params } x linearOnly := by
  have h' : s.randomize nxt sample key [] = .ok r := h
  have hb := sameBut_randomize h'
  have ho : ∀ k, assocGet k r.opts = assocGet k s.opts := fun k => by
    rw [← constructed_norm (constructed_randomize h') k, ← constructed_norm hs k]
    exact hb.opts k
  have ha : ∀ k, r.attr k = s.attr k := fun k => by unfold ModelState.attr; rw [ho]
  have ha' : ∀ k, ({ s with params := r.params } : ModelState K M C).attr k = s.attr k := fun k => rfl
  refine ⟨hb.kernel, hb.meanFn, ha, fun x lo => ?_⟩
  unfold rbfPredict rbfStatePredict
  rw [ha, ha, ha, ha', ha', ha', hb.kernel]

/-- **C102**, what happens with `reset=True`, the default: the output layer is replaced by the identity, the loss by the
default loss, and centering is switched off; the stored mean and everything else is kept. -/
theorem C102_reset (num : RbfNumerics K C Out) (nxt : R → R) (sample : PriorObj → R → Arr)
    (identityFn trainLossFn : C) (key : R) (s r : ModelState K M C) (hs : Constructed s) (hok : ParamsOK s.params)
    (hr : GoodRandom nxt sample key s)
    (h : rbfRandomize nxt sample identityFn trainLossFn key true s = .ok r) :
    r.kernel = s.kernel ∧ r.attr "output_layer".toList = .ok (.callable identityFn) ∧
    r.attr "loss_fn".toList = .ok (.callable trainLossFn) ∧ r.attr "center_kernel".toList = .ok (.bool false) ∧
    (∀ k, k ∉ ["output_layer".toList, "loss_fn".toList, "center_kernel".toList] → r.attr k = s.attr k) ∧
    ∀ x, rbfPredict num r x true = (do
      let kMean ← s.attr "k_mean".toList
      let p ← num.predictLinear s.kernel r.params x (.bool false) kMean
      pure p.1) := by
  have h' : s.randomize nxt sample key (rbfInitDefault identityFn trainLossFn) = .ok r := h
  have hn : ((rbfInitDefault identityFn trainLossFn).map Prod.fst).Nodup := by
    change [outputLayerKey, lossFnKey, centerKernelKey].Nodup
    decide
  obtain ⟨r', e1, e2, -, e4, -⟩ := C14_randomize nxt sample s key _ hok hn hr.sample hr.split
  rw [h'] at e1
  cases e1
  have hc := constructed_randomize h'
  have ho : ∀ k, assocGet k r.opts = ((assocGet k (rbfInitDefault identityFn trainLossFn)).or (assocGet k s.opts)).map
      OptVal.norm := fun k => by rw [← constructed_norm hc k, e4 k]
  have g1 : assocGet "output_layer".toList (rbfInitDefault identityFn trainLossFn) = some (.callable identityFn) := rfl
  have g2 : assocGet "loss_fn".toList (rbfInitDefault identityFn trainLossFn) = some (.callable trainLossFn) := rfl
  have g3 : assocGet "center_kernel".toList (rbfInitDefault identityFn trainLossFn) = some (.bool false) := rfl
  have a1 : r.attr "output_layer".toList = .ok (.callable identityFn) := by unfold ModelState.attr; rw [ho, g1]; rfl
  have a2 : r.attr "loss_fn".toList = .ok (.callable trainLossFn) := by unfold ModelState.attr; rw [ho, g2]; rfl
  have a3 : r.attr "center_kernel".toList = .ok (.bool false) := by unfold ModelState.attr; rw [ho, g3]; rfl
  have a4 : ∀ k, k ∉ ["output_layer".toList, "loss_fn".toList, "center_kernel".toList] → r.attr k = s.attr k := by
    intro k hk
    simp only [List.mem_cons, List.not_mem_nil, or_false, not_or] at hk
    have : assocGet k (rbfInitDefault identityFn trainLossFn) = none := by
      simp only [rbfInitDefault, assocGet]
      rw [if_neg (show k ≠ outputLayerKey from hk.1), if_neg (show k ≠ lossFnKey from hk.2.1),
        if_neg (show k ≠ centerKernelKey from hk.2.2)]
    unfold ModelState.attr
    rw [ho, this, Option.none_or, constructed_norm hs]
  refine ⟨e2, a1, a2, a3, a4, fun x => ?_⟩
  have a5 : r.attr "k_mean".toList = s.attr "k_mean".toList := a4 _ (by decide)
  unfold rbfPredict rbfStatePredict centerKernelKey kMeanKey
  rw [a3, a5, e2]
  simp only [bind, Except.bind]
  rcases s.attr "k_mean".toList with e | v <;> rfl


/-! ## Examples -/

/-- Two inducing points in one dimension. -/
noncomputable def exInducing : Param :=
  ⟨⟨[2, 1], float64, [0, 1]⟩, true, .identity, ⟨.normal 0 1, [2, 1], float64⟩⟩

/-- A network with two inducing points, one output, the output layer `false` (not the identity `true`) and centering. -/
noncomputable def exRbf : RbfSetup Unit Unit Bool ℕ where
  draw k sh := List.replicate sh.prod (k : ℝ)
  kernelDefault _ := .ok (.leaf "lengthscale".toList ⟨scalarArr 1, true, .softplus, gammaPrior⟩ .nil)
  noMean := ()
  key := 7
  kernel := ()
  inducing := exInducing
  numOutput := 1
  kernelParams := none
  alpha := none
  layer := false
  lossFn := true
  center := true

/-- The state of the network just constructed. -/
noncomputable def exRbfState : ModelState Unit Unit Bool :=
  ⟨(), (), .leaf alphaKey ⟨scalarArr 1, true, .softplus, normalPrior⟩ (.leaf inducingPointsKey exInducing
    (.node kernelParamsKey (.leaf "lengthscale".toList ⟨scalarArr 1, true, .softplus, gammaPrior⟩ .nil)
      (.leaf weightsKey ⟨⟨[2, 1], float64, [7, 7]⟩, true, .identity, ⟨.normal 0 1, [2, 1], float64⟩⟩ .nil))),
    [(outputLayerKey, .callable false), (lossFnKey, .callable true), (centerKernelKey, .bool true),
      (kMeanKey, .arr (zerosArr 2))]⟩

theorem exRbf_build : exRbf.build = .ok exRbfState := by
  have h : exRbf.build = ModelState.new () () (.leaf alphaKey ⟨scalarArr 1, true, .softplus, normalPrior⟩
      (.leaf inducingPointsKey exInducing (.node kernelParamsKey
        (.leaf "lengthscale".toList ⟨scalarArr 1, true, .softplus, gammaPrior⟩ .nil)
        (.leaf weightsKey ⟨⟨[2, 1], float64, [((7 : ℕ) : ℝ), ((7 : ℕ) : ℝ)]⟩, true, .identity,
          ⟨.normal 0 1, [2, 1], float64⟩⟩ .nil))))
      [(outputLayerKey, .callable false), (lossFnKey, .callable true), (centerKernelKey, .bool true),
        (kMeanKey, .arr (zerosArr 2))] := by
    unfold RbfSetup.build rbfInit
    simp only [exRbf, exInducing, rbfKernelParams, bind, Except.bind, defaultAlpha_eq, defaultWeights_eq, Option.getD_none]
    rfl
  rw [h, ModelState.new_ok]
  · norm_num
    rfl
  · intro p hp
    simp only [Dict.leaves, List.mem_cons, List.mem_append, List.not_mem_nil, or_false] at hp
    rcases hp with rfl | rfl | rfl | rfl <;> exact ⟨rfl, rfl⟩

/-- Draws that fit their prior. -/
noncomputable def exRbfSample (q : PriorObj) (k : ℕ) : Arr := ⟨q.shape, q.dtype, List.replicate q.shape.prod (k : ℝ)⟩

theorem exRbf_random (key : ℕ) (s : ModelState Unit Unit Bool) : GoodRandom Nat.succ exRbfSample key s :=
  ⟨fun _ _ => ⟨rfl, rfl⟩, fun a _ b _ h => by simpa [Nat.succ_iterate] using h⟩

/-- Non-vacuity of `C101_init`. -/
example : ∃ s, exRbf.build = .ok s ∧ s.attr "k_mean".toList = .ok (.arr ⟨[2], float64, List.replicate 2 0⟩) := by
  obtain ⟨s, h1, -, -, -, -, -, h2, -⟩ := C101_init exRbf (.leaf "lengthscale".toList ⟨scalarArr 1, true, .softplus, gammaPrior⟩ .nil)
    rfl (by intro p hp; simp only [Dict.leaves, List.mem_cons, List.not_mem_nil, or_false] at hp; subst hp; exact ⟨rfl, rfl⟩)
    ⟨rfl, rfl⟩ (fun a h => by cases h) 2 [1] rfl
  exact ⟨s, h1, h2⟩

/-- Non-vacuity of `C101_scalar_inducing`. -/
example : ({ exRbf with inducing := ⟨scalarArr 1, true, .softplus, gammaPrior⟩ } : RbfSetup Unit Unit Bool ℕ).build =
    .error .indexError :=
  C101_scalar_inducing _ (.leaf "lengthscale".toList ⟨scalarArr 1, true, .softplus, gammaPrior⟩ .nil) rfl rfl

theorem build_constructed {c : RbfSetup K M C R} {s : ModelState K M C} (h : c.build = .ok s) : Constructed s := by
  obtain ⟨_, _, _, _, _, -, -, -, -, h⟩ := build_cases h
  exact ⟨_, _, _, _, h⟩

theorem exRbf_ok : ParamsOK exRbfState.params := by
  obtain ⟨_, _, _, _, h⟩ := build_constructed exRbf_build
  exact ModelState.new_paramsOK h

/-- **C103** is false of the code: after a `fit` (which raises) the stored mean of the kernel is gone. -/
theorem C103_false : ¬ C103_full := by
  intro h
  have h1 := (h exRbf exRbfState (fun s => .ok s) exRbf_build).1 ⟨_, (C103_fit_raises _ _ exRbf_ok).1⟩
  have h2 := (C103_partial (fun s => .ok s) exRbfState exRbf_ok).2 _ (.inl rfl)
  rw [h1] at h2
  have h3 := congrFun (congrArg View.opts h2) "k_mean".toList
  change (viewOf exRbfState).opts "k_mean".toList = if "k_mean".toList = "k_mean".toList then some .none
    else (viewOf exRbfState).opts "k_mean".toList at h3
  rw [if_pos rfl] at h3
  have h4 : (viewOf exRbfState).opts "k_mean".toList = some (.arr (zerosArr 2)) := rfl
  rw [h4] at h3
  simp at h3

/-- A network that predicts its output layer. -/
def exRbfNum : RbfNumerics Unit Bool Bool where
  predictLinear _ _ _ _ kMean := .ok (true, kMean)
  predict _ _ _ layer _ kMean := match layer with
    | .callable b => .ok (b, kMean)
    | _ => .error .typeError

/-- **C102** is false of the code: after `randomize(key)` the network has another output layer. -/
theorem C102_false : ¬ C102_full := by
  intro h
  obtain ⟨r, hr, -⟩ := C14_randomize Nat.succ exRbfSample exRbfState 0 (rbfInitDefault true true) exRbf_ok (by
      change [outputLayerKey, lossFnKey, centerKernelKey].Nodup
      decide) (exRbf_random 0 exRbfState).sample (exRbf_random 0 exRbfState).split
  have h1 := h exRbfNum Nat.succ exRbfSample 0 true exRbfState r (build_constructed exRbf_build) hr (zerosArr 1) false
  obtain ⟨-, a1, -, a3, a4, -⟩ := C102_reset exRbfNum Nat.succ exRbfSample true true 0 exRbfState r
    (build_constructed exRbf_build) exRbf_ok (exRbf_random 0 exRbfState) hr
  have a5 : r.attr "k_mean".toList = .ok (.arr (zerosArr 2)) := a4 _ (by decide)
  have e1 : rbfPredict exRbfNum r (zerosArr 1) false = .ok true := by
    unfold rbfPredict rbfStatePredict centerKernelKey kMeanKey outputLayerKey
    rw [a1, a3, a5]
    rfl
  have e2 : rbfPredict exRbfNum { exRbfState with params := r.params } (zerosArr 1) false = .ok false := rfl
  rw [e1, e2] at h1
  cases h1


/-! ## C101, histories -/

/-- What is true of a network in every state it can reach. -/
structure RbfInv (c : RbfSetup K M C R) (identityFn trainLossFn : C) (m : ℕ) (s : ModelState K M C) : Prop where
  constructed : Constructed s
  kernel : s.kernel = c.kernel
  meanFn : s.meanFn = c.noMean
  layer : s.attr "output_layer".toList = .ok (.callable c.layer) ∨
    s.attr "output_layer".toList = .ok (.callable identityFn)
  loss : s.attr "loss_fn".toList = .ok (.callable c.lossFn) ∨ s.attr "loss_fn".toList = .ok (.callable trainLossFn)
  center : s.attr "center_kernel".toList = .ok (.bool c.center) ∨ s.attr "center_kernel".toList = .ok (.bool false)
  kMean : s.attr "k_mean".toList = .ok (.arr ⟨[m], float64, List.replicate m 0⟩) ∨
    s.attr "k_mean".toList = .ok .none
  alpha : ∃ p, lookup ["alpha".toList] s.params = some (.inl p) ∧ p.bijector = .softplus ∧ ∀ v ∈ p.value.data, 0 < v
  frozen : c.inducing.trainable = false → lookup ["inducing_points".toList] s.params = some (.inl c.inducing)
  points : ∃ p, lookup ["inducing_points".toList] s.params = some (.inl p) ∧ p.value.shape = c.inducing.value.shape
  weights : ∃ p, lookup ["weights".toList] s.params = some (.inl p) ∧ p.value.shape = [m, c.numOutput]

theorem Constructed.paramsOK {s : ModelState K M C} (h : Constructed s) : ParamsOK s.params := by
  obtain ⟨_, _, _, _, h⟩ := h
  exact ModelState.new_paramsOK h

/-- Clearing the stored mean keeps the invariant. -/
theorem RbfInv.clear {c : RbfSetup K M C R} {identityFn trainLossFn : C} {m : ℕ} {s r : ModelState K M C}
    (h : RbfInv c identityFn trainLossFn m s) (hr : (s.update { opts := [("k_mean".toList, .none)] }).1 = .ok r) :
    RbfInv c identityFn trainLossFn m r := by
  obtain ⟨e1, e2, e3⟩ := params_update hr rfl rfl rfl h.constructed.sorted
  have hn : (([("k_mean".toList, OptVal.none)] : List (Key × OptVal C)).map Prod.fst).Nodup := by simp
  have hk : r.attr "k_mean".toList = .ok OptVal.none := attr_update (v := .none) hr hn rfl
  have ho : ∀ k, k ≠ "k_mean".toList → r.attr k = s.attr k := by
    intro k hne
    have g : assocGet k ([("k_mean".toList, OptVal.none)] : List (Key × OptVal C)) = none := by
      simp only [assocGet]
      rw [if_neg hne]
    unfold ModelState.attr
    rw [get_update hr hn, g, Option.none_or, constructed_norm h.constructed]
  refine ⟨constructed_update hr, e2.trans h.kernel, e3.trans h.meanFn, ?_, ?_, ?_, .inr hk, ?_, ?_, ?_, ?_⟩
  · rw [ho _ (by decide)]; exact h.layer
  · rw [ho _ (by decide)]; exact h.loss
  · rw [ho _ (by decide)]; exact h.center
  · rw [e1]; exact h.alpha
  · rw [e1]; exact h.frozen
  · rw [e1]; exact h.points
  · rw [e1]; exact h.weights

theorem RbfInv.randomized {c : RbfSetup K M C R} {identityFn trainLossFn : C} {m : ℕ} {s r : ModelState K M C}
    (h : RbfInv c identityFn trainLossFn m s) {nxt : R → R} {sample : PriorObj → R → Arr} {key : R} {reset : Bool}
    (hg : GoodRandom nxt sample key s) (hr : rbfRandomize nxt sample identityFn trainLossFn key reset s = .ok r) :
    RbfInv c identityFn trainLossFn m r := by
  have hpar : ∀ (opt : List (Key × OptVal C)), (opt.map Prod.fst).Nodup → s.randomize nxt sample key opt = .ok r →
      r.kernel = s.kernel ∧ r.meanFn = s.meanFn ∧ ∀ path p, lookup path s.params = some (.inl p) →
        ∃ k, lookup path r.params = some (.inl (if p.trainable
          then { p with value := (sample p.prior k).map p.bijector.forward } else p)) := by
    intro opt hn h'
    obtain ⟨r', e1, e2, e3, -, -, -, keyOf, e4, -⟩ :=
      C14_randomize nxt sample s key opt h.constructed.paramsOK hn hg.sample hg.split
    rw [h'] at e1
    cases e1
    exact ⟨e2, e3, fun path p hp => ⟨keyOf path, e4 path p hp⟩⟩
  have hnd : ((rbfInitDefault identityFn trainLossFn).map Prod.fst).Nodup := by
    change [outputLayerKey, lossFnKey, centerKernelKey].Nodup
    decide
  have hp : r.kernel = s.kernel ∧ r.meanFn = s.meanFn ∧ ∀ path p, lookup path s.params = some (.inl p) →
        ∃ k, lookup path r.params = some (.inl (if p.trainable
          then { p with value := (sample p.prior k).map p.bijector.forward } else p)) := by
    cases reset
    · exact hpar [] (by simp) hr
    · exact hpar _ hnd hr
  obtain ⟨ek, em, hp⟩ := hp
  have hshape : ∀ (p : Param) (k : R), ParamOK p → (if p.trainable
      then { p with value := (sample p.prior k).map p.bijector.forward } else p).value.shape = p.value.shape := by
    intro p k hok
    split_ifs
    · exact ((hg.sample p.prior k).1).trans hok.1.symm
    · rfl
  have hpo : ∀ path p, lookup path s.params = some (.inl p) → ParamOK p := by
    intro path p hl
    exact h.constructed.paramsOK p (lookup_mem path _ _ hl)
  have halpha : ∃ p, lookup ["alpha".toList] r.params = some (.inl p) ∧ p.bijector = .softplus ∧
      ∀ v ∈ p.value.data, 0 < v := by
    obtain ⟨p, h1, h2, h3⟩ := h.alpha
    obtain ⟨k, h4⟩ := hp _ p h1
    refine ⟨_, h4, ?_, ?_⟩
    · split_ifs <;> exact h2
    · split_ifs
      · intro v hv
        simp only [Arr.map, h2, List.mem_map] at hv
        obtain ⟨a, -, rfl⟩ := hv
        exact C01_forward_in_range .softplus trivial a
      · exact h3
  have hfrozen : c.inducing.trainable = false → lookup ["inducing_points".toList] r.params = some (.inl c.inducing) := by
    intro hf
    obtain ⟨k, h4⟩ := hp _ _ (h.frozen hf)
    rw [h4, if_neg (by rw [hf]; exact Bool.false_ne_true)]
  have hpoints : ∃ p, lookup ["inducing_points".toList] r.params = some (.inl p) ∧
      p.value.shape = c.inducing.value.shape := by
    obtain ⟨p, h1, h2⟩ := h.points
    obtain ⟨k, h4⟩ := hp _ p h1
    exact ⟨_, h4, (hshape p k (hpo _ p h1)).trans h2⟩
  have hweights : ∃ p, lookup ["weights".toList] r.params = some (.inl p) ∧ p.value.shape = [m, c.numOutput] := by
    obtain ⟨p, h1, h2⟩ := h.weights
    obtain ⟨k, h4⟩ := hp _ p h1
    exact ⟨_, h4, (hshape p k (hpo _ p h1)).trans h2⟩
  cases reset
  · have h' : s.randomize nxt sample key [] = .ok r := hr
    have hc := constructed_randomize h'
    have ho : ∀ k, r.attr k = s.attr k := fun k => by
      unfold ModelState.attr
      rw [← constructed_norm hc k, (sameBut_randomize h').opts k, constructed_norm h.constructed]
    exact ⟨hc, ek.trans h.kernel, em.trans h.meanFn, by rw [ho]; exact h.layer, by rw [ho]; exact h.loss,
      by rw [ho]; exact h.center, by rw [ho]; exact h.kMean, halpha, hfrozen, hpoints, hweights⟩
  · obtain ⟨-, a1, a2, a3, a4, -⟩ := C102_reset (Out := Unit) ⟨fun _ _ _ _ v => .ok ((), v), fun _ _ _ _ _ v => .ok ((), v)⟩
      nxt sample identityFn trainLossFn key s r h.constructed h.constructed.paramsOK hg hr
    exact ⟨constructed_randomize hr, ek.trans h.kernel, em.trans h.meanFn, .inr a1, .inr a2, .inr a3,
      by rw [a4 _ (by decide)]; exact h.kMean, halpha, hfrozen, hpoints, hweights⟩

/-- **C101**, every history. However often a network is fitted (in vain) or randomised: its kernel is the given one; its output
layer, loss and centering flag are the given ones or the defaults; the stored mean of the kernel is zero or missing, never
the mean over training data; its regularisation strength is positive; the inducing points and weights keep their shapes, and
inducing points that are not trainable their values. -/
theorem C101_history (c : RbfSetup K M C R) (identityFn trainLossFn : C) (m : ℕ) (sh : List ℕ)
    (hm : c.inducing.value.shape = m :: sh)
    (ha : ∀ a, c.alpha = some a → a.bijector = .softplus ∧ ∀ v ∈ a.value.data, 0 < v)
    (s : ModelState K M C) (h : RbfReach c identityFn trainLossFn s) : RbfInv c identityFn trainLossFn m s := by
  induction h with
  | @init s h =>
    have hc := build_constructed h
    obtain ⟨kp, m', sh', al, w, -, h1, h2, h3, h4⟩ := build_cases h
    rw [hm] at h1
    cases h1
    rw [defaultAlpha_eq] at h2
    cases h2
    rw [defaultWeights_eq] at h3
    cases h3
    have hs := ModelState.new_eq h4
    refine ⟨hc, by rw [hs], by rw [hs], .inl (by rw [hs]; rfl), .inl (by rw [hs]; rfl), .inl (by rw [hs]; rfl),
      .inl (by rw [hs]; rfl), ⟨_, by rw [hs, lookup_sortKeys]; rfl, ?_, ?_⟩, fun _ => by rw [hs, lookup_sortKeys]; rfl,
      ⟨_, by rw [hs, lookup_sortKeys]; rfl, rfl⟩, ⟨_, by rw [hs, lookup_sortKeys]; rfl, rfl⟩⟩
    · rcases hx : c.alpha with _ | a
      · rfl
      · exact (ha a hx).1
    · rcases hx : c.alpha with _ | a
      · intro v hv
        simp only [Option.getD_none, scalarArr, List.mem_cons, List.not_mem_nil, or_false] at hv
        rw [hv]
        exact one_pos
      · exact (ha a hx).2
  | fit rest _ ih =>
    obtain ⟨-, -, -, -, r, h5, h6, -⟩ := C103_fit_raises rest _ ih.constructed.paramsOK
    rw [h6]
    exact ih.clear h5
  | fitNlopt rest _ ih => exact ih
  | fitOptax rest _ ih =>
    obtain ⟨-, -, -, -, r, h5, -, h7⟩ := C103_fit_raises rest _ ih.constructed.paramsOK
    rw [h7]
    exact ih.clear h5
  | randomize nxt sample key reset _ hg hr ih => exact ih.randomized hg hr

/-- Non-vacuity of `C101_history`: a network that was fitted, randomised and fitted again. -/
example : ∃ s, RbfReach exRbf true true s ∧ s.attr "k_mean".toList = .ok .none ∧
    s.attr "output_layer".toList = .ok (.callable true) := by
  have h0 : RbfReach exRbf true true exRbfState := .init exRbf_build
  have h1 := RbfReach.fit (fun s => .ok s) h0
  have i1 := C101_history exRbf true true 2 [1] rfl (fun a h => by cases h) _ h1
  obtain ⟨r, hr, -⟩ := C14_randomize Nat.succ exRbfSample (rbfnetFit (fun s => .ok s) exRbfState).2 0
    (rbfInitDefault true true) i1.constructed.paramsOK (by
      change [outputLayerKey, lossFnKey, centerKernelKey].Nodup
      decide) (exRbf_random 0 exRbfState).sample (exRbf_random 0 (rbfnetFit (fun s => .ok s) exRbfState).2).split
  have h2 := RbfReach.randomize Nat.succ exRbfSample 0 true h1 (exRbf_random 0 _) hr
  obtain ⟨-, a1, -, -, a4, -⟩ := C102_reset exRbfNum Nat.succ exRbfSample true true 0 _ r
    i1.constructed i1.constructed.paramsOK (exRbf_random 0 _) hr
  refine ⟨r, h2, ?_, a1⟩
  rw [a4 _ (by decide)]
  rfl


/-! ## C104 -/

/-- The numerical functions read nothing of a parameter but its value (rbfnet.py 96-98). -/
def ReadsValues (num : RbfNumerics K C Out) : Prop :=
  ∀ kernel d d', AtEveryPath (fun p p' : Param => p'.value = p.value) d d' →
    (∀ x center kMean, num.predictLinear kernel d' x center kMean = num.predictLinear kernel d x center kMean) ∧
    ∀ x layer center kMean, num.predict kernel d' x layer center kMean = num.predict kernel d x layer center kMean

theorem norm_callable {o : Option (OptVal C)} {f : C} (h : o.map OptVal.norm = some (.callable f)) :
    o = some (.callable f) := by
  rcases o with _ | v
  · cases h
  · cases v <;> simp_all [OptVal.norm]

theorem constructed_load {t r : ModelState K M C} {file : List (Key × Dumped)} (h : t.load file = .ok r) :
    Constructed r := by
  unfold ModelState.load at h
  split at h
  · cases h
  · split at h
    · cases h
    · split at h
      · cases h
      · obtain ⟨_, _, h⟩ := sparse_bind_ok h
        split at h
        · cases h
        · obtain ⟨_, _, h⟩ := sparse_bind_ok h
          exact constructed_update h

/-- **C104**. A network in any state it can reach, with names that can be stored (as in C08), is saved; a network with the same
kernel, output layer and parameter names, in any state it can reach, loads the file, and then makes the predictions of the saved
network, whatever its own weights, centering flag and stored mean were. -/
theorem C104_reload (c c' : RbfSetup K M C R) (identityFn trainLossFn : C) (m m' : ℕ) (sh sh' : List ℕ)
    (hm : c.inducing.value.shape = m :: sh) (hm' : c'.inducing.value.shape = m' :: sh')
    (ha : ∀ a, c.alpha = some a → a.bijector = .softplus ∧ ∀ v ∈ a.value.data, 0 < v)
    (ha' : ∀ a, c'.alpha = some a → a.bijector = .softplus ∧ ∀ v ∈ a.value.data, 0 < v)
    (s t : ModelState K M C) (hs : RbfReach c identityFn trainLossFn s) (ht : RbfReach c' identityFn trainLossFn t)
    (hk : c'.kernel = c.kernel) (hl : t.attr "output_layer".toList = s.attr "output_layer".toList)
    (hsave : Saveable s) (hkeys : t.params.KeysDistinct)
    (hst : AtEveryPath (fun p q => p.value.shape = q.prior.shape ∧ p.value.dtype = q.prior.dtype) s.params t.params)
    (num : RbfNumerics K C Out) (hnum : ReadsValues num) :
    ∃ file r, rbfSave s = .ok file ∧ rbfLoad t file = .ok r ∧
      ∀ x linearOnly, rbfPredict num r x linearOnly = rbfPredict num s x linearOnly := by
  have is := C101_history c identityFn trainLossFn m sh hm ha s hs
  have it := C101_history c' identityFn trainLossFn m' sh' hm' ha' t ht
  obtain ⟨file, r, h1, h2, h3, h4, h5, h6, h7⟩ := C08_save_load_partial s t hsave hkeys hst
  refine ⟨file, r, h1, h2, fun x lo => ?_⟩
  have hc := constructed_load h2
  have get_of_attr : ∀ {u : ModelState K M C} {k : Key} {v : OptVal C}, u.attr k = .ok v → assocGet k u.opts = some v := by
    intro u k v h
    unfold ModelState.attr at h
    split at h
    · cases h; assumption
    · cases h
  have hcen : r.attr centerKernelKey = s.attr centerKernelKey := by
    have : ∃ b, assocGet centerKernelKey s.opts = some (.bool b) := by
      rcases is.center with h | h
      · exact ⟨_, get_of_attr h⟩
      · exact ⟨_, get_of_attr h⟩
    obtain ⟨b, hb⟩ := this
    have h8 := h7 centerKernelKey
    rw [hb] at h8
    have h9 : assocGet centerKernelKey r.opts = some (.bool b) := norm_bool h8
    unfold ModelState.attr
    rw [h9, hb]
  have hkm : r.attr kMeanKey = s.attr kMeanKey := by
    rcases is.kMean with h | h
    · have hb : assocGet kMeanKey s.opts = _ := get_of_attr h
      have h8 := h7 kMeanKey
      rw [hb, constructed_norm hc] at h8
      unfold ModelState.attr
      rw [h8, hb]
      rfl
    · have hb : assocGet kMeanKey s.opts = _ := get_of_attr h
      have h8 := h7 kMeanKey
      rw [hb, constructed_norm hc] at h8
      unfold ModelState.attr
      rw [h8, hb]
      rfl
  have hlay : r.attr outputLayerKey = s.attr outputLayerKey := by
    have : ∃ f, assocGet outputLayerKey s.opts = some (.callable f) := by
      rcases is.layer with h | h
      · exact ⟨_, get_of_attr h⟩
      · exact ⟨_, get_of_attr h⟩
    obtain ⟨f, hf⟩ := this
    have h8 := h7 outputLayerKey
    have hft : assocGet outputLayerKey t.opts = some (.callable f) := by
      apply get_of_attr
      change t.attr outputLayerKey = s.attr outputLayerKey at hl
      rw [hl]
      unfold ModelState.attr
      rw [hf]
    rw [hf] at h8
    simp only [hft] at h8
    have h9 := norm_callable h8
    unfold ModelState.attr
    rw [h9, hf]
  have hker : r.kernel = s.kernel := h3.trans (it.kernel.trans (hk.trans is.kernel.symm))
  obtain ⟨n1, n2⟩ := hnum s.kernel s.params r.params h5
  unfold rbfPredict rbfStatePredict
  rw [hcen, hkm, hlay, hker]
  simp only [n1, n2]

theorem exRbf_saveable : Saveable exRbfState := by
  unfold Saveable exRbfState
  refine ⟨?_, ?_, ?_, ⟨_, rfl⟩, ?_, ?_⟩
  · simp only [Dict.KeysDistinct, Dict.keys]; decide
  · simp only [WellKeyed, goodKey]; decide
  · simp only [NoShortShadow, leafKeys]; decide
  · simp only [List.map_cons, List.map_nil]; decide
  · intro kv hkv
    simp only [List.mem_cons, List.not_mem_nil, or_false] at hkv
    rcases hkv with rfl | rfl | rfl | rfl <;> simp only [goodKey] <;> decide

/-- Non-vacuity of `C104_reload`: the network above, saved and loaded by a network with other weights. -/
example : ∃ t, ({ exRbf with key := 8, center := false } : RbfSetup Unit Unit Bool ℕ).build = .ok t ∧ ∃ file r,
    rbfSave exRbfState = .ok file ∧ rbfLoad t file = .ok r ∧
    ∀ x linearOnly, rbfPredict exRbfNum r x linearOnly = rbfPredict exRbfNum exRbfState x linearOnly := by
  have hP : ParamsOK (.leaf "lengthscale".toList ⟨scalarArr 1, true, .softplus, gammaPrior⟩ .nil : Dict Param) := by
    intro p hp; simp only [Dict.leaves, List.mem_cons, List.not_mem_nil, or_false] at hp; subst hp; exact ⟨rfl, rfl⟩
  obtain ⟨t, ht, -⟩ := C101_init ({ exRbf with key := 8, center := false } : RbfSetup Unit Unit Bool ℕ) _ rfl hP
    ⟨rfl, rfl⟩ (fun a h => by cases h) 2 [1] rfl
  obtain ⟨kp, m, sh, al, w, h1, h2, h3, h4, h5⟩ := build_cases ht
  have hkp : kp = .leaf "lengthscale".toList ⟨scalarArr 1, true, .softplus, gammaPrior⟩ .nil := by
    have h1' : (Except.ok (.leaf "lengthscale".toList ⟨scalarArr 1, true, .softplus, gammaPrior⟩ .nil) : Except Err (Dict Param)) = .ok kp := h1
    cases h1'; rfl
  subst hkp
  have h2' : [2, 1] = m :: sh := h2
  cases h2'
  rw [defaultAlpha_eq] at h3
  cases h3
  rw [defaultWeights_eq] at h4
  cases h4
  have hte := ModelState.new_eq h5
  refine ⟨t, ht, C104_reload exRbf _ true true 2 2 [1] [1] rfl rfl (fun a h => by cases h) (fun a h => by cases h) exRbfState t
    (.init exRbf_build) (.init ht) rfl (by rw [hte]; rfl) exRbf_saveable ?_ ?_ exRbfNum ?_⟩
  · rw [hte]
    change (Dict.leaf alphaKey _ (.leaf inducingPointsKey _ (.node kernelParamsKey (.leaf _ _ .nil) (.leaf weightsKey _ .nil)))).KeysDistinct
    simp only [Dict.KeysDistinct, Dict.keys]
    decide
  · rw [hte]
    apply atEveryPath_of_rel
    exact .leaf ⟨rfl, rfl⟩ (.leaf ⟨rfl, rfl⟩ (.node (.leaf ⟨rfl, rfl⟩ .nil) (.leaf ⟨rfl, rfl⟩ .nil)))
  · intro _ _ _ _
    exact ⟨fun _ _ _ => rfl, fun _ _ _ _ => rfl⟩

end GPX.Props
