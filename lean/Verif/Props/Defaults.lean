import Verif.Model.Defaults
import Verif.Props.Optim
import Verif.Props.GPR

/-! # C86: models built with default parameters stay well posed however they are trained -/

namespace GPX.Props
open GPX Spec
noncomputable section
variable {K M C : Type} {d n o : ℕ}

/-! ### vocabulary -/

/-- The expression contains a polynomial kernel. -/
def HasPolynomial : KExpr d → Prop
  | .polynomial _ _ => True
  | .sum a b => HasPolynomial a ∨ HasPolynomial b
  | .prod a b => HasPolynomial a ∨ HasPolynomial b
  | _ => False

/-- The states a user can bring a model to that was built with the parameters `D`: by storing anything but
parameters in it (as every `fit` does), by training with SciPy, NLopt or Optax with any loss and any solver, and by
`randomize`, in any order and any number of times. `optaxToo` says whether Optax is among them. -/
inductive Trained (optaxToo : Prop) (D : Dict Param) : ModelState K M C → Prop
  | init (k : K) (m : M) (kw : List (Key × OptVal C)) (s : ModelState K M C) :
      ModelState.new k m D kw = .ok s → Trained optaxToo D s
  | store (s r : ModelState K M C) (u : StateUpdate K M C) :
      Trained optaxToo D s → u.params = none → (s.update u).1 = .ok r → Trained optaxToo D r
  | scipy {O : Type} (solve : (List ℝ → Except Err ℝ) → List ℝ → Except Err (List ℝ × O))
      (loss : ModelState K M C → Except Err ℝ) (s r : ModelState K M C) (o : O) :
      Trained optaxToo D s → scipyMinimize solve loss s = .ok (r, o) → Trained optaxToo D r
  | nlopt {O : Type} (solve : (List ℝ → Except Err ℝ) → List ℝ → Except Err (List ℝ × O))
      (loss : ModelState K M C → Except Err ℝ) (orig s r : ModelState K M C) (o : O) :
      Trained optaxToo D orig → Trained optaxToo D s → nloptOptimize solve orig loss s = .ok (r, o) → Trained optaxToo D r
  | optax {O X Y : Type} (opt : Optimizer K M C O) (loss : X → Y → ModelState K M C → Except Err ℝ) (x : X) (y : Y)
      (xval : Option X) (yval : Option Y) (nsteps : ℕ) (s r : ModelState K M C) (o : O) (hist : OptaxHistory) :
      optaxToo → Trained optaxToo D s → Quiet opt →
      optaxMinimize opt loss x y xval yval nsteps s = .ok (r, o, hist) → Trained optaxToo D r
  | randomize {R : Type} (nxt : R → R) (sample : PriorObj → R → Arr) (s r : ModelState K M C) (key : R)
      (opt : List (Key × OptVal C)) :
      Trained optaxToo D s → (opt.map Prod.fst).Nodup →
      (∀ q k, (sample q k).shape = q.shape ∧ (sample q k).dtype = q.dtype ∧ (sample q k).WF) →
      (∀ a ≤ s.params.leaves.length, ∀ b ≤ s.params.leaves.length, nxt^[a] key = nxt^[b] key → a = b) →
      s.randomize nxt sample key opt = .ok r → Trained optaxToo D r

/-- What training keeps of a parameter: everything but the value; the value keeps its shape and stays in the range of
the bijector; where it is frozen (and the kernel cares) it is the same. -/
def Settled (e : KExpr d) (p0 p : Param) : Prop :=
  p.trainable = p0.trainable ∧ p.bijector = p0.bijector ∧ p.prior = p0.prior ∧ p.value.shape = p0.value.shape ∧
    p.value.dtype = p0.value.dtype ∧ p.value.data.length = p0.value.data.length ∧
    (∀ x ∈ p.value.data, x ∈ range p0.bijector) ∧
    (HasPolynomial e → p0.trainable = false → p.value = p0.value)

/-- A dictionary of valid parameters, each within the range of its bijector, with the arrays well formed. -/
def Sound (D : Dict Param) : Prop :=
  ParamsOK D ∧ D.KeysDistinct ∧ ∀ p ∈ D.leaves, sensible p.bijector ∧ p.value.WF ∧
    ∀ x ∈ p.value.data, x ∈ range p.bijector

/-- The dictionary holds the default parameters of the kernel and a positive scalar `sigma`. -/
def HasDefaults (e : KExpr d) (D : Dict Param) : Prop :=
  ∃ kp, e.defaultParams = .ok kp ∧
    (∀ path, path ≠ [] → lookup ("kernel_params".toList :: path) D = lookup path kp) ∧
    ∃ p, lookup ["sigma".toList] D = some (.inl p) ∧ p.bijector = .softplus ∧ p.value.data.length = 1

/-! ### the invariant -/

theorem keysDistinct_of_struct {α β : Type} (d : Dict α) (d' : Dict β)
    (h : d'.map (fun _ => ()) = d.sortKeys.map (fun _ => ())) (hd : d.KeysDistinct) : d'.KeysDistinct := by
  rw [← Dict.keysDistinct_map (fun _ => ()), h, Dict.keysDistinct_map, Dict.keysDistinct_sortKeys]
  exact hd

theorem refill_struct {α β : Type} (d : Dict α) : ∀ (vs rest : List β) (d' : Dict β),
    d.refill vs = some (d', rest) → d'.map (fun _ => ()) = d.map (fun _ => ()) := by
  induction d with
  | nil => intro vs rest d' h; simp only [Dict.refill, Option.some.injEq, Prod.mk.injEq] at h; rw [← h.1]; rfl
  | leaf k a r ih =>
    intro vs rest d' h
    cases vs with
    | nil => simp [Dict.refill] at h
    | cons v vs =>
      rcases e : r.refill vs with _ | ⟨r', rest'⟩
      · simp [Dict.refill, e] at h
      · simp only [Dict.refill, e, Option.bind_eq_bind, Option.bind_some, Option.pure_def, Option.some.injEq,
          Prod.mk.injEq] at h
        rw [← h.1]
        simp [Dict.map, ih _ _ _ e]
  | node k s r ih1 ih =>
    intro vs rest d' h
    rcases e1 : s.refill vs with _ | ⟨s', rest1⟩
    · simp [Dict.refill, e1] at h
    · rcases e2 : r.refill rest1 with _ | ⟨r', rest2⟩
      · simp [Dict.refill, e1, e2] at h
      · simp only [Dict.refill, e1, e2, Option.bind_eq_bind, Option.bind_some, Option.pure_def, Option.some.injEq,
          Prod.mk.injEq] at h
        rw [← h.1]
        simp [Dict.map, ih1 _ _ _ e1, ih _ _ _ e2]

theorem rebuildParams_struct (D : Dict Param) (vs : List Arr) (D' : Dict Param) (h : rebuildParams D vs = .ok D') :
    D'.map (fun _ => ()) = D.sortKeys.map (fun _ => ()) := by
  unfold rebuildParams at h
  split at h
  · cases h
  · rcases e : (D.treeLeaves.zip vs).mapM
      (fun pv => Param.new pv.2 pv.1.trainable pv.1.bijector pv.1.prior) with x | ps
    · simp only [e, bind, Except.bind] at h; cases h
    · simp only [e, bind, Except.bind] at h
      unfold Dict.treeUnflatten at h
      rcases e2 : D.sortKeys.refill ps with _ | ⟨D2, rest⟩
      · rw [e2] at h; cases h
      · rw [e2] at h
        cases rest with
        | nil => cases h; exact refill_struct _ _ _ _ e2
        | cons _ _ => cases h

theorem mapE_struct (f : Param → Except Err Param) (D : Dict Param) : ∀ D' : Dict Param, D.mapE f = .ok D' →
    D'.map (fun _ => ()) = D.map (fun _ => ()) := by
  induction D with
  | nil => intro D' h; cases h; rfl
  | leaf k a r ih =>
    intro D' h
    rcases e1 : f a with x | b
    · simp only [Dict.mapE, e1, bind, Except.bind] at h; cases h
    · rcases e2 : r.mapE f with x | r'
      · simp only [Dict.mapE, e1, e2, bind, Except.bind] at h; cases h
      · simp only [Dict.mapE, e1, e2, bind, Except.bind] at h
        cases h
        simp [Dict.map, ih _ e2]
  | node k s r ih1 ih =>
    intro D' h
    rcases e1 : s.mapE f with x | b
    · simp only [Dict.mapE, e1, bind, Except.bind] at h; cases h
    · rcases e2 : r.mapE f with x | r'
      · simp only [Dict.mapE, e1, e2, bind, Except.bind] at h; cases h
      · simp only [Dict.mapE, e1, e2, bind, Except.bind] at h
        cases h
        simp [Dict.map, ih1 _ e1, ih _ e2]

theorem update_params (s r : ModelState K M C) (u : StateUpdate K M C) (hok : ParamsOK (u.params.getD s.params))
    (h : (s.update u).1 = .ok r) : r.params = (u.params.getD s.params).sortKeys := by
  rw [ModelState.update_ok s u hok] at h
  cases h
  rfl

theorem keysDistinct_sort (D : Dict Param) (h : D.KeysDistinct) : D.sortKeys.KeysDistinct :=
  (Dict.keysDistinct_sortKeys D).mpr h

theorem propose_keysDistinct (orig s r : ModelState K M C) (xt : List ℝ) (hok : ParamsOK orig.params)
    (hk : orig.params.KeysDistinct) (h : proposeOn orig s xt = .ok r) : r.params.KeysDistinct := by
  obtain ⟨hl, -, -, -, d', h1, h2, -⟩ := proposeOn_ok orig s xt hok r h
  obtain ⟨cs, d2, -, -, h3, h4, -⟩ := unravelForward_ok orig.params xt hok (by rw [sizes_sum]; exact hl)
  rw [h1] at h3
  cases h3
  rw [h2]
  exact keysDistinct_sort _ (keysDistinct_of_struct _ _ h4 hk)

theorem atEveryPath_trans {R S T : Param → Param → Prop} {a b c : Dict Param}
    (h : ∀ p q r, R p q → S q r → T p r) (h1 : AtEveryPath R a b) (h2 : AtEveryPath S b c) : AtEveryPath T a c := by
  intro path
  have e1 := h1 path
  have e2 := h2 path
  rcases x1 : lookup path a with _ | p | u <;> rcases x2 : lookup path b with _ | q | v <;>
    rcases x3 : lookup path c with _ | r | w <;> simp only [x1, x2, x3] at e1 e2 ⊢
  exact h _ _ _ e1 e2

theorem sensible_of_settled {e : KExpr d} {D E : Dict Param} (hD : Sound D) (hE : E.KeysDistinct)
    (h : AtEveryPath (Settled e) D E) : ∀ p ∈ E.leaves, sensible p.bijector := by
  intro p hp
  have h1 := (treeLeaves_rel hD.2.1 hE h).1
  have hp' : p ∈ E.treeLeaves := (mem_leaves_sortKeys _ _).mpr hp
  have h3 : ∀ q ∈ D.treeLeaves, sensible q.bijector := fun q hq => (hD.2.2 q ((mem_leaves_sortKeys _ _).mp hq)).1
  generalize D.treeLeaves = l at h1 h3
  generalize E.treeLeaves = l' at h1 hp'
  induction h1 with
  | nil => simp at hp'
  | cons hab _ ih =>
    rcases List.mem_cons.mp hp' with rfl | hp'
    · rw [hab.2.1]; exact h3 _ (by simp)
    · exact ih (fun q hq => h3 q (List.mem_cons_of_mem _ hq)) hp'

/-- Moving only trainable values, within their ranges, keeps what training keeps. -/
theorem settled_moved {e : KExpr d} {D E F : Dict Param} (h : AtEveryPath (Settled e) D E)
    (h2 : OnlyTrainablesMoved E F) : AtEveryPath (Settled e) D F := by
  refine atEveryPath_trans ?_ h h2
  rintro p q r ⟨a1, a2, a3, a4, a5, a6, a7, a8⟩ ⟨hf, ht⟩
  cases e1 : q.trainable with
  | false => rw [hf e1]; exact ⟨a1, a2, a3, a4, a5, a6, a7, a8⟩
  | true =>
    obtain ⟨b1, b2, b3, b4, b5, b6, b7⟩ := ht e1
    rw [e1] at a1
    refine ⟨by rw [b1, a1], by rw [b2, a2], by rw [b3, a3], by rw [b4, a4], by rw [b5, a5], by rw [b6, a6], ?_, ?_⟩
    · intro x hx; rw [← a2]; exact b7 x hx
    · intro _ hc; rw [← a1] at hc; cases hc

theorem trained_invariant (e : KExpr d) (D : Dict Param) (hD : Sound D) (s : ModelState K M C)
    (h : Trained (¬ HasPolynomial e) D s) :
    ParamsOK s.params ∧ s.params.KeysDistinct ∧ AtEveryPath (Settled e) D s.params := by
  induction h with
  | init k m kw s h =>
    rw [ModelState.new_ok k m D kw hD.1] at h
    cases h
    refine ⟨fun p hp => hD.1 p ((mem_leaves_sortKeys _ _).mp hp), keysDistinct_sort _ hD.2.1, ?_⟩
    intro path
    rw [lookup_sortKeys]
    rcases x1 : lookup path D with _ | p | u
    · trivial
    · exact ⟨rfl, rfl, rfl, rfl, rfl, rfl, (hD.2.2 p (lookup_mem _ _ _ x1)).2.2, fun _ _ => rfl⟩
    · trivial
  | store s r u _ hu hr ih =>
    obtain ⟨h1, h2, h3⟩ := ih
    have hp := update_params s r u (by rw [hu]; exact h1) hr
    rw [hu] at hp
    simp only [Option.getD_none] at hp
    rw [hp]
    exact ⟨fun p hp => h1 p ((mem_leaves_sortKeys _ _).mp hp), keysDistinct_sort _ h2, atEveryPath_sort' h3⟩
  | scipy solve loss s r o _ hr ih =>
    obtain ⟨h1, h2, h3⟩ := ih
    have hm := (C60_scipy_state solve loss s r o h1 (sensible_of_settled hD h2 h3) hr).2.2.2
    obtain ⟨x, -, hx⟩ := (scipyMinimize_eq solve loss s r o).mp hr
    exact ⟨(proposeOn_ok s s x h1 r hx).2.2.2.2.choose_spec.2.2, propose_keysDistinct s s r x h1 h2 hx,
      settled_moved h3 hm⟩
  | nlopt solve loss orig s r o _ _ hr ih _ =>
    obtain ⟨h1, h2, h3⟩ := ih
    have hm := (C60_nlopt_partial solve loss orig s r o h1 (sensible_of_settled hD h2 h3) hr).2.2.2.1
    obtain ⟨x, -, hx⟩ := (nloptOptimize_eq solve loss orig s r o).mp hr
    exact ⟨(proposeOn_ok orig s x h1 r hx).2.2.2.2.choose_spec.2.2, propose_keysDistinct orig s r x h1 h2 hx,
      settled_moved h3 hm⟩
  | optax opt loss x y xval yval nsteps s r o hist hpoly _ hopt hr ih =>
    obtain ⟨h1, h2, h3⟩ := ih
    have hm := (C61_optax_partial opt loss x y xval yval nsteps s r o hist h1 (sensible_of_settled hD h2 h3) hopt
      hr).2.2.2
    obtain ⟨it, os, g1, g0, g2, g3, -⟩ := C45_optax_history opt loss x y xval yval nsteps s r o hist hr
    obtain ⟨a1, a2, a3, a4, a5, a6⟩ := transform_leaves "backward".toList (fun p => p.bijector.backward) s
      (it 0) h1 (.inr ⟨rfl, fun _ => rfl⟩) g1
    obtain ⟨b1, b2, b3, b4, b5, b6⟩ := iterates_keep it (fun i => (opt.update (it i) (os i)).1) nsteps a4
      (fun s i hi hs => by subst hs; exact hopt _ _ (inRun_iterate opt it os nsteps a4 g0 g2 i hi.le))
      (fun i hi => (g2 i hi).1)
    obtain ⟨c1, c2, c3, c4, c5, c6⟩ := transform_leaves "forward".toList (fun p => p.bijector.forward)
      (it nsteps) r b2 (.inl ⟨rfl, fun _ => rfl⟩) g3
    refine ⟨c4, ?_, atEveryPath_trans ?_ h3 hm⟩
    · rw [← Dict.keysDistinct_sortKeys]
      exact keysDistinct_of_struct s.params _ (by rw [c5, b3, a5]) h2
    · rintro p q r ⟨a1, a2, a3, a4, a5, a6, a7, a8⟩ ⟨b1, b2, b3, b4, b5, b6, b7, b8⟩
      refine ⟨by rw [b1, a1], by rw [b2, a2], by rw [b3, a3], by rw [b4, a4], by rw [b5, a5], by rw [b6, a6], ?_, ?_⟩
      · intro x hx; rw [← a2]; exact b7 x hx
      · intro hc; exact absurd hc hpoly
  | randomize nxt sample s r key opt _ hopt hsample hsplit hr ih =>
    obtain ⟨h1, h2, h3⟩ := ih
    obtain ⟨r', e1, -, -, -, hnone, hsub, keyOf, hval, -⟩ := C14_randomize nxt sample s key opt h1 hopt
      (fun q k => ⟨(hsample q k).1, (hsample q k).2.1⟩) hsplit
    rw [hr] at e1
    cases e1
    have hsen := sensible_of_settled hD h2 h3
    -- structure
    have hst : ParamsOK r.params ∧ r.params.KeysDistinct := by
      have hu := ModelState.update_ok s ({} : StateUpdate K M C) h1
      unfold ModelState.randomize at hr
      simp only [hu, bind, Except.bind] at hr
      split at hr
      · cases hr
      · rename_i D' hD'
        have hk := keysDistinct_of_struct _ _ (rebuildParams_struct _ _ _ hD')
          (by simpa using keysDistinct_sort _ h2)
        refine ⟨ModelState.new_paramsOK hr, ?_⟩
        have hr' := hr
        unfold ModelState.update ModelState.new at hr'
        simp only [Option.getD_some] at hr'
        rcases e : D'.sortKeys.mapE (fun p => Param.new p.value p.trainable p.bijector p.prior) with x | D2
        · simp only [e, bind, Except.bind] at hr'; cases hr'
        · simp only [e, bind, Except.bind] at hr'
          cases hr'
          exact keysDistinct_of_struct _ _ (mapE_struct _ _ _ e) hk
    refine ⟨hst.1, hst.2, ?_⟩
    intro path
    have hp := h3 path
    rcases x1 : lookup path D with _ | p | u <;> rcases x2 : lookup path s.params with _ | q | v <;>
      simp only [x1, x2] at hp ⊢
    · rw [(hnone path).mp x2]; trivial
    · rw [hval path q x2]
      obtain ⟨a1, a2, a3, a4, a5, a6, a7, a8⟩ := hp
      by_cases ht : q.trainable = true
      · simp only [ht, if_true]
        have hq := h1 q (lookup_mem _ _ _ x2)
        refine ⟨a1 ▸ ht.symm ▸ rfl, a2, a3, ?_, ?_, ?_, ?_, ?_⟩
        · show (sample q.prior _).shape = _
          rw [(hsample _ _).1, ← hq.1, a4]
        · show (sample q.prior _).dtype = _
          rw [(hsample _ _).2.1, ← hq.2, a5]
        · have hw := (hsample q.prior (keyOf path)).2.2
          have hw0 := (hD.2.2 p (lookup_mem _ _ _ x1)).2.1
          unfold Arr.WF at hw hw0
          simp only [Arr.map, List.length_map]
          rw [hw, hw0, (hsample _ _).1, ← hq.1, a4]
        · intro x hx
          simp only [Arr.map, List.mem_map] at hx
          obtain ⟨w, -, rfl⟩ := hx
          rw [← a2]
          exact C01_forward_in_range _ (hsen q (lookup_mem _ _ _ x2)) w
        · intro _ hc
          rw [← a1, ht] at hc
          cases hc
      · simp only [ht]
        exact ⟨a1, a2, a3, a4, a5, a6, a7, a8⟩
    · rw [(hsub path).mp x2]; trivial

/-! ### the defaults -/

theorem newScalar (x : ℝ) (t : Bool) (b : Bijector) (q : PriorObj) (h : q.shape = [] ∧ q.dtype = float64) :
    Param.new (scalarArr x) t b q = .ok ⟨scalarArr x, t, b, q⟩ :=
  Param.new_ok' _ _ _ _ h.1.symm h.2.symm

/-- A scalar parameter as the constructors make it. -/
def ScalarOK (p : Param) : Prop :=
  ParamOK p ∧ sensible p.bijector ∧ ∃ x, p.value = scalarArr x ∧ x ∈ range p.bijector

theorem default_spec (e : KExpr d) : ∃ kp, e.defaultParams = .ok kp ∧ kp.KeysDistinct ∧ ∀ p ∈ kp.leaves, ScalarOK p := by
  have hg : ∀ x : ℝ, 0 < x → ∀ t, ScalarOK ⟨scalarArr x, t, .softplus, gammaPrior⟩ :=
    fun x hx t => ⟨⟨rfl, rfl⟩, trivial, x, rfl, hx⟩
  have one : ∀ k : Key, ∃ kp, (do
      let v ← Param.new (scalarArr 1) true .softplus gammaPrior
      pure (.leaf k v .nil) : Except Err (Dict Param)) = .ok kp ∧ kp.KeysDistinct ∧ ∀ p ∈ kp.leaves, ScalarOK p := by
    intro k
    refine ⟨_, rfl, by simp [Dict.KeysDistinct, Dict.keys], ?_⟩
    intro p hp
    simp only [Dict.leaves, List.mem_cons, List.not_mem_nil, or_false] at hp
    subst hp
    exact hg 1 one_pos _
  have two : ∀ e1 e2 : KExpr d,
      (∃ kp, e1.defaultParams = .ok kp ∧ kp.KeysDistinct ∧ ∀ p ∈ kp.leaves, ScalarOK p) →
      (∃ kp, e2.defaultParams = .ok kp ∧ kp.KeysDistinct ∧ ∀ p ∈ kp.leaves, ScalarOK p) →
      ∃ kp, (do
        let p1 ← e1.defaultParams
        let p2 ← e2.defaultParams
        pure (.node "kernel1".toList p1 (.node "kernel2".toList p2 .nil)) : Except Err (Dict Param)) = .ok kp ∧
        kp.KeysDistinct ∧ ∀ p ∈ kp.leaves, ScalarOK p := by
    rintro e1 e2 ⟨k1, a1, a2, a3⟩ ⟨k2, b1, b2, b3⟩
    refine ⟨.node "kernel1".toList k1 (.node "kernel2".toList k2 .nil), ?_, ?_, ?_⟩
    · simp only [a1, b1, bind, Except.bind]; rfl
    · exact ⟨by simp [Dict.keys], a2, by simp [Dict.keys], b2, trivial⟩
    · intro p hp
      simp only [Dict.leaves, List.append_nil, List.mem_append] at hp
      exact hp.elim (a3 p) (b3 p)
  induction e with
  | constant _ => exact one _
  | linear _ => exact ⟨.nil, rfl, trivial, by simp [Dict.leaves]⟩
  | polynomial _ _ =>
    refine ⟨_, rfl, ⟨by decide, by decide, trivial⟩, ?_⟩
    intro p hp
    simp only [Dict.leaves, List.mem_cons, List.not_mem_nil, or_false] at hp
    rcases hp with rfl | rfl
    · exact hg 2 two_pos _
    · exact ⟨⟨rfl, rfl⟩, trivial, 1, rfl, trivial⟩
  | squaredExponential _ => exact one _
  | matern12 _ => exact one _
  | matern32 _ => exact one _
  | matern52 _ => exact one _
  | expSinSquared _ =>
    refine ⟨_, rfl, ⟨by decide, by decide, trivial⟩, ?_⟩
    intro p hp
    simp only [Dict.leaves, List.mem_cons, List.not_mem_nil, or_false] at hp
    rcases hp with rfl | rfl
    · exact hg 1 one_pos _
    · exact hg _ Real.two_pi_pos _
  | sum e1 e2 h1 h2 => exact two e1 e2 h1 h2
  | prod e1 e2 h1 h2 => exact two e1 e2 h1 h2

/-- The name a path of the model has in the dictionary. -/
abbrev pathKeys (path : List String) : List Key := path.map String.toList

/-- The values keep the range of each default parameter, and the value of the frozen ones where there is a
polynomial. -/
def Reads (e0 : KExpr d) (kp : Dict Param) (val : KPar) : Prop :=
  ∀ path p0, lookup (pathKeys path) kp = some (.inl p0) → val path ∈ range p0.bijector ∧
    (HasPolynomial e0 → p0.trainable = false → p0.value = scalarArr (val path))

theorem reads_one (e0 : KExpr d) (kp : Dict Param) (val : KPar) (h : Reads e0 kp val) (k : String) (p0 : Param)
    (hb : p0.bijector = .softplus) (hk : kp = .leaf k.toList p0 .nil) : 0 < val.val k := by
  have := (h [k] p0 (by rw [hk]; simp [lookup, Dict.get?])).1
  rw [hb] at this
  exact this

theorem reads_two (e0 e1 e2 : KExpr d) (kp : Dict Param) (val : KPar) (h : Reads e0 kp val)
    (h1 : ∀ kp, e1.defaultParams = .ok kp → ∀ val, Reads e0 kp val → Admissible e1 val)
    (h2 : ∀ kp, e2.defaultParams = .ok kp → ∀ val, Reads e0 kp val → Admissible e2 val)
    (hk : (do
        let p1 ← e1.defaultParams
        let p2 ← e2.defaultParams
        pure (.node "kernel1".toList p1 (.node "kernel2".toList p2 .nil)) : Except Err (Dict Param)) = .ok kp) :
    Admissible e1 (val.sub "kernel1") ∧ Admissible e2 (val.sub "kernel2") := by
  obtain ⟨k1, a1, -⟩ := default_spec e1
  obtain ⟨k2, b1, -⟩ := default_spec e2
  simp only [a1, b1, bind, Except.bind, pure, Except.pure, Except.ok.injEq] at hk
  constructor
  · refine h1 k1 a1 _ fun path p0 hp => h ("kernel1" :: path) p0 ?_
    rw [← hk]
    simpa [lookup, Dict.get?] using hp
  · refine h2 k2 b1 _ fun path p0 hp => h ("kernel2" :: path) p0 ?_
    rw [← hk]
    have hne : "kernel2".toList ≠ "kernel1".toList := by decide
    simpa [lookup, Dict.get?, hne] using hp

theorem admissible_of (e e0 : KExpr d) (hpoly : HasPolynomial e → HasPolynomial e0) :
    ∀ kp, e.defaultParams = .ok kp → ∀ val, Reads e0 kp val → Admissible e val := by
  induction e with
  | constant _ =>
    intro kp hkp val h
    exact (reads_one e0 kp val h "variance" ⟨scalarArr 1, true, .softplus, gammaPrior⟩ rfl (by cases hkp; rfl)).le
  | linear _ => intros; trivial
  | polynomial _ _ =>
    intro kp hkp val h
    cases hkp
    have h1 := (h ["degree"] ⟨scalarArr 2, false, .softplus, gammaPrior⟩ rfl).2 (hpoly trivial) rfl
    have h2 := (h ["offset"] ⟨scalarArr 1, false, .identity, normalPrior⟩ rfl).2 (hpoly trivial) rfl
    simp only [scalarArr, Arr.mk.injEq, List.cons.injEq, and_true, true_and] at h1 h2
    exact ⟨⟨2, by show val ["degree"] = _; rw [← h1]; norm_num⟩, by show 0 ≤ val ["offset"]; rw [← h2]; norm_num⟩
  | squaredExponential _ =>
    intro kp hkp val h
    exact reads_one e0 kp val h "lengthscale" ⟨scalarArr 1, true, .softplus, gammaPrior⟩ rfl (by cases hkp; rfl)
  | matern12 _ =>
    intro kp hkp val h
    exact reads_one e0 kp val h "lengthscale" ⟨scalarArr 1, true, .softplus, gammaPrior⟩ rfl (by cases hkp; rfl)
  | matern32 _ =>
    intro kp hkp val h
    exact reads_one e0 kp val h "lengthscale" ⟨scalarArr 1, true, .softplus, gammaPrior⟩ rfl (by cases hkp; rfl)
  | matern52 _ =>
    intro kp hkp val h
    exact reads_one e0 kp val h "lengthscale" ⟨scalarArr 1, true, .softplus, gammaPrior⟩ rfl (by cases hkp; rfl)
  | expSinSquared _ =>
    intro kp hkp val h
    cases hkp
    exact ⟨(h ["lengthscale"] ⟨scalarArr 1, true, .softplus, gammaPrior⟩ rfl).1,
      (h ["periodicity"] ⟨scalarArr (2 * Real.pi), false, .softplus, gammaPrior⟩ rfl).1⟩
  | sum e1 e2 h1 h2 =>
    intro kp hkp val h
    exact reads_two e0 e1 e2 kp val h (h1 fun x => hpoly (.inl x)) (h2 fun x => hpoly (.inr x)) hkp
  | prod e1 e2 h1 h2 =>
    intro kp hkp val h
    exact reads_two e0 e1 e2 kp val h (h1 fun x => hpoly (.inl x)) (h2 fun x => hpoly (.inr x)) hkp

theorem at_of_lookup (path : List Key) (D : Dict Param) (p : Param) (h : lookup path D = some (.inl p)) :
    D.at? path = some p := by
  induction path generalizing D with
  | nil => simp [lookup] at h
  | cons k ks ih =>
    rw [lookup] at h
    rw [Dict.at?]
    rcases e : D.get? k with _ | b | s <;> rw [e] at h <;> simp only at h ⊢
    · cases h
    · split at h
      · simp only [Option.some.injEq, Sum.inl.injEq] at h
        subst h
        simp [*]
      · cases h
    · exact ih s h

/-- A scalar parameter of the initial dictionary is read from every later one. -/
theorem scalar_read {e : KExpr d} {D E : Dict Param} (h : AtEveryPath (Settled e) D E) (path : List Key) (p0 : Param)
    (h0 : lookup path D = some (.inl p0)) (hl : p0.value.data.length = 1) :
    ∃ p x, lookup path E = some (.inl p) ∧ Settled e p0 p ∧ p.value.data = [x] ∧ E.scalarAt? path = some x := by
  have hp := h path
  rw [h0] at hp
  rcases e2 : lookup path E with _ | p | u <;> rw [e2] at hp <;> simp only at hp
  have hlen : p.value.data.length = 1 := hp.2.2.2.2.2.1.trans hl
  obtain ⟨x, hx⟩ := List.length_eq_one_iff.mp hlen
  exact ⟨p, x, rfl, hp, hx, by simp [Dict.scalarAt?, at_of_lookup _ _ _ e2, hx]⟩

/-! ### the initial dictionaries -/

theorem sound_of_scalar {p : Param} (h : ScalarOK p) :
    sensible p.bijector ∧ p.value.WF ∧ ∀ x ∈ p.value.data, x ∈ range p.bijector := by
  obtain ⟨-, h2, x, hx, hr⟩ := h
  refine ⟨h2, ?_, ?_⟩
  · rw [hx]; simp [Arr.WF, scalarArr]
  · intro y hy
    rw [hx] at hy
    simp only [scalarArr, List.mem_cons, List.not_mem_nil, or_false] at hy
    rw [hy]; exact hr

/-- A parameter a user passes: valid, with a sensible bijector, its values in range. -/
def UserParam (p : Param) : Prop :=
  ParamOK p ∧ sensible p.bijector ∧ p.value.WF ∧ ∀ x ∈ p.value.data, x ∈ range p.bijector

theorem gprInit_spec (e : KExpr d) : ∃ D, gprInitParams e = .ok D ∧ Sound D ∧ HasDefaults e D := by
  obtain ⟨kp, h1, h2, h3⟩ := default_spec e
  have hs : ScalarOK ⟨scalarArr 1, true, .softplus, gammaPrior⟩ := ⟨⟨rfl, rfl⟩, trivial, 1, rfl, (one_pos : (0 : ℝ) < 1)⟩
  refine ⟨.node "kernel_params".toList kp (.leaf "sigma".toList ⟨scalarArr 1, true, .softplus, gammaPrior⟩ .nil), ?_,
    ⟨?_, ?_, ?_⟩, kp, h1, ?_, _, rfl, rfl, rfl⟩
  · simp only [gprInitParams, h1, bind, Except.bind]; rfl
  · intro p hp
    simp only [Dict.leaves, List.mem_append, List.mem_cons, List.not_mem_nil, or_false] at hp
    rcases hp with hp | rfl
    · exact (h3 p hp).1
    · exact hs.1
  · exact ⟨by simp [Dict.keys], h2, by simp [Dict.keys], trivial⟩
  · intro p hp
    simp only [Dict.leaves, List.mem_append, List.mem_cons, List.not_mem_nil, or_false] at hp
    rcases hp with hp | rfl
    · exact sound_of_scalar (h3 p hp)
    · exact sound_of_scalar hs
  · intro path _
    simp [lookup, Dict.get?]

theorem sgprInit_spec (e : KExpr d) (xLocs : Param) (jacobianLocs : Option Param) (hx : UserParam xLocs)
    (hj : ∀ j, jacobianLocs = some j → UserParam j) :
    ∃ D, sgprInitParams e xLocs jacobianLocs = .ok D ∧ Sound D ∧ HasDefaults e D := by
  obtain ⟨kp, h1, h2, h3⟩ := default_spec e
  have hs : ScalarOK ⟨scalarArr 1, true, .softplus, normalPrior⟩ := ⟨⟨rfl, rfl⟩, trivial, 1, rfl, (one_pos : (0 : ℝ) < 1)⟩
  cases jacobianLocs with
  | none =>
    refine ⟨.node "kernel_params".toList kp (.leaf "sigma".toList ⟨scalarArr 1, true, .softplus, normalPrior⟩
      (.leaf "x_locs".toList xLocs .nil)), ?_, ⟨?_, ?_, ?_⟩, kp, h1, ?_, _, rfl, rfl, rfl⟩
    · simp only [sgprInitParams, h1, bind, Except.bind]; rfl
    · intro p hp
      simp only [Dict.leaves, List.mem_append, List.mem_cons, List.not_mem_nil, or_false] at hp
      rcases hp with hp | rfl | rfl
      · exact (h3 p hp).1
      · exact hs.1
      · exact hx.1
    · exact ⟨by simp [Dict.keys], h2, by simp [Dict.keys], by simp [Dict.keys], trivial⟩
    · intro p hp
      simp only [Dict.leaves, List.mem_append, List.mem_cons, List.not_mem_nil, or_false] at hp
      rcases hp with hp | rfl | rfl
      · exact sound_of_scalar (h3 p hp)
      · exact sound_of_scalar hs
      · exact hx.2
    · intro path _
      simp [lookup, Dict.get?]
  | some j =>
    refine ⟨.node "kernel_params".toList kp (.leaf "sigma".toList ⟨scalarArr 1, true, .softplus, normalPrior⟩
      (.leaf "x_locs".toList xLocs (.leaf "jacobian_locs".toList j .nil))), ?_, ⟨?_, ?_, ?_⟩, kp, h1, ?_, _,
      rfl, rfl, rfl⟩
    · simp only [sgprInitParams, h1, bind, Except.bind]; rfl
    · intro p hp
      simp only [Dict.leaves, List.mem_append, List.mem_cons, List.not_mem_nil, or_false] at hp
      rcases hp with hp | rfl | rfl | rfl
      · exact (h3 p hp).1
      · exact hs.1
      · exact hx.1
      · exact (hj _ rfl).1
    · exact ⟨by simp [Dict.keys], h2, by simp [Dict.keys], by simp [Dict.keys], by simp [Dict.keys], trivial⟩
    · intro p hp
      simp only [Dict.leaves, List.mem_append, List.mem_cons, List.not_mem_nil, or_false] at hp
      rcases hp with hp | rfl | rfl | rfl
      · exact sound_of_scalar (h3 p hp)
      · exact sound_of_scalar hs
      · exact hx.2
      · exact (hj _ rfl).2
    · intro path _
      simp [lookup, Dict.get?]

/-- The parameters of `GPR(kernel)`, or of `SGPR(kernel, x_locs, jacobian_locs)` with valid locations. -/
def BuiltByDefault (e : KExpr d) (D : Dict Param) : Prop :=
  gprInitParams e = .ok D ∨ ∃ xLocs jacobianLocs, UserParam xLocs ∧ (∀ j, jacobianLocs = some j → UserParam j) ∧
    sgprInitParams e xLocs jacobianLocs = .ok D

theorem built_spec {e : KExpr d} {D : Dict Param} (h : BuiltByDefault e D) : Sound D ∧ HasDefaults e D := by
  rcases h with h | ⟨x, j, hx, hj, h⟩
  · obtain ⟨D', h1, h2⟩ := gprInit_spec e
    rw [h] at h1
    cases h1
    exact h2
  · obtain ⟨D', h1, h2⟩ := sgprInit_spec e x j hx hj
    rw [h] at h1
    cases h1
    exact h2

/-! ### C86 -/

/-- C86, construction. For every kernel expression the default parameters exist, and the constructors accept them with
any mean function and options. -/
theorem C86_constructed (e : KExpr d) (k : K) (m : M) (kw : List (Key × OptVal C)) :
    (∃ D s, gprInitParams e = .ok D ∧ ModelState.new k m D kw = .ok s) ∧
    ∀ xLocs jacobianLocs, UserParam xLocs → (∀ j, jacobianLocs = some j → UserParam j) →
      ∃ D s, sgprInitParams e xLocs jacobianLocs = .ok D ∧ ModelState.new k m D kw = .ok s := by
  constructor
  · obtain ⟨D, h1, h2, -⟩ := gprInit_spec e
    exact ⟨D, _, h1, ModelState.new_ok k m D kw h2.1⟩
  · intro x j hx hj
    obtain ⟨D, h1, h2, -⟩ := sgprInit_spec e x j hx hj
    exact ⟨D, _, h1, ModelState.new_ok k m D kw h2.1⟩

/-- C86, full statement: the kernel parameters of a model built with default parameters stay where its kernel is a
kernel, whatever the model is trained with, and the noise stays positive. -/
def C86_full : Prop :=
  ∀ (d : ℕ) (e : KExpr d) (D : Dict Param) (s : ModelState Unit Unit Unit), BuiltByDefault e D → Trained True D s →
    Admissible e (GPParams.ofDict s.params).kernelParams ∧ 0 < (GPParams.ofDict s.params).sigma

/-- C86, every key the numerical functions look up is there and leads to a number: for each path of a default
parameter there is a parameter with a single value. -/
theorem C86_present (e : KExpr d) (D : Dict Param) (hD : BuiltByDefault e D) (s : ModelState K M C)
    (h : Trained (¬ HasPolynomial e) D s) (kp : Dict Param) (hkp : e.defaultParams = .ok kp) :
    (∀ path p0, lookup path kp = some (.inl p0) →
      ∃ p x, s.params.at? ("kernel_params".toList :: path) = some p ∧ p.value.data = [x] ∧
        p.trainable = p0.trainable ∧ p.bijector = p0.bijector ∧ p.prior = p0.prior) ∧
    ∃ p x, s.params.at? ["sigma".toList] = some p ∧ p.value.data = [x] := by
  obtain ⟨hs, kp', h1, h2, p, h3, h4, h5⟩ := built_spec hD
  rw [hkp] at h1
  cases h1
  obtain ⟨-, -, hset⟩ := trained_invariant e D hs s h
  obtain ⟨kp', g1, -, g3⟩ := default_spec e
  rw [hkp] at g1
  cases g1
  constructor
  · intro path p0 hp
    have hne : path ≠ [] := by rintro rfl; simp [lookup] at hp
    obtain ⟨x0, hx0, -⟩ := (g3 p0 (lookup_mem _ _ _ hp)).2.2
    obtain ⟨p, x, a1, a2, a3, -⟩ := scalar_read hset _ p0 ((h2 path hne).trans hp) (by rw [hx0]; rfl)
    exact ⟨p, x, at_of_lookup _ _ _ a1, a3, a2.1, a2.2.1, a2.2.2.1⟩
  · obtain ⟨p', x, a1, a2, a3, -⟩ := scalar_read hset _ p h3 h5
    exact ⟨p', x, at_of_lookup _ _ _ a1, a3⟩

/-- C86, what holds: without Optax, or without a polynomial kernel. -/
theorem C86_partial (e : KExpr d) (D : Dict Param) (hD : BuiltByDefault e D) (s : ModelState K M C)
    (h : Trained (¬ HasPolynomial e) D s) :
    Admissible e (GPParams.ofDict s.params).kernelParams ∧ 0 < (GPParams.ofDict s.params).sigma := by
  obtain ⟨hs, kp, h1, h2, p, h3, h4, h5⟩ := built_spec hD
  obtain ⟨-, -, hset⟩ := trained_invariant e D hs s h
  constructor
  · refine admissible_of e e id kp h1 _ fun path p0 hp => ?_
    have hne : pathKeys path ≠ [] := by intro hn; rw [hn] at hp; simp [lookup] at hp
    obtain ⟨kp', g1, -, g3⟩ := default_spec e
    rw [h1] at g1
    cases g1
    obtain ⟨x0, hx0, -⟩ := (g3 p0 (lookup_mem _ _ _ hp)).2.2
    obtain ⟨p, x, a1, a2, a3, a4⟩ := scalar_read hset _ p0 ((h2 _ hne).trans hp) (by rw [hx0]; rfl)
    have hval : (GPParams.ofDict s.params).kernelParams path = x := by
      simp only [GPParams.ofDict]
      rw [a4]
      rfl
    rw [hval]
    refine ⟨a2.2.2.2.2.2.2.1 x (by rw [a3]; simp), fun hpoly hf => ?_⟩
    have hv := a2.2.2.2.2.2.2.2 hpoly hf
    have hd : x0 = x := by
      have := congrArg Arr.data hv
      rw [a3, hx0] at this
      simpa [scalarArr] using this.symm
    rw [hx0, hd]
  · obtain ⟨p', x, a1, a2, a3, a4⟩ := scalar_read hset _ p h3 h5
    have hr := a2.2.2.2.2.2.2.1 x (by rw [a3]; simp)
    rw [h4] at hr
    simp only [GPParams.ofDict, a4, Option.getD_some]
    exact hr

/-- C86, the consequence for fitting: for every training set the regression system of such a state has exactly one
solution, and its matrix is positive definite. -/
theorem C86_well_posed_partial (e : KExpr d) (D : Dict Param) (hD : BuiltByDefault e D) (s : ModelState K M C)
    (h : Trained (¬ HasPolynomial e) D s) (x : Batch n d) (y : Mat n o) :
    (aLhsNoise (GPParams.ofDict s.params) e.obj x x).PosDef ∧
    ∃! c : Mat n o, ∀ i a, ∑ j, (e.obj.k (GPParams.ofDict s.params).kernelParams x x i j +
      if i = j then (GPParams.ofDict s.params).sigma ^ 2 + 1 / 10 ^ 10 else 0) * c j a = y i a := by
  have hpd := aLhsNoise_posDef e (GPParams.ofDict s.params) (C86_partial e D hD s h).1 x
  refine ⟨hpd, ?_⟩
  have hu := hpd.isUnit
  refine ⟨(aLhsNoise (GPParams.ofDict s.params) e.obj x x)⁻¹ * y, ?_, ?_⟩
  · intro i a
    rw [← aLhsNoise_mul, ← Matrix.mul_assoc, Matrix.mul_nonsing_inv _ ((Matrix.isUnit_iff_isUnit_det _).mp hu), Matrix.one_mul]
  · intro c hc
    have : aLhsNoise (GPParams.ofDict s.params) e.obj x x * c = y := by
      ext i a
      rw [aLhsNoise_mul, hc]
    rw [← this, ← Matrix.mul_assoc, Matrix.nonsing_inv_mul _ ((Matrix.isUnit_iff_isUnit_det _).mp hu), Matrix.one_mul]

/-- The parameters of `GPR(Polynomial())`, with a given degree and noise. -/
def exPolyParams (degree sigma : ℝ) : Dict Param :=
  .node "kernel_params".toList
    (.leaf "degree".toList ⟨scalarArr degree, false, .softplus, gammaPrior⟩
      (.leaf "offset".toList ⟨scalarArr 1, false, .identity, normalPrior⟩ .nil))
    (.leaf "sigma".toList ⟨scalarArr sigma, true, .softplus, gammaPrior⟩ .nil)

def exPolyState (degree sigma : ℝ) : ModelState Unit Unit Unit := ⟨(), (), exPolyParams degree sigma, []⟩

theorem exPoly_init : gprInitParams (.polynomial none false : KExpr 1) = .ok (exPolyParams 2 1) ∧
    ModelState.new () () (exPolyParams 2 1) [] = .ok (exPolyState 2 1) := ⟨rfl, rfl⟩

theorem exPoly_optax : ∃ r o hist, optaxMinimize exOpt (fun (_ _ : Unit) _ => .ok 0) () () none none 0
    (exPolyState 2 1) = .ok (r, o, hist) ∧ r.params.scalarAt? ["kernel_params".toList, "degree".toList] =
      some (Bijector.softplus.forward (Bijector.softplus.backward 2)) := ⟨_, _, _, rfl, rfl⟩

/-- C86 is false of the code: Optax, even with zero steps, turns the degree of a polynomial kernel into a number that
is not natural. -/
theorem C86_false : ¬ C86_full := by
  intro h
  obtain ⟨r, o, hist, h1, h2⟩ := exPoly_optax
  have ht : Trained True (exPolyParams 2 1) r :=
    .optax exOpt _ () () none none 0 _ r o hist trivial (.init () () [] _ exPoly_init.2) (fun s o _ => exOpt_good s o) h1
  obtain ⟨⟨⟨q, hq⟩, -⟩, -⟩ := h 1 (.polynomial none false) _ r (.inl exPoly_init.1) ht
  have h3 : (GPParams.ofDict r.params).kernelParams.val "degree" = 2 + spJitter := by
    have : (GPParams.ofDict r.params).kernelParams.val "degree" =
        (r.params.scalarAt? ["kernel_params".toList, "degree".toList]).getD 0 := rfl
    rw [this, h2, Option.getD_some, C02_softplus_roundtrip 2 (by simp [range])]
  rw [h3] at hq
  have hj := spJitter_pos
  have hj1 : spJitter < 1 := by
    unfold spJitter
    rw [div_lt_one (by positivity)]
    exact one_lt_pow₀ (by norm_num) (by norm_num)
  have a : (2 : ℝ) < q := by linarith
  have b : (q : ℝ) < 3 := by linarith
  have a' : 2 < q := by exact_mod_cast a
  have b' : q < 3 := by exact_mod_cast b
  omega

/-- Non-vacuity of C86: a polynomial kernel plus a squared exponential, trained with SciPy, stored to, randomised and
trained again. -/
example : ∃ (D : Dict Param) (s : ModelState Unit Unit Unit),
    BuiltByDefault (.sum (.polynomial none true) (.squaredExponential none) : KExpr 2) D ∧
    Trained (¬ HasPolynomial (.sum (.polynomial none true) (.squaredExponential none) : KExpr 2)) D s ∧
    s.params.scalarAt? ["kernel_params".toList, "kernel2".toList, "lengthscale".toList] =
      some (Bijector.softplus.forward 5) := by
  obtain ⟨D, s0, s1, s2, s3, h1, h2, h3, h4, h5, h6⟩ : ∃ (D : Dict Param) (s0 s1 s2 s3 : ModelState Unit Unit Unit),
      gprInitParams (.sum (.polynomial none true) (.squaredExponential none) : KExpr 2) = .ok D ∧
      ModelState.new () () D [] = .ok s0 ∧
      (s0.update { opts := [("is_fitted".toList, .bool true)] }).1 = .ok s1 ∧
      s1.randomize Nat.succ (fun q k => ⟨q.shape, q.dtype, List.replicate q.shape.prod (k : ℝ)⟩) 7 [] = .ok s2 ∧
      scipyMinimize (O := Unit) (fun _ x0 => .ok (x0.map fun _ => 5, ())) (fun _ => .ok 0) s2 = .ok (s3, ()) ∧
      s3.params.scalarAt? ["kernel_params".toList, "kernel2".toList, "lengthscale".toList] =
        some (Bijector.softplus.forward 5) := ⟨_, _, _, _, _, rfl, rfl, rfl, rfl, rfl, rfl⟩
  refine ⟨D, s3, .inl h1, .scipy _ _ s2 s3 () (.randomize _ _ s1 s2 7 [] (.store s0 s1 _ (.init () () [] s0 h2) rfl h3)
    (by simp) (fun q k => ⟨rfl, rfl, by simp [Arr.WF]⟩) ?_ h4) h5, h6⟩
  intro a _ b _ h
  simp only [Nat.succ_iterate] at h
  omega

end
end GPX.Props
