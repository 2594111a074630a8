import Verif.Props.Defaults
import Verif.Props.Priors

/-!
# C86: what the default parameters are
-/

namespace GPX.Props
open GPX GPX.Spec MeasureTheory
open scoped NNReal

variable {d : ℕ}

/-- The documented default of each parameter: its value, and whether training changes it. -/
noncomputable def documentedDefault (name : Key) : Option (ℝ × Bool) :=
  if name = "variance".toList then some (1, true)
  else if name = "lengthscale".toList then some (1, true)
  else if name = "degree".toList then some (2, false)
  else if name = "offset".toList then some (1, false)
  else if name = "periodicity".toList then some (2 * Real.pi, false)
  else if name = "sigma".toList then some (1, true)
  else none

/-- A scalar in double precision with its documented default, whose prior is a probability density on a set it lies in. -/
def FreshDefault (name : Key) (p : Param) : Prop :=
  ∃ x t, documentedDefault name = some (x, t) ∧ p.value.shape = [] ∧ p.value.dtype = "float64".toList ∧ p.value.data = [x] ∧
    p.trainable = t ∧ ∃ S : Set ℝ, x ∈ S ∧ ∫⁻ z in S, ENNReal.ofReal (Real.exp (p.prior.dist.logpdf z)) = 1

theorem gamma_default (x : ℝ) (hx : 0 < x) :
    ∃ S : Set ℝ, x ∈ S ∧ ∫⁻ z in S, ENNReal.ofReal (Real.exp (gammaPrior.dist.logpdf z)) = 1 :=
  ⟨Set.Ioi 0, hx, C05_gamma_integral_one 1 1 one_pos one_pos⟩

theorem normal_default (x : ℝ) :
    ∃ S : Set ℝ, x ∈ S ∧ ∫⁻ z in S, ENNReal.ofReal (Real.exp (normalPrior.dist.logpdf z)) = 1 := by
  refine ⟨Set.univ, trivial, ?_⟩
  have h1 : ∫ z, Real.exp (normalPrior.dist.logpdf z) = 1 := C05_normal_integral_one 0 1 one_pos
  have hi : Integrable fun z => Real.exp (normalPrior.dist.logpdf z) := by
    by_contra hc
    rw [integral_undef hc] at h1
    exact zero_ne_one h1
  rw [Measure.restrict_univ, ← ofReal_integral_eq_lintegral_ofReal hi (Filter.Eventually.of_forall fun z => (Real.exp_pos _).le), h1,
    ENNReal.ofReal_one]

/-- Every parameter of the dictionary, at whatever depth, is as `P` says of the last key of its path. -/
def AllNamed (P : Key → Param → Prop) (D : Dict Param) : Prop :=
  ∀ path p, lookup path D = some (.inl p) → ∃ name, path.getLast? = some name ∧ P name p

theorem AllNamed.nil (P : Key → Param → Prop) : AllNamed P .nil := by
  intro path p h
  cases path <;> simp [lookup, Dict.get?] at h

theorem AllNamed.leaf {P : Key → Param → Prop} {k : Key} {p : Param} {r : Dict Param} (hp : P k p) (hr : AllNamed P r) :
    AllNamed P (.leaf k p r) := by
  rintro (_ | ⟨k', ks⟩) q h
  · simp [lookup] at h
  · by_cases hk : k = k'
    · subst hk
      simp only [lookup, Dict.get?, if_true] at h
      split_ifs at h with h0
      subst h0
      cases h
      exact ⟨k, rfl, hp⟩
    · refine hr (k' :: ks) q ?_
      simp only [lookup, Dict.get?, if_neg (Ne.symm hk)] at h
      exact h

theorem AllNamed.node {P : Key → Param → Prop} {k : Key} {s r : Dict Param} (hs : AllNamed P s) (hr : AllNamed P r) :
    AllNamed P (.node k s r) := by
  rintro (_ | ⟨k', ks⟩) q h
  · simp [lookup] at h
  · by_cases hk : k = k'
    · subst hk
      simp only [lookup, Dict.get?, if_true] at h
      obtain ⟨name, h1, h2⟩ := hs ks q h
      refine ⟨name, ?_, h2⟩
      cases ks with
      | nil => cases h1
      | cons a as => rw [List.getLast?_cons_cons]; exact h1
    · refine hr (k' :: ks) q ?_
      simp only [lookup, Dict.get?, if_neg (Ne.symm hk)] at h
      exact h

theorem fresh_gamma (name : Key) (x : ℝ) (t : Bool) (hn : documentedDefault name = some (x, t)) (hx : 0 < x) :
    FreshDefault name ⟨scalarArr x, t, .softplus, gammaPrior⟩ :=
  ⟨x, t, hn, rfl, rfl, rfl, rfl, gamma_default x hx⟩

theorem fresh_normal (name : Key) (x : ℝ) (t : Bool) (b : Bijector) (hn : documentedDefault name = some (x, t)) :
    FreshDefault name ⟨scalarArr x, t, b, normalPrior⟩ :=
  ⟨x, t, hn, rfl, rfl, rfl, rfl, normal_default x⟩

theorem default_named (e : KExpr d) : ∃ kp, e.defaultParams = .ok kp ∧ AllNamed FreshDefault kp := by
  have len : FreshDefault "lengthscale".toList ⟨scalarArr 1, true, .softplus, gammaPrior⟩ :=
    fresh_gamma _ 1 true (by simp [documentedDefault]) one_pos
  have two : ∀ e1 e2 : KExpr d, (∃ kp, e1.defaultParams = .ok kp ∧ AllNamed FreshDefault kp) →
      (∃ kp, e2.defaultParams = .ok kp ∧ AllNamed FreshDefault kp) →
      ∃ kp, (do
        let p1 ← e1.defaultParams
        let p2 ← e2.defaultParams
        pure (.node "kernel1".toList p1 (.node "kernel2".toList p2 .nil)) : Except Err (Dict Param)) = .ok kp ∧
        AllNamed FreshDefault kp := by
    rintro e1 e2 ⟨k1, a1, a2⟩ ⟨k2, b1, b2⟩
    refine ⟨.node "kernel1".toList k1 (.node "kernel2".toList k2 .nil), ?_, a2.node (b2.node (.nil _))⟩
    simp only [a1, b1, bind, Except.bind]; rfl
  induction e with
  | constant _ => exact ⟨_, rfl, .leaf (fresh_gamma _ 1 true (by simp [documentedDefault]) one_pos) (.nil _)⟩
  | linear _ => exact ⟨.nil, rfl, .nil _⟩
  | polynomial _ _ =>
    exact ⟨_, rfl, .leaf (fresh_gamma _ 2 false (by simp [documentedDefault]) two_pos)
      (.leaf (fresh_normal _ 1 false _ (by simp [documentedDefault])) (.nil _))⟩
  | squaredExponential _ => exact ⟨_, rfl, .leaf len (.nil _)⟩
  | matern12 _ => exact ⟨_, rfl, .leaf len (.nil _)⟩
  | matern32 _ => exact ⟨_, rfl, .leaf len (.nil _)⟩
  | matern52 _ => exact ⟨_, rfl, .leaf len (.nil _)⟩
  | expSinSquared _ =>
    exact ⟨_, rfl, .leaf len (.leaf (fresh_gamma _ (2 * Real.pi) false (by simp [documentedDefault]) Real.two_pi_pos) (.nil _))⟩
  | sum e1 e2 h1 h2 => exact two e1 e2 h1 h2
  | prod e1 e2 h1 h2 => exact two e1 e2 h1 h2

/-- **C86**, the parameters of `GPR(kernel)` and `SGPR(kernel, x_locs, jacobian_locs)`, at whatever depth of sums and products of
kernels: other than the locations they are scalars in double precision with the documented value and trainability, and with priors that
are probability densities. -/
theorem C86_default_values (e : KExpr d) :
    (∀ D, gprInitParams e = .ok D → ∀ path p, lookup path D = some (.inl p) →
      ∃ name, path.getLast? = some name ∧ FreshDefault name p) ∧
    ∀ xLocs jacobianLocs D, sgprInitParams e xLocs jacobianLocs = .ok D → ∀ path p, lookup path D = some (.inl p) →
      ∃ name, path.getLast? = some name ∧
        (name = "x_locs".toList ∧ p = xLocs ∨ name = "jacobian_locs".toList ∧ some p = jacobianLocs ∨ FreshDefault name p) := by
  obtain ⟨kp, h1, h2⟩ := default_named e
  have hs : documentedDefault "sigma".toList = some (1, true) := by simp [documentedDefault]
  constructor
  · intro D hD
    have : D = .node "kernel_params".toList kp (.leaf "sigma".toList ⟨scalarArr 1, true, .softplus, gammaPrior⟩ .nil) := by
      simp only [gprInitParams, h1, bind, Except.bind] at hD
      exact (Except.ok.inj hD).symm
    subst this
    exact h2.node (.leaf (fresh_gamma _ 1 true hs one_pos) (.nil _))
  · intro xl jl D hD path p hp
    have hsig := fresh_normal "sigma".toList 1 true .softplus hs
    have h2' : AllNamed (fun name p => name = "x_locs".toList ∧ p = xl ∨ name = "jacobian_locs".toList ∧ some p = jl ∨
        FreshDefault name p) kp := fun path p hq => (h2 path p hq).imp fun _ q => ⟨q.1, .inr (.inr q.2)⟩
    cases jl with
    | none =>
      have : D = .node "kernel_params".toList kp (.leaf "sigma".toList ⟨scalarArr 1, true, .softplus, normalPrior⟩
          (.leaf "x_locs".toList xl .nil)) := by
        simp only [sgprInitParams, h1, bind, Except.bind] at hD
        exact (Except.ok.inj hD).symm
      subst this
      exact h2'.node (.leaf (.inr (.inr hsig)) (.leaf (.inl ⟨rfl, rfl⟩) (.nil _))) path p hp
    | some j =>
      have : D = .node "kernel_params".toList kp (.leaf "sigma".toList ⟨scalarArr 1, true, .softplus, normalPrior⟩
          (.leaf "x_locs".toList xl (.leaf "jacobian_locs".toList j .nil))) := by
        simp only [sgprInitParams, h1, bind, Except.bind] at hD
        exact (Except.ok.inj hD).symm
      subst this
      exact h2'.node (.leaf (.inr (.inr hsig)) (.leaf (.inl ⟨rfl, rfl⟩) (.leaf (.inr (.inl ⟨rfl, rfl⟩)) (.nil _)))) path p hp

/-- Non-vacuity: the lengthscale of `Constant() * Matern52()` in a `GPR`. -/
example : ∃ D p, gprInitParams (.prod (.constant none) (.matern52 none) : KExpr 2) = .ok D ∧
    lookup ["kernel_params".toList, "kernel2".toList, "lengthscale".toList] D = some (.inl p) := ⟨_, _, rfl, rfl⟩

end GPX.Props
