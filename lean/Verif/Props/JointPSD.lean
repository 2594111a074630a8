import Verif.Lemmas.JointPSD
import Verif.Spec.Joint
import Verif.Spec.GPRTD
import Verif.Props.GPR
import Verif.Props.KernelAlgebra

/-!
# C65: derivative Gram matrices; C78: joint Gram matrices of values and derivatives
-/

namespace GPX.Props
open GPX GPX.Spec

variable {d n v v' : ℕ} {la : LinAlg}

theorem joint_noRepeats (e : KExpr d) (he : NoRepeats e) (p : KPar) (h : JointSmooth e p) : e.obj.Joint p := by
  induction e generalizing p with
  | constant a =>
    obtain ⟨t0, t1, t01⟩ := C24_constant a he p
    exact KernelObj.joint_of_true (C63_sampleWise (.constant a) p) (KExpr.psd (.constant a) p h)
      (fun _ _ _ => t0 _ _ _ _ _ _ _) (fun _ _ _ => t1 _ _ _ _ _ _ _) (fun _ _ _ _ => t01 _ _ _ _ _ _ _ _)
      (contracts_of_closed (closed_constant a p))
      (continuous_of_closed (closed_constant a p) (resolve_injective a he) fun a b => continuous_const)
  | linear a =>
    obtain ⟨t0, t1, t01⟩ := C24_linear a he p
    exact KernelObj.joint_of_true (C63_sampleWise (.linear a) p) (KExpr.psd (.linear a) p h)
      (fun _ _ _ => t0 _ _ _ _ _ _ _) (fun _ _ _ => t1 _ _ _ _ _ _ _) (fun _ _ _ _ => t01 _ _ _ _ _ _ _ _)
      (contracts_of_closed (closed_linear a he p))
      (continuous_of_closed (closed_linear a he p) (resolve_injective a he) fun a b => continuous_const)
  | polynomial a ni =>
    obtain ⟨⟨q, hq, hd⟩, ho⟩ := h
    have hg : ∀ u, GoodPower u (p.val "degree") := fun u => .inr ⟨q, hd, .inr hq⟩
    refine KernelObj.joint_of_true (C63_sampleWise (.polynomial a ni) p)
      (KExpr.psd (.polynomial a ni) p ⟨⟨q, hd⟩, ho⟩)
      (fun x y f => (C24_polynomial a he ni p (one x) (one y) 0 f 0 f (hg _)).1)
      (fun x y f => (C24_polynomial a he ni p (one x) (one y) 0 f 0 f (hg _)).2.1)
      (fun x y f g => (C24_polynomial a he ni p (one x) (one y) 0 f 0 g (hg _)).2.2)
      (contracts_of_closed (closed_polynomial a he ni p))
      (continuous_of_closed (closed_polynomial a he ni p) (resolve_injective a he) fun a b => ?_)
    have hq2 : (2 : ℝ) ≤ q := by exact_mod_cast hq
    have hdot : Continuous fun z : (Fin (Dims.resolve ‹_›).k → ℝ) × (Fin (Dims.resolve ‹_›).k → ℝ) =>
        p.val "offset" + ∑ c, z.1 c * z.2 c := by fun_prop
    simp only [Core.polynomial]
    have c1 := hdot.rpow_const (p := p.val "degree" - 1) fun _ => .inr (by rw [hd]; linarith)
    have c2 := hdot.rpow_const (p := p.val "degree" - 2) fun _ => .inr (by rw [hd]; linarith)
    fun_prop
  | squaredExponential a => exact h.elim
  | matern12 a => exact h.elim
  | matern32 a => exact h.elim
  | matern52 a =>
    obtain ⟨t0, t1, t01⟩ := C24_matern52 a he p
    refine KernelObj.joint_of_true (C63_sampleWise (.matern52 a) p) (KExpr.psd (.matern52 a) p h)
      (fun _ _ _ => t0 _ _ _ _ _ _ _) (fun _ _ _ => t1 _ _ _ _ _ _ _) (fun _ _ _ _ => t01 _ _ _ _ _ _ _ _)
      (contracts_of_closed (closed_m52 a he p))
      (continuous_of_closed (closed_m52 a he p) (resolve_injective a he) fun a b => ?_)
    simp only [Core.m52, m52Dist, sqd]
    split_ifs <;> fun_prop
  | expSinSquared a =>
    obtain ⟨t0, t1, t01⟩ := C24_exp_sin_squared a he p
    refine KernelObj.joint_of_true (C63_sampleWise (.expSinSquared a) p) (KExpr.psd (.expSinSquared a) p h)
      (fun _ _ _ => t0 _ _ _ _ _ _ _) (fun _ _ _ => t1 _ _ _ _ _ _ _) (fun _ _ _ _ => t01 _ _ _ _ _ _ _ _)
      (contracts_of_closed (closed_ess a p))
      (continuous_of_closed (closed_ess a p) (resolve_injective a he) fun a b => ?_)
    simp only [Core.ess, essS, essQ, essR]
    split_ifs <;> fun_prop
  | sum e1 e2 ih1 ih2 => exact (ih1 he.1 _ h.1).sum (ih2 he.2 _ h.2)
  | prod e1 e2 ih1 ih2 => exact (ih1 he.1 _ h.1).prod (ih2 he.2 _ h.2)

theorem joint_copies {K : ℕ} {e : KExpr d} {p : KPar} (h : (onCopies K e).obj.Joint p) : e.obj.Joint p := by
  obtain ⟨E, hE, h1, h2, h3, h4⟩ := h
  have hc := copies_carries K e p
  refine ⟨_, hE.comp fun P => (copies K P.1, P.2.map (copies K)), fun x1 x2 i j => ?_, fun x1 x2 J i u j => ?_,
    fun x1 x2 J i j u => ?_, fun x1 x2 J1 J2 i u j t => ?_⟩
  · rw [← hc.k]; exact h1 _ _ _ _
  · rw [← hc.d0kj]; exact h2 _ _ _ _ _ _
  · rw [← hc.d1kj]; exact h3 _ _ _ _ _ _
  · rw [← hc.d01kj]; exact h4 _ _ _ _ _ _ _ _

theorem joint_expr (e : KExpr d) (p : KPar) (h : JointSmooth e p) : e.obj.Joint p :=
  joint_copies (joint_noRepeats _ (onCopies_noRepeats (longest e) e (Nat.le_succ _)) p
    ((onCopies_jointSmooth _ e p).2 h))

theorem derivPSD_scale {κ : KernelObj d} {a : Option (Dims d)} {p : KPar} :
    (0 ≤ (p.sub "kernel1").val "variance" → κ.DerivPSD (p.sub "kernel2") →
      (KernelObj.prod (.constant a) κ).DerivPSD p) ∧
    (0 ≤ (p.sub "kernel2").val "variance" → κ.DerivPSD (p.sub "kernel1") →
      (KernelObj.prod κ (.constant a)).DerivPSD p) := by
  constructor
  · rintro hv ⟨E, hE, h⟩
    have hc := closed_constant a (p.sub "kernel1")
    refine ⟨_, hE.smul hv, fun x1 x2 J1 J2 i u j t => ?_⟩
    simp only [KernelObj.prod, prodDeriv01Jac, Arr2.mul, Arr2.add, repeatCols_flat, repeatRows_flat, hc.k, hc.d0kj,
      hc.d1kj, hc.d01kj, h, Core.constant]
    simp
  · rintro hv ⟨E, hE, h⟩
    have hc := closed_constant a (p.sub "kernel2")
    refine ⟨_, hE.smul hv, fun x1 x2 J1 J2 i u j t => ?_⟩
    simp only [KernelObj.prod, prodDeriv01Jac, Arr2.mul, Arr2.add, repeatCols_flat, repeatRows_flat, hc.k, hc.d0kj,
      hc.d1kj, hc.d01kj, h, Core.constant]
    simp [mul_comm]

theorem derivPSD_se_noRepeat (a : Option (Dims d)) (he : NoRepeat a) (p : KPar) (h : 0 < p.val "lengthscale") :
    (KernelObj.squaredExponential a).DerivPSD p := by
  have hs := C21_symmetric (.squaredExponential a) p
  have h0 : ∀ x y f, HasDerivAt (fun t => (KernelObj.squaredExponential a).k p (setFeature (one x) 0 f t) (one y) 0 0)
      (Real.exp (-(1 / 10 ^ 12)) * (KernelObj.squaredExponential a).d0k p (one x) (one y) (flat 0 f) 0) (x f) :=
    fun x y f => C24_squared_exponential_first a he p (one x) (one y) 0 f 0
  refine KernelObj.derivPSD_of_true (C63_sampleWise (.squaredExponential a) p)
    (KExpr.psd (.squaredExponential a) p h) h0
    (G1 := fun x y f => Real.exp (-(1 / 10 ^ 12)) *
      (KernelObj.squaredExponential a).d0k p (one y) (one x) (flat 0 f) 0) (fun x y f => ?_)
    (fun x y f g => C24_squared_exponential a he p 1 1 (one x) (one y) 0 f 0 g)
    (contracts_of_closed (closed_se a he p))
    (continuous_of_closed (closed_se a he p) (resolve_injective a he) fun a b => ?_)
  · have e : (fun t => (KernelObj.squaredExponential a).k p (one x) (setFeature (one y) 0 f t) 0 0) =
        fun t => (KernelObj.squaredExponential a).k p (setFeature (one y) 0 f t) (one x) 0 0 :=
      funext fun t => hs.k _ _ _ _
    rw [e]
    exact h0 y x f
  · simp only [Core.se, sqd]
    split_ifs <;> fun_prop

theorem derivPSD_se (a : Option (Dims d)) (p : KPar) (h : 0 < p.val "lengthscale") :
    (KernelObj.squaredExponential a).DerivPSD p := by
  let e : KExpr d := .squaredExponential a
  obtain ⟨E, hE, h1⟩ := derivPSD_se_noRepeat (copyDims (longest e) a) (onCopies_noRepeats (longest e) e (Nat.le_succ _)) p h
  have hc := copies_carries (longest e) e p
  refine ⟨_, hE.comp fun P => (copies (longest e) P.1, copies (longest e) P.2), fun x1 x2 J1 J2 i u j t => ?_⟩
  exact (hc.d01kj x1 x2 J1 J2 i u j t).symm.trans (h1 _ _ _ _ _ _ _ _)

theorem derivPSD_expr (e : KExpr d) (p : KPar) (h : DerivSmooth e p) : e.obj.DerivPSD p := by
  induction h with
  | joint h => exact (joint_expr _ _ h).deriv
  | squaredExponential h => exact derivPSD_se _ _ h
  | sum _ _ ih1 ih2 => exact ih1.sum ih2
  | scaleLeft hv _ ih => exact derivPSD_scale.1 hv ih
  | scaleRight _ hv ih => exact derivPSD_scale.2 hv ih

/-! ## C65 -/

/-- The full claim of C65: every expression made of twice differentiable kernels. -/
def C65_full : Prop :=
  ∀ (d : ℕ) (e : KExpr d), ∀ p : KPar, Smooth e p → ∀ (n v : ℕ) (x : Batch n d) (J : Jac n d v),
    (Matrix.of (e.obj.d01kj p x x J J)).PosSemidef

/-- **C65**: for `Constant`, `Linear`, `Polynomial` and `NoInterceptPolynomial` of natural degree at least two,
`Matern52`, `ExpSinSquared`, all their sums and products, `SquaredExponential`, sums with it and multiples of it:
the jacobian-contracted Hessian Gram matrix is symmetric positive semidefinite, for every dataset (repeated samples
allowed), jacobians (any number of components, zero or dependent ones allowed) and hyperparameters. Missing from
the full claim: `Matern32`, and products of `SquaredExponential` with non-constant kernels, for which it is false
(`C65_matern32`, `C65_se_product`). -/
theorem C65_gram_partial (e : KExpr d) (p : KPar) (h : DerivSmooth e p) (x : Batch n d)
    (J : Jac n d v) : (Matrix.of (e.obj.d01kj p x x J J)).PosSemidef := by
  obtain ⟨E, hE, h01⟩ := derivPSD_expr e p h
  have := hE.gram (I := Fin (n * v)) fun s => (x s.divNat, fun f => J s.divNat f s.modNat)
  convert this using 1
  ext s t
  obtain ⟨i, u, rfl⟩ := flat_surj s
  obtain ⟨j, w, rfl⟩ := flat_surj t
  simp only [Matrix.of_apply, h01, flat_divNat, flat_modNat]

/-- **C65**, two datasets: the Gram matrix over training and new derivative observations together, which is what the
derivative covariance of the predictions needs. -/
theorem C65_two_datasets_partial {m w : ℕ} (e : KExpr d) (p : KPar) (h : DerivSmooth e p)
    (xt : Batch m d) (Jt : Jac m d w) (x : Batch n d) (J : Jac n d v) :
    (Matrix.fromBlocks (Matrix.of (e.obj.d01kj p xt xt Jt Jt)) (Matrix.of (e.obj.d01kj p xt x Jt J))
      (Matrix.of (e.obj.d01kj p xt x Jt J)).transpose (Matrix.of (e.obj.d01kj p x x J J))).PosSemidef := by
  obtain ⟨E, hE, h01⟩ := derivPSD_expr e p h
  have := hE.gram (I := Fin (m * w) ⊕ Fin (n * v)) fun q => match q with
    | .inl s => (xt s.divNat, fun f => Jt s.divNat f s.modNat)
    | .inr s => (x s.divNat, fun f => J s.divNat f s.modNat)
  convert this using 1
  ext s t
  rcases s with s | s <;> rcases t with t | t <;> obtain ⟨i, u, rfl⟩ := flat_surj s <;>
    obtain ⟨j, w, rfl⟩ := flat_surj t
  · simp only [Matrix.of_apply, Matrix.fromBlocks_apply₁₁, h01, flat_divNat, flat_modNat]
  · simp only [Matrix.of_apply, Matrix.fromBlocks_apply₁₂, h01, flat_divNat, flat_modNat]
  · simp only [Matrix.of_apply, Matrix.fromBlocks_apply₂₁, Matrix.transpose_apply, h01, flat_divNat, flat_modNat]
    exact hE.symm _ _
  · simp only [Matrix.of_apply, Matrix.fromBlocks_apply₂₂, h01, flat_divNat, flat_modNat]

/-- **C65**, consequence: the system solved by `fit_derivs` is positive definite, for every noise, zero included. -/
theorem C65_fit_well_posed_partial (e : KExpr d) (θ : GPParams)
    (h : DerivSmooth e θ.kernelParams) (x : Batch n d) (J : Jac n d v) :
    (aDerivsLhsNoise θ e.obj x J x J).PosDef :=
  posDef_add_smul_one (C65_gram_partial e _ h x J) (noise_pos θ)

/-- Non-vacuity: a product of `Matern52` and a quadratic, plus twice a `SquaredExponential`. -/
example : ∃ p : KPar,
    DerivSmooth (.sum (.prod (.matern52 none) (.polynomial none false)) (.prod (.constant none)
      (.squaredExponential none)) : KExpr 3) p := by
  refine ⟨fun _ => 2, .sum (.joint ⟨?_, ⟨2, le_rfl, ?_⟩, ?_⟩) (.scaleLeft ?_ (.squaredExponential ?_))⟩ <;> norm_num [JointSmooth, KPar.val, KPar.sub]

/-! ### Where it fails -/

theorem not_posSemidef_of_quad {I : Type} [Fintype I] {M : Matrix I I ℝ} (c : I → ℝ)
    (h : ∑ i, ∑ j, c i * M i j * c j < 0) : ¬ M.PosSemidef := fun hM => by
  have := hM.dotProduct_mulVec_nonneg c
  simp only [dotProduct, Matrix.mulVec, Pi.star_apply, star_trivial, Finset.mul_sum] at this
  refine absurd this (not_le.2 (lt_of_eq_of_lt ?_ h))
  exact Finset.sum_congr rfl fun i _ => Finset.sum_congr rfl fun j _ => by ring

/-- The matrix of the values of a `SquaredExponential` at `1e-7` and `-1e-7` and of its derivative at `0`. -/
theorem se_indefinite (c : ℝ) (hc : c = Real.exp (-(1 / 10 ^ 12))) :
    ∑ i : Fin 3, ∑ j : Fin 3, ![1, -1, -(2 / 10 ^ 7)] i *
      (![![c, c * Real.exp (-(4 / 10 ^ 14)), 2 / 10 ^ 7 * Real.exp (-(1 / 10 ^ 14))],
        ![c * Real.exp (-(4 / 10 ^ 14)), c, -(2 / 10 ^ 7) * Real.exp (-(1 / 10 ^ 14))],
        ![2 / 10 ^ 7 * Real.exp (-(1 / 10 ^ 14)), -(2 / 10 ^ 7) * Real.exp (-(1 / 10 ^ 14)), c * 2]] i j : ℝ) *
      ![1, -1, -(2 / 10 ^ 7)] j < 0 := by
  have h1 : 1 - 4 / 10 ^ 14 ≤ Real.exp (-(4 / 10 ^ 14)) := by
    have := Real.add_one_le_exp (-(4 / 10 ^ 14)); linarith
  have h2 : c < Real.exp (-(1 / 10 ^ 14)) := by rw [hc]; exact Real.exp_lt_exp.2 (by norm_num)
  have h3 : 0 < c := by rw [hc]; exact Real.exp_pos _
  simp only [Fin.sum_univ_three, Matrix.cons_val_zero, Matrix.cons_val_one, Matrix.cons_val]
  nlinarith

/-- **C78**, the full claim: the covariance of targets and derivatives is positive semidefinite, for every expression
made of twice differentiable kernels. -/
def C78_full : Prop :=
  ∀ (d : ℕ) (e : KExpr d), ∀ p : KPar, Smooth e p →
    ∀ (n v v' : ℕ) (x : Batch n d) (J : Jac n d v) (J' : Jac n d v'),
    (Matrix.of (cov1 e.obj p x J x J)).PosSemidef ∧ (Matrix.of (cov2 e.obj p x J J' x J J')).PosSemidef

/-- **C78**: for `Constant`, `Linear`, `Polynomial` and `NoInterceptPolynomial` of natural degree at least two,
`Matern52`, `ExpSinSquared` and all their sums and products, the covariance of targets and one or two sets of
derivatives is positive semidefinite, for every dataset, jacobians and hyperparameters. Missing from the full
claim: `SquaredExponential` (false, `C78_false`) and `Matern32`. -/
theorem C78_joint_partial (e : KExpr d) (p : KPar) (h : JointSmooth e p) (x : Batch n d)
    (J : Jac n d v) (J' : Jac n d v') :
    (Matrix.of (cov1 e.obj p x J x J)).PosSemidef ∧ (Matrix.of (cov2 e.obj p x J J' x J J')).PosSemidef := by
  obtain ⟨E, hE, hk, h0, h1, h01⟩ := joint_expr e p h
  have h2 : (Matrix.of (cov2 e.obj p x J J' x J J')).PosSemidef := by
    have := hE.gram (I := Obs2 n v v') fun q => match q with
      | .inl (.inl i) => (x i, none)
      | .inl (.inr (i, u)) => (x i, some fun f => J i f u)
      | .inr (i, u) => (x i, some fun f => J' i f u)
    convert this using 1
    ext s t
    rcases s with (i | ⟨i, u⟩) | ⟨i, u⟩ <;> rcases t with (j | ⟨j, t⟩) | ⟨j, t⟩ <;>
      simp only [Matrix.of_apply, cov2, cov1, hk, h0, h1, h01]
  refine ⟨?_, h2⟩
  exact h2.submatrix (Sum.inl : Obs1 n v → Obs2 n v v')

/-- Non-vacuity: a product of `Matern52` and a quadratic plus a periodic kernel. -/
example : ∃ p : KPar,
    JointSmooth (.sum (.prod (.matern52 none) (.polynomial none true)) (.expSinSquared none) : KExpr 3) p :=
  ⟨fun _ => 2, ⟨⟨by norm_num [JointSmooth, KPar.val, KPar.sub], ⟨2, le_rfl, by norm_num [KPar.val, KPar.sub]⟩,
    by norm_num [KPar.val, KPar.sub]⟩, by norm_num [KPar.val, KPar.sub], by norm_num [KPar.val, KPar.sub]⟩⟩

/-- `SquaredExponential` on one active feature with unit lengthscale. -/
theorem se_one (a : Option (Dims d)) (p : KPar) (hp : p.val "lengthscale" = 1)
    (z : Fin (Dims.resolve a).k) (hz : ∀ f : Fin (Dims.resolve a).k → ℝ, ∑ b, f b = f z) {n m v w : ℕ}
    (x1 : Batch n d) (x2 : Batch m d) (J1 : Jac n d v) (J2 : Jac m d w) :
    let q := (Dims.resolve a).idx z
    let E := fun i j => Real.exp (-(x1 i q - x2 j q) ^ 2)
    let c := Real.exp (-(1 / 10 ^ 12))
    (∀ i j, (KernelObj.squaredExponential a).k p x1 x2 i j = c * E i j) ∧
    (∀ i u j, (KernelObj.squaredExponential a).d0kj p x1 x2 J1 (flat i u) j =
      J1 i q u * (-(2 * (x1 i q - x2 j q)) * E i j)) ∧
    (∀ i j u, (KernelObj.squaredExponential a).d1kj p x1 x2 J2 i (flat j u) =
      2 * (x1 i q - x2 j q) * E i j * J2 j q u) ∧
    ∀ i u j t, (KernelObj.squaredExponential a).d01kj p x1 x2 J1 J2 (flat i u) (flat j t) =
      J1 i q u * (c * E i j * (2 - (2 * (x1 i q - x2 j q)) ^ 2)) * J2 j q t := by
  intro q E c
  have hc := closedJ_se a p
  have hj : ∀ s : ℝ, Real.exp (-(s + sqDistJitter)) = c * Real.exp (-s) := fun s => by
    simp only [c, ← Real.exp_add]; congr 1; unfold sqDistJitter; ring
  have hs : ∀ i j, sqd 1 ((Dims.resolve a).take (x1 i)) ((Dims.resolve a).take (x2 j)) = (x1 i q - x2 j q) ^ 2 :=
    fun i j => by unfold sqd; rw [hz]; simp [Dims.take, q]
  refine ⟨fun i j => ?_, fun i u j => ?_, fun i j u => ?_, fun i u j t => ?_⟩
  · rw [hc.k]; simp only [Core.se, hp, hs, hj, E]
  · rw [hc.d0kj, hz]; simp only [Core.se, hp, hs, E, Dims.take, q]; ring
  · rw [hc.d1kj, hz]; simp only [Core.se, hp, hs, E, Dims.take, q]; ring
  · rw [hc.d01kj, hz, hz]; simp only [Core.se, hp, hs, hj, E, Dims.take, q, if_true]; ring

/-- **C78** fails for `SquaredExponential`: the values and the Hessian are damped by `exp(-1e-12)`, the first
derivatives are not. Three samples `1e-7` apart give an indefinite covariance. -/
theorem C78_false : ¬ C78_full := fun H => by
  let x : Batch 3 1 := ![![1 / 10 ^ 7], ![-(1 / 10 ^ 7)], ![0]]
  let J : Jac 3 1 1 := fun _ _ _ => 1
  let p : KPar := fun _ => 1
  have h := ((H 1 (.squaredExponential none) p (by norm_num [Smooth, p, KPar.val]) 3 1 0 x J
    (fun _ _ _ => 0)).1).submatrix (![.inl 0, .inl 1, .inr (2, 0)] : Fin 3 → Obs1 3 1)
  refine not_posSemidef_of_quad ![1, -1, -(2 / 10 ^ 7)] ?_ h
  refine lt_of_eq_of_lt ?_ (se_indefinite _ rfl)
  obtain ⟨e1, e2, e3, e4⟩ := se_one (d := 1) none p rfl (0 : Fin 1) (fun f => Fin.sum_univ_one f) x x J J
  have x0 : ∀ q, x 0 q = 1 / 10 ^ 7 := fun q => by fin_cases q; rfl
  have x1 : ∀ q, x 1 q = -(1 / 10 ^ 7) := fun q => by fin_cases q; rfl
  have x2 : ∀ q, x 2 q = 0 := fun q => by fin_cases q; rfl
  have hJ : ∀ i f u, J i f u = 1 := fun _ _ _ => rfl
  refine Finset.sum_congr rfl fun i _ => Finset.sum_congr rfl fun j _ => ?_
  congr 2
  generalize x = x at *
  fin_cases i <;> fin_cases j <;>
    simp only [Matrix.submatrix_apply, Matrix.of_apply, Fin.zero_eta, Fin.mk_one, Fin.reduceFinMk,
      Matrix.cons_val_zero, Matrix.cons_val_one, Matrix.cons_val, cov1, KExpr.obj, e1, e2, e3, e4, x0, x1, x2, hJ] <;>
    norm_num

/-- **C65** fails for `SquaredExponential` (first feature) times `Linear` (second feature): the derivative with
respect to the second feature is a value of the first kernel, so the same three samples give an indefinite
derivative Gram matrix. -/
theorem C65_se_product :
    ∃ (e : KExpr 2) (p : KPar) (x : Batch 3 2) (J : Jac 3 2 1), NoRepeats e ∧ Smooth e p ∧
      ¬ (Matrix.of (e.obj.d01kj p x x J J)).PosSemidef := by
  let a1 : Option (Dims 2) := some ⟨1, ![0]⟩
  let a2 : Option (Dims 2) := some ⟨1, ![1]⟩
  let x : Batch 3 2 := ![![1 / 10 ^ 7, 1], ![-(1 / 10 ^ 7), 1], ![0, 1]]
  let J : Jac 3 2 1 := ![fun f _ => ![0, 1] f, fun f _ => ![0, 1] f, fun f _ => ![1, 0] f]
  let p : KPar := fun _ => 1
  have r1 : NoRepeat a1 := fun a b _ => Subsingleton.elim (α := Fin 1) a b
  have r2 : NoRepeat a2 := fun a b _ => Subsingleton.elim (α := Fin 1) a b
  refine ⟨.prod (.squaredExponential a1) (.linear a2), p, x, J, ⟨r1, r2⟩,
    ⟨by norm_num [Smooth, p, KPar.val, KPar.sub], trivial⟩, fun h => ?_⟩
  have h := h.submatrix (![flat 0 0, flat 1 0, flat 2 0] : Fin 3 → Fin (3 * 1))
  refine not_posSemidef_of_quad ![1, -1, -(2 / 10 ^ 7)] ?_ h
  refine lt_of_eq_of_lt ?_ (se_indefinite _ rfl)
  obtain ⟨e1, e2, e3, e4⟩ := se_one a1 (p.sub "kernel1") rfl (0 : Fin 1) (fun f => Fin.sum_univ_one f) x x J J
  have hl := closed_linear a2 r2 (p.sub "kernel2")
  obtain ⟨z, hz, i2⟩ : ∃ z : Fin (Dims.resolve a2).k, (∀ f : Fin (Dims.resolve a2).k → ℝ, ∑ b, f b = f z) ∧
      (Dims.resolve a2).idx z = 1 := ⟨(0 : Fin 1), fun f => Fin.sum_univ_one f, rfl⟩
  have i1 : (Dims.resolve a1).idx (0 : Fin 1) = 0 := rfl
  have x0 : x 0 0 = 1 / 10 ^ 7 := rfl
  have x1 : x 1 0 = -(1 / 10 ^ 7) := rfl
  have x2 : x 2 0 = 0 := rfl
  have y : ∀ i, x i 1 = 1 := fun i => by fin_cases i <;> rfl
  have j0 : J 0 0 0 = 0 ∧ J 0 1 0 = 1 := ⟨rfl, rfl⟩
  have j1 : J 1 0 0 = 0 ∧ J 1 1 0 = 1 := ⟨rfl, rfl⟩
  have j2 : J 2 0 0 = 1 ∧ J 2 1 0 = 0 := ⟨rfl, rfl⟩
  refine Finset.sum_congr rfl fun i _ => Finset.sum_congr rfl fun j _ => ?_
  congr 2
  generalize x = x at *
  generalize J = J at *
  fin_cases i <;> fin_cases j <;>
    simp only [Matrix.submatrix_apply, Matrix.of_apply, Fin.zero_eta, Fin.mk_one, Fin.reduceFinMk,
      Matrix.cons_val_zero, Matrix.cons_val_one, Matrix.cons_val, KExpr.obj, KernelObj.prod, prodDeriv01Jac,
      Arr2.mul, Arr2.add, repeatCols_flat, repeatRows_flat, e1, e2, e3, e4, hl.k, hl.d0kj, hl.d1kj, hl.d01kj,
      Core.linear, hz, Dims.take, i1, i2, x0, x1, x2, y, j0, j1, j2, if_true] <;>
    norm_num

/-- **C65** fails for `Matern32`: its derivatives floor the squared distance at `1e-36`. Three samples `4e-19` apart
give an indefinite derivative Gram matrix. -/
theorem C65_matern32 :
    ∃ (e : KExpr 1) (p : KPar) (x : Batch 3 1) (J : Jac 3 1 1), NoRepeats e ∧ Smooth e p ∧
      ¬ (Matrix.of (e.obj.d01kj p x x J J)).PosSemidef := by
  let x : Batch 3 1 := ![![0], ![4 / 10 ^ 19], ![8 / 10 ^ 19]]
  let J : Jac 3 1 1 := fun _ _ _ => 1
  let p : KPar := fun _ => 1
  refine ⟨.matern32 none, p, x, J, trivial, by norm_num [Smooth, p, KPar.val], fun h => ?_⟩
  have h := h.submatrix (![flat 0 0, flat 1 0, flat 2 0] : Fin 3 → Fin (3 * 1))
  have hc := closed_m32 (d := 1) none p
  obtain ⟨z, hz, hq⟩ : ∃ z : Fin (Dims.resolve (none : Option (Dims 1))).k,
      (∀ f : Fin (Dims.resolve (none : Option (Dims 1))).k → ℝ, ∑ b, f b = f z) ∧
      (Dims.resolve (none : Option (Dims 1))).idx z = 0 := ⟨(0 : Fin 1), fun f => Fin.sum_univ_one f, rfl⟩
  have hp : p.val "lengthscale" = 1 := rfl
  have x0 : x 0 0 = 0 := rfl
  have x1 : x 1 0 = 4 / 10 ^ 19 := rfl
  have x2 : x 2 0 = 8 / 10 ^ 19 := rfl
  have hJ : ∀ i f u, J i f u = 1 := fun _ _ _ => rfl
  have hs : ∀ i j, sqd 1 ((Dims.resolve (none : Option (Dims 1))).take (x i))
      ((Dims.resolve (none : Option (Dims 1))).take (x j)) = (x i 0 - x j 0) ^ 2 :=
    fun i j => by unfold sqd; rw [hz]; simp [Dims.take, hq]
  have hE : ∀ i j, (KExpr.matern32 none : KExpr 1).obj.d01kj p x x J J (flat i 0) (flat j 0) =
      3 * Real.exp (-Real.sqrt (max (3 * (x i 0 - x j 0) ^ 2) maternFloor)) *
        (1 - 3 * (x i 0 - x j 0) ^ 2 *
          (if maternFloor < 3 * (x i 0 - x j 0) ^ 2 then 1
            else if 3 * (x i 0 - x j 0) ^ 2 = maternFloor then 1 / 2 else 0) *
          (Real.sqrt (max (3 * (x i 0 - x j 0) ^ 2) maternFloor))⁻¹) := fun i j => by
    change (KernelObj.matern32 none).d01kj p x x J J (flat i 0) (flat j 0) = _
    rw [hc.d01kj, hz, hz]
    simp only [Core.m32, Core.customJvp, m32T0Ex, Ex.D, Ex.eval,
      eval_mDistDiffEx (show (0 : ℝ) ≤ 3 by norm_num), eval_mDiffEx, eval_D_mDiffEx,
      eval_D_mDistDiffEx (show (0 : ℝ) ≤ 3 by norm_num), hp, hs, hJ, Dims.take, hq, if_true]
    linear_combination (Real.exp (-Real.sqrt (max (3 * (x i 0 - x j 0) ^ 2) maternFloor)) *
      (1 - 3 * (x i 0 - x j 0) ^ 2 *
          (if maternFloor < 3 * (x i 0 - x j 0) ^ 2 then 1
            else if 3 * (x i 0 - x j 0) ^ 2 = maternFloor then 1 / 2 else 0) *
          (Real.sqrt (max (3 * (x i 0 - x j 0) ^ 2) maternFloor))⁻¹)) * sqrt3_mul
  have near : ∀ i j, 3 * (x i 0 - x j 0) ^ 2 < maternFloor →
      (KExpr.matern32 none : KExpr 1).obj.d01kj p x x J J (flat i 0) (flat j 0) =
        3 * Real.exp (-Real.sqrt maternFloor) := fun i j hij => by
    rw [hE, max_eq_right hij.le, if_neg (not_lt.2 hij.le), if_neg hij.ne]
    ring
  have far : ∀ i j, maternFloor < 3 * (x i 0 - x j 0) ^ 2 →
      (KExpr.matern32 none : KExpr 1).obj.d01kj p x x J J (flat i 0) (flat j 0) <
        3 * Real.exp (-Real.sqrt maternFloor) := fun i j hij => by
    have fl : 0 < maternFloor := by unfold maternFloor; positivity
    rw [hE, max_eq_left hij.le, if_pos hij]
    have h1 : Real.exp (-Real.sqrt (3 * (x i 0 - x j 0) ^ 2)) < Real.exp (-Real.sqrt maternFloor) :=
      Real.exp_lt_exp.2 (neg_lt_neg (Real.sqrt_lt_sqrt fl.le hij))
    have h2 : 0 ≤ 3 * (x i 0 - x j 0) ^ 2 * 1 * (Real.sqrt (3 * (x i 0 - x j 0) ^ 2))⁻¹ := by positivity
    have h3 := Real.exp_pos (-Real.sqrt (3 * (x i 0 - x j 0) ^ 2))
    nlinarith
  refine not_posSemidef_of_quad ![1, -2, 1] ?_ h
  have b02 := far 0 2 (by rw [x0, x2]; unfold maternFloor; norm_num)
  have b20 := far 2 0 (by rw [x0, x2]; unfold maternFloor; norm_num)
  have n00 := near 0 0 (by rw [x0]; unfold maternFloor; norm_num)
  have n01 := near 0 1 (by rw [x0, x1]; unfold maternFloor; norm_num)
  have n10 := near 1 0 (by rw [x0, x1]; unfold maternFloor; norm_num)
  have n11 := near 1 1 (by rw [x1]; unfold maternFloor; norm_num)
  have n12 := near 1 2 (by rw [x1, x2]; unfold maternFloor; norm_num)
  have n21 := near 2 1 (by rw [x1, x2]; unfold maternFloor; norm_num)
  have n22 := near 2 2 (by rw [x2]; unfold maternFloor; norm_num)
  simp only [Fin.sum_univ_three, Matrix.submatrix_apply, Matrix.of_apply, Matrix.cons_val_zero, Matrix.cons_val_one,
    Matrix.cons_val, n00, n01, n10, n11, n12, n21, n22]
  linarith

/-- **C65**: the full claim is false. -/
theorem C65_false : ¬ C65_full := fun H => by
  obtain ⟨e, p, x, J, _, hs, hn⟩ := C65_matern32
  exact hn (H 1 e p hs 3 1 x J)

end GPX.Props
