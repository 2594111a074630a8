import Verif.Lemmas.Transfer
import Verif.Props.KernelAlgebra

/-!
# C123, C124, C125: moving, rotating, rescaling and selecting the inputs
-/

namespace GPX.Props
open GPX GPX.Spec

variable {d d' : ℕ}

/-! ## Leaves -/

theorem carries_constant (a : Option (Dims d)) (a' : Option (Dims d')) {p q : KPar}
    (h : q.val "variance" = p.val "variance") (T L : (Fin d → ℝ) → (Fin d' → ℝ)) :
    Carries (KernelObj.constant a) p (KernelObj.constant a') q T L := by
  refine Carries.ofClosed (closedJ_constant a p) (closedJ_constant a' q) ?_ ?_ ?_ ?_ ?_ <;> intros <;>
    simp [Core.constant, h]

theorem carries_linear {T : (Fin d → ℝ) → (Fin d → ℝ)} (hT : ∀ u w, ∑ f, T u f * T w f = ∑ f, u f * w f) (p : KPar) :
    Carries (KernelObj.linear (none : Option (Dims d))) p (KernelObj.linear none) p T T := by
  refine Carries.ofClosed (closedJ_linear none p) (closedJ_linear none p) (fun x y => hT x y)
    (fun x y u => hT u y) (fun x y u => hT x u) (fun x y u => hT u y) (fun x y u w => ?_)
  simp only [Core.linear, mul_ite, mul_one, mul_zero, ite_mul, zero_mul, Finset.sum_ite_eq, Finset.mem_univ, if_true]
  exact hT u w

theorem carries_polynomial {T : (Fin d → ℝ) → (Fin d → ℝ)} (hT : ∀ u w, ∑ f, T u f * T w f = ∑ f, u f * w f) (b : Bool)
    (p : KPar) : Carries (KernelObj.polynomial (none : Option (Dims d)) b) p (KernelObj.polynomial none b) p T T := by
  have e0 : ∀ x y : Fin d → ℝ, ∑ a, (Dims.resolve (none : Option (Dims d))).take (T x) a *
      (Dims.resolve (none : Option (Dims d))).take (T y) a =
      ∑ a, (Dims.resolve (none : Option (Dims d))).take x a * (Dims.resolve (none : Option (Dims d))).take y a :=
    fun x y => hT x y
  have pull : ∀ (A : ℝ) (r t : Fin d → ℝ), ∑ a, r a * (A * t a) = A * ∑ a, r a * t a := fun A r t => by
    rw [Finset.mul_sum]
    exact Finset.sum_congr rfl fun a _ => by ring
  refine Carries.ofClosed (closedJ_polynomial none b p) (closedJ_polynomial none b p) (fun x y => ?_)
    (fun x y u => ?_) (fun x y u => ?_) (fun x y u => ?_) (fun x y u w => ?_)
  · simp only [Core.polynomial, e0]
  · simp only [Core.polynomial, e0]
    refine (pull _ (T u) (T y)).trans (Eq.trans ?_ (pull _ u y).symm)
    rw [hT]
  · simp only [Core.polynomial, e0, mul_assoc, ← Finset.mul_sum]
    congr 2
    exact hT x u
  · simp only [Core.polynomial, e0]
    refine (pull _ (T u) (T y)).trans (Eq.trans ?_ (pull _ u y).symm)
    rw [hT]
  · simp only [Core.polynomial, e0]
    have split : ∀ (A B : ℝ) (r s q t : Fin d → ℝ),
        ∑ a, ∑ b, r a * (A * (if a = b then 1 else 0) + t b * B * q a) * s b =
          A * (∑ a, r a * s a) + B * (∑ a, r a * q a) * (∑ b, t b * s b) := fun A B r s q t => by
      have : ∀ a b, r a * (A * (if a = b then 1 else 0) + t b * B * q a) * s b =
          (if a = b then A * (r a * s a) else 0) + B * (r a * q a) * (t b * s b) := fun a b => by
        by_cases hab : a = b
        · subst hab; simp only [if_true]; ring
        · rw [if_neg hab, if_neg hab]; ring
      simp only [this, Finset.sum_add_distrib, Finset.sum_ite_eq, Finset.mem_univ, if_true]
      simp only [← Finset.mul_sum]
      congr 1
      rw [← Finset.sum_mul, ← Finset.mul_sum]
    refine (split _ _ (T u) (T w) (T y) (T x)).trans (Eq.trans ?_ (split _ _ u w y x).symm)
    rw [hT, hT, hT]

theorem carries_ess (a : Option (Dims d)) {s : ℝ} (hs : s ≠ 0) {p q : KPar} (hl : q.val "lengthscale" = p.val "lengthscale")
    (hp : q.val "periodicity" = s * p.val "periodicity") {T L : (Fin d → ℝ) → (Fin d → ℝ)}
    (hT : ∀ x y f, T x f - T y f = s * (x f - y f)) (hL : ∀ u f, L u f = s * u f) :
    Carries (KernelObj.expSinSquared a) p (KernelObj.expSinSquared a) q T L := by
  have e0 : ∀ t per : ℝ, Real.pi * (s * t) / (s * per) = Real.pi * t / per := fun t per => by
    rw [mul_left_comm, mul_div_mul_left _ _ hs]
  have eS : ∀ x y : Fin d → ℝ, essS (p.val "lengthscale") (s * p.val "periodicity") ((Dims.resolve a).take (T x))
      ((Dims.resolve a).take (T y)) = essS (p.val "lengthscale") (p.val "periodicity") ((Dims.resolve a).take x)
      ((Dims.resolve a).take y) := fun x y => by
    simp only [essS, Dims.take, hT, e0]
  have eQ : ∀ t, s * essQ (p.val "lengthscale") (s * p.val "periodicity") (s * t) =
      essQ (p.val "lengthscale") (p.val "periodicity") t := fun t => by
    simp only [essQ, e0]
    have : Real.pi / (s * p.val "periodicity") = Real.pi / p.val "periodicity" / s := by
      rw [mul_comm, div_div]
    rw [this]
    field_simp
  have eR : ∀ t, s ^ 2 * essR (p.val "lengthscale") (s * p.val "periodicity") (s * t) =
      essR (p.val "lengthscale") (p.val "periodicity") t := fun t => by
    simp only [essR, e0]
    have : Real.pi / (s * p.val "periodicity") = Real.pi / p.val "periodicity" / s := by
      rw [mul_comm, div_div]
    rw [this]
    field_simp
  refine Carries.ofClosed (closedJ_ess a p) (closedJ_ess a q) (fun x y => ?_)
    (fun x y u => ?_) (fun x y u => ?_) (fun x y u => ?_) (fun x y u w => ?_) <;>
  simp only [Core.ess, hl, hp, eS, hL]
  · refine Finset.sum_congr rfl fun b _ => ?_
    simp only [Dims.take, hT]
    rw [← eQ]; ring
  · refine Finset.sum_congr rfl fun b _ => ?_
    simp only [Dims.take, hT]
    rw [← eQ]; ring
  · refine Finset.sum_congr rfl fun b _ => ?_
    simp only [Dims.take, hT]
    rw [← eQ]; ring
  · refine Finset.sum_congr rfl fun b _ => Finset.sum_congr rfl fun c _ => ?_
    simp only [Dims.take, hT]
    by_cases hbc : b = c
    · rw [if_pos hbc, if_pos hbc, ← eQ, ← eQ, ← eR]; ring
    · rw [if_neg hbc, if_neg hbc, ← eQ, ← eQ]; ring

/-! ## C123: rigid motions -/

theorem orthogonal_dot {Q : Matrix (Fin d) (Fin d) ℝ} (hQ : Q.transpose * Q = 1) (u w : Fin d → ℝ) :
    ∑ f, (∑ g, Q f g * u g) * (∑ g, Q f g * w g) = ∑ f, u f * w f := by
  have h1 : ∀ g h, ∑ f, Q f g * Q f h = if g = h then 1 else 0 := fun g h => by
    have := congrFun (congrFun hQ g) h
    rw [Matrix.mul_apply, Matrix.one_apply] at this
    exact this
  calc ∑ f, (∑ g, Q f g * u g) * (∑ g, Q f g * w g)
      = ∑ f, ∑ g, ∑ h, Q f g * Q f h * (u g * w h) := by
        refine Finset.sum_congr rfl fun f _ => ?_
        rw [Finset.sum_mul_sum]
        exact Finset.sum_congr rfl fun g _ => Finset.sum_congr rfl fun h _ => by ring
    _ = ∑ g, ∑ h, (∑ f, Q f g * Q f h) * (u g * w h) := by
        rw [Finset.sum_comm]
        refine Finset.sum_congr rfl fun g _ => ?_
        rw [Finset.sum_comm]
        exact Finset.sum_congr rfl fun h _ => by rw [Finset.sum_mul]
    _ = ∑ f, u f * w f := by
        simp only [h1, ite_mul, one_mul, zero_mul, Finset.sum_ite_eq, Finset.mem_univ, if_true]

theorem rigid_radial {c : ℝ → Core} (hc : Radial c) {κ : KernelObj d} {p : KPar} {l : ℝ}
    (h : ClosedJ κ p (Dims.resolve none) (c l)) {Q : Matrix (Fin d) (Fin d) ℝ} (hQ : Q.transpose * Q = 1)
    (b : Fin d → ℝ) : Carries κ p κ p (affine Q b) (affine Q 0) := by
  refine Carries.ofRadial hc h h (fun x y f => ?_) (fun u w => ?_)
  · simp only [affine, Pi.zero_apply, mul_sub, Finset.sum_sub_distrib]
    ring
  · have := orthogonal_dot hQ u w
    congr 1
    simp only [affine, Pi.zero_apply, add_zero]
    exact this

theorem rigid_carries (e : KExpr d) (he : Isotropic e) (Q : Matrix (Fin d) (Fin d) ℝ) (hQ : Q.transpose * Q = 1)
    (b : Fin d → ℝ) (p : KPar) : Carries e.obj p e.obj p (affine Q b) (affine Q 0) := by
  induction e generalizing p with
  | constant a => exact carries_constant a a rfl _ _
  | linear a => exact he.elim
  | polynomial a c => exact he.elim
  | squaredExponential a => subst he; exact rigid_radial radial_se (closedJ_se none p) hQ b
  | matern12 a => subst he; exact rigid_radial radial_m12 (closedJ_m12 none p) hQ b
  | matern32 a => subst he; exact rigid_radial radial_m32 (closedJ_m32 none p) hQ b
  | matern52 a => subst he; exact rigid_radial radial_m52 (closedJ_m52 none p) hQ b
  | expSinSquared a => exact he.elim
  | sum e1 e2 ih1 ih2 => exact Carries.sum (ih1 he.1 _) (ih2 he.2 _)
  | prod e1 e2 ih1 ih2 => exact Carries.prod (ih1 he.1 _) (ih2 he.2 _)

/-- **C123.** Moving all inputs (training, inducing and new) by the same rigid motion `x ↦ Q x + b` and rotating the
jacobians along changes nothing: coefficients, predictions, covariances and likelihoods of GPR and SGPR are the same. For
every expression of constants, `SquaredExponential` and Matern kernels that look at all features. -/
theorem C123_rigid_motion (e : KExpr d) (he : Isotropic e) (θ : GPParams) (Q : Matrix (Fin d) (Fin d) ℝ)
    (hQ : Q.transpose * Q = 1) (b : Fin d → ℝ) : SameModels e.obj θ e.obj θ (affine Q b) (affine Q 0) :=
  Carries.same (rigid_carries e he Q hQ b _) rfl

theorem rotation_carries (e : KExpr d) (he : RotationInvariant e) (Q : Matrix (Fin d) (Fin d) ℝ)
    (hQ : Q.transpose * Q = 1) (p : KPar) : Carries e.obj p e.obj p (affine Q 0) (affine Q 0) := by
  have hT : ∀ u w : Fin d → ℝ, ∑ f, affine Q 0 u f * affine Q 0 w f = ∑ f, u f * w f := fun u w => by
    simpa [affine] using orthogonal_dot hQ u w
  induction e generalizing p with
  | constant a => exact carries_constant a a rfl _ _
  | linear a => subst he; exact carries_linear hT p
  | polynomial a c => subst he; exact carries_polynomial hT c p
  | squaredExponential a => subst he; exact rigid_radial radial_se (closedJ_se none p) hQ 0
  | matern12 a => subst he; exact rigid_radial radial_m12 (closedJ_m12 none p) hQ 0
  | matern32 a => subst he; exact rigid_radial radial_m32 (closedJ_m32 none p) hQ 0
  | matern52 a => subst he; exact rigid_radial radial_m52 (closedJ_m52 none p) hQ 0
  | expSinSquared a => exact he.elim
  | sum e1 e2 ih1 ih2 => exact Carries.sum (ih1 he.1 _) (ih2 he.2 _)
  | prod e1 e2 ih1 ih2 => exact Carries.prod (ih1 he.1 _) (ih2 he.2 _)

/-- **C123**, rotations about the origin: `Linear` and `Polynomial` kernels are allowed too. -/
theorem C123_rotation (e : KExpr d) (he : RotationInvariant e) (θ : GPParams) (Q : Matrix (Fin d) (Fin d) ℝ)
    (hQ : Q.transpose * Q = 1) : SameModels e.obj θ e.obj θ (affine Q 0) (affine Q 0) :=
  Carries.same (rotation_carries e he Q hQ _) rfl

theorem translation_carries (e : KExpr d) (he : TranslationInvariant e) (b : Fin d → ℝ) (p : KPar) :
    Carries e.obj p e.obj p (fun x f => x f + b f) (fun u => u) := by
  have rad : ∀ {c : ℝ → Core} (_ : Radial c) {κ : KernelObj d} {p : KPar} {ad : Dims d} {l : ℝ}
      (_ : ClosedJ κ p ad (c l)), Carries κ p κ p (fun x f => x f + b f) (fun u => u) := fun {c} hc {κ p ad l} h =>
    Carries.ofRadial hc h h (fun x y f => by ring) (fun u w => rfl)
  induction e generalizing p with
  | constant a => exact carries_constant a a rfl _ _
  | linear a => exact he.elim
  | polynomial a c => exact he.elim
  | squaredExponential a => exact rad radial_se (closedJ_se a p)
  | matern12 a => exact rad radial_m12 (closedJ_m12 a p)
  | matern32 a => exact rad radial_m32 (closedJ_m32 a p)
  | matern52 a => exact rad radial_m52 (closedJ_m52 a p)
  | expSinSquared a =>
    exact carries_ess a one_ne_zero rfl (one_mul _).symm (fun x y f => by ring) (fun u f => (one_mul _).symm)
  | sum e1 e2 ih1 ih2 => exact Carries.sum (ih1 he.1 _) (ih2 he.2 _)
  | prod e1 e2 ih1 ih2 => exact Carries.prod (ih1 he.1 _) (ih2 he.2 _)

/-- **C123**, translations: every expression without `Linear` and `Polynomial`, with any `active_dims`; the jacobians stay as
they are. -/
theorem C123_translation (e : KExpr d) (he : TranslationInvariant e) (θ : GPParams) (b : Fin d → ℝ) :
    SameModels e.obj θ e.obj θ (fun x f => x f + b f) (fun u => u) :=
  Carries.same (translation_carries e he b _) rfl

/-- Non-vacuity: a quarter turn, and a scaled `SquaredExponential` plus a `Matern52`. -/
example : (!![0, -1; 1, 0] : Matrix (Fin 2) (Fin 2) ℝ).transpose * !![0, -1; 1, 0] = 1 ∧
    Isotropic (.sum (.prod (.constant none) (.squaredExponential none)) (.matern52 none) : KExpr 2) := by
  refine ⟨?_, ⟨trivial, rfl⟩, rfl⟩
  ext i j
  fin_cases i <;> fin_cases j <;> simp [Matrix.mul_apply, Fin.sum_univ_two]

/-! ## C124: units -/

theorem units_carries (e : KExpr d) (s : ℝ) (hs : s ≠ 0) (p q : KPar) (hp : InUnits s e p q) :
    Carries e.obj p e.obj q (fun x f => s * x f) (fun u f => s * u f) := by
  have rad : ∀ {c : ℝ → Core} (_ : Radial c) {κ : KernelObj d} {p q : KPar} {ad : Dims d} {l l' : ℝ}
      (_ : ClosedJ κ p ad (c l)) (_ : ClosedJ κ q ad (c l')) (_ : l' = s * l),
      Carries κ p κ q (fun x f => s * x f) (fun u f => s * u f) := fun {c} hc {κ p q ad l l'} h h' hl =>
    Carries.ofRadial hc h h' (fun x y f => by ring) (fun u w => by
      rw [hl, mul_pow, ← mul_div_mul_left (∑ a, u (ad.idx a) * w (ad.idx a)) (l ^ 2) (pow_ne_zero 2 hs), Finset.mul_sum]
      congr 1
      exact Finset.sum_congr rfl fun a _ => by ring)
  induction e generalizing p q with
  | constant a => exact carries_constant a a hp _ _
  | linear a => exact hp.elim
  | polynomial a c => exact hp.elim
  | squaredExponential a => exact rad radial_se (closedJ_se a p) (closedJ_se a q) hp
  | matern12 a => exact rad radial_m12 (closedJ_m12 a p) (closedJ_m12 a q) hp
  | matern32 a => exact rad radial_m32 (closedJ_m32 a p) (closedJ_m32 a q) hp
  | matern52 a => exact rad radial_m52 (closedJ_m52 a p) (closedJ_m52 a q) hp
  | expSinSquared a => exact carries_ess a hs hp.1 hp.2 (fun x y f => by ring) (fun u f => rfl)
  | sum e1 e2 ih1 ih2 => exact Carries.sum (ih1 _ _ hp.1) (ih2 _ _ hp.2)
  | prod e1 e2 ih1 ih2 => exact Carries.prod (ih1 _ _ hp.1) (ih2 _ _ hp.2)

/-- **C124.** Expressing the inputs in other units: when inputs and jacobians are multiplied by `s ≠ 0` and the lengthscales
(of `SquaredExponential` and Matern kernels) and periods (of `ExpSinSquared`) are multiplied by `s` too, nothing else
changes: coefficients, predictions, covariances, likelihoods. -/
theorem C124_units (e : KExpr d) (s : ℝ) (hs : s ≠ 0) (θ θ' : GPParams)
    (hσ : θ'.sigma = θ.sigma) (hp : InUnits s e θ.kernelParams θ'.kernelParams) :
    SameModels e.obj θ e.obj θ' (fun x f => s * x f) (fun u f => s * u f) :=
  Carries.same (units_carries e s hs _ _ hp) hσ

/-- Non-vacuity: from metres to millimetres. -/
example : InUnits 1000 (.prod (.constant none) (.matern52 none) : KExpr 3)
    (fun path => if path = ["kernel2", "lengthscale"] then 0.2 else 7)
    (fun path => if path = ["kernel2", "lengthscale"] then 200 else 7) := by
  refine ⟨?_, ?_⟩
  · simp [InUnits, KPar.val, KPar.sub]
  · simp only [InUnits, KPar.val, KPar.sub, if_true]; norm_num

/-! ## C125: selecting features -/

theorem carries_select (ad : Dims d) (a : Option (Dims ad.k)) {κ : KernelObj d} {κ' : KernelObj ad.k} {p : KPar} {c : Core}
    (h : ClosedJ κ p (Dims.resolve (composeDims ad a)) c) (h' : ClosedJ κ' p (Dims.resolve a) c) :
    Carries κ p κ' p ad.take ad.take := by
  cases a with
  | none =>
    exact Carries.ofClosed h h' (fun x y => rfl) (fun x y u => rfl) (fun x y u => rfl) (fun x y u => rfl)
      (fun x y u w => rfl)
  | some b =>
    exact Carries.ofClosed h h' (fun x y => rfl) (fun x y u => rfl) (fun x y u => rfl) (fun x y u => rfl)
      (fun x y u w => rfl)

theorem select_carries (ad : Dims d) (e : KExpr ad.k) (p : KPar) :
    Carries (onFeatures ad e).obj p e.obj p ad.take ad.take := by
  induction e generalizing p with
  | constant a => exact carries_constant _ _ rfl _ _
  | linear a =>
    exact carries_select ad a (closedJ_linear _ p) (closedJ_linear a p)
  | polynomial a c =>
    exact carries_select ad a (closedJ_polynomial _ c p) (closedJ_polynomial a c p)
  | squaredExponential a =>
    exact carries_select ad a (closedJ_se _ p) (closedJ_se a p)
  | matern12 a => exact carries_select ad a (closedJ_m12 _ p) (closedJ_m12 a p)
  | matern32 a => exact carries_select ad a (closedJ_m32 _ p) (closedJ_m32 a p)
  | matern52 a =>
    exact carries_select ad a (closedJ_m52 _ p) (closedJ_m52 a p)
  | expSinSquared a => exact carries_select ad a (closedJ_ess _ p) (closedJ_ess a p)
  | sum e1 e2 ih1 ih2 => exact Carries.sum (ih1 _) (ih2 _)
  | prod e1 e2 ih1 ih2 => exact Carries.prod (ih1 _) (ih2 _)

/-- **C125.** Giving every kernel of an expression `active_dims` (inside the features `ad`) and training on all columns is
the same as training the expression on the selected columns of the inputs and of the jacobians: coefficients, predictions,
covariances, likelihoods. In particular the other columns have no influence on anything. -/
theorem C125_active_dims (ad : Dims d) (e : KExpr ad.k)
    (θ : GPParams) : SameModels (onFeatures ad e).obj θ e.obj θ (fun x a => x (ad.idx a)) (fun u a => u (ad.idx a)) :=
  Carries.same (select_carries ad e _) rfl

/-- The first and the third of three features, and the third twice. -/
example (θ : GPParams) : SameModels (.sum (.linear (some ⟨3, ![0, 2, 2]⟩)) (.matern32 (some ⟨1, ![2]⟩)) : KExpr 3).obj θ
    (.sum (.linear none) (.matern32 (some ⟨1, ![1]⟩)) : KExpr 3).obj θ (fun x a => x (![0, 2, 2] a))
    (fun u a => u (![0, 2, 2] a)) := by
  have h := C125_active_dims (⟨3, ![0, 2, 2]⟩ : Dims 3) (.sum (.linear none) (.matern32 (some ⟨1, ![1]⟩))) θ
  have e : (onFeatures (⟨3, ![0, 2, 2]⟩ : Dims 3) (.sum (.linear none) (.matern32 (some ⟨1, ![1]⟩)))) =
      (.sum (.linear (some ⟨3, ![0, 2, 2]⟩)) (.matern32 (some ⟨1, ![2]⟩)) : KExpr 3) := by
    simp only [onFeatures, composeDims]
    congr 3
    congr 1
    funext a
    fin_cases a
    rfl
  rw [e] at h
  exact h

end GPX.Props
