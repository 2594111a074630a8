import Verif.Lemmas.KernelLeaves

/-! # Closed form of the Matern and periodic kernels, symmetry of all closed forms -/

namespace GPX
open GPX.Spec

variable {d : ℕ}

/-! ## Matern12 -/

noncomputable def m12Ex (l : ℝ) (k : ℕ) : Ex (KVar k) :=
  .exp (.neg (.sqrt (.maxc (sqDistEx l k) maternFloor)))

noncomputable def Core.m12 (l : ℝ) : Core :=
  { Core.ofEx (m12Ex l) with
    K := fun x y => Real.exp (-Real.sqrt (max (sqd l x y + sqDistJitter) maternFloor)) }

theorem closed_m12 (active : Option (Dims d)) (p : KPar) :
    ClosedForm (KernelObj.matern12 active) p (Dims.resolve active)
      (Core.m12 (p.val "lengthscale")) := by
  have hA := ClosedForm.ofEx (fun p => matern12Base (Dims.resolve active) (p.val "lengthscale")) p
    (Dims.resolve active) (m12Ex (p.val "lengthscale")) rfl
  exact { hA with
    k := by
      intro n m x1 x2 i j
      simp only [KernelObj.matern12, matern12K, squaredDistances_scaled, Core.m12] }

/-! ## Matern32 -/

noncomputable def mDistEx (c l : ℝ) (k : ℕ) : Ex (KVar k) :=
  .sqrt (.maxc (.mul (.const c) (sqDistEx l k)) maternFloor)

noncomputable def mDiffEx (c l : ℝ) (k : ℕ) (a : Fin k) : Ex (KVar k) :=
  .mul (.const (Real.sqrt c)) (diffEx l k a)

noncomputable def mDistDiffEx (c l : ℝ) (k : ℕ) : Ex (KVar k) :=
  .sqrt (.maxc (.sum fun a => .mul (mDiffEx c l k a) (mDiffEx c l k a)) maternFloor)

noncomputable def m32Ex (l : ℝ) (k : ℕ) : Ex (KVar k) :=
  .mul (.add (.const 1) (mDistEx 3 l k)) (.exp (.neg (mDistEx 3 l k)))

noncomputable def m32T0Ex (l : ℝ) (k : ℕ) (a : Fin k) : Ex (KVar k) :=
  .mul (.mul (.const (-Real.sqrt 3 / l)) (.exp (.neg (mDistDiffEx 3 l k)))) (mDiffEx 3 l k a)

noncomputable def Core.m32 (l : ℝ) : Core :=
  { Core.customJvp (m32Ex l) (m32T0Ex l) (fun k a => .neg (m32T0Ex l k a)) with
    K := fun x y =>
      (1 + Real.sqrt 3 * Real.sqrt (max (sqd l x y + sqDistJitter) maternFloor)) *
        Real.exp (-(Real.sqrt 3 * Real.sqrt (max (sqd l x y + sqDistJitter) maternFloor))) }

theorem closed_m32 (active : Option (Dims d)) (p : KPar) :
    ClosedForm (KernelObj.matern32 active) p (Dims.resolve active)
      (Core.m32 (p.val "lengthscale")) := by
  have hA := ClosedForm.customJvp
    (fun p => matern32BaseEx (Dims.resolve active) (p.val "lengthscale")) p
    (Dims.resolve active) (fun p => matern32T0 (Dims.resolve active) (p.val "lengthscale"))
    (fun p => matern32T1 (Dims.resolve active) (p.val "lengthscale")) (m32Ex (p.val "lengthscale"))
    (m32T0Ex (p.val "lengthscale")) (fun k a => .neg (m32T0Ex (p.val "lengthscale") k a))
    rfl (fun _ => rfl) (fun _ => rfl)
  exact { hA with
    k := by
      intro n m x1 x2 i j
      simp only [KernelObj.matern32, matern32K, squaredDistances_scaled, Core.m32] }

/-! ## Matern52 -/

noncomputable def m52Ex (l : ℝ) (k : ℕ) : Ex (KVar k) :=
  .mul
    (.add (.add (.const 1) (mDistEx 5 l k)) (.mul (.mul (.const 5) (sqDistEx l k)) (.inv (.const 3))))
    (.exp (.neg (mDistEx 5 l k)))

noncomputable def m52T0Ex (l : ℝ) (k : ℕ) (a : Fin k) : Ex (KVar k) :=
  .mul (.mul (.mul (.const (-(Real.sqrt 5 / (3 * l)))) (.add (.const 1) (mDistDiffEx 5 l k)))
    (.exp (.neg (mDistDiffEx 5 l k)))) (mDiffEx 5 l k a)

/-- The distance of `Matern52` as a function of the squared distance. -/
noncomputable def m52Dist (s : ℝ) : ℝ := Real.sqrt 5 * Real.sqrt (max (s + sqDistJitter) maternFloor)

noncomputable def Core.m52 (l : ℝ) : Core where
  K := fun x y => (1 + m52Dist (sqd l x y) + m52Dist (sqd l x y) ^ 2 / 3) *
    Real.exp (-m52Dist (sqd l x y))
  G0 := fun x y a => -(Real.sqrt 5 / (3 * l)) * (1 + m52Dist (sqd l x y)) *
    Real.exp (-m52Dist (sqd l x y)) * (Real.sqrt 5 * (x a / l - y a / l))
  G1 := fun x y a => Real.sqrt 5 / (3 * l) * (1 + m52Dist (sqd l x y)) *
    Real.exp (-m52Dist (sqd l x y)) * (Real.sqrt 5 * (x a / l - y a / l))
  H := fun x y a b =>
    -(5 / (3 * l ^ 2) * Real.exp (-m52Dist (sqd l x y))) * (Real.sqrt 5 * (x a / l - y a / l)) *
        (Real.sqrt 5 * (x b / l - y b / l)) +
      if a = b then 5 / (3 * l ^ 2) * Real.exp (-m52Dist (sqd l x y)) * (1 + m52Dist (sqd l x y))
      else 0
  C0 := fun {k} x y a => (m52T0Ex l k a).eval (Sum.elim x y)

theorem matern52Dist_eq {n m : ℕ} (ad : Dims d) (l : ℝ) (x1 : Batch n d) (x2 : Batch m d)
    (i : Fin n) (j : Fin m) :
    matern52Dist ad l x1 x2 i j = m52Dist (sqd l (ad.take (x1 i)) (ad.take (x2 j))) := by
  simp only [matern52Dist, squaredDistances_scaled, m52Dist]

theorem closed_m52 (active : Option (Dims d)) (hinj : NoRepeat active) (p : KPar) :
    ClosedForm (KernelObj.matern52 active) p (Dims.resolve active)
      (Core.m52 (p.val "lengthscale")) := by
  have h := resolve_injective active hinj
  have hA := ClosedForm.customJvp
    (fun p => matern52BaseEx (Dims.resolve active) (p.val "lengthscale")) p
    (Dims.resolve active) (fun p => matern52T0 (Dims.resolve active) (p.val "lengthscale"))
    (fun p => matern52T1 (Dims.resolve active) (p.val "lengthscale")) (m52Ex (p.val "lengthscale"))
    (m52T0Ex (p.val "lengthscale")) (fun k a => .neg (m52T0Ex (p.val "lengthscale") k a))
    rfl (fun _ => rfl) (fun _ => rfl)
  have h0 : ∀ {n m : ℕ} (x1 : Batch n d) (x2 : Batch m d) i f j,
      matern52D0k (Dims.resolve active) (p.val "lengthscale") x1 x2 (flat i f) j =
        (Dims.resolve active).spread ((Core.m52 (p.val "lengthscale")).G0
          ((Dims.resolve active).take (x1 i)) ((Dims.resolve active).take (x2 j))) f := by
    intro n m x1 x2 i f j
    simp only [matern52D0k, reshapeRows_flat, matern52Dist_eq]
    rw [Dims.scatterSet_zero₂ _ h]
    rfl
  have h1 : ∀ {n m : ℕ} (x1 : Batch n d) (x2 : Batch m d) i j f,
      matern52D1k (Dims.resolve active) (p.val "lengthscale") x1 x2 i (flat j f) =
        (Dims.resolve active).spread ((Core.m52 (p.val "lengthscale")).G1
          ((Dims.resolve active).take (x1 i)) ((Dims.resolve active).take (x2 j))) f := by
    intro n m x1 x2 i j f
    simp only [matern52D1k, reshapeCols_flat, matern52Dist_eq]
    rw [Dims.scatterSet_zero _ h]
    rfl
  constructor
  case k =>
    intro n m x1 x2 i j
    simp only [KernelObj.matern52, matern52K, matern52Dist_eq, Core.m52]
  case d0k => intro n m x1 x2 i f j; exact h0 x1 x2 i f j
  case d1k => intro n m x1 x2 i j e; exact h1 x1 x2 i j e
  case d01k =>
    intro n m x1 x2 i f j e
    simp only [KernelObj.matern52, matern52D01k, reshapeBoth_flat]
    rw [Dims.scatterSet_zero _ h, Dims.spread_outer _ h, Dims.diagAdd_spread _ h]
    simp only [Core.m52, matern52Const, matern52Dist_eq, matern52Diff, scaled, Dims.takeCols]
  case d0kj =>
    intro n m v x1 x2 J i u j
    simp only [KernelObj.matern52, matern52D0kj, reshapeRows_flat, Dims.takeJac, Dims.take,
      unshapeRows_apply]
    refine Finset.sum_congr rfl fun a _ => ?_
    rw [h0, Dims.spread_idx _ h]
  case d1kj =>
    intro n m v x1 x2 J i j u
    simp only [KernelObj.matern52, matern52D1kj, reshapeCols_flat, Dims.takeJac, Dims.take,
      unshapeCols_apply]
    refine Finset.sum_congr rfl fun a _ => ?_
    rw [h1, Dims.spread_idx _ h]
  case d01kj =>
    intro n m v1 v2 x1 x2 J1 J2 i u j w
    simp only [KernelObj.matern52, matern52D01kj, reshapeBoth_flat]
    rw [outer_contract]
    simp only [Core.m52, matern52Const, matern52Dist_eq, matern52Diff, scaled,
      Dims.takeCols, Dims.takeJac]
    rfl
  case d0kjc =>
    intro n m x1 x2 jc i j
    exact hA.d0kjc x1 x2 jc i j
  case d01kjc =>
    intro n m v x1 x2 jc J i j w
    simp only [KernelObj.matern52, matern52D01kjc, reshapeCols_flat]
    rw [outer_contract]
    simp only [Core.m52, matern52Const, matern52Dist_eq, matern52Diff, scaled,
      Dims.takeCols, Dims.takeJac]
    rfl

/-! ## ExpSinSquared -/

noncomputable def essEx (l per : ℝ) (k : ℕ) : Ex (KVar k) :=
  let arg : Fin k → Ex (KVar k) := fun a =>
    .mul (.mul (.const Real.pi) (.abs (.add (.var (.inl a)) (.neg (.var (.inr a))))))
      (.inv (.const per))
  .exp (.mul (.const (-4)) (.sum fun a => .mul (.mul (.sin (arg a)) (.sin (arg a))) (.inv (.const l))))

/-- `sin(pi * |t| / period)` with the sign of `t` given back. -/
theorem sin_abs_sign (per t : ℝ) :
    Real.sin (Real.pi * |t| * per⁻¹) * (if 0 ≤ t then 1 else -1) = Real.sin (Real.pi * t / per) := by
  by_cases h : 0 ≤ t
  · rw [if_pos h, abs_of_nonneg h, mul_one, div_eq_mul_inv]
  · rw [if_neg h, abs_of_neg (not_le.mp h)]
    have : Real.pi * -t * per⁻¹ = -(Real.pi * t / per) := by rw [div_eq_mul_inv]; ring
    rw [this, Real.sin_neg]; ring

theorem cos_abs (per t : ℝ) :
    Real.cos (Real.pi * |t| * per⁻¹) = Real.cos (Real.pi * t / per) := by
  by_cases h : 0 ≤ t
  · rw [abs_of_nonneg h, div_eq_mul_inv]
  · rw [abs_of_neg (not_le.mp h)]
    have : Real.pi * -t * per⁻¹ = -(Real.pi * t / per) := by rw [div_eq_mul_inv]; ring
    rw [this, Real.cos_neg]

theorem sign_sq (t : ℝ) : (if 0 ≤ t then (1 : ℝ) else -1) * (if 0 ≤ t then (1 : ℝ) else -1) = 1 := by
  split_ifs <;> norm_num

theorem sin_abs_sq (per t : ℝ) :
    Real.sin (Real.pi * |t| * per⁻¹) * Real.sin (Real.pi * |t| * per⁻¹) =
      Real.sin (Real.pi * t / per) ^ 2 := by
  rw [← sin_abs_sign]
  linear_combination (-(Real.sin (Real.pi * |t| * per⁻¹)) ^ 2) * sign_sq t

/-- The exponent, divided by `-4`. -/
noncomputable def essS (l per : ℝ) {k : ℕ} (x y : Fin k → ℝ) : ℝ :=
  ∑ a, Real.sin (Real.pi * (x a - y a) / per) ^ 2 / l

noncomputable def essQ (l per t : ℝ) : ℝ :=
  2 * Real.sin (Real.pi * t / per) * Real.cos (Real.pi * t / per) * (Real.pi / per) / l

noncomputable def essR (l per t : ℝ) : ℝ :=
  2 * (Real.cos (Real.pi * t / per) ^ 2 - Real.sin (Real.pi * t / per) ^ 2) * (Real.pi / per) ^ 2 / l

noncomputable def Core.ess (l per : ℝ) : Core where
  K := fun x y => Real.exp (-4 * essS l per x y)
  G0 := fun x y a => -4 * essQ l per (x a - y a) * Real.exp (-4 * essS l per x y)
  G1 := fun x y a => 4 * essQ l per (x a - y a) * Real.exp (-4 * essS l per x y)
  H := fun x y a b => ((if a = b then 4 * essR l per (x a - y a) else 0) -
    16 * essQ l per (x a - y a) * essQ l per (x b - y b)) * Real.exp (-4 * essS l per x y)
  C0 := fun x y a => -4 * essQ l per (x a - y a) * Real.exp (-4 * essS l per x y)

/-- The argument of the sine. -/
noncomputable def essArg (per : ℝ) (k : ℕ) (a : Fin k) : Ex (KVar k) :=
  .mul (.mul (.const Real.pi) (.abs (.add (.var (.inl a)) (.neg (.var (.inr a))))))
      (.inv (.const per))

noncomputable def essTerm (l per : ℝ) (k : ℕ) (a : Fin k) : Ex (KVar k) :=
  .mul (.mul (.sin (essArg per k a)) (.sin (essArg per k a))) (.inv (.const l))

theorem essEx_eq (l per : ℝ) (k : ℕ) :
    essEx l per k = .exp (.mul (.const (-4)) (.sum fun a => essTerm l per k a)) := rfl

theorem eval_essArg (per : ℝ) {k : ℕ} (x y : Fin k → ℝ) (a : Fin k) :
    (essArg per k a).eval (Sum.elim x y) = Real.pi * |x a - y a| * per⁻¹ := by
  simp [essArg, Ex.eval, sub_eq_add_neg]

theorem eval_D_essArg_inl (per : ℝ) {k : ℕ} (x y : Fin k → ℝ) (a b : Fin k) :
    ((essArg per k a).D (.inl b)).eval (Sum.elim x y) =
      if a = b then Real.pi * (if 0 ≤ x a - y a then 1 else -1) * per⁻¹ else 0 := by
  by_cases h : a = b
  · subst h; simp [essArg, Ex.eval, Ex.D, sub_eq_add_neg]
  · simp [essArg, Ex.eval, Ex.D, h]

theorem eval_D_essArg_inr (per : ℝ) {k : ℕ} (x y : Fin k → ℝ) (a b : Fin k) :
    ((essArg per k a).D (.inr b)).eval (Sum.elim x y) =
      if a = b then -(Real.pi * (if 0 ≤ x a - y a then 1 else -1) * per⁻¹) else 0 := by
  by_cases h : a = b
  · subst h
    simp only [essArg, Ex.eval, Ex.D, Sum.elim_inl, Sum.elim_inr, if_true, reduceCtorEq, if_false,
      sub_eq_add_neg]
    ring_nf
  · simp [essArg, Ex.eval, Ex.D, h]

theorem eval_DD_essArg (per : ℝ) {k : ℕ} (x y : Fin k → ℝ) (a : Fin k) (v w : KVar k) :
    (((essArg per k a).D v).D w).eval (Sum.elim x y) = 0 := by
  simp [essArg, Ex.eval, Ex.D]

theorem eval_essTerm (l per : ℝ) {k : ℕ} (x y : Fin k → ℝ) (a : Fin k) :
    (essTerm l per k a).eval (Sum.elim x y) = Real.sin (Real.pi * (x a - y a) / per) ^ 2 / l := by
  simp only [essTerm, Ex.eval, eval_essArg, sin_abs_sq, div_eq_mul_inv]

theorem eval_D_essTerm_inl (l per : ℝ) {k : ℕ} (x y : Fin k → ℝ) (a b : Fin k) :
    ((essTerm l per k a).D (.inl b)).eval (Sum.elim x y) =
      if a = b then essQ l per (x a - y a) else 0 := by
  simp only [essTerm, Ex.D, Ex.eval, eval_essArg, eval_D_essArg_inl, cos_abs]
  by_cases h : a = b
  · subst h
    simp only [if_true, essQ, ← sin_abs_sign]
    ring
  · simp [h]

theorem eval_D_essTerm_inr (l per : ℝ) {k : ℕ} (x y : Fin k → ℝ) (a b : Fin k) :
    ((essTerm l per k a).D (.inr b)).eval (Sum.elim x y) =
      if a = b then -essQ l per (x a - y a) else 0 := by
  simp only [essTerm, Ex.D, Ex.eval, eval_essArg, eval_D_essArg_inr, cos_abs]
  by_cases h : a = b
  · subst h
    simp only [if_true, essQ, ← sin_abs_sign]
    ring
  · simp [h]

theorem eval_DD_essTerm (l per : ℝ) {k : ℕ} (x y : Fin k → ℝ) (a b c : Fin k) :
    (((essTerm l per k c).D (.inl a)).D (.inr b)).eval (Sum.elim x y) =
      if c = a then (if a = b then -essR l per (x a - y a) else 0) else 0 := by
  simp only [essTerm, Ex.D, Ex.eval, eval_essArg, eval_D_essArg_inl, eval_D_essArg_inr,
    eval_DD_essArg, cos_abs]
  by_cases h : c = a
  · subst h
    by_cases h2 : c = b
    · subst h2
      simp only [if_true, essR, ← sin_abs_sign]
      have h3 := sign_sq (x c - y c)
      generalize (if 0 ≤ x c - y c then (1 : ℝ) else -1) = σ at h3 ⊢
      generalize Real.sin (Real.pi * |x c - y c| * per⁻¹) = S
      generalize Real.cos (Real.pi * (x c - y c) / per) = C
      simp only [div_eq_mul_inv]
      linear_combination (-2 * C ^ 2 * Real.pi ^ 2 * per⁻¹ ^ 2 * l⁻¹) * h3
    · simp [h2]
  · simp [h]

theorem ofEx_ess_K (l per : ℝ) {k : ℕ} (x y : Fin k → ℝ) :
    (Core.ofEx (essEx l per)).K x y = (Core.ess l per).K x y := by
  simp only [Core.ofEx, essEx_eq, Ex.eval, eval_essTerm, Core.ess, essS]

theorem ofEx_ess_G0 (l per : ℝ) {k : ℕ} (x y : Fin k → ℝ) :
    (Core.ofEx (essEx l per)).G0 x y = (Core.ess l per).G0 x y := by
  funext a
  simp only [Core.ofEx, essEx_eq, Ex.D, Ex.eval, eval_essTerm, eval_D_essTerm_inl, Core.ess, essS]
  simp

theorem ofEx_ess_G1 (l per : ℝ) {k : ℕ} (x y : Fin k → ℝ) :
    (Core.ofEx (essEx l per)).G1 x y = (Core.ess l per).G1 x y := by
  funext a
  simp only [Core.ofEx, essEx_eq, Ex.D, Ex.eval, eval_essTerm, eval_D_essTerm_inr, Core.ess, essS]
  simp

theorem ofEx_ess_H (l per : ℝ) {k : ℕ} (x y : Fin k → ℝ) :
    (Core.ofEx (essEx l per)).H x y = (Core.ess l per).H x y := by
  funext a b
  simp only [Core.ofEx, essEx_eq, Ex.D, Ex.eval, eval_essTerm, eval_D_essTerm_inl,
    eval_D_essTerm_inr, eval_DD_essTerm, Core.ess, essS]
  simp only [Finset.sum_ite_eq', Finset.mem_univ, if_true]
  by_cases h : a = b
  · subst h; simp only [if_true]; ring
  · simp only [h, if_false]; ring

theorem closed_ess (active : Option (Dims d)) (p : KPar) :
    ClosedForm (KernelObj.expSinSquared active) p (Dims.resolve active)
      (Core.ess (p.val "lengthscale") (p.val "periodicity")) := by
  have hA := ClosedForm.ofEx (fun p => expSinSquaredBase (Dims.resolve active)
    (p.val "lengthscale") (p.val "periodicity")) p (Dims.resolve active)
    (essEx (p.val "lengthscale") (p.val "periodicity")) rfl
  constructor
  case k => intro n m x1 x2 i j; exact (hA.k x1 x2 i j).trans (ofEx_ess_K _ _ _ _)
  case d0k =>
    intro n m x1 x2 i f j
    exact (hA.d0k x1 x2 i f j).trans (by rw [ofEx_ess_G0])
  case d1k =>
    intro n m x1 x2 i j e
    exact (hA.d1k x1 x2 i j e).trans (by rw [ofEx_ess_G1])
  case d01k =>
    intro n m x1 x2 i f j e
    exact (hA.d01k x1 x2 i f j e).trans (by rw [ofEx_ess_H])
  case d0kj =>
    intro n m v x1 x2 J i u j
    exact (hA.d0kj x1 x2 J i u j).trans (by rw [ofEx_ess_G0])
  case d1kj =>
    intro n m v x1 x2 J i j u
    exact (hA.d1kj x1 x2 J i j u).trans (by rw [ofEx_ess_G1])
  case d01kj =>
    intro n m v1 v2 x1 x2 J1 J2 i u j w
    exact (hA.d01kj x1 x2 J1 J2 i u j w).trans (by rw [ofEx_ess_H])
  case d0kjc =>
    intro n m x1 x2 jc i j
    refine (hA.d0kjc x1 x2 jc i j).trans ?_
    exact Finset.sum_congr rfl fun a _ => congrArg _ (congrFun (ofEx_ess_G0 _ _ _ _) a)
  case d01kjc =>
    intro n m v x1 x2 jc J i j w
    exact (hA.d01kjc x1 x2 jc J i j w).trans (by rw [ofEx_ess_H])

/-! ## Symmetry -/

/-- Exchange of the arguments. -/
structure Core.Symm (c : Core) : Prop where
  K : ∀ {k : ℕ} (x y : Fin k → ℝ), c.K x y = c.K y x
  G : ∀ {k : ℕ} (x y : Fin k → ℝ) a, c.G1 x y a = c.G0 y x a
  H : ∀ {k : ℕ} (x y : Fin k → ℝ) a b, c.H x y a b = c.H y x b a

theorem sqd_comm (l : ℝ) {k : ℕ} (x y : Fin k → ℝ) : sqd l x y = sqd l y x := by
  unfold sqd
  exact Finset.sum_congr rfl fun a _ => by ring

theorem symm_constant (v : ℝ) : (Core.constant v).Symm := ⟨fun _ _ => rfl, fun _ _ _ => rfl,
  fun _ _ _ _ => rfl⟩

theorem dot_comm {k : ℕ} (x y : Fin k → ℝ) : ∑ a, x a * y a = ∑ a, y a * x a :=
  Finset.sum_congr rfl fun _ _ => mul_comm _ _

theorem symm_linear : Core.linear.Symm where
  K x y := dot_comm x y
  G x y a := rfl
  H x y a b := by simp only [Core.linear, eq_comm]

theorem symm_polynomial (deg off : ℝ) (ni : Bool) : (Core.polynomial deg off ni).Symm where
  K x y := by simp only [Core.polynomial]; rw [dot_comm]
  G x y a := by simp only [Core.polynomial]; rw [dot_comm]
  H x y a b := by
    simp only [Core.polynomial]
    rw [dot_comm x y]
    by_cases h : a = b
    · subst h; simp only [if_true]; ring
    · rw [if_neg h, if_neg (Ne.symm h)]; ring

theorem symm_se (l : ℝ) : (Core.se l).Symm where
  K x y := by simp only [Core.se]; rw [sqd_comm]
  G x y a := by simp only [Core.se]; rw [sqd_comm]; ring
  H x y a b := by
    simp only [Core.se]
    rw [sqd_comm]
    by_cases h : a = b
    · subst h; simp only [if_true]; ring
    · rw [if_neg h, if_neg (Ne.symm h)]; ring

theorem symm_m12 (l : ℝ) : (Core.m12 l).Symm where
  K x y := by simp only [Core.m12]; rw [sqd_comm]
  G x y a := by
    simp only [Core.m12, Core.ofEx, m12Ex, Ex.D, Ex.eval, eval_D_sqDistEx_inl, eval_D_sqDistEx_inr,
      eval_sqDistEx]
    rw [sqd_comm]
    ring
  H x y a b := by
    simp only [Core.m12, Core.ofEx, m12Ex, Ex.D, Ex.eval, eval_D_sqDistEx_inl, eval_D_sqDistEx_inr,
      eval_sqDistEx, eval_DD_sqDistEx]
    rw [sqd_comm]
    by_cases h : a = b
    · subst h; simp only [if_true]; ring
    · rw [if_neg h, if_neg (Ne.symm h)]; ring

theorem eval_mDiffEx (c l : ℝ) {k : ℕ} (x y : Fin k → ℝ) (a : Fin k) :
    (mDiffEx c l k a).eval (Sum.elim x y) = Real.sqrt c * (x a / l - y a / l) := by
  simp only [mDiffEx, Ex.eval, eval_diffEx]

theorem eval_D_mDiffEx (c l : ℝ) {k : ℕ} (x y : Fin k → ℝ) (a b : Fin k) :
    ((mDiffEx c l k a).D (.inr b)).eval (Sum.elim x y) =
      if a = b then -(Real.sqrt c / l) else 0 := by
  simp only [mDiffEx, Ex.D, Ex.eval, eval_diffEx, eval_D_diffEx_inr]
  split_ifs <;> ring

theorem eval_sumSq_mDiffEx {c : ℝ} (hc : 0 ≤ c) (l : ℝ) {k : ℕ} (x y : Fin k → ℝ) :
    ∑ a, (mDiffEx c l k a).eval (Sum.elim x y) * (mDiffEx c l k a).eval (Sum.elim x y) =
      c * sqd l x y := by
  unfold sqd
  rw [Finset.mul_sum]
  refine Finset.sum_congr rfl fun a _ => ?_
  rw [eval_mDiffEx]
  have := Real.mul_self_sqrt hc
  linear_combination (x a / l - y a / l) ^ 2 * this

theorem eval_mDistDiffEx {c : ℝ} (hc : 0 ≤ c) (l : ℝ) {k : ℕ} (x y : Fin k → ℝ) :
    (mDistDiffEx c l k).eval (Sum.elim x y) = Real.sqrt (max (c * sqd l x y) maternFloor) := by
  simp only [mDistDiffEx, Ex.eval]
  rw [eval_sumSq_mDiffEx hc]

theorem eval_D_sumSq_mDiffEx {c : ℝ} (hc : 0 ≤ c) (l : ℝ) {k : ℕ} (x y : Fin k → ℝ) (b : Fin k) :
    ((Ex.sum fun a => .mul (mDiffEx c l k a) (mDiffEx c l k a)).D (.inr b)).eval (Sum.elim x y) =
      -(2 * c / l * (x b / l - y b / l)) := by
  simp only [Ex.D, Ex.eval, eval_D_mDiffEx, eval_mDiffEx]
  have : ∀ a, ((if a = b then -(Real.sqrt c / l) else 0) * (Real.sqrt c * (x a / l - y a / l)) +
      Real.sqrt c * (x a / l - y a / l) * (if a = b then -(Real.sqrt c / l) else 0)) =
      if a = b then -(2 * c / l * (x b / l - y b / l)) else 0 := by
    intro a
    by_cases h : a = b
    · subst h
      simp only [if_true]
      have := Real.mul_self_sqrt hc
      linear_combination (-2 / l * (x a / l - y a / l)) * this
    · simp [h]
  rw [Finset.sum_congr rfl fun a _ => this a]
  simp

theorem eval_D_mDistDiffEx {c : ℝ} (hc : 0 ≤ c) (l : ℝ) {k : ℕ} (x y : Fin k → ℝ) (b : Fin k) :
    ((mDistDiffEx c l k).D (.inr b)).eval (Sum.elim x y) =
      -(2 * c / l * (x b / l - y b / l)) *
        (if maternFloor < c * sqd l x y then 1 else if c * sqd l x y = maternFloor then 1 / 2 else 0) *
        (1 / 2 * (Real.sqrt (max (c * sqd l x y) maternFloor))⁻¹) := by
  have h := eval_D_sumSq_mDiffEx hc l x y b
  simp only [Ex.D, Ex.eval] at h
  simp only [mDistDiffEx, Ex.D, Ex.eval, h, eval_sumSq_mDiffEx hc]

theorem symm_m32 (l : ℝ) : (Core.m32 l).Symm where
  K x y := by simp only [Core.m32]; rw [sqd_comm]
  G x y a := by
    simp only [Core.m32, Core.customJvp, m32T0Ex, Ex.eval, eval_mDiffEx,
      eval_mDistDiffEx (by norm_num : (0 : ℝ) ≤ 3)]
    rw [sqd_comm]
    ring
  H x y a b := by
    simp only [Core.m32, Core.customJvp, m32T0Ex, Ex.D, Ex.eval, eval_mDiffEx, eval_D_mDiffEx,
      eval_mDistDiffEx (by norm_num : (0 : ℝ) ≤ 3), eval_D_mDistDiffEx (by norm_num : (0 : ℝ) ≤ 3)]
    rw [sqd_comm]
    by_cases h : a = b
    · subst h; simp only [if_true]; ring
    · rw [if_neg h, if_neg (Ne.symm h)]; ring

theorem symm_m52 (l : ℝ) : (Core.m52 l).Symm where
  K x y := by simp only [Core.m52]; rw [sqd_comm]
  G x y a := by simp only [Core.m52]; rw [sqd_comm]; ring
  H x y a b := by
    simp only [Core.m52]
    rw [sqd_comm]
    by_cases h : a = b
    · subst h; simp only [if_true]; ring
    · rw [if_neg h, if_neg (Ne.symm h)]; ring

theorem essS_comm (l per : ℝ) {k : ℕ} (x y : Fin k → ℝ) : essS l per x y = essS l per y x := by
  unfold essS
  refine Finset.sum_congr rfl fun a _ => ?_
  have : Real.pi * (x a - y a) / per = -(Real.pi * (y a - x a) / per) := by ring
  rw [this, Real.sin_neg, neg_sq]

theorem essQ_neg (l per t : ℝ) : essQ l per (-t) = -essQ l per t := by
  have : Real.pi * -t / per = -(Real.pi * t / per) := by ring
  unfold essQ
  rw [this, Real.sin_neg, Real.cos_neg]; ring

theorem essR_neg (l per t : ℝ) : essR l per (-t) = essR l per t := by
  have : Real.pi * -t / per = -(Real.pi * t / per) := by ring
  unfold essR
  rw [this, Real.sin_neg, Real.cos_neg]; ring

theorem symm_ess (l per : ℝ) : (Core.ess l per).Symm where
  K x y := by simp only [Core.ess]; rw [essS_comm]
  G x y a := by
    simp only [Core.ess]
    rw [essS_comm, ← neg_sub (y a) (x a), essQ_neg]; ring
  H x y a b := by
    simp only [Core.ess]
    rw [essS_comm, ← neg_sub (y a) (x a), ← neg_sub (y b) (x b), essQ_neg, essQ_neg, essR_neg]
    by_cases h : a = b
    · subst h; simp only [if_true]; ring
    · rw [if_neg h, if_neg (Ne.symm h)]; ring

end GPX
