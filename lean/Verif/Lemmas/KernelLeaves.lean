import Verif.Lemmas.KernelForms
import Mathlib.Tactic.FieldSimp
import Mathlib.Tactic.Positivity

/-! # Closed form of each library kernel -/

namespace GPX
open GPX.Spec

variable {d : ℕ}

theorem resolve_injective (active : Option (Dims d)) (h : NoRepeat active) :
    Function.Injective (Dims.resolve active).idx := by
  cases active with
  | none => exact Function.injective_id
  | some ad => exact h

/-! ## Constant -/

def Core.constant (v : ℝ) : Core where
  K := fun _ _ => v
  G0 := fun _ _ _ => 0
  G1 := fun _ _ _ => 0
  H := fun _ _ _ _ => 0
  C0 := fun _ _ _ => 0

theorem Dims.spread_zero (ad : Dims d) (f : Fin d) : ad.spread (fun _ => 0) f = 0 := by
  simp [Dims.spread]

theorem Dims.spread2_zero (ad : Dims d) (f e : Fin d) : ad.spread2 (fun _ _ => 0) f e = 0 := by
  simp [Dims.spread2, Dims.spread]

theorem closed_constant (active : Option (Dims d)) (p : KPar) :
    ClosedForm (KernelObj.constant active) p (Dims.resolve active)
      (Core.constant (p.val "variance")) where
  k x1 x2 i j := by simp [KernelObj.constant, constantK, Core.constant]
  d0k x1 x2 i f j := by
    simp [KernelObj.constant, constantD0k, Core.constant, Dims.spread_zero]
  d1k x1 x2 i j e := by
    simp [KernelObj.constant, constantD1k, Core.constant, Dims.spread_zero]
  d01k x1 x2 i f j e := by
    simp [KernelObj.constant, constantD01k, Core.constant, Dims.spread2_zero]
  d0kj x1 x2 J i u j := by simp [KernelObj.constant, constantD0kj, Core.constant]
  d1kj x1 x2 J i j u := by simp [KernelObj.constant, constantD1kj, Core.constant]
  d01kj x1 x2 J1 J2 i u j w := by simp [KernelObj.constant, constantD01kj, Core.constant]
  d0kjc x1 x2 jc i j := by
    simp [KernelObj.constant, KernelObj.init, grad0jaccoefUntraced_apply, BaseKernel.ofEx,
      constantBase, Ex.D, Ex.eval, Core.constant]
  d01kjc x1 x2 jc J i j w := by
    simp [KernelObj.constant, KernelObj.init, grad01jaccoefUntraced_apply, BaseKernel.ofEx,
      constantBase, Ex.D, Ex.eval, Core.constant]

/-! ## Linear -/

def Core.linear : Core where
  K := fun x y => ∑ a, x a * y a
  G0 := fun _ y a => y a
  G1 := fun x _ a => x a
  H := fun _ _ a b => if a = b then 1 else 0
  C0 := fun _ y a => y a

/-- A program for all features, to be read through the index map. -/
noncomputable def dotEx (k : ℕ) : Ex (KVar k) := .sum fun a => .mul (.var (.inl a)) (.var (.inr a))

theorem exDot_rename (ad : Dims d) :
    exDot ad = (dotEx ad.k).rename (Sum.map ad.idx ad.idx) := rfl

theorem eval_dotEx {k : ℕ} (x y : Fin k → ℝ) :
    (dotEx k).eval (Sum.elim x y) = ∑ a, x a * y a := by simp [dotEx, Ex.eval]

theorem eval_D_dotEx_inl {k : ℕ} (x y : Fin k → ℝ) (a : Fin k) :
    ((dotEx k).D (.inl a)).eval (Sum.elim x y) = y a := by
  simp [dotEx, Ex.eval, Ex.D]

theorem eval_D_dotEx_inr {k : ℕ} (x y : Fin k → ℝ) (a : Fin k) :
    ((dotEx k).D (.inr a)).eval (Sum.elim x y) = x a := by
  simp [dotEx, Ex.eval, Ex.D]

theorem eval_DD_dotEx {k : ℕ} (x y : Fin k → ℝ) (a b : Fin k) :
    (((dotEx k).D (.inl a)).D (.inr b)).eval (Sum.elim x y) = if a = b then 1 else 0 := by
  simp only [dotEx, Ex.eval, Ex.D, Sum.inl.injEq, Sum.inr.injEq, reduceCtorEq, if_false]
  simp
  simp only [eq_comm]

theorem closed_linear (active : Option (Dims d)) (hinj : NoRepeat active) (p : KPar) :
    ClosedForm (KernelObj.linear active) p (Dims.resolve active) Core.linear := by
  have h := resolve_injective active hinj
  have hA := ClosedForm.ofEx (fun _ => linearBase (Dims.resolve active)) p (Dims.resolve active)
    dotEx rfl
  constructor
  case k => intro n m x1 x2 i j; rfl
  case d0k =>
    intro n m x1 x2 i f j
    simp only [KernelObj.linear, linearD0k, tileRows, flat_modNat]
    rw [Dims.scatterSet_zero₂ _ h]
    rfl
  case d1k =>
    intro n m x1 x2 i j e
    simp only [KernelObj.linear, linearD1k, tileCols, flat_modNat]
    rw [Dims.scatterSet_zero _ h]
    rfl
  case d01k =>
    intro n m x1 x2 i f j e
    simp only [KernelObj.linear, linearD01k, tile, flat_modNat]
    rw [Dims.diagSet_zero _ h]
    rfl
  case d0kj =>
    intro n m v x1 x2 J i u j
    simp [KernelObj.linear, linearD0kj, Core.linear, Dims.takeJac, Dims.takeCols, Dims.take]
  case d1kj =>
    intro n m v x1 x2 J i j u
    simp [KernelObj.linear, linearD1kj, Core.linear, Dims.takeJac, Dims.takeCols, Dims.take]
  case d01kj =>
    intro n m v1 v2 x1 x2 J1 J2 i u j w
    simp [KernelObj.linear, linearD01kj, Core.linear, Dims.takeJac, Dims.take]
  case d0kjc =>
    intro n m x1 x2 jc i j
    refine (hA.d0kjc x1 x2 jc i j).trans ?_
    simp only [Core.ofEx, eval_D_dotEx_inl, Core.linear]
  case d01kjc =>
    intro n m v x1 x2 jc J i j w
    refine (hA.d01kjc x1 x2 jc J i j w).trans ?_
    simp only [Core.ofEx, eval_DD_dotEx, Core.linear]

/-! ## Polynomial -/

noncomputable def Core.polynomial (deg off : ℝ) (noIntercept : Bool) : Core where
  K := fun x y => (off + ∑ a, x a * y a) ^ deg - if noIntercept then off ^ deg else 0
  G0 := fun x y a => deg * (off + ∑ a, x a * y a) ^ (deg - 1) * y a
  G1 := fun x y a => deg * (off + ∑ a, x a * y a) ^ (deg - 1) * x a
  H := fun x y a b => deg * (off + ∑ a, x a * y a) ^ (deg - 1) * (if a = b then 1 else 0) +
    x b * (deg * (deg - 1) * (off + ∑ a, x a * y a) ^ (deg - 2)) * y a
  C0 := fun x y a => deg * (off + ∑ a, x a * y a) ^ (deg - 1) * y a

noncomputable def polyEx (deg off : ℝ) (noIntercept : Bool) (k : ℕ) : Ex (KVar k) :=
  if noIntercept then
    .add (.powc (.add (.const off) (dotEx k)) deg) (.neg (.const (off ^ deg)))
  else .powc (.add (.const off) (dotEx k)) deg

theorem polyBase_rename (ad : Dims d) (deg off : ℝ) (ni : Bool) :
    (if ni then noInterceptPolynomialBase ad deg off else polynomialBase ad deg off) =
      (polyEx deg off ni ad.k).rename (Sum.map ad.idx ad.idx) := by
  cases ni <;> rfl

theorem eval_D_polyEx_inl (deg off : ℝ) (ni : Bool) {k : ℕ} (x y : Fin k → ℝ) (a : Fin k) :
    ((polyEx deg off ni k).D (.inl a)).eval (Sum.elim x y) =
      deg * (off + ∑ a, x a * y a) ^ (deg - 1) * y a := by
  have h : deg * (off + ∑ a, x a * y a) ^ (if deg = 0 then 1 else deg - 1) =
      deg * (off + ∑ a, x a * y a) ^ (deg - 1) := by
    by_cases h0 : deg = 0
    · simp [h0]
    · rw [if_neg h0]
  cases ni <;>
  · simp only [polyEx, Ex.D, Ex.eval, eval_D_dotEx_inl, eval_dotEx, if_true, if_false,
      Bool.false_eq_true, h]
    ring

theorem closed_polynomial (active : Option (Dims d)) (hinj : NoRepeat active) (ni : Bool)
    (p : KPar) :
    ClosedForm (KernelObj.polynomial active ni) p (Dims.resolve active)
      (Core.polynomial (p.val "degree") (p.val "offset") ni) := by
  have h := resolve_injective active hinj
  have hA := ClosedForm.ofEx (fun p => if ni then
      noInterceptPolynomialBase (Dims.resolve active) (p.val "degree") (p.val "offset")
      else polynomialBase (Dims.resolve active) (p.val "degree") (p.val "offset")) p
    (Dims.resolve active) (polyEx (p.val "degree") (p.val "offset") ni)
    (polyBase_rename _ _ _ _)
  constructor
  case k =>
    intro n m x1 x2 i j
    cases ni
    · simp [KernelObj.polynomial, polynomialK, Core.polynomial, matmulT, Dims.takeCols]
    · simp [KernelObj.polynomial, noInterceptPolynomialK, Core.polynomial, matmulT, Dims.takeCols]
  case d0k =>
    intro n m x1 x2 i f j
    simp only [KernelObj.polynomial, polynomialD0k, reshapeRows_flat]
    rw [Dims.scatterSet_zero₂ _ h]
    rfl
  case d1k =>
    intro n m x1 x2 i j e
    simp only [KernelObj.polynomial, polynomialD1k, reshapeCols_flat]
    rw [Dims.scatterSet_zero _ h]
    rfl
  case d01k =>
    intro n m x1 x2 i f j e
    simp only [KernelObj.polynomial, polynomialD01k, reshapeBoth_flat, tiledEye_apply]
    rw [Dims.meshSet_zero _ h]
    simp only [Core.polynomial, polyConst1, polyConst2, matmulT, Dims.takeCols, eq_comm]
  case d0kj =>
    intro n m v x1 x2 J i u j
    simp only [KernelObj.polynomial, polynomialD0kj, reshapeRows_flat, Core.polynomial, polyConst1,
      matmulT, Dims.takeCols]
    exact Finset.sum_congr rfl fun a _ => mul_comm _ _
  case d1kj =>
    intro n m v x1 x2 J i j u
    simp only [KernelObj.polynomial, polynomialD1kj, reshapeCols_flat, Core.polynomial, polyConst1,
      matmulT, Dims.takeCols, Dims.takeJac, Dims.take]
  case d01kj =>
    intro n m v1 v2 x1 x2 J1 J2 i u j w
    simp only [KernelObj.polynomial, polynomialD01kj, reshapeBoth_flat, Core.polynomial, polyHess,
      polyConst1, polyConst2, matmulT, Dims.takeCols, Dims.takeJac, Dims.take, tiledEye_apply]
  case d0kjc =>
    intro n m x1 x2 jc i j
    refine (hA.d0kjc x1 x2 jc i j).trans ?_
    simp only [Core.ofEx, eval_D_polyEx_inl, Core.polynomial]
  case d01kjc =>
    intro n m v x1 x2 jc J i j w
    simp only [KernelObj.polynomial, polynomialD01kjc, reshapeCols_flat, Core.polynomial, polyHess,
      polyConst1, polyConst2, matmulT, Dims.takeCols, Dims.takeJac, Dims.take, tiledEye_apply]

/-! ## Squared exponential -/

/-- Squared distance of the scaled samples. -/
noncomputable def sqd (l : ℝ) {k : ℕ} (x y : Fin k → ℝ) : ℝ := ∑ a, (x a / l - y a / l) ^ 2

theorem squaredDistances_eq {n m k : ℕ} (x1 : Batch n k) (x2 : Batch m k) (i : Fin n) (j : Fin m) :
    squaredDistances x1 x2 i j = ∑ a, (x1 i a - x2 j a) ^ 2 + sqDistJitter := by
  unfold squaredDistances
  have : ∑ a, (x1 i a - x2 j a) ^ 2 =
      ∑ a, (x1 i a ^ 2 - 2 * (x1 i a * x2 j a) + x2 j a ^ 2) :=
    Finset.sum_congr rfl fun a _ => by ring
  rw [this, Finset.sum_add_distrib, Finset.sum_sub_distrib, Finset.mul_sum]

theorem squaredDistances_scaled {n m : ℕ} (ad : Dims d) (l : ℝ) (x1 : Batch n d) (x2 : Batch m d)
    (i : Fin n) (j : Fin m) :
    squaredDistances (scaled ad l x1) (scaled ad l x2) i j =
      sqd l (ad.take (x1 i)) (ad.take (x2 j)) + sqDistJitter := by
  rw [squaredDistances_eq]
  rfl

/-- `z1 - z2` for entry `a`. -/
noncomputable def diffEx (l : ℝ) (k : ℕ) (a : Fin k) : Ex (KVar k) :=
  .add (.mul (.var (.inl a)) (.inv (.const l))) (.neg (.mul (.var (.inr a)) (.inv (.const l))))

noncomputable def sqDistEx (l : ℝ) (k : ℕ) : Ex (KVar k) :=
  .sum fun a => .mul (diffEx l k a) (diffEx l k a)

theorem exSqDist_rename (ad : Dims d) (l : ℝ) :
    exSqDist ad l = (sqDistEx l ad.k).rename (Sum.map ad.idx ad.idx) := rfl

theorem eval_diffEx {k : ℕ} (l : ℝ) (x y : Fin k → ℝ) (a : Fin k) :
    (diffEx l k a).eval (Sum.elim x y) = x a / l - y a / l := by
  simp [diffEx, Ex.eval, div_eq_mul_inv, sub_eq_add_neg]

theorem eval_D_diffEx_inl {k : ℕ} (l : ℝ) (x y : Fin k → ℝ) (a b : Fin k) :
    ((diffEx l k a).D (.inl b)).eval (Sum.elim x y) = if a = b then 1 / l else 0 := by
  by_cases h : a = b <;> simp [diffEx, Ex.D, Ex.eval, h]

theorem eval_D_diffEx_inr {k : ℕ} (l : ℝ) (x y : Fin k → ℝ) (a b : Fin k) :
    ((diffEx l k a).D (.inr b)).eval (Sum.elim x y) =
      if a = b then -(1 / l) else 0 := by
  by_cases h : a = b <;> simp [diffEx, Ex.D, Ex.eval, h]

theorem eval_DD_diffEx {k : ℕ} (l : ℝ) (x y : Fin k → ℝ) (a : Fin k) (v w : KVar k) :
    (((diffEx l k a).D v).D w).eval (Sum.elim x y) = 0 := by
  simp [diffEx, Ex.D, Ex.eval]

theorem eval_sqDistEx {k : ℕ} (l : ℝ) (x y : Fin k → ℝ) :
    (sqDistEx l k).eval (Sum.elim x y) = sqd l x y := by
  simp only [sqDistEx, Ex.eval]
  exact Finset.sum_congr rfl fun a _ => by rw [eval_diffEx]; ring

theorem eval_D_sqDistEx_inl {k : ℕ} (l : ℝ) (x y : Fin k → ℝ) (a : Fin k) :
    ((sqDistEx l k).D (.inl a)).eval (Sum.elim x y) = 2 / l * (x a / l - y a / l) := by
  simp only [sqDistEx, Ex.D, Ex.eval]
  have : ∀ b, (((diffEx l k b).D (.inl a)).eval (Sum.elim x y) *
      (diffEx l k b).eval (Sum.elim x y) +
      (diffEx l k b).eval (Sum.elim x y) *
      ((diffEx l k b).D (.inl a)).eval (Sum.elim x y)) =
      if b = a then 2 / l * (x a / l - y a / l) else 0 := by
    intro b
    rw [eval_D_diffEx_inl, eval_diffEx]
    by_cases h : b = a
    · subst h; simp only [if_true]; ring
    · simp [h]
  refine (Finset.sum_congr rfl fun b _ => this b).trans ?_
  simp

theorem eval_D_sqDistEx_inr {k : ℕ} (l : ℝ) (x y : Fin k → ℝ) (a : Fin k) :
    ((sqDistEx l k).D (.inr a)).eval (Sum.elim x y) = -(2 / l * (x a / l - y a / l)) := by
  simp only [sqDistEx, Ex.D, Ex.eval]
  have : ∀ b, (((diffEx l k b).D (.inr a)).eval (Sum.elim x y) *
      (diffEx l k b).eval (Sum.elim x y) +
      (diffEx l k b).eval (Sum.elim x y) *
      ((diffEx l k b).D (.inr a)).eval (Sum.elim x y)) =
      if b = a then -(2 / l * (x a / l - y a / l)) else 0 := by
    intro b
    rw [eval_D_diffEx_inr, eval_diffEx]
    by_cases h : b = a
    · subst h; simp only [if_true]; ring
    · simp [h]
  refine (Finset.sum_congr rfl fun b _ => this b).trans ?_
  simp

theorem eval_DD_sqDistEx {k : ℕ} (l : ℝ) (x y : Fin k → ℝ) (a b : Fin k) :
    (((sqDistEx l k).D (.inl a)).D (.inr b)).eval (Sum.elim x y) =
      if a = b then -(2 / l ^ 2) else 0 := by
  simp only [sqDistEx, Ex.D, Ex.eval]
  have : ∀ c, (((diffEx l k c).D (.inl a)).D (.inr b)).eval (Sum.elim x y) *
        (diffEx l k c).eval (Sum.elim x y) +
      ((diffEx l k c).D (.inl a)).eval (Sum.elim x y) *
        ((diffEx l k c).D (.inr b)).eval (Sum.elim x y) +
      (((diffEx l k c).D (.inr b)).eval (Sum.elim x y) *
        ((diffEx l k c).D (.inl a)).eval (Sum.elim x y) +
        (diffEx l k c).eval (Sum.elim x y) *
        (((diffEx l k c).D (.inl a)).D (.inr b)).eval (Sum.elim x y)) =
      if c = a then (if a = b then -(2 / l ^ 2) else 0) else 0 := by
    intro c
    rw [eval_DD_diffEx, eval_D_diffEx_inl, eval_D_diffEx_inr]
    by_cases h1 : c = a
    · subst h1
      by_cases h2 : c = b
      · subst h2; simp only [if_true, zero_mul, mul_zero, zero_add, add_zero]
        by_cases hl : l = 0
        · simp [hl]
        · field_simp; ring
      · simp [h2]
    · simp [h1]
  refine (Finset.sum_congr rfl fun c _ => this c).trans ?_
  simp

noncomputable def seEx (l : ℝ) (k : ℕ) : Ex (KVar k) := .exp (.neg (sqDistEx l k))

noncomputable def Core.se (l : ℝ) : Core where
  K := fun x y => Real.exp (-(sqd l x y + sqDistJitter))
  G0 := fun x y a => -(2 / l * (x a / l - y a / l)) * Real.exp (-sqd l x y)
  G1 := fun x y a => 2 / l * (x a / l - y a / l) * Real.exp (-sqd l x y)
  H := fun x y a b =>
    -Real.exp (-(sqd l x y + sqDistJitter)) * (2 / l * (x a / l - y a / l)) *
        (2 / l * (x b / l - y b / l)) +
      if a = b then Real.exp (-(sqd l x y + sqDistJitter)) * (2 / l ^ 2) else 0
  C0 := fun x y a => -(2 / l * (x a / l - y a / l)) * Real.exp (-sqd l x y)

theorem Core.ofEx_se_G0 (l : ℝ) {k : ℕ} (x y : Fin k → ℝ) :
    (Core.ofEx (seEx l)).G0 x y = (Core.se l).G0 x y := by
  funext a
  simp only [Core.ofEx, seEx, Ex.D, Ex.eval, eval_D_sqDistEx_inl, eval_sqDistEx, Core.se]

theorem Core.ofEx_se_G1 (l : ℝ) {k : ℕ} (x y : Fin k → ℝ) :
    (Core.ofEx (seEx l)).G1 x y = (Core.se l).G1 x y := by
  funext a
  simp only [Core.ofEx, seEx, Ex.D, Ex.eval, eval_D_sqDistEx_inr, eval_sqDistEx, Core.se, neg_neg]

/-- An outer product of spread vectors is the spread of the outer product. -/
theorem Dims.spread_outer (ad : Dims d) (h : Function.Injective ad.idx) (c : ℝ)
    (u w : Fin ad.k → ℝ) :
    (fun f e => c * ad.spread u f * ad.spread w e) = ad.spread2 (fun a b => c * u a * w b) := by
  funext f e
  rcases ad.cases_idx f with ⟨a, rfl⟩ | hf
  · rcases ad.cases_idx e with ⟨b, rfl⟩ | he
    · rw [ad.spread2_idx h, ad.spread_idx h, ad.spread_idx h]
    · rw [ad.spread2_not_right _ _ _ he, ad.spread_not _ _ he, mul_zero]
  · rw [ad.spread2_not_left _ _ _ hf, ad.spread_not _ _ hf, mul_zero, zero_mul]

/-- The contraction pattern shared by `SquaredExponential` and `Matern52`. -/
theorem outer_contract {k : ℕ} (c g : ℝ) (D j1 j2 : Fin k → ℝ) :
    c * (∑ f, D f * j1 f) * (∑ f, D f * j2 f) + ∑ f, j1 f * g * j2 f =
      ∑ a, ∑ b, j1 a * (c * D a * D b + if a = b then g else 0) * j2 b := by
  have h1 : ∀ a, ∑ b, j1 a * (c * D a * D b + if a = b then g else 0) * j2 b =
      c * (D a * j1 a) * (∑ b, D b * j2 b) + j1 a * g * j2 a := by
    intro a
    have : ∀ b, j1 a * (c * D a * D b + if a = b then g else 0) * j2 b =
        c * (D a * j1 a) * (D b * j2 b) + if a = b then j1 a * g * j2 b else 0 := by
      intro b
      split_ifs <;> ring
    rw [Finset.sum_congr rfl fun b _ => this b, Finset.sum_add_distrib, ← Finset.mul_sum]
    simp
  rw [Finset.sum_congr rfl fun a _ => h1 a, Finset.sum_add_distrib, ← Finset.sum_mul,
    ← Finset.mul_sum]

theorem closed_se (active : Option (Dims d)) (hinj : NoRepeat active) (p : KPar) :
    ClosedForm (KernelObj.squaredExponential active) p (Dims.resolve active)
      (Core.se (p.val "lengthscale")) := by
  have h := resolve_injective active hinj
  have hA := ClosedForm.ofEx
    (fun p => squaredExponentialBase (Dims.resolve active) (p.val "lengthscale")) p
    (Dims.resolve active) (seEx (p.val "lengthscale")) rfl
  constructor
  case k =>
    intro n m x1 x2 i j
    simp only [KernelObj.squaredExponential, squaredExponentialK, squaredDistances_scaled, Core.se]
  case d0k =>
    intro n m x1 x2 i f j
    refine (hA.d0k x1 x2 i f j).trans ?_
    rw [Core.ofEx_se_G0]
  case d1k =>
    intro n m x1 x2 i j e
    refine (hA.d1k x1 x2 i j e).trans ?_
    rw [Core.ofEx_se_G1]
  case d01k =>
    intro n m x1 x2 i f j e
    simp only [KernelObj.squaredExponential, squaredExponentialD01k, reshapeBoth_flat, seDiffFull]
    rw [Dims.scatterSet_zero _ h, Dims.spread_outer _ h, Dims.diagAdd_spread _ h]
    simp only [Core.se, squaredExponentialK, squaredDistances_scaled, scaled, Dims.takeCols]
  case d0kj =>
    intro n m v x1 x2 J i u j
    refine (hA.d0kj x1 x2 J i u j).trans ?_
    rw [Core.ofEx_se_G0]
  case d1kj =>
    intro n m v x1 x2 J i j u
    refine (hA.d1kj x1 x2 J i j u).trans ?_
    rw [Core.ofEx_se_G1]
  case d01kj =>
    intro n m v1 v2 x1 x2 J1 J2 i u j w
    simp only [KernelObj.squaredExponential, squaredExponentialD01kj, reshapeBoth_flat]
    rw [outer_contract]
    simp only [Core.se, squaredExponentialK, squaredDistances_scaled, seDiff, scaled,
      Dims.takeCols, Dims.takeJac]
    rfl
  case d0kjc =>
    intro n m x1 x2 jc i j
    refine (hA.d0kjc x1 x2 jc i j).trans ?_
    exact Finset.sum_congr rfl fun a _ => congrArg _ (congrFun (Core.ofEx_se_G0 _ _ _) a)
  case d01kjc =>
    intro n m v x1 x2 jc J i j w
    simp only [KernelObj.squaredExponential, squaredExponentialD01kjc, reshapeCols_flat]
    rw [outer_contract]
    simp only [Core.se, squaredExponentialK, squaredDistances_scaled, seDiff, scaled,
      Dims.takeCols, Dims.takeJac]
    rfl

end GPX
