import Verif.Lemmas.KernelsARD
import Verif.Props.KernelDerivs
import Verif.Props.Kernelizers

/-!
# C112: one lengthscale per feature

The signatures of the stationary kernels accept an array of lengthscales. With a vector holding one positive
lengthscale per active feature: what `k` is, which derivative kernels return at all, which of them are
derivatives of `k`, and what the differentiation rules for the lengthscales compute.
-/

namespace GPX.Props
open GPX GPX.Spec

variable {d n m v v1 v2 : ℕ}

/-- `A` holds, at row `i * d + f` and column `j`, the derivative of `K(x1, x2)[i, j]` with respect to feature
`f` of sample `i` of `x1`. -/
def IsD0 (K : Batch n d → Batch m d → Arr2 n m) (x1 : Batch n d) (x2 : Batch m d)
    (A : Arr2 (n * d) m) : Prop :=
  ∀ i f j, HasDerivAt (fun s => K (setFeature x1 i f s) x2 i j) (A (flat i f) j) (x1 i f)

/-- The same for the second argument. -/
def IsD1 (K : Batch n d → Batch m d → Arr2 n m) (x1 : Batch n d) (x2 : Batch m d)
    (A : Arr2 n (m * d)) : Prop :=
  ∀ i j e, HasDerivAt (fun t => K x1 (setFeature x2 j e t) i j) (A i (flat j e)) (x2 j e)

/-- The mixed second derivatives. -/
def IsD01 (K : Batch n d → Batch m d → Arr2 n m) (x1 : Batch n d) (x2 : Batch m d)
    (A : Arr2 (n * d) (m * d)) : Prop :=
  ∀ i f j e, HasDerivAt
    (fun t => deriv (fun s => K (setFeature x1 i f s) (setFeature x2 j e t) i j) (x1 i f))
    (A (flat i f) (flat j e)) (x2 j e)

/-- The full claim: with one lengthscale per active feature the hand-written derivative kernels return and
are the derivatives of `k`, and the rules for the lengthscales are the partial derivatives of the base
kernels. -/
def C112_full : Prop :=
  ∀ (d : ℕ) (ad : Dims d), Function.Injective ad.idx → ∀ ls : Fin ad.k → ℝ, (∀ a, 0 < ls a) →
    (∀ (n m : ℕ) (x1 : Batch n d) (x2 : Batch m d),
      (∃ A, seD01kARD ad ls x1 x2 = .ok A ∧ IsD01 (seKARD ad ls) x1 x2 A) ∧
      (∃ A, matern52D0kARD ad ls x1 x2 = .ok A ∧ IsD0 (matern52KARD ad ls) x1 x2 A) ∧
      IsD1 (matern52KARD ad ls) x1 x2 (matern52D1kARD ad ls x1 x2) ∧
      (∃ A, matern52D01kARD ad ls x1 x2 = .ok A ∧ IsD01 (matern52KARD ad ls) x1 x2 A)) ∧
    (∀ x y : Fin ad.k → ℝ, 1 / 10 ^ 36 < ∑ a, (x a / ls a - y a / ls a) ^ 2 → ∀ a,
      HasDerivAt (fun t => matern32BaseARD (Function.update ls a t) x y) (matern32T2ARD ls x y a)
        (ls a) ∧
      HasDerivAt (fun t => matern52BaseARD (Function.update ls a t) x y) (matern52T2ARD ls x y a)
        (ls a))

/-- **C112, values.** With one lengthscale per active feature every stationary kernel is the kernel with
lengthscale one of the inputs whose active features are divided by their lengthscales. -/
theorem C112_values (ad : Dims d) (ls : Fin ad.k → ℝ) (x1 z1 : Batch n d) (x2 z2 : Batch m d)
    (h1 : ∀ i a, z1 i (ad.idx a) = x1 i (ad.idx a) / ls a)
    (h2 : ∀ j a, z2 j (ad.idx a) = x2 j (ad.idx a) / ls a) :
    seKARD ad ls x1 x2 = squaredExponentialK ad 1 z1 z2 ∧
      matern12KARD ad ls x1 x2 = matern12K ad 1 z1 z2 ∧
      matern32KARD ad ls x1 x2 = matern32K ad 1 z1 z2 ∧
      matern52KARD ad ls x1 x2 = matern52K ad 1 z1 z2 := by
  have e1 : scaledARD ad ls x1 = scaled ad 1 z1 := by
    funext i a; simp [scaledARD, scaled, Dims.takeCols, Dims.take, h1]
  have e2 : scaledARD ad ls x2 = scaled ad 1 z2 := by
    funext i a; simp [scaledARD, scaled, Dims.takeCols, Dims.take, h2]
  refine ⟨?_, ?_, ?_, ?_⟩
  · unfold seKARD squaredExponentialK; rw [e1, e2]
  · unfold matern12KARD matern12K; rw [e1, e2]
  · unfold matern32KARD matern32K; rw [e1, e2]
  · unfold matern52KARD matern52K matern52DistARD matern52Dist; rw [e1, e2]

/-- **C112, equal lengthscales** (in particular one active feature): whenever they return, the derivative
kernels are those of the scalar lengthscale, so `C24` applies to them. -/
theorem C112_isotropic_partial (ad : Dims d) (l : ℝ) (x1 : Batch n d) (x2 : Batch m d)
    (h : ad.k = m ∨ ad.k = 1) (J0 : Jac n d v) (J1 : Jac n d v1) (J2 : Jac m d v2)
    (jc : Batch n d) :
    seD01kARD ad (fun _ => l) x1 x2 = .ok (squaredExponentialD01k ad l x1 x2) ∧
      seD01kjARD ad (fun _ => l) x1 x2 J1 J2 = .ok (squaredExponentialD01kj ad l x1 x2 J1 J2) ∧
      seD01kjcARD ad (fun _ => l) x1 x2 jc J2 = .ok (squaredExponentialD01kjc ad l x1 x2 jc J2) ∧
      matern52D0kARD ad (fun _ => l) x1 x2 = .ok (matern52D0k ad l x1 x2) ∧
      matern52D0kjARD ad (fun _ => l) x1 x2 J0 = .ok (matern52D0kj ad l x1 x2 J0) ∧
      matern52D01kARD ad (fun _ => l) x1 x2 = .ok (matern52D01k ad l x1 x2) ∧
      matern52D01kjARD ad (fun _ => l) x1 x2 J1 J2 = .ok (matern52D01kj ad l x1 x2 J1 J2) ∧
      matern52D01kjcARD ad (fun _ => l) x1 x2 jc J2 = .ok (matern52D01kjc ad l x1 x2 jc J2) := by
  have b : ∀ c : ℝ, bcastSamples (k := ad.k) m (fun _ => c) = .ok (fun _ => c) := fun c =>
    bcastSamples_const m c h
  refine ⟨?_, ?_, ?_, ?_, ?_, ?_, ?_, ?_⟩
  · unfold seD01kARD; rw [b]; rfl
  · unfold seD01kjARD; simp only; rw [b]; rfl
  · unfold seD01kjcARD; simp only; rw [b]; rfl
  · unfold matern52D0kARD; simp only; rw [b]; rfl
  · unfold matern52D0kjARD matern52D0kARD; simp only; rw [b]; rfl
  · unfold matern52D01kARD matern52ConstARD; simp only; rw [b]; rfl
  · unfold matern52D01kjARD matern52ConstARD; simp only; rw [b]; rfl
  · unfold matern52D01kjcARD matern52ConstARD; simp only; rw [b]; rfl

/-- **C112, which calls return.** The derivative kernels that pair lengthscales with the samples of `x2`
return exactly when the number of active features is the number of samples of `x2`, or one. -/
theorem C112_returns (ad : Dims d) (ls : Fin ad.k → ℝ) (x1 : Batch n d) (x2 : Batch m d)
    (J0 : Jac n d v) (J1 : Jac n d v1) (J2 : Jac m d v2) (jc : Batch n d) :
    ((∃ A, seD01kARD ad ls x1 x2 = .ok A) ↔ ad.k = m ∨ ad.k = 1) ∧
      ((∃ A, seD01kjARD ad ls x1 x2 J1 J2 = .ok A) ↔ ad.k = m ∨ ad.k = 1) ∧
      ((∃ A, seD01kjcARD ad ls x1 x2 jc J2 = .ok A) ↔ ad.k = m ∨ ad.k = 1) ∧
      ((∃ A, matern52D0kARD ad ls x1 x2 = .ok A) ↔ ad.k = m ∨ ad.k = 1) ∧
      ((∃ A, matern52D0kjARD ad ls x1 x2 J0 = .ok A) ↔ ad.k = m ∨ ad.k = 1) ∧
      ((∃ A, matern52D01kARD ad ls x1 x2 = .ok A) ↔ ad.k = m ∨ ad.k = 1) ∧
      ((∃ A, matern52D01kjARD ad ls x1 x2 J1 J2 = .ok A) ↔ ad.k = m ∨ ad.k = 1) ∧
      ((∃ A, matern52D01kjcARD ad ls x1 x2 jc J2 = .ok A) ↔ ad.k = m ∨ ad.k = 1) := by
  have key : ∀ {α : Type} (c : Fin ad.k → ℝ) (g : (Fin m → ℝ) → α),
      (∃ A, (do let r ← bcastSamples m c; return g r : Except Err α) = .ok A) ↔
        ad.k = m ∨ ad.k = 1 := by
    intro α c g
    rw [← bcastSamples_isOk m c]
    cases bcastSamples m c with
    | error e => simp [bind, Except.bind]
    | ok r => simp [bind, Except.bind, pure, Except.pure]
  refine ⟨key _ _, key _ _, key _ _, key _ _, ?_, ?_, ?_, ?_⟩
  · unfold matern52D0kjARD matern52D0kARD; simp only [bind_assoc, pure_bind]; exact key _ _
  · unfold matern52D01kARD matern52ConstARD; simp only [bind_assoc, pure_bind]; exact key _ _
  · unfold matern52D01kjARD matern52ConstARD; simp only [bind_assoc, pure_bind]; exact key _ _
  · unfold matern52D01kjcARD matern52ConstARD; simp only [bind_assoc, pure_bind]; exact key _ _

/-- **C112, second argument.** `Matern52`'s `d1k` is the derivative of `k` for every vector of lengthscales,
and `d1kj` is its contraction with the jacobians. -/
theorem C112_matern52_d1k (ad : Dims d) (hi : Function.Injective ad.idx) (ls : Fin ad.k → ℝ)
    (x1 : Batch n d) (x2 : Batch m d) :
    IsD1 (matern52KARD ad ls) x1 x2 (matern52D1kARD ad ls x1 x2) ∧
      ∀ (J : Jac m d v) i j u, matern52D1kjARD ad ls x1 x2 J i (flat j u) =
        ∑ e, matern52D1kARD ad ls x1 x2 i (flat j e) * J j e u := by
  have ent : ∀ i j e, matern52D1kARD ad ls x1 x2 i (flat j e) =
      ad.spread (fun a => (Real.sqrt 5 / (3 * ls a)) * (1 + matern52DistARD ad ls x1 x2 i j) *
        Real.exp (-matern52DistARD ad ls x1 x2 i j) * matern52DiffARD ad ls x1 x2 i j a) e := by
    intro i j e
    simp only [matern52D1kARD, reshapeCols_flat]
    rw [Dims.scatterSet_zero _ hi]
  constructor
  · intro i j e
    rw [ent]
    simp only [matern52KARD_apply, setFeature_row]
    rcases ad.cases_idx e with ⟨b, rfl⟩ | he
    · simp only [ad.take_update hi, ad.spread_idx hi]
      refine (radialV_deriv_right ls _ _ b (m52_fast_first (sqdV_nonneg _ _ _))).congr_deriv ?_
      simp only [matern52DistARD_apply, matern52DiffARD, scaledARD, Dims.takeCols, div_eq_mul_inv,
        mul_inv]
      linear_combination (-(3 : ℝ)⁻¹ * (ls b)⁻¹ *
        (1 + m52Dist (sqdV ls (ad.take (x1 i)) (ad.take (x2 j)))) *
        Real.exp (-m52Dist (sqdV ls (ad.take (x1 i)) (ad.take (x2 j)))) *
        (ad.take (x1 i) b * (ls b)⁻¹ - ad.take (x2 j) b * (ls b)⁻¹)) * sqrt5_mul
    · simp only [ad.take_update_not _ e he, ad.spread_not _ e he]
      exact hasDerivAt_const _ _
  · intro J i j u
    simp only [matern52D1kjARD, reshapeCols_flat, Dims.takeJac, Dims.take, unshapeCols_apply, ent]
    rw [ad.sum_spread_mul _ fun f => J j f u]
    exact Finset.sum_congr rfl fun a _ => by rw [ad.spread_idx hi]

/-- **C112, first derivatives of `SquaredExponential`** come from differentiating the base kernel and are
right for every vector of non-zero lengthscales. -/
theorem C112_squared_exponential_gradients (ad : Dims d) (ls : Fin ad.k → ℝ) (hl : ∀ a, ls a ≠ 0)
    (p : KPar) (x1 : Batch n d) (x2 : Batch m d) (i : Fin n) (j : Fin m) (f e : Fin d) :
    let b := BaseKernel.ofEx (fun _ : KPar => seBaseARD ad ls)
    (∀ x y : Sample d, b.f p x y =
      Real.exp (-∑ a, ((x (ad.idx a) - y (ad.idx a)) / ls a) ^ 2)) ∧
    HasDerivAt (fun s => b.f p (Function.update (x1 i) f s) (x2 j))
        (grad0Kernelize (b.g0 p) x1 x2 (flat i f) j) (x1 i f) ∧
      HasDerivAt (fun t => b.f p (x1 i) (Function.update (x2 j) e t))
        (grad1Kernelize (b.g1 p) x1 x2 i (flat j e)) (x2 j e) := by
  intro b
  have hs : (seBaseARD ad ls).Smooth (Sum.elim (x1 i) (x2 j)) := by
    simp only [seBaseARD, exDiff, exScaled, Ex.Smooth, Ex.eval]
    simp [hl]
  have h := C18_entries_are_derivatives (fun _ => seBaseARD ad ls) p x1 x2 i j f e hs
  refine ⟨fun x y => ?_, h.1, h.2.1⟩
  show (seBaseARD ad ls).eval (Sum.elim x y) = _
  simp only [seBaseARD, exDiff, exScaled, Ex.eval, Sum.elim_inl, Sum.elim_inr]
  congr 2
  exact Finset.sum_congr rfl fun a _ => by rw [sub_div, sq]; simp only [div_eq_mul_inv]; ring

/-- **C112, what is returned with as many samples as features.** When the number of active features is the
number of samples of `x2`, the calls return, and lengthscale number `j` is used for sample `j` of `x2`
whatever the feature: the derivative of `Matern52`'s `k` with respect to feature `f` is `ls[j] / ls[f]` times
the entry of `d0k`, its mixed derivative is `ls[j]² / (ls[f] ls[e])` times the entry of `d01k`, and for
`SquaredExponential` the entry of `d01k` misses `2 k (1 / ls[f]² - 1 / ls[j]²)` on the diagonal. So the
entries are the derivatives where `ls[j]` is the lengthscale of the features. -/
theorem C112_square_partial (ad : Dims d) (hi : Function.Injective ad.idx) (ls : Fin ad.k → ℝ)
    (hl : ∀ a, 0 < ls a) (hk : ad.k = m) (x1 : Batch n d) (x2 : Batch m d) :
    (∃ A, matern52D0kARD ad ls x1 x2 = .ok A ∧ ∀ i (a : Fin ad.k) j,
      HasDerivAt (fun s => matern52KARD ad ls (setFeature x1 i (ad.idx a) s) x2 i j)
        (ls (j.cast hk.symm) / ls a * A (flat i (ad.idx a)) j) (x1 i (ad.idx a))) ∧
    (∃ A, matern52D01kARD ad ls x1 x2 = .ok A ∧ ∀ i (a : Fin ad.k) j (b : Fin ad.k),
      HasDerivAt (fun t => deriv (fun s => matern52KARD ad ls (setFeature x1 i (ad.idx a) s)
          (setFeature x2 j (ad.idx b) t) i j) (x1 i (ad.idx a)))
        (ls (j.cast hk.symm) ^ 2 / (ls a * ls b) * A (flat i (ad.idx a)) (flat j (ad.idx b)))
        (x2 j (ad.idx b))) ∧
    (∃ A, seD01kARD ad ls x1 x2 = .ok A ∧ ∀ i (a : Fin ad.k) j (b : Fin ad.k),
      HasDerivAt (fun t => deriv (fun s => seKARD ad ls (setFeature x1 i (ad.idx a) s)
          (setFeature x2 j (ad.idx b) t) i j) (x1 i (ad.idx a)))
        (A (flat i (ad.idx a)) (flat j (ad.idx b)) +
          if a = b then 2 * seKARD ad ls x1 x2 i j *
            (1 / ls a ^ 2 - 1 / ls (j.cast hk.symm) ^ 2) else 0)
        (x2 j (ad.idx b))) := by
  have bc : ∀ c : Fin ad.k → ℝ, bcastSamples m c = .ok (fun j => c (j.cast hk.symm)) := by
    intro c; unfold bcastSamples; rw [dif_pos hk]
  have r1 : ∃ A, matern52D0kARD ad ls x1 x2 = .ok A ∧ ∀ i (a : Fin ad.k) j,
      A (flat i (ad.idx a)) j = -(Real.sqrt 5 / (3 * ls (j.cast hk.symm))) *
        (1 + matern52DistARD ad ls x1 x2 i j) * Real.exp (-matern52DistARD ad ls x1 x2 i j) *
        matern52DiffARD ad ls x1 x2 i j a := by
    refine ⟨_, by unfold matern52D0kARD; simp only; rw [bc]; rfl, fun i a j => ?_⟩
    simp only [reshapeRows_flat]
    rw [Dims.scatterSet_zero₂ _ hi, ad.spread_idx hi]
  have r2 : ∃ A, matern52D01kARD ad ls x1 x2 = .ok A ∧ ∀ i (a : Fin ad.k) j (b : Fin ad.k),
      A (flat i (ad.idx a)) (flat j (ad.idx b)) =
        -(5 / (3 * ls (j.cast hk.symm) ^ 2) * Real.exp (-matern52DistARD ad ls x1 x2 i j)) *
          matern52DiffARD ad ls x1 x2 i j a * matern52DiffARD ad ls x1 x2 i j b +
        if a = b then 5 / (3 * ls (j.cast hk.symm) ^ 2) *
          Real.exp (-matern52DistARD ad ls x1 x2 i j) * (1 + matern52DistARD ad ls x1 x2 i j)
          else 0 := by
    refine ⟨_, by unfold matern52D01kARD matern52ConstARD; simp only; rw [bc]; rfl,
      fun i a j b => ?_⟩
    simp only [reshapeBoth_flat]
    rw [Dims.scatterSet_zero _ hi, Dims.spread_outer _ hi, Dims.diagAdd_spread _ hi,
      ad.spread2_idx hi]
  have r3 : ∃ A, seD01kARD ad ls x1 x2 = .ok A ∧ ∀ i (a : Fin ad.k) j (b : Fin ad.k),
      A (flat i (ad.idx a)) (flat j (ad.idx b)) =
        -seKARD ad ls x1 x2 i j * seDiffARD ad ls x1 x2 i j a * seDiffARD ad ls x1 x2 i j b +
        if a = b then seKARD ad ls x1 x2 i j * (2 / ls (j.cast hk.symm) ^ 2) else 0 := by
    refine ⟨_, by unfold seD01kARD; rw [bc]; rfl, fun i a j b => ?_⟩
    simp only [reshapeBoth_flat]
    rw [Dims.scatterSet_zero _ hi, Dims.spread_outer _ hi, Dims.diagAdd_spread _ hi,
      ad.spread2_idx hi]
  obtain ⟨A1, o1, e1⟩ := r1
  obtain ⟨A2, o2, e2⟩ := r2
  obtain ⟨A3, o3, e3⟩ := r3
  refine ⟨⟨A1, o1, fun i a j => ?_⟩, ⟨A2, o2, fun i a j b => ?_⟩, ⟨A3, o3, fun i a j b => ?_⟩⟩
  · rw [e1]
    simp only [matern52KARD_apply, setFeature_row, ad.take_update hi]
    refine (radialV_deriv_left ls _ _ a (m52_fast_first (sqdV_nonneg _ _ _))).congr_deriv ?_
    simp only [matern52DistARD_apply, matern52DiffARD, scaledARD, Dims.takeCols]
    generalize Real.exp (-m52Dist (sqdV ls (ad.take (x1 i)) (ad.take (x2 j)))) = E
    generalize m52Dist (sqdV ls (ad.take (x1 i)) (ad.take (x2 j))) = r
    generalize ad.take (x1 i) a / ls a - ad.take (x2 j) a / ls a = u
    have ha := (hl a).ne'
    have hj := (hl (j.cast hk.symm)).ne'
    generalize ls (j.cast hk.symm) = lj at *
    have : lj / ls a * (-(Real.sqrt 5 / (3 * lj)) * (1 + r) * E * (Real.sqrt 5 * u)) =
        -(Real.sqrt 5 * Real.sqrt 5) / (3 * ls a) * (1 + r) * E * u := by field_simp
    rw [this, sqrt5_mul]
    field_simp
    ring
  · rw [e2]
    simp only [matern52KARD_apply, setFeature_row, ad.take_update hi]
    refine (radialV_deriv_mixed ls _ _ a b (fun s hs => m52_fast_first hs)
      (m52_fast_second (sqdV_nonneg _ _ _))).congr_deriv ?_
    simp only [matern52DistARD_apply, matern52DiffARD, scaledARD, Dims.takeCols]
    generalize Real.exp (-m52Dist (sqdV ls (ad.take (x1 i)) (ad.take (x2 j)))) = E
    generalize m52Dist (sqdV ls (ad.take (x1 i)) (ad.take (x2 j))) = r
    generalize ad.take (x1 i) a / ls a - ad.take (x2 j) a / ls a = u
    generalize ad.take (x1 i) b / ls b - ad.take (x2 j) b / ls b = w
    have ha := (hl a).ne'
    have hb := (hl b).ne'
    have hj := (hl (j.cast hk.symm)).ne'
    generalize ls (j.cast hk.symm) = lj at *
    have : -(5 / (3 * lj ^ 2) * E) * (Real.sqrt 5 * u) * (Real.sqrt 5 * w) =
        -(5 / (3 * lj ^ 2) * E) * (Real.sqrt 5 * Real.sqrt 5) * u * w := by ring
    rw [this, sqrt5_mul]
    split_ifs with hab
    · subst hab; field_simp; ring
    · field_simp; ring
  · rw [e3]
    have h1 : ∀ s : ℝ, HasDerivAt (fun s => Real.exp (-(s + sqDistJitter)))
        (-Real.exp (-(s + sqDistJitter))) s := fun s =>
      (((hasDerivAt_id' s).add_const sqDistJitter).neg.exp).congr_deriv (by simp)
    have h2 : ∀ s : ℝ, HasDerivAt (fun s => -Real.exp (-(s + sqDistJitter)))
        (Real.exp (-(s + sqDistJitter))) s := fun s => ((h1 s).neg).congr_deriv (by simp)
    simp only [seKARD_apply, setFeature_row, ad.take_update hi]
    refine (radialV_deriv_mixed ls _ _ a b (fun s _ => h1 s) (h2 _)).congr_deriv ?_
    simp only [seDiffARD, scaledARD, Dims.takeCols]
    split_ifs <;> ring

theorem sumsqV {k : ℕ} {c : ℝ} (hc : 0 ≤ c) (ls x y : Fin k → ℝ) :
    ∑ a, (Real.sqrt c * (x a / ls a - y a / ls a)) ^ 2 = c * sqdV ls x y := by
  unfold sqdV
  rw [Finset.mul_sum]
  exact Finset.sum_congr rfl fun a _ => by rw [mul_pow, Real.sq_sqrt hc]

/-- **C112, rules for the lengthscales.** Above the `1e-36` floor, the partial derivative of the base kernel
with respect to lengthscale `a` is what the rule returns for it, with the squared scaled difference of
feature `a` in place of the squared distance: the rule is off by the contribution of every other feature.
It is right for a single feature. -/
theorem C112_rules_partial {k : ℕ} (ls x y : Fin k → ℝ) (a : Fin k) (hl : 0 < ls a) :
    (1 / 10 ^ 36 < 3 * ∑ b, (x b / ls b - y b / ls b) ^ 2 →
      HasDerivAt (fun t => matern32BaseARD (Function.update ls a t) x y)
        (matern32T2ARD ls x y a * ((x a / ls a - y a / ls a) ^ 2 /
          ∑ b, (x b / ls b - y b / ls b) ^ 2)) (ls a)) ∧
    (1 / 10 ^ 36 < 5 * ∑ b, (x b / ls b - y b / ls b) ^ 2 →
      HasDerivAt (fun t => matern52BaseARD (Function.update ls a t) x y)
        (matern52T2ARD ls x y a * ((x a / ls a - y a / ls a) ^ 2 /
          ∑ b, (x b / ls b - y b / ls b) ^ 2)) (ls a)) := by
  have hd := sqdV_deriv_ls ls x y a hl
  refine ⟨fun hf => ?_, fun hf => ?_⟩
  · have hf' : maternFloor < 3 * sqdV ls x y := hf
    have hp := m32_base_profile hf'
    have hpos : 0 < sqdV ls x y := by
      have : 0 < maternFloor := by unfold maternFloor; positivity
      linarith
    have hp' : HasDerivAt (fun s => (1 + Real.sqrt (max (3 * s) maternFloor)) *
        Real.exp (-Real.sqrt (max (3 * s) maternFloor)))
        (-(3 / 2) * Real.exp (-Real.sqrt (max (3 * sqdV ls x y) maternFloor)))
        (sqdV (Function.update ls a (ls a)) x y) := by rw [Function.update_eq_self]; exact hp
    refine (HasDerivAt.comp (ls a) (h₂ := fun s => (1 + Real.sqrt (max (3 * s) maternFloor)) *
        Real.exp (-Real.sqrt (max (3 * s) maternFloor))) hp' hd).congr_deriv ?_
    have hs : ∑ b, (x b / ls b - y b / ls b) ^ 2 = sqdV ls x y := rfl
    simp only [matern32T2ARD, sumsqV (show (0 : ℝ) ≤ 3 by norm_num), hs]
    rw [Real.sq_sqrt (le_max_of_le_left (by positivity)), max_eq_left hf'.le]
    field_simp
  · have hf' : maternFloor < 5 * sqdV ls x y := hf
    have hp := m52_base_profile hf'
    have hpos : 0 < sqdV ls x y := by
      have : 0 < maternFloor := by unfold maternFloor; positivity
      linarith
    have hp' : HasDerivAt (fun s => (1 + Real.sqrt (max (5 * s) maternFloor) + 5 * s / 3) *
        Real.exp (-Real.sqrt (max (5 * s) maternFloor)))
        (-(5 / 6) * (1 + Real.sqrt (max (5 * sqdV ls x y) maternFloor)) *
          Real.exp (-Real.sqrt (max (5 * sqdV ls x y) maternFloor)))
        (sqdV (Function.update ls a (ls a)) x y) := by rw [Function.update_eq_self]; exact hp
    refine (HasDerivAt.comp (ls a) (h₂ := fun s => (1 + Real.sqrt (max (5 * s) maternFloor) +
        5 * s / 3) * Real.exp (-Real.sqrt (max (5 * s) maternFloor))) hp' hd).congr_deriv ?_
    have hs : ∑ b, (x b / ls b - y b / ls b) ^ 2 = sqdV ls x y := rfl
    simp only [matern52T2ARD, sumsqV (show (0 : ℝ) ≤ 5 by norm_num), hs]
    rw [Real.sq_sqrt (le_max_of_le_left (by positivity)), max_eq_left hf'.le]
    field_simp
    try ring

/-- **C112, rules, one feature:** a vector with a single lengthscale is differentiated correctly. -/
theorem C112_rules_single_partial (ls x y : Fin 1 → ℝ) (hl : 0 < ls 0)
    (hf : 1 / 10 ^ 36 < (x 0 / ls 0 - y 0 / ls 0) ^ 2) :
    HasDerivAt (fun t => matern32BaseARD (Function.update ls 0 t) x y) (matern32T2ARD ls x y 0)
        (ls 0) ∧
      HasDerivAt (fun t => matern52BaseARD (Function.update ls 0 t) x y) (matern52T2ARD ls x y 0)
        (ls 0) := by
  have hq : 0 ≤ (x 0 / ls 0 - y 0 / ls 0) ^ 2 := sq_nonneg _
  have hne : (x 0 / ls 0 - y 0 / ls 0) ^ 2 ≠ 0 := by
    intro h; rw [h] at hf; norm_num at hf
  obtain ⟨h3, h5⟩ := C112_rules_partial ls x y 0 hl
  rw [Fin.sum_univ_one, div_self hne, mul_one] at h3 h5
  exact ⟨h3 (by linarith), h5 (by linarith)⟩

/-- Non-vacuity: two samples with two features and lengthscales 1 and 2 meet the hypotheses of
`C112_square_partial`; the points `(1, 1)` and `(0, 0)` are above the floor of `C112_rules_partial`; one
feature for `C112_rules_single_partial`. -/
example : Function.Injective (Dims.all 2).idx ∧ (∀ a : Fin 2, (0 : ℝ) < ![1, 2] a) ∧
    (Dims.all 2).k = 2 ∧
    (1 : ℝ) / 10 ^ 36 < 3 * ∑ b : Fin 2, ((![1, 1] : Fin 2 → ℝ) b / (![1, 2] : Fin 2 → ℝ) b -
      (![0, 0] : Fin 2 → ℝ) b / (![1, 2] : Fin 2 → ℝ) b) ^ 2 ∧
    (1 : ℝ) / 10 ^ 36 < (1 / 2 - 0 / 2) ^ 2 := by
  refine ⟨fun _ _ h => h, ?_, rfl, ?_, ?_⟩
  · intro a; fin_cases a <;> simp
  · norm_num [Fin.sum_univ_two]
  · norm_num

/-- Non-vacuity of `C112_values`: all features active, inputs divided by the lengthscales. -/
example (x : Batch 3 2) : ∀ i (a : Fin (Dims.all 2).k),
    (fun i (f : Fin 2) => x i f / (![1, 2] : Fin 2 → ℝ) f) i ((Dims.all 2).idx a) =
      x i ((Dims.all 2).idx a) / (![1, 2] : Fin 2 → ℝ) a := fun _ _ => rfl

/-- The full claim is false in three independent ways: a call raises (three samples, two features); a call
returns numbers that are not the derivative (two samples, two features, lengthscales 1 and 2); a rule for
the lengthscales is not the derivative (two features). -/
theorem C112_false :
    (∀ (x1 x2 : Batch 3 2), ¬ ∃ A, seD01kARD (Dims.all 2) ![1, 2] x1 x2 = .ok A) ∧
    (∃ A, matern52D0kARD (n := 1) (m := 2) (Dims.all 2) ![1, 2] ![![0, 0]] ![![0, 2], ![0, 2]] =
        .ok A ∧ ¬ IsD0 (matern52KARD (Dims.all 2) ![1, 2]) ![![0, 0]] ![![0, 2], ![0, 2]] A) ∧
    (¬ HasDerivAt (fun t => matern32BaseARD (Function.update ![1, 1] 0 t) ![1, 1] ![0, 0])
        (matern32T2ARD ![1, 1] ![1, 1] ![0, 0] 0) 1) ∧
    ¬ C112_full := by
  have hr : ∀ (x1 x2 : Batch 3 2), ¬ ∃ A, seD01kARD (Dims.all 2) ![1, 2] x1 x2 = .ok A := by
    intro x1 x2 h
    have := (C112_returns (v := 0) (v1 := 0) (v2 := 0) (Dims.all 2) ![1, 2] x1 x2
      (fun _ _ => Fin.elim0) (fun _ _ => Fin.elim0) (fun _ _ => Fin.elim0) x1).1.mp h
    simp [Dims.all] at this
  have hpos : ∀ a : Fin 2, (0 : ℝ) < ![1, 2] a := by intro a; fin_cases a <;> simp
  refine ⟨hr, ?_, ?_, ?_⟩
  · obtain ⟨A, hA, hd⟩ := (C112_square_partial (n := 1) (m := 2) (Dims.all 2)
      (fun _ _ h => h) ![1, 2] hpos rfl ![![0, 0]] ![![0, 2], ![0, 2]]).1
    refine ⟨A, hA, fun hD => ?_⟩
    have u1 := hd 0 (1 : Fin 2) 0
    have u2 := hD 0 1 0
    have e1 := u1.unique u2
    have u3 := radialV_deriv_left (k := 2) ![1, 2] ![0, 0] ![0, 2] 1
      (m52_fast_first (sqdV_nonneg ![1, 2] ![0, 0] ![0, 2]))
    have e2 : (fun s => matern52KARD (Dims.all 2) ![1, 2] (setFeature ![![0, 0]] 0 1 s)
        ![![0, 2], ![0, 2]] 0 0) = fun t =>
        (1 + m52Dist (sqdV ![1, 2] (Function.update ![0, 0] 1 t) ![0, 2]) +
          m52Dist (sqdV ![1, 2] (Function.update ![0, 0] 1 t) ![0, 2]) ^ 2 / 3) *
        Real.exp (-m52Dist (sqdV ![1, 2] (Function.update ![0, 0] 1 t) ![0, 2])) := by
      funext s
      refine (matern52KARD_apply (Dims.all 2) (![1, 2] : Fin 2 → ℝ) _ _ 0 0).trans ?_
      rw [setFeature_row]
      rfl
    rw [e2] at u2
    have e3 := u2.unique u3
    have hr : 0 ≤ m52Dist (sqdV ![1, 2] ![0, 0] ![0, 2]) := by unfold m52Dist; positivity
    have hE := Real.exp_pos (-m52Dist (sqdV ![1, 2] ![0, 0] ![0, 2]))
    have e4 : ((![1, 2] : Fin 2 → ℝ) 0 / (![1, 2] : Fin 2 → ℝ) 1 * A (flat 0 1) 0 : ℝ) =
        A (flat 0 1) 0 := e1
    simp only [Matrix.cons_val_zero, Matrix.cons_val_one] at e3 e4
    have z : A (flat 0 1) 0 = 0 := by linarith
    rw [z] at e3
    have : (1 + m52Dist (sqdV ![1, 2] ![0, 0] ![0, 2])) *
        Real.exp (-m52Dist (sqdV ![1, 2] ![0, 0] ![0, 2])) = 0 := by linarith
    have : 0 < (1 + m52Dist (sqdV ![1, 2] ![0, 0] ![0, 2])) *
        Real.exp (-m52Dist (sqdV ![1, 2] ![0, 0] ![0, 2])) := by positivity
    linarith
  · intro h
    have h2 := (C112_rules_partial (k := 2) ![1, 1] ![1, 1] ![0, 0] 0 (by norm_num)).1
      (by norm_num [Fin.sum_univ_two])
    have := h.unique h2
    have hT : 0 < matern32T2ARD ![1, 1] ![1, 1] ![0, 0] (0 : Fin 2) := by
      simp only [matern32T2ARD, Matrix.cons_val_zero]
      have : 0 < Real.sqrt (max (∑ a : Fin 2, (Real.sqrt 3 * ((![1, 1] : Fin 2 → ℝ) a /
          (![1, 1] : Fin 2 → ℝ) a - (![0, 0] : Fin 2 → ℝ) a / (![1, 1] : Fin 2 → ℝ) a)) ^ 2)
          maternFloor) :=
        Real.sqrt_pos.mpr (lt_max_of_lt_right (by unfold maternFloor; positivity))
      positivity
    generalize matern32T2ARD ![1, 1] ![1, 1] ![0, 0] (0 : Fin 2) = T at *
    norm_num [Fin.sum_univ_two] at this
    linarith
  · intro h
    obtain ⟨⟨A, hA, -⟩, -⟩ := (h 2 (Dims.all 2) (fun _ _ h => h) ![1, 2]
      hpos).1 3 3 (fun _ _ => 0) (fun _ _ => 0)
    exact hr _ _ ⟨A, hA⟩

end GPX.Props
