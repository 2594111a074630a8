import Verif.Props.JointPSD
import Verif.Props.Conditioning

/-! # Joint covariances that are positive semidefinite up to a relative `2e-12` of their diagonal blocks -/

namespace GPX
open GPX.Spec GPX.Props

variable {d : ℕ}

/-- Samples with an optional direction. -/
abbrev Jet (d : ℕ) := (Fin d → ℝ) × Option (Fin d → ℝ)

/-- Entries between two values or between two derivatives multiplied by `1 + δ`. -/
def damp (δ : ℝ) (E : Jet d → Jet d → ℝ) (P Q : Jet d) : ℝ :=
  (if P.2.isSome = Q.2.isSome then 1 + δ else 1) * E P Q

/-- Entries between two values or between two derivatives. -/
def sameKind (E : Jet d → Jet d → ℝ) (P Q : Jet d) : ℝ := if P.2.isSome = Q.2.isSome then E P Q else 0

theorem PSDK.sameKind {E : Jet d → Jet d → ℝ} (hE : PSDK E) : PSDK (sameKind E) := by
  have h1 := hE.congr (I := Unit) (fun _ P => if P.2.isSome then 1 else 0) (fun _ P => P)
  have h2 := hE.congr (I := Unit) (fun _ P => if P.2.isSome then 0 else 1) (fun _ P => P)
  refine (congrArg PSDK ?_).mp (h1.add h2)
  funext P Q
  unfold GPX.sameKind
  rcases P with ⟨x, _ | t⟩ <;> rcases Q with ⟨y, _ | s⟩ <;> simp

/-- The values and derivatives of a kernel object form a kernel that is positive semidefinite once the entries between
two values or two derivatives are enlarged by a relative `2e-12`. -/
def KernelObj.NearJoint (κ : KernelObj d) (p : KPar) : Prop :=
  ∃ E : Jet d → Jet d → ℝ, PSDK (damp (2 / 10 ^ 12) E) ∧
    (∀ {n m : ℕ} (x1 : Batch n d) (x2 : Batch m d) i j, κ.k p x1 x2 i j = E (x1 i, none) (x2 j, none)) ∧
    (∀ {n m v : ℕ} (x1 : Batch n d) (x2 : Batch m d) (J : Jac n d v) i u j,
      κ.d0kj p x1 x2 J (flat i u) j = E (x1 i, some fun f => J i f u) (x2 j, none)) ∧
    (∀ {n m v : ℕ} (x1 : Batch n d) (x2 : Batch m d) (J : Jac m d v) i j u,
      κ.d1kj p x1 x2 J i (flat j u) = E (x1 i, none) (x2 j, some fun f => J j f u)) ∧
    (∀ {n m v w : ℕ} (x1 : Batch n d) (x2 : Batch m d) (J1 : Jac n d v) (J2 : Jac m d w) i u j t,
      κ.d01kj p x1 x2 J1 J2 (flat i u) (flat j t) =
        E (x1 i, some fun f => J1 i f u) (x2 j, some fun f => J2 j f t))

theorem KernelObj.Joint.near {κ : KernelObj d} {p : KPar} (h : κ.Joint p) : κ.NearJoint p := by
  obtain ⟨E, hE, a, b, c, e⟩ := h
  refine ⟨E, (congrArg PSDK ?_).mp (hE.add (hE.sameKind.smul (r := 2 / 10 ^ 12) (by norm_num))), a, b, c, e⟩
  funext P Q
  unfold damp GPX.sameKind
  split_ifs <;> ring

theorem KernelObj.NearJoint.sum {κ1 κ2 : KernelObj d} {p : KPar} (h1 : κ1.NearJoint (p.sub "kernel1"))
    (h2 : κ2.NearJoint (p.sub "kernel2")) : (KernelObj.sum κ1 κ2).NearJoint p := by
  obtain ⟨E1, p1, a1, b1, c1, e1⟩ := h1
  obtain ⟨E2, p2, a2, b2, c2, e2⟩ := h2
  refine ⟨fun P Q => E1 P Q + E2 P Q, (congrArg PSDK ?_).mp (p1.add p2), fun x1 x2 i j => ?_,
    fun x1 x2 J i u j => ?_, fun x1 x2 J i u j => ?_, fun x1 x2 J1 J2 i u j t => ?_⟩
  · funext P Q; unfold damp; ring
  · beta_reduce; rw [← a1, ← a2]; rfl
  · beta_reduce; rw [← b1, ← b2]; rfl
  · beta_reduce; rw [← c1, ← c2]; rfl
  · beta_reduce; rw [← e1, ← e2]; rfl

theorem nearJoint_scale {κ : KernelObj d} {a : Option (Dims d)} {p : KPar} :
    (0 ≤ (p.sub "kernel1").val "variance" → κ.NearJoint (p.sub "kernel2") →
      (KernelObj.prod (.constant a) κ).NearJoint p) ∧
    (0 ≤ (p.sub "kernel2").val "variance" → κ.NearJoint (p.sub "kernel1") →
      (KernelObj.prod κ (.constant a)).NearJoint p) := by
  constructor
  · rintro hv ⟨E, hE, h1, h2, h3, h4⟩
    have hc := closed_constant a (p.sub "kernel1")
    refine ⟨fun P Q => (p.sub "kernel1").val "variance" * E P Q, (congrArg PSDK ?_).mp (hE.smul hv),
      fun x1 x2 i j => ?_, fun x1 x2 J i u j => ?_, fun x1 x2 J i u j => ?_, fun x1 x2 J1 J2 i u j t => ?_⟩
    · funext P Q; unfold damp; ring
    · simp [KernelObj.prod, prodKernels, Arr2.mul, hc.k, h1, Core.constant]
    · simp [KernelObj.prod, prodDeriv0Jac, Arr2.mul, Arr2.add, repeatRows_flat, hc.k, hc.d0kj, h2, Core.constant]
    · simp [KernelObj.prod, prodDeriv1Jac, Arr2.mul, Arr2.add, repeatCols_flat, hc.k, hc.d1kj, h3, Core.constant]
    · simp only [KernelObj.prod, prodDeriv01Jac, Arr2.mul, Arr2.add, repeatCols_flat, repeatRows_flat, hc.k, hc.d0kj,
        hc.d1kj, hc.d01kj, h4, Core.constant]
      simp
  · rintro hv ⟨E, hE, h1, h2, h3, h4⟩
    have hc := closed_constant a (p.sub "kernel2")
    refine ⟨fun P Q => (p.sub "kernel2").val "variance" * E P Q, (congrArg PSDK ?_).mp (hE.smul hv),
      fun x1 x2 i j => ?_, fun x1 x2 J i u j => ?_, fun x1 x2 J i u j => ?_, fun x1 x2 J1 J2 i u j t => ?_⟩
    · funext P Q; unfold damp; ring
    · simp [KernelObj.prod, prodKernels, Arr2.mul, hc.k, h1, Core.constant, mul_comm]
    · simp [KernelObj.prod, prodDeriv0Jac, Arr2.mul, Arr2.add, repeatRows_flat, hc.k, hc.d0kj, h2, Core.constant,
        mul_comm]
    · simp [KernelObj.prod, prodDeriv1Jac, Arr2.mul, Arr2.add, repeatCols_flat, hc.k, hc.d1kj, h3, Core.constant,
        mul_comm]
    · simp only [KernelObj.prod, prodDeriv01Jac, Arr2.mul, Arr2.add, repeatCols_flat, repeatRows_flat, hc.k, hc.d0kj,
        hc.d1kj, hc.d01kj, h4, Core.constant]
      simp [mul_comm]

theorem nearJoint_se_noRepeat (a : Option (Dims d)) (he : NoRepeat a) (p : KPar) (h : 0 < p.val "lengthscale") :
    (KernelObj.squaredExponential a).NearJoint p := by
  have hs := C21_symmetric (.squaredExponential a) p
  have hw := C63_sampleWise (.squaredExponential a) p
  have hcon := contracts_of_closed (closed_se a he p)
  change Symmetric (KernelObj.squaredExponential a) p at hs
  change SampleWise (KernelObj.squaredExponential a) p at hw
  obtain ⟨L, hL, hk⟩ := KExpr.psd (.squaredExponential a) p h
  change ∀ {n m : ℕ} (x1 : Batch n d) (x2 : Batch m d) i j,
    (KernelObj.squaredExponential a).k p x1 x2 i j = L (x1 i) (x2 j) at hk
  set c := Real.exp (-(1 / 10 ^ 12)) with hc
  have hc0 : 0 < c := Real.exp_pos _
  have hc1 : 1 - 1 / 10 ^ 12 ≤ c := by
    have := Real.add_one_le_exp (-(1 / 10 ^ 12) : ℝ)
    linarith
  have hc2 : 1 / c ≤ 1 + 2 / 10 ^ 12 := by
    rw [div_le_iff₀ hc0]
    nlinarith
  have h0 : ∀ x y f, HasDerivAt (fun t => (KernelObj.squaredExponential a).k p (setFeature (one x) 0 f t) (one y) 0 0)
      (c * (KernelObj.squaredExponential a).d0k p (one x) (one y) (flat 0 f) 0) (x f) :=
    fun x y f => C24_squared_exponential_first a he p (one x) (one y) 0 f 0
  have h1 : ∀ x y f, HasDerivAt (fun t => (KernelObj.squaredExponential a).k p (one x) (setFeature (one y) 0 f t) 0 0)
      (c * (KernelObj.squaredExponential a).d1k p (one x) (one y) 0 (flat 0 f)) (y f) := fun x y f => by
    have e : (fun t => (KernelObj.squaredExponential a).k p (one x) (setFeature (one y) 0 f t) 0 0) =
        fun t => (KernelObj.squaredExponential a).k p (setFeature (one y) 0 f t) (one x) 0 0 :=
      funext fun t => hs.k _ _ _ _
    rw [e, hs.d1k]
    exact h0 y x f
  have hT := KernelObj.psd_of_true hL hk h0 h1
    (fun x y f g => C24_squared_exponential a he p 1 1 (one x) (one y) 0 f 0 g)
    (continuous_of_closed (closed_se a he p) (resolve_injective a he) fun a b => by
      simp only [Core.se, sqd]
      split_ifs <;> fun_prop)
  set T := dirKernel L (fun x y f => c * (KernelObj.squaredExponential a).d0k p (one x) (one y) (flat 0 f) 0)
    (fun x y f => c * (KernelObj.squaredExponential a).d1k p (one x) (one y) 0 (flat 0 f))
    fun x y f g => (KernelObj.squaredExponential a).d01k p (one x) (one y) (flat 0 f) (flat 0 g) with hTd
  refine ⟨fun P Q => (if P.2.isSome = Q.2.isSome then 1 else 1 / c) * T P Q, (congrArg PSDK ?_).mp
    ((hT.smul (r := 1 / c) (by positivity)).add (hT.sameKind.smul (r := 1 + 2 / 10 ^ 12 - 1 / c) (by linarith))),
    fun x1 x2 i j => ?_, fun x1 x2 J i u j => ?_, fun x1 x2 J i j u => ?_, fun x1 x2 J1 J2 i u j t => ?_⟩
  · funext P Q
    unfold damp GPX.sameKind
    by_cases hPQ : P.2.isSome = Q.2.isSome
    · simp only [if_pos hPQ]; ring
    · simp only [if_neg hPQ]; ring
  · simp [hTd, dirKernel, hk]
  · rw [hcon.c0]
    simp only [hTd, dirKernel, Option.isSome_some, Option.isSome_none, Bool.true_eq_false, if_false, Finset.mul_sum]
    refine Finset.sum_congr rfl fun f _ => ?_
    rw [d0k_one hw]
    field_simp
  · rw [hcon.c1]
    simp only [hTd, dirKernel, Option.isSome_some, Option.isSome_none, Bool.false_eq_true, if_false, Finset.mul_sum]
    refine Finset.sum_congr rfl fun f _ => ?_
    rw [d1k_one hw]
    field_simp
  · rw [hcon.c01]
    simp only [hTd, dirKernel, Option.isSome_some, if_true, one_mul]
    exact Finset.sum_congr rfl fun f _ => Finset.sum_congr rfl fun g _ => by rw [d01k_one hw]

theorem nearJoint_se (a : Option (Dims d)) (p : KPar) (h : 0 < p.val "lengthscale") :
    (KernelObj.squaredExponential a).NearJoint p := by
  let e : KExpr d := .squaredExponential a
  obtain ⟨E, hE, h1, h2, h3, h4⟩ :=
    nearJoint_se_noRepeat (copyDims (longest e) a) (onCopies_noRepeats (longest e) e (Nat.le_succ _)) p h
  have hc := copies_carries (longest e) e p
  refine ⟨fun P Q => E (copies (longest e) P.1, P.2.map (copies (longest e)))
    (copies (longest e) Q.1, Q.2.map (copies (longest e))),
    (congrArg PSDK ?_).mp (hE.comp fun P : Jet d => (copies (longest e) P.1, P.2.map (copies (longest e)))),
    fun x1 x2 i j => ?_, fun x1 x2 J i u j => ?_, fun x1 x2 J i j u => ?_, fun x1 x2 J1 J2 i u j t => ?_⟩
  · funext P Q; simp only [damp, Option.isSome_map]
  · exact (hc.k x1 x2 i j).symm.trans (h1 _ _ _ _)
  · exact (hc.d0kj x1 x2 J i u j).symm.trans (h2 _ _ _ _ _ _)
  · exact (hc.d1kj x1 x2 J i j u).symm.trans (h3 _ _ _ _ _ _)
  · exact (hc.d01kj x1 x2 J1 J2 i u j t).symm.trans (h4 _ _ _ _ _ _ _ _)

theorem nearJoint_expr (e : KExpr d) (p : KPar) (h : DerivSmooth e p) : e.obj.NearJoint p := by
  induction h with
  | joint h => exact (joint_expr _ _ h).near
  | squaredExponential h => exact nearJoint_se _ _ h
  | sum _ _ ih1 ih2 => exact ih1.sum ih2
  | scaleLeft hv _ ih => exact nearJoint_scale.1 hv ih
  | scaleRight _ hv ih => exact nearJoint_scale.2 hv ih

/-- `quad_le_trace` over any finite index type. -/
theorem quad_le_trace' {I : Type*} [Fintype I] [DecidableEq I] {R : Matrix I I ℝ} (hR : R.PosSemidef) (z : I → ℝ) :
    ∑ i, ∑ j, z i * R i j * z j ≤ (∑ i, R i i) * ∑ i, z i ^ 2 := by
  let e := (Fintype.equivFin I).symm
  have h := quad_le_trace (hR.submatrix e) (z ∘ e)
  simp only [Matrix.submatrix_apply, Function.comp_apply, Matrix.trace, Matrix.diag] at h
  rw [e.sum_comp (fun i => R i i), e.sum_comp (fun i => z i ^ 2),
    e.sum_comp (fun i => ∑ j, z i * R i (e j) * z (e j))] at h
  refine le_trans (le_of_eq (Finset.sum_congr rfl fun i _ => ?_)) h
  exact (e.sum_comp (fun j => z i * R i j * z j)).symm

/-- A matrix that is positive semidefinite once its two diagonal blocks are enlarged by a relative `δ` is positive
definite after adding a diagonal above `δ` times the trace of each block. -/
theorem posDef_of_damped {I : Type*} [Fintype I] [DecidableEq I] (kind : I → Bool) {δ : ℝ} (hδ : 0 ≤ δ)
    (C : I → I → ℝ) (hC : (Matrix.of fun a b => (if kind a = kind b then 1 + δ else 1) * C a b).PosSemidef)
    (s : I → ℝ) (hs : ∀ a, δ * ∑ b, (if kind b = kind a then C b b else 0) < s a) :
    (Matrix.diagonal s + Matrix.of C).PosDef := by
  have hsym : ∀ a b, C b a = C a b := fun a b => by
    have h1 := hC.1.apply a b
    simp only [Matrix.of_apply, star_trivial] at h1
    by_cases h : kind a = kind b
    · rw [if_pos h, if_pos h.symm] at h1
      exact mul_left_cancel₀ (by linarith) h1
    · rw [if_neg h, if_neg (Ne.symm h), one_mul, one_mul] at h1
      exact h1
  -- one block
  have hblock : ∀ (t : Bool) (z : I → ℝ),
      ∑ a, ∑ b, (if kind a = t then z a else 0) * C a b * (if kind b = t then z b else 0) ≤
        (∑ b, if kind b = t then C b b else 0) * ∑ a, (if kind a = t then z a ^ 2 else 0) := fun t z => by
    have hD := hC.conjTranspose_mul_mul_same (Matrix.diagonal fun a => if kind a = t then (1 : ℝ) else 0)
    have h2 := quad_le_trace' hD fun a => if kind a = t then z a else 0
    simp only [Matrix.diagonal_conjTranspose, Matrix.mul_diagonal, Matrix.diagonal_mul, Matrix.of_apply,
      star_trivial] at h2
    have h3 : (0 : ℝ) < 1 + δ := by linarith
    refine le_of_mul_le_mul_left ?_ h3
    rw [← mul_assoc, Finset.mul_sum, Finset.mul_sum]
    refine le_trans (le_of_eq (Finset.sum_congr rfl fun a _ => ?_)) (h2.trans (le_of_eq ?_))
    · rw [Finset.mul_sum]
      refine Finset.sum_congr rfl fun b _ => ?_
      by_cases ha : kind a = t <;> by_cases hb : kind b = t <;> simp [ha, hb]
      ring
    · rw [← Finset.mul_sum, Finset.mul_sum (s := Finset.univ) (f := fun b => if kind b = t then C b b else 0)]
      refine congrArg₂ (· * ·) (Finset.sum_congr rfl fun b _ => ?_) (Finset.sum_congr rfl fun a _ => ?_)
      · by_cases hb : kind b = t <;> simp [hb]
      · by_cases ha : kind a = t <;> simp [ha]
  refine Matrix.posDef_iff_dotProduct_mulVec.2 ⟨Matrix.IsHermitian.ext fun a b => ?_, fun {z} hz => ?_⟩
  · simp only [Matrix.add_apply, Matrix.of_apply, star_trivial, hsym a b, Matrix.diagonal_apply]
    by_cases h : a = b
    · subst h; rfl
    · rw [if_neg h, if_neg (Ne.symm h)]
  have h1 := hC.dotProduct_mulVec_nonneg z
  simp only [dotProduct, Matrix.mulVec, Matrix.of_apply, Pi.star_apply, star_trivial, Matrix.add_apply,
    Matrix.diagonal_apply] at h1 ⊢
  have e1 : ∑ a, z a * ∑ b, ((if a = b then s a else 0) + C a b) * z b =
      (∑ a, s a * z a ^ 2) + ∑ a, ∑ b, z a * C a b * z b := by
    rw [← Finset.sum_add_distrib]
    refine Finset.sum_congr rfl fun a _ => ?_
    simp only [add_mul, ite_mul, zero_mul, Finset.sum_add_distrib, Finset.sum_ite_eq, Finset.mem_univ, if_true,
      Finset.mul_sum, mul_add]
    congr 1
    · ring
    · exact Finset.sum_congr rfl fun b _ => by ring
  have e2 : ∑ a, z a * ∑ b, (if kind a = kind b then 1 + δ else 1) * C a b * z b =
      (∑ a, ∑ b, z a * C a b * z b) + δ * ∑ t : Bool,
        ∑ a, ∑ b, (if kind a = t then z a else 0) * C a b * (if kind b = t then z b else 0) := by
    rw [Fintype.sum_bool, ← Finset.sum_add_distrib, Finset.mul_sum, ← Finset.sum_add_distrib]
    refine Finset.sum_congr rfl fun a _ => ?_
    rw [← Finset.sum_add_distrib, Finset.mul_sum, Finset.mul_sum, ← Finset.sum_add_distrib]
    refine Finset.sum_congr rfl fun b _ => ?_
    cases kind a <;> cases kind b <;> simp <;> ring
  have e3 : ∑ t : Bool, (∑ b, if kind b = t then C b b else 0) * ∑ a, (if kind a = t then z a ^ 2 else 0) =
      ∑ a, (∑ b, if kind b = kind a then C b b else 0) * z a ^ 2 := by
    rw [Fintype.sum_bool, Finset.mul_sum, Finset.mul_sum, ← Finset.sum_add_distrib]
    refine Finset.sum_congr rfl fun a _ => ?_
    cases kind a <;> simp
  have h4 : (∑ t : Bool, ∑ a, ∑ b, (if kind a = t then z a else 0) * C a b * (if kind b = t then z b else 0)) ≤
      ∑ a, (∑ b, if kind b = kind a then C b b else 0) * z a ^ 2 := by
    rw [← e3]
    exact Finset.sum_le_sum fun t _ => hblock t z
  have h5 : δ * ∑ a, (∑ b, if kind b = kind a then C b b else 0) * z a ^ 2 < ∑ a, s a * z a ^ 2 := by
    rw [Finset.mul_sum]
    obtain ⟨a0, ha0⟩ := Function.ne_iff.1 hz
    refine Finset.sum_lt_sum (fun a _ => ?_) ⟨a0, Finset.mem_univ _, ?_⟩
    · rw [← mul_assoc]
      exact mul_le_mul_of_nonneg_right (hs a).le (sq_nonneg _)
    · rw [← mul_assoc]
      have : 0 < z a0 ^ 2 := by
        have : z a0 ≠ 0 := ha0
        positivity
      exact mul_lt_mul_of_pos_right (hs a0) this
  rw [e1]
  rw [e2] at h1
  have h6 := mul_le_mul_of_nonneg_left h4 hδ
  linarith

theorem posDef_reindex {I : Type} [Fintype I] [DecidableEq I] {N : ℕ} (pos : I → Fin N)
    (hpos : Function.Bijective pos) (A : Mat N N) (C : Matrix I I ℝ) (hA : ∀ a b, A (pos a) (pos b) = C a b)
    (hC : C.PosDef) : A.PosDef := by
  have h2 := hC.submatrix (Equiv.ofBijective pos hpos).symm.injective
  convert h2
  ext i j
  obtain ⟨a, rfl⟩ := hpos.2 i
  obtain ⟨b, rfl⟩ := hpos.2 j
  have e : ∀ a, (Equiv.ofBijective pos hpos).symm (pos a) = a := fun a =>
    (Equiv.ofBijective pos hpos).symm_apply_apply a
  rw [Matrix.submatrix_apply, e, e, hA]

end GPX
