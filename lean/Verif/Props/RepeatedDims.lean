import Verif.Lemmas.KernelRepeats
import Verif.Props.InvarianceMore
import Verif.Props.Consistency
import Verif.Props.GPRTD

/-!
# C156: features named more than once in `active_dims`

`active_dims` may name a feature twice: a `Linear` kernel on `[0, 0]` is `2 x0 y0`. The kernels used by the models
(`k` and the jacobian- and coefficient-contracted derivatives) treat the two places as two features; the raw derivative
kernels of `Linear`, `Polynomial`, `SquaredExponential` and `Matern52` write the derivative at the same place twice with
`.at[].set`, so one of the two contributions is lost.
-/

namespace GPX.Props
open GPX GPX.Spec

variable {d n m v v' w : ℕ}

/-- **C156**, full statement: whatever the lists of active features, the derivative kernels are the partial derivatives of
the kernel (for the kernels without jitter or floor). -/
def C156_full : Prop := ∀ (d : ℕ) (e : KExpr d) (p : KPar), JointSmooth e p →
  TrueD0 e.obj p ∧ TrueD1 e.obj p ∧ TrueD01 e.obj p

/-- **C156** fails as it stands: `Linear(active_dims=[0, 0])` at `x = y = 1`: `k` is `2 x y`, whose derivative with respect
to `x` is 2; `d0k` returns 1. -/
theorem C156_false : ¬ C156_full := fun H => by
  let a : Option (Dims 1) := some ⟨2, ![0, 0]⟩
  have h : TrueD0At (KernelObj.linear a) _ _ _ _ _ _ := (H 1 (.linear a) (fun _ => 1) trivial).1 1 1 (fun _ _ => 1) (fun _ _ => 1) 0 0 0
  unfold TrueD0At at h
  have e1 : (KernelObj.linear a).d0k (fun _ => 1) (fun (_ : Fin 1) _ => (1 : ℝ)) (fun (_ : Fin 1) _ => 1) (flat 0 0) 0 =
      1 := by
    have := Dims.scatterSet_same (Dims.resolve a) (fun _ (_ : Fin 1) => (0 : ℝ)) (fun _ _ => 1)
      (fun _ _ _ => rfl) (0 : Fin 2)
    exact congrFun this 0
  rw [e1] at h
  have e2 : (fun s => (KernelObj.linear a).k (fun _ => 1) (setFeature (fun (_ : Fin 1) (_ : Fin 1) => (1 : ℝ)) 0 0 s)
      (fun (_ : Fin 1) _ => 1) 0 0) = fun s => 2 * s := by
    funext s
    show ∑ c : Fin 2, setFeature (fun (_ : Fin 1) (_ : Fin 1) => (1 : ℝ)) 0 0 s 0 (![0, 0] c) * 1 = 2 * s
    rw [Fin.sum_univ_two]
    simp [setFeature]
    ring
  rw [e2] at h
  have := h.unique ((hasDerivAt_id' (1 : ℝ)).const_mul 2)
  norm_num at this

/-! ## What holds for every list -/

/-- **C156**, kernels: an expression whose lists name features several times is an expression without repetitions on data
in which every feature is copied: same values and contracted derivatives. The conditions on the hyperparameters are the
same. -/
theorem C156_kernels_partial (e : KExpr d) (p : KPar) :
    NoRepeats (onCopies (longest e) e) ∧ SameKernels e.obj (onCopies (longest e) e).obj p (copies (longest e)) :=
  ⟨onCopies_noRepeats _ e (Nat.le_succ _), sameKernels_copies e p⟩

/-- **C156**, models: fits, predictions, covariances and likelihoods of GPR, SGPR, SGPR_RPChol (dense and iterative) with
such a kernel are those of the kernel without repetitions on the copied features. -/
theorem C156_models_partial (e : KExpr d) (θ : GPParams) :
    SameModels e.obj θ (onCopies (longest e) e).obj θ (copies (longest e)) (copies (longest e)) ∧
    SameIterative e.obj θ (onCopies (longest e) e).obj θ (copies (longest e)) (copies (longest e)) ∧
    SameRPChol e.obj θ (onCopies (longest e) e).obj θ (copies (longest e)) (copies (longest e)) ∧
    SameSparseRest e.obj θ (onCopies (longest e) e).obj θ (copies (longest e)) (copies (longest e)) :=
  have h := copies_carries (longest e) e θ.kernelParams
  ⟨h.same rfl, iterative_of_carries h rfl, rpchol_of_carries h rfl, sparseRest_of_carries h rfl⟩

/-- The same for GPR_TD. -/
theorem C156_joint_models_partial (e : KExpr d) (θ : TDParams) :
    SameJoint e.obj θ (onCopies (longest e) e).obj θ (copies (longest e)) (copies (longest e)) :=
  joint_of_carries (copies_carries (longest e) e θ.kernelParams) ⟨rfl, rfl, rfl⟩

/-- **C156**, symmetry: for every list of active features, exchanging the datasets transposes the kernel and its contracted
derivatives. -/
theorem C156_symmetric_partial (e : KExpr d) (p : KPar) {u : ℕ} (x1 : Batch n d) (x2 : Batch m d) (J1 : Jac n d u)
    (J2 : Jac m d w) :
    (∀ i j, e.obj.k p x1 x2 i j = e.obj.k p x2 x1 j i) ∧
    (∀ i c, e.obj.d1kj p x1 x2 J2 i c = e.obj.d0kj p x2 x1 J2 c i) ∧
    (∀ r c, e.obj.d01kj p x1 x2 J1 J2 r c = e.obj.d01kj p x2 x1 J2 J1 c r) := by
  have s := C21_symmetric e p
  exact ⟨fun i j => s.k _ _ _ _, fun i c => s.d1kj _ _ _ _ _, fun r c => s.d01kj _ _ _ _ _ _⟩

/-- **C156**, derivatives: for every list of active features, the contracted derivatives are the derivatives of the kernel
along every path of the data. -/
theorem C156_paths_partial (e : KExpr d) (p : KPar) (h : JointSmooth e p) : PathTrue e.obj p := C79_paths_partial e p h

/-- **C156**, training on derivatives: for every list of active features, the Gram matrix of the derivatives is positive
semidefinite, and the matrix of the fit positive definite. -/
theorem C156_gram_partial (e : KExpr d) (θ : GPParams) (h : DerivSmooth e θ.kernelParams) (x : Batch n d) (J : Jac n d v) :
    (Matrix.of (e.obj.d01kj θ.kernelParams x x J J)).PosSemidef ∧ (aDerivsLhsNoise θ e.obj x J x J).PosDef :=
  ⟨C65_gram_partial e _ h x J, C65_fit_well_posed_partial e θ h x J⟩

/-- **C156**, training on targets and derivatives: for every list of active features, the matrices of the fits of GPR_TD are
positive definite. -/
theorem C156_joint_partial (e : KExpr d) (θ : TDParams) (h : JointSmooth e θ.kernelParams) (x : Batch n d) (J : Jac n d v)
    (J' : Jac n d v') :
    (tdALhsNoise1 θ e.obj x J x J).PosDef ∧ (tdALhsNoise2 θ e.obj x J J' x J J').PosDef :=
  C78_well_posed_partial e θ h x J J'

/-- Non-vacuity: a quadratic on features `[0, 0, 1]` times a `Matern52` on `[1, 1]`: repeated features, admissible
hyperparameters. -/
example : ∃ (e : KExpr 2) (p : KPar), ¬ NoRepeats e ∧ JointSmooth e p ∧ longest e = 3 := by
  refine ⟨.prod (.polynomial (some ⟨3, ![0, 0, 1]⟩) false) (.matern52 (some ⟨2, ![1, 1]⟩)), fun _ => 2, ?_, ?_, rfl⟩
  · intro h
    have := @h.1 (0 : Fin 3) (1 : Fin 3) rfl
    exact absurd this (by decide)
  · refine ⟨⟨⟨2, le_rfl, ?_⟩, ?_⟩, ?_⟩ <;> norm_num [JointSmooth, KPar.val, KPar.sub]

end GPX.Props
