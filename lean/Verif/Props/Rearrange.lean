import Verif.Spec.Rearrange
import Verif.Props.InvarianceMore
import Verif.Lemmas.KernelLeaves

/-!
# C159: writing the kernel in another way changes nothing
-/

namespace GPX.Props
open GPX GPX.Spec

variable {d n m v w : ℕ}

/-- The functions of a constant kernel. -/
theorem constant_functions (a : Option (Dims d)) (p : KPar) :
    (∀ {n m : ℕ} (x1 : Batch n d) (x2 : Batch m d) i j,
      (KExpr.constant a : KExpr d).obj.k p x1 x2 i j = p.val "variance") ∧
    (∀ {n m : ℕ} (x1 : Batch n d) (x2 : Batch m d) r j, (KExpr.constant a : KExpr d).obj.d0k p x1 x2 r j = 0) ∧
    (∀ {n m : ℕ} (x1 : Batch n d) (x2 : Batch m d) i c, (KExpr.constant a : KExpr d).obj.d1k p x1 x2 i c = 0) ∧
    (∀ {n m : ℕ} (x1 : Batch n d) (x2 : Batch m d) r c, (KExpr.constant a : KExpr d).obj.d01k p x1 x2 r c = 0) ∧
    (∀ {n m v : ℕ} (x1 : Batch n d) (x2 : Batch m d) (J : Jac n d v) r j,
      (KExpr.constant a : KExpr d).obj.d0kj p x1 x2 J r j = 0) ∧
    (∀ {n m v : ℕ} (x1 : Batch n d) (x2 : Batch m d) (J : Jac m d v) i c,
      (KExpr.constant a : KExpr d).obj.d1kj p x1 x2 J i c = 0) ∧
    (∀ {n m v w : ℕ} (x1 : Batch n d) (x2 : Batch m d) (J1 : Jac n d v) (J2 : Jac m d w) r c,
      (KExpr.constant a : KExpr d).obj.d01kj p x1 x2 J1 J2 r c = 0) ∧
    (∀ {n m : ℕ} (x1 : Batch n d) (x2 : Batch m d) (jc : Batch n d) i j,
      (KExpr.constant a : KExpr d).obj.d0kjc p x1 x2 jc i j = 0) ∧
    ∀ {n m v : ℕ} (x1 : Batch n d) (x2 : Batch m d) (jc : Batch n d) (J : Jac m d v) i c,
      (KExpr.constant a : KExpr d).obj.d01kjc p x1 x2 jc J i c = 0 := by
  have h := closed_constant a p
  refine ⟨fun x1 x2 i j => h.k x1 x2 i j, fun x1 x2 r j => ?_, fun x1 x2 i c => ?_, fun x1 x2 r c => ?_,
    fun x1 x2 J r j => ?_, fun x1 x2 J i c => ?_, fun x1 x2 J1 J2 r c => ?_, fun x1 x2 jc i j => ?_,
    fun x1 x2 jc J i c => ?_⟩
  · obtain ⟨i, u, rfl⟩ := flat_surj r
    exact (h.d0k x1 x2 i u j).trans (by simp [Core.constant, Dims.spread_zero])
  · obtain ⟨j, u, rfl⟩ := flat_surj c
    exact (h.d1k x1 x2 i j u).trans (by simp [Core.constant, Dims.spread_zero])
  · obtain ⟨i, u, rfl⟩ := flat_surj r
    obtain ⟨j, t, rfl⟩ := flat_surj c
    exact (h.d01k x1 x2 i u j t).trans (by simp [Core.constant, Dims.spread2_zero])
  · obtain ⟨i, u, rfl⟩ := flat_surj r
    exact (h.d0kj x1 x2 J i u j).trans (by simp [Core.constant])
  · obtain ⟨j, u, rfl⟩ := flat_surj c
    exact (h.d1kj x1 x2 J i j u).trans (by simp [Core.constant])
  · obtain ⟨i, u, rfl⟩ := flat_surj r
    obtain ⟨j, t, rfl⟩ := flat_surj c
    exact (h.d01kj x1 x2 J1 J2 i u j t).trans (by simp [Core.constant])
  · exact (h.d0kjc x1 x2 jc i j).trans (by simp [Core.constant])
  · obtain ⟨j, u, rfl⟩ := flat_surj c
    exact (h.d01kjc x1 x2 jc J i j u).trans (by simp [Core.constant])

/-- **C159**, kernels: exchanging and regrouping terms and factors, multiplying out, joining constants and dropping neutral
elements leaves all nine functions of the kernel as they are. -/
theorem C159_kernels {e f : KExpr d} {p q : KPar} (h : Rearranged e p f q) : SameFunctions e p f q := by
  induction h with
  | refl =>
    exact ⟨fun _ _ => rfl, fun _ _ => rfl, fun _ _ => rfl, fun _ _ => rfl, fun _ _ _ => rfl, fun _ _ _ => rfl,
      fun _ _ _ _ => rfl, fun _ _ _ => rfl, fun _ _ _ _ => rfl⟩
  | symm _ h =>
    exact ⟨fun _ _ => (h.k _ _).symm, fun _ _ => (h.d0k _ _).symm, fun _ _ => (h.d1k _ _).symm,
      fun _ _ => (h.d01k _ _).symm, fun _ _ _ => (h.d0kj _ _ _).symm, fun _ _ _ => (h.d1kj _ _ _).symm,
      fun _ _ _ _ => (h.d01kj _ _ _ _).symm, fun _ _ _ => (h.d0kjc _ _ _).symm, fun _ _ _ _ => (h.d01kjc _ _ _ _).symm⟩
  | trans _ _ h g =>
    exact ⟨fun _ _ => (g.k _ _).trans (h.k _ _), fun _ _ => (g.d0k _ _).trans (h.d0k _ _),
      fun _ _ => (g.d1k _ _).trans (h.d1k _ _), fun _ _ => (g.d01k _ _).trans (h.d01k _ _),
      fun _ _ _ => (g.d0kj _ _ _).trans (h.d0kj _ _ _), fun _ _ _ => (g.d1kj _ _ _).trans (h.d1kj _ _ _),
      fun _ _ _ _ => (g.d01kj _ _ _ _).trans (h.d01kj _ _ _ _), fun _ _ _ => (g.d0kjc _ _ _).trans (h.d0kjc _ _ _),
      fun _ _ _ _ => (g.d01kjc _ _ _ _).trans (h.d01kjc _ _ _ _)⟩
  | inSum _ _ h g =>
    constructor <;> intros <;>
      simp only [KExpr.obj, KernelObj.sum, sumKernels, sumKernelsJac, sumKernelsJac2, h.k, h.d0k, h.d1k, h.d01k, h.d0kj,
        h.d1kj, h.d01kj, h.d0kjc, h.d01kjc, g.k, g.d0k, g.d1k, g.d01k, g.d0kj, g.d1kj, g.d01kj, g.d0kjc, g.d01kjc]
  | inProd _ _ h g =>
    constructor <;> intros <;>
      simp only [KExpr.obj, KernelObj.prod, prodKernels, prodDeriv0, prodDeriv1, prodDeriv01, prodDeriv0Jac, prodDeriv1Jac,
        prodDeriv01Jac, prodDeriv0Jaccoef, prodDeriv01Jaccoef, h.k, h.d0k, h.d1k, h.d01k, h.d0kj,
        h.d1kj, h.d01kj, h.d0kjc, h.d01kjc, g.k, g.d0k, g.d1k, g.d01k, g.d0kj, g.d1kj, g.d01kj, g.d0kjc, g.d01kjc]
  | addComm h1 h2 =>
    constructor <;> intros <;> funext i j <;>
      simp only [KExpr.obj, KernelObj.sum, sumKernels, sumKernelsJac, sumKernelsJac2, Arr2.add, h1, h2] <;> ring
  | addAssoc h1 h2 h3 =>
    constructor <;> intros <;> funext i j <;>
      simp only [KExpr.obj, KernelObj.sum, sumKernels, sumKernelsJac, sumKernelsJac2, Arr2.add, h1, h2, h3] <;> ring
  | mulComm h1 h2 =>
    constructor <;> intros <;> funext i j <;>
      simp only [KExpr.obj, KernelObj.prod, prodKernels, prodDeriv0, prodDeriv1, prodDeriv01, prodDeriv0Jac, prodDeriv1Jac,
        prodDeriv01Jac, prodDeriv0Jaccoef, prodDeriv01Jaccoef, Arr2.add, Arr2.mul, repeatRows, repeatCols, h1, h2] <;> ring
  | mulAssoc h1 h2 h3 =>
    constructor <;> intros <;> funext i j <;>
      simp only [KExpr.obj, KernelObj.prod, prodKernels, prodDeriv0, prodDeriv1, prodDeriv01, prodDeriv0Jac, prodDeriv1Jac,
        prodDeriv01Jac, prodDeriv0Jaccoef, prodDeriv01Jaccoef, Arr2.add, Arr2.mul, repeatRows, repeatCols, h1, h2, h3] <;>
      ring
  | distrib h1 h2 h3 h4 =>
    constructor <;> intros <;> funext i j <;>
      simp only [KExpr.obj, KernelObj.sum, sumKernels, sumKernelsJac, sumKernelsJac2, KernelObj.prod, prodKernels,
        prodDeriv0, prodDeriv1, prodDeriv01, prodDeriv0Jac, prodDeriv1Jac,
        prodDeriv01Jac, prodDeriv0Jaccoef, prodDeriv01Jaccoef, Arr2.add, Arr2.mul, repeatRows, repeatCols, h1, h2, h3,
        h4] <;> ring
  | @constAdd a b c p q hv =>
    obtain ⟨a1, a2, a3, a4, a5, a6, a7, a8, a9⟩ := constant_functions a (p.sub "kernel1")
    obtain ⟨b1, b2, b3, b4, b5, b6, b7, b8, b9⟩ := constant_functions b (p.sub "kernel2")
    obtain ⟨c1, c2, c3, c4, c5, c6, c7, c8, c9⟩ := constant_functions c q
    have hs : (KExpr.sum (.constant a) (.constant b) : KExpr d).obj =
      KernelObj.sum (KExpr.constant a).obj (KExpr.constant b).obj := rfl
    constructor <;> intros <;> funext i j <;>
      simp only [hs, KernelObj.sum, sumKernels, sumKernelsJac, sumKernelsJac2, Arr2.add, a1, a2, a3, a4, a5, a6, a7, a8, a9,
        b1, b2, b3, b4, b5, b6, b7, b8, b9, c1, c2, c3, c4, c5, c6, c7, c8, c9, hv, add_zero]
  | @constMul a b c p q hv =>
    obtain ⟨a1, a2, a3, a4, a5, a6, a7, a8, a9⟩ := constant_functions a (p.sub "kernel1")
    obtain ⟨b1, b2, b3, b4, b5, b6, b7, b8, b9⟩ := constant_functions b (p.sub "kernel2")
    obtain ⟨c1, c2, c3, c4, c5, c6, c7, c8, c9⟩ := constant_functions c q
    have hs : (KExpr.prod (.constant a) (.constant b) : KExpr d).obj =
      KernelObj.prod (KExpr.constant a).obj (KExpr.constant b).obj := rfl
    constructor <;> intros <;> funext i j <;>
      simp only [hs, KernelObj.prod, prodKernels, prodDeriv0, prodDeriv1, prodDeriv01, prodDeriv0Jac, prodDeriv1Jac,
        prodDeriv01Jac, prodDeriv0Jaccoef, prodDeriv01Jaccoef, Arr2.add, Arr2.mul, repeatRows, repeatCols,
        a1, a2, a3, a4, a5, a6, a7, a8, a9,
        b1, b2, b3, b4, b5, b6, b7, b8, b9, c1, c2, c3, c4, c5, c6, c7, c8, c9, hv, add_zero, mul_zero, zero_mul]
  | @addZero a e p hv =>
    obtain ⟨a1, a2, a3, a4, a5, a6, a7, a8, a9⟩ := constant_functions a (p.sub "kernel1")
    have hs : (KExpr.sum (.constant a) e : KExpr d).obj = KernelObj.sum (KExpr.constant a).obj e.obj := rfl
    constructor <;> intros <;> funext i j <;>
      simp only [hs, KernelObj.sum, sumKernels, sumKernelsJac, sumKernelsJac2, Arr2.add, a1, a2, a3, a4, a5, a6, a7, a8, a9,
        hv, zero_add]
  | @mulOne a e p hv =>
    obtain ⟨a1, a2, a3, a4, a5, a6, a7, a8, a9⟩ := constant_functions a (p.sub "kernel1")
    have hs : (KExpr.prod (.constant a) e : KExpr d).obj = KernelObj.prod (KExpr.constant a).obj e.obj := rfl
    constructor <;> intros <;> funext i j <;>
      simp only [hs, KernelObj.prod, prodKernels, prodDeriv0, prodDeriv1, prodDeriv01, prodDeriv0Jac, prodDeriv1Jac,
        prodDeriv01Jac, prodDeriv0Jaccoef, prodDeriv01Jaccoef, Arr2.add, Arr2.mul, repeatRows, repeatCols,
        a1, a2, a3, a4, a5, a6, a7, a8, a9, hv, zero_mul, one_mul, add_zero]

theorem rearranged_carries {e f : KExpr d} {p q : KPar} (h : Rearranged e p f q) :
    Carries e.obj p f.obj q id id := by
  have s := C159_kernels h
  exact ⟨fun x1 x2 i j => congrFun (congrFun (s.k x1 x2) i) j,
    fun x1 x2 J i u j => congrFun (congrFun (s.d0kj x1 x2 J) (flat i u)) j,
    fun x1 x2 J i j u => congrFun (congrFun (s.d1kj x1 x2 J) i) (flat j u),
    fun x1 x2 J1 J2 i u j r => congrFun (congrFun (s.d01kj x1 x2 J1 J2) (flat i u)) (flat j r),
    fun x1 x2 jc i j => congrFun (congrFun (s.d0kjc x1 x2 jc) i) j,
    fun x1 x2 jc J i j u => congrFun (congrFun (s.d01kjc x1 x2 jc J) i) (flat j u)⟩

/-- **C159**, models: fits, predictions, covariances and likelihoods of GPR, SGPR and SGPR_RPChol, dense and iterative, on the
same data (`id`) are the same. -/
theorem C159_models {e f : KExpr d} {θ θ' : GPParams} (h : Rearranged e θ.kernelParams f θ'.kernelParams)
    (hs : θ'.sigma = θ.sigma) :
    SameModels e.obj θ f.obj θ' id id ∧ SameIterative e.obj θ f.obj θ' id id ∧
    SameRPChol e.obj θ f.obj θ' id id ∧ SameSparseRest e.obj θ f.obj θ' id id :=
  have hc := rearranged_carries h
  ⟨hc.same hs, iterative_of_carries hc hs, rpchol_of_carries hc hs, sparseRest_of_carries hc hs⟩

/-- **C159**, GPR_TD. -/
theorem C159_joint_models {e f : KExpr d} {θ θ' : TDParams} (h : Rearranged e θ.kernelParams f θ'.kernelParams)
    (hs : SameNoises θ θ') : SameJoint e.obj θ f.obj θ' id id :=
  joint_of_carries (rearranged_carries h) hs

/-- Non-vacuity: for all kernels and hyperparameters there are hyperparameters with which `(e1 + e2) * e3` becomes
`e3 * e2 + e1 * e3`. -/
example (e1 e2 e3 : KExpr d) (p : KPar) :
    ∃ q, Rearranged (.prod (.sum e1 e2) e3) p (.sum (.prod e3 e2) (.prod e1 e3)) q := by
  let q1 : KPar := fun path => match path with
    | "kernel1" :: "kernel1" :: r => p ("kernel1" :: "kernel1" :: r)
    | "kernel2" :: "kernel1" :: r => p ("kernel1" :: "kernel2" :: r)
    | "kernel1" :: "kernel2" :: r => p ("kernel2" :: r)
    | "kernel2" :: "kernel2" :: r => p ("kernel2" :: r)
    | _ => 0
  let q2 : KPar := fun path => match path with
    | "kernel1" :: r => q1 ("kernel2" :: r)
    | "kernel2" :: r => q1 ("kernel1" :: r)
    | _ => 0
  let q3 : KPar := fun path => match path with
    | "kernel1" :: "kernel1" :: r => q2 ("kernel1" :: "kernel2" :: r)
    | "kernel1" :: "kernel2" :: r => q2 ("kernel1" :: "kernel1" :: r)
    | "kernel2" :: r => q2 ("kernel2" :: r)
    | _ => 0
  have h1 : Rearranged (.prod (.sum e1 e2) e3) p (.sum (.prod e1 e3) (.prod e2 e3)) q1 :=
    .distrib rfl rfl rfl rfl
  have h2 : Rearranged (.sum (.prod e1 e3) (.prod e2 e3)) q1 (.sum (.prod e2 e3) (.prod e1 e3)) q2 := .addComm rfl rfl
  have h3 : Rearranged (.sum (.prod e2 e3) (.prod e1 e3)) q2 (.sum (.prod e3 e2) (.prod e1 e3)) q3 :=
    .inSum (.mulComm rfl rfl) .refl
  exact ⟨q3, (h1.trans h2).trans h3⟩

end GPX.Props
