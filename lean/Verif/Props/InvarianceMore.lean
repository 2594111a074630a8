import Verif.Spec.TransferMore
import Verif.Lemmas.TransferMore
import Verif.Props.Invariance

/-!
# C123, C124, C125 for the iterative methods, SGPR_RPChol and GPR_TD
-/

namespace GPX.Props
open GPX GPX.Spec

variable {d d' : ℕ}

section
variable {κ : KernelObj d} {θ : GPParams} {κ' : KernelObj d'} {θ' : GPParams} {T L : (Fin d → ℝ) → (Fin d' → ℝ)}

theorem iterative_of_carries (hc : Carries κ θ.kernelParams κ' θ'.kernelParams T L) (hs : θ'.sigma = θ.sigma) :
    SameIterative κ θ κ' θ' T L := by
  have h := hc.arr
  have hf : ∀ {la : LinAlg} {cg : CG} {Key : Type} {split : Key → Key × Key} {n o : ℕ}
      {choice : Key → (Fin n → ℝ) → Fin n} {mf : MeanFun} (x : Batch n d) (y : Mat n o) (k : ℕ) (key : Key),
      fitIter la cg split choice θ' κ' mf (mapBatch T x) y k key = fitIter la cg split choice θ κ mf x y k key := by
    intros
    have e : ∀ {n o : ℕ} (x : Batch n d), (axLhsFun θ' κ' true (mapBatch T x) (mapBatch T x) : Mat n o → Mat n o) =
      axLhsFun θ κ true x x := fun x => funext fun z => ax_carry h hs true x x z
    simp only [fitIter, precondRpcholesky, h.rpcholesky, e, hs]
  have hfd : ∀ {la : LinAlg} {cg : CG} {Key : Type} {split : Key → Key × Key} {n v : ℕ}
      {choice : Key → (Fin (n * v) → ℝ) → Fin (n * v)} {mf : MeanFun} (x : Batch n d) (J : Jac n d v) (y : Mat n v)
      (k : ℕ) (key : Key), fitDerivsIter la cg split choice θ' κ' mf (mapBatch T x) (mapJac L J) y k key =
        fitDerivsIter la cg split choice θ κ mf x J y k key := by
    intro la cg Key split n v choice mf x J y k key
    have e : (axDerivsLhsFun θ' κ' true (mapBatch T x) (mapJac L J) (mapBatch T x) (mapJac L J) :
        Mat (n * v) 1 → Mat (n * v) 1) = axDerivsLhsFun θ κ true x J x J :=
      funext fun z => axDerivs_carry h hs true x J x J z
    have e2 : (precondRpcholeskyDerivs la split choice θ' κ' (mapBatch T x) (mapJac L J) k key :
        Mat (n * v) 1 → Mat (n * v) 1) = precondRpcholeskyDerivs la split choice θ κ x J k key := by
      funext z
      simp only [precondRpcholeskyDerivs, h.rpcholeskyDerivs, hs]
    simp only [fitDerivsIter, e, e2]
  constructor
  · intros; exact hf _ _ _ _
  · intros; simp only [predictIter, ax_carry h hs]
  · intro la cg Key split n o choice logdet mf x y k key
    have e : (axLhsFun θ' κ' true (mapBatch T x) (mapBatch T x) : Mat n 1 → Mat n 1) =
      axLhsFun θ κ true x x := funext fun z => ax_carry h hs true x x z
    simp only [lmlIter, hf, e]
  · intros; exact hfd _ _ _ _ _
  · intros; simp only [predictDerivsIter, axDerivs_carry h hs]
  · intros; simp only [predictYDerivsIter, kxDerivs1_carry h]
  · intro la cg Key split n v choice logdet mf x J y k key
    have e : (axDerivsLhsFun θ' κ' true (mapBatch T x) (mapJac L J) (mapBatch T x) (mapJac L J) :
        Mat (n * v) 1 → Mat (n * v) 1) = axDerivsLhsFun θ κ true x J x J :=
      funext fun z => axDerivs_carry h hs true x J x J z
    simp only [lmlDerivsIter, hfd, e]
  · intros; simp only [mse, (hc.same hs).fitOl, aLhs, h.k, h.d1kj]
  · intro cg mf m n o xl x y
    have e : (sgprAxLhs θ' κ' (mapBatch T xl) (mapBatch T x) : Mat m o → Mat m o) = sgprAxLhs θ κ xl x :=
      funext fun z => sgprAxLhs_carry h hs xl x z
    simp only [sgprFitIter, e, sgprAxRhs_carry h]
  · intros; simp only [sgprPredictIter, sgprAxRhs_carry h]
  · intro la cg mf m n o logdet xl x y
    have e : ∀ {r : ℕ}, (sgprHx la θ' κ' (mapBatch T xl) (mapBatch T x) : Mat n r → Mat n r) = sgprHx la θ κ xl x :=
      funext fun z => sgprHx_carry h hs la xl x z
    simp only [sgprLmlIter, e]
  · intro cg mf m n v w xl Jl x J y
    have e : (sgprAxDerivsLhs θ' κ' (mapBatch T xl) (mapJac L Jl) (mapBatch T x) (mapJac L J) :
        Mat (m * v) 1 → Mat (m * v) 1) = sgprAxDerivsLhs θ κ xl Jl x J :=
      funext fun z => sgprAxDerivsLhs_carry h hs xl Jl x J z
    simp only [sgprFitDerivsIter, e, sgprAxDerivsRhs_carry h]
  · intros; simp only [sgprPredictDerivsIter, sgprAxDerivsRhs_carry h]
  · intros; simp only [sgprPredictYDerivsIter, kxDerivs1_carry h]
  · intro la cg mf m n v logdet xl Jl x J y
    have e : (sgprHxDerivs la θ' κ' (mapBatch T xl) (mapJac L Jl) (mapBatch T x) (mapJac L J) :
        Mat (n * v) 1 → Mat (n * v) 1) = sgprHxDerivs la θ κ xl Jl x J :=
      funext fun z => sgprHxDerivs_carry h hs la xl Jl x J z
    simp only [sgprLmlDerivsIter, e]

theorem rpchol_of_carries (hc : Carries κ θ.kernelParams κ' θ'.kernelParams T L) (hs : θ'.sigma = θ.sigma) :
    SameRPChol κ θ κ' θ' T L := by
  have h := hc.arr
  have hI := iterative_of_carries hc hs
  have hM := hc.same hs
  have pos : ∀ {Key : Type} {n : ℕ} (choice : Key → (Fin n → ℝ) → Fin n) (key : Key), 0 < n :=
    fun choice key => Fin.pos (choice key fun _ => 0)
  constructor
  · intros; exact h.rpcholesky _ _ _ _ _
  · intro la Key split n o choice mf x y key k
    simp only [SameSparse, rpcFitDense, h.rpcholesky]
    rcases rpcholesky split choice key x k κ θ.kernelParams with e | ⟨f, p⟩
    · rfl
    · simp only [Except.map, takeRows_mapBatch T x (pos choice key), hM.sgprFit]
  · intro cg Key split n o choice mf x y key k
    simp only [SameSparse, rpcFitIter, h.rpcholesky]
    rcases rpcholesky split choice key x k κ θ.kernelParams with e | ⟨f, p⟩
    · rfl
    · simp only [Except.map, takeRows_mapBatch T x (pos choice key), hI.sgprFit]
  · intro la Key split n v choice mf x y J key k
    simp only [SameSparseDerivs, rpcFitDerivsDense, rpcSelect, h.rpcholesky]
    rcases rpcholesky split choice key x k κ θ.kernelParams with e | ⟨f, p⟩
    · rfl
    · simp only [Except.map, takeRows_mapBatch T x (pos choice key), takeRows_mapJac L J (pos choice key),
        hM.sgprFitDerivs]
  · intro cg Key split n v choice mf x y J key k
    simp only [SameSparseDerivs, rpcFitDerivsIter, rpcSelect, h.rpcholesky]
    rcases rpcholesky split choice key x k κ θ.kernelParams with e | ⟨f, p⟩
    · rfl
    · simp only [Except.map, takeRows_mapBatch T x (pos choice key), takeRows_mapJac L J (pos choice key),
        hI.sgprFitDerivs]
  · intro la Key split n o choice mf x y key k
    simp only [rpcLmlDense, h.rpcholesky]
    rcases rpcholesky split choice key x k κ θ.kernelParams with e | ⟨f, p⟩
    · rfl
    · simp only [takeRows_mapBatch T x (pos choice key), hM.sgprLml]
  · intro la cg Key split n o logdet choice mf x y key k
    simp only [rpcLmlIter, h.rpcholesky]
    rcases rpcholesky split choice key x k κ θ.kernelParams with e | ⟨f, p⟩
    · rfl
    · simp only [takeRows_mapBatch T x (pos choice key), hI.sgprLml]

theorem sparseRest_of_carries (hc : Carries κ θ.kernelParams κ' θ'.kernelParams T L) (hs : θ'.sigma = θ.sigma) :
    SameSparseRest κ θ κ' θ' T L := by
  have h := hc.arr
  have hI := iterative_of_carries hc hs
  have pos : ∀ {Key : Type} {n : ℕ} (choice : Key → (Fin n → ℝ) → Fin n) (key : Key), 0 < n :=
    fun choice key => Fin.pos (choice key fun _ => 0)
  have hl : ∀ (la : LinAlg) (mf : MeanFun) {m n o v r : ℕ} (xl : Batch m d) (Jl : Jac m d v) (x : Batch n d)
      (J : Jac n d v) (y : Mat r o),
      sgprLmlDerivsDense la θ' κ' mf (mapBatch T xl) (mapJac L Jl) (mapBatch T x) (mapJac L J) y =
        sgprLmlDerivsDense la θ κ mf xl Jl x J y := by
    intros; simp only [sgprLmlDerivsDense, h.d01kj, hs]
  constructor
  · intros; simp only [sgprPredictDerivsCov, sgprADerivsLhs, h.d01kj, hs]
  · intros; simp only [sgprPredictYDerivsCov, h.d01kj, h.d0kj, h.k, hs]
  · intros; simp only [sgprPredictDerivsCoef, h.d01kjc]
  · intros; simp only [sgprPredictYDerivsCoef, h.d0kjc]
  · exact hl
  · intro la Key split n o v r choice mf x y J key k
    simp only [rpcLmlDerivsDense, rpcSelect, h.rpcholesky]
    rcases rpcholesky split choice key x k κ θ.kernelParams with e | ⟨f, p⟩
    · rfl
    · simp only [takeRows_mapBatch T x (pos choice key), takeRows_mapJac L J (pos choice key), hl]
  · intro la cg Key split n v logdet choice mf x y J key k
    simp only [rpcLmlDerivsIter, rpcSelect, h.rpcholesky]
    rcases rpcholesky split choice key x k κ θ.kernelParams with e | ⟨f, p⟩
    · rfl
    · simp only [takeRows_mapBatch T x (pos choice key), takeRows_mapJac L J (pos choice key), hI.sgprLmlDerivs]
  · intros; simp only [predictOlCov, aLhs, aLhsNoise, h.k, h.d1kj, GPParams.noise, hs]

end

section
variable {κ : KernelObj d} {θ : TDParams} {κ' : KernelObj d'} {θ' : TDParams} {T L : (Fin d → ℝ) → (Fin d' → ℝ)}

theorem joint_of_carries (hc : Carries κ θ.kernelParams κ' θ'.kernelParams T L) (hs : SameNoises θ θ') :
    SameJoint κ θ κ' θ' T L := by
  have h := hc.arr
  obtain ⟨s1, s2, s3⟩ := hs
  have a1 : ∀ {m n v w : ℕ} (x1 : Batch m d) (J1 : Jac m d v) (x2 : Batch n d) (J2 : Jac n d w),
      tdALhs1 θ' κ' (mapBatch T x1) (mapJac L J1) (mapBatch T x2) (mapJac L J2) = tdALhs1 θ κ x1 J1 x2 J2 := by
    intros; simp only [tdALhs1, h.k, h.d0kj, h.d1kj, h.d01kj]
  have n1 : ∀ {m v : ℕ} (x1 : Batch m d) (J1 : Jac m d v) (x2 : Batch m d) (J2 : Jac m d v),
      tdALhsNoise1 θ' κ' (mapBatch T x1) (mapJac L J1) (mapBatch T x2) (mapJac L J2) = tdALhsNoise1 θ κ x1 J1 x2 J2 := by
    intros; simp only [tdALhsNoise1, h.k, h.d0kj, h.d1kj, h.d01kj, s1, s2]
  have a2 : ∀ {m n v w v' w' : ℕ} (x1 : Batch m d) (J1 : Jac m d v) (J1' : Jac m d v') (x2 : Batch n d) (J2 : Jac n d w)
      (J2' : Jac n d w'),
      tdALhs2 θ' κ' (mapBatch T x1) (mapJac L J1) (mapJac L J1') (mapBatch T x2) (mapJac L J2) (mapJac L J2') =
        tdALhs2 θ κ x1 J1 J1' x2 J2 J2' := by
    intros; simp only [tdALhs2, h.k, h.d0kj, h.d1kj, h.d01kj]
  have n2 : ∀ {m v v' : ℕ} (x1 : Batch m d) (J1 : Jac m d v) (J1' : Jac m d v') (x2 : Batch m d) (J2 : Jac m d v)
      (J2' : Jac m d v'),
      tdALhsNoise2 θ' κ' (mapBatch T x1) (mapJac L J1) (mapJac L J1') (mapBatch T x2) (mapJac L J2) (mapJac L J2') =
        tdALhsNoise2 θ κ x1 J1 J1' x2 J2 J2' := by
    intros; simp only [tdALhsNoise2, h.k, h.d0kj, h.d1kj, h.d01kj, s1, s2, s3]
  have x1 : ∀ {m n v w o : ℕ} (b : Bool) (x1 : Batch m d) (J1 : Jac m d v) (x2 : Batch n d) (J2 : Jac n d w),
      (tdAxLhs1 θ' κ' b (mapBatch T x1) (mapJac L J1) (mapBatch T x2) (mapJac L J2) : Mat (n + n * w) o → _) =
        tdAxLhs1 θ κ b x1 J1 x2 J2 := by
    intros; funext z; simp only [tdAxLhs1, tdAxRows1_carry h s1 s2]
  have x2 : ∀ {m n v w v' w' o : ℕ} (b : Bool) (x1 : Batch m d) (J1 : Jac m d v) (J1' : Jac m d v') (x2 : Batch n d)
      (J2 : Jac n d w) (J2' : Jac n d w'),
      (tdAxLhs2 θ' κ' b (mapBatch T x1) (mapJac L J1) (mapJac L J1') (mapBatch T x2) (mapJac L J2) (mapJac L J2') :
        Mat (n + n * w + n * w') o → _) = tdAxLhs2 θ κ b x1 J1 J1' x2 J2 J2' := by
    intros; funext z; simp only [tdAxLhs2, tdAxRows2_carry h s1 s2 s3]
  have p1 : ∀ {la : LinAlg} {N k o : ℕ}, (tdPrecond la θ' : Mat N k → Mat N o → Mat N o) = tdPrecond la θ := by
    intros; funext f; simp only [tdPrecond, s1]
  have f1 : ∀ (la : LinAlg) (cg : CG) {Key : Type} (split : Key → Key × Key) {n v : ℕ}
      (choice : Key → (Fin (n + n * v) → ℝ) → Fin (n + n * v)) (mf : MeanFun) (x : Batch n d) (y : Mat n 1)
      (J : Jac n d v) (yd : Mat n v) (k : ℕ) (key : Key),
      tdFitIter1 la cg split choice θ' κ' mf (mapBatch T x) y (mapJac L J) yd k key =
        tdFitIter1 la cg split choice θ κ mf x y J yd k key := by
    intros; simp only [tdFitIter1, h.rpcholeskyTD1, x1, p1]
  have f2 : ∀ (la : LinAlg) (cg : CG) {Key : Type} (split : Key → Key × Key) {n v v' : ℕ}
      (choice : Key → (Fin (n + n * v + n * v') → ℝ) → Fin (n + n * v + n * v')) (mf : MeanFun) (x : Batch n d)
      (y : Mat n 1) (J : Jac n d v) (J' : Jac n d v') (yd : Mat n v) (yd' : Mat n v') (k : ℕ) (key : Key),
      tdFitIter2 la cg split choice θ' κ' mf (mapBatch T x) y (mapJac L J) (mapJac L J') yd yd' k key =
        tdFitIter2 la cg split choice θ κ mf x y J J' yd yd' k key := by
    intros; simp only [tdFitIter2, h.rpcholeskyTD2, x2, p1]
  constructor
  · intros; simp only [tdFitDense1, n1]
  · intros; simp only [tdFitDense2, n2]
  · exact f1
  · exact f2
  · intro m n v w xt Jt c mu it x J J'
    rcases J' with _ | ⟨w', J'⟩ <;> cases it <;>
      simp only [tdPredict, Option.map, tdPredictDense1, tdPredictIter1, a1, x1]
  · intro m n v v' w xt Jt Jt' c mu it x J J'
    rcases J' with _ | ⟨w', J'⟩ <;> cases it <;>
      simp only [tdPredict, Option.map, tdPredictDense2, tdPredictIter2, a2, x2, tdAxRows21_carry h]
  · intro Key n v t mf x y J yd J2 yd2 it ne nl kl np kp
    cases it with
    | false =>
      have hC : tdCovSets θ' κ' (mapBatch T x) (mapJac L J) (J2.map fun q => ⟨q.1, mapJac L q.2⟩) =
          tdCovSets θ κ x J J2 := by
        rcases J2 with _ | ⟨v', J'⟩ <;> simp only [tdCovSets, Option.map, n1, n2]
      exact congrArg (fun C : Σ N : ℕ, Mat N N => if h : (tdRhsSets mf y yd yd2).1 = C.1 then
        (.ok (tdLmlTail t.la C.2 (h ▸ (tdRhsSets mf y yd yd2).2 : Mat C.1 1) (n + n * v)) : Except Err ℝ)
        else .error .typeError) hC
    | true =>
      simp only [tdLml, tdLmlIterSets, if_true]
      rcases pivotArgs np kp with e | a
      · rfl
      · rcases J2 with _ | ⟨v', J'⟩ <;> rcases yd2 with _ | ⟨w', yd'⟩ <;>
          simp only [Option.map, tdLmlIter1, tdLmlIter2, f1, f2, x1, x2]

end

/-! ## C123 -/

/-- **C123**, iterative methods and SGPR_RPChol: rigid motions of the inputs change no coefficient, prediction or likelihood,
and the same samples are chosen as inducing points; for all solvers, estimates of the log-determinant and random keys. -/
theorem C123_rigid_motion_iterative (e : KExpr d) (he : Isotropic e) (θ : GPParams) (Q : Matrix (Fin d) (Fin d) ℝ)
    (hQ : Q.transpose * Q = 1) (b : Fin d → ℝ) :
    SameIterative e.obj θ e.obj θ (affine Q b) (affine Q 0) ∧ SameRPChol e.obj θ e.obj θ (affine Q b) (affine Q 0) ∧
      SameSparseRest e.obj θ e.obj θ (affine Q b) (affine Q 0) :=
  ⟨iterative_of_carries (rigid_carries e he Q hQ b _) rfl,
    rpchol_of_carries (rigid_carries e he Q hQ b _) rfl, sparseRest_of_carries (rigid_carries e he Q hQ b _) rfl⟩

/-- **C123**, GPR_TD. -/
theorem C123_rigid_motion_joint (e : KExpr d) (he : Isotropic e) (θ : TDParams) (Q : Matrix (Fin d) (Fin d) ℝ)
    (hQ : Q.transpose * Q = 1) (b : Fin d → ℝ) : SameJoint e.obj θ e.obj θ (affine Q b) (affine Q 0) :=
  joint_of_carries (rigid_carries e he Q hQ b _) ⟨rfl, rfl, rfl⟩

theorem C123_rotation_iterative (e : KExpr d) (he : RotationInvariant e) (θ : GPParams) (Q : Matrix (Fin d) (Fin d) ℝ)
    (hQ : Q.transpose * Q = 1) :
    SameIterative e.obj θ e.obj θ (affine Q 0) (affine Q 0) ∧ SameRPChol e.obj θ e.obj θ (affine Q 0) (affine Q 0) ∧
      SameSparseRest e.obj θ e.obj θ (affine Q 0) (affine Q 0) :=
  ⟨iterative_of_carries (rotation_carries e he Q hQ _) rfl,
    rpchol_of_carries (rotation_carries e he Q hQ _) rfl, sparseRest_of_carries (rotation_carries e he Q hQ _) rfl⟩

theorem C123_rotation_joint (e : KExpr d) (he : RotationInvariant e) (θ : TDParams) (Q : Matrix (Fin d) (Fin d) ℝ)
    (hQ : Q.transpose * Q = 1) : SameJoint e.obj θ e.obj θ (affine Q 0) (affine Q 0) :=
  joint_of_carries (rotation_carries e he Q hQ _) ⟨rfl, rfl, rfl⟩

theorem C123_translation_iterative (e : KExpr d) (he : TranslationInvariant e) (θ : GPParams)
    (b : Fin d → ℝ) :
    SameIterative e.obj θ e.obj θ (fun x f => x f + b f) (fun u => u) ∧
      SameRPChol e.obj θ e.obj θ (fun x f => x f + b f) (fun u => u) ∧
      SameSparseRest e.obj θ e.obj θ (fun x f => x f + b f) (fun u => u) :=
  ⟨iterative_of_carries (translation_carries e he b _) rfl,
    rpchol_of_carries (translation_carries e he b _) rfl, sparseRest_of_carries (translation_carries e he b _) rfl⟩

theorem C123_translation_joint (e : KExpr d) (he : TranslationInvariant e) (θ : TDParams)
    (b : Fin d → ℝ) : SameJoint e.obj θ e.obj θ (fun x f => x f + b f) (fun u => u) :=
  joint_of_carries (translation_carries e he b _) ⟨rfl, rfl, rfl⟩

/-! ## C124 -/

/-- **C124**, iterative methods and SGPR_RPChol. -/
theorem C124_units_iterative (e : KExpr d) (s : ℝ) (hs : s ≠ 0) (θ θ' : GPParams)
    (hσ : θ'.sigma = θ.sigma) (hp : InUnits s e θ.kernelParams θ'.kernelParams) :
    SameIterative e.obj θ e.obj θ' (fun x f => s * x f) (fun u f => s * u f) ∧
      SameRPChol e.obj θ e.obj θ' (fun x f => s * x f) (fun u f => s * u f) ∧
      SameSparseRest e.obj θ e.obj θ' (fun x f => s * x f) (fun u f => s * u f) :=
  ⟨iterative_of_carries (units_carries e s hs _ _ hp) hσ,
    rpchol_of_carries (units_carries e s hs _ _ hp) hσ, sparseRest_of_carries (units_carries e s hs _ _ hp) hσ⟩

/-- **C124**, GPR_TD. -/
theorem C124_units_joint (e : KExpr d) (s : ℝ) (hs : s ≠ 0) (θ θ' : TDParams)
    (hσ : SameNoises θ θ') (hp : InUnits s e θ.kernelParams θ'.kernelParams) :
    SameJoint e.obj θ e.obj θ' (fun x f => s * x f) (fun u f => s * u f) :=
  joint_of_carries (units_carries e s hs _ _ hp) hσ

/-! ## C125 -/

/-- **C125**, iterative methods and SGPR_RPChol. -/
theorem C125_active_dims_iterative (ad : Dims d) (e : KExpr ad.k)
    (θ : GPParams) :
    SameIterative (onFeatures ad e).obj θ e.obj θ (fun x a => x (ad.idx a)) (fun u a => u (ad.idx a)) ∧
      SameRPChol (onFeatures ad e).obj θ e.obj θ (fun x a => x (ad.idx a)) (fun u a => u (ad.idx a)) ∧
      SameSparseRest (onFeatures ad e).obj θ e.obj θ (fun x a => x (ad.idx a)) (fun u a => u (ad.idx a)) :=
  ⟨iterative_of_carries (select_carries ad e _) rfl,
    rpchol_of_carries (select_carries ad e _) rfl, sparseRest_of_carries (select_carries ad e _) rfl⟩

/-- **C125**, GPR_TD. -/
theorem C125_active_dims_joint (ad : Dims d) (e : KExpr ad.k)
    (θ : TDParams) : SameJoint (onFeatures ad e).obj θ e.obj θ (fun x a => x (ad.idx a)) (fun u a => u (ad.idx a)) :=
  joint_of_carries (select_carries ad e _) ⟨rfl, rfl, rfl⟩

/-- Non-vacuity: a reflection and a rotation-invariant expression with a polynomial; different parameters in other units. -/
example : (!![1, 0; 0, -1] : Matrix (Fin 2) (Fin 2) ℝ).transpose * !![1, 0; 0, -1] = 1 ∧
    RotationInvariant (.sum (.polynomial none true) (.matern32 none) : KExpr 2) ∧
    TranslationInvariant (.prod (.expSinSquared (some ⟨1, ![0]⟩)) (.matern12 none) : KExpr 2) ∧
    SameNoises ⟨fun _ => 2, 1, 3, 4⟩ ⟨fun _ => 6, 1, 3, 4⟩ ∧
    InUnits 3 (.squaredExponential none : KExpr 2) (fun _ => 2) (fun _ => 6) := by
  refine ⟨?_, ⟨rfl, rfl⟩, ⟨trivial, trivial⟩, ⟨rfl, rfl, rfl⟩, ?_⟩
  · ext i j
    fin_cases i <;> fin_cases j <;> simp [Matrix.mul_apply, Fin.sum_univ_two]
  · simp only [InUnits, KPar.val]; norm_num

end GPX.Props
