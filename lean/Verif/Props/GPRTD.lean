import Verif.Lemmas.GPRTD
import Verif.Props.JointPSD
import Verif.Spec.GPRTD
import Verif.Props.RPCholesky
import Verif.Props.Likelihood

/-!
# C52, C53: joint training on targets and derivatives
-/

namespace GPX.Props
open GPX GPX.Spec

variable {d m n o v w v' w' : ℕ} {la : LinAlg}

/-! ## Positions -/

theorem pos1_bij : Function.Bijective (pos1 : Obs1 n v → _) := by
  have : (pos1 : Obs1 n v → _) = ((Equiv.sumCongr (Equiv.refl _) finProdFinEquiv).trans finSumFinEquiv) := by
    funext a
    rcases a with i | ⟨i, u⟩
    · rfl
    · simp only [pos1, Equiv.trans_apply, Equiv.sumCongr_apply, Sum.map_inr, finSumFinEquiv_apply_right, prod_flat]
  rw [this]
  exact Equiv.bijective _

theorem pos2_bij : Function.Bijective (pos2 : Obs2 n v v' → _) := by
  have : (pos2 : Obs2 n v v' → _) =
      ((Equiv.sumCongr (Equiv.ofBijective _ pos1_bij) finProdFinEquiv).trans finSumFinEquiv) := by
    funext a
    rcases a with a | ⟨i, u⟩
    · rfl
    · simp only [pos2, Equiv.trans_apply, Equiv.sumCongr_apply, Sum.map_inr, finSumFinEquiv_apply_right, prod_flat]
  rw [this]
  exact Equiv.bijective _

/-! ## C52: the matrix -/

/-- **C52**, entries with one set of derivatives: every entry of the system matrix is the covariance of the two
observations at these positions, plus their noise on the diagonal; every position is used exactly once. For every
kernel object. -/
theorem C52_entries1 (κ : KernelObj d) (θ : TDParams) (x1 : Batch m d) (J1 : Jac m d v) (x2 : Batch n d)
    (J2 : Jac n d w) :
    Function.Bijective (pos1 : Obs1 m v → _) ∧
    (∀ a b, tdALhs1 θ κ x1 J1 x2 J2 (pos1 a) (pos1 b) = cov1 κ θ.kernelParams x1 J1 x2 J2 a b) ∧
    (∀ a b, tdALhsNoise1 θ κ x1 J1 x1 J1 (pos1 a) (pos1 b) = dataCov1 κ θ x1 J1 a b) := by
  refine ⟨pos1_bij, ?_, ?_⟩
  · rintro (i | ⟨i, u⟩) (j | ⟨j, t⟩) <;> simp [tdALhs1, tdBlocks1, pos1, cov1]
  · have hf : ∀ (i j : Fin m) (u t : Fin v), flat i u = flat j t ↔ (i, u) = (j, t) := fun i j u t => by
      rw [← prod_flat, ← prod_flat]; exact finProdFinEquiv.injective.eq_iff
    rintro (i | ⟨i, u⟩) (j | ⟨j, t⟩) <;>
      simp [tdALhsNoise1, tdBlocks1, pos1, cov1, dataCov1, noise1, noiseJitter, Matrix.one_apply, hf]

/-- **C52**, entries with two sets of derivatives. -/
theorem C52_entries2 (κ : KernelObj d) (θ : TDParams) (x1 : Batch m d) (J1 : Jac m d v) (J1' : Jac m d v')
    (x2 : Batch n d) (J2 : Jac n d w) (J2' : Jac n d w') :
    Function.Bijective (pos2 : Obs2 m v v' → _) ∧
    (∀ a b, tdALhs2 θ κ x1 J1 J1' x2 J2 J2' (pos2 a) (pos2 b) = cov2 κ θ.kernelParams x1 J1 J1' x2 J2 J2' a b) ∧
    (∀ a b, tdALhsNoise2 θ κ x1 J1 J1' x1 J1 J1' (pos2 a) (pos2 b) = dataCov2 κ θ x1 J1 J1' a b) := by
  refine ⟨pos2_bij, ?_, ?_⟩
  · rintro ((i | ⟨i, u⟩) | ⟨i, u⟩) ((j | ⟨j, t⟩) | ⟨j, t⟩) <;>
      simp [tdALhs2, tdBlocks2, pos2, pos1, cov2, cov1]
  · have hf : ∀ {q : ℕ} (i j : Fin m) (u t : Fin q), flat i u = flat j t ↔ (i, u) = (j, t) := fun i j u t => by
      rw [← prod_flat, ← prod_flat]; exact finProdFinEquiv.injective.eq_iff
    rintro ((i | ⟨i, u⟩) | ⟨i, u⟩) ((j | ⟨j, t⟩) | ⟨j, t⟩) <;>
      simp [tdALhsNoise2, tdBlocks2, pos2, pos1, cov2, cov1, dataCov2, noise2, noise1, noiseJitter,
        Matrix.one_apply, hf]

theorem cov1_symm {κ : KernelObj d} {p : KPar} (h : Spec.Symmetric κ p) (x1 : Batch m d) (J1 : Jac m d v)
    (x2 : Batch n d) (J2 : Jac n d w) (a b) : cov1 κ p x1 J1 x2 J2 a b = cov1 κ p x2 J2 x1 J1 b a := by
  rcases a with i | ⟨i, u⟩ <;> rcases b with j | ⟨j, t⟩
  · exact h.k _ _ _ _
  · exact h.d1kj _ _ _ _ _
  · exact (h.d1kj _ _ _ _ _).symm
  · exact h.d01kj _ _ _ _ _ _

theorem cov2_symm {κ : KernelObj d} {p : KPar} (h : Spec.Symmetric κ p) (x1 : Batch m d) (J1 : Jac m d v)
    (J1' : Jac m d v') (x2 : Batch n d) (J2 : Jac n d w) (J2' : Jac n d w') (a b) :
    cov2 κ p x1 J1 J1' x2 J2 J2' a b = cov2 κ p x2 J2 J2' x1 J1 J1' b a := by
  rcases a with (i | ⟨i, u⟩) | ⟨i, u⟩ <;> rcases b with (j | ⟨j, t⟩) | ⟨j, t⟩
  · exact h.k _ _ _ _
  · exact h.d1kj _ _ _ _ _
  · exact h.d1kj _ _ _ _ _
  · exact (h.d1kj _ _ _ _ _).symm
  · exact h.d01kj _ _ _ _ _ _
  · exact h.d01kj _ _ _ _ _ _
  · exact (h.d1kj _ _ _ _ _).symm
  · exact h.d01kj _ _ _ _ _ _
  · exact h.d01kj _ _ _ _ _ _

theorem noise1_pos (θ : TDParams) (a : Obs1 n v) : 0 < noise1 θ a := by
  rcases a with i | i <;> simp only [noise1] <;> positivity

theorem noise2_pos (θ : TDParams) (a : Obs2 n v v') : 0 < noise2 θ a := by
  rcases a with a | i
  · exact noise1_pos θ a
  · simp only [noise2]; positivity

theorem posDef_of_cov {I : Type} [Fintype I] [DecidableEq I] {N : ℕ} (pos : I → Fin N) (hpos : Function.Bijective pos)
    (A : Mat N N) (C : I → I → ℝ) (s : I → ℝ) (hs : ∀ a, 0 < s a)
    (hA : ∀ a b, A (pos a) (pos b) = C a b + if a = b then s a else 0) (hC : (Matrix.of C).PosSemidef) : A.PosDef := by
  have h1 : (Matrix.diagonal s + Matrix.of C).PosDef :=
    (Matrix.posDef_diagonal_iff.2 hs).add_posSemidef hC
  have h2 := h1.submatrix (Equiv.ofBijective pos hpos).symm.injective
  convert h2
  ext i j
  obtain ⟨a, rfl⟩ := hpos.2 i
  obtain ⟨b, rfl⟩ := hpos.2 j
  have e : ∀ a, (Equiv.ofBijective pos hpos).symm (pos a) = a := fun a =>
    (Equiv.ofBijective pos hpos).symm_apply_apply a
  rw [Matrix.submatrix_apply, e, e, hA, Matrix.add_apply, Matrix.diagonal_apply, Matrix.of_apply, add_comm]

/-- **C52**, symmetry: for every kernel expression (all sums and products), hyperparameters, dataset and jacobians,
the training matrix is symmetric. -/
theorem C52_symmetric (e : KExpr d) (θ : TDParams) (x : Batch n d) (J : Jac n d v)
    (J' : Jac n d v') :
    (tdALhsNoise1 θ e.obj x J x J).IsSymm ∧ (tdALhsNoise2 θ e.obj x J J' x J J').IsSymm := by
  have hs := C21_symmetric e θ.kernelParams
  constructor
  · refine Matrix.IsSymm.ext fun i j => ?_
    obtain ⟨a, rfl⟩ := pos1_bij.2 i
    obtain ⟨b, rfl⟩ := pos1_bij.2 j
    rw [(C52_entries1 e.obj θ x J x J).2.2, (C52_entries1 e.obj θ x J x J).2.2, dataCov1, dataCov1, cov1_symm hs]
    by_cases h : a = b
    · subst h; rfl
    · rw [if_neg h, if_neg (Ne.symm h)]
  · refine Matrix.IsSymm.ext fun i j => ?_
    obtain ⟨a, rfl⟩ := pos2_bij.2 i
    obtain ⟨b, rfl⟩ := pos2_bij.2 j
    rw [(C52_entries2 e.obj θ x J J' x J J').2.2, (C52_entries2 e.obj θ x J J' x J J').2.2, dataCov2, dataCov2,
      cov2_symm hs]
    by_cases h : a = b
    · subst h; rfl
    · rw [if_neg h, if_neg (Ne.symm h)]

/-- **C52**, positive definiteness: if the covariance of the noise-free observations is positive semidefinite, the
training matrix is positive definite, whatever the noise parameters. -/
theorem C52_posDef1 (κ : KernelObj d) (θ : TDParams) (x : Batch n d) (J : Jac n d v)
    (h : (Matrix.of (cov1 κ θ.kernelParams x J x J)).PosSemidef) : (tdALhsNoise1 θ κ x J x J).PosDef :=
  posDef_of_cov pos1 pos1_bij _ _ (noise1 θ) (noise1_pos θ) (C52_entries1 κ θ x J x J).2.2 h

/-- **C52**, positive definiteness with two sets of derivatives. -/
theorem C52_posDef2 (κ : KernelObj d) (θ : TDParams) (x : Batch n d) (J : Jac n d v) (J' : Jac n d v')
    (h : (Matrix.of (cov2 κ θ.kernelParams x J J' x J J')).PosSemidef) : (tdALhsNoise2 θ κ x J J' x J J').PosDef :=
  posDef_of_cov pos2 pos2_bij _ _ (noise2 θ) (noise2_pos θ) (C52_entries2 κ θ x J J' x J J').2.2 h

/-- **C78**, consequence: the systems of GPR_TD are positive definite, for every noise, zero included. -/
theorem C78_well_posed_partial (e : KExpr d) (θ : TDParams)
    (h : JointSmooth e θ.kernelParams) (x : Batch n d) (J : Jac n d v) (J' : Jac n d v') :
    (tdALhsNoise1 θ e.obj x J x J).PosDef ∧ (tdALhsNoise2 θ e.obj x J J' x J J').PosDef :=
  ⟨C52_posDef1 _ _ _ _ (C78_joint_partial e _ h x J J').1, C52_posDef2 _ _ _ _ _ (C78_joint_partial e _ h x J J').2⟩

/-- A concrete training set for the non-vacuity examples below: two different samples in the plane. -/
noncomputable def exX : Batch 2 2 := ![![0, 1], ![2, 3]]
/-- Their jacobian with respect to three variables. -/
noncomputable def exJ : Jac 2 2 3 := fun i f u => (i : ℝ) + f + u
/-- Their jacobian with respect to one further variable. -/
noncomputable def exJ' : Jac 2 2 1 := fun i f _ => (i : ℝ) * f + 1
/-- Noise parameters, one of them zero. -/
noncomputable def exθ : TDParams := ⟨fun _ => 1, 1, 0, 2⟩

/-- Non-vacuity of the positive semidefiniteness hypothesis of `C52_posDef1` and `C52_posDef2`. -/
theorem ex_psd : (Matrix.of (cov1 (KExpr.matern52 none : KExpr 2).obj exθ.kernelParams exX exJ exX exJ)).PosSemidef ∧
    (Matrix.of (cov2 (KExpr.matern52 none : KExpr 2).obj exθ.kernelParams exX exJ exJ' exX exJ exJ')).PosSemidef :=
  C78_joint_partial _ _ (by norm_num [JointSmooth, KPar.val, exθ]) _ _ _

/-- Non-vacuity of the positive definiteness hypothesis of the theorems below. -/
theorem ex_pd : (tdALhsNoise1 exθ (KExpr.matern52 none : KExpr 2).obj exX exJ exX exJ).PosDef ∧
    (tdALhsNoise2 exθ (KExpr.matern52 none : KExpr 2).obj exX exJ exJ' exX exJ exJ').PosDef :=
  ⟨C52_posDef1 _ _ _ _ ex_psd.1, C52_posDef2 _ _ _ _ _ ex_psd.2⟩

/-! ## C52: the matrix-free product -/

theorem d0kj_row {κ : KernelObj d} {p : KPar} (h : SampleWise κ p) (x1 : Batch m d) (x2 : Batch n d)
    (J1 : Jac m d v) (i : Fin m) (q : Fin 1) (u : Fin v) (c : Fin n) :
    κ.d0kj p (recoverFirstAxis (x1 i)) x2 (recoverFirstAxis (J1 i)) (flat q u) c =
      κ.d0kj p x1 x2 J1 (flat i u) c :=
  h.d0kj x1 x2 J1 (fun _ : Fin 1 => i) id q u c

theorem updateRowDiagonal_apply' {r N : ℕ} (hN : N = n * r) (row : Arr2 r N) (i : Fin n) (value : ℝ) (a : Fin r)
    (j : Fin n) (b : Fin r) :
    updateRowDiagonal row i.val value a (Fin.cast hN.symm (flat j b)) =
      row a (Fin.cast hN.symm (flat j b)) + if j = i ∧ a = b then value else 0 := by
  subst hN
  exact updateRowDiagonal_apply row i value a j b

theorem diag_k {κ : KernelObj d} {p : KPar} (h : SampleWise κ p) (x1 x2 : Batch n d) (i : Fin n) (s : ℝ)
    (q : Fin 1) (j : Fin n) :
    tdDiag true (κ.k p (recoverFirstAxis (x1 i)) x2) i.val s q j =
      (Matrix.of (κ.k p x1 x2) + (s ^ 2 + noiseJitter) • (1 : Mat n n)) i j := by
  have := updateRowDiagonal_apply' (mul_one n).symm (κ.k p (recoverFirstAxis (x1 i)) x2) i (s ^ 2 + noiseJitter) q j 0
  have e : Fin.cast (mul_one n) (flat j (0 : Fin 1)) = j := Fin.ext (by simp [flat])
  rw [e, k_row h] at this
  simp only [tdDiag, if_true, Matrix.of_apply]
  rw [this]
  have hq : q = 0 := Subsingleton.elim _ _
  simp [Matrix.one_apply, hq, eq_comm]

theorem diag_d01kj {κ : KernelObj d} {p : KPar} (h : SampleWise κ p) (x1 x2 : Batch n d) (J1 J2 : Jac n d v)
    (i : Fin n) (s : ℝ) (u : Fin v) (c : Fin (n * v)) :
    tdDiag true (κ.d01kj p (recoverFirstAxis (x1 i)) x2 (recoverFirstAxis (J1 i)) J2) i.val s (flat (0 : Fin 1) u) c =
      (Matrix.of (κ.d01kj p x1 x2 J1 J2) + (s ^ 2 + noiseJitter) • (1 : Mat (n * v) (n * v))) (flat i u) c := by
  obtain ⟨j, t, rfl⟩ := flat_surj c
  have := updateRowDiagonal_apply' (n := n) (r := 1 * v) (N := n * v) (by rw [one_mul])
    (κ.d01kj p (recoverFirstAxis (x1 i)) x2 (recoverFirstAxis (J1 i)) J2) i
    (s ^ 2 + noiseJitter) (flat (0 : Fin 1) u) j (flat (0 : Fin 1) t)
  have e : ∀ h, Fin.cast h (flat j (flat (0 : Fin 1) t)) = flat j t := fun h => Fin.ext (by simp [flat])
  rw [e, d01kj_row h] at this
  simp only [tdDiag, if_true, Matrix.of_apply]
  rw [this]
  have hf : ∀ {k : ℕ} (i j : Fin k) (u t : Fin v), flat i u = flat j t ↔ (i = j ∧ u = t) := fun i j u t => by
    rw [← prod_flat, ← prod_flat, finProdFinEquiv.injective.eq_iff, Prod.mk.injEq]
  simp [Matrix.one_apply, hf, eq_comm]

/-- The rows computed for one sample. -/
theorem rows1 (A : Mat m o) (B : Mat (m * v) o) (ra : Fin m → Mat 1 o) (rb : Fin m → Mat (1 * v) o)
    (ha : ∀ i c, ra i 0 c = A i c) (hb : ∀ i u c, rb i (flat (0 : Fin 1) u) c = B (flat i u) c) :
    tdReorder1 m v (List.ofFn fun i => matRows (ra i) ++ matRows (rb i)).flatten = matRows (vcat A B) := by
  rw [tdReorder1_blocks _ _ (fun i => by simp [matRows]) (fun i => by simp [matRows]), matRows_vcat, matRows_single A,
    matRows_flat B]
  congr 3
  · funext i
    rw [matRows_one]
    exact congrArg (fun x => [x]) (funext fun c => ha i c)
  · funext i
    rw [matRows_one_mul]
    congr 1
    funext u c
    exact hb i u c

theorem rows2 (A : Mat m o) (B : Mat (m * v) o) (C : Mat (m * v') o) (ra : Fin m → Mat 1 o)
    (rb : Fin m → Mat (1 * v) o) (rc : Fin m → Mat (1 * v') o)
    (ha : ∀ i c, ra i 0 c = A i c) (hb : ∀ i u c, rb i (flat (0 : Fin 1) u) c = B (flat i u) c)
    (hc : ∀ i u c, rc i (flat (0 : Fin 1) u) c = C (flat i u) c) :
    tdReorder2 m v v' (List.ofFn fun i => matRows (ra i) ++ matRows (rb i) ++ matRows (rc i)).flatten =
      matRows (vcat (vcat A B) C) := by
  rw [tdReorder2_blocks _ _ _ (fun i => by simp [matRows]) (fun i => by simp [matRows]) (fun i => by simp [matRows]),
    matRows_vcat, matRows_vcat, matRows_single A, matRows_flat B, matRows_flat C]
  congr 4
  · funext i
    rw [matRows_one]
    exact congrArg (fun x => [x]) (funext fun c => ha i c)
  · funext i
    rw [matRows_one_mul]
    congr 1
    funext u c
    exact hb i u c
  · funext i
    rw [matRows_one_mul]
    congr 1
    funext u c
    exact hc i u c

/-- Product of one row block. -/
theorem mul_row {a b : ℕ} (R : Mat a b) (M : Mat m b) (z : Mat b o) (i : Fin a) (j : Fin m)
    (h : ∀ c, R i c = M j c) (c : Fin o) : (R * z) i c = (M * z) j c := by
  simp only [Matrix.mul_apply, h]

theorem add2 {a b a' b' : ℝ} (h1 : a = a') (h2 : b = b') : a + b = a' + b' := by rw [h1, h2]

theorem add3 {a b c a' b' c' : ℝ} (h1 : a = a') (h2 : b = b') (h3 : c = c') : a + b + c = a' + b' + c' := by
  rw [h1, h2, h3]

theorem tdAxRows1_eq {κ : KernelObj d} (θ : TDParams) (h : SampleWise κ θ.kernelParams) :
    (∀ {m n v w o : ℕ} (x1 : Batch m d) (J1 : Jac m d v) (x2 : Batch n d) (J2 : Jac n d w) (z : Mat (n + n * w) o),
      tdAxRows1 θ κ false x1 J1 x2 J2 z = matRows (tdALhs1 θ κ x1 J1 x2 J2 * z)) ∧
    (∀ {n v o : ℕ} (x1 : Batch n d) (J1 : Jac n d v) (x2 : Batch n d) (J2 : Jac n d v) (z : Mat (n + n * v) o),
      tdAxRows1 θ κ true x1 J1 x2 J2 z = matRows (tdALhsNoise1 θ κ x1 J1 x2 J2 * z)) := by
  refine ⟨fun {m n v w o} x1 J1 x2 J2 z => ?_, fun {n v o} x1 J1 x2 J2 z => ?_⟩
  · unfold tdAxRows1 tdALhs1 tdBlocks1
    simp only [laxScan_counter_list, vcat_mul, hcat_mul]
    refine rows1 _ _ _ _ (fun i c => ?_) (fun i u c => ?_) <;> simp only [Matrix.add_apply]
    · exact add2
        (mul_row _ _ _ _ _ (fun c => k_row h x1 x2 i 0 c) _)
        (mul_row _ _ _ _ _ (fun c => d1kj_row h x1 x2 J2 i 0 c) _)
    · exact add2
        (mul_row _ _ _ _ _ (fun c => d0kj_row h x1 x2 J1 i 0 u c) _)
        (mul_row _ _ _ _ _ (fun c => d01kj_row h x1 x2 J1 J2 i 0 u c) _)
  · unfold tdAxRows1 tdALhsNoise1 tdBlocks1
    simp only [laxScan_counter_list, vcat_mul, hcat_mul, Nat.zero_add]
    refine rows1 _ _ _ _ (fun i c => ?_) (fun i u c => ?_) <;> simp only [Matrix.add_apply]
    · exact add2
        (mul_row _ _ _ _ _ (fun c => diag_k h x1 x2 i θ.sigmaTargets 0 c) _)
        (mul_row _ _ _ _ _ (fun c => d1kj_row h x1 x2 J2 i 0 c) _)
    · exact add2
        (mul_row _ _ _ _ _ (fun c => d0kj_row h x1 x2 J1 i 0 u c) _)
        (mul_row _ _ _ _ _ (fun c => diag_d01kj h x1 x2 J1 J2 i θ.sigmaDerivs u c) _)

theorem tdAxRows2_eq {κ : KernelObj d} (θ : TDParams) (h : SampleWise κ θ.kernelParams) :
    (∀ {m n v v' w w' o : ℕ} (x1 : Batch m d) (J1 : Jac m d v) (J1' : Jac m d v') (x2 : Batch n d) (J2 : Jac n d w)
      (J2' : Jac n d w') (z : Mat (n + n * w + n * w') o),
      tdAxRows2 θ κ false x1 J1 J1' x2 J2 J2' z = matRows (tdALhs2 θ κ x1 J1 J1' x2 J2 J2' * z)) ∧
    (∀ {n v v' o : ℕ} (x1 : Batch n d) (J1 : Jac n d v) (J1' : Jac n d v') (x2 : Batch n d) (J2 : Jac n d v)
      (J2' : Jac n d v') (z : Mat (n + n * v + n * v') o),
      tdAxRows2 θ κ true x1 J1 J1' x2 J2 J2' z = matRows (tdALhsNoise2 θ κ x1 J1 J1' x2 J2 J2' * z)) := by
  refine ⟨fun {m n v v' w w' o} x1 J1 J1' x2 J2 J2' z => ?_, fun {n v v' o} x1 J1 J1' x2 J2 J2' z => ?_⟩
  · unfold tdAxRows2 tdALhs2 tdBlocks2
    simp only [laxScan_counter_list, vcat_mul, hcat_mul]
    refine rows2 _ _ _ _ _ _ (fun i c => ?_) (fun i u c => ?_) (fun i u c => ?_) <;> simp only [Matrix.add_apply]
    · exact add3
        (mul_row _ _ _ _ _ (fun c => k_row h x1 x2 i 0 c) _)
        (mul_row _ _ _ _ _ (fun c => d1kj_row h x1 x2 J2 i 0 c) _)
        (mul_row _ _ _ _ _ (fun c => d1kj_row h x1 x2 J2' i 0 c) _)
    · exact add3
        (mul_row _ _ _ _ _ (fun c => d0kj_row h x1 x2 J1 i 0 u c) _)
        (mul_row _ _ _ _ _ (fun c => d01kj_row h x1 x2 J1 J2 i 0 u c) _)
        (mul_row _ _ _ _ _ (fun c => d01kj_row h x1 x2 J1 J2' i 0 u c) _)
    · exact add3
        (mul_row _ _ _ _ _ (fun c => d0kj_row h x1 x2 J1' i 0 u c) _)
        (mul_row _ _ _ _ _ (fun c => d01kj_row h x1 x2 J1' J2 i 0 u c) _)
        (mul_row _ _ _ _ _ (fun c => d01kj_row h x1 x2 J1' J2' i 0 u c) _)
  · unfold tdAxRows2 tdALhsNoise2 tdBlocks2
    simp only [laxScan_counter_list, vcat_mul, hcat_mul, Nat.zero_add]
    refine rows2 _ _ _ _ _ _ (fun i c => ?_) (fun i u c => ?_) (fun i u c => ?_) <;> simp only [Matrix.add_apply]
    · exact add3
        (mul_row _ _ _ _ _ (fun c => diag_k h x1 x2 i θ.sigmaTargets 0 c) _)
        (mul_row _ _ _ _ _ (fun c => d1kj_row h x1 x2 J2 i 0 c) _)
        (mul_row _ _ _ _ _ (fun c => d1kj_row h x1 x2 J2' i 0 c) _)
    · exact add3
        (mul_row _ _ _ _ _ (fun c => d0kj_row h x1 x2 J1 i 0 u c) _)
        (mul_row _ _ _ _ _ (fun c => diag_d01kj h x1 x2 J1 J2 i θ.sigmaDerivs u c) _)
        (mul_row _ _ _ _ _ (fun c => d01kj_row h x1 x2 J1 J2' i 0 u c) _)
    · exact add3
        (mul_row _ _ _ _ _ (fun c => d0kj_row h x1 x2 J1' i 0 u c) _)
        (mul_row _ _ _ _ _ (fun c => d01kj_row h x1 x2 J1' J2 i 0 u c) _)
        (mul_row _ _ _ _ _ (fun c => diag_d01kj h x1 x2 J1' J2' i θ.sigmaDerivs2 u c) _)

/-- **C52**, matrix-free product with one set of derivatives: for every kernel expression, sizes (also different
numbers of samples and components on the two sides), jacobians and right-hand sides, the scan over samples followed
by the reordering has as many rows as the dense product and equals it, without and with noise. -/
theorem C52_matvec1 (e : KExpr d) (θ : TDParams) (x1 : Batch m d) (J1 : Jac m d v)
    (x2 : Batch n d) (J2 : Jac n d w) (z : Mat (n + n * w) o) :
    (tdAxRows1 θ e.obj false x1 J1 x2 J2 z).length = m + m * v ∧
    tdAxLhs1 θ e.obj false x1 J1 x2 J2 z = tdALhs1 θ e.obj x1 J1 x2 J2 * z ∧
    (tdAxRows1 θ e.obj true x2 J2 x2 J2 z).length = n + n * w ∧
    tdAxLhs1 θ e.obj true x2 J2 x2 J2 z = tdALhsNoise1 θ e.obj x2 J2 x2 J2 * z := by
  have h := tdAxRows1_eq θ (C63_sampleWise e θ.kernelParams)
  refine ⟨?_, ?_, ?_, ?_⟩
  · rw [h.1]; simp [matRows]
  · rw [tdAxLhs1, h.1, rowsToMat_matRows]
  · rw [h.2]; simp [matRows]
  · rw [tdAxLhs1, h.2, rowsToMat_matRows]

/-- **C52**, matrix-free product with two sets of derivatives. -/
theorem C52_matvec2 (e : KExpr d) (θ : TDParams) (x1 : Batch m d) (J1 : Jac m d v)
    (J1' : Jac m d v') (x2 : Batch n d) (J2 : Jac n d w) (J2' : Jac n d w') (z : Mat (n + n * w + n * w') o) :
    (tdAxRows2 θ e.obj false x1 J1 J1' x2 J2 J2' z).length = m + m * v + m * v' ∧
    tdAxLhs2 θ e.obj false x1 J1 J1' x2 J2 J2' z = tdALhs2 θ e.obj x1 J1 J1' x2 J2 J2' * z ∧
    (tdAxRows2 θ e.obj true x2 J2 J2' x2 J2 J2' z).length = n + n * w + n * w' ∧
    tdAxLhs2 θ e.obj true x2 J2 J2' x2 J2 J2' z = tdALhsNoise2 θ e.obj x2 J2 J2' x2 J2 J2' * z := by
  have h := tdAxRows2_eq θ (C63_sampleWise e θ.kernelParams)
  refine ⟨?_, ?_, ?_, ?_⟩
  · rw [h.1]; simp [matRows]
  · rw [tdAxLhs2, h.1, rowsToMat_matRows]
  · rw [h.2]; simp [matRows]
  · rw [tdAxLhs2, h.2, rowsToMat_matRows]

/-! ## C76: fitting and predicting -/

theorem rhs1_pos (mf : MeanFun) (y : Mat n 1) (yd : Mat n v) (a : Obs1 n v) :
    tdRhs1 mf y yd (pos1 a) 0 = residual1 (mf y) y yd a := by
  rcases a with i | ⟨i, u⟩
  · simp [tdRhs1, pos1, residual1, centerBy]
  · simp [tdRhs1, pos1, residual1, flatCol]

theorem rhs2_pos (mf : MeanFun) (y : Mat n 1) (yd : Mat n v) (yd' : Mat n v') (a : Obs2 n v v') :
    tdRhs2 mf y yd yd' (pos2 a) 0 = residual2 (mf y) y yd yd' a := by
  rcases a with a | ⟨i, u⟩
  · simp only [tdRhs2, pos2, residual2, vcat_left]; exact rhs1_pos mf y yd a
  · simp [tdRhs2, pos2, residual2, flatCol]

theorem sum_pos {I : Type} [Fintype I] {N : ℕ} {pos : I → Fin N} (h : Function.Bijective pos) (f : Fin N → ℝ) :
    ∑ s, f s = ∑ a, f (pos a) := ((Equiv.ofBijective pos h).sum_comp f).symm

/-- **C76**, fit with one set of derivatives: if the training matrix is positive definite (for every kernel, dataset and
noise of `C78_well_posed_partial` and `C78_well_posed_noise_partial` it is), the coefficients are the unique solution of the documented system over the observations (covariance
plus noise of each kind), with the mean removed from the targets only. -/
theorem C76_fit1 (ex : la.Exact) (κ : KernelObj d) (θ : TDParams) (mf : MeanFun) (x : Batch n d) (y : Mat n 1)
    (J : Jac n d v) (yd : Mat n v) (hp : (tdALhsNoise1 θ κ x J x J).PosDef) :
    let c := (tdFitDense1 la θ κ mf x y J yd).1
    let mu := (tdFitDense1 la θ κ mf x y J yd).2
    mu = mf y ∧
    (∀ a, ∑ b, dataCov1 κ θ x J a b * c (pos1 b) 0 = residual1 mu y yd a) ∧
    ∀ c' : Mat (n + n * v) 1, (∀ a, ∑ b, dataCov1 κ θ x J a b * c' (pos1 b) 0 = residual1 mu y yd a) → c' = c := by
  intro c mu
  have hs : tdALhsNoise1 θ κ x J x J * c = tdRhs1 mf y yd := ex.solve _ _ (posDef_isUnit hp)
  have key : ∀ (c' : Mat (n + n * v) 1) a, (tdALhsNoise1 θ κ x J x J * c') (pos1 a) 0 =
      ∑ b, dataCov1 κ θ x J a b * c' (pos1 b) 0 := fun c' a => by
    rw [Matrix.mul_apply, sum_pos pos1_bij]
    exact Finset.sum_congr rfl fun b _ => by rw [(C52_entries1 κ θ x J x J).2.2]
  refine ⟨rfl, fun a => ?_, fun c' hc' => ?_⟩
  · rw [← key, hs, rhs1_pos]; rfl
  · refine solve_unique (posDef_isUnit hp) (b := tdRhs1 mf y yd) ?_ hs
    ext s q
    obtain ⟨a, rfl⟩ := pos1_bij.2 s
    obtain rfl : q = 0 := Subsingleton.elim _ _
    rw [key, hc' a, rhs1_pos]; rfl

/-- **C76**, fit with two sets of derivatives. -/
theorem C76_fit2 (ex : la.Exact) (κ : KernelObj d) (θ : TDParams) (mf : MeanFun) (x : Batch n d) (y : Mat n 1)
    (J : Jac n d v) (J' : Jac n d v') (yd : Mat n v) (yd' : Mat n v')
    (hp : (tdALhsNoise2 θ κ x J J' x J J').PosDef) :
    let c := (tdFitDense2 la θ κ mf x y J J' yd yd').1
    let mu := (tdFitDense2 la θ κ mf x y J J' yd yd').2
    mu = mf y ∧
    (∀ a, ∑ b, dataCov2 κ θ x J J' a b * c (pos2 b) 0 = residual2 mu y yd yd' a) ∧
    ∀ c' : Mat (n + n * v + n * v') 1,
      (∀ a, ∑ b, dataCov2 κ θ x J J' a b * c' (pos2 b) 0 = residual2 mu y yd yd' a) → c' = c := by
  intro c mu
  have hs : tdALhsNoise2 θ κ x J J' x J J' * c = tdRhs2 mf y yd yd' := ex.solve _ _ (posDef_isUnit hp)
  have key : ∀ (c' : Mat (n + n * v + n * v') 1) a, (tdALhsNoise2 θ κ x J J' x J J' * c') (pos2 a) 0 =
      ∑ b, dataCov2 κ θ x J J' a b * c' (pos2 b) 0 := fun c' a => by
    rw [Matrix.mul_apply, sum_pos pos2_bij]
    exact Finset.sum_congr rfl fun b _ => by rw [(C52_entries2 κ θ x J J' x J J').2.2]
  refine ⟨rfl, fun a => ?_, fun c' hc' => ?_⟩
  · rw [← key, hs, rhs2_pos]; rfl
  · refine solve_unique (posDef_isUnit hp) (b := tdRhs2 mf y yd yd') ?_ hs
    ext s q
    obtain ⟨a, rfl⟩ := pos2_bij.2 s
    obtain rfl : q = 0 := Subsingleton.elim _ _
    rw [key, hc' a, rhs2_pos]; rfl

/-- Non-vacuity of `C76_fit1` and `C76_fit2`: the exact solver, two samples, four and five observations each. -/
example (mf : MeanFun) (y : Mat 2 1) (yd : Mat 2 3) (yd' : Mat 2 1) :
    (∀ a, ∑ b, dataCov1 (KExpr.matern52 none : KExpr 2).obj exθ exX exJ a b *
      (tdFitDense1 LinAlg.ideal exθ (KExpr.matern52 none : KExpr 2).obj mf exX y exJ yd).1 (pos1 b) 0 =
        residual1 (mf y) y yd a) ∧
    (∀ a, ∑ b, dataCov2 (KExpr.matern52 none : KExpr 2).obj exθ exX exJ exJ' a b *
      (tdFitDense2 LinAlg.ideal exθ (KExpr.matern52 none : KExpr 2).obj mf exX y exJ exJ' yd yd').1 (pos2 b) 0 =
        residual2 (mf y) y yd yd' a) :=
  ⟨(C76_fit1 LinAlg.ideal_exact _ exθ mf exX y exJ yd ex_pd.1).2.1,
    (C76_fit2 LinAlg.ideal_exact _ exθ mf exX y exJ exJ' yd yd' ex_pd.2).2.1⟩

/-- **C76**, predictions with one set of derivatives: the predicted targets and derivatives are the covariances with
the training observations times the coefficients, the mean is added to the targets only, and the matrix-free
prediction is the same. For every kernel expression, dataset and coefficient vector. -/
theorem C76_predict1 (e : KExpr d) (θ : TDParams) (xt : Batch m d) (Jt : Jac m d v) (x : Batch n d)
    (J : Jac n d w) (c : Mat (m + m * v) 1) (mu : ℝ) :
    let pred := tdPredictDense1 θ e.obj xt Jt x J c mu
    (∀ j, pred.1 j 0 = mu + ∑ a, cov1 e.obj θ.kernelParams xt Jt x J a (.inl j) * c (pos1 a) 0) ∧
    (∀ j t, pred.2 j t = ∑ a, cov1 e.obj θ.kernelParams xt Jt x J a (.inr (j, t)) * c (pos1 a) 0) ∧
    tdPredictIter1 θ e.obj xt Jt x J c mu = pred := by
  intro pred
  have hs := C21_symmetric e θ.kernelParams
  refine ⟨fun j => ?_, fun j t => ?_, ?_⟩
  · change ((tdALhs1 θ e.obj xt Jt x J).transpose * c) (pos1 (.inl j)) 0 + mu = _
    rw [Matrix.mul_apply, sum_pos pos1_bij, add_comm]
    congr 1
    exact Finset.sum_congr rfl fun a _ => by
      rw [Matrix.transpose_apply, (C52_entries1 e.obj θ xt Jt x J).2.1]
  · have e1 : pred.2 j t = ((tdALhs1 θ e.obj xt Jt x J).transpose * c) (pos1 (.inr (j, t))) 0 := by
      simp only [pred, tdPredictDense1, tdSplit1, unflatCol, Matrix.of_apply, botRows, Matrix.submatrix_apply, pos1,
        prod_flat, id]
    rw [e1, Matrix.mul_apply, sum_pos pos1_bij]
    exact Finset.sum_congr rfl fun a _ => by
      rw [Matrix.transpose_apply, (C52_entries1 e.obj θ xt Jt x J).2.1]
  · unfold tdPredictIter1
    rw [(C52_matvec1 e θ x J xt Jt c).2.1]
    have ht : tdALhs1 θ e.obj x J xt Jt = (tdALhs1 θ e.obj xt Jt x J).transpose := by
      ext s t
      obtain ⟨a, rfl⟩ := pos1_bij.2 s
      obtain ⟨b, rfl⟩ := pos1_bij.2 t
      rw [Matrix.transpose_apply, (C52_entries1 e.obj θ x J xt Jt).2.1,
        (C52_entries1 e.obj θ xt Jt x J).2.1, cov1_symm hs]
    rw [ht]; rfl

/-- **C76**, predictions with two sets of derivatives. -/
theorem C76_predict2 (e : KExpr d) (θ : TDParams) (xt : Batch m d) (Jt : Jac m d v)
    (Jt' : Jac m d v') (x : Batch n d) (J : Jac n d w) (J' : Jac n d w') (c : Mat (m + m * v + m * v') 1) (mu : ℝ) :
    let pred := tdPredictDense2 θ e.obj xt Jt Jt' x J J' c mu
    let cov := cov2 e.obj θ.kernelParams xt Jt Jt' x J J'
    (∀ j, pred.1 j 0 = mu + ∑ a, cov a (.inl (.inl j)) * c (pos2 a) 0) ∧
    (∀ j t, pred.2.1 j t = ∑ a, cov a (.inl (.inr (j, t))) * c (pos2 a) 0) ∧
    (∀ j t, pred.2.2 j t = ∑ a, cov a (.inr (j, t)) * c (pos2 a) 0) ∧
    tdPredictIter2 θ e.obj xt Jt Jt' x J J' c mu = pred := by
  intro pred cov
  have hs := C21_symmetric e θ.kernelParams
  have key : ∀ b, ((tdALhs2 θ e.obj xt Jt Jt' x J J').transpose * c) (pos2 b) 0 = ∑ a, cov a b * c (pos2 a) 0 := by
    intro b
    rw [Matrix.mul_apply, sum_pos pos2_bij]
    exact Finset.sum_congr rfl fun a _ => by
      rw [Matrix.transpose_apply, (C52_entries2 e.obj θ xt Jt Jt' x J J').2.1]
  refine ⟨fun j => ?_, fun j t => ?_, fun j t => ?_, ?_⟩
  · rw [← key, add_comm]; rfl
  · rw [← key]
    simp only [pred, tdPredictDense2, tdSplit2, tdSplit1, unflatCol, Matrix.of_apply, botRows, topRows,
      Matrix.submatrix_apply, pos2, pos1, prod_flat, id]
  · rw [← key]
    simp only [pred, tdPredictDense2, tdSplit2, unflatCol, Matrix.of_apply, botRows,
      Matrix.submatrix_apply, pos2, prod_flat, id]
  · unfold tdPredictIter2
    rw [(C52_matvec2 e θ x J J' xt Jt Jt' c).2.1]
    have ht : tdALhs2 θ e.obj x J J' xt Jt Jt' = (tdALhs2 θ e.obj xt Jt Jt' x J J').transpose := by
      ext s t
      obtain ⟨a, rfl⟩ := pos2_bij.2 s
      obtain ⟨b, rfl⟩ := pos2_bij.2 t
      rw [Matrix.transpose_apply, (C52_entries2 e.obj θ x J J' xt Jt Jt').2.1,
        (C52_entries2 e.obj θ xt Jt Jt' x J J').2.1, cov2_symm hs]
    rw [ht]; rfl

/-- **C76**, iterative fit: with an exact conjugate gradient routine the iterative fit returns what the dense fit
returns, for any preconditioner, key and number of pivots, on every dataset of at least two samples (and of none). -/
theorem C76_iterative1 (ex : la.Exact) (cg : CG) (hcg : CGExact cg) {Key : Type} (split : Key → Key × Key)
    (choice : Key → (Fin (n + n * v) → ℝ) → Fin (n + n * v)) (e : KExpr d) (θ : TDParams)
    (mf : MeanFun) (x : Batch n d) (y : Mat n 1) (J : Jac n d v) (yd : Mat n v)
    (hp : (tdALhsNoise1 θ e.obj x J x J).PosDef) (nPivots : ℕ) (key : Key) (hn : n ≠ 1) :
    tdFitIter1 la cg split choice θ e.obj mf x y J yd nPivots key = .ok (tdFitDense1 la θ e.obj mf x y J yd) := by
  have hmv : (tdAxLhs1 θ e.obj true x J x J : Mat (n + n * v) 1 → Mat (n + n * v) 1) =
      fun z : Mat (n + n * v) 1 => tdALhsNoise1 θ e.obj x J x J * z :=
    funext fun z => (C52_matvec1 e θ x J x J z).2.2.2
  unfold tdFitIter1 rpcholeskyTD1
  simp only [hn, if_false, hmv]
  refine congrArg Except.ok (Prod.ext ?_ rfl)
  exact solve_unique (posDef_isUnit hp) (hcg _ _ _ hp) (ex.solve _ _ (posDef_isUnit hp))

/-- **C76**, iterative fit with two sets of derivatives. -/
theorem C76_iterative2 (ex : la.Exact) (cg : CG) (hcg : CGExact cg) {Key : Type} (split : Key → Key × Key)
    (choice : Key → (Fin (n + n * v + n * v') → ℝ) → Fin (n + n * v + n * v')) (e : KExpr d)
    (θ : TDParams) (mf : MeanFun) (x : Batch n d) (y : Mat n 1) (J : Jac n d v) (J' : Jac n d v') (yd : Mat n v)
    (yd' : Mat n v') (hp : (tdALhsNoise2 θ e.obj x J J' x J J').PosDef) (nPivots : ℕ) (key : Key)
    (hn : n ≠ 1) :
    tdFitIter2 la cg split choice θ e.obj mf x y J J' yd yd' nPivots key =
      .ok (tdFitDense2 la θ e.obj mf x y J J' yd yd') := by
  have hmv : (tdAxLhs2 θ e.obj true x J J' x J J' : Mat (n + n * v + n * v') 1 → Mat (n + n * v + n * v') 1) =
      fun z : Mat (n + n * v + n * v') 1 => tdALhsNoise2 θ e.obj x J J' x J J' * z :=
    funext fun z => (C52_matvec2 e θ x J J' x J J' z).2.2.2
  unfold tdFitIter2 rpcholeskyTD2
  simp only [hn, if_false, hmv]
  refine congrArg Except.ok (Prod.ext ?_ rfl)
  exact solve_unique (posDef_isUnit hp) (hcg _ _ _ hp) (ex.solve _ _ (posDef_isUnit hp))

/-- Non-vacuity of `C76_iterative1` and `C76_iterative2`: an exact solver, an exact conjugate gradient and a key
type exist, and the training set has two samples. -/
example (mf : MeanFun) (y : Mat 2 1) (yd : Mat 2 3) (yd' : Mat 2 1) :
    tdFitIter1 LinAlg.ideal idealCG (fun k : ℕ => (k, k + 1)) (fun _ _ => 0) exθ (KExpr.matern52 none : KExpr 2).obj mf
      exX y exJ yd 3 7 = .ok (tdFitDense1 LinAlg.ideal exθ (KExpr.matern52 none : KExpr 2).obj mf exX y exJ yd) ∧
    tdFitIter2 LinAlg.ideal idealCG (fun k : ℕ => (k, k + 1)) (fun _ _ => 0) exθ (KExpr.matern52 none : KExpr 2).obj mf
      exX y exJ exJ' yd yd' 3 7 =
        .ok (tdFitDense2 LinAlg.ideal exθ (KExpr.matern52 none : KExpr 2).obj mf exX y exJ exJ' yd yd') :=
  ⟨C76_iterative1 LinAlg.ideal_exact _ idealCG_exact _ _ _ _ _ _ _ _ _ ex_pd.1 _ _ (by decide),
    C76_iterative2 LinAlg.ideal_exact _ idealCG_exact _ _ _ _ _ _ _ _ _ _ _ ex_pd.2 _ _ (by decide)⟩

/-- A single sample: the iterative fit always raises, whatever the kernel, the data and the solver. -/
theorem C76_single_sample (la : LinAlg) (cg : CG) {Key : Type} (split : Key → Key × Key) (κ : KernelObj d)
    (θ : TDParams) (mf : MeanFun) (x : Batch 1 d) (y : Mat 1 1) (J : Jac 1 d v) (J' : Jac 1 d v') (yd : Mat 1 v)
    (yd' : Mat 1 v') (nPivots : ℕ) (key : Key) :
    (∀ choice, tdFitIter1 la cg split choice θ κ mf x y J yd nPivots key = .error .valueError) ∧
    (∀ choice, tdFitIter2 la cg split choice θ κ mf x y J J' yd yd' nPivots key = .error .valueError) :=
  ⟨fun _ => rfl, fun _ => rfl⟩

/-! ## C77: the preconditioner -/

theorem tdRpcDiag1_eq {κ : KernelObj d} {p : KPar} (sw : SampleWise κ p) (x : Batch n d) (J : Jac n d v)
    (a : Obs1 n v) : tdRpcDiag1 κ p x J (pos1 a) = cov1 κ p x J x J a a := by
  unfold tdRpcDiag1
  rcases a with i | ⟨i, u⟩
  · simp only [pos1, Fin.append_left, rpcDiag_eq sw, cov1]
  · simp only [pos1, Fin.append_right, rpcDiagDerivs_eq sw, cov1]

theorem tdRpcDiag2_eq {κ : KernelObj d} {p : KPar} (sw : SampleWise κ p) (x : Batch n d) (J : Jac n d v)
    (J' : Jac n d v') (a : Obs2 n v v') :
    tdRpcDiag2 κ p x J J' (pos2 a) = cov2 κ p x J J' x J J' a a := by
  rcases a with a | ⟨i, u⟩
  · have := tdRpcDiag1_eq sw x J a
    unfold tdRpcDiag2
    simp only [pos2, Fin.append_left]
    exact this
  · unfold tdRpcDiag2
    simp only [pos2, Fin.append_right, rpcDiagDerivs_eq sw, cov2]

/-- Decoding of a position into sample and component. -/
theorem decode (i : Fin n) (u : Fin v) :
    rpcIndex1 (flat i u).val v = i.val ∧ (flat i u).val % v = u.val := by
  refine ⟨?_, congrArg Fin.val (flat_modNat i u)⟩
  rw [rpcIndex1_eq]
  exact congrArg Fin.val (flat_divNat i u)

theorem rowAt_one_mul {k : ℕ} (A : Arr2 (1 * v) k) (u : Fin v) : rowAt 0 A u.val = A (flat (0 : Fin 1) u) := by
  rw [rowAt_lt _ _ _ (by rw [one_mul]; exact u.isLt)]
  congr 1
  exact Fin.ext (by simp [flat])

theorem tdRpcRow1_eq {κ : KernelObj d} {p : KPar} (sw : SampleWise κ p) (x : Batch n d) (J : Jac n d v)
    (a b : Obs1 n v) : tdRpcRow1 κ p x J (pos1 a) (pos1 b) = cov1 κ p x J x J a b := by
  rcases a with i | ⟨i, u⟩
  · have hi : (pos1 (.inl i : Obs1 n v)).val < n := i.isLt
    unfold tdRpcRow1
    rw [if_pos hi]
    have e : (pos1 (.inl i : Obs1 n v)).val = i.val := rfl
    simp only [e, rowAt_fin]
    rcases b with j | ⟨j, t⟩
    · simp only [pos1, Fin.append_left, cov1]; exact k_row sw x x i 0 j
    · simp only [pos1, Fin.append_right, cov1]; exact d1kj_row sw x x J i 0 _
  · have hi : ¬ (pos1 (.inr (i, u) : Obs1 n v)).val < n := by simp [pos1]
    unfold tdRpcRow1
    rw [if_neg hi]
    have e : (pos1 (.inr (i, u) : Obs1 n v)).val - n = (flat i u).val := by simp [pos1]
    simp only [e, (decode i u).1, (decode i u).2, rowAt_fin, rowAt_one_mul]
    rcases b with j | ⟨j, t⟩
    · simp only [pos1, Fin.append_left, cov1]; exact d0kj_row sw x x J i 0 u j
    · simp only [pos1, Fin.append_right, cov1]; exact d01kj_row sw x x J J i 0 u _

theorem tdRpcRow2_eq {κ : KernelObj d} {p : KPar} (sw : SampleWise κ p) (x : Batch n d) (J : Jac n d v)
    (J' : Jac n d v') (a b : Obs2 n v v') :
    tdRpcRow2 κ p x J J' (pos2 a) (pos2 b) = cov2 κ p x J J' x J J' a b := by
  rcases a with (i | ⟨i, u⟩) | ⟨i, u⟩
  · have hi : (pos2 (.inl (.inl i) : Obs2 n v v')).val < n := i.isLt
    unfold tdRpcRow2
    rw [if_pos hi]
    have e : (pos2 (.inl (.inl i) : Obs2 n v v')).val = i.val := rfl
    simp only [e, rowAt_fin]
    rcases b with (j | ⟨j, t⟩) | ⟨j, t⟩
    · simp only [pos2, pos1, Fin.append_left, cov2]; exact k_row sw x x i 0 j
    · simp only [pos2, pos1, Fin.append_left, Fin.append_right, cov2, cov1]; exact d1kj_row sw x x J i 0 _
    · simp only [pos2, Fin.append_right, cov2]; exact d1kj_row sw x x J' i 0 _
  · have hi : ¬ (pos2 (.inl (.inr (i, u)) : Obs2 n v v')).val < n := by simp [pos2, pos1]
    have hi2 : (pos2 (.inl (.inr (i, u)) : Obs2 n v v')).val < n + n * v := by simp [pos2, pos1]
    unfold tdRpcRow2
    rw [if_neg hi, if_pos hi2]
    have e : (pos2 (.inl (.inr (i, u)) : Obs2 n v v')).val - n = (flat i u).val := by simp [pos2, pos1]
    simp only [e, (decode i u).1, (decode i u).2, rowAt_fin, rowAt_one_mul]
    rcases b with (j | ⟨j, t⟩) | ⟨j, t⟩
    · simp only [pos2, pos1, Fin.append_left, cov2]; exact d0kj_row sw x x J i 0 u j
    · simp only [pos2, pos1, Fin.append_left, Fin.append_right, cov2, cov1]; exact d01kj_row sw x x J J i 0 u _
    · simp only [pos2, Fin.append_right, cov2]; exact d01kj_row sw x x J J' i 0 u _
  · have hi : ¬ (pos2 (.inr (i, u) : Obs2 n v v')).val < n := by simp [pos2, Nat.add_assoc]
    have hi2 : ¬ (pos2 (.inr (i, u) : Obs2 n v v')).val < n + n * v := by simp [pos2]
    unfold tdRpcRow2
    rw [if_neg hi, if_neg hi2]
    have e : (pos2 (.inr (i, u) : Obs2 n v v')).val - n - n * v = (flat i u).val := by simp [pos2, Nat.sub_sub]
    simp only [e, (decode i u).1, (decode i u).2, rowAt_fin, rowAt_one_mul]
    rcases b with (j | ⟨j, t⟩) | ⟨j, t⟩
    · simp only [pos2, pos1, Fin.append_left, cov2]; exact d0kj_row sw x x J' i 0 u j
    · simp only [pos2, pos1, Fin.append_left, Fin.append_right, cov2]; exact d01kj_row sw x x J' J i 0 u _
    · simp only [pos2, Fin.append_right, cov2]; exact d01kj_row sw x x J' J' i 0 u _

/-- What the preconditioner of a loop over the rows of `K` gives. -/
theorem precond_of_loop (ex : la.Exact) {N r : ℕ} {Key : Type} (K : Mat N N) (split : Key → Key × Key)
    (choice : Key → (Fin N → ℝ) → Fin N) (key : Key) (sigma : ℝ) (hs : sigma ≠ 0) :
    let st := rpcLoop r split choice (fun s a => K s a) (fun a => K a a) key r
    let F : Mat N r := Matrix.of st.fmat
    (∀ j, st.pivots j < N) ∧ IsPivotedCholesky K F st.pivots ∧ (K.PosSemidef → (K - F * F.transpose).PosSemidef) ∧
    ∀ z : Mat N o, (sigma ^ 2 • (1 : Mat N N) + F * F.transpose) * precondMatvec la sigma F z = z := by
  intro st F
  have inv : RpcInv K r st := rpcLoop_inv (r := r) (split := split) (choice := choice) (key := key) le_rfl
  have hc : IsPivotedCholesky K F st.pivots := by
    intro j
    obtain ⟨s, h1, h2⟩ := inv.col j j.isLt
    exact ⟨s, h1, h2⟩
  exact ⟨fun j => let ⟨s, h, _⟩ := hc j; h ▸ s.isLt, hc,
    fun hK => (C37_loop K hK split choice key r (r := r) le_rfl).1, precond_eq ex hs F⟩

/-- **C77**, one set of derivatives: on two or more samples the factor is the pivoted Cholesky factor of the
covariance matrix of all noise-free observations for the returned pivots, it stays below that matrix when this is
positive semidefinite, and the preconditioner is the exact inverse of `sigma_targets² I + F Fᵀ`. -/
theorem C77_preconditioner1 (ex : la.Exact) {Key : Type} (split : Key → Key × Key)
    (choice : Key → (Fin (n + n * v) → ℝ) → Fin (n + n * v)) (key : Key) (e : KExpr d)
    (θ : TDParams) (hs : θ.sigmaTargets ≠ 0) (x : Batch n d) (J : Jac n d v) (nPivots : ℕ) (hn : n ≠ 1) :
    ∃ F piv, rpcholeskyTD1 split choice key x J nPivots e.obj θ.kernelParams = .ok (F, piv) ∧
      (∀ j, piv j < n + n * v) ∧ IsPivotedCholesky (tdALhs1 θ e.obj x J x J) F piv ∧
      ((tdALhs1 θ e.obj x J x J).PosSemidef → (tdALhs1 θ e.obj x J x J - F * F.transpose).PosSemidef) ∧
      ∀ z : Mat (n + n * v) o, (θ.sigmaTargets ^ 2 • (1 : Mat (n + n * v) (n + n * v)) + F * F.transpose) *
        tdPrecond la θ F z = z := by
  have sw := C63_sampleWise e θ.kernelParams
  have h1 : tdRpcRow1 e.obj θ.kernelParams x J = fun s a => tdALhs1 θ e.obj x J x J s a := by
    funext s t
    obtain ⟨a, rfl⟩ := pos1_bij.2 s
    obtain ⟨b, rfl⟩ := pos1_bij.2 t
    rw [tdRpcRow1_eq sw, (C52_entries1 e.obj θ x J x J).2.1]
  have h2 : tdRpcDiag1 e.obj θ.kernelParams x J = fun a => tdALhs1 θ e.obj x J x J a a := by
    funext s
    obtain ⟨a, rfl⟩ := pos1_bij.2 s
    rw [tdRpcDiag1_eq sw, (C52_entries1 e.obj θ x J x J).2.1]
  unfold rpcholeskyTD1
  rw [if_neg hn, h1, h2]
  obtain ⟨a, b, c, f⟩ := precond_of_loop (o := o) (r := nPivots) ex (tdALhs1 θ e.obj x J x J) split choice key
    θ.sigmaTargets hs
  exact ⟨_, _, rfl, a, b, c, f⟩

/-- **C77**, two sets of derivatives. -/
theorem C77_preconditioner2 (ex : la.Exact) {Key : Type} (split : Key → Key × Key)
    (choice : Key → (Fin (n + n * v + n * v') → ℝ) → Fin (n + n * v + n * v')) (key : Key) (e : KExpr d) (θ : TDParams) (hs : θ.sigmaTargets ≠ 0) (x : Batch n d) (J : Jac n d v) (J' : Jac n d v')
    (nPivots : ℕ) (hn : n ≠ 1) :
    ∃ F piv, rpcholeskyTD2 split choice key x J J' nPivots e.obj θ.kernelParams = .ok (F, piv) ∧
      (∀ j, piv j < n + n * v + n * v') ∧ IsPivotedCholesky (tdALhs2 θ e.obj x J J' x J J') F piv ∧
      ((tdALhs2 θ e.obj x J J' x J J').PosSemidef → (tdALhs2 θ e.obj x J J' x J J' - F * F.transpose).PosSemidef) ∧
      ∀ z : Mat (n + n * v + n * v') o,
        (θ.sigmaTargets ^ 2 • (1 : Mat (n + n * v + n * v') (n + n * v + n * v')) + F * F.transpose) *
          tdPrecond la θ F z = z := by
  have sw := C63_sampleWise e θ.kernelParams
  have h1 : tdRpcRow2 e.obj θ.kernelParams x J J' = fun s a => tdALhs2 θ e.obj x J J' x J J' s a := by
    funext s t
    obtain ⟨a, rfl⟩ := pos2_bij.2 s
    obtain ⟨b, rfl⟩ := pos2_bij.2 t
    rw [tdRpcRow2_eq sw, (C52_entries2 e.obj θ x J J' x J J').2.1]
  have h2 : tdRpcDiag2 e.obj θ.kernelParams x J J' = fun a => tdALhs2 θ e.obj x J J' x J J' a a := by
    funext s
    obtain ⟨a, rfl⟩ := pos2_bij.2 s
    rw [tdRpcDiag2_eq sw, (C52_entries2 e.obj θ x J J' x J J').2.1]
  unfold rpcholeskyTD2
  rw [if_neg hn, h1, h2]
  obtain ⟨a, b, c, f⟩ := precond_of_loop (o := o) (r := nPivots) ex (tdALhs2 θ e.obj x J J' x J J') split choice key
    θ.sigmaTargets hs
  exact ⟨_, _, rfl, a, b, c, f⟩

/-- Non-vacuity of `C77_preconditioner2`. -/
example : ∃ F piv, rpcholeskyTD2 (fun k : ℕ => (k, k + 1)) (fun _ _ => 0) 7 exX exJ exJ' 3
    (KExpr.matern52 none : KExpr 2).obj exθ.kernelParams = .ok (F, piv) ∧
    ∀ z : Mat _ 1, (exθ.sigmaTargets ^ 2 • (1 : Mat _ _) + F * F.transpose) * tdPrecond LinAlg.ideal exθ F z = z :=
  let ⟨F, piv, h, _, _, _, h'⟩ := C77_preconditioner2 (o := 1) LinAlg.ideal_exact (fun k : ℕ => (k, k + 1))
    (fun _ _ => 0) 7 _ exθ (by norm_num [exθ]) exX exJ exJ' 3 (by decide)
  ⟨F, piv, h, h'⟩

/-! ## C53: log marginal likelihood -/

/-- The full claim of C53, with two sets of derivatives: the dense log marginal likelihood times the number of all
observations is the Gaussian log density of the residuals, and the iterative version returns the same number. -/
def C53_full : Prop :=
  ∀ (d n v v' : ℕ) (e : KExpr d), ∀ (θ : TDParams) (mf : MeanFun) (x : Batch n d) (y : Mat n 1)
    (J : Jac n d v) (J' : Jac n d v') (yd : Mat n v) (yd' : Mat n v') (la : LinAlg), la.Exact →
    (Matrix.of (cov2 e.obj θ.kernelParams x J J' x J J')).PosSemidef →
    ((n + n * v + n * v' : ℕ) : ℝ) * tdLmlDense2 la θ e.obj mf x y J J' yd yd' =
      Real.log (gaussDensity (tdALhsNoise2 θ e.obj x J J' x J J') fun s => tdRhs2 mf y yd yd' s 0)

theorem tdLmlTail_eq (ex : la.Exact) {N : ℕ} {C : Mat N N} (hC : C.PosDef) (ym : Mat N 1) (M : ℕ) (hM : M ≠ 0) :
    M * tdLmlTail la C ym M = Real.log (gaussDensity C fun s => ym s 0) +
      ((N : ℝ) - M) * (1 / 2) * Real.log (2 * Real.pi) := by
  have hM' : (M : ℝ) ≠ 0 := by exact_mod_cast hM
  rw [log_gaussDensity hC]
  unfold tdLmlTail
  simp only
  rw [quad_sum hC ex, ex.logdet hC]
  simp only [Finset.univ_unique, Finset.sum_singleton]
  field_simp
  simp
  ring

theorem iterTail_eq (ex : la.Exact) {N : ℕ} {C : Mat N N} (hC : C.PosDef) (ym : Mat N 1) (hN : N ≠ 0) :
    N * lmlIterTail (Real.log C.det) ym (la.solve C ym) = Real.log (gaussDensity C fun s => ym s 0) := by
  have hN' : (N : ℝ) ≠ 0 := by exact_mod_cast hN
  rw [log_gaussDensity hC]
  unfold lmlIterTail
  simp only
  rw [ex.solve_eq (posDef_isUnit hC)]
  rw [mul_div_cancel₀ _ hN']
  simp only [Finset.univ_unique, Finset.sum_singleton, Matrix.mul_apply, Matrix.transpose_apply, Finset.mul_sum]
  simp only [mul_assoc]
  rfl

/-- **C53** (partial: one set of derivatives): the dense log marginal likelihood times the number `n + n * v` of all
observations is the Gaussian log density of the residuals with the covariance of the noisy observations, and the
iterative version returns the same number under exact solves and an exact log-determinant. With a second set the
claim fails, see `C53_false` and `C53_two_sets_partial`. -/
theorem C53_one_set_partial (ex : la.Exact) (e : KExpr d) (θ : TDParams) (mf : MeanFun)
    (x : Batch n d) (hn : n ≠ 0) (y : Mat n 1) (J : Jac n d v) (yd : Mat n v)
    (hp : (tdALhsNoise1 θ e.obj x J x J).PosDef) :
    (n + n * v : ℕ) * tdLmlDense1 la θ e.obj mf x y J yd =
      Real.log (gaussDensity (tdALhsNoise1 θ e.obj x J x J) fun s => tdRhs1 mf y yd s 0) ∧
    ∀ (cg : CG), CGExact cg → ∀ (Key : Type) (split : Key → Key × Key)
      (choice : Key → (Fin (n + n * v) → ℝ) → Fin (n + n * v))
      (logdetFun : (Mat (n + n * v) 1 → Mat (n + n * v) 1) → ℝ),
      (∀ A : Mat (n + n * v) (n + n * v), A.PosDef → logdetFun (fun z : Mat (n + n * v) 1 => A * z) = Real.log A.det) →
      ∀ (nPivots : ℕ) (key : Key), n ≠ 1 →
        tdLmlIter1 la cg split choice logdetFun θ e.obj mf x y J yd nPivots key =
          .ok (tdLmlDense1 la θ e.obj mf x y J yd) := by
  have hN : n + n * v ≠ 0 := by omega
  have hd : (n + n * v : ℕ) * tdLmlDense1 la θ e.obj mf x y J yd =
      Real.log (gaussDensity (tdALhsNoise1 θ e.obj x J x J) fun s => tdRhs1 mf y yd s 0) := by
    have := tdLmlTail_eq ex hp (tdRhs1 mf y yd) _ hN
    rw [sub_self, zero_mul, zero_mul, add_zero] at this
    exact this
  refine ⟨hd, fun cg hcg Key split choice logdetFun hl nPivots key h1 => ?_⟩
  have hmv : (tdAxLhs1 θ e.obj true x J x J : Mat (n + n * v) 1 → Mat (n + n * v) 1) =
      fun z : Mat (n + n * v) 1 => tdALhsNoise1 θ e.obj x J x J * z :=
    funext fun z => (C52_matvec1 e θ x J x J z).2.2.2
  unfold tdLmlIter1
  rw [C76_iterative1 ex cg hcg split choice e θ mf x y J yd hp nPivots key h1]
  simp only
  rw [hmv, hl _ hp]
  refine congrArg Except.ok ?_
  have hi := iterTail_eq ex hp (tdRhs1 mf y yd) hN
  exact mul_left_cancel₀ (by exact_mod_cast hN) (hi.trans hd.symm)

/-- **C53** (partial: two sets of derivatives): what the dense code returns, and that the iterative code returns the
documented value. The dense code divides by `n + n * v` and counts the constant `n * v'` times too few. -/
theorem C53_two_sets_partial (ex : la.Exact) (e : KExpr d) (θ : TDParams) (mf : MeanFun)
    (x : Batch n d) (hn : n ≠ 0) (y : Mat n 1) (J : Jac n d v) (J' : Jac n d v') (yd : Mat n v) (yd' : Mat n v')
    (hp : (tdALhsNoise2 θ e.obj x J J' x J J').PosDef) :
    let logp := Real.log (gaussDensity (tdALhsNoise2 θ e.obj x J J' x J J') fun s => tdRhs2 mf y yd yd' s 0)
    (n + n * v : ℕ) * tdLmlDense2 la θ e.obj mf x y J J' yd yd' =
      logp + (n * v' : ℕ) * (1 / 2) * Real.log (2 * Real.pi) ∧
    ∀ (cg : CG), CGExact cg → ∀ (Key : Type) (split : Key → Key × Key)
      (choice : Key → (Fin (n + n * v + n * v') → ℝ) → Fin (n + n * v + n * v'))
      (logdetFun : (Mat (n + n * v + n * v') 1 → Mat (n + n * v + n * v') 1) → ℝ),
      (∀ A : Mat (n + n * v + n * v') (n + n * v + n * v'), A.PosDef →
        logdetFun (fun z : Mat (n + n * v + n * v') 1 => A * z) = Real.log A.det) →
      ∀ (nPivots : ℕ) (key : Key), n ≠ 1 →
        ∃ lml, tdLmlIter2 la cg split choice logdetFun θ e.obj mf x y J J' yd yd' nPivots key = .ok lml ∧
          (n + n * v + n * v' : ℕ) * lml = logp := by
  intro logp
  have hM : n + n * v ≠ 0 := by omega
  have hN : n + n * v + n * v' ≠ 0 := by omega
  refine ⟨?_, fun cg hcg Key split choice logdetFun hl nPivots key h1 => ?_⟩
  · have := tdLmlTail_eq ex hp (tdRhs2 mf y yd yd') _ hM
    have e1 : ((n + n * v + n * v' : ℕ) : ℝ) - (n + n * v : ℕ) = (n * v' : ℕ) := by push_cast; ring
    rw [e1] at this
    exact this
  · have hmv : (tdAxLhs2 θ e.obj true x J J' x J J' : Mat (n + n * v + n * v') 1 → Mat (n + n * v + n * v') 1) =
        fun z : Mat (n + n * v + n * v') 1 => tdALhsNoise2 θ e.obj x J J' x J J' * z :=
      funext fun z => (C52_matvec2 e θ x J J' x J J' z).2.2.2
    unfold tdLmlIter2
    rw [C76_iterative2 ex cg hcg split choice e θ mf x y J J' yd yd' hp nPivots key h1]
    simp only
    rw [hmv, hl _ hp]
    exact ⟨_, rfl, iterTail_eq ex hp (tdRhs2 mf y yd yd') hN⟩

/-- Non-vacuity of `C53_one_set_partial` and `C53_two_sets_partial`. -/
example (mf : MeanFun) (y : Mat 2 1) (yd : Mat 2 3) (yd' : Mat 2 1) :
    (2 + 2 * 3 : ℕ) * tdLmlDense1 LinAlg.ideal exθ (KExpr.matern52 none : KExpr 2).obj mf exX y exJ yd =
      Real.log (gaussDensity (tdALhsNoise1 exθ (KExpr.matern52 none : KExpr 2).obj exX exJ exX exJ)
        fun s => tdRhs1 mf y yd s 0) ∧
    (2 + 2 * 3 : ℕ) * tdLmlDense2 LinAlg.ideal exθ (KExpr.matern52 none : KExpr 2).obj mf exX y exJ exJ' yd yd' =
      Real.log (gaussDensity (tdALhsNoise2 exθ (KExpr.matern52 none : KExpr 2).obj exX exJ exJ' exX exJ exJ')
        fun s => tdRhs2 mf y yd yd' s 0) + (2 * 1 : ℕ) * (1 / 2) * Real.log (2 * Real.pi) :=
  ⟨(C53_one_set_partial LinAlg.ideal_exact _ exθ mf exX (by decide) y exJ yd ex_pd.1).1,
    (C53_two_sets_partial LinAlg.ideal_exact _ exθ mf exX (by decide) y exJ exJ' yd yd' ex_pd.2).1⟩

/-- Linear kernel, all samples at the origin, all jacobians zero: every covariance is zero. -/
theorem cov2_zero (a b : Obs2 n v v') :
    cov2 (KExpr.linear none : KExpr 1).obj (fun _ => 1) (fun _ _ => 0) (fun _ _ _ => 0) (fun _ _ _ => 0)
      (fun _ _ => 0) (fun _ _ _ => 0) (fun _ _ _ => 0) a b = 0 := by
  have hc := closed_linear (d := 1) none trivial (fun _ => 1)
  rcases a with (i | ⟨i, u⟩) | ⟨i, u⟩ <;> rcases b with (j | ⟨j, t⟩) | ⟨j, t⟩ <;>
    simp [cov2, cov1, KExpr.obj, hc.k, hc.d0kj, hc.d1kj, hc.d01kj, Core.linear, Dims.take]

theorem C53_false : ¬ C53_full := by
  intro h
  have ex := LinAlg.ideal_exact
  have hz : (Matrix.of (cov2 (n := 1) (m := 1) (v := 1) (v' := 1) (w := 1) (w' := 1) (KExpr.linear none : KExpr 1).obj
      (fun _ => 1) (fun _ _ => 0) (fun _ _ _ => 0) (fun _ _ _ => 0) (fun _ _ => 0) (fun _ _ _ => 0)
      (fun _ _ _ => 0))).PosSemidef := by
    have : Matrix.of (cov2 (n := 1) (m := 1) (v := 1) (v' := 1) (w := 1) (w' := 1) (KExpr.linear none : KExpr 1).obj
      (fun _ => 1) (fun _ _ => 0) (fun _ _ _ => 0) (fun _ _ _ => 0) (fun _ _ => 0) (fun _ _ _ => 0)
      (fun _ _ _ => 0)) = 0 := by
      ext a b; exact cov2_zero a b
    rw [this]
    exact Matrix.PosSemidef.zero
  let θ : TDParams := ⟨fun _ => 1, 0, 0, 0⟩
  have h1 := h 1 1 1 1 (.linear none) θ zeroMean (fun _ _ => 0) 0 (fun _ _ _ => 0) (fun _ _ _ => 0) 0 0
    LinAlg.ideal ex hz
  have h2 := (C53_two_sets_partial ex (.linear none) θ zeroMean (fun _ _ => 0) one_ne_zero 0
    (fun _ _ _ => 0) (fun _ _ _ => 0) 0 0 (C52_posDef2 _ θ _ _ _ hz)).1
  have hp := C52_posDef2 (KExpr.linear none : KExpr 1).obj θ _ _ _ hz
  have hA : tdALhsNoise2 (v := 1) (v' := 1) (m := 1) θ (KExpr.linear none : KExpr 1).obj (fun _ _ => 0)
      (fun _ _ _ => 0) (fun _ _ _ => 0) (fun _ _ => 0) (fun _ _ _ => 0) (fun _ _ _ => 0) =
      ((1 : ℝ) / 10 ^ 10) • (1 : Mat (1 + 1 * 1 + 1 * 1) (1 + 1 * 1 + 1 * 1)) := by
    ext s t
    obtain ⟨a, rfl⟩ := pos2_bij.2 s
    obtain ⟨b, rfl⟩ := pos2_bij.2 t
    rw [(C52_entries2 (m := 1) (n := 1) (w := 1) (w' := 1) (KExpr.linear none : KExpr 1).obj θ (fun _ _ => 0) (fun _ _ _ => 0)
      (fun _ _ _ => 0) (fun _ _ => 0) (fun _ _ _ => 0) (fun _ _ _ => 0)).2.2]
    have hc := cov2_zero a b
    have hn : noise2 θ a = 1 / 10 ^ 10 := by
      rcases a with (i | i) | i <;> simp [noise2, noise1, θ]
    unfold dataCov2
    rw [hn]
    change cov2 _ (fun _ => 1) _ _ _ _ _ _ a b + _ = _
    rw [hc, zero_add, Matrix.smul_apply, Matrix.one_apply]
    simp [pos2_bij.1.eq_iff]
  have hl := log_gaussDensity hp (fun s => tdRhs2 (n := 1) (v := 1) (v' := 1) zeroMean 0 0 0 s 0)
  have hy : ∀ s, tdRhs2 (n := 1) (v := 1) (v' := 1) zeroMean 0 0 0 s 0 = 0 := by
    intro s
    obtain ⟨a, rfl⟩ := pos2_bij.2 s
    rw [rhs2_pos]
    rcases a with (i | i) | i <;> simp [residual2, residual1, zeroMean]
  have hdet : Real.log (tdALhsNoise2 (v := 1) (v' := 1) (m := 1) θ (KExpr.linear none : KExpr 1).obj (fun _ _ => 0)
      (fun _ _ _ => 0) (fun _ _ _ => 0) (fun _ _ => 0) (fun _ _ _ => 0) (fun _ _ _ => 0)).det < 0 := by
    rw [hA, Matrix.det_smul, Matrix.det_one]
    simp only [Fintype.card_fin]
    exact Real.log_neg (by norm_num) (by norm_num)
  simp only [hy, zero_mul, Finset.sum_const_zero, mul_zero] at hl
  simp only [Nat.mul_one, Nat.cast_ofNat, Nat.reduceAdd, Nat.cast_one] at h1 h2 hl
  rw [show (fun s => tdRhs2 (n := 1) (v := 1) (v' := 1) zeroMean 0 0 0 s 0) = fun _ => 0 from funext hy] at h1 h2
  rw [hl] at h1 h2
  linarith

end GPX.Props
