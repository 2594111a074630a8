import Verif.Lemmas.Transfer
import Verif.Model.GPRTDPredict
import Verif.Model.GPRTDLik
import Verif.Model.RPCDerivs

/-! # Carrying the matrix-free products, the pivoted Cholesky factor and the joint model along a change of inputs -/

namespace GPX
open GPX.Spec GPX.Props

variable {d d' : ℕ}

theorem laxScan_comp {C A A' B : Type*} (f : C → A' → C × B) (g : A → A') (c : C) (l : List A) :
    laxScan f c (l.map g) = laxScan (fun c a => f c (g a)) c l := by
  induction l generalizing c with
  | nil => rfl
  | cons a l ih => simp only [List.map_cons, laxScan, ih]

theorem laxScan_ofFn {C A A' B : Type*} (f : C → A' → C × B) (g : A → A') (c : C) {n : ℕ} (x : Fin n → A) :
    laxScan f c (List.ofFn fun i => g (x i)) = laxScan (fun c a => f c (g a)) c (List.ofFn x) := by
  exact (congrArg (laxScan f c) (List.map_ofFn (f := x) (g := g)).symm).trans (laxScan_comp f g c _)

theorem laxScan_carry {C A A' B : Type*} {f : C → A → C × B} {f' : C → A' → C × B} (g : A → A')
    (h : ∀ c a, f' c (g a) = f c a) (c : C) {n : ℕ} (x : Fin n → A) :
    laxScan f' c (List.ofFn fun i => g (x i)) = laxScan f c (List.ofFn x) := by
  rw [laxScan_ofFn]
  exact congrArg (fun t => laxScan t c (List.ofFn x)) (funext fun c => funext fun a => h c a)

theorem rowfun_carry {X X' : Type} {n r N o : ℕ} (f : X → Arr2 r N) (f' : X' → Arr2 r N) (g : X → X')
    (h : ∀ a, f' (g a) = f a) (xs : Fin n → X) (diag : Option ℝ) (z : Mat N o) :
    rowfunToMatvec f' (fun i => g (xs i)) diag z = rowfunToMatvec f xs diag z := by
  unfold rowfunToMatvec
  cases diag with
  | none => simp only [laxScan_ofFn, h]
  | some t => simp only [laxScan_ofFn, h]

/-- One sample, and one jacobian, mapped. -/
def mapPoint {v : ℕ} (T L : (Fin d → ℝ) → (Fin d' → ℝ)) (a : Sample d × (Fin d → Fin v → ℝ)) :
    Sample d' × (Fin d' → Fin v → ℝ) := (T a.1, fun f u => L (fun g => a.2 g u) f)

/-- One sample and two jacobians, mapped. -/
def mapPoint2 {v w : ℕ} (T L : (Fin d → ℝ) → (Fin d' → ℝ)) (a : Sample d × (Fin d → Fin v → ℝ) × (Fin d → Fin w → ℝ)) :
    Sample d' × (Fin d' → Fin v → ℝ) × (Fin d' → Fin w → ℝ) :=
  (T a.1, (fun f u => L (fun g => a.2.1 g u) f), fun f u => L (fun g => a.2.2 g u) f)

theorem rowAt_mapBatch {n : ℕ} (T : (Fin d → ℝ) → (Fin d' → ℝ)) (x : Batch n d) (h : 0 < n) (i : ℕ) :
    rowAt 0 (mapBatch T x) i = T (rowAt 0 x i) := by
  simp only [rowAt, dif_pos h, mapBatch]

theorem rowAt_mapJac {n v : ℕ} (L : (Fin d → ℝ) → (Fin d' → ℝ)) (J : Jac n d v) (h : 0 < n) (i : ℕ) :
    rowAt 0 (mapJac L J) i = fun f u => L (fun g => rowAt 0 J i g u) f := by
  simp only [rowAt, dif_pos h]
  rfl

theorem takeRows_mapBatch {n k : ℕ} (T : (Fin d → ℝ) → (Fin d' → ℝ)) (x : Batch n d) (h : 0 < n) (p : Fin k → ℕ) :
    (takeRows (mapBatch T x) p : Batch k d') = mapBatch T (takeRows x p : Batch k d) :=
  funext fun i => rowAt_mapBatch T x h (p i)

theorem takeRows_mapJac {n k v : ℕ} (L : (Fin d → ℝ) → (Fin d' → ℝ)) (J : Jac n d v) (h : 0 < n) (p : Fin k → ℕ) :
    (takeRows (mapJac L J) p : Jac k d' v) = mapJac L (takeRows J p : Jac k d v) :=
  funext fun i => rowAt_mapJac L J h (p i)

/-- The array-level form of `Carries`. -/
structure CarriesArr (κ : KernelObj d) (p : KPar) (κ' : KernelObj d') (p' : KPar)
    (T L : (Fin d → ℝ) → (Fin d' → ℝ)) : Prop where
  k : ∀ {n m : ℕ} (x1 : Batch n d) (x2 : Batch m d), κ'.k p' (mapBatch T x1) (mapBatch T x2) = κ.k p x1 x2
  d0kj : ∀ {n m v : ℕ} (x1 : Batch n d) (x2 : Batch m d) (J : Jac n d v),
    κ'.d0kj p' (mapBatch T x1) (mapBatch T x2) (mapJac L J) = κ.d0kj p x1 x2 J
  d1kj : ∀ {n m v : ℕ} (x1 : Batch n d) (x2 : Batch m d) (J : Jac m d v),
    κ'.d1kj p' (mapBatch T x1) (mapBatch T x2) (mapJac L J) = κ.d1kj p x1 x2 J
  d01kj : ∀ {n m v w : ℕ} (x1 : Batch n d) (x2 : Batch m d) (J1 : Jac n d v) (J2 : Jac m d w),
    κ'.d01kj p' (mapBatch T x1) (mapBatch T x2) (mapJac L J1) (mapJac L J2) = κ.d01kj p x1 x2 J1 J2
  d0kjc : ∀ {n m : ℕ} (x1 : Batch n d) (x2 : Batch m d) (jc : Batch n d),
    κ'.d0kjc p' (mapBatch T x1) (mapBatch T x2) (mapBatch L jc) = κ.d0kjc p x1 x2 jc
  d01kjc : ∀ {n m v : ℕ} (x1 : Batch n d) (x2 : Batch m d) (jc : Batch n d) (J : Jac m d v),
    κ'.d01kjc p' (mapBatch T x1) (mapBatch T x2) (mapBatch L jc) (mapJac L J) = κ.d01kjc p x1 x2 jc J

theorem Carries.arr {κ : KernelObj d} {p : KPar} {κ' : KernelObj d'} {p' : KPar}
    {T L : (Fin d → ℝ) → (Fin d' → ℝ)} (h : Carries κ p κ' p' T L) : CarriesArr κ p κ' p' T L where
  k x1 x2 := by funext i j; exact h.k x1 x2 i j
  d0kj x1 x2 J := by funext r j; obtain ⟨i, u, rfl⟩ := flat_surj r; exact h.d0kj x1 x2 J i u j
  d1kj x1 x2 J := by funext i r; obtain ⟨j, u, rfl⟩ := flat_surj r; exact h.d1kj x1 x2 J i j u
  d01kj x1 x2 J1 J2 := by
    funext r s
    obtain ⟨i, u, rfl⟩ := flat_surj r
    obtain ⟨j, w, rfl⟩ := flat_surj s
    exact h.d01kj x1 x2 J1 J2 i u j w
  d0kjc x1 x2 jc := by funext i j; exact h.d0kjc x1 x2 jc i j
  d01kjc x1 x2 jc J := by funext i r; obtain ⟨j, u, rfl⟩ := flat_surj r; exact h.d01kjc x1 x2 jc J i j u

section
variable {κ : KernelObj d} {p : KPar} {κ' : KernelObj d'} {p' : KPar} {T L : (Fin d → ℝ) → (Fin d' → ℝ)}

/-! ## Rows: one sample against a batch -/

theorem CarriesArr.krow (h : CarriesArr κ p κ' p' T L) {n : ℕ} (a : Sample d) (x : Batch n d) :
    κ'.k p' (recoverFirstAxis (T a)) (mapBatch T x) = κ.k p (recoverFirstAxis a) x :=
  h.k (recoverFirstAxis a) x

theorem CarriesArr.kcol (h : CarriesArr κ p κ' p' T L) {n : ℕ} (a : Sample d) (x : Batch n d) :
    κ'.k p' (mapBatch T x) (recoverFirstAxis (T a)) = κ.k p x (recoverFirstAxis a) :=
  h.k x (recoverFirstAxis a)

theorem CarriesArr.kone (h : CarriesArr κ p κ' p' T L) (a b : Sample d) :
    κ'.k p' (recoverFirstAxis (T a)) (recoverFirstAxis (T b)) = κ.k p (recoverFirstAxis a) (recoverFirstAxis b) :=
  h.k (recoverFirstAxis a) (recoverFirstAxis b)

theorem CarriesArr.d1row (h : CarriesArr κ p κ' p' T L) {n v : ℕ} (a : Sample d) (x : Batch n d) (J : Jac n d v) :
    κ'.d1kj p' (recoverFirstAxis (T a)) (mapBatch T x) (mapJac L J) = κ.d1kj p (recoverFirstAxis a) x J :=
  h.d1kj (recoverFirstAxis a) x J

theorem CarriesArr.d0row (h : CarriesArr κ p κ' p' T L) {n v : ℕ} (a : Sample d) (x : Batch n d)
    (j : Fin d → Fin v → ℝ) :
    κ'.d0kj p' (recoverFirstAxis (T a)) (mapBatch T x) (recoverFirstAxis fun f u => L (fun g => j g u) f) =
      κ.d0kj p (recoverFirstAxis a) x (recoverFirstAxis j) :=
  h.d0kj (recoverFirstAxis a) x (recoverFirstAxis j)

theorem CarriesArr.d01row (h : CarriesArr κ p κ' p' T L) {n v w : ℕ} (a : Sample d) (x : Batch n d)
    (j : Fin d → Fin v → ℝ) (J : Jac n d w) :
    κ'.d01kj p' (recoverFirstAxis (T a)) (mapBatch T x) (recoverFirstAxis fun f u => L (fun g => j g u) f) (mapJac L J) =
      κ.d01kj p (recoverFirstAxis a) x (recoverFirstAxis j) J :=
  h.d01kj (recoverFirstAxis a) x (recoverFirstAxis j) J

theorem CarriesArr.d01col (h : CarriesArr κ p κ' p' T L) {n v w : ℕ} (a : Sample d) (x : Batch n d)
    (j : Fin d → Fin v → ℝ) (J : Jac n d w) :
    κ'.d01kj p' (mapBatch T x) (recoverFirstAxis (T a)) (mapJac L J) (recoverFirstAxis fun f u => L (fun g => j g u) f) =
      κ.d01kj p x (recoverFirstAxis a) J (recoverFirstAxis j) :=
  h.d01kj x (recoverFirstAxis a) J (recoverFirstAxis j)

theorem CarriesArr.d01one (h : CarriesArr κ p κ' p' T L) {v w : ℕ} (a b : Sample d)
    (j : Fin d → Fin v → ℝ) (i : Fin d → Fin w → ℝ) :
    κ'.d01kj p' (recoverFirstAxis (T a)) (recoverFirstAxis (T b)) (recoverFirstAxis fun f u => L (fun g => j g u) f)
        (recoverFirstAxis fun f u => L (fun g => i g u) f) =
      κ.d01kj p (recoverFirstAxis a) (recoverFirstAxis b) (recoverFirstAxis j) (recoverFirstAxis i) :=
  h.d01kj (recoverFirstAxis a) (recoverFirstAxis b) (recoverFirstAxis j) (recoverFirstAxis i)

/-! ## Randomly pivoted Cholesky -/

theorem CarriesArr.rpcDiag (h : CarriesArr κ p κ' p' T L) {n : ℕ} (x : Batch n d) :
    GPX.rpcDiag κ' p' (mapBatch T x) = GPX.rpcDiag κ p x := by
  unfold GPX.rpcDiag
  have e : List.ofFn (mapBatch T x) = List.ofFn fun i => T (x i) := rfl
  simp only [e, laxScan_ofFn, h.kone]

theorem CarriesArr.rpcRow (h : CarriesArr κ p κ' p' T L) {n : ℕ} (x : Batch n d) :
    GPX.rpcRow κ' p' (mapBatch T x) = GPX.rpcRow κ p x := by
  funext s
  unfold GPX.rpcRow
  rw [rowAt_mapBatch T x (by have := s.2; omega), h.krow]

theorem CarriesArr.rpcDiagDerivs (h : CarriesArr κ p κ' p' T L) {n v : ℕ} (x : Batch n d) (J : Jac n d v) :
    GPX.rpcDiagDerivs κ' p' (mapBatch T x) (mapJac L J) = GPX.rpcDiagDerivs κ p x J := by
  unfold GPX.rpcDiagDerivs
  refine congrArg (fun l : ℕ × List (Arr2 (1 * v) (1 * v)) => fun a : Fin (n * v) => stack n 0 l.2 a.divNat
    (Fin.cast (one_mul v).symm a.modNat) (Fin.cast (one_mul v).symm a.modNat))
    (laxScan_carry (mapPoint T L) (fun c a => ?_) 0 fun i => (x i, J i))
  simp only [mapPoint, h.d01one]

theorem pos_of_fin_mul {n v : ℕ} (s : Fin (n * v)) : 0 < n := by
  rcases Nat.eq_zero_or_pos n with h | h
  · subst h; exact absurd s.2 (by simp)
  · exact h

theorem CarriesArr.rpcRowDerivs (h : CarriesArr κ p κ' p' T L) {n v : ℕ} (x : Batch n d) (J : Jac n d v) :
    GPX.rpcRowDerivs κ' p' (mapBatch T x) (mapJac L J) = GPX.rpcRowDerivs κ p x J := by
  funext s
  unfold GPX.rpcRowDerivs
  simp only [rowAt_mapBatch T x (pos_of_fin_mul s), rowAt_mapJac L J (pos_of_fin_mul s), h.d01row]

theorem CarriesArr.rpcholesky (h : CarriesArr κ p κ' p' T L) {Key : Type} (split : Key → Key × Key) {n : ℕ}
    (choice : Key → (Fin n → ℝ) → Fin n) (key : Key) (x : Batch n d) (k : ℕ) :
    GPX.rpcholesky split choice key (mapBatch T x) k κ' p' = GPX.rpcholesky split choice key x k κ p := by
  unfold GPX.rpcholesky
  rw [h.rpcDiag, h.rpcRow]

theorem CarriesArr.rpcholeskyDerivs (h : CarriesArr κ p κ' p' T L) {Key : Type} (split : Key → Key × Key) {n v : ℕ}
    (choice : Key → (Fin (n * v) → ℝ) → Fin (n * v)) (key : Key) (x : Batch n d) (J : Jac n d v) (k : ℕ) :
    GPX.rpcholeskyDerivs split choice key (mapBatch T x) (mapJac L J) k κ' p' =
      GPX.rpcholeskyDerivs split choice key x J k κ p := by
  unfold GPX.rpcholeskyDerivs
  rw [h.rpcDiagDerivs, h.rpcRowDerivs]

theorem pos_of_fin_td {n v : ℕ} (s : Fin (n + n * v)) : 0 < n := by
  rcases Nat.eq_zero_or_pos n with h | h
  · subst h; exact absurd s.2 (by simp)
  · exact h

theorem pos_of_fin_td2 {n v w : ℕ} (s : Fin (n + n * v + n * w)) : 0 < n := by
  rcases Nat.eq_zero_or_pos n with h | h
  · subst h; exact absurd s.2 (by simp)
  · exact h

theorem CarriesArr.rpcholeskyTD1 (h : CarriesArr κ p κ' p' T L) {Key : Type} (split : Key → Key × Key) {n v : ℕ}
    (choice : Key → (Fin (n + n * v) → ℝ) → Fin (n + n * v)) (key : Key) (x : Batch n d) (J : Jac n d v) (k : ℕ) :
    GPX.rpcholeskyTD1 split choice key (mapBatch T x) (mapJac L J) k κ' p' =
      GPX.rpcholeskyTD1 split choice key x J k κ p := by
  have hd : tdRpcDiag1 κ' p' (mapBatch T x) (mapJac L J) = tdRpcDiag1 κ p x J := by
    unfold tdRpcDiag1; rw [h.rpcDiag, h.rpcDiagDerivs]
  have hr : tdRpcRow1 κ' p' (mapBatch T x) (mapJac L J) = tdRpcRow1 κ p x J := by
    funext s
    have hn := pos_of_fin_td s
    unfold tdRpcRow1
    simp only [rowAt_mapBatch T x hn, rowAt_mapJac L J hn, h.d01row, h.d0row, h.krow, h.d1row]
  unfold GPX.rpcholeskyTD1
  rw [hd, hr]

theorem CarriesArr.rpcholeskyTD2 (h : CarriesArr κ p κ' p' T L) {Key : Type} (split : Key → Key × Key) {n v w : ℕ}
    (choice : Key → (Fin (n + n * v + n * w) → ℝ) → Fin (n + n * v + n * w)) (key : Key) (x : Batch n d) (J : Jac n d v)
    (J' : Jac n d w) (k : ℕ) :
    GPX.rpcholeskyTD2 split choice key (mapBatch T x) (mapJac L J) (mapJac L J') k κ' p' =
      GPX.rpcholeskyTD2 split choice key x J J' k κ p := by
  have hd : tdRpcDiag2 κ' p' (mapBatch T x) (mapJac L J) (mapJac L J') = tdRpcDiag2 κ p x J J' := by
    unfold tdRpcDiag2; rw [h.rpcDiag, h.rpcDiagDerivs, h.rpcDiagDerivs]
  have hr : tdRpcRow2 κ' p' (mapBatch T x) (mapJac L J) (mapJac L J') = tdRpcRow2 κ p x J J' := by
    funext s
    have hn := pos_of_fin_td2 s
    unfold tdRpcRow2
    simp only [rowAt_mapBatch T x hn, rowAt_mapJac L J hn, rowAt_mapJac L J' hn, h.d01row, h.d0row, h.krow, h.d1row]
  unfold GPX.rpcholeskyTD2
  rw [hd, hr]

end

/-! ## Matrix-free products -/

section
variable {κ : KernelObj d} {θ : GPParams} {κ' : KernelObj d'} {θ' : GPParams} {T L : (Fin d → ℝ) → (Fin d' → ℝ)}
variable {m n o v w : ℕ}

theorem ax_carry (h : CarriesArr κ θ.kernelParams κ' θ'.kernelParams T L) (hs : θ'.sigma = θ.sigma) (b : Bool)
    (x1 : Batch m d) (x2 : Batch n d) (z : Mat n o) :
    axLhsFun θ' κ' b (mapBatch T x1) (mapBatch T x2) z = axLhsFun θ κ b x1 x2 z := by
  unfold axLhsFun
  rw [hs]
  exact congrArg dropOne (rowfun_carry _ _ T (fun a => h.krow a x2) x1 _ z)

theorem axDerivs_carry (h : CarriesArr κ θ.kernelParams κ' θ'.kernelParams T L) (hs : θ'.sigma = θ.sigma) (b : Bool)
    (x1 : Batch m d) (J1 : Jac m d v) (x2 : Batch n d) (J2 : Jac n d w) (z : Mat (n * w) o) :
    axDerivsLhsFun θ' κ' b (mapBatch T x1) (mapJac L J1) (mapBatch T x2) (mapJac L J2) z =
      axDerivsLhsFun θ κ b x1 J1 x2 J2 z := by
  unfold axDerivsLhsFun
  rw [hs]
  exact congrArg (fun A : Mat (m * (1 * v)) o => A.submatrix (Fin.cast (congrArg (m * ·) (one_mul v).symm)) id)
    (rowfun_carry _ _ (mapPoint T L) (fun a => h.d01row a.1 x2 a.2 J2) (fun i => (x1 i, J1 i)) _ z)

theorem kxDerivs1_carry (h : CarriesArr κ θ.kernelParams κ' θ'.kernelParams T L)
    (x1 : Batch m d) (x2 : Batch n d) (J2 : Jac n d w) (z : Mat (n * w) o) :
    kxDerivs1Fun θ' κ' (mapBatch T x1) (mapBatch T x2) (mapJac L J2) z = kxDerivs1Fun θ κ x1 x2 J2 z := by
  unfold kxDerivs1Fun
  exact congrArg dropOne (rowfun_carry _ _ T (fun a => h.d1row a x2 J2) x1 _ z)

theorem sgprAxLhs_carry (h : CarriesArr κ θ.kernelParams κ' θ'.kernelParams T L) (hs : θ'.sigma = θ.sigma)
    (x1 : Batch m d) (x2 : Batch n d) (z : Mat m o) :
    sgprAxLhs θ' κ' (mapBatch T x1) (mapBatch T x2) z = sgprAxLhs θ κ x1 x2 z := by
  unfold sgprAxLhs
  rw [hs]
  refine congrArg dropOne (rowfun_carry _ _ T (fun a => ?_) x1 _ z)
  have e : ∀ i, mapBatch T x1 i = T (x1 i) := fun i => rfl
  simp only [e, h.krow, h.kcol]

theorem sgprAxRhs_carry (h : CarriesArr κ θ.kernelParams κ' θ'.kernelParams T L)
    (x1 : Batch m d) (x2 : Batch n d) (z : Mat n o) :
    sgprAxRhs θ' κ' (mapBatch T x1) (mapBatch T x2) z = sgprAxRhs θ κ x1 x2 z := by
  unfold sgprAxRhs
  exact congrArg dropOne (rowfun_carry _ _ T (fun a => h.krow a x2) x1 _ z)

theorem sgprAxDerivsLhs_carry (h : CarriesArr κ θ.kernelParams κ' θ'.kernelParams T L) (hs : θ'.sigma = θ.sigma)
    (x1 : Batch m d) (J1 : Jac m d v) (x2 : Batch n d) (J2 : Jac n d w) (z : Mat (m * v) o) :
    sgprAxDerivsLhs θ' κ' (mapBatch T x1) (mapJac L J1) (mapBatch T x2) (mapJac L J2) z =
      sgprAxDerivsLhs θ κ x1 J1 x2 J2 z := by
  unfold sgprAxDerivsLhs
  rw [hs]
  refine congrArg dropMid (rowfun_carry _ _ (mapPoint T L) (fun a => ?_) (fun i => (x1 i, J1 i)) _ z)
  have e : ∀ i, mapBatch T x1 i = T (x1 i) := fun i => rfl
  have e' : ∀ i, mapJac L J1 i = fun f u => L (fun g => J1 i g u) f := fun i => rfl
  simp only [mapPoint, e, e', h.d01row, h.d01col]

theorem sgprAxDerivsRhs_carry (h : CarriesArr κ θ.kernelParams κ' θ'.kernelParams T L)
    (x1 : Batch m d) (J1 : Jac m d v) (x2 : Batch n d) (J2 : Jac n d w) (z : Mat (n * w) o) :
    sgprAxDerivsRhs θ' κ' (mapBatch T x1) (mapJac L J1) (mapBatch T x2) (mapJac L J2) z =
      sgprAxDerivsRhs θ κ x1 J1 x2 J2 z := by
  unfold sgprAxDerivsRhs
  exact congrArg dropMid
    (rowfun_carry _ _ (mapPoint T L) (fun a => h.d01row a.1 x2 a.2 J2) (fun i => (x1 i, J1 i)) _ z)

theorem sgprHx_carry (h : CarriesArr κ θ.kernelParams κ' θ'.kernelParams T L) (hs : θ'.sigma = θ.sigma) (la : LinAlg)
    (x1 : Batch m d) (x2 : Batch n d) (z : Mat n o) :
    sgprHx la θ' κ' (mapBatch T x1) (mapBatch T x2) z = sgprHx la θ κ x1 x2 z := by
  unfold sgprHx
  rw [hs, h.k]
  refine congrArg dropOne (rowfun_carry _ _ T (fun a => ?_) x2 _ z)
  have e : ∀ i, mapBatch T x2 i = T (x2 i) := fun i => rfl
  simp only [e, h.krow, h.kcol]

theorem sgprHxDerivs_carry (h : CarriesArr κ θ.kernelParams κ' θ'.kernelParams T L) (hs : θ'.sigma = θ.sigma)
    (la : LinAlg) (x1 : Batch m d) (J1 : Jac m d v) (x2 : Batch n d) (J2 : Jac n d v) (z : Mat (n * v) o) :
    sgprHxDerivs la θ' κ' (mapBatch T x1) (mapJac L J1) (mapBatch T x2) (mapJac L J2) z =
      sgprHxDerivs la θ κ x1 J1 x2 J2 z := by
  unfold sgprHxDerivs
  rw [hs, h.d01kj]
  refine congrArg dropMid (rowfun_carry _ _ (mapPoint T L) (fun a => ?_) (fun i => (x2 i, J2 i)) _ z)
  have e : ∀ i, mapBatch T x2 i = T (x2 i) := fun i => rfl
  have e' : ∀ i, mapJac L J2 i = fun f u => L (fun g => J2 i g u) f := fun i => rfl
  simp only [mapPoint, e, e', h.d01row, h.d01col]

end

section
variable {κ : KernelObj d} {θ : TDParams} {κ' : KernelObj d'} {θ' : TDParams} {T L : (Fin d → ℝ) → (Fin d' → ℝ)}
variable {m n o v w v' w' : ℕ}

theorem tdAxRows1_carry (h : CarriesArr κ θ.kernelParams κ' θ'.kernelParams T L)
    (hs : θ'.sigmaTargets = θ.sigmaTargets) (hd : θ'.sigmaDerivs = θ.sigmaDerivs) (b : Bool)
    (x1 : Batch m d) (J1 : Jac m d v) (x2 : Batch n d) (J2 : Jac n d w) (z : Mat (n + n * w) o) :
    tdAxRows1 θ' κ' b (mapBatch T x1) (mapJac L J1) (mapBatch T x2) (mapJac L J2) z = tdAxRows1 θ κ b x1 J1 x2 J2 z := by
  unfold tdAxRows1
  refine congrArg (fun l : ℕ × List (List (Fin o → ℝ)) => tdReorder1 m v l.2.flatten)
    (laxScan_carry (mapPoint T L) (fun c a => ?_) 0 fun i => (x1 i, J1 i))
  simp only [mapPoint, h.krow, h.d1row, h.d0row, h.d01row, hs, hd]

theorem tdAxRows2_carry (h : CarriesArr κ θ.kernelParams κ' θ'.kernelParams T L)
    (hs : θ'.sigmaTargets = θ.sigmaTargets) (hd : θ'.sigmaDerivs = θ.sigmaDerivs)
    (hd2 : θ'.sigmaDerivs2 = θ.sigmaDerivs2) (b : Bool)
    (x1 : Batch m d) (J1 : Jac m d v) (J1' : Jac m d v') (x2 : Batch n d) (J2 : Jac n d w) (J2' : Jac n d w')
    (z : Mat (n + n * w + n * w') o) :
    tdAxRows2 θ' κ' b (mapBatch T x1) (mapJac L J1) (mapJac L J1') (mapBatch T x2) (mapJac L J2) (mapJac L J2') z =
      tdAxRows2 θ κ b x1 J1 J1' x2 J2 J2' z := by
  unfold tdAxRows2
  refine congrArg (fun l : ℕ × List (List (Fin o → ℝ)) => tdReorder2 m v v' l.2.flatten)
    (laxScan_carry (mapPoint2 T L) (fun c a => ?_) 0 fun i => (x1 i, J1 i, J1' i))
  simp only [mapPoint2, h.krow, h.d1row, h.d0row, h.d01row, hs, hd, hd2]

theorem tdAxRows21_carry (h : CarriesArr κ θ.kernelParams κ' θ'.kernelParams T L)
    (x1 : Batch m d) (J1 : Jac m d v) (x2 : Batch n d) (J2 : Jac n d w) (J2' : Jac n d w')
    (z : Mat (n + n * w + n * w') o) :
    tdAxRows21 θ' κ' (mapBatch T x1) (mapJac L J1) (mapBatch T x2) (mapJac L J2) (mapJac L J2') z =
      tdAxRows21 θ κ x1 J1 x2 J2 J2' z := by
  unfold tdAxRows21
  refine congrArg (fun l : ℕ × List (List (Fin o → ℝ)) => tdReorder1 m v l.2.flatten)
    (laxScan_carry (mapPoint T L) (fun c a => ?_) 0 fun i => (x1 i, J1 i))
  simp only [mapPoint, h.krow, h.d1row, h.d0row, h.d01row]

end

end GPX
