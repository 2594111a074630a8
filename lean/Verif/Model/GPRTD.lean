import Verif.Model.GPR
import Verif.Model.Params

/-!
# `models/gpr_td.py`: training on targets and derivatives together

Functions ending in `1` are the branch `jacobian_2 is None`, those ending in `2` the branch with a second set of
derivatives. The targets have one column (`y.reshape(-1, 1)` of a `(n, 1)` array changes nothing; more columns do not
fit the size of the system).
-/

namespace GPX

variable {d m n o v w v' w' a b c r : ℕ}

/-- The parameters of `GPR_TD`, models/gpr_td.py 958-963. -/
structure TDParams where
  kernelParams : KPar
  sigmaTargets : ℝ
  sigmaDerivs : ℝ
  sigmaDerivs2 : ℝ

/-- `jnp.concatenate((A, B), axis=1)`. -/
def hcat (A : Mat r a) (B : Mat r b) : Mat r (a + b) :=
  Matrix.of fun i => Fin.addCases (A i) (B i)

/-- The concatenations of models/gpr_td.py 103-110. -/
def tdBlocks1 (K : Mat m n) (D1kj : Mat m (n * w)) (D0kj : Mat (m * v) n) (D01kj : Mat (m * v) (n * w)) :
    Mat (m + m * v) (n + n * w) :=
  vcat (hcat K D1kj) (hcat D0kj D01kj)

/-- The concatenations of models/gpr_td.py 151-158. -/
def tdBlocks2 (K : Mat m n) (D1kj1 : Mat m (n * w)) (D1kj2 : Mat m (n * w')) (D0kj1 : Mat (m * v) n)
    (D01kj1 : Mat (m * v) (n * w)) (D01kj12 : Mat (m * v) (n * w')) (D0kj2 : Mat (m * v') n)
    (D01kj21 : Mat (m * v') (n * w)) (D01kj2 : Mat (m * v') (n * w')) :
    Mat (m + m * v + m * v') (n + n * w + n * w') :=
  vcat (vcat (hcat (hcat K D1kj1) D1kj2) (hcat (hcat D0kj1 D01kj1) D01kj12)) (hcat (hcat D0kj2 D01kj21) D01kj2)

/-- `_A_lhs(…, noise=False)` with one set of derivatives, models/gpr_td.py 42-159. -/
def tdALhs1 (θ : TDParams) (κ : KernelObj d) (x1 : Batch m d) (J1 : Jac m d v) (x2 : Batch n d)
    (J2 : Jac n d w) : Mat (m + m * v) (n + n * w) :=
  let p := θ.kernelParams
  tdBlocks1 (Matrix.of (κ.k p x1 x2)) (Matrix.of (κ.d1kj p x1 x2 J2)) (Matrix.of (κ.d0kj p x1 x2 J1))
    (Matrix.of (κ.d01kj p x1 x2 J1 J2))

/-- `_A_lhs(…, noise=True)` with one set of derivatives, models/gpr_td.py 42-159. -/
noncomputable def tdALhsNoise1 (θ : TDParams) (κ : KernelObj d) (x1 : Batch m d) (J1 : Jac m d v) (x2 : Batch m d)
    (J2 : Jac m d v) : Mat (m + m * v) (m + m * v) :=
  let p := θ.kernelParams
  tdBlocks1 (Matrix.of (κ.k p x1 x2) + (θ.sigmaTargets ^ 2 + noiseJitter) • (1 : Mat m m))
    (Matrix.of (κ.d1kj p x1 x2 J2)) (Matrix.of (κ.d0kj p x1 x2 J1))
    (Matrix.of (κ.d01kj p x1 x2 J1 J2) + (θ.sigmaDerivs ^ 2 + noiseJitter) • (1 : Mat (m * v) (m * v)))

/-- `_A_lhs(…, noise=False)` with two sets of derivatives, models/gpr_td.py 42-159. -/
def tdALhs2 (θ : TDParams) (κ : KernelObj d) (x1 : Batch m d) (J1 : Jac m d v) (J1' : Jac m d v')
    (x2 : Batch n d) (J2 : Jac n d w) (J2' : Jac n d w') : Mat (m + m * v + m * v') (n + n * w + n * w') :=
  let p := θ.kernelParams
  tdBlocks2 (Matrix.of (κ.k p x1 x2)) (Matrix.of (κ.d1kj p x1 x2 J2)) (Matrix.of (κ.d1kj p x1 x2 J2'))
    (Matrix.of (κ.d0kj p x1 x2 J1)) (Matrix.of (κ.d01kj p x1 x2 J1 J2)) (Matrix.of (κ.d01kj p x1 x2 J1 J2'))
    (Matrix.of (κ.d0kj p x1 x2 J1')) (Matrix.of (κ.d01kj p x1 x2 J1' J2)) (Matrix.of (κ.d01kj p x1 x2 J1' J2'))

/-- `_A_lhs(…, noise=True)` with two sets of derivatives, models/gpr_td.py 42-159. -/
noncomputable def tdALhsNoise2 (θ : TDParams) (κ : KernelObj d) (x1 : Batch m d) (J1 : Jac m d v) (J1' : Jac m d v')
    (x2 : Batch m d) (J2 : Jac m d v) (J2' : Jac m d v') :
    Mat (m + m * v + m * v') (m + m * v + m * v') :=
  let p := θ.kernelParams
  tdBlocks2 (Matrix.of (κ.k p x1 x2) + (θ.sigmaTargets ^ 2 + noiseJitter) • (1 : Mat m m))
    (Matrix.of (κ.d1kj p x1 x2 J2)) (Matrix.of (κ.d1kj p x1 x2 J2'))
    (Matrix.of (κ.d0kj p x1 x2 J1))
    (Matrix.of (κ.d01kj p x1 x2 J1 J2) + (θ.sigmaDerivs ^ 2 + noiseJitter) • (1 : Mat (m * v) (m * v)))
    (Matrix.of (κ.d01kj p x1 x2 J1 J2')) (Matrix.of (κ.d0kj p x1 x2 J1')) (Matrix.of (κ.d01kj p x1 x2 J1' J2))
    (Matrix.of (κ.d01kj p x1 x2 J1' J2') + (θ.sigmaDerivs2 ^ 2 + noiseJitter) • (1 : Mat (m * v') (m * v')))

/-! ## Matrix-free product -/

/-- The rows of a two-dimensional array. -/
def matRows (A : Mat a o) : List (Fin o → ℝ) := List.ofFn fun i => A i

/-- An array with `k` rows read from a list (the lists below have exactly `k` elements, see the lemmas). -/
def rowsToMat (k : ℕ) (l : List (Fin o → ℝ)) : Mat k o := Matrix.of fun i => l.getD i.val 0

/-- `res[ind]` along the first axis. The indices below are always in range. -/
def gatherRows (res : List (Fin o → ℝ)) (ind : List ℕ) : List (Fin o → ℝ) := ind.map fun i => res.getD i 0

/-- `np.arange(0, stop, step)`. -/
def arangeStep (stop step : ℕ) : List ℕ := (List.range ((stop + step - 1) / step)).map fun i => i * step

/-- `jnp.delete(res, ind, axis=0)`. -/
def deleteRows (res : List (Fin o → ℝ)) (ind : List ℕ) : List (Fin o → ℝ) :=
  gatherRows res ((List.range res.length).filter fun i => !ind.contains i)

/-- `np.arange(k, …)[mask]` with a boolean mask. -/
def maskIdx : ℕ → List Bool → List ℕ
  | _, [] => []
  | k, b :: bs => if b then k :: maskIdx (k + 1) bs else maskIdx (k + 1) bs

/-- The boolean masks of models/gpr_td.py 254-302: `ns` times the same row of zeros and ones. -/
def tileMask (ns : ℕ) (row : List Bool) : List Bool := (List.replicate ns row).flatten

/-- The reordering of models/gpr_td.py 304-306. -/
def tdReorder1 (ns jv : ℕ) (res : List (Fin o → ℝ)) : List (Fin o → ℝ) :=
  let res1 := gatherRows res (arangeStep (ns + ns * jv) (jv + 1))
  let res2 := deleteRows res (arangeStep (ns + ns * jv) (jv + 1))
  res1 ++ res2

/-- The reordering of models/gpr_td.py 250-302. -/
def tdReorder2 (ns jv jv' : ℕ) (res : List (Fin o → ℝ)) : List (Fin o → ℝ) :=
  let res1 := gatherRows res
    (maskIdx 0 (tileMask ns (true :: List.replicate jv false ++ List.replicate jv' false)))
  let res2 := gatherRows res
    (maskIdx 0 (tileMask ns (false :: List.replicate jv true ++ List.replicate jv' false)))
  let res3 := gatherRows res
    (maskIdx 0 (tileMask ns (false :: List.replicate jv false ++ List.replicate jv' true)))
  res1 ++ res2 ++ res3

/-- `update_row_diagonal` when there is noise, models/gpr_td.py 207-209, 220-222 and 233-235. -/
noncomputable def tdDiag {N : ℕ} (noise : Bool) (row : Arr2 r N) (carry : ℕ) (sigma : ℝ) : Mat r N :=
  Matrix.of (if noise then updateRowDiagonal row carry (sigma ^ 2 + noiseJitter) else row)

/-- `z[:ns]` of a stacked right-hand side. -/
def topRows (z : Mat (a + b) o) : Mat a o := z.submatrix (Fin.castAdd b) id

/-- `z[ns:]` of a stacked right-hand side. -/
def botRows (z : Mat (a + b) o) : Mat b o := z.submatrix (Fin.natAdd a) id

/-- `matvec` of `_Ax_lhs_fun` with one set of derivatives, models/gpr_td.py 186-306, as the list of its rows. -/
noncomputable def tdAxRows1 (θ : TDParams) (κ : KernelObj d) (noise : Bool) (x1 : Batch m d) (J1 : Jac m d v)
    (x2 : Batch n d) (J2 : Jac n d w) (z : Mat (n + n * w) o) : List (Fin o → ℝ) :=
  let p := θ.kernelParams
  let z1 := topRows z
  let z2 := botRows z
  let updateRow : ℕ → Sample d × (Fin d → Fin v → ℝ) → ℕ × List (Fin o → ℝ) := fun carry xj =>
    let x1s : Batch 1 d := recoverFirstAxis xj.1
    let j1s : Jac 1 d v := recoverFirstAxis xj.2
    let row11 := tdDiag noise (κ.k p x1s x2) carry θ.sigmaTargets
    let row12 : Mat 1 (n * w) := Matrix.of (κ.d1kj p x1s x2 J2)
    let rowvec1 := row11 * z1 + row12 * z2
    let row21 : Mat (1 * v) n := Matrix.of (κ.d0kj p x1s x2 j1s)
    let row22 := tdDiag noise (κ.d01kj p x1s x2 j1s J2) carry θ.sigmaDerivs
    let rowvec2 := row21 * z1 + row22 * z2
    (carry + 1, matRows rowvec1 ++ matRows rowvec2)
  let res := (laxScan updateRow 0 (List.ofFn fun i => (x1 i, J1 i))).2.flatten
  tdReorder1 m v res

/-- `matvec` of `_Ax_lhs_fun` with two sets of derivatives, models/gpr_td.py 186-302, as the list of its rows.
(`z[-ns2 * jv2_2:]` is the last block when there is at least one sample and one component.) -/
noncomputable def tdAxRows2 (θ : TDParams) (κ : KernelObj d) (noise : Bool) (x1 : Batch m d) (J1 : Jac m d v)
    (J1' : Jac m d v') (x2 : Batch n d) (J2 : Jac n d w) (J2' : Jac n d w') (z : Mat (n + n * w + n * w') o) :
    List (Fin o → ℝ) :=
  let p := θ.kernelParams
  let z1 := topRows (topRows z)
  let z2 := botRows (topRows z)
  let z3 := botRows z
  let updateRow : ℕ → Sample d × (Fin d → Fin v → ℝ) × (Fin d → Fin v' → ℝ) → ℕ × List (Fin o → ℝ) :=
    fun carry xj =>
    let x1s : Batch 1 d := recoverFirstAxis xj.1
    let j1s : Jac 1 d v := recoverFirstAxis xj.2.1
    let j2s : Jac 1 d v' := recoverFirstAxis xj.2.2
    let row11 := tdDiag noise (κ.k p x1s x2) carry θ.sigmaTargets
    let row12 : Mat 1 (n * w) := Matrix.of (κ.d1kj p x1s x2 J2)
    let row13 : Mat 1 (n * w') := Matrix.of (κ.d1kj p x1s x2 J2')
    let rowvec1 := row11 * z1 + row12 * z2 + row13 * z3
    let row21 : Mat (1 * v) n := Matrix.of (κ.d0kj p x1s x2 j1s)
    let row22 := tdDiag noise (κ.d01kj p x1s x2 j1s J2) carry θ.sigmaDerivs
    let row23 : Mat (1 * v) (n * w') := Matrix.of (κ.d01kj p x1s x2 j1s J2')
    let rowvec2 := row21 * z1 + row22 * z2 + row23 * z3
    let row31 : Mat (1 * v') n := Matrix.of (κ.d0kj p x1s x2 j2s)
    let row32 : Mat (1 * v') (n * w) := Matrix.of (κ.d01kj p x1s x2 j2s J2)
    let row33 := tdDiag noise (κ.d01kj p x1s x2 j2s J2') carry θ.sigmaDerivs2
    let rowvec3 := row31 * z1 + row32 * z2 + row33 * z3
    (carry + 1, matRows rowvec1 ++ matRows rowvec2 ++ matRows rowvec3)
  let res := (laxScan updateRow 0 (List.ofFn fun i => (x1 i, J1 i, J1' i))).2.flatten
  tdReorder2 m v v' res

/-- The array returned by the product with one set of derivatives. -/
noncomputable def tdAxLhs1 (θ : TDParams) (κ : KernelObj d) (noise : Bool) (x1 : Batch m d) (J1 : Jac m d v)
    (x2 : Batch n d) (J2 : Jac n d w) (z : Mat (n + n * w) o) : Mat (m + m * v) o :=
  rowsToMat _ (tdAxRows1 θ κ noise x1 J1 x2 J2 z)

/-- The array returned by the product with two sets of derivatives. -/
noncomputable def tdAxLhs2 (θ : TDParams) (κ : KernelObj d) (noise : Bool) (x1 : Batch m d) (J1 : Jac m d v)
    (J1' : Jac m d v') (x2 : Batch n d) (J2 : Jac n d w) (J2' : Jac n d w') (z : Mat (n + n * w + n * w') o) :
    Mat (m + m * v + m * v') o :=
  rowsToMat _ (tdAxRows2 θ κ noise x1 J1 J1' x2 J2 J2' z)

/-! ## Preconditioner -/

/-- `first_row`, `second_row` and their selection, one set of derivatives, models/gpr_td.py 387-450. Both branches
are computed and one is selected; only the selected one is modelled. -/
noncomputable def tdRpcRow1 (κ : KernelObj d) (p : KPar) (x : Batch n d) (J : Jac n d v) (s : Fin (n + n * v)) :
    Fin (n + n * v) → ℝ :=
  if s.val < n then
    let xs : Batch 1 d := recoverFirstAxis (rowAt 0 x s.val)
    Fin.append (κ.k p xs x 0) (κ.d1kj p xs x J 0)
  else
    let index1 := rpcIndex1 (s.val - n) v
    let index2 := (s.val - n) % v
    let xs : Batch 1 d := recoverFirstAxis (rowAt 0 x index1)
    let js : Jac 1 d v := recoverFirstAxis (rowAt 0 J index1)
    Fin.append (rowAt 0 (κ.d0kj p xs x js) index2) (rowAt 0 (κ.d01kj p xs x js J) index2)

/-- The same with two sets of derivatives (`third_row`), models/gpr_td.py 387-450. -/
noncomputable def tdRpcRow2 (κ : KernelObj d) (p : KPar) (x : Batch n d) (J : Jac n d v) (J' : Jac n d v')
    (s : Fin (n + n * v + n * v')) : Fin (n + n * v + n * v') → ℝ :=
  if s.val < n then
    let xs : Batch 1 d := recoverFirstAxis (rowAt 0 x s.val)
    Fin.append (Fin.append (κ.k p xs x 0) (κ.d1kj p xs x J 0)) (κ.d1kj p xs x J' 0)
  else if s.val < n + n * v then
    let index1 := rpcIndex1 (s.val - n) v
    let index2 := (s.val - n) % v
    let xs : Batch 1 d := recoverFirstAxis (rowAt 0 x index1)
    let js : Jac 1 d v := recoverFirstAxis (rowAt 0 J index1)
    Fin.append (Fin.append (rowAt 0 (κ.d0kj p xs x js) index2) (rowAt 0 (κ.d01kj p xs x js J) index2))
      (rowAt 0 (κ.d01kj p xs x js J') index2)
  else
    let index1 := rpcIndex1 (s.val - n - n * v) v'
    let index2 := (s.val - n - n * v) % v'
    let xs : Batch 1 d := recoverFirstAxis (rowAt 0 x index1)
    let js : Jac 1 d v' := recoverFirstAxis (rowAt 0 J' index1)
    Fin.append (Fin.append (rowAt 0 (κ.d0kj p xs x js) index2) (rowAt 0 (κ.d01kj p xs x js J) index2))
      (rowAt 0 (κ.d01kj p xs x js J') index2)

/-- The diagonal, models/gpr_td.py 346-388 (`rpcDiag` and `rpcDiagDerivs` are the same scans). -/
def tdRpcDiag1 (κ : KernelObj d) (p : KPar) (x : Batch n d) (J : Jac n d v) : Fin (n + n * v) → ℝ :=
  Fin.append (rpcDiag κ p x) (rpcDiagDerivs κ p x J)

/-- The diagonal with two sets of derivatives, models/gpr_td.py 346-388. -/
def tdRpcDiag2 (κ : KernelObj d) (p : KPar) (x : Batch n d) (J : Jac n d v) (J' : Jac n d v') :
    Fin (n + n * v + n * v') → ℝ :=
  Fin.append (Fin.append (rpcDiag κ p x) (rpcDiagDerivs κ p x J)) (rpcDiagDerivs κ p x J')

/-- `rpcholesky_TD` with one set of derivatives, models/gpr_td.py 312-460: the loop body is that of `rpcholesky`. With
one sample `.squeeze()` gives a zero-dimensional array, which cannot be concatenated (`ValueError`). -/
noncomputable def rpcholeskyTD1 {Key : Type} (split : Key → Key × Key)
    (choice : Key → (Fin (n + n * v) → ℝ) → Fin (n + n * v)) (key : Key) (x : Batch n d) (J : Jac n d v)
    (nPivots : ℕ) (κ : KernelObj d) (p : KPar) : Except Err (Mat (n + n * v) nPivots × (Fin nPivots → ℕ)) :=
  if n = 1 then .error .valueError
  else
    let res := rpcLoop nPivots split choice (tdRpcRow1 κ p x J) (tdRpcDiag1 κ p x J) key nPivots
    .ok (Matrix.of res.fmat, res.pivots)

/-- `rpcholesky_TD` with two sets of derivatives, models/gpr_td.py 312-460. -/
noncomputable def rpcholeskyTD2 {Key : Type} (split : Key → Key × Key)
    (choice : Key → (Fin (n + n * v + n * v') → ℝ) → Fin (n + n * v + n * v')) (key : Key) (x : Batch n d)
    (J : Jac n d v) (J' : Jac n d v') (nPivots : ℕ) (κ : KernelObj d) (p : KPar) :
    Except Err (Mat (n + n * v + n * v') nPivots × (Fin nPivots → ℕ)) :=
  if n = 1 then .error .valueError
  else
    let res := rpcLoop nPivots split choice (tdRpcRow2 κ p x J J') (tdRpcDiag2 κ p x J J') key nPivots
    .ok (Matrix.of res.fmat, res.pivots)

/-! ## Fit, predict, likelihood -/

/-- `y_m`, models/gpr_td.py 657-665. -/
def tdRhs1 (mf : MeanFun) (y : Mat n 1) (yd : Mat n v) : Mat (n + n * v) 1 :=
  vcat (centerBy y (mf y)) (flatCol yd)

/-- `y_m` with two sets of derivatives, models/gpr_td.py 657-665. -/
def tdRhs2 (mf : MeanFun) (y : Mat n 1) (yd : Mat n v) (yd' : Mat n v') : Mat (n + n * v + n * v') 1 :=
  vcat (tdRhs1 mf y yd) (flatCol yd')

/-- `_fit_dense`, models/gpr_td.py 638-681. -/
noncomputable def tdFitDense1 (la : LinAlg) (θ : TDParams) (κ : KernelObj d) (mf : MeanFun) (x : Batch n d)
    (y : Mat n 1) (J : Jac n d v) (yd : Mat n v) : Mat (n + n * v) 1 × ℝ :=
  (la.solve (tdALhsNoise1 θ κ x J x J) (tdRhs1 mf y yd), mf y)

/-- `_fit_dense` with two sets of derivatives, models/gpr_td.py 638-681. -/
noncomputable def tdFitDense2 (la : LinAlg) (θ : TDParams) (κ : KernelObj d) (mf : MeanFun) (x : Batch n d)
    (y : Mat n 1) (J : Jac n d v) (J' : Jac n d v') (yd : Mat n v) (yd' : Mat n v') :
    Mat (n + n * v + n * v') 1 × ℝ :=
  (la.solve (tdALhsNoise2 θ κ x J J' x J J') (tdRhs2 mf y yd yd'), mf y)

/-- `_precond_rpcholesky_TD`, models/gpr_td.py 463-503: the noise is that of the targets only. -/
noncomputable def tdPrecond {N k : ℕ} (la : LinAlg) (θ : TDParams) (fmat : Mat N k) : Mat N o → Mat N o :=
  precondMatvec la θ.sigmaTargets fmat

/-- `_fit_iter`, models/gpr_td.py 684-745 (the starting guess `c_guess` is part of `cg`). -/
noncomputable def tdFitIter1 (la : LinAlg) (cg : CG) {Key : Type} (split : Key → Key × Key)
    (choice : Key → (Fin (n + n * v) → ℝ) → Fin (n + n * v)) (θ : TDParams) (κ : KernelObj d) (mf : MeanFun)
    (x : Batch n d) (y : Mat n 1) (J : Jac n d v) (yd : Mat n v) (nPivots : ℕ) (key : Key) :
    Except Err (Mat (n + n * v) 1 × ℝ) :=
  match rpcholeskyTD1 split choice key x J nPivots κ θ.kernelParams with
  | .error e => .error e
  | .ok (fmat, _) => .ok (cg (tdAxLhs1 θ κ true x J x J) (tdRhs1 mf y yd) (tdPrecond la θ fmat), mf y)

/-- `_fit_iter` with two sets of derivatives, models/gpr_td.py 684-745. -/
noncomputable def tdFitIter2 (la : LinAlg) (cg : CG) {Key : Type} (split : Key → Key × Key)
    (choice : Key → (Fin (n + n * v + n * v') → ℝ) → Fin (n + n * v + n * v')) (θ : TDParams) (κ : KernelObj d)
    (mf : MeanFun) (x : Batch n d) (y : Mat n 1) (J : Jac n d v) (J' : Jac n d v') (yd : Mat n v)
    (yd' : Mat n v') (nPivots : ℕ) (key : Key) : Except Err (Mat (n + n * v + n * v') 1 × ℝ) :=
  match rpcholeskyTD2 split choice key x J J' nPivots κ θ.kernelParams with
  | .error e => .error e
  | .ok (fmat, _) =>
    .ok (cg (tdAxLhs2 θ κ true x J J' x J J') (tdRhs2 mf y yd yd') (tdPrecond la θ fmat), mf y)

/-- Splitting the prediction, models/gpr_td.py 780-795 and 830-845: targets (with the mean) and derivatives. -/
def tdSplit1 (mu : ℝ) (pred : Mat (n + n * v) 1) : Mat n 1 × Mat n v :=
  (Matrix.of fun i c => topRows pred i c + mu, unflatCol (botRows pred))

/-- Splitting with two sets of derivatives, models/gpr_td.py 780-795 and 830-845. -/
def tdSplit2 (mu : ℝ) (pred : Mat (n + n * v + n * v') 1) : Mat n 1 × Mat n v × Mat n v' :=
  ((tdSplit1 mu (topRows pred)).1, (tdSplit1 mu (topRows pred)).2, unflatCol (botRows pred))

/-- `_predict_dense`, models/gpr_td.py 748-795. -/
def tdPredictDense1 (θ : TDParams) (κ : KernelObj d) (xt : Batch m d) (Jt : Jac m d v) (x : Batch n d)
    (J : Jac n d w) (c : Mat (m + m * v) 1) (mu : ℝ) : Mat n 1 × Mat n w :=
  let Kmn := tdALhs1 θ κ xt Jt x J
  tdSplit1 mu (Kmn.transpose * c)

/-- `_predict_dense` with two sets of derivatives, models/gpr_td.py 748-795. -/
def tdPredictDense2 (θ : TDParams) (κ : KernelObj d) (xt : Batch m d) (Jt : Jac m d v) (Jt' : Jac m d v')
    (x : Batch n d) (J : Jac n d w) (J' : Jac n d w') (c : Mat (m + m * v + m * v') 1) (mu : ℝ) :
    Mat n 1 × Mat n w × Mat n w' :=
  let Kmn := tdALhs2 θ κ xt Jt Jt' x J J'
  tdSplit2 mu (Kmn.transpose * c)

/-- `_predict_iter`, models/gpr_td.py 798-845. -/
noncomputable def tdPredictIter1 (θ : TDParams) (κ : KernelObj d) (xt : Batch m d) (Jt : Jac m d v) (x : Batch n d)
    (J : Jac n d w) (c : Mat (m + m * v) 1) (mu : ℝ) : Mat n 1 × Mat n w :=
  tdSplit1 mu (tdAxLhs1 θ κ false x J xt Jt c)

/-- `_predict_iter` with two sets of derivatives, models/gpr_td.py 798-845. -/
noncomputable def tdPredictIter2 (θ : TDParams) (κ : KernelObj d) (xt : Batch m d) (Jt : Jac m d v)
    (Jt' : Jac m d v') (x : Batch n d) (J : Jac n d w) (J' : Jac n d w') (c : Mat (m + m * v + m * v') 1)
    (mu : ℝ) : Mat n 1 × Mat n w × Mat n w' :=
  tdSplit2 mu (tdAxLhs2 θ κ false x J J' xt Jt Jt' c)

/-- The tail of `_lml_dense`, models/gpr_td.py 548-558, with the number `m` of line 532. -/
noncomputable def tdLmlTail {N : ℕ} (la : LinAlg) (C : Mat N N) (ym : Mat N 1) (m : ℕ) : ℝ :=
  let Lm := la.cholesky C
  let cy := la.solveLower Lm ym
  let mll := -(1 / 2) * ∑ i, ∑ c, cy i c ^ 2
  let mll := mll - ∑ i, Real.log (Lm i i)
  let mll := mll - m * (1 / 2) * Real.log (2 * Real.pi)
  mll / m

/-- `_lml_dense`, models/gpr_td.py 506-558. -/
noncomputable def tdLmlDense1 (la : LinAlg) (θ : TDParams) (κ : KernelObj d) (mf : MeanFun) (x : Batch n d)
    (y : Mat n 1) (J : Jac n d v) (yd : Mat n v) : ℝ :=
  tdLmlTail la (tdALhsNoise1 θ κ x J x J) (tdRhs1 mf y yd) (n + n * v)

/-- `_lml_dense` with two sets of derivatives, models/gpr_td.py 506-558: `m` is computed (line 532) before the second
set of derivatives is appended to `y_m` (lines 533-535). -/
noncomputable def tdLmlDense2 (la : LinAlg) (θ : TDParams) (κ : KernelObj d) (mf : MeanFun) (x : Batch n d)
    (y : Mat n 1) (J : Jac n d v) (J' : Jac n d v') (yd : Mat n v) (yd' : Mat n v') : ℝ :=
  tdLmlTail la (tdALhsNoise2 θ κ x J J' x J J') (tdRhs2 mf y yd yd') (n + n * v)

/-- `_lml_iter`, models/gpr_td.py 561-635; here `m` counts all rows. -/
noncomputable def tdLmlIter1 (la : LinAlg) (cg : CG) {Key : Type} (split : Key → Key × Key)
    (choice : Key → (Fin (n + n * v) → ℝ) → Fin (n + n * v))
    (logdetFun : (Mat (n + n * v) 1 → Mat (n + n * v) 1) → ℝ) (θ : TDParams) (κ : KernelObj d) (mf : MeanFun)
    (x : Batch n d) (y : Mat n 1) (J : Jac n d v) (yd : Mat n v) (nPivots : ℕ) (key : Key) : Except Err ℝ :=
  match tdFitIter1 la cg split choice θ κ mf x y J yd nPivots key with
  | .error e => .error e
  | .ok (c, _) => .ok (lmlIterTail (logdetFun (tdAxLhs1 θ κ true x J x J)) (tdRhs1 mf y yd) c)

/-- `_lml_iter` with two sets of derivatives, models/gpr_td.py 561-635. -/
noncomputable def tdLmlIter2 (la : LinAlg) (cg : CG) {Key : Type} (split : Key → Key × Key)
    (choice : Key → (Fin (n + n * v + n * v') → ℝ) → Fin (n + n * v + n * v'))
    (logdetFun : (Mat (n + n * v + n * v') 1 → Mat (n + n * v + n * v') 1) → ℝ) (θ : TDParams)
    (κ : KernelObj d) (mf : MeanFun) (x : Batch n d) (y : Mat n 1) (J : Jac n d v) (J' : Jac n d v')
    (yd : Mat n v) (yd' : Mat n v') (nPivots : ℕ) (key : Key) : Except Err ℝ :=
  match tdFitIter2 la cg split choice θ κ mf x y J J' yd yd' nPivots key with
  | .error e => .error e
  | .ok (c, _) => .ok (lmlIterTail (logdetFun (tdAxLhs2 θ κ true x J J' x J J')) (tdRhs2 mf y yd yd') c)

end GPX
