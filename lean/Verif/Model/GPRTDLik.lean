import Verif.Model.GPRTD
import Verif.Model.BaseMethods

/-!
# `log_marginal_likelihood` and `neg_log_marginal_likelihood` of `models/gpr_td.py`

The second set of jacobians and the second set of derivatives are optional independently of each other. Shapes are
compared by the triangular solve (dense) and by the matrix-vector product (iterative), which raise `TypeError`. The
parameters are numbers, i.e. none of the `sigma_…` is `None`. Simplification: in the iterative version two second sets
with different numbers of components always raise, also when there are no samples.
-/

namespace GPX
noncomputable section

variable {d n v : ℕ} {Key : Type}

/-- An optional second set of jacobians, `jacobian_2`. -/
abbrev JacSet (n d : ℕ) := Option (Σ v' : ℕ, Jac n d v')

/-- An optional second set of derivatives, `y_derivs_2`. -/
abbrev DerivSet (n : ℕ) := Option (Σ w' : ℕ, Mat n w')

/-- `y_m` of `_lml_dense`, models/gpr_td.py 527-535. -/
def tdRhsSets (mf : MeanFun) (y : Mat n 1) (yd : Mat n v) : DerivSet n → Σ M : ℕ, Mat M 1
  | none => ⟨n + n * v, tdRhs1 mf y yd⟩
  | some ⟨w', yd'⟩ => ⟨n + n * v + n * w', tdRhs2 mf y yd yd'⟩

/-- `C_mm` of `_lml_dense`, models/gpr_td.py 537-547. -/
def tdCovSets (θ : TDParams) (κ : KernelObj d) (x : Batch n d) (J : Jac n d v) : JacSet n d → Σ N : ℕ, Mat N N
  | none => ⟨n + n * v, tdALhsNoise1 θ κ x J x J⟩
  | some ⟨v', J'⟩ => ⟨n + n * v + n * v', tdALhsNoise2 θ κ x J J' x J J'⟩

/-- `_lml_dense`, models/gpr_td.py 506-559, with any combination of second sets: `solve_triangular` needs as many rows in
`y_m` as in `C_mm`. -/
def tdLmlDenseSets (la : LinAlg) (θ : TDParams) (κ : KernelObj d) (mf : MeanFun) (x : Batch n d) (y : Mat n 1)
    (J : Jac n d v) (J2 : JacSet n d) (yd : Mat n v) (yd2 : DerivSet n) : Except Err ℝ :=
  let ym := tdRhsSets mf y yd yd2
  let C := tdCovSets θ κ x J J2
  if h : ym.1 = C.1 then .ok (tdLmlTail la C.2 (h ▸ ym.2 : Mat C.1 1) (n + n * v)) else .error .typeError

/-- The solvers and the random generator of the iterative version. -/
structure TDTools (n v : ℕ) (Key : Type) where
  la : LinAlg
  cg : CG
  split : Key → Key × Key
  /-- `random.choice` among the rows of the system with one set of derivatives -/
  choice1 : Key → (Fin (n + n * v) → ℝ) → Fin (n + n * v)
  /-- `random.choice` among the rows of the system with a second set of `v'` components -/
  choice2 : ∀ {v' : ℕ}, Key → (Fin (n + n * v + n * v') → ℝ) → Fin (n + n * v + n * v')
  /-- `lanczos_logdet` with its number of evaluations, number of Lanczos steps and key -/
  logdet : ∀ {N : ℕ}, ℕ → ℕ → Key → (Mat N 1 → Mat N 1) → ℝ

/-- `_lml_iter`, models/gpr_td.py 561-635, with any combination of second sets. The preconditioner comes before the
first matrix-vector product: `None` for the number of pivots or the key, and then a single sample, raise before shapes
are compared. -/
def tdLmlIterSets (t : TDTools n v Key) (θ : TDParams) (κ : KernelObj d) (mf : MeanFun) (x : Batch n d) (y : Mat n 1)
    (J : Jac n d v) (J2 : JacSet n d) (yd : Mat n v) (yd2 : DerivSet n) (numEvals numLanczos : ℕ) (keyLanczos : Key)
    (nPivots : Option ℕ) (keyPrecond : Option Key) : Except Err ℝ :=
  match pivotArgs nPivots keyPrecond with
  | .error e => .error e
  | .ok a =>
    match J2, yd2 with
    | none, none =>
      tdLmlIter1 t.la t.cg t.split t.choice1 (t.logdet numEvals numLanczos keyLanczos) θ κ mf x y J yd a.1 a.2
    | some ⟨v', J'⟩, some ⟨w', yd'⟩ =>
      if h : w' = v' then
        tdLmlIter2 t.la t.cg t.split t.choice2 (t.logdet numEvals numLanczos keyLanczos) θ κ mf x y J J' yd
          (h ▸ yd' : Mat n v') a.1 a.2
      else if n = 1 then .error .valueError else .error .typeError
    | _, _ => if n = 1 then .error .valueError else .error .typeError

/-- `log_marginal_likelihood`, models/gpr_td.py 848-911. -/
def tdLml (t : TDTools n v Key) (θ : TDParams) (κ : KernelObj d) (mf : MeanFun) (x : Batch n d) (y : Mat n 1)
    (J : Jac n d v) (yd : Mat n v) (J2 : JacSet n d := none) (yd2 : DerivSet n := none) (iterative : Bool := false)
    (numEvals numLanczos : ℕ) (keyLanczos : Key) (nPivots : Option ℕ := none) (keyPrecond : Option Key := none) :
    Except Err ℝ :=
  if iterative then
    tdLmlIterSets t θ κ mf x y J J2 yd yd2 numEvals numLanczos keyLanczos nPivots keyPrecond
  else tdLmlDenseSets t.la θ κ mf x y J J2 yd yd2

/-- `neg_log_marginal_likelihood`, models/gpr_td.py 914-945. -/
def tdNegLml (t : TDTools n v Key) (θ : TDParams) (κ : KernelObj d) (mf : MeanFun) (x : Batch n d) (y : Mat n 1)
    (J : Jac n d v) (yd : Mat n v) (J2 : JacSet n d := none) (yd2 : DerivSet n := none) (iterative : Bool := false)
    (numEvals numLanczos : ℕ) (keyLanczos : Key) (nPivots : Option ℕ := none) (keyPrecond : Option Key := none) :
    Except Err ℝ :=
  match tdLml t θ κ mf x y J yd J2 yd2 iterative numEvals numLanczos keyLanczos nPivots keyPrecond with
  | .error e => .error e
  | .ok l => .ok (-l)

end
end GPX
