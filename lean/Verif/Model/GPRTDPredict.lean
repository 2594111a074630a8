import Verif.Model.GPRTD

/-!
# Model of `GPR_TD.predict` with its optional second jacobian

`Model/GPRTD.lean` has the predictions in which the second set of derivatives is used both in training and in prediction,
or in neither. The code lets the caller decide again in each call (`jacobian_2` of `predict` is optional), so the two
mixed cases are modelled here, and the function that dispatches on the four.
-/

namespace GPX
variable {d m n v v' w w' o : ℕ}

/-- `pred[start : stop].reshape(ns, -1)` of a column with the given entries, models/gpr_td.py 788-795 and 838-845: Python
slices are clipped to the length, `-1` is the number of entries divided by `ns` (`ns` is positive here: with no sample the
code raises). The column entries are listed from the top. -/
noncomputable def sliceReshape (l : List ℝ) (start stop ns : ℕ) : Σ k, Mat ns k :=
  let s := (l.take stop).drop start
  ⟨s.length / ns, Matrix.of fun i j => s.getD (i.val * (s.length / ns) + j.val) 0⟩

/-- The entries of a column from the top. -/
def colList (c : Mat n 1) : List ℝ := List.ofFn fun i => c i 0

/-- `matvec` of `_Ax_lhs_fun` without noise, with a second set of derivatives on the training side only
(`jacobian1_2 is None`, `jacobian2_2 is not None`), models/gpr_td.py 186-306. -/
noncomputable def tdAxRows21 (θ : TDParams) (κ : KernelObj d) (x1 : Batch m d) (J1 : Jac m d v)
    (x2 : Batch n d) (J2 : Jac n d w) (J2' : Jac n d w') (z : Mat (n + n * w + n * w') o) : List (Fin o → ℝ) :=
  let p := θ.kernelParams
  let z1 := topRows (topRows z)
  let z2 := botRows (topRows z)
  let z3 := botRows z
  let updateRow : ℕ → Sample d × (Fin d → Fin v → ℝ) → ℕ × List (Fin o → ℝ) := fun carry xj =>
    let x1s : Batch 1 d := recoverFirstAxis xj.1
    let j1s : Jac 1 d v := recoverFirstAxis xj.2
    let row11 : Mat 1 n := Matrix.of (κ.k p x1s x2)
    let row12 : Mat 1 (n * w) := Matrix.of (κ.d1kj p x1s x2 J2)
    let row13 : Mat 1 (n * w') := Matrix.of (κ.d1kj p x1s x2 J2')
    let rowvec1 := row11 * z1 + row12 * z2 + row13 * z3
    let row21 : Mat (1 * v) n := Matrix.of (κ.d0kj p x1s x2 j1s)
    let row22 : Mat (1 * v) (n * w) := Matrix.of (κ.d01kj p x1s x2 j1s J2)
    let row23 : Mat (1 * v) (n * w') := Matrix.of (κ.d01kj p x1s x2 j1s J2')
    let rowvec2 := row21 * z1 + row22 * z2 + row23 * z3
    (carry + 1, matRows rowvec1 ++ matRows rowvec2)
  let res := (laxScan updateRow 0 (List.ofFn fun i => (x1 i, J1 i))).2.flatten
  tdReorder1 m v res

/-- What a fitted GPR_TD keeps of its training derivatives: the options `jacobian_train`, `jacobian_train_2` and `c`,
models/gpr_td.py 1083-1098. -/
inductive TDTrained (m d v : ℕ) where
  /-- trained on one set of derivatives (`jacobian_train_2` is `None`) -/
  | one (J : Jac m d v) (c : Mat (m + m * v) 1)
  /-- trained on two sets -/
  | two (J : Jac m d v) {v' : ℕ} (J' : Jac m d v') (c : Mat (m + m * v + m * v') 1)

/-- What `predict` returns: targets, first derivatives and, if `jacobian_2` was given, second derivatives (an array with
`n` rows and some number of columns). -/
abbrev TDPrediction (n w : ℕ) := Mat n 1 × Mat n w × Option (Σ k, Mat n k)

/-- `GPR_TD.predict` on a fitted model, models/gpr_td.py 1106-1160 with `_predict_dense` 748-795 and `_predict_iter`
798-845. In the two mixed cases that raise, a kernel derivative is called with `None` in place of a jacobian
(`_A_lhs` 108-115: `jacobian2=jacobian2_2`; `_Ax_lhs_fun` 229-231); which exception that is depends on the kernel, and no
theorem relies on it. -/
noncomputable def tdPredict (θ : TDParams) (κ : KernelObj d) (xt : Batch m d) (tr : TDTrained m d v) (mu : ℝ)
    (iterative : Bool) (x : Batch n d) (J : Jac n d w) (J' : Option (Σ w', Jac n d w')) :
    Except Err (TDPrediction n w) :=
  match tr, J', iterative with
  | .one Jt c, none, false =>
    let r := tdPredictDense1 θ κ xt Jt x J c mu
    .ok (r.1, r.2, none)
  | .one Jt c, none, true =>
    let r := tdPredictIter1 θ κ xt Jt x J c mu
    .ok (r.1, r.2, none)
  | .one Jt c, some ⟨w', _⟩, false =>
    -- `_A_lhs` does not look at `jacobian2_2` when `jacobian1_2` is None; the slice of line 790 starts at the end
    let pred := (tdALhs1 θ κ xt Jt x J).transpose * c
    let r := tdSplit1 mu pred
    .ok (r.1, r.2, some (sliceReshape (colList pred) (n + w * n) (n + w * n + w' * n) n))
  | .one _ _, some _, true => .error .attributeError
  | .two _ _ _, none, false => .error .attributeError
  | .two Jt Jt' c, none, true =>
    let r := tdSplit1 mu (rowsToMat _ (tdAxRows21 θ κ x J xt Jt Jt' c))
    .ok (r.1, r.2, none)
  | .two Jt Jt' c, some ⟨w', J'⟩, false =>
    let r := tdPredictDense2 θ κ xt Jt Jt' x J J' c mu
    .ok (r.1, r.2.1, some ⟨w', r.2.2⟩)
  | .two Jt Jt' c, some ⟨w', J'⟩, true =>
    let r := tdPredictIter2 θ κ xt Jt Jt' x J J' c mu
    .ok (r.1, r.2.1, some ⟨w', r.2.2⟩)

end GPX
