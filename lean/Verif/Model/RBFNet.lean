import Verif.Model.GPR
import Verif.Model.Centering
import Verif.Model.Params

/-!
# The radial basis function network: gpx/models/rbfnet.py

The functional part: predictions and the training loss. `RBFNet.fit` is in `Model/API.lean` (it never returns, C43).
-/

namespace GPX

variable {d m n o q : ℕ}

/-- The entries of `params` the network reads (rbfnet.py 96-98, 66-67, 206-211): `kernel_params`, `alpha`, `weights`
(`m` inducing points, `o` outputs) and `inducing_points`. -/
structure RBFParams (d m o : ℕ) where
  kernelParams : KPar
  alpha : ℝ
  weights : Mat m o
  inducing : Batch m d

/-- A one-dimensional array of any length: what `state.k_mean` holds. -/
abbrev AnyVec := Σ l : ℕ, (Fin l → ℝ)

/-- `kernel_center(gram, k_mean)`, kernels/operations.py 28-62, with a `k_mean` whose length need not be the number of
rows: a length of one is broadcast, any other length is a shape error (the theorems do not say which exception). (With a single row JAX would broadcast the row
instead; the theorems about the error ask for two rows or more.) -/
noncomputable def centerWith (gram : Arr2 m n) (kMean : AnyVec) : Except Err (Arr2 m n) :=
  if h : kMean.1 = m then .ok (kernelCenter gram fun i => kMean.2 (Fin.cast h.symm i))
  else if h : kMean.1 = 1 then .ok (kernelCenter gram fun _ => kMean.2 (Fin.cast h.symm 0))
  else .error .valueError

/-- `_predict_linear`, rbfnet.py 88-111. -/
noncomputable def rbfPredictLinear (θ : RBFParams d m o) (x : Batch n d) (κ : KernelObj d) (center : Bool)
    (kMean : Option AnyVec) : Except Err (Mat n o × Option AnyVec) := do
  let gram : Arr2 m n := κ.k θ.kernelParams θ.inducing x
  if center then
    let kMean : AnyVec := match kMean with
      | none => ⟨n, meanAxis0 gram⟩
      | some v => v
    let gram ← centerWith gram kMean
    pure (Matrix.of fun j a => ∑ i, gram i j * θ.weights i a, some kMean)
  else pure (Matrix.of fun j a => ∑ i, gram i j * θ.weights i a, kMean)

/-- `_predict`, rbfnet.py 114-128; the output layer maps `(n, o)` arrays to `(n, q)` arrays. -/
noncomputable def rbfPredictWith (θ : RBFParams d m o) (x : Batch n d) (κ : KernelObj d) (layer : Mat n o → Mat n q)
    (center : Bool) (kMean : Option AnyVec) : Except Err (Mat n q × Option AnyVec) := do
  let (pred, kMean) ← rbfPredictLinear θ x κ center kMean
  pure (layer pred, kMean)

/-- `_train_loss`, rbfnet.py 48-74. `k_mean` is a static argument of the compiled function (line 47): JAX hashes static
arguments, and arrays cannot be hashed (`ValueError`), so only `None` gets through. `jnp.mean` runs over all entries. -/
noncomputable def rbfTrainLoss (θ : RBFParams d m o) (x : Batch n d) (y : Mat n q) (κ : KernelObj d)
    (layer : Mat n o → Mat n q) (center : Bool) (kMean : Option AnyVec) : Except Err ℝ :=
  match kMean with
  | some _ => .error .valueError
  | none => do
    let (pred, _) ← rbfPredictWith θ x κ layer center none
    pure ((∑ i, ∑ a, (pred i a - y i a) ^ 2) / ((n * q : ℕ) : ℝ) +
      θ.alpha * (∑ i, ∑ a, θ.weights i a * θ.weights i a) / n)

/-- `k_mean` in the state made by `init`, rbfnet.py 216: `jnp.zeros(num_input)`. -/
noncomputable def rbfInitKMean (m : ℕ) : Option AnyVec := some ⟨m, fun _ => 0⟩

end GPX
