import Verif.Model.Kernels
import Verif.Model.Params

/-!
# `kernels/kernels.py`: one lengthscale per feature

`lengthscale: ArrayLike` in the signatures of the stationary kernels; a user may store a vector with one
entry per active feature in `kernel_params["lengthscale"]` (nothing rejects it, and the `custom_jvp` rules
wrap the lengthscale in `jnp.atleast_1d`). `Model/Kernels.lean` models a scalar; here is the same code for a
vector `ls` of length `ad.k`, with NumPy's broadcasting of the vector against each array it meets:
a vector always meets the *last* axis of the other operand.
-/

namespace GPX

variable {d n m v v1 v2 : ℕ}

/-- `x[:, active_dims] / lengthscale`: shapes `(n, k)` and `(k,)`, so feature `a` is divided by its own
lengthscale. -/
noncomputable def scaledARD (ad : Dims d) (ls : Fin ad.k → ℝ) (x : Batch n d) : Batch n ad.k :=
  fun i a => ad.takeCols x i a / ls a

/-- A vector `c` of length `k` (a function of the lengthscales) multiplied with an array whose last axis, of
length `m`, runs over the samples of `x2`, in a computation whose result must again have a last axis of
length `m` (`.at[...].add`, `.at[...].set`, or `reshape` to the documented shape, at the end of each
function). Equal lengths: position `j` is multiplied by `c[j]`. Length one: by `c[0]`. Otherwise the
multiplication raises, or, when `m = 1`, broadcasts the result to length `k` and the final indexed update or
`reshape` raises. The class of the exception is not claimed. -/
def bcastSamples {k : ℕ} (m : ℕ) (c : Fin k → ℝ) : Except Err (Fin m → ℝ) :=
  if h : k = m then .ok (fun j => c (j.cast h.symm))
  else if h : k = 1 then .ok (fun _ => c (Fin.cast h.symm 0))
  else .error .typeError

/-! ## Squared exponential -/

/-- `_squared_exponential_kernel_base` with its wrapper, kernels/kernels.py 731-748, as a program. -/
noncomputable def seBaseARD (ad : Dims d) (ls : Fin ad.k → ℝ) : Ex (KVar d) :=
  .exp (.neg (.sum fun a => .mul (exDiff ad (ls a) a) (exDiff ad (ls a) a)))

/-- `_squared_exponential_kernel` and its wrapper, kernels/kernels.py 751-769. -/
noncomputable def seKARD (ad : Dims d) (ls : Fin ad.k → ℝ) (x1 : Batch n d) (x2 : Batch m d) :
    Arr2 n m := fun i j =>
  Real.exp (-squaredDistances (scaledARD ad ls x1) (scaledARD ad ls x2) i j)

/-- `(2.0 / lengthscale) * (z1[:, None] - z2)`, kernels/kernels.py 781-783, 820, 866: the last axis of the
difference is the feature. -/
noncomputable def seDiffARD (ad : Dims d) (ls : Fin ad.k → ℝ) (x1 : Batch n d) (x2 : Batch m d) :
    Fin n → Fin m → Fin ad.k → ℝ := fun i j a =>
  (2 / ls a) * (scaledARD ad ls x1 i a - scaledARD ad ls x2 j a)

/-- `_squared_exponential_kernel_d01k`, kernels/kernels.py 772-788. `ed2 * (2.0 / lengthscale**2)` pairs the
lengthscales with the samples of `x2`. -/
noncomputable def seD01kARD (ad : Dims d) (ls : Fin ad.k → ℝ) (x1 : Batch n d) (x2 : Batch m d) :
    Except Err (Arr2 (n * d) (m * d)) := do
  let c ← bcastSamples m (fun a => 2 / ls a ^ 2)
  let ed2 := seKARD ad ls x1 x2
  let diff : Fin n → Fin m → Fin d → ℝ := fun i j =>
    ad.scatterSet (fun _ => 0) (seDiffARD ad ls x1 x2 i j)
  let diag : Arr2 n m := fun i j => ed2 i j * c j
  return reshapeBoth fun i f j e =>
    ad.diagAdd (fun f e => -ed2 i j * diff i j f * diff i j e) (diag i j) f e

/-- `_squared_exponential_kernel_d01kj`, kernels/kernels.py 804-831. -/
noncomputable def seD01kjARD (ad : Dims d) (ls : Fin ad.k → ℝ) (x1 : Batch n d) (x2 : Batch m d)
    (J1 : Jac n d v1) (J2 : Jac m d v2) : Except Err (Arr2 (n * v1) (m * v2)) := do
  let ed2 := seKARD ad ls x1 x2
  let diff := seDiffARD ad ls x1 x2
  let diffJ1 : Fin n → Fin m → Fin v1 → ℝ := fun i j u => ∑ f, diff i j f * ad.takeJac J1 i f u
  let diffJ2 : Fin n → Fin m → Fin v2 → ℝ := fun i j w => ∑ f, diff i j f * ad.takeJac J2 j f w
  let c ← bcastSamples m (fun a => 2 / ls a ^ 2)
  let diag : Fin n → Fin m → Fin ad.k → ℝ := fun i j _ => ed2 i j * c j
  return reshapeBoth fun i u j w =>
    -ed2 i j * diffJ1 i j u * diffJ2 i j w +
      ∑ f, ad.takeJac J1 i f u * diag i j f * ad.takeJac J2 j f w

/-- `_squared_exponential_kernel_d01kjc`, kernels/kernels.py 851-877. -/
noncomputable def seD01kjcARD (ad : Dims d) (ls : Fin ad.k → ℝ) (x1 : Batch n d) (x2 : Batch m d)
    (jc : Batch n d) (J : Jac m d v) : Except Err (Arr2 n (m * v)) := do
  let ed2 := seKARD ad ls x1 x2
  let diff := seDiffARD ad ls x1 x2
  let diffJ1 : Fin n → Fin m → ℝ := fun i j => ∑ f, diff i j f * ad.takeCols jc i f
  let diffJ2 : Fin n → Fin m → Fin v → ℝ := fun i j w => ∑ f, diff i j f * ad.takeJac J j f w
  let c ← bcastSamples m (fun a => 2 / ls a ^ 2)
  let diag : Fin n → Fin m → Fin ad.k → ℝ := fun i j _ => ed2 i j * c j
  return reshapeCols fun i j w =>
    -ed2 i j * diffJ1 i j * diffJ2 i j w +
      ∑ f, ad.takeCols jc i f * diag i j f * ad.takeJac J j f w

/-! ## Matern -/

/-- `_matern12_kernel` and its wrapper, kernels/kernels.py 922-937. -/
noncomputable def matern12KARD (ad : Dims d) (ls : Fin ad.k → ℝ) (x1 : Batch n d) (x2 : Batch m d) :
    Arr2 n m := fun i j =>
  let d2 := squaredDistances (scaledARD ad ls x1) (scaledARD ad ls x2) i j
  let dist := Real.sqrt (max d2 maternFloor)
  Real.exp (-dist)

/-- `_matern32_kernel` and its wrapper, kernels/kernels.py 966-981. -/
noncomputable def matern32KARD (ad : Dims d) (ls : Fin ad.k → ℝ) (x1 : Batch n d) (x2 : Batch m d) :
    Arr2 n m := fun i j =>
  let d2 := squaredDistances (scaledARD ad ls x1) (scaledARD ad ls x2) i j
  let dist := Real.sqrt 3 * Real.sqrt (max d2 maternFloor)
  (1 + dist) * Real.exp (-dist)

/-- `_matern32_kernel_base` on the active features, kernels/kernels.py 945-953. -/
noncomputable def matern32BaseARD {k : ℕ} (ls x1 x2 : Fin k → ℝ) : ℝ :=
  let d2 := 3 * ∑ a, (x1 a / ls a - x2 a / ls a) ^ 2
  let dist := Real.sqrt (max d2 maternFloor)
  (1 + dist) * Real.exp (-dist)

/-- `_matern32_kernel_base_t2`, kernels/kernels.py 1000-1007, contracted with a direction of the
lengthscales, `atleast_1d(t2) @ atleast_1d(lengthscale_dot)`, 1017-1020: entry `a` of the vector `t2`. -/
noncomputable def matern32T2ARD {k : ℕ} (ls x1 x2 : Fin k → ℝ) (a : Fin k) : ℝ :=
  let diff : Fin k → ℝ := fun a => Real.sqrt 3 * (x1 a / ls a - x2 a / ls a)
  let dist := Real.sqrt (max (∑ a, diff a ^ 2) maternFloor)
  1 / ls a * Real.exp (-dist) * dist ^ 2

/-- `_matern52_kernel_base` on the active features, kernels/kernels.py 1029-1037. -/
noncomputable def matern52BaseARD {k : ℕ} (ls x1 x2 : Fin k → ℝ) : ℝ :=
  let d2 := 5 * ∑ a, (x1 a / ls a - x2 a / ls a) ^ 2
  let dist := Real.sqrt (max d2 maternFloor)
  (1 + dist + d2 / 3) * Real.exp (-dist)

/-- `_matern52_kernel_base_t2`, kernels/kernels.py 1084-1091 (rule at 1101-1104): entry `a`. -/
noncomputable def matern52T2ARD {k : ℕ} (ls x1 x2 : Fin k → ℝ) (a : Fin k) : ℝ :=
  let diff : Fin k → ℝ := fun a => Real.sqrt 5 * (x1 a / ls a - x2 a / ls a)
  let dist := Real.sqrt (max (∑ a, diff a ^ 2) maternFloor)
  1 / (3 * ls a) * Real.exp (-dist) * dist ^ 2 * (1 + dist)

/-- `d`, kernels/kernels.py 1053-1054, 1116-1117, 1174-1175, 1231-1232, 1267-1268, 1317-1318. -/
noncomputable def matern52DistARD (ad : Dims d) (ls : Fin ad.k → ℝ) (x1 : Batch n d)
    (x2 : Batch m d) : Arr2 n m := fun i j =>
  let d2 := squaredDistances (scaledARD ad ls x1) (scaledARD ad ls x2) i j
  Real.sqrt 5 * Real.sqrt (max d2 maternFloor)

/-- `_matern52_kernel` and its wrapper, kernels/kernels.py 1050-1065. -/
noncomputable def matern52KARD (ad : Dims d) (ls : Fin ad.k → ℝ) (x1 : Batch n d) (x2 : Batch m d) :
    Arr2 n m := fun i j =>
  let dist := matern52DistARD ad ls x1 x2 i j
  (1 + dist + dist ^ 2 / 3) * Real.exp (-dist)

/-- `jnp.sqrt(5.0) * (z1[:, None] - z2)`, kernels/kernels.py 1118, 1176, 1234, 1266, 1316. -/
noncomputable def matern52DiffARD (ad : Dims d) (ls : Fin ad.k → ℝ) (x1 : Batch n d)
    (x2 : Batch m d) : Fin n → Fin m → Fin ad.k → ℝ := fun i j a =>
  Real.sqrt 5 * (scaledARD ad ls x1 i a - scaledARD ad ls x2 j a)

/-- `_matern52_kernel_d0k`, kernels/kernels.py 1108-1122. The arrays have shape `(n, ·, m)`: the factor
`-(sqrt(5) / (3 * lengthscale))` meets the axis of the samples of `x2`. -/
noncomputable def matern52D0kARD (ad : Dims d) (ls : Fin ad.k → ℝ) (x1 : Batch n d)
    (x2 : Batch m d) : Except Err (Arr2 (n * d) m) := do
  let dist := matern52DistARD ad ls x1 x2
  let diff := matern52DiffARD ad ls x1 x2
  let c ← bcastSamples m (fun a => -(Real.sqrt 5 / (3 * ls a)))
  let d0k : Fin n → Fin d → Fin m → ℝ := fun i =>
    ad.scatterSet (fun _ _ => 0) (fun a j =>
      c j * (1 + dist i j) * Real.exp (-dist i j) * diff i j a)
  return reshapeRows d0k

/-- `_matern52_kernel_d0kj`, kernels/kernels.py 1135-1149. -/
noncomputable def matern52D0kjARD (ad : Dims d) (ls : Fin ad.k → ℝ) (x1 : Batch n d)
    (x2 : Batch m d) (J : Jac n d v) : Except Err (Arr2 (n * v) m) := do
  let r ← matern52D0kARD ad ls x1 x2
  let d0k := unshapeRows r
  return reshapeRows fun i u j => ∑ f, ad.takeJac J i f u * ad.take (d0k i) f j

/-- `_matern52_kernel_d1k`, kernels/kernels.py 1166-1180. The arrays have shape `(n, m, ·)`: here the factor
meets the features. -/
noncomputable def matern52D1kARD (ad : Dims d) (ls : Fin ad.k → ℝ) (x1 : Batch n d)
    (x2 : Batch m d) : Arr2 n (m * d) :=
  let dist := matern52DistARD ad ls x1 x2
  let diff := matern52DiffARD ad ls x1 x2
  let d1k : Fin n → Fin m → Fin d → ℝ := fun i j =>
    ad.scatterSet (fun _ => 0) (fun a =>
      (Real.sqrt 5 / (3 * ls a)) * (1 + dist i j) * Real.exp (-dist i j) * diff i j a)
  reshapeCols d1k

/-- `_matern52_kernel_d1kj`, kernels/kernels.py 1193-1207. -/
noncomputable def matern52D1kjARD (ad : Dims d) (ls : Fin ad.k → ℝ) (x1 : Batch n d)
    (x2 : Batch m d) (J : Jac m d v) : Arr2 n (m * v) :=
  let d1k := unshapeCols (matern52D1kARD ad ls x1 x2)
  reshapeCols fun i j u => ∑ f, ad.take (d1k i j) f * ad.takeJac J j f u

/-- `constant = (5.0 / (3.0 * lengthscale**2)) * jnp.exp(-d)`, kernels/kernels.py 1235, 1269, 1319. -/
noncomputable def matern52ConstARD (ad : Dims d) (ls : Fin ad.k → ℝ) (x1 : Batch n d)
    (x2 : Batch m d) : Except Err (Arr2 n m) := do
  let c ← bcastSamples m (fun a => 5 / (3 * ls a ^ 2))
  return fun i j => c j * Real.exp (-matern52DistARD ad ls x1 x2 i j)

/-- `_matern52_kernel_d01k`, kernels/kernels.py 1224-1240. -/
noncomputable def matern52D01kARD (ad : Dims d) (ls : Fin ad.k → ℝ) (x1 : Batch n d)
    (x2 : Batch m d) : Except Err (Arr2 (n * d) (m * d)) := do
  let dist := matern52DistARD ad ls x1 x2
  let diff : Fin n → Fin m → Fin d → ℝ := fun i j =>
    ad.scatterSet (fun _ => 0) (matern52DiffARD ad ls x1 x2 i j)
  let constant ← matern52ConstARD ad ls x1 x2
  let diag : Arr2 n m := fun i j => constant i j * (1 + dist i j)
  return reshapeBoth fun i f j e =>
    ad.diagAdd (fun f e => -constant i j * diff i j f * diff i j e) (diag i j) f e

/-- `_matern52_kernel_d01kj`, kernels/kernels.py 1253-1283. -/
noncomputable def matern52D01kjARD (ad : Dims d) (ls : Fin ad.k → ℝ) (x1 : Batch n d)
    (x2 : Batch m d) (J1 : Jac n d v1) (J2 : Jac m d v2) :
    Except Err (Arr2 (n * v1) (m * v2)) := do
  let dist := matern52DistARD ad ls x1 x2
  let diff := matern52DiffARD ad ls x1 x2
  let constant ← matern52ConstARD ad ls x1 x2
  let diffJ1 : Fin n → Fin m → Fin v1 → ℝ := fun i j u => ∑ f, diff i j f * ad.takeJac J1 i f u
  let diffJ2 : Fin n → Fin m → Fin v2 → ℝ := fun i j w => ∑ f, diff i j f * ad.takeJac J2 j f w
  let diag : Fin n → Fin m → Fin ad.k → ℝ := fun i j _ => constant i j * (1 + dist i j)
  return reshapeBoth fun i u j w =>
    -constant i j * diffJ1 i j u * diffJ2 i j w +
      ∑ f, ad.takeJac J1 i f u * diag i j f * ad.takeJac J2 j f w

/-- `_matern52_kernel_d01kjc`, kernels/kernels.py 1303-1332. -/
noncomputable def matern52D01kjcARD (ad : Dims d) (ls : Fin ad.k → ℝ) (x1 : Batch n d)
    (x2 : Batch m d) (jc : Batch n d) (J : Jac m d v) : Except Err (Arr2 n (m * v)) := do
  let dist := matern52DistARD ad ls x1 x2
  let diff := matern52DiffARD ad ls x1 x2
  let constant ← matern52ConstARD ad ls x1 x2
  let diffJ1 : Fin n → Fin m → ℝ := fun i j => ∑ f, diff i j f * ad.takeCols jc i f
  let diffJ2 : Fin n → Fin m → Fin v → ℝ := fun i j w => ∑ f, diff i j f * ad.takeJac J j f w
  let diag : Fin n → Fin m → Fin ad.k → ℝ := fun i j _ => constant i j * (1 + dist i j)
  return reshapeCols fun i j w =>
    -constant i j * diffJ1 i j * diffJ2 i j w +
      ∑ f, ad.takeCols jc i f * diag i j f * ad.takeJac J j f w

end GPX
