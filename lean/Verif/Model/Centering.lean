import Verif.Model.Arrays

/-!
# Kernel centering: gpx/kernels/operations.py 28-94
-/

namespace GPX

variable {n m : ℕ}

/-- `k.mean(0)`: the mean over the first axis (operations.py 62; over an empty axis the code gives `nan`, here `0`). -/
noncomputable def meanAxis0 (k : Arr2 n m) : Fin m → ℝ := fun j => (∑ i, k i j) / n

/-- `v.mean()` of a vector. -/
noncomputable def vecMean (v : Fin n → ℝ) : ℝ := (∑ i, v i) / n

/-- `kernel_center`, operations.py 28-62. `k` has one row per training point. -/
noncomputable def kernelCenter (k : Arr2 n m) (kMean : Fin n → ℝ) : Arr2 n m :=
  fun i j => k i j - meanAxis0 k j - kMean i + vecMean kMean

/-- `kernel_center_test_test`, operations.py 65-94. -/
noncomputable def kernelCenterTestTest (k : Arr2 m m) (kMeanTrain : Fin n → ℝ) (kMeanTrainTest : Fin m → ℝ) :
    Arr2 m m :=
  fun i j => k i j - kMeanTrainTest j - kMeanTrainTest i + vecMean kMeanTrain

end GPX
