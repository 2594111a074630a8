import Verif.Spec.Transfer
import Verif.Props.KernelLocal

/-! # Carrying kernels along a change of inputs -/

namespace GPX
open GPX.Spec GPX.Props

variable {d d' : ℕ}

/-- The kernel and its contracted derivatives agree on mapped data. -/
structure Carries (κ : KernelObj d) (p : KPar) (κ' : KernelObj d') (p' : KPar)
    (T L : (Fin d → ℝ) → (Fin d' → ℝ)) : Prop where
  k : ∀ {n m : ℕ} (x1 : Batch n d) (x2 : Batch m d) i j,
    κ'.k p' (mapBatch T x1) (mapBatch T x2) i j = κ.k p x1 x2 i j
  d0kj : ∀ {n m v : ℕ} (x1 : Batch n d) (x2 : Batch m d) (J : Jac n d v) i u j,
    κ'.d0kj p' (mapBatch T x1) (mapBatch T x2) (mapJac L J) (flat i u) j = κ.d0kj p x1 x2 J (flat i u) j
  d1kj : ∀ {n m v : ℕ} (x1 : Batch n d) (x2 : Batch m d) (J : Jac m d v) i j u,
    κ'.d1kj p' (mapBatch T x1) (mapBatch T x2) (mapJac L J) i (flat j u) = κ.d1kj p x1 x2 J i (flat j u)
  d01kj : ∀ {n m v w : ℕ} (x1 : Batch n d) (x2 : Batch m d) (J1 : Jac n d v) (J2 : Jac m d w) i u j r,
    κ'.d01kj p' (mapBatch T x1) (mapBatch T x2) (mapJac L J1) (mapJac L J2) (flat i u) (flat j r) =
      κ.d01kj p x1 x2 J1 J2 (flat i u) (flat j r)
  d0kjc : ∀ {n m : ℕ} (x1 : Batch n d) (x2 : Batch m d) (jc : Batch n d) i j,
    κ'.d0kjc p' (mapBatch T x1) (mapBatch T x2) (mapBatch L jc) i j = κ.d0kjc p x1 x2 jc i j
  d01kjc : ∀ {n m v : ℕ} (x1 : Batch n d) (x2 : Batch m d) (jc : Batch n d) (J : Jac m d v) i j u,
    κ'.d01kjc p' (mapBatch T x1) (mapBatch T x2) (mapBatch L jc) (mapJac L J) i (flat j u) =
      κ.d01kjc p x1 x2 jc J i (flat j u)

theorem Carries.sum {κ1 κ2 : KernelObj d} {p : KPar} {κ1' κ2' : KernelObj d'} {p' : KPar}
    {T L : (Fin d → ℝ) → (Fin d' → ℝ)} (h1 : Carries κ1 (p.sub "kernel1") κ1' (p'.sub "kernel1") T L)
    (h2 : Carries κ2 (p.sub "kernel2") κ2' (p'.sub "kernel2") T L) : Carries (κ1.sum κ2) p (κ1'.sum κ2') p' T L where
  k x1 x2 i j := by simp only [KernelObj.sum, sumKernels, Arr2.add]; rw [h1.k, h2.k]
  d0kj x1 x2 J i u j := by simp only [KernelObj.sum, sumKernelsJac, Arr2.add]; rw [h1.d0kj, h2.d0kj]
  d1kj x1 x2 J i j u := by simp only [KernelObj.sum, sumKernelsJac, Arr2.add]; rw [h1.d1kj, h2.d1kj]
  d01kj x1 x2 J1 J2 i u j r := by simp only [KernelObj.sum, sumKernelsJac2, Arr2.add]; rw [h1.d01kj, h2.d01kj]
  d0kjc x1 x2 jc i j := by simp only [KernelObj.sum, sumKernelsJac, Arr2.add]; rw [h1.d0kjc, h2.d0kjc]
  d01kjc x1 x2 jc J i j u := by simp only [KernelObj.sum, sumKernelsJac2, Arr2.add]; rw [h1.d01kjc, h2.d01kjc]

theorem Carries.prod {κ1 κ2 : KernelObj d} {p : KPar} {κ1' κ2' : KernelObj d'} {p' : KPar}
    {T L : (Fin d → ℝ) → (Fin d' → ℝ)} (h1 : Carries κ1 (p.sub "kernel1") κ1' (p'.sub "kernel1") T L)
    (h2 : Carries κ2 (p.sub "kernel2") κ2' (p'.sub "kernel2") T L) :
    Carries (κ1.prod κ2) p (κ1'.prod κ2') p' T L where
  k x1 x2 i j := by simp only [KernelObj.prod, prodKernels, Arr2.mul]; rw [h1.k, h2.k]
  d0kj x1 x2 J i u j := by
    simp only [KernelObj.prod, prodDeriv0Jac, Arr2.mul, Arr2.add, repeatRows_flat]
    rw [h1.k, h2.k, h1.d0kj, h2.d0kj]
  d1kj x1 x2 J i j u := by
    simp only [KernelObj.prod, prodDeriv1Jac, Arr2.mul, Arr2.add, repeatCols_flat]
    rw [h1.k, h2.k, h1.d1kj, h2.d1kj]
  d01kj x1 x2 J1 J2 i u j r := by
    simp only [KernelObj.prod, prodDeriv01Jac, Arr2.mul, Arr2.add, repeatCols_flat, repeatRows_flat]
    rw [h1.k, h2.k, h1.d0kj, h2.d0kj, h1.d1kj, h2.d1kj, h1.d01kj, h2.d01kj]
  d0kjc x1 x2 jc i j := by
    simp only [KernelObj.prod, prodDeriv0Jaccoef, Arr2.mul, Arr2.add]
    rw [h1.k, h2.k, h1.d0kjc, h2.d0kjc]
  d01kjc x1 x2 jc J i j u := by
    simp only [KernelObj.prod, prodDeriv01Jaccoef, Arr2.mul, Arr2.add, repeatCols_flat]
    rw [h1.k, h2.k, h1.d0kjc, h2.d0kjc, h1.d1kj, h2.d1kj, h1.d01kjc, h2.d01kjc]

/-- Leaves: it is enough to compare the closed forms sample by sample. -/
theorem Carries.ofClosed {κ : KernelObj d} {p : KPar} {ad : Dims d} {c : Core} (h : ClosedJ κ p ad c)
    {κ' : KernelObj d'} {p' : KPar} {ad' : Dims d'} {c' : Core} (h' : ClosedJ κ' p' ad' c')
    {T L : (Fin d → ℝ) → (Fin d' → ℝ)}
    (hK : ∀ x y, c'.K (ad'.take (T x)) (ad'.take (T y)) = c.K (ad.take x) (ad.take y))
    (hG0 : ∀ x y u, ∑ a, L u (ad'.idx a) * c'.G0 (ad'.take (T x)) (ad'.take (T y)) a =
      ∑ a, u (ad.idx a) * c.G0 (ad.take x) (ad.take y) a)
    (hG1 : ∀ x y u, ∑ a, c'.G1 (ad'.take (T x)) (ad'.take (T y)) a * L u (ad'.idx a) =
      ∑ a, c.G1 (ad.take x) (ad.take y) a * u (ad.idx a))
    (hC0 : ∀ x y u, ∑ a, L u (ad'.idx a) * c'.C0 (ad'.take (T x)) (ad'.take (T y)) a =
      ∑ a, u (ad.idx a) * c.C0 (ad.take x) (ad.take y) a)
    (hH : ∀ x y u w, ∑ a, ∑ b, L u (ad'.idx a) * c'.H (ad'.take (T x)) (ad'.take (T y)) a b * L w (ad'.idx b) =
      ∑ a, ∑ b, u (ad.idx a) * c.H (ad.take x) (ad.take y) a b * w (ad.idx b)) :
    Carries κ p κ' p' T L where
  k x1 x2 i j := by rw [h.k, h'.k]; exact hK _ _
  d0kj x1 x2 J i u j := by rw [h.d0kj, h'.d0kj]; exact hG0 (x1 i) (x2 j) fun g => J i g u
  d1kj x1 x2 J i j u := by rw [h.d1kj, h'.d1kj]; exact hG1 (x1 i) (x2 j) fun g => J j g u
  d01kj x1 x2 J1 J2 i u j r := by
    rw [h.d01kj, h'.d01kj]; exact hH (x1 i) (x2 j) (fun g => J1 i g u) fun g => J2 j g r
  d0kjc x1 x2 jc i j := by rw [h.d0kjc, h'.d0kjc]; exact hC0 (x1 i) (x2 j) (jc i)
  d01kjc x1 x2 jc J i j u := by
    rw [h.d01kjc, h'.d01kjc]; exact hH (x1 i) (x2 j) (jc i) fun g => J j g u

/-! ## Models -/

section Models

variable {κ : KernelObj d} {θ : GPParams} {κ' : KernelObj d'} {θ' : GPParams} {T L : (Fin d → ℝ) → (Fin d' → ℝ)}

theorem Carries.same (h : Carries κ θ.kernelParams κ' θ'.kernelParams T L) (hs : θ'.sigma = θ.sigma) :
    SameModels κ θ κ' θ' T L := by
  have hn : θ'.noise = θ.noise := by unfold GPParams.noise; rw [hs]
  have hk : ∀ {n m : ℕ} (x1 : Batch n d) (x2 : Batch m d),
      κ'.k θ'.kernelParams (mapBatch T x1) (mapBatch T x2) = κ.k θ.kernelParams x1 x2 := fun x1 x2 => by
    funext i j; exact h.k x1 x2 i j
  have h0 : ∀ {n m v : ℕ} (x1 : Batch n d) (x2 : Batch m d) (J : Jac n d v),
      κ'.d0kj θ'.kernelParams (mapBatch T x1) (mapBatch T x2) (mapJac L J) = κ.d0kj θ.kernelParams x1 x2 J :=
    fun x1 x2 J => by
      funext r j; obtain ⟨i, u, rfl⟩ := flat_surj r; exact h.d0kj x1 x2 J i u j
  have h1 : ∀ {n m v : ℕ} (x1 : Batch n d) (x2 : Batch m d) (J : Jac m d v),
      κ'.d1kj θ'.kernelParams (mapBatch T x1) (mapBatch T x2) (mapJac L J) = κ.d1kj θ.kernelParams x1 x2 J :=
    fun x1 x2 J => by
      funext i r; obtain ⟨j, u, rfl⟩ := flat_surj r; exact h.d1kj x1 x2 J i j u
  have h01 : ∀ {n m v w : ℕ} (x1 : Batch n d) (x2 : Batch m d) (J1 : Jac n d v) (J2 : Jac m d w),
      κ'.d01kj θ'.kernelParams (mapBatch T x1) (mapBatch T x2) (mapJac L J1) (mapJac L J2) =
        κ.d01kj θ.kernelParams x1 x2 J1 J2 := fun x1 x2 J1 J2 => by
    funext r s
    obtain ⟨i, u, rfl⟩ := flat_surj r
    obtain ⟨j, w, rfl⟩ := flat_surj s
    exact h.d01kj x1 x2 J1 J2 i u j w
  have h0c : ∀ {n m : ℕ} (x1 : Batch n d) (x2 : Batch m d) (jc : Batch n d),
      κ'.d0kjc θ'.kernelParams (mapBatch T x1) (mapBatch T x2) (mapBatch L jc) = κ.d0kjc θ.kernelParams x1 x2 jc :=
    fun x1 x2 jc => by funext i j; exact h.d0kjc x1 x2 jc i j
  have h01c : ∀ {n m v : ℕ} (x1 : Batch n d) (x2 : Batch m d) (jc : Batch n d) (J : Jac m d v),
      κ'.d01kjc θ'.kernelParams (mapBatch T x1) (mapBatch T x2) (mapBatch L jc) (mapJac L J) =
        κ.d01kjc θ.kernelParams x1 x2 jc J := fun x1 x2 jc J => by
    funext i r; obtain ⟨j, u, rfl⟩ := flat_surj r; exact h.d01kjc x1 x2 jc J i j u
  constructor <;> intros <;>
    simp only [fitDense, predictDense, predictDenseCov, lmlDense, fitDerivsDense, predictDerivsDense, predictDerivsFlat,
      predictDerivsDenseCov, predictDerivsCoef, predictYDerivsDense, predictYDerivsDenseCov, predictYDerivsCoef,
      lmlDerivsDense, fitOl, predictOl, sgprFitDense, sgprPredict, sgprPredictCov, sgprLmlDense, sgprFitDerivsDense,
      sgprPredictDerivs, sgprPredictYDerivs, sgprALhs, sgprADerivsLhs, aLhs, aLhsNoise, aDerivsLhs, aDerivsLhsNoise,
      hk, h0, h1, h01, h0c, h01c, hn, hs]

end Models

/-! ## Stationary kernels -/

/-- A family of cores, indexed by the lengthscale, that only look at the scaled difference of the samples. -/
def Radial (c : ℝ → Core) : Prop :=
  ∃ K0 g0 g1 gc h1 h2 : ℝ → ℝ, ∀ (l : ℝ) {k : ℕ} (x y : Fin k → ℝ),
    (c l).K x y = K0 (sqd l x y) ∧
    (∀ a, (c l).G0 x y a = g0 (sqd l x y) * ((x a / l - y a / l) / l)) ∧
    (∀ a, (c l).G1 x y a = g1 (sqd l x y) * ((x a / l - y a / l) / l)) ∧
    (∀ a, (c l).C0 x y a = gc (sqd l x y) * ((x a / l - y a / l) / l)) ∧
    ∀ a b, (c l).H x y a b = h1 (sqd l x y) * ((x a / l - y a / l) / l) * ((x b / l - y b / l) / l) +
      if a = b then h2 (sqd l x y) / l ^ 2 else 0

theorem radial_se : Radial Core.se := by
  refine ⟨fun s => Real.exp (-(s + sqDistJitter)), fun s => -2 * Real.exp (-s), fun s => 2 * Real.exp (-s),
    fun s => -2 * Real.exp (-s), fun s => -4 * Real.exp (-(s + sqDistJitter)), fun s => 2 * Real.exp (-(s + sqDistJitter)),
    fun l k x y => ⟨rfl, fun a => ?_, fun a => ?_, fun a => ?_, fun a b => ?_⟩⟩
  · simp only [Core.se]; ring
  · simp only [Core.se]; ring
  · simp only [Core.se]; ring
  · simp only [Core.se]; split_ifs <;> ring

/-- The derivative of the clamp used by the autodifferentiated distance. -/
noncomputable def clampInd (s : ℝ) : ℝ := if maternFloor < s then 1 else if s = maternFloor then 1 / 2 else 0

theorem clampInd_eq (s : ℝ) : (if maternFloor < s then (1 : ℝ) else if s = maternFloor then 1 / 2 else 0) = clampInd s := rfl

theorem radial_m12 : Radial Core.m12 := by
  refine ⟨fun s => Real.exp (-Real.sqrt (max (s + sqDistJitter) maternFloor)),
    fun s => -(clampInd s * (Real.sqrt (max s maternFloor))⁻¹) * Real.exp (-Real.sqrt (max s maternFloor)),
    fun s => clampInd s * (Real.sqrt (max s maternFloor))⁻¹ * Real.exp (-Real.sqrt (max s maternFloor)),
    fun s => -(clampInd s * (Real.sqrt (max s maternFloor))⁻¹) * Real.exp (-Real.sqrt (max s maternFloor)),
    fun s => -(clampInd s ^ 2 * ((Real.sqrt (max s maternFloor))⁻¹ ^ 3 + (Real.sqrt (max s maternFloor))⁻¹ ^ 2)) *
      Real.exp (-Real.sqrt (max s maternFloor)),
    fun s => clampInd s * (Real.sqrt (max s maternFloor))⁻¹ * Real.exp (-Real.sqrt (max s maternFloor)),
    fun l k x y => ⟨rfl, fun a => ?_, fun a => ?_, fun a => ?_, fun a b => ?_⟩⟩ <;>
  simp only [Core.m12, Core.ofEx, m12Ex, Ex.D, Ex.eval, eval_D_sqDistEx_inl, eval_D_sqDistEx_inr,
      eval_sqDistEx, eval_DD_sqDistEx, clampInd_eq]
  · ring
  · ring
  · ring
  · by_cases hab : a = b
    · rw [if_pos hab, if_pos hab]; ring
    · rw [if_neg hab, if_neg hab]; ring

theorem radial_m32 : Radial Core.m32 := by
  refine ⟨fun s => (1 + Real.sqrt 3 * Real.sqrt (max (s + sqDistJitter) maternFloor)) *
      Real.exp (-(Real.sqrt 3 * Real.sqrt (max (s + sqDistJitter) maternFloor))),
    fun s => -(Real.sqrt 3) ^ 2 * Real.exp (-Real.sqrt (max (3 * s) maternFloor)),
    fun s => (Real.sqrt 3) ^ 2 * Real.exp (-Real.sqrt (max (3 * s) maternFloor)),
    fun s => -(Real.sqrt 3) ^ 2 * Real.exp (-Real.sqrt (max (3 * s) maternFloor)),
    fun s => -(Real.sqrt 3) ^ 2 * 3 * (clampInd (3 * s) * (Real.sqrt (max (3 * s) maternFloor))⁻¹) *
      Real.exp (-Real.sqrt (max (3 * s) maternFloor)),
    fun s => (Real.sqrt 3) ^ 2 * Real.exp (-Real.sqrt (max (3 * s) maternFloor)),
    fun l k x y => ⟨rfl, fun a => ?_, fun a => ?_, fun a => ?_, fun a b => ?_⟩⟩ <;>
  simp only [Core.m32, Core.customJvp, m32T0Ex, Ex.D, Ex.eval, eval_mDiffEx, eval_D_mDiffEx,
      eval_mDistDiffEx (by norm_num : (0 : ℝ) ≤ 3), eval_D_mDistDiffEx (by norm_num : (0 : ℝ) ≤ 3), clampInd_eq]
  · ring
  · ring
  · ring
  · by_cases hab : a = b
    · rw [if_pos hab, if_pos hab]; ring
    · rw [if_neg hab, if_neg hab]; ring

theorem radial_m52 : Radial Core.m52 := by
  refine ⟨fun s => (1 + m52Dist s + m52Dist s ^ 2 / 3) * Real.exp (-m52Dist s),
    fun s => -((Real.sqrt 5) ^ 2 / 3) * (1 + m52Dist s) * Real.exp (-m52Dist s),
    fun s => (Real.sqrt 5) ^ 2 / 3 * (1 + m52Dist s) * Real.exp (-m52Dist s),
    fun s => -((Real.sqrt 5) ^ 2 / 3) * (1 + Real.sqrt (max (5 * s) maternFloor)) *
      Real.exp (-Real.sqrt (max (5 * s) maternFloor)),
    fun s => -(5 / 3 * Real.exp (-m52Dist s)) * (Real.sqrt 5) ^ 2,
    fun s => 5 / 3 * Real.exp (-m52Dist s) * (1 + m52Dist s),
    fun l k x y => ⟨rfl, fun a => ?_, fun a => ?_, fun a => ?_, fun a b => ?_⟩⟩ <;>
  simp only [Core.m52, m52T0Ex, Ex.eval, eval_mDiffEx, eval_mDistDiffEx (by norm_num : (0 : ℝ) ≤ 5)]
  · ring
  · ring
  · ring
  · by_cases hab : a = b
    · rw [if_pos hab, if_pos hab]; ring
    · rw [if_neg hab, if_neg hab]; ring

/-- A change of inputs that multiplies inner products of the selected features by `(l' / l)²`. -/
theorem Carries.ofRadial {c : ℝ → Core} (hc : Radial c) {κ : KernelObj d} {p : KPar} {ad : Dims d} {l : ℝ}
    (h : ClosedJ κ p ad (c l)) {κ' : KernelObj d'} {p' : KPar} {ad' : Dims d'} {l' : ℝ}
    (h' : ClosedJ κ' p' ad' (c l')) {T L : (Fin d → ℝ) → (Fin d' → ℝ)}
    (hT : ∀ x y a, T x (ad'.idx a) - T y (ad'.idx a) = L (fun f => x f - y f) (ad'.idx a))
    (hL : ∀ u w, (∑ a, L u (ad'.idx a) * L w (ad'.idx a)) / l' ^ 2 = (∑ a, u (ad.idx a) * w (ad.idx a)) / l ^ 2) :
    Carries κ p κ' p' T L := by
  obtain ⟨K0, g0, g1, gc, h1, h2, hall⟩ := hc
  -- the three invariants
  have e1 : ∀ x y, sqd l' (ad'.take (T x)) (ad'.take (T y)) = sqd l (ad.take x) (ad.take y) := fun x y => by
    have := hL (fun f => x f - y f) (fun f => x f - y f)
    rw [Finset.sum_div, Finset.sum_div] at this
    unfold sqd Dims.take
    calc ∑ a, (T x (ad'.idx a) / l' - T y (ad'.idx a) / l') ^ 2
        = ∑ a, L (fun f => x f - y f) (ad'.idx a) * L (fun f => x f - y f) (ad'.idx a) / l' ^ 2 :=
          Finset.sum_congr rfl fun a _ => by rw [← hT]; ring
      _ = _ := this
      _ = _ := Finset.sum_congr rfl fun a _ => by ring
  have e2 : ∀ x y u, ∑ a, L u (ad'.idx a) * ((T x (ad'.idx a) / l' - T y (ad'.idx a) / l') / l') =
      ∑ a, u (ad.idx a) * ((x (ad.idx a) / l - y (ad.idx a) / l) / l) := fun x y u => by
    have := hL u (fun f => x f - y f)
    rw [Finset.sum_div, Finset.sum_div] at this
    calc ∑ a, L u (ad'.idx a) * ((T x (ad'.idx a) / l' - T y (ad'.idx a) / l') / l')
        = ∑ a, L u (ad'.idx a) * L (fun f => x f - y f) (ad'.idx a) / l' ^ 2 :=
          Finset.sum_congr rfl fun a _ => by rw [← hT]; ring
      _ = _ := this
      _ = _ := Finset.sum_congr rfl fun a _ => by ring
  have e3 : ∀ u w, ∑ a, L u (ad'.idx a) * L w (ad'.idx a) / l' ^ 2 = ∑ a, u (ad.idx a) * w (ad.idx a) / l ^ 2 :=
    fun u w => by rw [← Finset.sum_div, ← Finset.sum_div]; exact hL u w
  have lin : ∀ (g : ℝ → ℝ) x y u,
      ∑ a, L u (ad'.idx a) * (g (sqd l' (ad'.take (T x)) (ad'.take (T y))) *
        ((ad'.take (T x) a / l' - ad'.take (T y) a / l') / l')) =
      ∑ a, u (ad.idx a) * (g (sqd l (ad.take x) (ad.take y)) * ((ad.take x a / l - ad.take y a / l) / l)) :=
    fun g x y u => by
      rw [e1]
      simp only [mul_left_comm _ (g _), ← Finset.mul_sum]
      congr 1
      exact e2 x y u
  refine Carries.ofClosed h h' (fun x y => ?_) (fun x y u => ?_) (fun x y u => ?_) (fun x y u => ?_)
    (fun x y u w => ?_)
  · rw [(hall l' _ _).1, (hall l _ _).1, e1]
  · simp only [(hall l' _ _).2.1, (hall l _ _).2.1]
    exact lin g0 x y u
  · simp only [(hall l' _ _).2.2.1, (hall l _ _).2.2.1]
    simp only [mul_comm _ (L u _), mul_comm _ (u _)]
    exact lin g1 x y u
  · simp only [(hall l' _ _).2.2.2.1, (hall l _ _).2.2.2.1]
    exact lin gc x y u
  · simp only [(hall l' _ _).2.2.2.2, (hall l _ _).2.2.2.2]
    have split : ∀ {k : ℕ} (A B : ℝ) (r s q : Fin k → ℝ) (m : ℝ),
        ∑ a, ∑ b, r a * (A * q a * q b + if a = b then B / m ^ 2 else 0) * s b =
          A * (∑ a, r a * q a) * (∑ b, s b * q b) + B * ∑ a, r a * s a / m ^ 2 := fun {k} A B r s q m => by
      have : ∀ a b, r a * (A * q a * q b + if a = b then B / m ^ 2 else 0) * s b =
          A * (r a * q a) * (s b * q b) + if a = b then B * (r a * s a / m ^ 2) else 0 := fun a b => by
        by_cases hab : a = b
        · subst hab; simp only [if_true]; ring
        · rw [if_neg hab, if_neg hab]; ring
      simp only [this, Finset.sum_add_distrib, Finset.sum_ite_eq, Finset.mem_univ, if_true]
      simp only [← Finset.mul_sum]
      congr 1
      rw [← Finset.sum_mul, ← Finset.mul_sum]
    rw [split, split, e1]
    have f1 := e2 x y u
    have f2 := e2 x y w
    have f3 := e3 u w
    simp only [Dims.take] at f1 f2 ⊢
    rw [f1, f2, f3]

end GPX
