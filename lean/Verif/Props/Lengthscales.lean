import Verif.Spec.Lengthscales
import Verif.Props.Bounded
import Verif.Props.Continuity

/-!
# C167: very long and very short lengthscales
-/

namespace GPX.Props
open GPX GPX.Spec Filter Topology Matrix

variable {d m n o : ℕ} {la : LinAlg}

theorem stretch_sub (p : KPar) (s : ℝ) (k : String) (hk : k ≠ "lengthscale") :
    (stretch p s).sub k = stretch (p.sub k) s := by
  funext path
  simp only [KPar.sub, stretch]
  cases path with
  | nil => simp [hk]
  | cons a r => rw [List.getLast?_cons_cons]

theorem stretch_length (p : KPar) (s : ℝ) : (stretch p s).val "lengthscale" = s * p.val "lengthscale" := by
  simp [stretch, KPar.val]

theorem stretch_other (p : KPar) (s : ℝ) (k : String) (hk : k ≠ "lengthscale") : (stretch p s).val k = p.val k := by
  simp [stretch, KPar.val, hk]

theorem stretch_admissible (e : KExpr d) (p : KPar) (h : Admissible e p) (hb : BoundedExpr e) {s : ℝ} (hs : 0 < s) :
    Admissible e (stretch p s) := by
  induction e generalizing p with
  | constant a => simpa only [Admissible, stretch_other p s "variance" (by decide)] using h
  | linear a => trivial
  | polynomial a b => exact hb.elim
  | squaredExponential a => simpa only [Admissible, stretch_length] using mul_pos hs h
  | matern12 a => simpa only [Admissible, stretch_length] using mul_pos hs h
  | matern32 a => simpa only [Admissible, stretch_length] using mul_pos hs h
  | matern52 a => simpa only [Admissible, stretch_length] using mul_pos hs h
  | expSinSquared a =>
    refine ⟨?_, ?_⟩
    · rw [stretch_length]; exact mul_pos hs h.1
    · rw [stretch_other p s "periodicity" (by decide)]; exact h.2
  | sum e1 e2 ih1 ih2 =>
    refine ⟨?_, ?_⟩
    · rw [stretch_sub _ _ _ (by decide)]; exact ih1 _ h.1 hb.1
    · rw [stretch_sub _ _ _ (by decide)]; exact ih2 _ h.2 hb.2
  | prod e1 e2 ih1 ih2 =>
    refine ⟨?_, ?_⟩
    · rw [stretch_sub _ _ _ (by decide)]; exact ih1 _ h.1 hb.1
    · rw [stretch_sub _ _ _ (by decide)]; exact ih2 _ h.2 hb.2

/-- Squared distances of scaled inputs. -/
theorem sqDist_scaled (ad : Dims d) (l : ℝ) (x1 : Batch n d) (x2 : Batch m d) (i : Fin n) (j : Fin m) :
    squaredDistances (scaled ad l x1) (scaled ad l x2) i j =
      (∑ a, (x1 i (ad.idx a) - x2 j (ad.idx a)) ^ 2) * (l⁻¹) ^ 2 + sqDistJitter := by
  simp only [squaredDistances, scaled, Dims.takeCols, Dims.take]
  rw [Finset.sum_mul, Finset.mul_sum, ← Finset.sum_sub_distrib, ← Finset.sum_add_distrib]
  congr 1
  exact Finset.sum_congr rfl fun a _ => by ring

theorem sqDist_self (ad : Dims d) (l : ℝ) (z : Batch n d) (i : Fin n) :
    squaredDistances (scaled ad l z) (scaled ad l z) i i = sqDistJitter := by
  rw [sqDist_scaled]
  simp

theorem sqDist_long (ad : Dims d) {l : ℝ} (hl : 0 < l) (x1 : Batch n d) (x2 : Batch m d) (i : Fin n) (j : Fin m) :
    Tendsto (fun s : ℝ => squaredDistances (scaled ad (s * l) x1) (scaled ad (s * l) x2) i j) atTop (𝓝 sqDistJitter) := by
  simp only [sqDist_scaled]
  have h1 : Tendsto (fun s : ℝ => (s * l)⁻¹) atTop (𝓝 0) := (tendsto_id.atTop_mul_const hl).inv_tendsto_atTop
  have := ((h1.pow 2).const_mul (∑ a, (x1 i (ad.idx a) - x2 j (ad.idx a)) ^ 2)).add_const sqDistJitter
  simpa using this

/-- **C167**, kernels: the value of a kernel of constants and stationary kernels at any two inputs tends to its value at equal
inputs when all lengthscales grow. -/
theorem kernel_long (e : KExpr d) (p : KPar) (h : Admissible e p) (hb : BoundedExpr e) (x1 : Batch n d) (x2 : Batch m d)
    (i : Fin n) (j : Fin m) {q : ℕ} (z : Batch q d) (k : Fin q) :
    Tendsto (fun s : ℝ => e.obj.k (stretch p s) x1 x2 i j) atTop (𝓝 (e.obj.k p z z k k)) := by
  induction e generalizing p with
  | constant a =>
    have : ∀ s, (KExpr.constant a : KExpr d).obj.k (stretch p s) x1 x2 i j = (KExpr.constant a : KExpr d).obj.k p z z k k :=
      fun s => by
        change 1 * (stretch p s).val "variance" = 1 * p.val "variance"
        rw [stretch_other p s "variance" (by decide)]
    simp only [this]
    exact tendsto_const_nhds
  | linear a => exact hb.elim
  | polynomial a b => exact hb.elim
  | squaredExponential a =>
    have hD := sqDist_long (Dims.resolve a) h x1 x2 i j
    have : ∀ s, (KExpr.squaredExponential a : KExpr d).obj.k (stretch p s) x1 x2 i j = Real.exp (-squaredDistances
        (scaled (Dims.resolve a) (s * p.val "lengthscale") x1) (scaled (Dims.resolve a) (s * p.val "lengthscale") x2) i j) :=
      fun s => by rw [← stretch_length]; rfl
    simp only [this]
    have hz : (KExpr.squaredExponential a : KExpr d).obj.k p z z k k = Real.exp (-sqDistJitter) := by
      rw [← sqDist_self (Dims.resolve a) (p.val "lengthscale") z k]; rfl
    rw [hz]
    exact (Real.continuous_exp.tendsto _).comp hD.neg
  | matern12 a =>
    have hD := sqDist_long (Dims.resolve a) h x1 x2 i j
    have : ∀ s, (KExpr.matern12 a : KExpr d).obj.k (stretch p s) x1 x2 i j = Real.exp (-Real.sqrt (max (squaredDistances
        (scaled (Dims.resolve a) (s * p.val "lengthscale") x1) (scaled (Dims.resolve a) (s * p.val "lengthscale") x2) i j)
        maternFloor)) :=
      fun s => by rw [← stretch_length]; rfl
    simp only [this]
    have hz : (KExpr.matern12 a : KExpr d).obj.k p z z k k = Real.exp (-Real.sqrt (max sqDistJitter maternFloor)) := by
      rw [← sqDist_self (Dims.resolve a) (p.val "lengthscale") z k]; rfl
    rw [hz]
    exact (Real.continuous_exp.tendsto _).comp ((hD.max tendsto_const_nhds).sqrt).neg
  | matern32 a =>
    have hD := sqDist_long (Dims.resolve a) h x1 x2 i j
    have : ∀ s, (KExpr.matern32 a : KExpr d).obj.k (stretch p s) x1 x2 i j =
        (fun D => (1 + Real.sqrt 3 * Real.sqrt (max D maternFloor)) * Real.exp (-(Real.sqrt 3 * Real.sqrt (max D maternFloor))))
        (squaredDistances
        (scaled (Dims.resolve a) (s * p.val "lengthscale") x1) (scaled (Dims.resolve a) (s * p.val "lengthscale") x2) i j) :=
      fun s => by rw [← stretch_length]; rfl
    simp only [this]
    have hz : (KExpr.matern32 a : KExpr d).obj.k p z z k k =
        (fun D => (1 + Real.sqrt 3 * Real.sqrt (max D maternFloor)) * Real.exp (-(Real.sqrt 3 * Real.sqrt (max D maternFloor))))
        sqDistJitter := by
      rw [← sqDist_self (Dims.resolve a) (p.val "lengthscale") z k]; rfl
    rw [hz]
    have hS := ((hD.max (tendsto_const_nhds (x := maternFloor))).sqrt).const_mul (Real.sqrt 3)
    exact (tendsto_const_nhds.add hS).mul ((Real.continuous_exp.tendsto _).comp hS.neg)
  | matern52 a =>
    have hD := sqDist_long (Dims.resolve a) h x1 x2 i j
    have : ∀ s, (KExpr.matern52 a : KExpr d).obj.k (stretch p s) x1 x2 i j =
        (fun D => (1 + Real.sqrt 5 * Real.sqrt (max D maternFloor) + (Real.sqrt 5 * Real.sqrt (max D maternFloor)) ^ 2 / 3) *
          Real.exp (-(Real.sqrt 5 * Real.sqrt (max D maternFloor))))
        (squaredDistances
        (scaled (Dims.resolve a) (s * p.val "lengthscale") x1) (scaled (Dims.resolve a) (s * p.val "lengthscale") x2) i j) :=
      fun s => by rw [← stretch_length]; rfl
    simp only [this]
    have hz : (KExpr.matern52 a : KExpr d).obj.k p z z k k =
        (fun D => (1 + Real.sqrt 5 * Real.sqrt (max D maternFloor) + (Real.sqrt 5 * Real.sqrt (max D maternFloor)) ^ 2 / 3) *
          Real.exp (-(Real.sqrt 5 * Real.sqrt (max D maternFloor))))
        sqDistJitter := by
      rw [← sqDist_self (Dims.resolve a) (p.val "lengthscale") z k]; rfl
    rw [hz]
    have hS := ((hD.max (tendsto_const_nhds (x := maternFloor))).sqrt).const_mul (Real.sqrt 5)
    exact ((tendsto_const_nhds.add hS).add ((hS.pow 2).div_const 3)).mul ((Real.continuous_exp.tendsto _).comp hS.neg)
  | expSinSquared a =>
    have hf : ∀ s, (KExpr.expSinSquared a : KExpr d).obj.k (stretch p s) x1 x2 i j =
        Real.exp (-4 * ∑ b, Real.sin (Real.pi * |x1 i ((Dims.resolve a).idx b) - x2 j ((Dims.resolve a).idx b)| /
          p.val "periodicity") ^ 2 / (s * p.val "lengthscale")) := fun s => by
      rw [← stretch_length, ← stretch_other p s "periodicity" (by decide)]
      exact ess_value a (stretch p s) x1 x2 i j
    simp only [hf]
    have hz : (KExpr.expSinSquared a : KExpr d).obj.k p z z k k = Real.exp (-4 * ∑ _b : Fin (Dims.resolve a).k, 0) := by
      refine (ess_value a p z z k k).trans ?_
      simp
    rw [hz]
    refine (Real.continuous_exp.tendsto _).comp ((tendsto_finsetSum _ fun b _ => ?_).const_mul _)
    exact (tendsto_id.atTop_mul_const h.1).const_div_atTop _
  | sum e1 e2 ih1 ih2 =>
    have := (ih1 _ h.1 hb.1).add (ih2 _ h.2 hb.2)
    simp only [← stretch_sub p _ "kernel1" (by decide), ← stretch_sub p _ "kernel2" (by decide)] at this
    exact this
  | prod e1 e2 ih1 ih2 =>
    have := (ih1 _ h.1 hb.1).mul (ih2 _ h.2 hb.2)
    simp only [← stretch_sub p _ "kernel1" (by decide), ← stretch_sub p _ "kernel2" (by decide)] at this
    exact this

/-- Two inputs told apart by the kernel: its value tends to zero when all lengthscales shrink. -/
theorem kernel_short (e : KExpr d) (p : KPar) (h : Admissible e p) (hb : BoundedExpr e) (x1 : Batch n d) (x2 : Batch m d)
    (i : Fin n) (j : Fin m) (f : Fin d) (hf : DecaysAlong e f) (hne : x1 i f ≠ x2 j f) :
    Tendsto (fun s : ℝ => e.obj.k (stretch p s) x1 x2 i j) (𝓝[>] 0) (𝓝 0) := by
  have hR : 0 < |x1 i f - x2 j f| := abs_pos.mpr (sub_ne_zero.mpr hne)
  have leaf : ∀ (a : Option (Dims d)) (p : KPar), 0 < p.val "lengthscale" → Uses a f →
      ∀ κ ∈ [KernelObj.squaredExponential a, KernelObj.matern12 a, KernelObj.matern32 a, KernelObj.matern52 a],
      Tendsto (fun s : ℝ => κ.k (stretch p s) x1 x2 i j) (𝓝[>] 0) (𝓝 0) := by
    intro a p hl hu κ hκ
    have hid : Tendsto (fun s : ℝ => 6 * (s * p.val "lengthscale") / |x1 i f - x2 j f|) (𝓝[>] 0) (𝓝 0) := by
      have : Continuous fun s : ℝ => 6 * (s * p.val "lengthscale") / |x1 i f - x2 j f| := by fun_prop
      have := (this.tendsto 0).mono_left (nhdsWithin_le_nhds (s := Set.Ioi 0))
      simpa using this
    refine squeeze_zero_norm' ?_ hid
    filter_upwards [self_mem_nhdsWithin] with s hs
    have hs' : 0 < (stretch p s).val "lengthscale" := by rw [stretch_length]; exact mul_pos hs hl
    have := (leaf_decay a (stretch p s) hs' κ hκ x1 x2 i j).2 f hu _ hR le_rfl
    rwa [stretch_length] at this
  have bdd : ∀ (e : KExpr d) (p : KPar), Admissible e p → BoundedExpr e →
      ∃ B : ℝ, ∀ s > 0, |e.obj.k (stretch p s) x1 x2 i j| ≤ B := by
    intro e
    induction e with
    | constant a => exact fun p hp _ => ⟨|1 * p.val "variance"|, fun s _ => by
        change |1 * (stretch p s).val "variance"| ≤ _
        rw [stretch_other p s "variance" (by decide)]⟩
    | linear a => exact fun p hp hb => hb.elim
    | polynomial a b => exact fun p hp hb => hb.elim
    | squaredExponential a => exact fun p hp hb => ⟨1, fun s hs =>
        (leaf_decay a (stretch p s) (stretch_admissible (.squaredExponential a) p hp hb hs) (KernelObj.squaredExponential a)
          (by simp) x1 x2 i j).1⟩
    | matern12 a => exact fun p hp hb => ⟨1, fun s hs =>
        (leaf_decay a (stretch p s) (stretch_admissible (.matern12 a) p hp hb hs) (KernelObj.matern12 a)
          (by simp) x1 x2 i j).1⟩
    | matern32 a => exact fun p hp hb => ⟨1, fun s hs =>
        (leaf_decay a (stretch p s) (stretch_admissible (.matern32 a) p hp hb hs) (KernelObj.matern32 a)
          (by simp) x1 x2 i j).1⟩
    | matern52 a => exact fun p hp hb => ⟨1, fun s hs =>
        (leaf_decay a (stretch p s) (stretch_admissible (.matern52 a) p hp hb hs) (KernelObj.matern52 a)
          (by simp) x1 x2 i j).1⟩
    | expSinSquared a => exact fun p hp hb => ⟨1, fun s hs => by
        obtain ⟨c, -, hc1, hall⟩ := C23_stationary a (stretch p s)
          (stretch_admissible (.expSinSquared a) p hp hb hs).1 (KernelObj.expSinSquared a) (by simp)
        obtain ⟨-, hpos, hle, -⟩ := hall x1 x2 i j
        exact (abs_of_pos hpos).le.trans (hle.trans hc1)⟩
    | sum e1 e2 ih1 ih2 =>
      intro p hp hb
      obtain ⟨B1, h1⟩ := ih1 _ hp.1 hb.1
      obtain ⟨B2, h2⟩ := ih2 _ hp.2 hb.2
      refine ⟨B1 + B2, fun s hs => ?_⟩
      have a1 := h1 s hs
      have a2 := h2 s hs
      rw [← stretch_sub p _ _ (by decide)] at a1 a2
      exact (abs_add_le _ _).trans (add_le_add a1 a2)
    | prod e1 e2 ih1 ih2 =>
      intro p hp hb
      obtain ⟨B1, h1⟩ := ih1 _ hp.1 hb.1
      obtain ⟨B2, h2⟩ := ih2 _ hp.2 hb.2
      refine ⟨B1 * B2, fun s hs => ?_⟩
      have a1 := h1 s hs
      have a2 := h2 s hs
      rw [← stretch_sub p _ _ (by decide)] at a1 a2
      exact (abs_mul _ _).trans_le (mul_le_mul a1 a2 (abs_nonneg _) ((abs_nonneg _).trans a1))
  induction e generalizing p with
  | constant a => exact hf.elim
  | linear a => exact hb.elim
  | polynomial a b => exact hb.elim
  | squaredExponential a => exact leaf a p h hf (KernelObj.squaredExponential a) (by simp)
  | matern12 a => exact leaf a p h hf (KernelObj.matern12 a) (by simp)
  | matern32 a => exact leaf a p h hf (KernelObj.matern32 a) (by simp)
  | matern52 a => exact leaf a p h hf (KernelObj.matern52 a) (by simp)
  | expSinSquared a => exact hf.elim
  | sum e1 e2 ih1 ih2 =>
    have := (ih1 _ h.1 hb.1 hf.1).add (ih2 _ h.2 hb.2 hf.2)
    simp only [← stretch_sub p _ "kernel1" (by decide), ← stretch_sub p _ "kernel2" (by decide), add_zero] at this
    exact this
  | prod e1 e2 ih1 ih2 =>
    rcases hf with hf | hf
    · obtain ⟨B, hB⟩ := bdd e2 _ h.2 hb.2
      have l1 := (ih1 _ h.1 hb.1 hf).abs.mul_const B
      rw [abs_zero, zero_mul] at l1
      refine squeeze_zero_norm' ?_ l1
      filter_upwards [self_mem_nhdsWithin] with s hs
      have a2 := hB s hs
      rw [← stretch_sub p _ "kernel2" (by decide)] at a2
      rw [← stretch_sub p _ "kernel1" (by decide)]
      exact (abs_mul _ _).trans_le (mul_le_mul_of_nonneg_left a2 (abs_nonneg _))
    · obtain ⟨B, hB⟩ := bdd e1 _ h.1 hb.1
      have l1 := (ih2 _ h.2 hb.2 hf).abs.const_mul B
      rw [abs_zero, mul_zero] at l1
      refine squeeze_zero_norm' ?_ l1
      filter_upwards [self_mem_nhdsWithin] with s hs
      have a2 := hB s hs
      rw [← stretch_sub p _ "kernel1" (by decide)] at a2
      rw [← stretch_sub p _ "kernel2" (by decide)]
      exact (abs_mul _ _).trans_le (mul_le_mul_of_nonneg_right a2 (abs_nonneg _))

/-- Equal inputs: the value does not depend on the lengthscales, nor on the input. -/
theorem kernel_same (e : KExpr d) (p : KPar) (hb : BoundedExpr e) (s : ℝ) (x1 : Batch n d) (x2 : Batch m d)
    (i : Fin n) (j : Fin m) (hx : ∀ f, x1 i f = x2 j f) {q : ℕ} (z : Batch q d) (k : Fin q) :
    e.obj.k (stretch p s) x1 x2 i j = e.obj.k p z z k k := by
  have hD : ∀ (ad : Dims d) (l : ℝ), squaredDistances (scaled ad l x1) (scaled ad l x2) i j = sqDistJitter := fun ad l => by
    rw [sqDist_scaled]
    simp [hx]
  induction e generalizing p with
  | constant a =>
    change 1 * (stretch p s).val "variance" = 1 * p.val "variance"
    rw [stretch_other p s "variance" (by decide)]
  | linear a => exact hb.elim
  | polynomial a b => exact hb.elim
  | squaredExponential a =>
    change Real.exp (-squaredDistances _ _ i j) = Real.exp (-squaredDistances _ _ k k)
    rw [hD, sqDist_self]
  | matern12 a =>
    change Real.exp (-Real.sqrt (max (squaredDistances _ _ i j) maternFloor)) =
      Real.exp (-Real.sqrt (max (squaredDistances _ _ k k) maternFloor))
    rw [hD, sqDist_self]
  | matern32 a =>
    change (1 + Real.sqrt 3 * Real.sqrt (max (squaredDistances _ _ i j) maternFloor)) *
        Real.exp (-(Real.sqrt 3 * Real.sqrt (max (squaredDistances _ _ i j) maternFloor))) =
      (1 + Real.sqrt 3 * Real.sqrt (max (squaredDistances _ _ k k) maternFloor)) *
        Real.exp (-(Real.sqrt 3 * Real.sqrt (max (squaredDistances _ _ k k) maternFloor)))
    rw [hD, sqDist_self]
  | matern52 a =>
    change (1 + Real.sqrt 5 * Real.sqrt (max (squaredDistances _ _ i j) maternFloor) +
          (Real.sqrt 5 * Real.sqrt (max (squaredDistances _ _ i j) maternFloor)) ^ 2 / 3) *
        Real.exp (-(Real.sqrt 5 * Real.sqrt (max (squaredDistances _ _ i j) maternFloor))) =
      (1 + Real.sqrt 5 * Real.sqrt (max (squaredDistances _ _ k k) maternFloor) +
          (Real.sqrt 5 * Real.sqrt (max (squaredDistances _ _ k k) maternFloor)) ^ 2 / 3) *
        Real.exp (-(Real.sqrt 5 * Real.sqrt (max (squaredDistances _ _ k k) maternFloor)))
    rw [hD, sqDist_self]
  | expSinSquared a =>
    refine (ess_value a (stretch p s) x1 x2 i j).trans ((ess_value a p z z k k).trans ?_).symm
    simp [hx]
  | sum e1 e2 ih1 ih2 =>
    have h1 := ih1 (p.sub "kernel1") hb.1
    have h2 := ih2 (p.sub "kernel2") hb.2
    rw [← stretch_sub p _ _ (by decide)] at h1 h2
    exact congrArg₂ (· + ·) h1 h2
  | prod e1 e2 ih1 ih2 =>
    have h1 := ih1 (p.sub "kernel1") hb.1
    have h2 := ih2 (p.sub "kernel2") hb.2
    rw [← stretch_sub p _ _ (by decide)] at h1 h2
    exact congrArg₂ (· * ·) h1 h2

theorem inv_tendsto {F : Filter ℝ} {A : ℝ → Mat n n} {B : Mat n n} (hA : ∀ i j, Tendsto (fun s => A s i j) F (𝓝 (B i j)))
    (hB : IsUnit B.det) (i j : Fin n) : Tendsto (fun s => (A s)⁻¹ i j) F (𝓝 (B⁻¹ i j)) := by
  have h0 : Tendsto A F (𝓝 B) := tendsto_pi_nhds.2 fun i => tendsto_pi_nhds.2 fun j => hA i j
  have h1 : Tendsto (fun s => (A s).det) F (𝓝 B.det) := ((continuous_id.matrix_det).tendsto B).comp h0
  have h2 : Tendsto (fun s => (A s).adjugate) F (𝓝 B.adjugate) := ((continuous_id.matrix_adjugate).tendsto B).comp h0
  have h3 : Tendsto (fun s => (A s).adjugate i j) F (𝓝 (B.adjugate i j)) := tendsto_pi_nhds.1 (tendsto_pi_nhds.1 h2 i) j
  have := (h1.inv₀ hB.ne_zero).mul h3
  simpa only [Matrix.inv_def, Ring.inverse_eq_inv', Matrix.smul_apply, smul_eq_mul] using this

/-- Predictions and covariances when the entries of the kernel matrices have limits. -/
theorem model_limit (ex : la.Exact) (e : KExpr d) (F : Filter ℝ) (p : ℝ → KPar) (σ : ℝ) (hp : ∀ᶠ s in F, Admissible e (p s))
    (mf : MeanFun) (xt : Batch m d) (y : Mat m o) (x : Batch n d) (K : Mat m m) (k : Mat m n) (q : Mat n n)
    (hK : ∀ i l, Tendsto (fun s => e.obj.k (p s) xt xt i l) F (𝓝 (K i l)))
    (hk : ∀ i j, Tendsto (fun s => e.obj.k (p s) xt x i j) F (𝓝 (k i j)))
    (hq : ∀ j l, Tendsto (fun s => e.obj.k (p s) x x j l) F (𝓝 (q j l)))
    (hi : ∀ c : Fin m → ℝ, (∀ i, (∑ l, K i l * c l) + (σ ^ 2 + 1 / 10 ^ 10) * c i = 0) → c = 0) :
    (∀ (j : Fin n) (a : Fin o) (c : Fin m → ℝ), (∀ i, (∑ l, K i l * c l) + (σ ^ 2 + 1 / 10 ^ 10) * c i = y i a - mf y) →
      Tendsto (fun s => predictDense ⟨p s, σ⟩ e.obj xt x (fitDense la ⟨p s, σ⟩ e.obj mf xt y).1
        (fitDense la ⟨p s, σ⟩ e.obj mf xt y).2 j a) F (𝓝 (mf y + ∑ i, k i j * c i))) ∧
    ∀ (j l : Fin n) (c : Fin m → ℝ), (∀ i, (∑ l, K i l * c l) + (σ ^ 2 + 1 / 10 ^ 10) * c i = k i l) →
      Tendsto (fun s => predictDenseCov la ⟨p s, σ⟩ e.obj xt x j l) F (𝓝 (q j l - ∑ i, k i j * c i)) := by
  set B : Mat m m := K + (σ ^ 2 + 1 / 10 ^ 10) • (1 : Mat m m) with hBd
  have hrow : ∀ (c : Fin m → ℝ) i, (B *ᵥ c) i = (∑ l, K i l * c l) + (σ ^ 2 + 1 / 10 ^ 10) * c i := fun c i => by
    rw [hBd, Matrix.add_mulVec, Matrix.smul_mulVec, Matrix.one_mulVec]
    rfl
  have hB : IsUnit B.det := by
    rw [isUnit_iff_ne_zero]
    intro h0
    obtain ⟨c, hc, hc0⟩ := Matrix.exists_mulVec_eq_zero_iff.2 h0
    exact hc (hi c fun i => by rw [← hrow, hc0]; rfl)
  have hA : ∀ i l, Tendsto (fun s => aLhsNoise ⟨p s, σ⟩ e.obj xt xt i l) F (𝓝 (B i l)) := fun i l =>
    (hK i l).add tendsto_const_nhds
  have hinv := inv_tendsto hA hB
  have hsol : ∀ (c r : Fin m → ℝ), (∀ i, (∑ l, K i l * c l) + (σ ^ 2 + 1 / 10 ^ 10) * c i = r i) → ∀ i, ∑ l, B⁻¹ i l * r l = c i := by
    intro c r h i
    have h1 : B *ᵥ c = r := funext fun i => by rw [hrow, h]
    have h2 : B⁻¹ *ᵥ r = c := by
      rw [← h1, Matrix.mulVec_mulVec, Matrix.nonsing_inv_mul _ hB, Matrix.one_mulVec]
    exact congrFun h2 i
  refine ⟨fun j a c hc => ?_, fun j l c hc => ?_⟩
  · have ht : Tendsto (fun s => mf y + ∑ i, e.obj.k (p s) xt x i j *
        ∑ l, (aLhsNoise ⟨p s, σ⟩ e.obj xt xt)⁻¹ i l * (y l a - mf y)) F (𝓝 (mf y + ∑ i, k i j * c i)) := by
      refine (tendsto_finsetSum _ fun i _ => (hk i j).mul ?_).const_add _
      rw [← hsol c _ hc i]
      exact tendsto_finsetSum _ fun l _ => (hinv i l).mul_const _
    refine ht.congr' ?_
    filter_upwards [hp] with s hs
    have h1 := predict_sub_mu e ⟨p s, σ⟩ xt x (fitDense la ⟨p s, σ⟩ e.obj mf xt y).1 (fitDense la ⟨p s, σ⟩ e.obj mf xt y).2 j a
    have h2 : (fitDense la ⟨p s, σ⟩ e.obj mf xt y).2 = mf y := rfl
    have h3 : (fitDense la ⟨p s, σ⟩ e.obj mf xt y).1 = (aLhsNoise ⟨p s, σ⟩ e.obj xt xt)⁻¹ * centerBy y (mf y) :=
      ex.solve_eq (posDef_isUnit (aLhsNoise_posDef e ⟨p s, σ⟩ hs xt)) _
    rw [h2] at h1
    rw [h3] at h1
    refine Eq.trans ?_ (Eq.trans (sub_eq_iff_eq_add'.1 h1).symm (by rw [h2, h3]))
    rfl
  · have ht : Tendsto (fun s => e.obj.k (p s) x x j l - ∑ i, e.obj.k (p s) xt x i j *
        ∑ r, (aLhsNoise ⟨p s, σ⟩ e.obj xt xt)⁻¹ i r * e.obj.k (p s) xt x r l) F (𝓝 (q j l - ∑ i, k i j * c i)) := by
      refine (hq j l).sub (tendsto_finsetSum _ fun i _ => (hk i j).mul ?_)
      rw [← hsol c _ hc i]
      exact tendsto_finsetSum _ fun r _ => (hinv i r).mul (hk r l)
    refine ht.congr' ?_
    filter_upwards [hp] with s hs
    rw [predictDenseCov_eq ex e ⟨p s, σ⟩ hs, Matrix.mul_assoc]
    rfl

/-- **C167.** Very long lengthscales. For every kernel expression of constants and stationary kernels, training set, mean function
and noise, when all lengthscales are multiplied by a number growing without bound, the predictions become the same at every input:
the mean plus a multiple of the sum of the centred targets, the multiple being `v / (m v + sigma² + 1e-10)` with `v` the prior
variance and `m` the number of samples. The covariance of any two predictions tends to `v (sigma² + 1e-10) / (m v + sigma² + 1e-10)`. -/
theorem C167_long (ex : la.Exact) (e : KExpr d) (p : KPar) (h : Admissible e p) (hb : BoundedExpr e) (σ : ℝ) (mf : MeanFun)
    (xt : Batch m d) (y : Mat m o) (x : Batch n d) (j : Fin n) :
    let v := e.obj.k p x x j j
    let nz := σ ^ 2 + 1 / 10 ^ 10
    (∀ a, Tendsto (fun s => predictDense ⟨stretch p s, σ⟩ e.obj xt x (fitDense la ⟨stretch p s, σ⟩ e.obj mf xt y).1
        (fitDense la ⟨stretch p s, σ⟩ e.obj mf xt y).2 j a) atTop (𝓝 (mf y + v * (∑ i, (y i a - mf y)) / (m * v + nz)))) ∧
    ∀ l, Tendsto (fun s => predictDenseCov la ⟨stretch p s, σ⟩ e.obj xt x j l) atTop (𝓝 (v * nz / (m * v + nz))) := by
  intro v nz
  have hv : 0 ≤ v := (C22_gram_posSemidef e p h x).diag_nonneg (i := j)
  have hnz : 0 < nz := by positivity
  have hmv : 0 < m * v + nz := by positivity
  have hp : ∀ᶠ s in atTop, Admissible e (stretch p s) := by
    filter_upwards [eventually_gt_atTop 0] with s hs
    exact stretch_admissible e p h hb hs
  have key := model_limit ex e atTop (fun s => stretch p s) σ hp mf xt y x (fun _ _ => v) (fun _ _ => v) (fun _ _ => v)
    (fun i l => kernel_long e p h hb xt xt i l x j) (fun i l => kernel_long e p h hb xt x i l x j)
    (fun i l => kernel_long e p h hb x x i l x j) (fun c hc => by
      have hS : ∑ l, c l = 0 := by
        have := Finset.sum_congr rfl fun i (_ : i ∈ Finset.univ) => hc i
        rw [Finset.sum_add_distrib, ← Finset.mul_sum, Finset.sum_const, Finset.card_univ, Fintype.card_fin, nsmul_eq_mul,
          ← Finset.mul_sum, Finset.sum_const_zero, ← mul_assoc, ← add_mul] at this
        exact (mul_eq_zero.1 this).resolve_left hmv.ne'
      funext i
      have := hc i
      rw [← Finset.mul_sum, hS, mul_zero, zero_add] at this
      exact (mul_eq_zero.1 this).resolve_left hnz.ne')
  have solve : ∀ r : Fin m → ℝ, ∃ c : Fin m → ℝ, (∀ i, (∑ l, v * c l) + nz * c i = r i) ∧
      ∑ i, v * c i = v * (∑ i, r i) / (m * v + nz) := by
    intro r
    have hs : ∑ i, v * ((r i - v * (∑ i, r i) / (m * v + nz)) / nz) = v * (∑ i, r i) / (m * v + nz) := by
      rw [← Finset.mul_sum, ← Finset.sum_div, Finset.sum_sub_distrib, Finset.sum_const, Finset.card_univ, Fintype.card_fin,
        nsmul_eq_mul]
      field_simp
      ring
    refine ⟨fun i => (r i - v * (∑ i, r i) / (m * v + nz)) / nz, fun i => ?_, hs⟩
    rw [hs, mul_div_cancel₀ _ hnz.ne']
    ring
  refine ⟨fun a => ?_, fun l => ?_⟩
  · obtain ⟨c, hc, hs⟩ := solve fun i => y i a - mf y
    have := key.1 j a c hc
    rwa [hs] at this
  · obtain ⟨c, hc, hs⟩ := solve fun _ => v
    have := key.2 j l c hc
    rw [hs, Finset.sum_const, Finset.card_univ, Fintype.card_fin, nsmul_eq_mul] at this
    have e1 : v - v * (m * v) / (m * v + nz) = v * nz / (m * v + nz) := by
      field_simp
      ring
    rwa [e1] at this

/-- **C167.** Very long lengthscales and the default mean function: the model predicts the mean of its targets everywhere. -/
theorem C167_long_data_mean (ex : la.Exact) (e : KExpr d) (p : KPar) (h : Admissible e p) (hb : BoundedExpr e) (σ : ℝ)
    (hm : 0 < m) (xt : Batch m d) (y : Mat m 1) (x : Batch n d) (j : Fin n) :
    Tendsto (fun s => predictDense ⟨stretch p s, σ⟩ e.obj xt x (fitDense la ⟨stretch p s, σ⟩ e.obj dataMean xt y).1
      (fitDense la ⟨stretch p s, σ⟩ e.obj dataMean xt y).2 j 0) atTop (𝓝 ((∑ i, y i 0) / m)) := by
  have hmn : (m : ℝ) ≠ 0 := by positivity
  have hd : dataMean y = (∑ i, y i 0) / m := by
    simp [dataMean]
  have := (C167_long ex e p h hb σ dataMean xt y x j).1 0
  simp only [hd, Finset.sum_sub_distrib, Finset.sum_const, Finset.card_univ, Fintype.card_fin, nsmul_eq_mul,
    mul_div_cancel₀ _ hmn, sub_self, mul_zero, zero_div, add_zero] at this
  exact this

/-- A prediction is small when the covariances with the training data are. -/
theorem weighted_bound {K : Mat m m} (hK : K.PosSemidef) {s : ℝ} (hs : 0 < s) (k c r : Fin m → ℝ)
    (h : ∀ i, (∑ j, K i j * c j) + s * c i = r i) : |∑ i, k i * c i| ≤ Real.sqrt ((∑ i, k i ^ 2) * ((∑ i, r i ^ 2) / s ^ 2)) := by
  refine Real.abs_le_sqrt ((Finset.sum_mul_sq_le_sq_mul_sq _ _ _).trans ?_)
  refine mul_le_mul_of_nonneg_left ?_ (Finset.sum_nonneg fun i _ => sq_nonneg _)
  rw [le_div_iff₀ (by positivity), mul_comm]
  exact (residual_column hK hs c r h).1

/-- **C167.** Very short lengthscales, at a new input: when all lengthscales are multiplied by a number going to zero, the
prediction at an input told apart from every training sample (by features of kernels that vanish at a distance) tends to the mean
and its variance to the prior variance, which does not depend on the lengthscales. Training samples may coincide. -/
theorem C167_short_new (ex : la.Exact) (e : KExpr d) (p : KPar) (h : Admissible e p) (hb : BoundedExpr e) (σ : ℝ) (mf : MeanFun)
    (xt : Batch m d) (y : Mat m o) (x : Batch n d) (j : Fin n) (hx : ∀ i, ∃ f, DecaysAlong e f ∧ xt i f ≠ x j f) :
    (∀ a, Tendsto (fun s => predictDense ⟨stretch p s, σ⟩ e.obj xt x (fitDense la ⟨stretch p s, σ⟩ e.obj mf xt y).1
        (fitDense la ⟨stretch p s, σ⟩ e.obj mf xt y).2 j a) (𝓝[>] 0) (𝓝 (mf y))) ∧
    Tendsto (fun s => predictDenseCov la ⟨stretch p s, σ⟩ e.obj xt x j j) (𝓝[>] 0) (𝓝 (e.obj.k p x x j j)) := by
  have hk : ∀ i, Tendsto (fun s => e.obj.k (stretch p s) xt x i j) (𝓝[>] 0) (𝓝 0) := fun i => by
    obtain ⟨f, hf, hne⟩ := hx i
    exact kernel_short e p h hb xt x i j f hf hne
  have hk2 : Tendsto (fun s => ∑ i, e.obj.k (stretch p s) xt x i j ^ 2) (𝓝[>] 0) (𝓝 0) := by
    have := tendsto_finsetSum (Finset.univ : Finset (Fin m)) fun i _ => (hk i).pow 2
    simpa using this
  have hnz : 0 < σ ^ 2 + 1 / 10 ^ 10 := by positivity
  refine ⟨fun a => ?_, ?_⟩
  · have hlim : Tendsto (fun s => Real.sqrt ((∑ i, e.obj.k (stretch p s) xt x i j ^ 2) *
        ((∑ i, (y i a - mf y) ^ 2) / (σ ^ 2 + 1 / 10 ^ 10) ^ 2))) (𝓝[>] 0) (𝓝 0) := by
      have := (hk2.mul_const ((∑ i, (y i a - mf y) ^ 2) / (σ ^ 2 + 1 / 10 ^ 10) ^ 2)).sqrt
      simpa using this
    rw [tendsto_iff_norm_sub_tendsto_zero]
    refine squeeze_zero' (Eventually.of_forall fun s => norm_nonneg _) ?_ hlim
    filter_upwards [self_mem_nhdsWithin] with s hs
    have ha := stretch_admissible e p h hb hs
    have h1 := predict_sub_mu e ⟨stretch p s, σ⟩ xt x (fitDense la ⟨stretch p s, σ⟩ e.obj mf xt y).1
      (fitDense la ⟨stretch p s, σ⟩ e.obj mf xt y).2 j a
    have h2 : (fitDense la ⟨stretch p s, σ⟩ e.obj mf xt y).2 = mf y := rfl
    rw [h2] at h1
    rw [h2, h1]
    exact weighted_bound (C22_gram_posSemidef e _ ha xt) hnz _ _ _ (fit_column ex e ⟨stretch p s, σ⟩ ha mf xt y a)
  · have hlim : Tendsto (fun s => Real.sqrt ((∑ i, e.obj.k (stretch p s) xt x i j ^ 2) *
        ((∑ i, e.obj.k (stretch p s) xt x i j ^ 2) / (σ ^ 2 + 1 / 10 ^ 10) ^ 2))) (𝓝[>] 0) (𝓝 0) := by
      have := (hk2.mul (hk2.div_const ((σ ^ 2 + 1 / 10 ^ 10) ^ 2))).sqrt
      simpa using this
    rw [tendsto_iff_norm_sub_tendsto_zero]
    refine squeeze_zero' (Eventually.of_forall fun s => norm_nonneg _) ?_ hlim
    filter_upwards [self_mem_nhdsWithin] with s hs
    have ha := stretch_admissible e p h hb hs
    have hu := posDef_isUnit (aLhsNoise_posDef e ⟨stretch p s, σ⟩ ha xt)
    set c : Fin m → ℝ := (aLhsNoise ⟨stretch p s, σ⟩ e.obj xt xt)⁻¹ *ᵥ fun i => e.obj.k (stretch p s) xt x i j with hc
    have hc1 : ∀ i, (∑ l, (Matrix.of (e.obj.k (stretch p s) xt xt) : Mat m m) i l * c l) + (σ ^ 2 + 1 / 10 ^ 10) * c i =
        e.obj.k (stretch p s) xt x i j := fun i => by
      have h1 : aLhsNoise ⟨stretch p s, σ⟩ e.obj xt xt *ᵥ c = fun i => e.obj.k (stretch p s) xt x i j := by
        rw [hc, Matrix.mulVec_mulVec, Matrix.mul_nonsing_inv _ hu, Matrix.one_mulVec]
      have h2 := congrFun h1 i
      have h3 : (aLhsNoise ⟨stretch p s, σ⟩ e.obj xt xt *ᵥ c) i =
          (∑ l, (Matrix.of (e.obj.k (stretch p s) xt xt) : Mat m m) i l * c l) + (σ ^ 2 + 1 / 10 ^ 10) * c i := by
        change ((Matrix.of (e.obj.k (stretch p s) xt xt) + (σ ^ 2 + 1 / 10 ^ 10) • (1 : Mat m m)) *ᵥ c) i = _
        rw [Matrix.add_mulVec, Matrix.smul_mulVec, Matrix.one_mulVec]
        rfl
      rw [← h3, h2]
    have hcov : predictDenseCov la ⟨stretch p s, σ⟩ e.obj xt x j j - e.obj.k p x x j j =
        -∑ i, e.obj.k (stretch p s) xt x i j * c i := by
      rw [predictDenseCov_eq ex e ⟨stretch p s, σ⟩ ha, Matrix.mul_assoc,
        ← kernel_same e p hb s x x j j (fun _ => rfl) x j]
      exact sub_sub_cancel_left (e.obj.k (stretch p s) x x j j) _
    rw [hcov, norm_neg]
    exact weighted_bound (C22_gram_posSemidef e _ ha xt) hnz _ _ _ hc1

/-- **C167.** Very short lengthscales, at a training sample: when the training samples are told apart from each other, the
prediction at a training sample tends to the mean plus the multiple `v / (v + sigma² + 1e-10)` of its own centred target, and its
variance to `v (sigma² + 1e-10) / (v + sigma² + 1e-10)`, with `v` the prior variance. -/
theorem C167_short_training (ex : la.Exact) (e : KExpr d) (p : KPar) (h : Admissible e p) (hb : BoundedExpr e) (σ : ℝ)
    (mf : MeanFun) (xt : Batch m d) (y : Mat m o) (hx : ∀ i l, i ≠ l → ∃ f, DecaysAlong e f ∧ xt i f ≠ xt l f) (j : Fin m) :
    let v := e.obj.k p xt xt j j
    let nz := σ ^ 2 + 1 / 10 ^ 10
    (∀ a, Tendsto (fun s => predictDense ⟨stretch p s, σ⟩ e.obj xt xt (fitDense la ⟨stretch p s, σ⟩ e.obj mf xt y).1
        (fitDense la ⟨stretch p s, σ⟩ e.obj mf xt y).2 j a) (𝓝[>] 0) (𝓝 (mf y + v * (y j a - mf y) / (v + nz)))) ∧
    Tendsto (fun s => predictDenseCov la ⟨stretch p s, σ⟩ e.obj xt xt j j) (𝓝[>] 0) (𝓝 (v * nz / (v + nz))) := by
  intro v nz
  have hv : 0 ≤ v := (C22_gram_posSemidef e p h xt).diag_nonneg (i := j)
  have hnz : 0 < nz := by positivity
  have hvn : 0 < v + nz := by positivity
  have hp : ∀ᶠ s in 𝓝[>] (0 : ℝ), Admissible e (stretch p s) := by
    filter_upwards [self_mem_nhdsWithin] with s hs
    exact stretch_admissible e p h hb hs
  have hK : ∀ i l, Tendsto (fun s => e.obj.k (stretch p s) xt xt i l) (𝓝[>] 0) (𝓝 ((v • (1 : Mat m m)) i l)) := fun i l => by
    by_cases hil : i = l
    · subst hil
      simp only [kernel_same e p hb _ xt xt i i (fun _ => rfl) xt j, Matrix.smul_apply, Matrix.one_apply_eq, smul_eq_mul, mul_one]
      exact tendsto_const_nhds
    · obtain ⟨f, hf, hne⟩ := hx i l hil
      simp only [Matrix.smul_apply, Matrix.one_apply_ne hil, smul_eq_mul, mul_zero]
      exact kernel_short e p h hb xt xt i l f hf hne
  have hrow : ∀ (c : Fin m → ℝ) i, (∑ l, (v • (1 : Mat m m)) i l * c l) + nz * c i = (v + nz) * c i := fun c i => by
    have : ∑ l, (v • (1 : Mat m m)) i l * c l = ((v • (1 : Mat m m)) *ᵥ c) i := rfl
    rw [this, Matrix.smul_mulVec, Matrix.one_mulVec, Pi.smul_apply, smul_eq_mul]
    ring
  have key := model_limit ex e (𝓝[>] 0) (fun s => stretch p s) σ hp mf xt y xt (v • 1) (v • 1) (v • 1) hK hK hK (fun c hc => by
      funext i
      have := hc i
      rw [hrow] at this
      exact (mul_eq_zero.1 this).resolve_left hvn.ne')
  have hdot : ∀ c : Fin m → ℝ, ∑ i, (v • (1 : Mat m m)) i j * c i = v * c j := fun c => by
    simp [Matrix.one_apply]
  refine ⟨fun a => ?_, ?_⟩
  · have := key.1 j a (fun i => (y i a - mf y) / (v + nz)) fun i => by rw [hrow, mul_div_cancel₀ _ hvn.ne']
    rwa [hdot, mul_div_assoc'] at this
  · have := key.2 j j (fun i => (v • (1 : Mat m m)) i j / (v + nz)) fun i => by rw [hrow, mul_div_cancel₀ _ hvn.ne']
    rw [hdot] at this
    have e1 : (v • (1 : Mat m m)) j j - v * ((v • (1 : Mat m m)) j j / (v + nz)) = v * nz / (v + nz) := by
      simp only [Matrix.smul_apply, Matrix.one_apply_eq, smul_eq_mul, mul_one]
      field_simp
      ring
    rwa [e1] at this

/-- Non-vacuity: a constant times a squared exponential on two features, plus a Matern kernel on the first; two samples that
differ in the first feature. -/
example : let e : KExpr 2 := .sum (.prod (.constant none) (.squaredExponential none)) (.matern32 (some ⟨1, ![0]⟩))
    let p : KPar := fun _ => 2
    let xt : Batch 2 2 := ![![0, 1], ![1, 1]]
    Admissible e p ∧ BoundedExpr e ∧ ∀ i l, i ≠ l → ∃ f, DecaysAlong e f ∧ xt i f ≠ xt l f := by
  intro e p xt
  refine ⟨by norm_num [e, p, Admissible, KPar.val, KPar.sub], ⟨⟨trivial, trivial⟩, trivial⟩, fun i l hil => ⟨0, ⟨.inr ⟨(0 : Fin 2), rfl⟩, (0 : Fin 1), rfl⟩, ?_⟩⟩
  fin_cases i <;> fin_cases l <;> simp_all [xt]

end GPX.Props
