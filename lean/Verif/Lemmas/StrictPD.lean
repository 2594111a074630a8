import Verif.Lemmas.KernelPSD
import Verif.Lemmas.LinAlg
import Mathlib.Analysis.Matrix.Order
import Mathlib.LinearAlgebra.LinearIndependent.Lemmas

/-! # Kernels that are strictly positive definite on distinguishable points -/

namespace GPX
open GPX.Spec Matrix
open scoped MatrixOrder Matrix.Norms.L2Operator

variable {X Y : Type*} {n : ℕ}

/-- The quadratic form of a real matrix with symmetric entries. -/
theorem posDef_iff_form {A : Mat n n} : A.PosDef ↔
    (∀ i j, A j i = A i j) ∧ ∀ c : Fin n → ℝ, c ≠ 0 → 0 < ∑ i, ∑ j, c i * A i j * c j := by
  have hq : ∀ c : Fin n → ℝ, star c ⬝ᵥ (A *ᵥ c) = ∑ i, ∑ j, c i * A i j * c j := by
    intro c
    simp only [dotProduct, mulVec, star_trivial, Finset.mul_sum, Pi.star_apply]
    exact Finset.sum_congr rfl fun i _ => Finset.sum_congr rfl fun j _ => by ring
  rw [posDef_iff_dotProduct_mulVec]
  constructor
  · rintro ⟨h, hp⟩
    refine ⟨fun i j => ?_, fun c hc => hq c ▸ hp hc⟩
    have := h.apply i j
    simpa using this
  · rintro ⟨h, hp⟩
    refine ⟨Matrix.IsHermitian.ext fun i j => by simpa using h i j, fun {c} hc => ?_⟩
    rw [hq c]
    exact hp c hc

/-- A positive semidefinite kernel whose quadratic form vanishes at `c` gives `∑ᵢ cᵢ K(xᵢ, z) = 0` for every `z`. -/
theorem PSDK.null {K : X → X → ℝ} (hK : PSDK K) (x : Fin n → X) (c : Fin n → ℝ)
    (h0 : ∑ i, ∑ j, c i * K (x i) (x j) * c j = 0) (z : X) : ∑ i, c i * K (x i) z = 0 := by
  set b := ∑ i, c i * K (x i) z with hb
  have key : ∀ s : ℝ, 0 ≤ 2 * s * b + s ^ 2 * K z z := by
    intro s
    have := (psdk_iff.mp hK (n + 1) (Fin.cons z x)).2 (Fin.cons s c)
    simp only [Fin.sum_univ_succ, Fin.cons_zero, Fin.cons_succ] at this
    rw [Finset.sum_add_distrib, h0] at this
    have e1 : ∑ i, c i * K (x i) z * s = s * b := by
      rw [hb, Finset.mul_sum]; exact Finset.sum_congr rfl fun i _ => by ring
    have e2 : ∑ j, s * K z (x j) * c j = s * b := by
      rw [hb, Finset.mul_sum]; exact Finset.sum_congr rfl fun i _ => by rw [hK.symm z (x i)]; ring
    rw [e1, e2] at this
    linarith
  by_contra hne
  have hk : 0 ≤ K z z := by
    have := (psdk_iff.mp hK 1 ![z]).2 ![1]
    simpa using this
  have hk1 : 0 < K z z + 1 := by linarith
  have := key (-b / (K z z + 1))
  have h2 : 2 * (-b / (K z z + 1)) * b + (-b / (K z z + 1)) ^ 2 * K z z =
      -(b ^ 2 * (K z z + 2)) / (K z z + 1) ^ 2 := by
    field_simp; ring
  rw [h2] at this
  have h3 : 0 < b ^ 2 * (K z z + 2) / (K z z + 1) ^ 2 := by
    have : 0 < b ^ 2 := by positivity
    positivity
  have h4 : -(b ^ 2 * (K z z + 2)) / (K z z + 1) ^ 2 = -(b ^ 2 * (K z z + 2) / (K z z + 1) ^ 2) := by ring
  rw [h4] at this
  linarith

/-- Exponentials of distinct linear forms are linearly independent. -/
theorem exp_forms_indep {k : ℕ} {t : ℝ} (ht : t ≠ 0) (u : Fin n → Fin k → ℝ) (hu : Function.Injective u)
    (c : Fin n → ℝ) (h : ∀ z : Fin k → ℝ, ∑ i, c i * Real.exp (t * ∑ a, u i a * z a) = 0) : c = 0 := by
  let φ : (Fin k → ℝ) → (Multiplicative (Fin k → ℝ) →* ℝ) := fun w =>
    { toFun := fun z => Real.exp (t * ∑ a, w a * z.toAdd a)
      map_one' := by simp
      map_mul' := fun z z' => by
        rw [← Real.exp_add]
        congr 1
        simp only [toAdd_mul, Pi.add_apply, mul_add, Finset.sum_add_distrib] }
  have hφ : Function.Injective φ := by
    intro w w' hw
    by_contra hne
    have h1 := DFunLike.congr_fun hw (Multiplicative.ofAdd (w - w'))
    have h2 : Real.exp (t * ∑ a, w a * (w a - w' a)) = Real.exp (t * ∑ a, w' a * (w a - w' a)) := h1
    have h3 := mul_left_cancel₀ ht (Real.exp_injective h2)
    have h4 : ∑ a, (w a - w' a) ^ 2 = 0 := by
      have : ∑ a, (w a - w' a) ^ 2 = ∑ a, w a * (w a - w' a) - ∑ a, w' a * (w a - w' a) := by
        rw [← Finset.sum_sub_distrib]; exact Finset.sum_congr rfl fun a _ => by ring
      rw [this, h3, sub_self]
    refine hne (funext fun a => ?_)
    have := (Finset.sum_eq_zero_iff_of_nonneg fun a _ => sq_nonneg (w a - w' a)).mp h4 a (Finset.mem_univ a)
    exact sub_eq_zero.mp (pow_eq_zero_iff two_ne_zero |>.mp this)
  have hli := (linearIndependent_monoidHom (Multiplicative (Fin k → ℝ)) ℝ).comp (φ ∘ u) (hφ.comp hu)
  rw [Fintype.linearIndependent_iff] at hli
  funext i
  refine hli c ?_ i
  funext z
  have := h z.toAdd
  simpa [φ, Finset.sum_apply] using this

/-- `A` depends on its arguments only up to `R`, is positive semidefinite, and positive definite on points no two
of which are related. -/
structure PDK (R : Setoid X) (A : X → X → ℝ) : Prop where
  psd : PSDK A
  inv : ∀ x x' y y', R x x' → R y y' → A x y = A x' y'
  pd : ∀ (n : ℕ) (x : Fin n → X), (∀ i j, R (x i) (x j) → i = j) → (Matrix.of fun i j => A (x i) (x j) : Mat n n).PosDef

theorem posDef_add_psd {A B : Mat n n} (hA : A.PosDef) (hB : B.PosSemidef) : (A + B).PosDef := hA.add_posSemidef hB

/-- Gaussians of a feature map. -/
theorem PDK.gaussian {k : ℕ} (f : X → Fin k → ℝ) {t : ℝ} (ht : 0 < t) :
    PDK (Setoid.ker f) fun x y => Real.exp (-(t * ∑ a, (f x a - f y a) ^ 2)) where
  psd := (PSDK.gaussian k ht.le).comp f
  inv x x' y y' hx hy := by
    have hx : f x = f x' := hx
    have hy : f y = f y' := hy
    simp only [hx, hy]
  pd n x hx := by
    have hpsd := (PSDK.gaussian k ht.le)
    refine posDef_iff_form.mpr ⟨fun i j => ?_, fun c hc => ?_⟩
    · exact ((hpsd.comp f).symm (x j) (x i))
    · refine lt_of_le_of_ne ((psdk_iff.mp (hpsd.comp f) n x).2 c) fun h0 => hc ?_
      have hz := hpsd.null (fun i => f (x i)) c h0.symm
      have hi : Function.Injective fun i => f (x i) := fun i j hij => hx i j hij
      have := exp_forms_indep (t := 2 * t) (by positivity) (fun i => f (x i)) hi
        (fun i => c i * Real.exp (-(t * ∑ a, f (x i) a ^ 2))) fun z => by
          have h1 := hz z
          have h2 : ∀ i, c i * Real.exp (-(t * ∑ a, (f (x i) a - z a) ^ 2)) =
              Real.exp (-(t * ∑ a, z a ^ 2)) *
                (c i * Real.exp (-(t * ∑ a, f (x i) a ^ 2)) * Real.exp (2 * t * ∑ a, f (x i) a * z a)) := by
            intro i
            have e : -(t * ∑ a, (f (x i) a - z a) ^ 2) = -(t * ∑ a, z a ^ 2) + (-(t * ∑ a, f (x i) a ^ 2) +
                2 * t * ∑ a, f (x i) a * z a) := by
              have : ∑ a, (f (x i) a - z a) ^ 2 = ∑ a, f (x i) a ^ 2 - 2 * ∑ a, f (x i) a * z a + ∑ a, z a ^ 2 := by
                rw [Finset.mul_sum, ← Finset.sum_sub_distrib, ← Finset.sum_add_distrib]
                exact Finset.sum_congr rfl fun a _ => by ring
              rw [this]; ring
            rw [e, Real.exp_add, Real.exp_add]; ring
          rw [Finset.sum_congr rfl fun i _ => h2 i, ← Finset.mul_sum] at h1
          exact (mul_eq_zero.mp h1).resolve_left (Real.exp_pos _).ne'
      funext i
      have h := congrFun this i
      exact (mul_eq_zero.mp h).resolve_right (Real.exp_pos _).ne'

/-- Schur's product theorem, strict in one factor. -/
theorem posDef_hadamard_diag {A B : Mat n n} (hA : A.PosDef) (hB : B.PosSemidef) (hd : ∀ i, 0 < B i i) :
    (Matrix.of fun i j => A i j * B i j : Mat n n).PosDef := by
  obtain ⟨D, hD⟩ := CStarAlgebra.nonneg_iff_eq_star_mul_self.mp hB.nonneg
  have hBD : ∀ i j, B i j = ∑ l, D l i * D l j := by
    intro i j; rw [hD]; simp [Matrix.mul_apply, Matrix.star_eq_conjTranspose]
  obtain ⟨hs, hp⟩ := posDef_iff_form.mp hA
  refine posDef_iff_form.mpr ⟨fun i j => ?_, fun c hc => ?_⟩
  · simp only [Matrix.of_apply]
    rw [hs i j, hBD j i, hBD i j]
    exact congrArg _ (Finset.sum_congr rfl fun l _ => mul_comm _ _)
  · have e : ∑ i, ∑ j, c i * (A i j * B i j) * c j =
        ∑ l, ∑ i, ∑ j, (c i * D l i) * A i j * (c j * D l j) := by
      symm
      rw [Finset.sum_comm]
      refine Finset.sum_congr rfl fun i _ => ?_
      rw [Finset.sum_comm]
      refine Finset.sum_congr rfl fun j _ => ?_
      rw [hBD, Finset.mul_sum, Finset.mul_sum, Finset.sum_mul]
      exact Finset.sum_congr rfl fun l _ => by ring
    simp only [Matrix.of_apply]
    rw [e]
    obtain ⟨i, hi⟩ : ∃ i, c i ≠ 0 := by
      by_contra h; push Not at h; exact hc (funext h)
    have hnn : ∀ l, 0 ≤ ∑ i, ∑ j, (c i * D l i) * A i j * (c j * D l j) := by
      intro l
      by_cases hz : (fun i => c i * D l i) = 0
      · have : ∀ i, c i * D l i = 0 := fun i => congrFun hz i
        simp [this]
      · exact (hp _ hz).le
    obtain ⟨l, hl⟩ : ∃ l, D l i ≠ 0 := by
      by_contra h; push Not at h
      have := hd i
      rw [hBD i i] at this
      simp [h] at this
    refine lt_of_lt_of_le (hp (fun i => c i * D l i) fun hz => ?_)
      (Finset.single_le_sum (f := fun l => ∑ i, ∑ j, (c i * D l i) * A i j * (c j * D l j))
        (fun l _ => hnn l) (Finset.mem_univ l))
    exact mul_ne_zero hi hl (congrFun hz i)

/-- The same property for points indexed by any finite type. -/
theorem PDK.pd_fintype {R : Setoid X} {A : X → X → ℝ} (h : PDK R A) {ι : Type*} [Fintype ι] [DecidableEq ι] (x : ι → X)
    (hx : ∀ i j, R (x i) (x j) → i = j) : (Matrix.of fun i j => A (x i) (x j) : Matrix ι ι ℝ).PosDef := by
  have e := Fintype.equivFin ι
  have h1 := h.pd (Fintype.card ι) (fun i => x (e.symm i)) fun i j hij => e.symm.injective (hx _ _ hij)
  have h2 := h1.submatrix e.injective
  refine (congrArg Matrix.PosDef ?_).mp h2
  ext i j
  simp

/-- Products of kernels that tell different pairs of points apart tell apart what either of them does. -/
theorem PDK.mul {R S : Setoid X} {A B : X → X → ℝ} (hA : PDK R A) (hB : PDK S B) :
    PDK (R ⊓ S) fun x y => A x y * B x y where
  psd := hA.psd.mul hB.psd
  inv x x' y y' hx hy := by rw [hA.inv x x' y y' hx.1 hy.1, hB.inv x x' y y' hx.2 hy.2]
  pd n x hx := by
    classical
    let R' : Setoid (Fin n) := R.comap x
    let S' : Setoid (Fin n) := S.comap x
    have rR : ∀ q q' : Quotient R', R (x q.out) (x q'.out) → q = q' := fun q q' h => by
      have : R' q.out q'.out := h
      rw [← q.out_eq, ← q'.out_eq]
      exact Quotient.sound this
    have rS : ∀ q q' : Quotient S', S (x q.out) (x q'.out) → q = q' := fun q q' h => by
      have : S' q.out q'.out := h
      rw [← q.out_eq, ← q'.out_eq]
      exact Quotient.sound this
    have h1 := hA.pd_fintype (fun q : Quotient R' => x q.out) rR
    have h2 := hB.pd_fintype (fun q : Quotient S' => x q.out) rS
    have h3 := (h1.kronecker h2).submatrix (e := fun i : Fin n => ((⟦i⟧ : Quotient R'), (⟦i⟧ : Quotient S')))
      fun i j hij => hx i j ⟨Quotient.exact (s := R') (congrArg Prod.fst hij), Quotient.exact (s := S') (congrArg Prod.snd hij)⟩
    refine (congrArg Matrix.PosDef ?_).mp h3
    ext i j
    have oR : ∀ i : Fin n, R (x (⟦i⟧ : Quotient R').out) (x i) := fun i => Quotient.mk_out (s := R') i
    have oS : ∀ i : Fin n, S (x (⟦i⟧ : Quotient S').out) (x i) := fun i => Quotient.mk_out (s := S') i
    simp only [Matrix.submatrix_apply, Matrix.kroneckerMap_apply, Matrix.of_apply]
    rw [hA.inv _ _ _ _ (oR i) (oR j), hB.inv _ _ _ _ (oS i) (oS j)]

/-- Constants tell nothing apart. -/
theorem PDK.const {r : ℝ} (hr : 0 < r) : PDK (⊤ : Setoid X) fun _ _ : X => r where
  psd := PSDK.const hr.le
  inv _ _ _ _ _ _ := rfl
  pd n x hx := by
    have h1 : ∀ i j : Fin n, i = j := fun i j => hx i j trivial
    refine posDef_iff_form.mpr ⟨fun _ _ => rfl, fun c hc => ?_⟩
    obtain ⟨i, hi⟩ : ∃ i, c i ≠ 0 := by
      by_contra h; push Not at h; exact hc (funext h)
    have : Subsingleton (Fin n) := ⟨h1⟩
    have : Unique (Fin n) := ⟨⟨i⟩, fun j => h1 _ _⟩
    simp only [Fintype.sum_unique, Matrix.of_apply]
    have e : (default : Fin n) = i := h1 _ _
    rw [e]
    have : c i * r * c i = r * c i ^ 2 := by ring
    rw [this]
    positivity

/-- `K` dominates a kernel that tells apart the points not related by `R`. -/
def StrictK (R : Setoid X) (K : X → X → ℝ) : Prop :=
  ∃ A, PDK R A ∧ PSDK fun x y => K x y - A x y

theorem PDK.strict {R : Setoid X} {A : X → X → ℝ} (h : PDK R A) : StrictK R A :=
  ⟨A, h, by simpa using PSDK.zero⟩

theorem StrictK.pd {R : Setoid X} {K : X → X → ℝ} (h : StrictK R K) (x : Fin n → X)
    (hx : ∀ i j, R (x i) (x j) → i = j) : (Matrix.of fun i j => K (x i) (x j) : Mat n n).PosDef := by
  obtain ⟨A, hA, hK⟩ := h
  refine (congrArg Matrix.PosDef ?_).mp (posDef_add_psd (hA.pd n x hx) (hK n x))
  ext i j
  simp

theorem StrictK.add {R : Setoid X} {K L : X → X → ℝ} (h : StrictK R K) (hL : PSDK L) :
    StrictK R fun x y => K x y + L x y := by
  obtain ⟨A, hA, hK⟩ := h
  refine ⟨A, hA, (congrArg PSDK ?_).mp (hK.add hL)⟩
  funext x y; ring

theorem StrictK.mul {R S : Setoid X} {K L : X → X → ℝ} (hK : StrictK R K) (hL : StrictK S L) :
    StrictK (R ⊓ S) fun x y => K x y * L x y := by
  obtain ⟨A, hA, hK⟩ := hK
  obtain ⟨B, hB, hL⟩ := hL
  refine ⟨_, hA.mul hB, (congrArg PSDK ?_).mp (((hK.mul hL).add (hA.psd.mul hL)).add (hK.mul hB.psd))⟩
  funext x y; ring

/-! ## From `exp(-t s)` to functions of `√s` -/

/-- Integrals of kernels that are positive definite on the points `x`. -/
theorem pd_integral {K : ℝ → X → X → ℝ} (x : Fin n → X)
    (h : ∀ v, 0 < v → (Matrix.of fun i j => K v (x i) (x j) : Mat n n).PosDef)
    (hs : ∀ v, 0 ≤ v → ∀ x y, K v x y = K v y x)
    (hc : ∀ x y, ContinuousOn (fun v => K v x y) (Set.Icc 0 1)) :
    (Matrix.of fun i j => ∫ v in (0 : ℝ)..1, K v (x i) (x j) : Mat n n).PosDef := by
  refine posDef_iff_form.mpr ⟨fun i j => ?_, fun c hne => ?_⟩
  · refine intervalIntegral.integral_congr fun v hv => ?_
    rw [Set.uIcc_of_le zero_le_one] at hv
    exact hs v hv.1 _ _
  · have hi : ∀ i j, IntervalIntegrable (fun v => c i * K v (x i) (x j) * c j)
        MeasureTheory.volume 0 1 := by
      intro i j
      refine ContinuousOn.intervalIntegrable ?_
      rw [Set.uIcc_of_le zero_le_one]
      exact (continuousOn_const.mul (hc _ _)).mul continuousOn_const
    have hsum : ∀ i, IntervalIntegrable (fun v => ∑ j, c i * K v (x i) (x j) * c j) MeasureTheory.volume 0 1 := by
      intro i
      have := IntervalIntegrable.sum Finset.univ (f := fun j v => c i * K v (x i) (x j) * c j)
          fun j _ => hi i j
      simpa only [Finset.sum_fn] using this
    have e : ∑ i, ∑ j, c i * (∫ v in (0 : ℝ)..1, K v (x i) (x j)) * c j =
        ∫ v in (0 : ℝ)..1, ∑ i, ∑ j, c i * K v (x i) (x j) * c j := by
      rw [intervalIntegral.integral_finsetSum fun i _ => hsum i]
      refine Finset.sum_congr rfl fun i _ => ?_
      rw [intervalIntegral.integral_finsetSum fun j _ => hi i j]
      refine Finset.sum_congr rfl fun j _ => ?_
      rw [intervalIntegral.integral_mul_const, intervalIntegral.integral_const_mul]
    simp only [Matrix.of_apply]
    rw [e]
    refine intervalIntegral.intervalIntegral_pos_of_pos_on ?_ (fun v hv => ?_) zero_lt_one
    · have := IntervalIntegrable.sum Finset.univ (f := fun i v => ∑ j, c i * K v (x i) (x j) * c j)
          fun i _ => hsum i
      simpa only [Finset.sum_fn] using this
    · exact (posDef_iff_form.mp (h v hv.1)).2 c hne

/-- `s` is of negative type and `exp(-t s)` is positive definite on the points `x` for every `t > 0`. -/
structure NegTypeS (s : X → X → ℝ) (x : Fin n → X) : Prop extends NegType s where
  pd : ∀ t, 0 < t → (Matrix.of fun i j => Real.exp (-(t * s (x i) (x j))) : Mat n n).PosDef

theorem PSDK.pos_diag {K : X → X → ℝ} (x : Fin n → X) (h : PSDK K) :
    (Matrix.of fun i j => K (x i) (x j) : Mat n n).PosSemidef := h n x

theorem posDef_smul {A : X → X → ℝ} {x : Fin n → X} (h : (Matrix.of fun i j => A (x i) (x j) : Mat n n).PosDef) {r : ℝ}
    (hr : 0 < r) : (Matrix.of fun i j => r * A (x i) (x j) : Mat n n).PosDef := by
  refine (congrArg Matrix.PosDef ?_).mp (h.smul hr)
  ext i j; simp

theorem NegTypeS.shift {s : X → X → ℝ} {x : Fin n → X} (h : NegTypeS s x) {a : ℝ} (ha : 0 ≤ a) :
    NegTypeS (fun x y => s x y + a) x where
  toNegType := h.toNegType.shift ha
  pd t ht := by
    refine (congrArg Matrix.PosDef ?_).mp (posDef_smul (A := fun x y => Real.exp (-(t * s x y))) (h.pd t ht)
      (Real.exp_pos (-(t * a))))
    ext i j
    simp only [Matrix.of_apply]
    rw [← Real.exp_add]; ring_nf

theorem NegTypeS.scale {s : X → X → ℝ} {x : Fin n → X} (h : NegTypeS s x) {a : ℝ} (ha : 0 < a) :
    NegTypeS (fun x y => a * s x y) x where
  pos x y := mul_pos ha (h.pos x y)
  psd t ht := by
    refine (congrArg PSDK ?_).mp (h.psd (t * a) (by positivity))
    funext x y; ring_nf
  pd t ht := by
    refine (congrArg Matrix.PosDef ?_).mp (h.pd (t * a) (by positivity))
    ext i j
    simp only [Matrix.of_apply]; ring_nf

theorem NegType.symm {s : X → X → ℝ} (h : NegType s) (x y : X) : s x y = s y x := by
  have := (h.psd 1 zero_le_one).symm x y
  have := Real.exp_injective this
  linarith

theorem NegTypeS.recip {s : X → X → ℝ} {x : Fin n → X} (h : NegTypeS s x) :
    (Matrix.of fun i j => (s (x i) (x j))⁻¹ : Mat n n).PosDef := by
  have hint : ∀ x y, ∫ u in (0 : ℝ)..1, Real.exp (-(u * s x y)) =
      (1 - Real.exp (-(1 * s x y))) * (s x y)⁻¹ := by
    intro x y
    have hs := (h.pos x y).ne'
    have hd : ∀ u ∈ Set.uIcc (0 : ℝ) 1, HasDerivAt (fun u => -(Real.exp (-(u * s x y)) * (s x y)⁻¹))
        (Real.exp (-(u * s x y))) u := by
      intro u _
      refine ((((hasDerivAt_id' u).mul_const (s x y)).neg.exp).mul_const _).neg.congr_deriv ?_
      simp only [Pi.neg_apply]
      field_simp
    rw [intervalIntegral.integral_eq_sub_of_hasDerivAt hd
      (Continuous.intervalIntegrable (by fun_prop) _ _)]
    simp only [zero_mul, neg_zero, Real.exp_zero]
    ring
  have h1 := pd_integral (K := fun u x y => Real.exp (-(u * s x y))) x (fun v hv => h.pd v hv)
    (fun v hv x y => by rw [h.toNegType.symm x y]) fun x y => Continuous.continuousOn (by fun_prop)
  have h2 := (h.psd 1 zero_le_one).mul h.toNegType.recip
  refine (congrArg Matrix.PosDef ?_).mp (posDef_add_psd h1 (h2 n x))
  ext i j
  simp only [Matrix.add_apply, Matrix.of_apply, hint]
  ring

theorem NegTypeS.recipSqrt {s : X → X → ℝ} {x : Fin n → X} (h : NegTypeS s x) :
    (Matrix.of fun i j => (Real.sqrt (s (x i) (x j)))⁻¹ : Mat n n).PosDef := by
  have c1 : ∀ x y, Continuous fun v : ℝ => (s x y + v ^ 2)⁻¹ := fun x y =>
    (continuous_const.add (continuous_pow 2)).inv₀ fun v => (add_pos_of_pos_of_nonneg (h.pos x y) (sq_nonneg v)).ne'
  have c2 : ∀ x y, Continuous fun v : ℝ => (v ^ 2 * s x y + 1)⁻¹ := fun x y =>
    (((continuous_pow 2).mul continuous_const).add continuous_const).inv₀ fun v => by
      have := mul_nonneg (sq_nonneg v) (h.pos x y).le
      have : 0 < v ^ 2 * s x y + 1 := by linarith
      exact this.ne'
  have i1 : ∀ x y, ∫ v in (0 : ℝ)..1, (s x y + v ^ 2)⁻¹ = (Real.sqrt (s x y))⁻¹ * Real.arctan (Real.sqrt (s x y))⁻¹ := by
    intro x y
    have hs := h.pos x y
    have hr := Real.sqrt_pos.mpr hs
    have hq : Real.sqrt (s x y) ^ 2 = s x y := Real.sq_sqrt hs.le
    have hd : ∀ v ∈ Set.uIcc (0 : ℝ) 1, HasDerivAt
        (fun v => (Real.sqrt (s x y))⁻¹ * Real.arctan (v / Real.sqrt (s x y))) (s x y + v ^ 2)⁻¹ v := by
      intro v _
      refine ((((hasDerivAt_id' v).div_const (Real.sqrt (s x y))).arctan).const_mul _).congr_deriv ?_
      have : 0 < s x y + v ^ 2 := by positivity
      have h2 : 1 + (v / Real.sqrt (s x y)) ^ 2 = (s x y + v ^ 2) / s x y := by
        rw [div_pow, hq]; field_simp
      rw [h2]
      field_simp
      exact hq.symm
    rw [intervalIntegral.integral_eq_sub_of_hasDerivAt hd ((c1 x y).intervalIntegrable _ _)]
    simp
  have i2 : ∀ x y, ∫ v in (0 : ℝ)..1, (v ^ 2 * s x y + 1)⁻¹ = (Real.sqrt (s x y))⁻¹ * Real.arctan (Real.sqrt (s x y)) := by
    intro x y
    have hs := h.pos x y
    have hr := Real.sqrt_pos.mpr hs
    have hq : Real.sqrt (s x y) ^ 2 = s x y := Real.sq_sqrt hs.le
    have hd : ∀ v ∈ Set.uIcc (0 : ℝ) 1, HasDerivAt
        (fun v => (Real.sqrt (s x y))⁻¹ * Real.arctan (v * Real.sqrt (s x y))) (v ^ 2 * s x y + 1)⁻¹ v := by
      intro v _
      refine ((((hasDerivAt_id' v).mul_const (Real.sqrt (s x y))).arctan).const_mul _).congr_deriv ?_
      have h2 : 1 + (v * Real.sqrt (s x y)) ^ 2 = v ^ 2 * s x y + 1 := by
        rw [mul_pow, hq]; ring
      rw [h2]
      field_simp
    rw [intervalIntegral.integral_eq_sub_of_hasDerivAt hd ((c2 x y).intervalIntegrable _ _)]
    simp
  have h1 : PSDK fun x y => ∫ v in (0 : ℝ)..1, (s x y + v ^ 2)⁻¹ :=
    PSDK.integral zero_le_one (fun v _ => (h.toNegType.shift (sq_nonneg v)).recip) fun x y => (c1 x y).continuousOn
  have h2 : (Matrix.of fun i j => ∫ v in (0 : ℝ)..1, (v ^ 2 * s (x i) (x j) + 1)⁻¹ : Mat n n).PosDef :=
    pd_integral (K := fun v x y => (v ^ 2 * s x y + 1)⁻¹) x
      (fun v hv => ((h.scale (pow_pos hv 2)).shift zero_le_one).recip)
      (fun v _ x y => by rw [h.toNegType.symm x y]) fun x y => (c2 x y).continuousOn
  refine (congrArg Matrix.PosDef ?_).mp ((posDef_add_psd h2 (h1 n x)).smul (show (0 : ℝ) < 2 / Real.pi by positivity))
  ext i j
  have hr := Real.sqrt_pos.mpr (h.pos (x i) (x j))
  simp only [Matrix.smul_apply, Matrix.add_apply, Matrix.of_apply, smul_eq_mul]
  rw [i1, i2, Real.arctan_inv_of_pos hr]
  have := Real.pi_pos.ne'
  field_simp
  ring

/-- One step of a mixture: `g(√s) = g(√(s+1)) + ∫₀¹ c w(√(s+a)) da`. -/
theorem NegTypeS.mixture {s : X → X → ℝ} {x : Fin n → X} (h : NegTypeS s x) {g w : ℝ → ℝ} {c : ℝ} (hc : 0 < c)
    (hg : ∀ r, 0 < r → HasDerivAt g (-(2 * r * c * w r)) r) (hw : ContinuousOn w (Set.Ioi 0))
    (hpd : ∀ a, 0 < a → (Matrix.of fun i j => w (Real.sqrt (s (x i) (x j) + a)) : Mat n n).PosDef)
    (hpsd : PSDK fun x y => g (Real.sqrt (s x y + 1))) :
    (Matrix.of fun i j => g (Real.sqrt (s (x i) (x j))) : Mat n n).PosDef := by
  have hcont : ∀ x y, ContinuousOn (fun a => c * w (Real.sqrt (s x y + a))) (Set.Icc 0 1) := by
    intro x y
    refine continuousOn_const.mul (hw.comp (Real.continuous_sqrt.comp
      (continuous_const.add continuous_id)).continuousOn fun a ha => ?_)
    have := h.pos x y
    exact Real.sqrt_pos.mpr (by linarith [ha.1])
  have hint : ∀ x y, ∫ a in (0 : ℝ)..1, c * w (Real.sqrt (s x y + a)) =
      g (Real.sqrt (s x y)) - g (Real.sqrt (s x y + 1)) := by
    intro x y
    have hs := h.pos x y
    have hd : ∀ a ∈ Set.uIcc (0 : ℝ) 1, HasDerivAt (fun a => -g (Real.sqrt (s x y + a)))
        (c * w (Real.sqrt (s x y + a))) a := by
      intro a ha
      rw [Set.uIcc_of_le zero_le_one] at ha
      have hsa : 0 < s x y + a := by linarith [ha.1]
      have hr := Real.sqrt_pos.mpr hsa
      refine ((hg _ hr).comp a (sqrt_shift_deriv hsa)).neg.congr_deriv ?_
      field_simp
    rw [intervalIntegral.integral_eq_sub_of_hasDerivAt hd ?_]
    · rw [add_zero]; ring
    · refine ContinuousOn.intervalIntegrable ?_
      rw [Set.uIcc_of_le zero_le_one]
      exact hcont x y
  have h1 := pd_integral (K := fun a x y => c * w (Real.sqrt (s x y + a))) x
    (fun a ha => posDef_smul (A := fun x y => w (Real.sqrt (s x y + a))) (hpd a ha) hc)
    (fun v _ x y => by rw [h.toNegType.symm x y]) hcont
  refine (congrArg Matrix.PosDef ?_).mp (posDef_add_psd h1 (hpsd n x))
  ext i j
  simp only [Matrix.add_apply, Matrix.of_apply, hint]
  ring

theorem NegTypeS.expSqrt {s : X → X → ℝ} {x : Fin n → X} (h : NegTypeS s x) :
    (Matrix.of fun i j => Real.exp (-Real.sqrt (s (x i) (x j))) : Mat n n).PosDef := by
  refine h.mixture (g := fun r => Real.exp (-r)) (w := fun r => r⁻¹ * Real.exp (-r)) (c := 1 / 2) (by norm_num)
    (fun r hr => ?_) ?_ (fun a ha => ?_) ?_
  · refine (hasDerivAt_id' r).neg.exp.congr_deriv ?_
    simp only [Pi.neg_apply]
    field_simp
  · exact (continuousOn_id.inv₀ fun r hr => (ne_of_gt hr)).mul (by fun_prop)
  · exact posDef_hadamard_diag (B := Matrix.of fun i j => Real.exp (-Real.sqrt (s (x i) (x j) + a)))
      (h.shift ha.le).recipSqrt
      (by simpa using (h.toNegType.shift ha.le).expSqrt zero_le_one n x) fun i => Real.exp_pos _
  · simpa using (h.toNegType.shift zero_le_one).expSqrt zero_le_one

theorem NegTypeS.matern32 {s : X → X → ℝ} {x : Fin n → X} (h : NegTypeS s x) :
    (Matrix.of fun i j => (1 + Real.sqrt (s (x i) (x j))) * Real.exp (-Real.sqrt (s (x i) (x j))) : Mat n n).PosDef := by
  refine h.mixture (g := fun r => (1 + r) * Real.exp (-r)) (w := fun r => Real.exp (-r))
    (c := 1 / 2) (by norm_num) (fun r _ => ?_) (by fun_prop) (fun a ha => ?_) ?_
  · refine (((hasDerivAt_id' r).const_add 1).mul (hasDerivAt_id' r).neg.exp).congr_deriv ?_
    simp only [Pi.neg_apply]; ring
  · exact (h.shift ha.le).expSqrt
  · exact (h.toNegType.shift zero_le_one).matern32

theorem NegTypeS.matern52 {s : X → X → ℝ} {x : Fin n → X} (h : NegTypeS s x) :
    (Matrix.of fun i j => (1 + Real.sqrt (s (x i) (x j)) + Real.sqrt (s (x i) (x j)) ^ 2 / 3) *
      Real.exp (-Real.sqrt (s (x i) (x j))) : Mat n n).PosDef := by
  refine h.mixture (g := fun r => (1 + r + r ^ 2 / 3) * Real.exp (-r))
    (w := fun r => (1 + r) * Real.exp (-r))
    (c := 1 / 6) (by norm_num) (fun r _ => ?_) (by fun_prop) (fun a ha => ?_) ?_
  · refine ((((hasDerivAt_id' r).const_add 1).add ((hasDerivAt_pow 2 r).div_const 3)).mul
      (hasDerivAt_id' r).neg.exp).congr_deriv ?_
    simp only [Pi.neg_apply, Pi.add_apply]; norm_num; ring
  · exact (h.shift ha.le).matern32
  · exact (h.toNegType.shift zero_le_one).matern52

end GPX
