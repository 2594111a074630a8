import Verif.Lemmas.KernelPSD
import Verif.Props.KernelDerivs
import Verif.Props.KernelLocal
import Mathlib.Analysis.Calculus.MeanValue

/-! # Joint positive semidefiniteness of values and derivatives -/

namespace GPX
open GPX.Spec Filter Topology

variable {d : ℕ} {X Y : Type*}

/-- Gram matrices over any finite index type. -/
theorem PSDK.gram {K : X → X → ℝ} (hK : PSDK K) {I : Type*} [Fintype I] [DecidableEq I] (x : I → X) :
    (Matrix.of fun i j => K (x i) (x j)).PosSemidef := by
  have h := (hK _ (x ∘ (Fintype.equivFin I).symm)).submatrix (Fintype.equivFin I)
  convert h using 1
  ext i j
  simp

/-- Linear combinations of evaluations. -/
theorem PSDK.congr {K : X → X → ℝ} (hK : PSDK K) {I : Type*} [Fintype I] [DecidableEq I] (w : I → Y → ℝ)
    (z : I → Y → X) : PSDK fun P Q => ∑ a, ∑ b, w a P * w b Q * K (z a P) (z b Q) := by
  rw [psdk_iff]
  refine fun n x => ⟨fun i j => ?_, fun c => ?_⟩
  · rw [Finset.sum_comm]
    exact Finset.sum_congr rfl fun a _ => Finset.sum_congr rfl fun b _ => by
      rw [hK.symm (z b (x j))]; ring
  · have h := (hK.gram (I := Fin n × I) fun q => z q.2 (x q.1)).dotProduct_mulVec_nonneg
      fun q => c q.1 * w q.2 (x q.1)
    simp only [dotProduct, Matrix.mulVec, Matrix.of_apply, Pi.star_apply, star_trivial,
      Fintype.sum_prod_type, Finset.mul_sum] at h
    refine h.trans_eq ?_
    simp only [Finset.mul_sum, Finset.sum_mul]
    refine Finset.sum_congr rfl fun i _ => ?_
    rw [Finset.sum_comm]
    refine Finset.sum_congr rfl fun j _ => ?_
    refine Finset.sum_congr rfl fun a _ => Finset.sum_congr rfl fun b _ => ?_
    ring

/-- The mixed difference quotient is a value of the mixed derivative. -/
theorem mixed_mean_value {g gu guv : ℝ → ℝ → ℝ} (h1 : ∀ s t, HasDerivAt (fun s => g s t) (gu s t) s)
    (h2 : ∀ s t, HasDerivAt (fun t => gu s t) (guv s t) t) {h : ℝ} (hh : 0 < h) :
    ∃ ξ η, ξ ∈ Set.Ioo 0 h ∧ η ∈ Set.Ioo 0 h ∧
      g h h - g h 0 - g 0 h + g 0 0 = h * h * guv ξ η := by
  have hf : ∀ s, HasDerivAt (fun s => g s h - g s 0) (gu s h - gu s 0) s := fun s => (h1 s h).sub (h1 s 0)
  obtain ⟨ξ, hξ, e1⟩ := exists_hasDerivAt_eq_slope (fun s => g s h - g s 0) (fun s => gu s h - gu s 0) hh
    (fun s _ => (hf s).continuousAt.continuousWithinAt) fun s _ => hf s
  obtain ⟨η, hη, e2⟩ := exists_hasDerivAt_eq_slope (fun t => gu ξ t) (fun t => guv ξ t) hh
    (fun t _ => (h2 ξ t).continuousAt.continuousWithinAt) fun t _ => h2 ξ t
  refine ⟨ξ, η, hξ, hη, ?_⟩
  rw [e2]
  simp only [sub_zero] at e1 ⊢
  rw [e1]
  field_simp
  ring

theorem tendsto_mixed {g gu guv : ℝ → ℝ → ℝ} (h1 : ∀ s t, HasDerivAt (fun s => g s t) (gu s t) s)
    (h2 : ∀ s t, HasDerivAt (fun t => gu s t) (guv s t) t)
    (hc : Continuous fun q : ℝ × ℝ => guv q.1 q.2) :
    Tendsto (fun h => h⁻¹ * h⁻¹ * (g h h - g h 0 - g 0 h + g 0 0)) (𝓝[>] 0) (𝓝 (guv 0 0)) := by
  have key : ∀ h : ℝ, ∃ q : ℝ × ℝ, 0 < h → q.1 ∈ Set.Ioo 0 h ∧ q.2 ∈ Set.Ioo 0 h ∧
      g h h - g h 0 - g 0 h + g 0 0 = h * h * guv q.1 q.2 := fun h => by
    by_cases hh : 0 < h
    · obtain ⟨ξ, η, a, b, c⟩ := mixed_mean_value h1 h2 hh
      exact ⟨(ξ, η), fun _ => ⟨a, b, c⟩⟩
    · exact ⟨0, fun h => absurd h hh⟩
  choose q hq using key
  have hid : Tendsto (fun h : ℝ => h) (𝓝[>] 0) (𝓝 0) := tendsto_nhdsWithin_of_tendsto_nhds tendsto_id
  have l1 : Tendsto (fun h => (q h).1) (𝓝[>] 0) (𝓝 0) :=
    tendsto_of_tendsto_of_tendsto_of_le_of_le' tendsto_const_nhds hid
      (eventually_mem_nhdsWithin.mono fun h hh => (hq h hh).1.1.le)
      (eventually_mem_nhdsWithin.mono fun h hh => (hq h hh).1.2.le)
  have l2 : Tendsto (fun h => (q h).2) (𝓝[>] 0) (𝓝 0) :=
    tendsto_of_tendsto_of_tendsto_of_le_of_le' tendsto_const_nhds hid
      (eventually_mem_nhdsWithin.mono fun h hh => (hq h hh).2.1.1.le)
      (eventually_mem_nhdsWithin.mono fun h hh => (hq h hh).2.1.2.le)
  have l3 : Tendsto q (𝓝[>] 0) (𝓝 ((0 : ℝ), (0 : ℝ))) := by
    rw [nhds_prod_eq]; exact l1.prodMk l2
  have l4 := (hc.tendsto ((0 : ℝ), (0 : ℝ))).comp l3
  refine l4.congr' (eventually_mem_nhdsWithin.mono fun h hh => ?_)
  have hh' : (h : ℝ) ≠ 0 := ne_of_gt hh
  simp only [Function.comp_apply]
  rw [(hq h hh).2.2]
  field_simp

/-- A kernel together with its partial derivatives: `none` is evaluation, `some a` the derivative with respect to
coordinate `a`. -/
def coordKernel (K : (Fin d → ℝ) → (Fin d → ℝ) → ℝ) (G0 G1 : (Fin d → ℝ) → (Fin d → ℝ) → Fin d → ℝ)
    (H : (Fin d → ℝ) → (Fin d → ℝ) → Fin d → Fin d → ℝ) :
    (Fin d → ℝ) × Option (Fin d) → (Fin d → ℝ) × Option (Fin d) → ℝ
  | (x, none), (y, none) => K x y
  | (x, some a), (y, none) => G0 x y a
  | (x, none), (y, some b) => G1 x y b
  | (x, some a), (y, some b) => H x y a b

/-- A continuously twice differentiable positive semidefinite kernel is positive semidefinite jointly with its
derivatives. -/
theorem PSDK.coord {K : (Fin d → ℝ) → (Fin d → ℝ) → ℝ} (hK : PSDK K)
    {G0 G1 : (Fin d → ℝ) → (Fin d → ℝ) → Fin d → ℝ} {H : (Fin d → ℝ) → (Fin d → ℝ) → Fin d → Fin d → ℝ}
    (h0 : ∀ x y a, HasDerivAt (fun t => K (Function.update x a t) y) (G0 x y a) (x a))
    (h1 : ∀ x y b, HasDerivAt (fun t => K x (Function.update y b t)) (G1 x y b) (y b))
    (h01 : ∀ x y a b, HasDerivAt (fun t => G0 x (Function.update y b t) a) (H x y a b) (y b))
    (hc : ∀ a b, Continuous fun q : (Fin d → ℝ) × (Fin d → ℝ) => H q.1 q.2 a b) :
    PSDK (coordKernel K G0 G1 H) := by
  let w : ℝ → Bool → (Fin d → ℝ) × Option (Fin d) → ℝ := fun h α P =>
    match P.2, α with
    | none, true => 1
    | none, false => 0
    | some _, true => h⁻¹
    | some _, false => -h⁻¹
  let z : ℝ → Bool → (Fin d → ℝ) × Option (Fin d) → (Fin d → ℝ) := fun h α P =>
    match P.2, α with
    | none, _ => P.1
    | some a, true => Function.update P.1 a (P.1 a + h)
    | some _, false => P.1
  refine PSDK.limit (l := 𝓝[>] (0 : ℝ))
    (K := fun h P Q => ∑ α, ∑ β, w h α P * w h β Q * K (z h α P) (z h β Q)) (fun h => hK.congr (w h) (z h)) ?_
  rintro ⟨x, _ | a⟩ ⟨y, _ | b⟩
  · simp only [Fintype.sum_bool, w, z, coordKernel]
    simp
  · have := (h1 x y b).tendsto_slope_zero_right
    refine this.congr fun h => ?_
    simp only [Fintype.sum_bool, w, z, smul_eq_mul, Function.update_eq_self]
    ring
  · have := (h0 x y a).tendsto_slope_zero_right
    refine this.congr fun h => ?_
    simp only [Fintype.sum_bool, w, z, smul_eq_mul, Function.update_eq_self]
    ring
  · have := tendsto_mixed (g := fun s t => K (Function.update x a (x a + s)) (Function.update y b (y b + t)))
      (gu := fun s t => G0 (Function.update x a (x a + s)) (Function.update y b (y b + t)) a)
      (guv := fun s t => H (Function.update x a (x a + s)) (Function.update y b (y b + t)) a b)
      (fun s t => by
        have := h0 (Function.update x a (x a + s)) (Function.update y b (y b + t)) a
        simp only [Function.update_idem, Function.update_self] at this
        exact this.comp_const_add (x a) s)
      (fun s t => by
        have := h01 (Function.update x a (x a + s)) (Function.update y b (y b + t)) a b
        simp only [Function.update_idem, Function.update_self] at this
        exact this.comp_const_add (y b) t)
      ((hc a b).comp ((continuous_const.update a (continuous_const.add continuous_fst)).prodMk
        (continuous_const.update b (continuous_const.add continuous_snd))))
    simp only [add_zero, Function.update_eq_self] at this
    refine this.congr fun h => ?_
    simp only [Fintype.sum_bool, w, z]
    ring

/-- The same with derivatives along arbitrary directions. -/
noncomputable def dirKernel (K : (Fin d → ℝ) → (Fin d → ℝ) → ℝ) (G0 G1 : (Fin d → ℝ) → (Fin d → ℝ) → Fin d → ℝ)
    (H : (Fin d → ℝ) → (Fin d → ℝ) → Fin d → Fin d → ℝ) :
    (Fin d → ℝ) × Option (Fin d → ℝ) → (Fin d → ℝ) × Option (Fin d → ℝ) → ℝ
  | (x, none), (y, none) => K x y
  | (x, some t), (y, none) => ∑ a, t a * G0 x y a
  | (x, none), (y, some s) => ∑ b, G1 x y b * s b
  | (x, some t), (y, some s) => ∑ a, ∑ b, t a * H x y a b * s b

theorem PSDK.dir {K : (Fin d → ℝ) → (Fin d → ℝ) → ℝ} {G0 G1 : (Fin d → ℝ) → (Fin d → ℝ) → Fin d → ℝ}
    {H : (Fin d → ℝ) → (Fin d → ℝ) → Fin d → Fin d → ℝ} (h : PSDK (coordKernel K G0 G1 H)) :
    PSDK (dirKernel K G0 G1 H) := by
  let w : Option (Fin d) → (Fin d → ℝ) × Option (Fin d → ℝ) → ℝ := fun α P =>
    match P.2, α with
    | none, none => 1
    | none, some _ => 0
    | some _, none => 0
    | some t, some a => t a
  refine (congrArg PSDK ?_).mp (h.congr w fun α P => (P.1, α))
  funext P Q
  rcases P with ⟨x, _ | t⟩ <;> rcases Q with ⟨y, _ | s⟩ <;>
    simp only [Fintype.sum_option, w, dirKernel, coordKernel, zero_mul, mul_zero, one_mul, mul_one,
      Finset.sum_const_zero, add_zero, zero_add]
  · exact Finset.sum_congr rfl fun a _ => mul_comm _ _
  · exact Finset.sum_congr rfl fun a _ => Finset.sum_congr rfl fun b _ => by ring

/-- The values and derivatives produced by a kernel object are those of a joint positive semidefinite kernel on
samples with an optional direction. -/
def KernelObj.Joint (κ : KernelObj d) (p : KPar) : Prop :=
  ∃ E : (Fin d → ℝ) × Option (Fin d → ℝ) → (Fin d → ℝ) × Option (Fin d → ℝ) → ℝ, PSDK E ∧
    (∀ {n m : ℕ} (x1 : Batch n d) (x2 : Batch m d) i j, κ.k p x1 x2 i j = E (x1 i, none) (x2 j, none)) ∧
    (∀ {n m v : ℕ} (x1 : Batch n d) (x2 : Batch m d) (J : Jac n d v) i u j,
      κ.d0kj p x1 x2 J (flat i u) j = E (x1 i, some fun f => J i f u) (x2 j, none)) ∧
    (∀ {n m v : ℕ} (x1 : Batch n d) (x2 : Batch m d) (J : Jac m d v) i j u,
      κ.d1kj p x1 x2 J i (flat j u) = E (x1 i, none) (x2 j, some fun f => J j f u)) ∧
    (∀ {n m v w : ℕ} (x1 : Batch n d) (x2 : Batch m d) (J1 : Jac n d v) (J2 : Jac m d w) i u j t,
      κ.d01kj p x1 x2 J1 J2 (flat i u) (flat j t) =
        E (x1 i, some fun f => J1 i f u) (x2 j, some fun f => J2 j f t))

/-- The same for the derivatives alone. -/
def KernelObj.DerivPSD (κ : KernelObj d) (p : KPar) : Prop :=
  ∃ E : (Fin d → ℝ) × (Fin d → ℝ) → (Fin d → ℝ) × (Fin d → ℝ) → ℝ, PSDK E ∧
    (∀ {n m v w : ℕ} (x1 : Batch n d) (x2 : Batch m d) (J1 : Jac n d v) (J2 : Jac m d w) i u j t,
      κ.d01kj p x1 x2 J1 J2 (flat i u) (flat j t) =
        E (x1 i, fun f => J1 i f u) (x2 j, fun f => J2 j f t))

theorem KernelObj.Joint.deriv {κ : KernelObj d} {p : KPar} (h : κ.Joint p) : κ.DerivPSD p := by
  obtain ⟨E, hE, _, _, _, h01⟩ := h
  exact ⟨_, hE.comp fun P : (Fin d → ℝ) × (Fin d → ℝ) => (P.1, some P.2), h01⟩

theorem KernelObj.DerivPSD.sum {κ1 κ2 : KernelObj d} {p : KPar} (h1 : κ1.DerivPSD (p.sub "kernel1"))
    (h2 : κ2.DerivPSD (p.sub "kernel2")) : (KernelObj.sum κ1 κ2).DerivPSD p := by
  obtain ⟨E1, p1, e1⟩ := h1
  obtain ⟨E2, p2, e2⟩ := h2
  refine ⟨_, p1.add p2, fun x1 x2 J1 J2 i u j t => ?_⟩
  rw [← e1, ← e2]; rfl

theorem KernelObj.Joint.sum {κ1 κ2 : KernelObj d} {p : KPar} (h1 : κ1.Joint (p.sub "kernel1"))
    (h2 : κ2.Joint (p.sub "kernel2")) : (KernelObj.sum κ1 κ2).Joint p := by
  obtain ⟨E1, p1, a1, b1, c1, e1⟩ := h1
  obtain ⟨E2, p2, a2, b2, c2, e2⟩ := h2
  refine ⟨_, p1.add p2, fun x1 x2 i j => ?_, fun x1 x2 J i u j => ?_, fun x1 x2 J i u j => ?_,
    fun x1 x2 J1 J2 i u j t => ?_⟩
  · rw [← a1, ← a2]; rfl
  · rw [← b1, ← b2]; rfl
  · rw [← c1, ← c2]; rfl
  · rw [← e1, ← e2]; rfl

theorem KernelObj.Joint.prod {κ1 κ2 : KernelObj d} {p : KPar} (h1 : κ1.Joint (p.sub "kernel1"))
    (h2 : κ2.Joint (p.sub "kernel2")) : (KernelObj.prod κ1 κ2).Joint p := by
  obtain ⟨E1, p1, a1, b1, c1, e1⟩ := h1
  obtain ⟨E2, p2, a2, b2, c2, e2⟩ := h2
  let S := (Fin d → ℝ) × Option (Fin d → ℝ)
  have hp : PSDK fun P Q : S × S => E1 P.1 Q.1 * E2 P.2 Q.2 := (p1.comp Prod.fst).mul (p2.comp Prod.snd)
  let w : Bool → S → ℝ := fun α P =>
    match P.2, α with
    | _, true => 1
    | none, false => 0
    | some _, false => 1
  let z : Bool → S → S × S := fun α P =>
    match α with
    | true => ((P.1, none), P)
    | false => (P, (P.1, none))
  refine ⟨_, hp.congr w z, fun x1 x2 i j => ?_, fun x1 x2 J i u j => ?_, fun x1 x2 J i u j => ?_,
    fun x1 x2 J1 J2 i u j t => ?_⟩
  · simp only [Fintype.sum_bool, w, z, ← a1, ← a2]
    simp [KernelObj.prod, prodKernels, Arr2.mul]
  · simp only [Fintype.sum_bool, w, z, ← a1, ← a2, ← b1, ← b2]
    simp [KernelObj.prod, prodDeriv0Jac, Arr2.mul, Arr2.add, repeatRows_flat]
  · simp only [Fintype.sum_bool, w, z, ← a1, ← a2, ← c1, ← c2]
    simp [KernelObj.prod, prodDeriv1Jac, Arr2.mul, Arr2.add, repeatCols_flat]
  · simp only [Fintype.sum_bool, w, z, ← a1, ← a2, ← b1, ← b2, ← c1, ← c2, ← e1, ← e2]
    simp [KernelObj.prod, prodDeriv01Jac, Arr2.mul, Arr2.add, repeatCols_flat, repeatRows_flat]
    ring

/-- A dataset of one sample. -/
def one (x : Fin d → ℝ) : Batch 1 d := fun _ => x

theorem setFeature_one (x : Fin d → ℝ) (f : Fin d) (t : ℝ) :
    setFeature (one x) 0 f t = one (Function.update x f t) := by
  funext i; fin_cases i; simp [setFeature, one]

theorem one_apply (x : Fin d → ℝ) (i : Fin 1) : one x i = x := rfl

theorem d0k_one {κ : KernelObj d} {p : KPar} (hs : SampleWise κ p) {n m : ℕ} (x1 : Batch n d) (x2 : Batch m d)
    (i : Fin n) (f : Fin d) (j : Fin m) :
    κ.d0k p (one (x1 i)) (one (x2 j)) (flat 0 f) 0 = κ.d0k p x1 x2 (flat i f) j :=
  hs.d0k x1 x2 (fun _ : Fin 1 => i) (fun _ : Fin 1 => j) 0 f 0

theorem d1k_one {κ : KernelObj d} {p : KPar} (hs : SampleWise κ p) {n m : ℕ} (x1 : Batch n d) (x2 : Batch m d)
    (i : Fin n) (f : Fin d) (j : Fin m) :
    κ.d1k p (one (x1 i)) (one (x2 j)) 0 (flat 0 f) = κ.d1k p x1 x2 i (flat j f) :=
  hs.d1k x1 x2 (fun _ : Fin 1 => i) (fun _ : Fin 1 => j) 0 0 f

theorem d01k_one {κ : KernelObj d} {p : KPar} (hs : SampleWise κ p) {n m : ℕ} (x1 : Batch n d) (x2 : Batch m d)
    (i : Fin n) (f : Fin d) (j : Fin m) (g : Fin d) :
    κ.d01k p (one (x1 i)) (one (x2 j)) (flat 0 f) (flat 0 g) = κ.d01k p x1 x2 (flat i f) (flat j g) :=
  hs.d01k x1 x2 (fun _ : Fin 1 => i) (fun _ : Fin 1 => j) 0 f 0 g

/-- From correct derivatives of a positive semidefinite kernel; `G0` and `G1` are its first derivatives. -/
theorem KernelObj.psd_of_true {κ : KernelObj d} {p : KPar} {L : (Fin d → ℝ) → (Fin d → ℝ) → ℝ} (hL : PSDK L)
    (hk : ∀ {n m : ℕ} (x1 : Batch n d) (x2 : Batch m d) i j, κ.k p x1 x2 i j = L (x1 i) (x2 j))
    {G0 G1 : (Fin d → ℝ) → (Fin d → ℝ) → Fin d → ℝ}
    (h0 : ∀ x y a, HasDerivAt (fun t => κ.k p (setFeature (one x) 0 a t) (one y) 0 0) (G0 x y a) (x a))
    (h1 : ∀ x y a, HasDerivAt (fun t => κ.k p (one x) (setFeature (one y) 0 a t) 0 0) (G1 x y a) (y a))
    (t01 : ∀ x y a b, TrueD01At κ p (one x) (one y) 0 a 0 b)
    (hcont : ∀ f g, Continuous fun q : (Fin d → ℝ) × (Fin d → ℝ) =>
      κ.d01k p (one q.1) (one q.2) (flat 0 f) (flat 0 g)) :
    PSDK (dirKernel L G0 G1 fun x y a b => κ.d01k p (one x) (one y) (flat 0 a) (flat 0 b)) := by
  have h0' : ∀ x y a, HasDerivAt (fun t => L (Function.update x a t) y) (G0 x y a) (x a) := fun x y a => by
    have := h0 x y a
    simp only [setFeature_one, hk, one_apply] at this
    exact this
  have h1' : ∀ x y a, HasDerivAt (fun t => L x (Function.update y a t)) (G1 x y a) (y a) := fun x y a => by
    have := h1 x y a
    simp only [setFeature_one, hk, one_apply] at this
    exact this
  refine (hL.coord h0' h1' (fun x y a b => ?_) hcont).dir
  have := t01 x y a b
  simp only [TrueD01At, setFeature_one, hk, one_apply] at this
  convert this using 2 with t
  exact (h0' x (Function.update y b t) a).deriv.symm

theorem KernelObj.joint_of_true {κ : KernelObj d} {p : KPar} (hs : SampleWise κ p) (hp : κ.PSD p)
    (t0 : ∀ x y a, TrueD0At κ p (one x) (one y) 0 a 0) (t1 : ∀ x y a, TrueD1At κ p (one x) (one y) 0 0 a)
    (t01 : ∀ x y a b, TrueD01At κ p (one x) (one y) 0 a 0 b) (hc : Props.Contracts κ p)
    (hcont : ∀ f g, Continuous fun q : (Fin d → ℝ) × (Fin d → ℝ) =>
      κ.d01k p (one q.1) (one q.2) (flat 0 f) (flat 0 g)) : κ.Joint p := by
  obtain ⟨L, hL, hk⟩ := hp
  have hE := KernelObj.psd_of_true hL hk t0 t1 t01 hcont
  refine ⟨_, hE, fun x1 x2 i j => hk _ _ _ _, fun x1 x2 J i u j => ?_, fun x1 x2 J i j u => ?_,
    fun x1 x2 J1 J2 i u j t => ?_⟩
  · rw [hc.c0]
    exact Finset.sum_congr rfl fun f _ => by simp only [d0k_one hs]
  · rw [hc.c1]
    exact Finset.sum_congr rfl fun f _ => by simp only [d1k_one hs]
  · rw [hc.c01]
    exact Finset.sum_congr rfl fun f _ => Finset.sum_congr rfl fun g _ => by simp only [d01k_one hs]

theorem KernelObj.derivPSD_of_true {κ : KernelObj d} {p : KPar} (hs : SampleWise κ p) (hp : κ.PSD p)
    {G0 G1 : (Fin d → ℝ) → (Fin d → ℝ) → Fin d → ℝ}
    (h0 : ∀ x y a, HasDerivAt (fun t => κ.k p (setFeature (one x) 0 a t) (one y) 0 0) (G0 x y a) (x a))
    (h1 : ∀ x y a, HasDerivAt (fun t => κ.k p (one x) (setFeature (one y) 0 a t) 0 0) (G1 x y a) (y a))
    (t01 : ∀ x y a b, TrueD01At κ p (one x) (one y) 0 a 0 b) (hc : Props.Contracts κ p)
    (hcont : ∀ f g, Continuous fun q : (Fin d → ℝ) × (Fin d → ℝ) =>
      κ.d01k p (one q.1) (one q.2) (flat 0 f) (flat 0 g)) : κ.DerivPSD p := by
  obtain ⟨L, hL, hk⟩ := hp
  have hE := KernelObj.psd_of_true hL hk h0 h1 t01 hcont
  refine ⟨_, hE.comp fun P : (Fin d → ℝ) × (Fin d → ℝ) => (P.1, some P.2), fun x1 x2 J1 J2 i u j t => ?_⟩
  rw [hc.c01]
  exact Finset.sum_congr rfl fun f _ => Finset.sum_congr rfl fun g _ => by simp only [d01k_one hs]

/-- Continuity of the second derivatives, from the closed form. -/
theorem continuous_of_closed {κ : KernelObj d} {p : KPar} {ad : Dims d} {c : Core} (h : ClosedForm κ p ad c)
    (hinj : Function.Injective ad.idx)
    (hH : ∀ a b, Continuous fun q : (Fin ad.k → ℝ) × (Fin ad.k → ℝ) => c.H q.1 q.2 a b) (f g : Fin d) :
    Continuous fun q : (Fin d → ℝ) × (Fin d → ℝ) => κ.d01k p (one q.1) (one q.2) (flat 0 f) (flat 0 g) := by
  simp only [h.d01k, one_apply]
  have ht : Continuous fun q : (Fin d → ℝ) × (Fin d → ℝ) => (ad.take q.1, ad.take q.2) :=
    (continuous_pi fun a => (continuous_apply _).comp continuous_fst).prodMk
      (continuous_pi fun a => (continuous_apply _).comp continuous_snd)
  rcases ad.cases_idx f with ⟨a, rfl⟩ | hf
  · rcases ad.cases_idx g with ⟨b, rfl⟩ | hg
    · simp only [ad.spread2_idx hinj]
      exact (hH a b).comp ht
    · simp only [ad.spread2_not_right _ _ g hg]
      exact continuous_const
  · simp only [ad.spread2_not_left _ f _ hf]
    exact continuous_const

end GPX
