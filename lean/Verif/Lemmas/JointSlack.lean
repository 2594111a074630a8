import Verif.Lemmas.Matern32Jet
import Verif.Spec.JointSlack

/-! # Joint covariances that are positive semidefinite once a slack is added -/

namespace GPX
open GPX.Spec GPX.Props

variable {d : ℕ}

/-- A kernel on samples with optional directions that gives the values and the derivatives of a kernel object. -/
structure KernelObj.JetRep (κ : KernelObj d) (p : KPar) (E : Jet d → Jet d → ℝ) : Prop where
  k : ∀ {n m : ℕ} (x1 : Batch n d) (x2 : Batch m d) i j, κ.k p x1 x2 i j = E (x1 i, none) (x2 j, none)
  d0 : ∀ {n m v : ℕ} (x1 : Batch n d) (x2 : Batch m d) (J : Jac n d v) i u j,
    κ.d0kj p x1 x2 J (flat i u) j = E (x1 i, some fun f => J i f u) (x2 j, none)
  d1 : ∀ {n m v : ℕ} (x1 : Batch n d) (x2 : Batch m d) (J : Jac m d v) i j u,
    κ.d1kj p x1 x2 J i (flat j u) = E (x1 i, none) (x2 j, some fun f => J j f u)
  d01 : ∀ {n m v w : ℕ} (x1 : Batch n d) (x2 : Batch m d) (J1 : Jac n d v) (J2 : Jac m d w) i u j t,
    κ.d01kj p x1 x2 J1 J2 (flat i u) (flat j t) = E (x1 i, some fun f => J1 i f u) (x2 j, some fun f => J2 j f t)

theorem KernelObj.JetRep.eq {κ : KernelObj d} {p : KPar} {E : Jet d → Jet d → ℝ} (h : κ.JetRep p E) :
    obsCov κ p = E := by
  funext P Q
  rcases P with ⟨x, _ | t⟩ <;> rcases Q with ⟨y, _ | s⟩ <;> unfold obsCov
  · exact h.k _ _ _ _
  · exact h.d1 _ _ (fun _ f _ => s f : Jac 1 d 1) _ _ 0
  · exact h.d0 _ _ (fun _ f _ => t f : Jac 1 d 1) _ 0 _
  · exact h.d01 _ _ (fun _ f _ => t f : Jac 1 d 1) (fun _ f _ => s f : Jac 1 d 1) _ 0 _ 0

/-- Positive semidefinite on the observables of the samples in `A`. -/
def PSDOn (A : Set (Fin d → ℝ)) (K : Jet d → Jet d → ℝ) : Prop :=
  PSDK fun P Q : {P : Jet d // P.1 ∈ A} => K P.1 Q.1

theorem PSDK.on {K : Jet d → Jet d → ℝ} (h : PSDK K) (A : Set (Fin d → ℝ)) : PSDOn A K := h.comp Subtype.val

theorem PSDOn.add {A : Set (Fin d → ℝ)} {K L : Jet d → Jet d → ℝ} (h : PSDOn A K) (h' : PSDOn A L) :
    PSDOn A fun P Q => K P Q + L P Q := PSDK.add h h'

theorem PSDOn.productRule {A : Set (Fin d → ℝ)} {E1 E2 : Jet d → Jet d → ℝ} (p1 : PSDOn A E1) (p2 : PSDOn A E2) :
    PSDOn A (productRule E1 E2) := by
  have hp : PSDK fun P Q : {P : Jet d // P.1 ∈ A} × {P : Jet d // P.1 ∈ A} =>
      E1 P.1.1 Q.1.1 * E2 P.2.1 Q.2.1 := (PSDK.comp p1 Prod.fst).mul (PSDK.comp p2 Prod.snd)
  let w : Bool → {P : Jet d // P.1 ∈ A} → ℝ := fun α P =>
    match P.1.2, α with
    | _, true => 1
    | none, false => 0
    | some _, false => 1
  let z : Bool → {P : Jet d // P.1 ∈ A} → {P : Jet d // P.1 ∈ A} × {P : Jet d // P.1 ∈ A} := fun α P =>
    match α with
    | true => (⟨(P.1.1, none), P.2⟩, P)
    | false => (P, ⟨(P.1.1, none), P.2⟩)
  refine (congrArg PSDK ?_).mp (hp.congr w z)
  funext P Q
  unfold Spec.productRule
  rcases P with ⟨⟨x, _ | t⟩, hP⟩ <;> rcases Q with ⟨⟨y, _ | s⟩, hQ⟩ <;> simp [w, z] <;> ring

/-- The kernel object is positive semidefinite on the samples in `A` once `S` is added. -/
structure KernelObj.SlackOn (κ : KernelObj d) (p : KPar) (A : Set (Fin d → ℝ)) (S : Jet d → Jet d → ℝ) : Prop where
  slack : PSDOn A S
  psd : PSDOn A fun P Q => obsCov κ p P Q + S P Q
  rep : κ.JetRep p (obsCov κ p)

theorem KernelObj.Joint.slackOn {κ : KernelObj d} {p : KPar} (h : κ.Joint p) (A : Set (Fin d → ℝ)) :
    κ.SlackOn p A fun _ _ => 0 := by
  obtain ⟨E, hE, a, b, c, e⟩ := h
  have hr : κ.JetRep p E := ⟨a, b, c, e⟩
  refine ⟨PSDK.zero, ?_, by rw [hr.eq]; exact hr⟩
  rw [hr.eq]
  simpa using hE.on A

theorem KernelObj.SlackOn.sum {κ1 κ2 : KernelObj d} {p : KPar} {A : Set (Fin d → ℝ)} {S1 S2 : Jet d → Jet d → ℝ}
    (h1 : κ1.SlackOn (p.sub "kernel1") A S1) (h2 : κ2.SlackOn (p.sub "kernel2") A S2) :
    (KernelObj.sum κ1 κ2).SlackOn p A fun P Q => S1 P Q + S2 P Q := by
  have hr : (KernelObj.sum κ1 κ2).JetRep p
      fun P Q => obsCov κ1 (p.sub "kernel1") P Q + obsCov κ2 (p.sub "kernel2") P Q := by
    refine ⟨?_, ?_, ?_, ?_⟩
    · intro n m x1 x2 i j; rw [← h1.rep.k, ← h2.rep.k]; rfl
    · intro n m v x1 x2 J i u j; rw [← h1.rep.d0, ← h2.rep.d0]; rfl
    · intro n m v x1 x2 J i j u; rw [← h1.rep.d1, ← h2.rep.d1]; rfl
    · intro n m v w x1 x2 J1 J2 i u j t; rw [← h1.rep.d01, ← h2.rep.d01]; rfl
  refine ⟨h1.slack.add h2.slack, ?_, by rw [hr.eq]; exact hr⟩
  rw [hr.eq]
  refine (congrArg (PSDOn A) ?_).mp (h1.psd.add h2.psd)
  funext P Q
  ring

theorem KernelObj.JetRep.prod {κ1 κ2 : KernelObj d} {p : KPar} {E1 E2 : Jet d → Jet d → ℝ}
    (r1 : κ1.JetRep (p.sub "kernel1") E1) (r2 : κ2.JetRep (p.sub "kernel2") E2) :
    (KernelObj.prod κ1 κ2).JetRep p (productRule E1 E2) where
  k x1 x2 i j := by
    simp only [productRule, ← r1.k, ← r2.k]
    simp [KernelObj.prod, prodKernels, Arr2.mul]
  d0 x1 x2 J i u j := by
    simp only [productRule, ← r1.k, ← r2.k, ← r1.d0, ← r2.d0]
    simp [KernelObj.prod, prodDeriv0Jac, Arr2.mul, Arr2.add, repeatRows_flat]
    try ring
  d1 x1 x2 J i j u := by
    simp only [productRule, ← r1.k, ← r2.k, ← r1.d1, ← r2.d1]
    simp [KernelObj.prod, prodDeriv1Jac, Arr2.mul, Arr2.add, repeatCols_flat]
    try ring
  d01 x1 x2 J1 J2 i u j t := by
    simp only [productRule, ← r1.k, ← r2.k, ← r1.d0, ← r2.d0, ← r1.d1, ← r2.d1, ← r1.d01, ← r2.d01]
    simp [KernelObj.prod, prodDeriv01Jac, Arr2.mul, Arr2.add, repeatCols_flat, repeatRows_flat]
    try ring

theorem KernelObj.SlackOn.prod {κ1 κ2 : KernelObj d} {p : KPar} {A : Set (Fin d → ℝ)} {S1 S2 : Jet d → Jet d → ℝ}
    (h1 : κ1.SlackOn (p.sub "kernel1") A S1) (h2 : κ2.SlackOn (p.sub "kernel2") A S2) :
    (KernelObj.prod κ1 κ2).SlackOn p A fun P Q =>
      productRule S1 (fun P Q => obsCov κ2 (p.sub "kernel2") P Q + S2 P Q) P Q +
      productRule (fun P Q => obsCov κ1 (p.sub "kernel1") P Q + S1 P Q) S2 P Q := by
  have hr := h1.rep.prod h2.rep
  refine ⟨(h1.slack.productRule h2.psd).add (h1.psd.productRule h2.slack), ?_, by rw [hr.eq]; exact hr⟩
  rw [hr.eq]
  refine (congrArg (PSDOn A) ?_).mp ((h1.psd.productRule h2.psd).add (h1.slack.productRule h2.slack))
  funext P Q
  unfold productRule
  rcases P with ⟨x, _ | t⟩ <;> rcases Q with ⟨y, _ | s⟩ <;> ring

/-- A function of two samples and two directions as a kernel that vanishes on values. -/
def onDerivs (S : (x y u w : Fin d → ℝ) → ℝ) (P Q : Jet d) : ℝ :=
  match P.2, Q.2 with
  | some u, some w => S P.1 Q.1 u w
  | _, _ => 0

/-- The kernel object is positive semidefinite once `S` is added to the covariances of derivatives. -/
def KernelObj.SlackJoint (κ : KernelObj d) (p : KPar) (S : (x y u w : Fin d → ℝ) → ℝ) : Prop :=
  PSDK (onDerivs S) ∧ ∃ E : Jet d → Jet d → ℝ, PSDK (fun P Q => E P Q + onDerivs S P Q) ∧ κ.JetRep p E

/-- The slack of `SquaredExponential`. -/
noncomputable def seSlack (a : Option (Dims d)) (p : KPar) (x y u w : Fin d → ℝ) : ℝ :=
  3 / 10 ^ 12 * obsCov (KExpr.squaredExponential a).obj p (x, some u) (y, some w)

theorem exp_slack : 1 / Real.exp (-(1 / 10 ^ 12)) ^ 2 ≤ 1 + 3 / 10 ^ 12 := by
  have hc0 : 0 < Real.exp (-(1 / 10 ^ 12) : ℝ) := Real.exp_pos _
  have hc1 := Real.add_one_le_exp (-(1 / 10 ^ 12) : ℝ)
  rw [div_le_iff₀ (by positivity)]
  have : (1 - 1 / 10 ^ 12 : ℝ) ^ 2 ≤ Real.exp (-(1 / 10 ^ 12)) ^ 2 :=
    pow_le_pow_left₀ (by norm_num) (by linarith) 2
  calc (1 : ℝ) ≤ (1 + 3 / 10 ^ 12) * (1 - 1 / 10 ^ 12) ^ 2 := by norm_num
    _ ≤ _ := mul_le_mul_of_nonneg_left this (by norm_num)

theorem slackJoint_se_noRepeat (a : Option (Dims d)) (he : NoRepeat a) (p : KPar) (h : 0 < p.val "lengthscale") :
    (KernelObj.squaredExponential a).SlackJoint p (seSlack a p) := by
  have hs := C21_symmetric (.squaredExponential a) p
  have hw := C63_sampleWise (.squaredExponential a) p
  have hcon := contracts_of_closed (closed_se a he p)
  change Symmetric (KernelObj.squaredExponential a) p at hs
  change SampleWise (KernelObj.squaredExponential a) p at hw
  obtain ⟨L, hL, hk⟩ := KExpr.psd (.squaredExponential a) p h
  change ∀ {n m : ℕ} (x1 : Batch n d) (x2 : Batch m d) i j,
    (KernelObj.squaredExponential a).k p x1 x2 i j = L (x1 i) (x2 j) at hk
  have hslack := exp_slack
  set c := Real.exp (-(1 / 10 ^ 12)) with hc
  have hc0 : 0 < c := Real.exp_pos _
  have h0 : ∀ x y f, HasDerivAt (fun t => (KernelObj.squaredExponential a).k p (setFeature (one x) 0 f t) (one y) 0 0)
      (c * (KernelObj.squaredExponential a).d0k p (one x) (one y) (flat 0 f) 0) (x f) :=
    fun x y f => C24_squared_exponential_first a he p (one x) (one y) 0 f 0
  have h1 : ∀ x y f, HasDerivAt (fun t => (KernelObj.squaredExponential a).k p (one x) (setFeature (one y) 0 f t) 0 0)
      (c * (KernelObj.squaredExponential a).d1k p (one x) (one y) 0 (flat 0 f)) (y f) := fun x y f => by
    have e : (fun t => (KernelObj.squaredExponential a).k p (one x) (setFeature (one y) 0 f t) 0 0) =
        fun t => (KernelObj.squaredExponential a).k p (setFeature (one y) 0 f t) (one x) 0 0 :=
      funext fun t => hs.k _ _ _ _
    rw [e, hs.d1k]
    exact h0 y x f
  have hT := KernelObj.psd_of_true hL hk h0 h1
    (fun x y f g => C24_squared_exponential a he p 1 1 (one x) (one y) 0 f 0 g)
    (continuous_of_closed (closed_se a he p) (resolve_injective a he) fun a b => by
      simp only [Core.se, sqd]
      split_ifs <;> fun_prop)
  set T := dirKernel L (fun x y f => c * (KernelObj.squaredExponential a).d0k p (one x) (one y) (flat 0 f) 0)
    (fun x y f => c * (KernelObj.squaredExponential a).d1k p (one x) (one y) 0 (flat 0 f))
    fun x y f g => (KernelObj.squaredExponential a).d01k p (one x) (one y) (flat 0 f) (flat 0 g) with hTd
  have hr : (KernelObj.squaredExponential a).JetRep p
      fun P Q => (if P.2.isSome = Q.2.isSome then 1 else 1 / c) * T P Q := by
    refine ⟨fun x1 x2 i j => ?_, fun x1 x2 J i u j => ?_, fun x1 x2 J i j u => ?_, fun x1 x2 J1 J2 i u j t => ?_⟩
    · simp [hTd, dirKernel, hk]
    · rw [hcon.c0]
      simp only [hTd, dirKernel, Option.isSome_some, Option.isSome_none, Bool.true_eq_false, if_false, Finset.mul_sum]
      refine Finset.sum_congr rfl fun f _ => ?_
      rw [d0k_one hw]
      field_simp
    · rw [hcon.c1]
      simp only [hTd, dirKernel, Option.isSome_some, Option.isSome_none, Bool.false_eq_true, if_false, Finset.mul_sum]
      refine Finset.sum_congr rfl fun f _ => ?_
      rw [d1k_one hw]
      field_simp
    · rw [hcon.c01]
      simp only [hTd, dirKernel, Option.isSome_some, if_true, one_mul]
      exact Finset.sum_congr rfl fun f _ => Finset.sum_congr rfl fun g _ => by rw [d01k_one hw]
  have hS : onDerivs (seSlack a p) =
      fun P Q => 3 / 10 ^ 12 * ((if P.2.isSome then 1 else 0) * (if Q.2.isSome then 1 else 0) * T P Q) := by
    funext P Q
    unfold onDerivs
    rcases P with ⟨x, _ | t⟩ <;> rcases Q with ⟨y, _ | s⟩ <;> simp only [Option.isSome_none, Option.isSome_some,
      Bool.false_eq_true, if_false, if_true, zero_mul, mul_zero, one_mul]
    rw [seSlack]
    refine congrArg (3 / 10 ^ 12 * ·) ?_
    have := hr.d01 (fun _ => x : Batch 1 d) (fun _ => y : Batch 1 d) (fun _ f _ => t f : Jac 1 d 1)
      (fun _ f _ => s f : Jac 1 d 1) 0 0 0 0
    simp only [Option.isSome_some, if_true, one_mul] at this
    exact this
  have hD : PSDK fun P Q : Jet d => (if P.2.isSome then (1 : ℝ) else 0) * (if Q.2.isSome then 1 else 0) * T P Q := by
    refine (congrArg PSDK ?_).mp (hT.congr (I := Unit) (fun _ P => if P.2.isSome then 1 else 0) fun _ P => P)
    funext P Q
    simp
  refine ⟨hS ▸ hD.smul (by norm_num), _, ?_, hr⟩
  rw [hS]
  have hscale := hT.congr (I := Unit) (fun _ P => if P.2.isSome then 1 / c else 1) fun _ P => P
  refine (congrArg PSDK ?_).mp (hscale.add (hD.smul (r := 1 + 3 / 10 ^ 12 - 1 / c ^ 2) (by linarith)))
  funext P Q
  rcases P with ⟨x, _ | t⟩ <;> rcases Q with ⟨y, _ | s⟩ <;> simp
  field_simp
  ring

theorem slackJoint_se (a : Option (Dims d)) (p : KPar) (h : 0 < p.val "lengthscale") :
    (KernelObj.squaredExponential a).SlackJoint p (seSlack a p) := by
  let e : KExpr d := .squaredExponential a
  obtain ⟨hS, E, hE, hr⟩ :=
    slackJoint_se_noRepeat (copyDims (longest e) a) (onCopies_noRepeats (longest e) e (Nat.le_succ _)) p h
  have hc := copies_carries (longest e) e p
  let T : Jet d → Jet (d * (longest e + 1)) := fun P => (copies (longest e) P.1, P.2.map (copies (longest e)))
  have hs : ∀ P Q, onDerivs (seSlack a p) P Q =
      onDerivs (seSlack (copyDims (longest e) a) p) (T P) (T Q) := fun P Q => by
    unfold onDerivs
    rcases P with ⟨x, _ | t⟩ <;> rcases Q with ⟨y, _ | s⟩ <;> simp only [T, Option.map_none, Option.map_some]
    rw [seSlack, seSlack]
    exact congrArg (3 / 10 ^ 12 * ·) (hc.d01kj _ _ _ _ 0 0 0 0).symm
  refine ⟨(congrArg PSDK (funext fun P => funext fun Q => (hs P Q).symm)).mp (hS.comp T),
    fun P Q => E (T P) (T Q), (congrArg PSDK (funext fun P => funext fun Q => by rw [hs])).mp (hE.comp T),
    fun x1 x2 i j => ?_, fun x1 x2 J i u j => ?_, fun x1 x2 J i j u => ?_, fun x1 x2 J1 J2 i u j t => ?_⟩
  · exact (hc.k x1 x2 i j).symm.trans (hr.k _ _ _ _)
  · exact (hc.d0kj x1 x2 J i u j).symm.trans (hr.d0 _ _ _ _ _ _)
  · exact (hc.d1kj x1 x2 J i j u).symm.trans (hr.d1 _ _ _ _ _ _)
  · exact (hc.d01kj x1 x2 J1 J2 i u j t).symm.trans (hr.d01 _ _ _ _ _ _ _ _)

/-- Being the same sample is a positive semidefinite kernel. -/
theorem psdk_same {X : Type*} [DecidableEq X] : PSDK fun x y : X => if x = y then (1 : ℝ) else 0 := by
  intro n x
  have e : ∀ i j, (if x i = x j then (1 : ℝ) else 0) =
      ∑ v ∈ Finset.univ.image x, (if x i = v then 1 else 0) * if x j = v then 1 else 0 := fun i j => by
    rw [Finset.sum_eq_single (x i) (fun v _ hv => by simp [hv.symm])
      fun hv => absurd (Finset.mem_image_of_mem x (Finset.mem_univ i)) hv]
    simp [eq_comm]
  have h := PSDK.sum (Finset.univ.image x) (K := fun v y z => (if y = v then (1 : ℝ) else 0) * if z = v then 1 else 0)
    fun v _ => PSDK.rankOne fun y => if y = v then (1 : ℝ) else 0
  simp only [e]
  exact h n x

theorem slackOn_se (a : Option (Dims d)) (p : KPar) (h : 0 < p.val "lengthscale") (A : Set (Fin d → ℝ)) :
    (KernelObj.squaredExponential a).SlackOn p A (slack (.squaredExponential a) p) := by
  obtain ⟨hS, E, hE, hr⟩ := slackJoint_se a p h
  have e : slack (.squaredExponential a) p = onDerivs (seSlack a p) := by
    funext P Q
    rcases P with ⟨x, _ | t⟩ <;> rcases Q with ⟨y, _ | s⟩ <;> rfl
  rw [e]
  exact ⟨hS.on A, by rw [hr.eq]; exact hE.on A, by rw [hr.eq]; exact hr⟩

theorem slackOn_m32 (a : Option (Dims d)) (p : KPar) (h : 0 < p.val "lengthscale") (A : Set (Fin d → ℝ))
    (hA : ∀ x ∈ A, ∀ y ∈ A, Separated (.matern32 a) p x y) :
    (KernelObj.matern32 a).SlackOn p A (slack (.matern32 a) p) := by
  have hc := closedJ_m32 a p
  set ad := Dims.resolve a with had
  set l := p.val "lengthscale" with hl
  let E : Jet d → Jet d → ℝ := fun P Q =>
    dirKernel ((Core.m32 l).K) ((Core.m32 l).G0) ((Core.m32 l).G1) ((Core.m32 l).H)
      (ad.take P.1, P.2.map ad.take) (ad.take Q.1, Q.2.map ad.take)
  have hr : (KernelObj.matern32 a).JetRep p E := by
    refine ⟨fun x1 x2 i j => hc.k _ _ _ _, fun x1 x2 J i u j => hc.d0kj _ _ _ _ _ _,
      fun x1 x2 J i j u => hc.d1kj _ _ _ _ _ _, fun x1 x2 J1 J2 i u j t => hc.d01kj _ _ _ _ _ _ _ _⟩
  have hdist : ∀ x y, activeDist a p x y = sqd l (ad.take x) (ad.take y) := fun x y => rfl
  have hsame : ∀ x y, activeDist a p x y = 0 ↔ ad.take x = ad.take y := fun x y => by
    rw [hdist]
    constructor
    · intro h0
      funext b
      have := (Finset.sum_eq_zero_iff_of_nonneg fun c _ => sq_nonneg _).1 h0 b (Finset.mem_univ b)
      have := pow_eq_zero_iff (by norm_num) |>.1 this
      field_simp at this
      linarith
    · intro h0
      rw [h0]
      simp [sqd]
  have hfl : Real.sqrt maternFloor = 1 / 10 ^ 18 := by
    rw [Real.sqrt_eq_iff_mul_self_eq (by unfold maternFloor; positivity) (by positivity)]
    unfold maternFloor; norm_num
  -- the slack of the targets
  have hT : PSDK fun P Q : Jet d => (if P.2.isSome then (0 : ℝ) else 1) * (if Q.2.isSome then 0 else 1) *
      (m32K l 0 (ad.take P.1) (ad.take Q.1) - m32K l sqDistJitter (ad.take P.1) (ad.take Q.1)) := by
    have := ((m32_shift (l := l) jitter_pos'.le ad.k).comp fun P : Jet d => ad.take P.1).congr (I := Unit)
      (fun _ P => if P.2.isSome then (0 : ℝ) else 1) fun _ P => P
    simpa using this
  -- the slack of the derivatives
  have hD : PSDK fun P Q : Jet d => (1 - Real.exp (-(1 / 10 ^ 18))) * (3 / l ^ 2) *
      ((if ad.take P.1 = ad.take Q.1 then 1 else 0) *
        ∑ b, ((P.2.getD 0) (ad.idx b)) * ((Q.2.getD 0) (ad.idx b))) := by
    have hnn : 0 ≤ (1 - Real.exp (-(1 / 10 ^ 18))) * (3 / l ^ 2) := by
      have : Real.exp (-(1 / 10 ^ 18)) ≤ 1 := Real.exp_le_one_iff.2 (by norm_num)
      have : 0 ≤ 1 - Real.exp (-(1 / 10 ^ 18)) := by linarith
      positivity
    exact ((psdk_same.comp fun P : Jet d => ad.take P.1).mul
      ((PSDK.dot ad.k).comp fun (P : Jet d) b => (P.2.getD 0) (ad.idx b))).smul hnn
  have hS : slack (.matern32 a) p = fun P Q =>
      (if P.2.isSome then (0 : ℝ) else 1) * (if Q.2.isSome then 0 else 1) *
        (m32K l 0 (ad.take P.1) (ad.take Q.1) - m32K l sqDistJitter (ad.take P.1) (ad.take Q.1)) +
      (1 - Real.exp (-(1 / 10 ^ 18))) * (3 / l ^ 2) * ((if ad.take P.1 = ad.take Q.1 then 1 else 0) *
        ∑ b, ((P.2.getD 0) (ad.idx b)) * ((Q.2.getD 0) (ad.idx b))) := by
    funext P Q
    rcases P with ⟨x, _ | t⟩ <;> rcases Q with ⟨y, _ | s⟩
    · have : obsCov (KExpr.matern32 a).obj p (x, none) (y, none) = m32K l sqDistJitter (ad.take x) (ad.take y) :=
        (congrFun (congrFun hr.eq _) _).trans (m32_core _ _).1
      simp only [slack, this, m32K, hdist, add_zero, Option.isSome_none, Bool.false_eq_true, if_false, one_mul,
        Option.getD_none, Pi.zero_apply, mul_zero, Finset.sum_const_zero]
    · simp [slack]
    · simp [slack]
    · simp only [slack, hsame, Option.isSome_some, if_true, zero_mul, Option.getD_some, zero_add]
      split_ifs
      · rw [one_mul]
      · rw [zero_mul, mul_zero]
  refine ⟨hS ▸ (hT.add hD).on A, ?_, by rw [hr.eq]; exact hr⟩
  have hJ := (m32_jet l ad.k).comp fun P : Jet d => (ad.take P.1, P.2.map ad.take)
  refine (congrArg PSDK ?_).mp (hJ.on A)
  funext P Q
  rw [hr.eq, hS]
  obtain ⟨⟨x, ox⟩, hP⟩ := P
  obtain ⟨⟨y, oy⟩, hQ⟩ := Q
  have hsep : ad.take x = ad.take y ∨ maternFloor < 3 * sqd l (ad.take x) (ad.take y) := by
    rcases hA x hP y hQ with h0 | h0
    · exact .inl ((hsame x y).1 h0)
    · exact .inr (by unfold maternFloor; rw [hdist] at h0; exact h0)
  obtain ⟨cK, cG0, cG1, cH⟩ := m32_core (l := l) (ad.take x) (ad.take y)
  have hG : ∀ b, (Core.m32 l).G0 (ad.take x) (ad.take y) b = m32G l 0 (ad.take x) (ad.take y) b := fun b => by
    rw [cG0, m32G, add_zero]
    rcases hsep with h0 | h0
    · rw [h0]; simp
    · rw [max_eq_left h0.le]
  have hG1 : ∀ b, (Core.m32 l).G1 (ad.take x) (ad.take y) b = m32G l 0 (ad.take y) (ad.take x) b := fun b => by
    rw [cG1, m32G, add_zero, sqd_comm l (ad.take y)]
    rcases hsep with h0 | h0
    · rw [h0]; simp
    · rw [max_eq_left h0.le]
  have hH : ∀ b c, (Core.m32 l).H (ad.take x) (ad.take y) b c +
      (if ad.take x = ad.take y then (1 - Real.exp (-(1 / 10 ^ 18))) * (if b = c then 3 / l ^ 2 else 0) else 0) =
      m32H l 0 (ad.take x) (ad.take y) b c := fun b c => by
    rw [cH, m32H, add_zero]
    rcases hsep with h0 | h0
    · have hz : sqd l (ad.take y) (ad.take y) = 0 := by simp [sqd]
      rw [if_pos h0, h0, hz]
      have : max (3 * 0) maternFloor = maternFloor := by rw [mul_zero]; exact max_eq_right (by unfold maternFloor; positivity)
      rw [this, hfl]
      simp only [sub_self, mul_zero, zero_mul, sub_zero, Real.sqrt_zero, neg_zero, Real.exp_zero, mul_one]
      ring
    · have hne : ad.take x ≠ ad.take y := fun h1 => by
        rw [h1] at h0
        have hz : sqd l (ad.take y) (ad.take y) = 0 := by simp [sqd]
        rw [hz, mul_zero] at h0
        exact absurd h0 (not_lt.2 (by unfold maternFloor; positivity))
      rw [if_neg hne, max_eq_left h0.le, clampInd, if_pos h0]
      ring
  rcases ox with _ | t <;> rcases oy with _ | s
  · simp only [E, dirKernel, Option.map_none, cK, Option.isSome_none, Bool.false_eq_true, if_false, one_mul,
      Option.getD_none, Pi.zero_apply, mul_zero, Finset.sum_const_zero]
    ring
  · simp only [E, dirKernel, Option.map_none, Option.map_some, hG1, Option.isSome_none, Option.isSome_some,
      Bool.false_eq_true, if_false, if_true, mul_zero, zero_mul, Option.getD_none, Pi.zero_apply, Finset.sum_const_zero,
      add_zero]
  · simp only [E, dirKernel, Option.map_none, Option.map_some, hG, Option.isSome_none, Option.isSome_some,
      Bool.false_eq_true, if_false, if_true, mul_zero, zero_mul, Option.getD_none, Pi.zero_apply, Finset.sum_const_zero,
      add_zero]
  · simp only [E, dirKernel, Option.map_some, Option.isSome_some, if_true, zero_mul, Option.getD_some, zero_add, ← hH]
    have e : ∀ b, ∑ c, ad.take t b * ((Core.m32 l).H (ad.take x) (ad.take y) b c +
        (if ad.take x = ad.take y then (1 - Real.exp (-(1 / 10 ^ 18))) * (if b = c then 3 / l ^ 2 else 0) else 0)) *
          ad.take s c =
        ∑ c, ad.take t b * (Core.m32 l).H (ad.take x) (ad.take y) b c * ad.take s c +
        (1 - Real.exp (-(1 / 10 ^ 18))) * (3 / l ^ 2) * ((if ad.take x = ad.take y then 1 else 0) *
          (t (ad.idx b) * s (ad.idx b))) := fun b => by
      simp only [mul_add, add_mul, Finset.sum_add_distrib]
      congr 1
      rw [Finset.sum_eq_single b (fun c _ hb => by simp [hb.symm]) fun hb => absurd (Finset.mem_univ b) hb]
      simp only [if_true, Dims.take]
      split_ifs <;> ring
    simp only [e, Finset.sum_add_distrib, ← Finset.mul_sum]

theorem slackOn_expr (e : KExpr d) (p : KPar) (h : Smooth e p) (A : Set (Fin d → ℝ))
    (hA : ∀ x ∈ A, ∀ y ∈ A, Separated e p x y) : e.obj.SlackOn p A (slack e p) := by
  induction e generalizing p with
  | constant a => exact (joint_expr (.constant a) p h).slackOn A
  | linear a => exact (joint_expr (.linear a) p h).slackOn A
  | polynomial a ni => exact (joint_expr (.polynomial a ni) p h).slackOn A
  | squaredExponential a => exact slackOn_se a p h A
  | matern12 a => exact h.elim
  | matern32 a => exact slackOn_m32 a p h A hA
  | matern52 a => exact (joint_expr (.matern52 a) p h).slackOn A
  | expSinSquared a => exact (joint_expr (.expSinSquared a) p h).slackOn A
  | sum e1 e2 ih1 ih2 =>
    exact (ih1 _ h.1 fun x hx y hy => (hA x hx y hy).1).sum (ih2 _ h.2 fun x hx y hy => (hA x hx y hy).2)
  | prod e1 e2 ih1 ih2 =>
    exact (ih1 _ h.1 fun x hx y hy => (hA x hx y hy).1).prod (ih2 _ h.2 fun x hx y hy => (hA x hx y hy).2)

theorem separated_noMatern32 (e : KExpr d) (p : KPar) (h : NoMatern32 e) (x y : Fin d → ℝ) : Separated e p x y := by
  induction e generalizing p with
  | matern32 a => exact h.elim
  | sum e1 e2 ih1 ih2 => exact ⟨ih1 _ h.1, ih2 _ h.2⟩
  | prod e1 e2 ih1 ih2 => exact ⟨ih1 _ h.1, ih2 _ h.2⟩
  | _ => trivial

/-- Without `Matern32` only covariances of derivatives need a slack. -/
theorem slack_noMatern32 (e : KExpr d) (p : KPar) (h : NoMatern32 e) (P Q : Jet d) (hPQ : P.2 = none ∨ Q.2 = none) :
    slack e p P Q = 0 := by
  induction e generalizing p P Q with
  | matern32 a => exact h.elim
  | sum e1 e2 ih1 ih2 => rw [slack, ih1 _ h.1 _ _ hPQ, ih2 _ h.2 _ _ hPQ, add_zero]
  | prod e1 e2 ih1 ih2 =>
    have i1 := fun P Q h' => ih1 (p.sub "kernel1") h.1 P Q h'
    have i2 := fun P Q h' => ih2 (p.sub "kernel2") h.2 P Q h'
    rw [slack, productRule, productRule]
    rcases P with ⟨x, _ | t⟩ <;> rcases Q with ⟨y, _ | s⟩ <;> simp_all
  | squaredExponential a =>
    rcases P with ⟨x, _ | t⟩ <;> rcases Q with ⟨y, _ | s⟩ <;> simp_all [slack]
  | _ => rfl

/-- A matrix that is positive semidefinite once `S` is added is positive definite after adding a diagonal above the trace
of `S`, on the part where `S` lives. -/
theorem posDef_of_slack {I : Type*} [Fintype I] [DecidableEq I] (C S : I → I → ℝ) (m : I → ℝ)
    (hC : (Matrix.of fun a b => C a b + S a b).PosSemidef) (hS : (Matrix.of S).PosSemidef)
    (hm : ∀ a b, S a b = m a * S a b * m b) (hm2 : ∀ a, m a * m a = m a) (s : I → ℝ)
    (hs : ∀ a, (∑ b, S b b) * m a < s a) : (Matrix.diagonal s + Matrix.of C).PosDef := by
  refine Matrix.posDef_iff_dotProduct_mulVec.2 ⟨Matrix.IsHermitian.ext fun a b => ?_, fun {z} hz => ?_⟩
  · have h1 := hC.1.apply a b
    have h2 := hS.1.apply a b
    simp only [Matrix.of_apply, star_trivial] at h1 h2
    simp only [Matrix.add_apply, Matrix.of_apply, star_trivial, Matrix.diagonal_apply]
    have h3 : C b a = C a b := by linarith
    rw [h3]
    by_cases h : a = b
    · subst h; rfl
    · rw [if_neg h, if_neg (Ne.symm h)]
  have h1 := hC.dotProduct_mulVec_nonneg z
  have h2 := quad_le_trace' hS fun a => m a * z a
  simp only [dotProduct, Matrix.mulVec, Matrix.of_apply, Pi.star_apply, star_trivial, Matrix.add_apply,
    Matrix.diagonal_apply] at h1 h2 ⊢
  have e1 : ∑ a, z a * ∑ b, ((if a = b then s a else 0) + C a b) * z b =
      (∑ a, s a * z a ^ 2) + ∑ a, ∑ b, z a * C a b * z b := by
    rw [← Finset.sum_add_distrib]
    refine Finset.sum_congr rfl fun a _ => ?_
    simp only [add_mul, ite_mul, zero_mul, Finset.sum_add_distrib, Finset.sum_ite_eq, Finset.mem_univ, if_true,
      Finset.mul_sum, mul_add]
    congr 1
    · ring
    · exact Finset.sum_congr rfl fun b _ => by ring
  have e2 : ∑ a, z a * ∑ b, (C a b + S a b) * z b =
      (∑ a, ∑ b, z a * C a b * z b) + ∑ a, ∑ b, m a * z a * S a b * (m b * z b) := by
    rw [← Finset.sum_add_distrib]
    refine Finset.sum_congr rfl fun a _ => ?_
    rw [Finset.mul_sum, ← Finset.sum_add_distrib]
    refine Finset.sum_congr rfl fun b _ => ?_
    have : m a * z a * S a b * (m b * z b) = z a * (m a * S a b * m b) * z b := by ring
    rw [this, ← hm]
    ring
  have e3 : (∑ b, S b b) * ∑ a, (m a * z a) ^ 2 = ∑ a, (∑ b, S b b) * m a * z a ^ 2 := by
    rw [Finset.mul_sum]
    refine Finset.sum_congr rfl fun a _ => ?_
    rw [mul_pow, pow_two (m a), hm2]
    ring
  have h5 : ∑ a, (∑ b, S b b) * m a * z a ^ 2 < ∑ a, s a * z a ^ 2 := by
    obtain ⟨a0, ha0⟩ := Function.ne_iff.1 hz
    refine Finset.sum_lt_sum (fun a _ => mul_le_mul_of_nonneg_right (hs a).le (sq_nonneg _))
      ⟨a0, Finset.mem_univ _, ?_⟩
    have : 0 < z a0 ^ 2 := by
      have : z a0 ≠ 0 := ha0
      positivity
    exact mul_lt_mul_of_pos_right (hs a0) this
  rw [e1]
  rw [e2] at h1
  rw [e3] at h2
  linarith

end GPX
