import Verif.Lemmas.KernelLeaves2

/-!
# Closed forms of the kernels used by the models, for lists of active features with repetitions

Also the form of the derivative kernels `d0k`, `d1k`, `d01k` for such lists: they are not the derivatives (see C156), but
they are still computed from the two samples of an entry.
-/

namespace GPX
open GPX.Spec

variable {d : ℕ}

/-- The part of a closed form that the models use. -/
structure ClosedJ (κ : KernelObj d) (p : KPar) (ad : Dims d) (c : Core) : Prop where
  k : ∀ {n m : ℕ} (x1 : Batch n d) (x2 : Batch m d) i j,
    κ.k p x1 x2 i j = c.K (ad.take (x1 i)) (ad.take (x2 j))
  d0kj : ∀ {n m v : ℕ} (x1 : Batch n d) (x2 : Batch m d) (J : Jac n d v) i u j,
    κ.d0kj p x1 x2 J (flat i u) j =
      ∑ a, J i (ad.idx a) u * c.G0 (ad.take (x1 i)) (ad.take (x2 j)) a
  d1kj : ∀ {n m v : ℕ} (x1 : Batch n d) (x2 : Batch m d) (J : Jac m d v) i j u,
    κ.d1kj p x1 x2 J i (flat j u) =
      ∑ a, c.G1 (ad.take (x1 i)) (ad.take (x2 j)) a * J j (ad.idx a) u
  d01kj : ∀ {n m v1 v2 : ℕ} (x1 : Batch n d) (x2 : Batch m d) (J1 : Jac n d v1) (J2 : Jac m d v2)
    i u j w, κ.d01kj p x1 x2 J1 J2 (flat i u) (flat j w) =
      ∑ a, ∑ b, J1 i (ad.idx a) u * c.H (ad.take (x1 i)) (ad.take (x2 j)) a b * J2 j (ad.idx b) w
  d0kjc : ∀ {n m : ℕ} (x1 : Batch n d) (x2 : Batch m d) (jc : Batch n d) i j,
    κ.d0kjc p x1 x2 jc i j =
      ∑ a, jc i (ad.idx a) * c.C0 (ad.take (x1 i)) (ad.take (x2 j)) a
  d01kjc : ∀ {n m v : ℕ} (x1 : Batch n d) (x2 : Batch m d) (jc : Batch n d) (J : Jac m d v) i j w,
    κ.d01kjc p x1 x2 jc J i (flat j w) =
      ∑ a, ∑ b, jc i (ad.idx a) * c.H (ad.take (x1 i)) (ad.take (x2 j)) a b * J j (ad.idx b) w

theorem ClosedForm.toJ {κ : KernelObj d} {p : KPar} {ad : Dims d} {c : Core} (h : ClosedForm κ p ad c) :
    ClosedJ κ p ad c := ⟨h.k, h.d0kj, h.d1kj, h.d01kj, h.d0kjc, h.d01kjc⟩

/-! ## The leaves with derivatives by automatic differentiation -/

theorem closedJ_constant (a : Option (Dims d)) (p : KPar) :
    ClosedJ (KernelObj.constant a) p (Dims.resolve a) (Core.constant (p.val "variance")) := (closed_constant a p).toJ

theorem closedJ_m12 (a : Option (Dims d)) (p : KPar) :
    ClosedJ (KernelObj.matern12 a) p (Dims.resolve a) (Core.m12 (p.val "lengthscale")) := (closed_m12 a p).toJ

theorem closedJ_m32 (a : Option (Dims d)) (p : KPar) :
    ClosedJ (KernelObj.matern32 a) p (Dims.resolve a) (Core.m32 (p.val "lengthscale")) := (closed_m32 a p).toJ

theorem closedJ_ess (a : Option (Dims d)) (p : KPar) :
    ClosedJ (KernelObj.expSinSquared a) p (Dims.resolve a) (Core.ess (p.val "lengthscale") (p.val "periodicity")) :=
  (closed_ess a p).toJ

/-! ## The leaves with hand-written derivatives -/

theorem closedJ_linear (active : Option (Dims d)) (p : KPar) :
    ClosedJ (KernelObj.linear active) p (Dims.resolve active) Core.linear := by
  have hA := ClosedForm.ofEx (fun _ => linearBase (Dims.resolve active)) p (Dims.resolve active)
    dotEx rfl
  constructor
  case k => intro n m x1 x2 i j; rfl
  case d0kj =>
    intro n m v x1 x2 J i u j
    simp [KernelObj.linear, linearD0kj, Core.linear, Dims.takeJac, Dims.takeCols, Dims.take]
  case d1kj =>
    intro n m v x1 x2 J i j u
    simp [KernelObj.linear, linearD1kj, Core.linear, Dims.takeJac, Dims.takeCols, Dims.take]
  case d01kj =>
    intro n m v1 v2 x1 x2 J1 J2 i u j w
    simp [KernelObj.linear, linearD01kj, Core.linear, Dims.takeJac, Dims.take]
  case d0kjc =>
    intro n m x1 x2 jc i j
    refine (hA.d0kjc x1 x2 jc i j).trans ?_
    simp only [Core.ofEx, eval_D_dotEx_inl, Core.linear]
  case d01kjc =>
    intro n m v x1 x2 jc J i j w
    refine (hA.d01kjc x1 x2 jc J i j w).trans ?_
    simp only [Core.ofEx, eval_DD_dotEx, Core.linear]

theorem closedJ_polynomial (active : Option (Dims d)) (ni : Bool) (p : KPar) :
    ClosedJ (KernelObj.polynomial active ni) p (Dims.resolve active)
      (Core.polynomial (p.val "degree") (p.val "offset") ni) := by
  have hA := ClosedForm.ofEx (fun p => if ni then
      noInterceptPolynomialBase (Dims.resolve active) (p.val "degree") (p.val "offset")
      else polynomialBase (Dims.resolve active) (p.val "degree") (p.val "offset")) p
    (Dims.resolve active) (polyEx (p.val "degree") (p.val "offset") ni)
    (polyBase_rename _ _ _ _)
  constructor
  case k =>
    intro n m x1 x2 i j
    cases ni
    · simp [KernelObj.polynomial, polynomialK, Core.polynomial, matmulT, Dims.takeCols]
    · simp [KernelObj.polynomial, noInterceptPolynomialK, Core.polynomial, matmulT, Dims.takeCols]
  case d0kj =>
    intro n m v x1 x2 J i u j
    simp only [KernelObj.polynomial, polynomialD0kj, reshapeRows_flat, Core.polynomial, polyConst1,
      matmulT, Dims.takeCols]
    exact Finset.sum_congr rfl fun a _ => mul_comm _ _
  case d1kj =>
    intro n m v x1 x2 J i j u
    simp only [KernelObj.polynomial, polynomialD1kj, reshapeCols_flat, Core.polynomial, polyConst1,
      matmulT, Dims.takeCols, Dims.takeJac, Dims.take]
  case d01kj =>
    intro n m v1 v2 x1 x2 J1 J2 i u j w
    simp only [KernelObj.polynomial, polynomialD01kj, reshapeBoth_flat, Core.polynomial, polyHess,
      polyConst1, polyConst2, matmulT, Dims.takeCols, Dims.takeJac, Dims.take, tiledEye_apply]
  case d0kjc =>
    intro n m x1 x2 jc i j
    refine (hA.d0kjc x1 x2 jc i j).trans ?_
    simp only [Core.ofEx, eval_D_polyEx_inl, Core.polynomial]
  case d01kjc =>
    intro n m v x1 x2 jc J i j w
    simp only [KernelObj.polynomial, polynomialD01kjc, reshapeCols_flat, Core.polynomial, polyHess,
      polyConst1, polyConst2, matmulT, Dims.takeCols, Dims.takeJac, Dims.take, tiledEye_apply]

theorem closedJ_se (active : Option (Dims d)) (p : KPar) :
    ClosedJ (KernelObj.squaredExponential active) p (Dims.resolve active)
      (Core.se (p.val "lengthscale")) := by
  have hA := ClosedForm.ofEx
    (fun p => squaredExponentialBase (Dims.resolve active) (p.val "lengthscale")) p
    (Dims.resolve active) (seEx (p.val "lengthscale")) rfl
  constructor
  case k =>
    intro n m x1 x2 i j
    simp only [KernelObj.squaredExponential, squaredExponentialK, squaredDistances_scaled, Core.se]
  case d0kj =>
    intro n m v x1 x2 J i u j
    refine (hA.d0kj x1 x2 J i u j).trans ?_
    rw [Core.ofEx_se_G0]
  case d1kj =>
    intro n m v x1 x2 J i j u
    refine (hA.d1kj x1 x2 J i j u).trans ?_
    rw [Core.ofEx_se_G1]
  case d01kj =>
    intro n m v1 v2 x1 x2 J1 J2 i u j w
    simp only [KernelObj.squaredExponential, squaredExponentialD01kj, reshapeBoth_flat]
    rw [outer_contract]
    simp only [Core.se, squaredExponentialK, squaredDistances_scaled, seDiff, scaled,
      Dims.takeCols, Dims.takeJac]
    rfl
  case d0kjc =>
    intro n m x1 x2 jc i j
    refine (hA.d0kjc x1 x2 jc i j).trans ?_
    exact Finset.sum_congr rfl fun a _ => congrArg _ (congrFun (Core.ofEx_se_G0 _ _ _) a)
  case d01kjc =>
    intro n m v x1 x2 jc J i j w
    simp only [KernelObj.squaredExponential, squaredExponentialD01kjc, reshapeCols_flat]
    rw [outer_contract]
    simp only [Core.se, squaredExponentialK, squaredDistances_scaled, seDiff, scaled,
      Dims.takeCols, Dims.takeJac]
    rfl

/-- Reading back what was written at a repeated index, when equal indices are given equal values. -/
theorem foldl_update_same {B : Type*} {n : ℕ} (l : List (Fin n)) (idx : Fin n → Fin d) (vals : Fin n → B)
    (hv : ∀ a b, idx a = idx b → vals a = vals b) (base : Fin d → B) (a : Fin n) (h : a ∈ l) :
    l.foldl (fun acc a => Function.update acc (idx a) (vals a)) base (idx a) = vals a := by
  induction l generalizing base with
  | nil => simp at h
  | cons b l ih =>
    simp only [List.foldl_cons]
    by_cases hl : ∃ c ∈ l, idx c = idx a
    · obtain ⟨c, hc, hca⟩ := hl
      by_cases hab : a ∈ l
      · exact ih _ hab
      · have hb : a = b := by simpa [hab] using h
        have key : ∀ (l : List (Fin n)) (base : Fin d → B), (∃ c ∈ l, idx c = idx a) →
            l.foldl (fun acc a => Function.update acc (idx a) (vals a)) base (idx a) = vals a := by
          intro l
          induction l with
          | nil => intro _ h; simp at h
          | cons e l ih =>
            intro base h
            simp only [List.foldl_cons]
            by_cases hl : ∃ c ∈ l, idx c = idx a
            · exact ih _ hl
            · rw [foldl_update_not_mem _ _ _ _ _ fun c hc he => hl ⟨c, hc, he⟩]
              have : idx e = idx a := by
                obtain ⟨c, hc, hca⟩ := h
                rcases List.mem_cons.1 hc with rfl | hc
                · exact hca
                · exact absurd ⟨c, hc, hca⟩ hl
              rw [this, Function.update_self]
              exact hv _ _ this
        exact key l _ ⟨c, hc, hca⟩
    · have hb : a = b := by
        rcases List.mem_cons.1 h with rfl | h
        · rfl
        · exact absurd ⟨a, h, rfl⟩ hl
      subst hb
      rw [foldl_update_not_mem _ _ _ _ _ fun c hc he => hl ⟨c, hc, he⟩, Function.update_self]

theorem Dims.scatterSet_same {B : Type*} (ad : Dims d) (base : Fin d → B) (vals : Fin ad.k → B)
    (hv : ∀ a b, ad.idx a = ad.idx b → vals a = vals b) (a : Fin ad.k) :
    ad.scatterSet base vals (ad.idx a) = vals a :=
  foldl_update_same _ _ _ hv _ _ (List.mem_finRange a)

theorem closedJ_m52 (active : Option (Dims d)) (p : KPar) :
    ClosedJ (KernelObj.matern52 active) p (Dims.resolve active)
      (Core.m52 (p.val "lengthscale")) := by
  have hA := ClosedForm.customJvp
    (fun p => matern52BaseEx (Dims.resolve active) (p.val "lengthscale")) p
    (Dims.resolve active) (fun p => matern52T0 (Dims.resolve active) (p.val "lengthscale"))
    (fun p => matern52T1 (Dims.resolve active) (p.val "lengthscale")) (m52Ex (p.val "lengthscale"))
    (m52T0Ex (p.val "lengthscale")) (fun k a => .neg (m52T0Ex (p.val "lengthscale") k a))
    rfl (fun _ => rfl) (fun _ => rfl)
  constructor
  case k =>
    intro n m x1 x2 i j
    simp only [KernelObj.matern52, matern52K, matern52Dist_eq, Core.m52]
  case d0kj =>
    intro n m v x1 x2 J i u j
    simp only [KernelObj.matern52, matern52D0kj, reshapeRows_flat, Dims.takeJac, Dims.take,
      unshapeRows_apply]
    refine Finset.sum_congr rfl fun a _ => ?_
    congr 1
    simp only [matern52D0k, reshapeRows_flat, matern52Dist_eq]
    rw [Dims.scatterSet_same]
    · rfl
    · intro a b hab
      simp only [matern52Diff, scaled, Dims.takeCols, Dims.take, hab]
  case d1kj =>
    intro n m v x1 x2 J i j u
    simp only [KernelObj.matern52, matern52D1kj, reshapeCols_flat, Dims.takeJac, Dims.take,
      unshapeCols_apply]
    refine Finset.sum_congr rfl fun a _ => ?_
    congr 1
    simp only [matern52D1k, reshapeCols_flat, matern52Dist_eq]
    rw [Dims.scatterSet_same]
    · rfl
    · intro a b hab
      simp only [matern52Diff, scaled, Dims.takeCols, Dims.take, hab]
  case d01kj =>
    intro n m v1 v2 x1 x2 J1 J2 i u j w
    simp only [KernelObj.matern52, matern52D01kj, reshapeBoth_flat]
    rw [outer_contract]
    simp only [Core.m52, matern52Const, matern52Dist_eq, matern52Diff, scaled,
      Dims.takeCols, Dims.takeJac]
    rfl
  case d0kjc =>
    intro n m x1 x2 jc i j
    exact hA.d0kjc x1 x2 jc i j
  case d01kjc =>
    intro n m v x1 x2 jc J i j w
    simp only [KernelObj.matern52, matern52D01kjc, reshapeCols_flat]
    rw [outer_contract]
    simp only [Core.m52, matern52Const, matern52Dist_eq, matern52Diff, scaled,
      Dims.takeCols, Dims.takeJac]
    rfl

/-! ## The derivative kernels with all features, for lists with repetitions -/

theorem foldl_update_col {B : Type*} {n m : ℕ} (l : List (Fin n)) (idx : Fin n → Fin d) (vals : Fin n → Fin m → B)
    (base : Fin d → Fin m → B) (f : Fin d) (j : Fin m) :
    l.foldl (fun acc a => Function.update acc (idx a) (vals a)) base f j =
      l.foldl (fun acc a => Function.update acc (idx a) (vals a j)) (fun f => base f j) f := by
  induction l generalizing base with
  | nil => rfl
  | cons a l ih =>
    simp only [List.foldl_cons]
    rw [ih]
    have : (fun f => Function.update base (idx a) (vals a) f j) =
        Function.update (fun f => base f j) (idx a) (vals a j) := by
      funext g
      by_cases hg : g = idx a
      · subst hg; simp
      · simp [Function.update_of_ne hg]
    rw [this]

theorem Dims.scatterSet_col {B : Type*} {m : ℕ} (ad : Dims d) (base : Fin d → Fin m → B) (vals : Fin ad.k → Fin m → B)
    (f : Fin d) (j : Fin m) :
    ad.scatterSet base vals f j = ad.scatterSet (fun f => base f j) (fun a => vals a j) f :=
  foldl_update_col _ _ _ _ _ _

/-- The derivative kernels are computed from the two samples of an entry. -/
structure RawForm (κ : KernelObj d) (p : KPar) (G0 G1 : Sample d → Sample d → Fin d → ℝ)
    (H : Sample d → Sample d → Fin d → Fin d → ℝ) : Prop where
  d0k : ∀ {n m : ℕ} (x1 : Batch n d) (x2 : Batch m d) i f j, κ.d0k p x1 x2 (flat i f) j = G0 (x1 i) (x2 j) f
  d1k : ∀ {n m : ℕ} (x1 : Batch n d) (x2 : Batch m d) i j e, κ.d1k p x1 x2 i (flat j e) = G1 (x1 i) (x2 j) e
  d01k : ∀ {n m : ℕ} (x1 : Batch n d) (x2 : Batch m d) i f j e,
    κ.d01k p x1 x2 (flat i f) (flat j e) = H (x1 i) (x2 j) f e

theorem ClosedForm.raw {κ : KernelObj d} {p : KPar} {ad : Dims d} {c : Core} (h : ClosedForm κ p ad c) :
    RawForm κ p (fun x y => ad.spread (c.G0 (ad.take x) (ad.take y))) (fun x y => ad.spread (c.G1 (ad.take x) (ad.take y)))
      (fun x y => ad.spread2 (c.H (ad.take x) (ad.take y))) := ⟨h.d0k, h.d1k, h.d01k⟩

theorem raw_linear (active : Option (Dims d)) (p : KPar) :
    RawForm (KernelObj.linear active) p
      (fun _ y => (Dims.resolve active).scatterSet (fun _ => 0) ((Dims.resolve active).take y))
      (fun x _ => (Dims.resolve active).scatterSet (fun _ => 0) ((Dims.resolve active).take x))
      (fun _ _ => (Dims.resolve active).diagSet (fun _ _ => 0) 1) where
  d0k x1 x2 i f j := by
    simp only [KernelObj.linear, linearD0k, tileRows, flat_modNat]
    rw [Dims.scatterSet_col]
    rfl
  d1k x1 x2 i j e := by
    simp only [KernelObj.linear, linearD1k, tileCols, flat_modNat]
    rfl
  d01k x1 x2 i f j e := by
    simp only [KernelObj.linear, linearD01k, tile, flat_modNat]

/-- The factors of the polynomial's derivatives. -/
noncomputable def polyC1 (deg off : ℝ) {k : ℕ} (x y : Fin k → ℝ) : ℝ := deg * (off + ∑ a, x a * y a) ^ (deg - 1)
/-- The factors of the polynomial's derivatives. -/
noncomputable def polyC2 (deg off : ℝ) {k : ℕ} (x y : Fin k → ℝ) : ℝ :=
  deg * (deg - 1) * (off + ∑ a, x a * y a) ^ (deg - 2)

theorem raw_polynomial (active : Option (Dims d)) (ni : Bool) (p : KPar) :
    let ad := Dims.resolve active
    let deg := p.val "degree"
    let off := p.val "offset"
    RawForm (KernelObj.polynomial active ni) p
      (fun x y => ad.scatterSet (fun _ => 0) (fun a => polyC1 deg off (ad.take x) (ad.take y) * ad.take y a))
      (fun x y => ad.scatterSet (fun _ => 0) (fun a => polyC1 deg off (ad.take x) (ad.take y) * ad.take x a))
      (fun x y => ad.meshSet (fun _ _ => 0) (fun a b => polyC1 deg off (ad.take x) (ad.take y) * (if a = b then 1 else 0) +
        ad.take x a * polyC2 deg off (ad.take x) (ad.take y) * ad.take y b)) := by
  intro ad deg off
  constructor
  · intro n m x1 x2 i f j
    simp only [KernelObj.polynomial, polynomialD0k, reshapeRows_flat]
    rw [Dims.scatterSet_col]
    rfl
  · intro n m x1 x2 i j e
    simp only [KernelObj.polynomial, polynomialD1k, reshapeCols_flat]
    rfl
  · intro n m x1 x2 i f j e
    simp only [KernelObj.polynomial, polynomialD01k, reshapeBoth_flat, tiledEye_apply]
    rfl

theorem raw_se (active : Option (Dims d)) (p : KPar) :
    let ad := Dims.resolve active
    let l := p.val "lengthscale"
    RawForm (KernelObj.squaredExponential active) p
      (fun x y => ad.spread ((Core.se l).G0 (ad.take x) (ad.take y)))
      (fun x y => ad.spread ((Core.se l).G1 (ad.take x) (ad.take y)))
      (fun x y =>
        let e := Real.exp (-(sqd l (ad.take x) (ad.take y) + sqDistJitter))
        let diff := ad.scatterSet (fun _ => 0) (fun a => (2 / l) * (ad.take x a / l - ad.take y a / l))
        ad.diagAdd (fun f g => -e * diff f * diff g) (e * (2 / l ^ 2))) := by
  intro ad l
  have hA := ClosedForm.ofEx
    (fun p => squaredExponentialBase (Dims.resolve active) (p.val "lengthscale")) p
    (Dims.resolve active) (seEx (p.val "lengthscale")) rfl
  constructor
  · intro n m x1 x2 i f j
    refine (hA.d0k x1 x2 i f j).trans ?_
    rw [Core.ofEx_se_G0]
  · intro n m x1 x2 i j e
    refine (hA.d1k x1 x2 i j e).trans ?_
    rw [Core.ofEx_se_G1]
  · intro n m x1 x2 i f j e
    simp only [KernelObj.squaredExponential, squaredExponentialD01k, reshapeBoth_flat, squaredExponentialK,
      squaredDistances_scaled, seDiffFull, scaled]
    rfl

theorem raw_m52 (active : Option (Dims d)) (p : KPar) :
    let ad := Dims.resolve active
    let l := p.val "lengthscale"
    let r := fun x y : Sample d => m52Dist (sqd l (ad.take x) (ad.take y))
    let diff := fun (x y : Sample d) a => Real.sqrt 5 * (ad.take x a / l - ad.take y a / l)
    RawForm (KernelObj.matern52 active) p
      (fun x y => ad.scatterSet (fun _ => 0) (fun a =>
        -(Real.sqrt 5 / (3 * l)) * (1 + r x y) * Real.exp (-r x y) * diff x y a))
      (fun x y => ad.scatterSet (fun _ => 0) (fun a =>
        (Real.sqrt 5 / (3 * l)) * (1 + r x y) * Real.exp (-r x y) * diff x y a))
      (fun x y =>
        let c := (5 / (3 * l ^ 2)) * Real.exp (-r x y)
        let full := ad.scatterSet (fun _ => 0) (diff x y)
        ad.diagAdd (fun f g => -c * full f * full g) (c * (1 + r x y))) := by
  intro ad l r diff
  constructor
  · intro n m x1 x2 i f j
    simp only [KernelObj.matern52, matern52D0k, reshapeRows_flat, matern52Dist_eq]
    rw [Dims.scatterSet_col]
    rfl
  · intro n m x1 x2 i j e
    simp only [KernelObj.matern52, matern52D1k, reshapeCols_flat, matern52Dist_eq]
    rfl
  · intro n m x1 x2 i f j e
    simp only [KernelObj.matern52, matern52D01k, reshapeBoth_flat, matern52Dist_eq, matern52Const]
    rfl

/-! ### Exchanging the samples -/

theorem Dims.diagSet_symm (ad : Dims d) (base : Arr2 d d) (c : ℝ) (f e : Fin d) :
    ad.diagSet base c f e = ad.diagSet (fun f e => base e f) c e f := by
  unfold Dims.diagSet
  generalize List.finRange ad.k = l
  induction l generalizing base with
  | nil => rfl
  | cons a l ih =>
    simp only [List.foldl_cons]
    rw [ih]
    have : (fun f e => Function.update base (ad.idx a) (Function.update (base (ad.idx a)) (ad.idx a) c) e f) =
        Function.update (fun f e => base e f) (ad.idx a)
          (Function.update (fun e => base e (ad.idx a)) (ad.idx a) c) := by
      funext g h
      by_cases hg : g = ad.idx a <;> by_cases hh : h = ad.idx a <;> simp [Function.update_apply, hg, hh]
    rw [this]

theorem Dims.diagAdd_symm (ad : Dims d) (base : Arr2 d d) (c : ℝ) (f e : Fin d) :
    ad.diagAdd base c f e = ad.diagAdd (fun f e => base e f) c e f := by
  unfold Dims.diagAdd
  generalize List.finRange ad.k = l
  induction l generalizing base with
  | nil => rfl
  | cons a l ih =>
    simp only [List.foldl_cons]
    rw [ih]
    have : (fun f e => Function.update base (ad.idx a)
          (Function.update (base (ad.idx a)) (ad.idx a) (base (ad.idx a) (ad.idx a) + c)) e f) =
        Function.update (fun f e => base e f) (ad.idx a)
          (Function.update (fun e => base e (ad.idx a)) (ad.idx a) (base (ad.idx a) (ad.idx a) + c)) := by
      funext g h
      by_cases hg : g = ad.idx a <;> by_cases hh : h = ad.idx a <;> simp [Function.update_apply, hg, hh]
    rw [this]

theorem Dims.scatterSet_neg (ad : Dims d) (vals : Fin ad.k → ℝ) (f : Fin d) :
    ad.scatterSet (fun _ => 0) (fun a => -vals a) f = -ad.scatterSet (fun _ => 0) vals f := by
  unfold Dims.scatterSet
  have : ∀ (l : List (Fin ad.k)) (base : Fin d → ℝ),
      l.foldl (fun acc a => Function.update acc (ad.idx a) (-vals a)) (fun f => -base f) f =
        -l.foldl (fun acc a => Function.update acc (ad.idx a) (vals a)) base f := by
    intro l
    induction l with
    | nil => intro base; rfl
    | cons a l ih =>
      intro base
      simp only [List.foldl_cons]
      rw [← ih]
      have : Function.update (fun f => -base f) (ad.idx a) (-vals a) =
          fun f => -Function.update base (ad.idx a) (vals a) f := by
        funext g
        by_cases hg : g = ad.idx a <;> simp [Function.update_apply, hg]
      rw [this]
  have h := this (List.finRange ad.k) fun _ => 0
  simpa using h

/-- What is found at a place after a list of writes: the last value written there. -/
theorem foldl_update₂_last {α : Type*} (l : List α) (i j : α → Fin d) (v : α → ℝ) (base : Arr2 d d) (f e : Fin d) :
    l.foldl (fun acc a => Function.update acc (i a) (Function.update (acc (i a)) (j a) (v a))) base f e =
      ((l.filter fun a => i a = f ∧ j a = e).getLast?.map v).getD (base f e) := by
  induction l using List.reverseRecOn generalizing base with
  | nil => rfl
  | append_singleton l a ih =>
    rw [List.foldl_append, List.foldl_cons, List.foldl_nil, List.filter_append]
    by_cases h : i a = f ∧ j a = e
    · obtain ⟨rfl, rfl⟩ := h
      simp
    · have hf : (List.filter (fun a => decide (i a = f ∧ j a = e)) [a]) = [] := by
        simp only [List.filter_cons, h, decide_false, List.filter_nil]; rfl
      rw [hf, List.append_nil, ← ih base]
      by_cases hi : f = i a
      · subst hi
        have hj : e ≠ j a := fun hj => h ⟨rfl, hj.symm⟩
        rw [Function.update_self, Function.update_of_ne hj]
      · rw [Function.update_of_ne hi]

theorem product_cons' {α β : Type*} (a : α) (l1 : List α) (l2 : List β) :
    (a :: l1).product l2 = l2.map (fun b => (a, b)) ++ l1.product l2 := rfl

theorem filter_product {α β : Type*} (l1 : List α) (l2 : List β) (q : α → Bool) (r : β → Bool) :
    (l1.product l2).filter (fun ab => q ab.1 && r ab.2) = (l1.filter q).product (l2.filter r) := by
  induction l1 with
  | nil => rfl
  | cons a l1 ih =>
    rw [product_cons', List.filter_append, ih, List.filter_map, List.filter_cons]
    by_cases ha : q a
    · rw [if_pos ha, product_cons']
      congr 2
      exact List.filter_congr fun b _ => by simp [ha]
    · rw [if_neg ha]
      have : List.filter ((fun ab : α × β => q ab.1 && r ab.2) ∘ fun b => (a, b)) l2 = [] :=
        List.filter_eq_nil_iff.2 fun b _ => by simp [ha]
      rw [this]; rfl

theorem getLast?_product {α β : Type*} (l1 : List α) (l2 : List β) :
    (l1.product l2).getLast? = l1.getLast?.bind fun a => l2.getLast?.map fun b => (a, b) := by
  induction l1 using List.reverseRecOn with
  | nil => rfl
  | append_singleton l1 a ih =>
    have : (l1 ++ [a]).product l2 = l1.product l2 ++ l2.map fun b => (a, b) := by
      simp [List.product, List.flatMap_append]
    rw [this, List.getLast?_append, List.getLast?_map, List.getLast?_append]
    rcases h : l2.getLast? with _ | b
    · have hl : l2 = [] := List.getLast?_eq_none_iff.1 h
      subst hl
      have : l1.product ([] : List β) = [] := by simp [List.product]
      simp [this]
    · simp

theorem Dims.meshSet_last (ad : Dims d) (base : Arr2 d d) (vals : Arr2 ad.k ad.k) (f e : Fin d) :
    ad.meshSet base vals f e =
      ((((List.finRange ad.k).filter fun a => ad.idx a = e).getLast?.bind fun a =>
        ((List.finRange ad.k).filter fun a => ad.idx a = f).getLast?.map fun b => vals a b).getD (base f e)) := by
  unfold Dims.meshSet
  rw [foldl_update₂_last]
  have : (fun ab : Fin ad.k × Fin ad.k => decide (ad.idx ab.2 = f ∧ ad.idx ab.1 = e)) =
      fun ab => decide (ad.idx ab.1 = e) && decide (ad.idx ab.2 = f) := by
    funext ab
    rw [Bool.decide_and, Bool.and_comm]
  rw [this, filter_product (q := fun a => decide (ad.idx a = e)) (r := fun a => decide (ad.idx a = f)), getLast?_product]
  rcases (List.filter (fun a => decide (ad.idx a = e)) (List.finRange ad.k)).getLast? with _ | a <;>
    rcases (List.filter (fun a => decide (ad.idx a = f)) (List.finRange ad.k)).getLast? with _ | b <;> rfl

theorem Dims.meshSet_symm (ad : Dims d) (base : Arr2 d d) (vals : Arr2 ad.k ad.k) (f e : Fin d) :
    ad.meshSet base vals f e = ad.meshSet (fun f e => base e f) (fun a b => vals b a) e f := by
  rw [Dims.meshSet_last, Dims.meshSet_last]
  rcases (List.filter (fun a => decide (ad.idx a = e)) (List.finRange ad.k)).getLast? with _ | a <;>
    rcases (List.filter (fun a => decide (ad.idx a = f)) (List.finRange ad.k)).getLast? with _ | b <;> rfl

end GPX
