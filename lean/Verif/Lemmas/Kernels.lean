import Verif.Spec.Kernels
import Verif.Lemmas.Kernelizers
import Mathlib.Tactic.FieldSimp
import Mathlib.Algebra.BigOperators.Ring.Finset

/-! # Helper lemmas: flat indices, scatter operations, closed forms of the kernel classes -/

namespace GPX
open GPX.Spec

variable {d n m v v1 v2 : ℕ}

@[simp] theorem flat_divNat (i : Fin n) (f : Fin d) : (flat i f).divNat = i := by
  apply Fin.ext
  have hd : 0 < d := by have := f.isLt; omega
  simp only [Fin.divNat, flat]
  rw [Nat.add_comm, Nat.add_mul_div_right _ _ hd, Nat.div_eq_of_lt f.isLt, Nat.zero_add]

@[simp] theorem flat_modNat (i : Fin n) (f : Fin d) : (flat i f).modNat = f := by
  apply Fin.ext
  simp only [Fin.modNat, flat]
  rw [Nat.add_comm, Nat.add_mul_mod_self_right, Nat.mod_eq_of_lt f.isLt]

theorem flat_eta (r : Fin (n * d)) : flat r.divNat r.modNat = r := by
  apply Fin.ext
  simp only [Fin.modNat, Fin.divNat, flat]
  have := Nat.div_add_mod r.val d
  rw [Nat.mul_comm] at this
  exact this

theorem flat_surj (r : Fin (n * d)) : ∃ i f, r = flat i f := ⟨r.divNat, r.modNat, (flat_eta r).symm⟩

theorem prod_flat (i : Fin n) (f : Fin d) : finProdFinEquiv (i, f) = flat i f := by
  apply Fin.ext
  simp only [finProdFinEquiv, flat, Equiv.coe_fn_mk]
  ring

@[simp] theorem reshapeRows_flat (a : Fin n → Fin d → Fin m → ℝ) (i : Fin n) (f : Fin d)
    (j : Fin m) : reshapeRows a (flat i f) j = a i f j := by simp [reshapeRows]

@[simp] theorem reshapeCols_flat (a : Fin n → Fin m → Fin d → ℝ) (i : Fin n) (f : Fin d)
    (j : Fin m) : reshapeCols a i (flat j f) = a i j f := by simp [reshapeCols]

@[simp] theorem reshapeBoth_flat (a : Fin n → Fin v1 → Fin m → Fin v2 → ℝ) (i : Fin n)
    (f : Fin v1) (j : Fin m) (e : Fin v2) : reshapeBoth a (flat i f) (flat j e) = a i f j e := by
  simp [reshapeBoth]

@[simp] theorem unshapeRows_apply (a : Arr2 (n * d) m) (i : Fin n) (f : Fin d) (j : Fin m) :
    unshapeRows a i f j = a (flat i f) j := by simp [unshapeRows, prod_flat]

@[simp] theorem unshapeCols_apply (a : Arr2 n (m * d)) (i : Fin n) (f : Fin d) (j : Fin m) :
    unshapeCols a i j f = a i (flat j f) := by simp [unshapeCols, prod_flat]

@[simp] theorem unshapeBoth_apply (a : Arr2 (n * v1) (m * v2)) (i : Fin n) (f : Fin v1) (j : Fin m)
    (e : Fin v2) : unshapeBoth a i f j e = a (flat i f) (flat j e) := by
  simp [unshapeBoth, prod_flat]

@[simp] theorem tiledEye_apply (i : Fin n) (j : Fin m) (f e : Fin d) :
    tiledEye n m d i f j e = if f = e then 1 else 0 := by
  simp [tiledEye, tile, eye]

@[simp] theorem repeatRows_flat (a : Arr2 n m) (i : Fin n) (f : Fin d) (j : Fin m) :
    repeatRows d a (flat i f) j = a i j := by simp [repeatRows]

@[simp] theorem repeatCols_flat (a : Arr2 n m) (i : Fin n) (f : Fin d) (j : Fin m) :
    repeatCols d a i (flat j f) = a i j := by simp [repeatCols]

/-! ## Scatter -/

/-- Each active value is added to its feature, everything else is zero. -/
def Dims.spread (ad : Dims d) (vals : Fin ad.k → ℝ) (f : Fin d) : ℝ :=
  ∑ a, if ad.idx a = f then vals a else 0

theorem foldl_update_not_mem {B : Type*} (l : List (Fin n)) (idx : Fin n → Fin d)
    (vals : Fin n → B) (base : Fin d → B) (f : Fin d) (h : ∀ a ∈ l, idx a ≠ f) :
    l.foldl (fun acc a => Function.update acc (idx a) (vals a)) base f = base f := by
  induction l generalizing base with
  | nil => rfl
  | cons a l ih =>
    simp only [List.foldl_cons]
    rw [ih _ fun b hb => h b (List.mem_cons_of_mem _ hb)]
    exact Function.update_of_ne (h a List.mem_cons_self).symm _ _

theorem foldl_update_mem {B : Type*} (l : List (Fin n)) (hl : l.Nodup) (idx : Fin n → Fin d)
    (hidx : Function.Injective idx) (vals : Fin n → B) (base : Fin d → B) (a : Fin n)
    (h : a ∈ l) :
    l.foldl (fun acc a => Function.update acc (idx a) (vals a)) base (idx a) = vals a := by
  induction l generalizing base with
  | nil => simp at h
  | cons b l ih =>
    simp only [List.foldl_cons]
    by_cases hab : a ∈ l
    · exact ih hl.of_cons _ hab
    · have hb : a = b := by simpa [hab] using h
      subst hb
      rw [foldl_update_not_mem]
      · simp
      · intro c hc he
        have := hidx he
        subst this
        exact hab hc

theorem Dims.scatterSet_idx {B : Type*} (ad : Dims d) (h : Function.Injective ad.idx)
    (base : Fin d → B) (vals : Fin ad.k → B) (a : Fin ad.k) :
    ad.scatterSet base vals (ad.idx a) = vals a :=
  foldl_update_mem _ (List.nodup_finRange _) _ h _ _ _ (List.mem_finRange a)

theorem Dims.scatterSet_not (ad : Dims d) {B : Type*}
    (base : Fin d → B) (vals : Fin ad.k → B) (f : Fin d) (hf : ∀ a, ad.idx a ≠ f) :
    ad.scatterSet base vals f = base f :=
  foldl_update_not_mem _ _ _ _ _ fun a _ => hf a

theorem Dims.spread_idx (ad : Dims d) (h : Function.Injective ad.idx) (vals : Fin ad.k → ℝ)
    (a : Fin ad.k) : ad.spread vals (ad.idx a) = vals a := by
  unfold Dims.spread
  rw [Finset.sum_eq_single a]
  · simp
  · intro b _ hb
    rw [if_neg]
    exact fun he => hb (h he)
  · simp

theorem Dims.spread_not (ad : Dims d) (vals : Fin ad.k → ℝ) (f : Fin d)
    (hf : ∀ a, ad.idx a ≠ f) : ad.spread vals f = 0 := by
  unfold Dims.spread
  exact Finset.sum_eq_zero fun a _ => if_neg (hf a)

theorem Dims.cases_idx (ad : Dims d) (f : Fin d) : (∃ a, ad.idx a = f) ∨ ∀ a, ad.idx a ≠ f := by
  by_cases h : ∃ a, ad.idx a = f
  · exact Or.inl h
  · exact Or.inr fun a ha => h ⟨a, ha⟩

theorem Dims.scatterSet_zero (ad : Dims d) (h : Function.Injective ad.idx) (vals : Fin ad.k → ℝ) :
    ad.scatterSet (fun _ => 0) vals = ad.spread vals := by
  funext f
  rcases ad.cases_idx f with ⟨a, rfl⟩ | hf
  · rw [ad.scatterSet_idx h, ad.spread_idx h]
  · rw [ad.scatterSet_not _ _ _ hf, ad.spread_not _ _ hf]

/-- The version with a trailing axis. -/
theorem Dims.scatterSet_zero₂ (ad : Dims d) (h : Function.Injective ad.idx)
    (vals : Fin ad.k → Fin m → ℝ) (f : Fin d) (j : Fin m) :
    ad.scatterSet (fun _ _ => 0) vals f j = ad.spread (fun a => vals a j) f := by
  rcases ad.cases_idx f with ⟨a, rfl⟩ | hf
  · rw [ad.scatterSet_idx h, ad.spread_idx h]
  · rw [ad.scatterSet_not _ _ _ hf, ad.spread_not _ _ hf]

/-- Contraction of a spread vector with a full one. -/
theorem Dims.sum_spread_mul (ad : Dims d) (vals : Fin ad.k → ℝ) (w : Fin d → ℝ) :
    ∑ f, ad.spread vals f * w f = ∑ a, vals a * w (ad.idx a) := by
  unfold Dims.spread
  simp only [Finset.sum_mul, ite_mul, zero_mul]
  rw [Finset.sum_comm]
  simp

theorem Dims.sum_mul_spread (ad : Dims d) (vals : Fin ad.k → ℝ) (w : Fin d → ℝ) :
    ∑ f, w f * ad.spread vals f = ∑ a, w (ad.idx a) * vals a := by
  simp only [mul_comm (w _)]
  exact ad.sum_spread_mul vals w

/-- Two-dimensional version of `spread`. -/
def Dims.spread2 (ad : Dims d) (vals : Fin ad.k → Fin ad.k → ℝ) (f e : Fin d) : ℝ :=
  ad.spread (fun a => ad.spread (vals a) e) f

theorem Dims.spread2_idx (ad : Dims d) (h : Function.Injective ad.idx)
    (vals : Fin ad.k → Fin ad.k → ℝ) (a b : Fin ad.k) :
    ad.spread2 vals (ad.idx a) (ad.idx b) = vals a b := by
  unfold Dims.spread2
  rw [ad.spread_idx h, ad.spread_idx h]

theorem Dims.spread2_not_left (ad : Dims d) (vals : Fin ad.k → Fin ad.k → ℝ) (f e : Fin d)
    (hf : ∀ a, ad.idx a ≠ f) : ad.spread2 vals f e = 0 := ad.spread_not _ _ hf

theorem Dims.spread2_not_right (ad : Dims d) (vals : Fin ad.k → Fin ad.k → ℝ) (f e : Fin d)
    (he : ∀ a, ad.idx a ≠ e) : ad.spread2 vals f e = 0 := by
  unfold Dims.spread2
  have : (fun a => ad.spread (vals a) e) = fun _ => 0 := by
    funext a
    exact ad.spread_not _ _ he
  rw [this]
  unfold Dims.spread
  simp

theorem Dims.sum_spread2 (ad : Dims d) (vals : Fin ad.k → Fin ad.k → ℝ) (w1 w2 : Fin d → ℝ) :
    ∑ f, ∑ e, w1 f * ad.spread2 vals f e * w2 e =
      ∑ a, ∑ b, w1 (ad.idx a) * vals a b * w2 (ad.idx b) := by
  have h1 : ∀ f, ∑ e, w1 f * ad.spread2 vals f e * w2 e =
      w1 f * ad.spread (fun a => ∑ b, vals a b * w2 (ad.idx b)) f := by
    intro f
    simp only [mul_assoc, ← Finset.mul_sum]
    congr 1
    unfold Dims.spread2 
    simp only [Dims.spread, Finset.sum_mul, ite_mul, zero_mul]
    rw [Finset.sum_comm]
    refine Finset.sum_congr rfl fun a _ => ?_
    by_cases h : ad.idx a = f
    · simp only [h, if_true]
      rw [Finset.sum_comm]
      refine Finset.sum_congr rfl fun b _ => ?_
      simp
    · simp [h]
  simp only [h1]
  rw [ad.sum_mul_spread]
  refine Finset.sum_congr rfl fun a _ => ?_
  rw [Finset.mul_sum]
  exact Finset.sum_congr rfl fun b _ => by ring

theorem diag_foldl (idx : Fin n → Fin d) (hidx : Function.Injective idx) (upd : ℝ → ℝ)
    (l : List (Fin n)) (hl : l.Nodup) (base : Arr2 d d) (f e : Fin d) :
    l.foldl (fun (acc : Arr2 d d) a => Function.update acc (idx a)
      (Function.update (acc (idx a)) (idx a) (upd (acc (idx a) (idx a))))) base f e =
      if f = e ∧ ∃ a ∈ l, idx a = f then upd (base f e) else base f e := by
  induction l generalizing base with
  | nil => simp
  | cons a l ih =>
    simp only [List.foldl_cons]
    rw [ih hl.of_cons]
    have ha : a ∉ l := (List.nodup_cons.mp hl).1
    by_cases hfe : f = e
    · subst hfe
      by_cases haf : idx a = f
      · subst haf
        have : ¬ ∃ b ∈ l, idx b = idx a := by
          rintro ⟨b, hb, he⟩
          exact ha (hidx he ▸ hb)
        simp [this]
      · have h2 : f ≠ idx a := fun h => haf h.symm
        simp [haf, Function.update_of_ne h2]
    · simp only [hfe, false_and, if_false]
      by_cases haf : f = idx a
      · subst haf
        rw [Function.update_self, Function.update_of_ne (Ne.symm hfe)]
      · rw [Function.update_of_ne haf]

theorem Dims.diagSet_zero (ad : Dims d) (h : Function.Injective ad.idx) (c : ℝ) (f e : Fin d) :
    ad.diagSet (fun _ _ => 0) c f e = ad.spread2 (fun a b => if a = b then c else 0) f e := by
  unfold Dims.diagSet
  rw [diag_foldl ad.idx h (fun _ => c) _ (List.nodup_finRange _)]
  rcases ad.cases_idx f with ⟨a, rfl⟩ | hf
  · rcases ad.cases_idx e with ⟨b, rfl⟩ | he
    · rw [ad.spread2_idx h]
      simp [h.eq_iff]
    · rw [ad.spread2_not_right _ _ _ he, if_neg]
      rintro ⟨h1, _⟩
      exact he a h1
  · rw [ad.spread2_not_left _ _ _ hf, if_neg]
    rintro ⟨_, a, _, h1⟩
    exact hf a h1

theorem Dims.diagAdd_spread (ad : Dims d) (h : Function.Injective ad.idx) (c : ℝ)
    (vals : Fin ad.k → Fin ad.k → ℝ) (f e : Fin d) :
    ad.diagAdd (ad.spread2 vals) c f e =
      ad.spread2 (fun a b => vals a b + if a = b then c else 0) f e := by
  unfold Dims.diagAdd
  rw [diag_foldl ad.idx h (fun x => x + c) _ (List.nodup_finRange _)]
  rcases ad.cases_idx f with ⟨a, rfl⟩ | hf
  · rcases ad.cases_idx e with ⟨b, rfl⟩ | he
    · rw [ad.spread2_idx h, ad.spread2_idx h]
      by_cases hab : a = b
      · simp [hab]
      · simp [hab, h.eq_iff]
    · rw [ad.spread2_not_right _ _ _ he, ad.spread2_not_right _ _ _ he, if_neg]
      rintro ⟨h1, _⟩
      exact he a h1
  · rw [ad.spread2_not_left _ _ _ hf, ad.spread2_not_left _ _ _ hf, if_neg]
    rintro ⟨_, a, _, h1⟩
    exact hf a h1

theorem mesh_foldl (idx : Fin n → Fin d) (hidx : Function.Injective idx) (vals : Arr2 n n)
    (l : List (Fin n × Fin n)) (hl : l.Nodup) (base : Arr2 d d) (a b : Fin n) :
    l.foldl (fun acc ab => Function.update acc (idx ab.2)
      (Function.update (acc (idx ab.2)) (idx ab.1) (vals ab.1 ab.2))) base (idx a) (idx b) =
      if (b, a) ∈ l then vals b a else base (idx a) (idx b) := by
  induction l generalizing base with
  | nil => simp
  | cons ab l ih =>
    simp only [List.foldl_cons]
    rw [ih hl.of_cons]
    obtain ⟨p, q⟩ := ab
    have hnot := (List.nodup_cons.mp hl).1
    by_cases hm : (b, a) ∈ l
    · simp [hm]
    · by_cases ha : a = q
      · subst ha
        by_cases hb : b = p
        · subst hb; simp [hm]
        · simp [hm, hb, hidx.eq_iff]
      · simp [hm, ha, hidx.eq_iff]

theorem mesh_foldl_not (idx : Fin n → Fin d) (vals : Arr2 n n)
    (l : List (Fin n × Fin n)) (base : Arr2 d d) (f e : Fin d)
    (h : (∀ a, idx a ≠ f) ∨ ∀ a, idx a ≠ e) :
    l.foldl (fun acc ab => Function.update acc (idx ab.2)
      (Function.update (acc (idx ab.2)) (idx ab.1) (vals ab.1 ab.2))) base f e = base f e := by
  induction l generalizing base with
  | nil => rfl
  | cons ab l ih =>
    simp only [List.foldl_cons]
    rw [ih]
    rcases h with h | h
    · rw [Function.update_of_ne (h _).symm]
    · by_cases hf : f = idx ab.2
      · subst hf
        rw [Function.update_self, Function.update_of_ne (h _).symm]
      · rw [Function.update_of_ne hf]

theorem Dims.meshSet_zero (ad : Dims d) (h : Function.Injective ad.idx)
    (vals : Arr2 ad.k ad.k) (f e : Fin d) :
    ad.meshSet (fun _ _ => 0) vals f e = ad.spread2 (fun a b => vals b a) f e := by
  unfold Dims.meshSet
  rcases ad.cases_idx f with ⟨a, rfl⟩ | hf
  · rcases ad.cases_idx e with ⟨b, rfl⟩ | he
    · rw [ad.spread2_idx h]
      refine (mesh_foldl ad.idx h vals _ ((List.nodup_finRange _).product (List.nodup_finRange _))
        _ a b).trans ?_
      rw [if_pos]
      exact List.pair_mem_product.mpr ⟨List.mem_finRange _, List.mem_finRange _⟩
    · rw [ad.spread2_not_right _ _ _ he]
      exact mesh_foldl_not ad.idx vals _ _ _ _ (Or.inr he)
  · rw [ad.spread2_not_left _ _ _ hf]
    exact mesh_foldl_not ad.idx vals _ _ _ _ (Or.inl hf)

end GPX
