import Verif.Spec.Floats
import Verif.Model.Rounding
import Mathlib.Data.Int.Log
import Mathlib.Algebra.Order.Round
import Mathlib.Algebra.BigOperators.Group.Multiset.Basic

/-! # A calculus of rounding errors -/

namespace GPX
open Spec

/-- `v` is `A` up to `k` roundings of terms of total size `a`. -/
def Near (u : ℝ) (k : ℕ) (A a v : ℝ) : Prop := |A| ≤ a ∧ |v - A| ≤ ((1 + u) ^ k - 1) * a

section
variable {u : ℝ} {rd : ℝ → ℝ} {j k : ℕ} {A B a b v w : ℝ}

theorem one_le_pow_u (hu : 0 ≤ u) (k : ℕ) : 1 ≤ (1 + u) ^ k := one_le_pow₀ (by linarith)

theorem Near.exact (A : ℝ) : Near u 0 A |A| A := ⟨le_rfl, by simp⟩

theorem Near.nonneg (h : Near u k A a v) : 0 ≤ a := (abs_nonneg A).trans h.1

theorem Near.mono (hu : 0 ≤ u) (h : Near u j A a v) (hjk : j ≤ k) : Near u k A a v :=
  ⟨h.1, h.2.trans (mul_le_mul_of_nonneg_right (sub_le_sub_right (pow_le_pow_right₀ (by linarith) hjk) 1) h.nonneg)⟩

theorem Near.add (h1 : Near u k A a v) (h2 : Near u k B b w) : Near u k (A + B) (a + b) (v + w) := by
  refine ⟨(abs_add_le _ _).trans (add_le_add h1.1 h2.1), ?_⟩
  have : v + w - (A + B) = (v - A) + (w - B) := by ring
  rw [this, mul_add]
  exact (abs_add_le _ _).trans (add_le_add h1.2 h2.2)

theorem Near.neg (h : Near u k A a v) : Near u k (-A) a (-v) := by
  refine ⟨by rw [abs_neg]; exact h.1, ?_⟩
  rw [← neg_sub_neg, abs_sub_comm]
  simpa [abs_sub_comm] using h.2

theorem Near.size (h : Near u k A a v) : |v| ≤ (1 + u) ^ k * a := by
  have : v = (v - A) + A := by ring
  rw [this]
  refine (abs_add_le _ _).trans ?_
  have := h.1; have := h.2
  linarith

theorem Near.round (hr : RelErr rd u) (h : Near u k A a v) : Near u (k + 1) A a (rd v) := by
  refine ⟨h.1, ?_⟩
  have e : rd v - A = (rd v - v) + (v - A) := by ring
  rw [e]
  refine (abs_add_le _ _).trans ?_
  have h1 := hr.2 v
  have h2 := mul_le_mul_of_nonneg_left h.size hr.1
  have h3 := h.2
  have : ((1 + u) ^ (k + 1) - 1) * a = u * ((1 + u) ^ k * a) + ((1 + u) ^ k - 1) * a := by ring
  linarith

theorem Near.mul (hu : 0 ≤ u) (h1 : Near u j A a v) (h2 : Near u k B b w) : Near u (j + k) (A * B) (a * b) (v * w) := by
  refine ⟨by rw [abs_mul]; exact mul_le_mul h1.1 h2.1 (abs_nonneg _) h1.nonneg, ?_⟩
  have e : v * w - A * B = (v - A) * w + A * (w - B) := by ring
  rw [e]
  refine (abs_add_le _ _).trans ?_
  rw [abs_mul, abs_mul]
  have p1 : 0 ≤ ((1 + u) ^ j - 1) * a := mul_nonneg (sub_nonneg.mpr (one_le_pow_u hu j)) h1.nonneg
  have k1 := mul_le_mul h1.2 h2.size (abs_nonneg _) p1
  have k2 := mul_le_mul h1.1 h2.2 (abs_nonneg _) h1.nonneg
  have : ((1 + u) ^ (j + k) - 1) * (a * b) =
      ((1 + u) ^ j - 1) * a * ((1 + u) ^ k * b) + a * (((1 + u) ^ k - 1) * b) := by rw [pow_add]; ring
  linarith

theorem Near.two (h : Near u k A a v) : Near u k (2 * A) (2 * a) (2 * v) := by
  have := h.add h
  simpa [two_mul] using this

/-- A dot product in any order, of factors that are themselves approximations. -/
theorem FDot.near {ι : Type} {f g F h : ι → ℝ} (hr : RelErr rd u) (hp : ∀ i, Near u j (F i) (h i) (f i * g i))
    {s : Multiset ι} {v : ℝ} (hd : FDot rd f g s v) :
    Near u (j + Multiset.card s) (s.map F).sum (s.map h).sum v := by
  have hu := hr.1
  induction hd with
  | nil => refine ⟨by simp, ?_⟩; simp
  | single i =>
    simp only [Multiset.map_singleton, Multiset.sum_singleton, Multiset.card_singleton]
    exact (hp i).round hr
  | @fma s a i hs _ ih =>
    simp only [Multiset.map_cons, Multiset.sum_cons, Multiset.card_cons]
    have := (((hp i).mono hu (Nat.le_add_right j (Multiset.card s))).add ih).round hr
    rw [add_comm (f i * g i)] at this
    exact this
  | @add s t a b hs ht _ _ ih1 ih2 =>
    simp only [Multiset.map_add, Multiset.sum_add, Multiset.card_add]
    have c1 : 0 < Multiset.card s := Multiset.card_pos.mpr hs
    have c2 : 0 < Multiset.card t := Multiset.card_pos.mpr ht
    have k1 := ih1.mono hu (by omega : j + Multiset.card s ≤ j + Multiset.card s + Multiset.card t - 1)
    have k2 := ih2.mono hu (by omega : j + Multiset.card t ≤ j + Multiset.card s + Multiset.card t - 1)
    have := (k1.add k2).round hr
    have e : j + Multiset.card s + Multiset.card t - 1 + 1 = j + (Multiset.card s + Multiset.card t) := by omega
    rwa [e] at this

theorem FDot.near_univ {κ : ℕ} {f g F h : Fin κ → ℝ} (hr : RelErr rd u)
    (hp : ∀ i, Near u j (F i) (h i) (f i * g i)) {v : ℝ} (hd : FDot rd f g Finset.univ.val v) :
    Near u (j + κ) (∑ i, F i) (∑ i, h i) v := by
  have := FDot.near hr hp hd
  rwa [Finset.card_val, Finset.card_univ, Fintype.card_fin] at this

/-- The squared distances, from approximate coordinates. -/
theorem FSquaredDistances.near {n m κ : ℕ} {x1 : Batch n κ} {x2 : Batch m κ} {D : Arr2 n m} (hr : RelErr rd u)
    (h : FSquaredDistances rd x1 x2 D) {t1 : Batch n κ} {t2 : Batch m κ}
    (h1 : ∀ i c, Near u j (t1 i c) |t1 i c| (x1 i c)) (h2 : ∀ i c, Near u j (t2 i c) |t2 i c| (x2 i c))
    (i : Fin n) (l : Fin m) :
    Near u (2 * j + κ + 4) ((∑ c, (t1 i c - t2 l c) ^ 2) + 1 / 10 ^ 12)
      ((∑ c, t1 i c ^ 2) + 2 * (∑ c, |t1 i c * t2 l c|) + (∑ c, t2 l c ^ 2) + 1 / 10 ^ 12) (D i l) := by
  have hu := hr.1
  obtain ⟨x1s, x2s, dot, a1, a2, a3, hD⟩ := h
  have b1 := FDot.near_univ hr (fun c => (h1 i c).mul hu (h1 i c)) (a1 i)
  have b2 := FDot.near_univ hr (fun c => (h2 l c).mul hu (h2 l c)) (a2 l)
  have b3 := FDot.near_univ hr (fun c => (h1 i c).mul hu (h2 l c)) (a3 i l)
  have c1 := ((b1.mono hu (Nat.le_succ _)).add ((b3.two).round hr).neg).round hr
  have c2 := (c1.add (b2.mono hu (by omega))).round hr
  have c3 := (((Near.exact (u := u) sqDistJitter).round hr).mono hu (by omega : 0 + 1 ≤ j + j + κ + 1 + 1 + 1))
  have c4 := (c2.add c3).round hr
  rw [hD]
  have e0 : sqDistJitter = 1 / 10 ^ 12 := by norm_num [sqDistJitter]
  have e1 : |sqDistJitter| = 1 / 10 ^ 12 := by rw [e0]; norm_num
  have e2 : j + j + κ + 1 + 1 + 1 + 1 = 2 * j + κ + 4 := by omega
  have e3 : (∑ c, t1 i c * t1 i c) + -(2 * ∑ c, t1 i c * t2 l c) + (∑ c, t2 l c * t2 l c) + sqDistJitter =
      (∑ c, (t1 i c - t2 l c) ^ 2) + 1 / 10 ^ 12 := by
    rw [e0, Finset.mul_sum, ← Finset.sum_neg_distrib, ← Finset.sum_add_distrib, ← Finset.sum_add_distrib]
    congr 1
    exact Finset.sum_congr rfl fun c _ => by ring
  have e4 : (∑ c, |t1 i c| * |t1 i c|) + 2 * (∑ c, |t1 i c| * |t2 l c|) + (∑ c, |t2 l c| * |t2 l c|) + |sqDistJitter| =
      (∑ c, t1 i c ^ 2) + 2 * (∑ c, |t1 i c * t2 l c|) + (∑ c, t2 l c ^ 2) + 1 / 10 ^ 12 := by
    rw [e1]
    simp only [abs_mul_abs_self, abs_mul, sq]
  rw [e2, e3, e4] at c4
  exact c4

end

/-! ## Rounding to nearest -/

theorem Spec.Nearest.of_float {rd : ℝ → ℝ} (h : Nearest rd) {x : ℝ} (hx : IsFloat x) : rd x = x := by
  have := (h x).2 x hx
  rw [sub_self, abs_zero] at this
  exact sub_eq_zero.mp (abs_nonpos_iff.mp this)

theorem isFloat_int_mul (q e : ℤ) (hq : |q| ≤ 2 ^ 53) : IsFloat (q * (2 : ℝ) ^ e) := by
  rcases lt_or_eq_of_le hq with h | h
  · exact ⟨q, e, h, rfl⟩
  · refine ⟨q.sign, e + 53, ?_, ?_⟩
    · rcases lt_trichotomy q 0 with h0 | h0 | h0
      · rw [Int.sign_eq_neg_one_of_neg h0]; norm_num
      · subst h0; norm_num at h
      · rw [Int.sign_eq_one_of_pos h0]; norm_num
    · rw [zpow_add₀ two_ne_zero]
      have : (q : ℝ) = q.sign * (2 : ℝ) ^ (53 : ℤ) := by
        conv_lhs => rw [← Int.sign_mul_abs q, h]
        norm_num
      rw [this]; ring

/-- A number with 53 bits whose exponent is below `e` is small. -/
theorem float_cases {f : ℝ} (hf : IsFloat f) (e : ℤ) : (∃ q : ℤ, f = q * (2 : ℝ) ^ e) ∨ |f| < (2 : ℝ) ^ (52 + e) := by
  obtain ⟨q, e', hq, rfl⟩ := hf
  rcases le_or_gt e e' with h | h
  · refine Or.inl ⟨q * 2 ^ (e' - e).toNat, ?_⟩
    have h1 : ((e' - e).toNat : ℤ) = e' - e := Int.toNat_of_nonneg (by omega)
    have h2 : (2 : ℝ) ^ e' = (2 : ℝ) ^ (e' - e).toNat * (2 : ℝ) ^ e := by
      rw [← zpow_natCast, h1, ← zpow_add₀ two_ne_zero]; congr 1; ring
    rw [h2]; push_cast; ring
  · refine Or.inr ?_
    rw [abs_mul, abs_of_pos (zpow_pos (two_pos : (0 : ℝ) < 2) e')]
    have h1 : |(q : ℝ)| < 2 ^ (53 : ℤ) := by
      have : ((|q| : ℤ) : ℝ) < ((2 ^ 53 : ℤ) : ℝ) := by exact_mod_cast hq
      rw [Int.cast_abs] at this
      refine this.trans_le (le_of_eq ?_)
      norm_num
    calc |(q : ℝ)| * (2 : ℝ) ^ e' < 2 ^ (53 : ℤ) * (2 : ℝ) ^ e' := mul_lt_mul_of_pos_right h1 (zpow_pos two_pos e')
      _ = (2 : ℝ) ^ (53 + e') := by rw [zpow_add₀ two_ne_zero]
      _ ≤ (2 : ℝ) ^ (52 + e) := zpow_le_zpow_right₀ (by norm_num) (by omega)

/-- No number with a smaller exponent is closer than the power of two. -/
theorem pow_closer {f x : ℝ} {e : ℤ} (hf : |f| < (2 : ℝ) ^ (52 + e)) (hx : (2 : ℝ) ^ (52 + e) ≤ |x|) :
    ∃ q : ℤ, |q| ≤ 2 ^ 53 ∧ |(q : ℝ) * (2 : ℝ) ^ e - x| < |f - x| := by
  have hp : (2 : ℝ) ^ (52 + e) = ((2 ^ 52 : ℤ) : ℝ) * (2 : ℝ) ^ e := by
    rw [zpow_add₀ two_ne_zero]; norm_num
  have key : |x| - (2 : ℝ) ^ (52 + e) < |f - x| := by
    have : |x| ≤ |f - x| + |f| := by
      have := abs_sub_abs_le_abs_sub x f
      rw [abs_sub_comm] at this
      linarith
    linarith
  rcases le_or_gt 0 x with h0 | h0
  · refine ⟨2 ^ 52, by norm_num, ?_⟩
    rw [← hp, abs_sub_comm, abs_of_nonneg (by rw [abs_of_nonneg h0] at hx; linarith)]
    rwa [abs_of_nonneg h0] at key
  · refine ⟨-2 ^ 52, by norm_num, ?_⟩
    have : ((-2 ^ 52 : ℤ) : ℝ) * (2 : ℝ) ^ e = -(2 : ℝ) ^ (52 + e) := by rw [hp]; push_cast; ring
    rw [this]
    rw [abs_of_neg h0] at hx key
    rw [abs_of_nonneg (by linarith)]
    linarith

/-- The result of a rounding that is not a tie. -/
theorem Spec.Nearest.eq {rd : ℝ → ℝ} (h : Nearest rd) {x : ℝ} (q e : ℤ) (h1 : (2 : ℝ) ^ (52 + e) ≤ |x|)
    (hq : |q| ≤ 2 ^ 53) (h2 : |q - x / (2 : ℝ) ^ e| < 1 / 2) : rd x = q * (2 : ℝ) ^ e := by
  obtain ⟨hf, hn⟩ := h x
  have he : 0 < (2 : ℝ) ^ e := zpow_pos two_pos e
  have scale : ∀ t : ℤ, |(t : ℝ) * (2 : ℝ) ^ e - x| = |t - x / (2 : ℝ) ^ e| * (2 : ℝ) ^ e := fun t => by
    rw [← abs_of_pos he, ← abs_mul, abs_of_pos he, sub_mul, div_mul_cancel₀ _ he.ne']
  rcases float_cases hf e with ⟨t, ht⟩ | hs
  · have := hn _ (isFloat_int_mul q e hq)
    rw [ht, scale, scale] at this
    have h3 := le_of_mul_le_mul_right this he
    have h4 : |(t : ℝ) - q| < 1 := by
      have e1 : (t : ℝ) - q = (t - x / (2 : ℝ) ^ e) - (q - x / (2 : ℝ) ^ e) := by ring
      rw [e1]
      refine (abs_sub _ _).trans_lt ?_
      linarith
    have h5 : |t - q| < 1 := by exact_mod_cast h4
    have h6 : t = q := by rw [Int.abs_lt_one_iff] at h5; omega
    rw [ht, h6]
  · obtain ⟨q', hq', hlt⟩ := pow_closer hs h1
    have := hn _ (isFloat_int_mul q' e hq')
    linarith

/-- Rounding to nearest exists: to the nearest integer multiple of the unit in the last place. -/
theorem exists_nearest : ∃ rd : ℝ → ℝ, Nearest rd := by
  classical
  refine ⟨fun x => if x = 0 then 0 else round (x / (2 : ℝ) ^ (Int.log 2 |x| - 52)) * (2 : ℝ) ^ (Int.log 2 |x| - 52),
    fun x => ?_⟩
  by_cases hx : x = 0
  · subst hx
    simp only [if_true, sub_zero, abs_zero]
    exact ⟨⟨0, 0, by norm_num, by simp⟩, fun f _ => abs_nonneg f⟩
  simp only [hx, if_false]
  set e := Int.log 2 |x| - 52 with hedef
  have hxpos : 0 < |x| := abs_pos.mpr hx
  have he : 0 < (2 : ℝ) ^ e := zpow_pos two_pos e
  have lo : (2 : ℝ) ^ (52 + e) ≤ |x| := by
    have := Int.zpow_log_le_self (b := 2) (by norm_num) hxpos
    have e1 : 52 + e = Int.log 2 |x| := by omega
    rw [e1]; exact_mod_cast this
  have hi : |x| < (2 : ℝ) ^ (53 + e) := by
    have := Int.lt_zpow_succ_log_self (b := 2) (by norm_num) |x|
    have e1 : 53 + e = Int.log 2 |x| + 1 := by omega
    rw [e1]; exact_mod_cast this
  have scale : ∀ t : ℤ, |(t : ℝ) * (2 : ℝ) ^ e - x| = |t - x / (2 : ℝ) ^ e| * (2 : ℝ) ^ e := fun t => by
    rw [← abs_of_pos he, ← abs_mul, abs_of_pos he, sub_mul, div_mul_cancel₀ _ he.ne']
  have best : ∀ t : ℤ, |(round (x / (2 : ℝ) ^ e) : ℝ) * (2 : ℝ) ^ e - x| ≤ |(t : ℝ) * (2 : ℝ) ^ e - x| := fun t => by
    rw [scale, scale, abs_sub_comm, abs_sub_comm (t : ℝ)]
    exact mul_le_mul_of_nonneg_right (round_le _ _) he.le
  have hq : |round (x / (2 : ℝ) ^ e)| ≤ 2 ^ 53 := by
    have h1 : |x / (2 : ℝ) ^ e| < 2 ^ 53 := by
      rw [abs_div, abs_of_pos he, div_lt_iff₀ he]
      refine hi.trans_le (le_of_eq ?_)
      rw [zpow_add₀ two_ne_zero]; rfl
    have h2 := abs_sub_round (x / (2 : ℝ) ^ e)
    have h3 : |(round (x / (2 : ℝ) ^ e) : ℝ)| < 2 ^ 53 + 1 := by
      have e1 : (round (x / (2 : ℝ) ^ e) : ℝ) = x / (2 : ℝ) ^ e - (x / (2 : ℝ) ^ e - round (x / (2 : ℝ) ^ e)) := by ring
      rw [e1]
      refine (abs_sub _ _).trans_lt ?_
      linarith
    have h4 : |round (x / (2 : ℝ) ^ e)| < 2 ^ 53 + 1 := by exact_mod_cast h3
    omega
  refine ⟨isFloat_int_mul _ _ hq, fun f hf => ?_⟩
  rcases float_cases hf e with ⟨t, rfl⟩ | hs
  · exact best t
  · obtain ⟨q', -, hlt⟩ := pow_closer hs lo
    exact (best q').trans hlt.le

/-- Rounding to nearest has relative error at most `2 ^ -53`. -/
theorem Spec.Nearest.relErr {rd : ℝ → ℝ} (h : Nearest rd) : RelErr rd (1 / 2 ^ 53) := by
  refine ⟨by norm_num, fun x => ?_⟩
  by_cases hx : x = 0
  · subst hx
    rw [h.of_float ⟨0, 0, by norm_num, by simp⟩]; simp
  set e := Int.log 2 |x| - 52 with hedef
  have hxpos : 0 < |x| := abs_pos.mpr hx
  have he : 0 < (2 : ℝ) ^ e := zpow_pos two_pos e
  have lo : (2 : ℝ) ^ (52 + e) ≤ |x| := by
    have := Int.zpow_log_le_self (b := 2) (by norm_num) hxpos
    have e1 : 52 + e = Int.log 2 |x| := by omega
    rw [e1]; exact_mod_cast this
  have hi : |x| < (2 : ℝ) ^ (53 + e) := by
    have := Int.lt_zpow_succ_log_self (b := 2) (by norm_num) |x|
    have e1 : 53 + e = Int.log 2 |x| + 1 := by omega
    rw [e1]; exact_mod_cast this
  have h2 := abs_sub_round (x / (2 : ℝ) ^ e)
  have hq : |round (x / (2 : ℝ) ^ e)| ≤ 2 ^ 53 := by
    have h1 : |x / (2 : ℝ) ^ e| < 2 ^ 53 := by
      rw [abs_div, abs_of_pos he, div_lt_iff₀ he]
      refine hi.trans_le (le_of_eq ?_)
      rw [zpow_add₀ two_ne_zero]; rfl
    have h3 : |(round (x / (2 : ℝ) ^ e) : ℝ)| < 2 ^ 53 + 1 := by
      have e1 : (round (x / (2 : ℝ) ^ e) : ℝ) = x / (2 : ℝ) ^ e - (x / (2 : ℝ) ^ e - round (x / (2 : ℝ) ^ e)) := by ring
      rw [e1]
      refine (abs_sub _ _).trans_lt ?_
      linarith
    have h4 : |round (x / (2 : ℝ) ^ e)| < 2 ^ 53 + 1 := by exact_mod_cast h3
    omega
  refine ((h x).2 _ (isFloat_int_mul _ e hq)).trans ?_
  have e1 : |(round (x / (2 : ℝ) ^ e) : ℝ) * (2 : ℝ) ^ e - x| =
      |x / (2 : ℝ) ^ e - round (x / (2 : ℝ) ^ e)| * (2 : ℝ) ^ e := by
    rw [← abs_of_pos he, ← abs_mul, abs_of_pos he, sub_mul, div_mul_cancel₀ _ he.ne', abs_sub_comm]
  rw [e1]
  have e2 : (2 : ℝ) ^ (52 + e) = 2 ^ 52 * (2 : ℝ) ^ e := by rw [zpow_add₀ two_ne_zero]; rfl
  rw [e2] at lo
  calc _ ≤ 1 / 2 * (2 : ℝ) ^ e := mul_le_mul_of_nonneg_right h2 he.le
    _ = 1 / 2 ^ 53 * (2 ^ 52 * (2 : ℝ) ^ e) := by ring
    _ ≤ 1 / 2 ^ 53 * |x| := mul_le_mul_of_nonneg_left lo (by norm_num)

/-- The dot product of vectors with one entry has one possible result. -/
theorem FDot.one {rd : ℝ → ℝ} {f g : Fin 1 → ℝ} {v : ℝ} (h : FDot rd f g Finset.univ.val v) :
    v = rd (f 0 * g 0) := by
  have hs : (Finset.univ : Finset (Fin 1)).val = {0} := rfl
  rw [hs] at h
  generalize hS : ({0} : Multiset (Fin 1)) = S at h
  have hc : Multiset.card S = 1 := by rw [← hS]; rfl
  cases h with
  | nil => simp at hc
  | single i => rw [Fin.eq_zero i]
  | @fma s a i hs0 _ =>
    rw [Multiset.card_cons] at hc
    have := Multiset.card_pos.mpr hs0
    omega
  | @add s t a b hs0 ht0 _ _ =>
    rw [Multiset.card_add] at hc
    have := Multiset.card_pos.mpr hs0
    have := Multiset.card_pos.mpr ht0
    omega

end GPX
