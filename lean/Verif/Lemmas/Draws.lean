import Verif.Spec.Draws
import Verif.Lemmas.RPC
import Mathlib.MeasureTheory.Integral.IntervalIntegral.Basic
import Mathlib.Algebra.Order.BigOperators.Group.Finset

/-! # Averages over an ideal generator -/

namespace GPX
open Spec

variable {n N r : ℕ}

/-- `Iic` sums as sums over a range. -/
theorem sum_Iic_eq (w : Fin n → ℝ) (s : Fin n) :
    ∑ b ∈ Finset.Iic s, w b = ∑ i ∈ Finset.range (s.val + 1), if h : i < n then w ⟨i, h⟩ else 0 := by
  symm
  refine Finset.sum_bij' (fun i hi => ⟨i, by have := Finset.mem_range.1 hi; omega⟩) (fun b _ => b.val) ?_ ?_ ?_ ?_ ?_
  · intro i hi
    have := Finset.mem_range.1 hi
    simp only [Finset.mem_Iic, Fin.le_def]
    omega
  · intro b hb
    have := Fin.le_def.1 (Finset.mem_Iic.1 hb)
    exact Finset.mem_range.2 (by omega)
  · intro i hi; rfl
  · intro b hb; rfl
  · intro i hi
    have := Finset.mem_range.1 hi
    rw [dif_pos (by omega)]

/-- The sampler picks `s` exactly on the `s`-th interval of the cumulative weights. -/
theorem invCdf_eq [NeZero n] {w : Fin n → ℝ} (hw : ∀ s, 0 ≤ w s) (s : Fin n) {u : ℝ}
    (h1 : (∑ i ∈ Finset.range s.val, if h : i < n then w ⟨i, h⟩ else 0) < u)
    (h2 : u ≤ ∑ i ∈ Finset.range (s.val + 1), if h : i < n then w ⟨i, h⟩ else 0) : invCdf w u = s := by
  have hmem : s ∈ Finset.univ.filter fun s : Fin n => u ≤ ∑ b ∈ Finset.Iic s, w b := by
    rw [Finset.mem_filter, sum_Iic_eq]
    exact ⟨Finset.mem_univ _, h2⟩
  unfold invCdf
  rw [dif_pos ⟨s, hmem⟩]
  refine le_antisymm (Finset.min'_le _ _ hmem) ?_
  refine Finset.le_min' _ _ _ fun t ht => ?_
  rw [Finset.mem_filter, sum_Iic_eq] at ht
  by_contra hlt
  have hts : t.val + 1 ≤ s.val := Fin.lt_def.1 (not_le.1 hlt)
  have hle : (∑ i ∈ Finset.range (t.val + 1), if h : i < n then w ⟨i, h⟩ else 0) ≤
      ∑ i ∈ Finset.range s.val, if h : i < n then w ⟨i, h⟩ else 0 :=
    Finset.sum_le_sum_of_subset_of_nonneg (Finset.range_mono hts) fun i _ _ => by
      split_ifs with h
      · exact hw _
      · exact le_rfl
  linarith [ht.2]

/-- The average over a uniform number of any function of the sampled index. -/
theorem integral_invCdf [NeZero n] {w : Fin n → ℝ} (hw : ∀ s, 0 ≤ w s) (h1 : ∑ s, w s = 1) (G : Fin n → ℝ) :
    ∫ u in (0 : ℝ)..1, G (invCdf w u) = ∑ s, w s * G s := by
  let W : ℕ → ℝ := fun i => if h : i < n then w ⟨i, h⟩ else 0
  let c : ℕ → ℝ := fun k => ∑ i ∈ Finset.range k, W i
  have hW : ∀ i, 0 ≤ W i := fun i => by
    show 0 ≤ (if h : i < n then w ⟨i, h⟩ else 0)
    split_ifs with h
    · exact hw _
    · exact le_rfl
  have c0 : c 0 = 0 := Finset.sum_range_zero _
  have cS : ∀ k, c (k + 1) = c k + W k := fun k => Finset.sum_range_succ _ _
  have cle : ∀ k, c k ≤ c (k + 1) := fun k => by rw [cS]; linarith [hW k]
  have cn : c n = 1 := by
    rw [← h1]
    show ∑ i ∈ Finset.range n, W i = _
    rw [Finset.sum_range]
    refine Finset.sum_congr rfl fun i _ => ?_
    show (if h : i.val < n then w ⟨i.val, h⟩ else 0) = w i
    rw [dif_pos i.isLt]
  have hcongr : ∀ k (hk : k < n), Set.EqOn (fun u => G (invCdf w u)) (fun _ => G ⟨k, hk⟩)
      (Set.uIoc (c k) (c (k + 1))) := by
    intro k hk u hu
    rw [Set.uIoc_of_le (cle k)] at hu
    have := invCdf_eq hw ⟨k, hk⟩ hu.1 hu.2
    simp only [this]
  have hint : ∀ k, k < n → IntervalIntegrable (fun u => G (invCdf w u)) MeasureTheory.volume (c k) (c (k + 1)) := by
    intro k hk
    refine (intervalIntegrable_const (c := G ⟨k, hk⟩)).congr ?_
    exact fun u hu => ((hcongr k hk) hu).symm
  have hsum := intervalIntegral.sum_integral_adjacent_intervals (f := fun u => G (invCdf w u))
    (μ := MeasureTheory.volume) (a := c) (n := n) hint
  rw [c0, cn] at hsum
  rw [← hsum, Finset.sum_range]
  refine Finset.sum_congr rfl fun k _ => ?_
  rw [intervalIntegral.integral_congr_ae (g := fun _ => G k)
    (Filter.Eventually.of_forall fun u hu => hcongr k.val k.isLt hu)]
  rw [intervalIntegral.integral_const, cS]
  have : W k.val = w k := by
    show (if h : k.val < n then w ⟨k.val, h⟩ else 0) = w k
    rw [dif_pos k.isLt]
  rw [this]
  simp

/-! ## One step -/

/-- The sum of the squares of all entries. -/
theorem sq_entry_le {R : Mat N N} (hR : R.PosSemidef) (s a : Fin N) : R s a ^ 2 ≤ R s s * R a a := by
  have h := psd_cauchy hR s (fun b => if b = a then 1 else 0)
  simpa using h

/-- The expected decrease of the trace in one step of the code, jitter included. -/
theorem rpc_step_mean {R : Mat N N} (hR : R.PosSemidef) {T : ℝ} (hT : T = ∑ s, R s s) (hpos : 0 < T)
    {e : ℝ} (he : 0 < e) :
    ∑ s, R s s / T * (T - ∑ a, (R s a / (Real.sqrt (R s s) + e)) ^ 2) ≤
      T - (∑ s, ∑ a, R s a ^ 2) / T + 2 * e * Real.sqrt (N * T) := by
  have hd : ∀ s, 0 ≤ R s s := fun s => hR.diag_nonneg
  -- every row
  have hrow : ∀ s, (∑ a, R s a ^ 2) - 2 * e * (T * Real.sqrt (R s s)) ≤
      R s s * ∑ a, (R s a / (Real.sqrt (R s s) + e)) ^ 2 := by
    intro s
    set u := Real.sqrt (R s s) with hu
    have hu0 : 0 ≤ u := Real.sqrt_nonneg _
    have hu2 : u ^ 2 = R s s := Real.sq_sqrt (hd s)
    have hue : 0 < u + e := by linarith
    have e1 : ∑ a, (R s a / (u + e)) ^ 2 = (∑ a, R s a ^ 2) / (u + e) ^ 2 := by
      rw [Finset.sum_div]
      exact Finset.sum_congr rfl fun a _ => by rw [div_pow]
    rw [e1]
    have hX : ∑ a, R s a ^ 2 ≤ u ^ 2 * T := by
      rw [hT, Finset.mul_sum, hu2]
      exact Finset.sum_le_sum fun a _ => sq_entry_le hR s a
    have hX0 : 0 ≤ ∑ a, R s a ^ 2 := Finset.sum_nonneg fun a _ => sq_nonneg _
    rw [← hu2, mul_div_assoc', le_div_iff₀ (by positivity)]
    set X := ∑ a, R s a ^ 2
    -- (X - 2 e T u) (u + e)² ≤ u² X
    have h1 : X * (2 * e * u + e ^ 2) ≤ 2 * e * T * u * (u + e) ^ 2 := by
      have : X * (2 * e * u + e ^ 2) ≤ u ^ 2 * T * (2 * e * u + e ^ 2) :=
        mul_le_mul_of_nonneg_right hX (by positivity)
      have h2 : u ^ 2 * T * (2 * e * u + e ^ 2) ≤ 2 * e * T * u * (u + e) ^ 2 := by
        have : 0 ≤ T * e * u * (3 * u * e + 2 * e ^ 2) := by positivity
        nlinarith
      linarith
    nlinarith
  have hsum : (∑ s, ∑ a, R s a ^ 2) - 2 * e * (T * ∑ s, Real.sqrt (R s s)) ≤
      ∑ s, R s s * ∑ a, (R s a / (Real.sqrt (R s s) + e)) ^ 2 := by
    rw [Finset.mul_sum, Finset.mul_sum, ← Finset.sum_sub_distrib]
    exact Finset.sum_le_sum fun s _ => hrow s
  have hcs : ∑ s, Real.sqrt (R s s) ≤ Real.sqrt (N * T) := by
    refine Real.le_sqrt_of_sq_le ?_
    have := Finset.sum_mul_sq_le_sq_mul_sq Finset.univ (fun _ : Fin N => (1 : ℝ)) fun s => Real.sqrt (R s s)
    simp only [one_mul, one_pow, Finset.sum_const, Finset.card_univ, Fintype.card_fin, nsmul_eq_mul, mul_one] at this
    rw [hT]
    refine this.trans (le_of_eq ?_)
    congr 1
    exact Finset.sum_congr rfl fun s _ => Real.sq_sqrt (hd s)
  have hexp : ∑ s, R s s / T * (T - ∑ a, (R s a / (Real.sqrt (R s s) + e)) ^ 2) =
      T - (∑ s, R s s * ∑ a, (R s a / (Real.sqrt (R s s) + e)) ^ 2) / T := by
    simp only [mul_sub, Finset.sum_sub_distrib]
    congr 1
    · rw [← Finset.sum_mul, ← Finset.sum_div, ← hT, div_self hpos.ne', one_mul]
    · rw [Finset.sum_div]
      exact Finset.sum_congr rfl fun s _ => by ring
  rw [hexp]
  have h3 : (∑ s, ∑ a, R s a ^ 2) / T - 2 * e * Real.sqrt (N * T) ≤
      (∑ s, R s s * ∑ a, (R s a / (Real.sqrt (R s s) + e)) ^ 2) / T := by
    rw [le_div_iff₀ hpos, sub_mul, div_mul_cancel₀ _ hpos.ne']
    have : 2 * e * (T * ∑ s, Real.sqrt (R s s)) ≤ 2 * e * Real.sqrt (N * T) * T := by
      have := mul_le_mul_of_nonneg_left hcs (show 0 ≤ 2 * e * T by positivity)
      linarith
    linarith
  linarith

/-- The part of a matrix inside a subspace, against the sum of the squares of its entries. -/
theorem trace_proj_sq {R P : Mat N N} {m : ℕ} (hsym : P.transpose = P) (hidem : P * P = P)
    (htr : P.trace ≤ m) : (∑ s, ∑ a, P s a * R s a) ^ 2 ≤ m * ∑ s, ∑ a, R s a ^ 2 := by
  have hcs := Finset.sum_mul_sq_le_sq_mul_sq (Finset.univ : Finset (Fin N × Fin N))
    (fun z => P z.1 z.2) fun z => R z.1 z.2
  simp only [Fintype.sum_prod_type] at hcs
  have hP : ∑ s, ∑ a, P s a ^ 2 = P.trace := by
    conv_rhs => rw [← hidem]
    rw [Matrix.trace]
    refine Finset.sum_congr rfl fun s _ => ?_
    rw [Matrix.diag_apply, Matrix.mul_apply]
    refine Finset.sum_congr rfl fun a _ => ?_
    rw [sq, show P a s = P s a from congrFun (congrFun hsym s) a]
  rw [hP] at hcs
  exact hcs.trans (mul_le_mul_of_nonneg_right htr
    (Finset.sum_nonneg fun s _ => Finset.sum_nonneg fun a _ => sq_nonneg _))

/-- The quadratic decrease of the trace, linearised. -/
theorem rank_decrease {T τ θ S : ℝ} {m : ℕ} (hm : 0 < m) (hT : 0 < T) (hθ : 0 < θ) (hτ : 0 ≤ τ) (hS : 0 ≤ S)
    (h : τ ≤ T → (T - τ) ^ 2 ≤ m * S) :
    4 * θ / ((1 + θ) ^ 2 * m) * (T - τ - θ * τ) ≤ S / T := by
  have hm' : (0 : ℝ) < m := Nat.cast_pos.2 hm
  by_cases hle : τ ≤ T
  · have h1 := h hle
    rw [le_div_iff₀ hT, div_mul_eq_mul_div, div_mul_eq_mul_div, div_le_iff₀ (by positivity)]
    have h2 : 4 * θ * (T - τ - θ * τ) * T ≤ (1 + θ) ^ 2 * (T - τ) ^ 2 := by
      nlinarith [sq_nonneg ((1 - θ) * (T - τ) - 2 * θ * τ)]
    have h3 : (1 + θ) ^ 2 * (T - τ) ^ 2 ≤ (1 + θ) ^ 2 * (m * S) :=
      mul_le_mul_of_nonneg_left h1 (by positivity)
    linarith
  · have h1 : 4 * θ / ((1 + θ) ^ 2 * m) * (T - τ - θ * τ) ≤ 0 :=
      mul_nonpos_of_nonneg_of_nonpos (by positivity) (by nlinarith)
    exact h1.trans (div_nonneg hS hT.le)

end GPX
