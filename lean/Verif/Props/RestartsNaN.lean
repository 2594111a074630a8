import Verif.Props.Restarts
import Verif.Lemmas.Optim

/-! # C111: random restarts when some runs fail

A run whose loss cannot be evaluated has the loss `nan` (in JAX a failed Cholesky factorisation does not
raise, it yields `nan`). -/

namespace GPX.Props
open GPX Spec
noncomputable section
variable {S O W R : Type}

/-- The runs of `randomized_minimization`: run `i` starts from `start i` and ends in `fin i` with optimiser
result `opt i`; the first starts from the given state, each later one from a randomisation of the previous
result. -/
def Runs (minim : W → S → Except Err (S × O) × W) (randomize : R → S → Except Err S) (nxt : R → R)
    (key : Option R) (s : S) (n : ℕ) (w w' : W) (fin : ℕ → S) (opt : ℕ → O) : Prop :=
  ∃ (start : ℕ → S) (ws : ℕ → W), start 0 = s ∧ ws 0 = w ∧ ws (n+1) = w' ∧
    (∀ i ≤ n, minim (ws i) (start i) = (.ok (fin i, opt i), ws (i+1))) ∧
    (∀ i < n, ∃ k, key = some k ∧ randomize (nxt^[i+1] k) (fin i) = .ok (start (i+1)))

theorem FVal.not_lt_of_nan_or_lt {a b : FVal} (h : b = FVal.nan ∨ a.lt b) : ¬ b.lt a := by
  rcases h with rfl | h
  · intro h; exact h
  · intro h'; exact FVal.lt_irrefl _ (FVal.lt_trans h h')

theorem FVal.not_eq_of_nan_or_lt {a b : FVal} (h : b = FVal.nan ∨ a.lt b) : ¬ b.eq a := by
  rcases h with rfl | h
  · intro h; exact h
  · rcases a with _ | a <;> rcases b with _ | b <;> simp_all only [FVal.lt, FVal.eq]
    exact h.ne'

/-- The object held by `min` after `i` elements. -/
def MinInv (v : ℕ → FVal) (i : ℕ) (m : ℕ × FVal) : Prop :=
  m.1 < i ∧ m.2 = v m.1 ∧ (v 0 = FVal.nan → m.1 = 0) ∧
    (v 0 ≠ FVal.nan → m.2 ≠ FVal.nan ∧ (∀ j < i, ¬ (v j).lt m.2)) ∧
    ∀ j < m.1, v j = FVal.nan ∨ m.2.lt (v j)

theorem minLoop_inv (v : ℕ → FVal) (k i : ℕ) (m : ℕ × FVal) (h : MinInv v i m) :
    MinInv v (i + k) (pyMinLoopF m i ((List.range k).map (fun t => v (i + t)))) := by
  induction k generalizing i m with
  | zero => exact h
  | succ k ih =>
    rw [List.range_succ_eq_map, List.map_cons, List.map_map, pyMinLoopF,
      show i + (k + 1) = (i + 1) + k by omega]
    have e : (fun t => v (i + t)) ∘ Nat.succ = fun t => v (i + 1 + t) := by
      funext t; simp only [Function.comp]; congr 1; omega
    rw [e]
    refine ih (i+1) _ ?_
    obtain ⟨h1, h2, h3, h4, h5⟩ := h
    simp only [Nat.add_zero]
    by_cases ht : (v i).lt m.2
    · rw [if_pos ht]
      have h0 : v 0 ≠ FVal.nan := by
        intro h0
        rw [h2, h3 h0, h0] at ht
        rcases hv : v i with _ | a <;> rw [hv] at ht <;> exact ht
      refine ⟨by simp, rfl, fun hn => absurd hn h0, fun _ => ⟨?_, fun j hj hlt => ?_⟩, fun j hj => ?_⟩
      · rcases hv : v i with _ | a
        · rw [hv] at ht; exact absurd ht id
        · simp [FVal.nan]
      · rcases Nat.lt_succ_iff_lt_or_eq.mp hj with hj | rfl
        · exact (h4 h0).2 j hj (FVal.lt_trans hlt ht)
        · exact FVal.lt_irrefl _ hlt
      · exact FVal.nan_or_lt ht ((h4 h0).2 j hj)
    · rw [if_neg ht]
      refine ⟨by omega, h2, h3, fun h0 => ⟨(h4 h0).1, fun j hj => ?_⟩, h5⟩
      rcases Nat.lt_succ_iff_lt_or_eq.mp hj with hj | rfl
      · exact (h4 h0).2 j hj
      · exact ht

theorem pyIndexF_eq (v : ℕ → FVal) (m : ℕ × FVal) (k i : ℕ) (h1 : i ≤ m.1) (h2 : m.1 < i + k)
    (h : ∀ j < m.1, v j = FVal.nan ∨ m.2.lt (v j)) :
    pyIndexF m i ((List.range k).map (fun t => v (i + t))) = .ok m.1 := by
  induction k generalizing i with
  | zero => omega
  | succ k ih =>
    rw [List.range_succ_eq_map, List.map_cons, List.map_map, pyIndexF]
    have e : (fun t => v (i + t)) ∘ Nat.succ = fun t => v (i + 1 + t) := by
      funext t; simp only [Function.comp]; congr 1; omega
    rw [e, Nat.add_zero]
    by_cases hi : i = m.1
    · rw [if_pos (.inl hi), hi]
    · rw [if_neg (by
        rintro (h' | h')
        · exact hi h'
        · exact FVal.not_eq_of_nan_or_lt (h i (by omega)) h')]
      exact ih (i+1) (by omega) (by omega)

theorem pickBestF_range (fin : ℕ → S) (loss : S → FVal) (opt : ℕ → O) (n : ℕ) (rh : Bool) :
    ∃ best ≤ n,
      (loss (fin 0) = FVal.nan → best = 0) ∧
      (loss (fin 0) ≠ FVal.nan → loss (fin best) ≠ FVal.nan ∧
        ∀ j ≤ n, ¬ (loss (fin j)).lt (loss (fin best))) ∧
      (∀ j < best, loss (fin j) = FVal.nan ∨ (loss (fin best)).lt (loss (fin j))) ∧
      pickBestF ((List.range (n+1)).map (fun i => (fin i, loss (fin i), opt i))) rh =
        .ok (fin best, opt best, if rh then some ((List.range (n+1)).map fin,
          (List.range (n+1)).map (fun i => loss (fin i))) else none) := by
  set v : ℕ → FVal := fun i => loss (fin i) with hv
  obtain ⟨m, hm, h1, h2, h3, h4, h5⟩ : ∃ m, pyMinF ((List.range (n+1)).map v) = .ok m ∧
      MinInv v (n+1) m := by
    refine ⟨pyMinLoopF (0, v 0) 1 ((List.range n).map (fun t => v (1 + t))), ?_, ?_⟩
    · rw [List.range_succ_eq_map, List.map_cons, List.map_map, pyMinF]
      congr 3
      funext t
      simp only [Function.comp]
      congr 1
      omega
    · rw [Nat.add_comm]
      refine minLoop_inv v n 1 (0, v 0) ⟨by simp, rfl, fun _ => rfl, fun h => ⟨h, fun j hj => ?_⟩, by simp⟩
      obtain rfl : j = 0 := by omega
      exact FVal.lt_irrefl _
  have hidx : pyIndexF m 0 ((List.range (n+1)).map v) = .ok m.1 := by
    have := pyIndexF_eq v m (n+1) 0 (by omega) (by omega) h5
    simpa using this
  refine ⟨m.1, by omega, h3, fun h0 => ?_, fun j hj => ?_, ?_⟩
  · have := h4 h0
    rw [h2] at this
    exact ⟨this.1, fun j hj => this.2 j (by omega)⟩
  · have := h5 j hj
    rwa [h2] at this
  · have e2 : ((List.range (n+1)).map (fun i => (fin i, v i, opt i))).map
        (fun r => r.2.1) = (List.range (n+1)).map v := by rw [List.map_map]; rfl
    have e1 : ((List.range (n+1)).map (fun i => (fin i, v i, opt i))).map
        (fun r => r.1) = (List.range (n+1)).map fin := by rw [List.map_map]; rfl
    have e3 : ((List.range (n+1)).map (fun i => (fin i, v i, opt i))).map
        (fun r => r.2.2) = (List.range (n+1)).map opt := by rw [List.map_map]; rfl
    show pickBestF ((List.range (n+1)).map (fun i => (fin i, v i, opt i))) rh = _
    simp only [pickBestF, e1, e2, e3, hm, hidx, bind, Except.bind, pyGet, List.getElem?_map,
      List.getElem?_range h1, Option.map_some, pure, Except.pure]

/-- C111, full statement: whenever `randomized_minimization` returns and one of its runs has a loss that is a
number, it returns a run whose loss is a number, and no run has a smaller loss. -/
def C111_full : Prop :=
  ∀ (S O W R : Type) (minim : W → S → Except Err (S × O) × W) (randomize : R → S → Except Err S)
    (loss : S → FVal) (nxt : R → R) (key : Option R) (s : S) (n : ℕ) (rh : Bool) (w w' : W)
    (res : S) (optres : O) (hist : Option (List S × List FVal)),
    randomizedMinimizationF minim randomize loss nxt key s n rh w = (.ok (res, optres, hist), w') →
    ∃ (fin : ℕ → S) (opt : ℕ → O), Runs minim randomize nxt key s n w w' fin opt ∧
      ((∃ i ≤ n, loss (fin i) ≠ FVal.nan) →
        ∃ best ≤ n, res = fin best ∧ optres = opt best ∧ loss res ≠ FVal.nan ∧
          ∀ i ≤ n, ¬ (loss (fin i)).lt (loss res))

/-- C111 in all cases: the runs, and which one is returned. When the first loss is `nan`, the first run is
returned whatever the other runs gave; otherwise the first of the runs with the smallest loss, `nan` losses
of later runs being ignored. The history lists all runs in order. -/
theorem C111_restarts (minim : W → S → Except Err (S × O) × W) (randomize : R → S → Except Err S)
    (loss : S → FVal) (nxt : R → R) (key : Option R) (s : S) (n : ℕ) (rh : Bool) (w w' : W)
    (res : S) (optres : O) (hist : Option (List S × List FVal))
    (h : randomizedMinimizationF minim randomize loss nxt key s n rh w = (.ok (res, optres, hist), w')) :
    ∃ (fin : ℕ → S) (opt : ℕ → O), Runs minim randomize nxt key s n w w' fin opt ∧
      (loss (fin 0) = FVal.nan → res = fin 0 ∧ optres = opt 0) ∧
      (loss (fin 0) ≠ FVal.nan → ∃ best ≤ n, res = fin best ∧ optres = opt best ∧
        loss res ≠ FVal.nan ∧ (∀ i ≤ n, ¬ (loss (fin i)).lt (loss res)) ∧
        ∀ i < best, loss (fin i) = FVal.nan ∨ (loss res).lt (loss (fin i))) ∧
      hist = if rh then some ((List.range (n+1)).map fin,
          (List.range (n+1)).map (fun i => loss (fin i))) else none := by
  unfold randomizedMinimizationF at h
  rcases hk : checkRandomKey key n with e | u
  · rw [hk] at h; simp at h
  rw [hk] at h
  simp only at h
  rcases hm : minim w s with ⟨⟨e⟩ | ⟨s1, o1⟩, w1⟩
  · rw [hm] at h; simp at h
  rw [hm] at h; simp only at h
  rcases hl : restartLoop minim randomize loss nxt n key s1 w1 with ⟨⟨e⟩ | ⟨rs⟩, w2⟩
  · rw [hl] at h; simp at h
  rw [hl] at h
  simp only [Prod.mk.injEq] at h
  obtain ⟨start, fin, opt, ws, h1, h2, h3, h4, h5, h6⟩ :=
    restartLoop_ok minim randomize loss nxt n key s1 o1 w1 w2 rs hl
  obtain ⟨best, hb, b1, b2, b3, b4⟩ := pickBestF_range fin loss opt n rh
  have hruns : (s1, loss s1, o1) :: rs =
      (List.range (n+1)).map (fun i => (fin i, loss (fin i), opt i)) := by
    rw [List.range_succ_eq_map, List.map_cons, List.map_map, h6, h1, h2]; rfl
  rw [hruns, b4] at h
  simp only [Except.ok.injEq, Prod.mk.injEq] at h
  obtain ⟨⟨rfl, rfl, rfl⟩, rfl⟩ := h
  refine ⟨fin, opt, ⟨fun i => match i with | 0 => s | i+1 => start (i+1),
    fun i => match i with | 0 => w | i+1 => ws i, rfl, rfl, h4, ?_, ?_⟩, ?_, ?_, rfl⟩
  · intro i hi
    rcases i with _ | i
    · simp only [hm, h1, h2, h3]
    · obtain ⟨_, _, _, hh⟩ := h5 i (by omega)
      exact hh
  · intro i hi
    obtain ⟨k, hk1, hk2, -⟩ := h5 i hi
    exact ⟨k, hk1, hk2⟩
  · intro h0
    rw [b1 h0]
    exact ⟨rfl, rfl⟩
  · intro h0
    exact ⟨best, hb, rfl, rfl, (b2 h0).1, (b2 h0).2, b3⟩

/-- C111, the proved part: the full statement when the loss of the first run is a number. -/
theorem C111_partial (minim : W → S → Except Err (S × O) × W) (randomize : R → S → Except Err S)
    (loss : S → FVal) (nxt : R → R) (key : Option R) (s : S) (n : ℕ) (rh : Bool) (w w' w1 : W)
    (s1 : S) (o1 : O) (res : S) (optres : O) (hist : Option (List S × List FVal))
    (h1 : minim w s = (.ok (s1, o1), w1)) (hs : loss s1 ≠ FVal.nan)
    (h : randomizedMinimizationF minim randomize loss nxt key s n rh w = (.ok (res, optres, hist), w')) :
    ∃ (fin : ℕ → S) (opt : ℕ → O), Runs minim randomize nxt key s n w w' fin opt ∧
      ∃ best ≤ n, res = fin best ∧ optres = opt best ∧ loss res ≠ FVal.nan ∧
        ∀ i ≤ n, ¬ (loss (fin i)).lt (loss res) := by
  obtain ⟨fin, opt, hr, -, h2, -⟩ := C111_restarts minim randomize loss nxt key s n rh w w' res optres hist h
  have h0 : fin 0 = s1 := by
    obtain ⟨start, ws, a1, a2, -, a4, -⟩ := hr
    have := a4 0 (Nat.zero_le _)
    rw [a1, a2, h1] at this
    simp only [Prod.mk.injEq, Except.ok.injEq] at this
    exact this.1.1.symm
  obtain ⟨best, hb, e1, e2, e3, e4, -⟩ := h2 (by rw [h0]; exact hs)
  exact ⟨fin, opt, hr, best, hb, e1, e2, e3, e4⟩

/-- A minimiser that counts its calls; the state is the number of calls. -/
def exCount : ℕ → ℕ → Except Err (ℕ × Unit) × ℕ := fun w _ => (.ok (w, ()), w + 1)

/-- C111 is false of the code: the first run gives `nan`, the restart succeeds with loss 0, and the failed
first run is returned. -/
theorem C111_false : ¬ C111_full := by
  intro hfull
  have h := hfull ℕ Unit ℕ Unit exCount (fun _ s => .ok s)
    (fun s => if s = 0 then FVal.nan else FVal.fin 0) id (some ()) 7 1 false 0 2 0 () none (by
      simp [randomizedMinimizationF, checkRandomKey, exCount, restartLoop, pickBestF, pyMinF, pyMinLoopF,
        pyIndexF, pyGet, FVal.lt, FVal.nan, FVal.fin, bind, Except.bind, pure, Except.pure])
  obtain ⟨fin, opt, ⟨start, ws, a1, a2, a3, a4, a5⟩, hb⟩ := h
  have e0 := a4 0 (by omega)
  have e1 := a4 1 (by omega)
  simp only [exCount, Prod.mk.injEq, Except.ok.injEq] at e0 e1
  obtain ⟨best, -, -, -, hne, -⟩ := hb ⟨1, le_refl _, by
    rw [← e1.1.1, ← e0.2, a2]
    simp [FVal.fin, FVal.nan]⟩
  exact hne (by simp)

theorem restartLoop_map {L L' : Type} (minim : W → S → Except Err (S × O) × W)
    (randomize : R → S → Except Err S) (loss : S → L) (g : L → L') (nxt : R → R) (n : ℕ) (key : Option R)
    (s : S) (w w' : W) (rs : List (S × L × O))
    (h : restartLoop minim randomize loss nxt n key s w = (.ok rs, w')) :
    restartLoop minim randomize (fun s => g (loss s)) nxt n key s w =
      (.ok (rs.map (fun r => (r.1, g r.2.1, r.2.2))), w') := by
  induction n generalizing key s w rs with
  | zero =>
    simp only [restartLoop, Prod.mk.injEq, Except.ok.injEq] at h
    obtain ⟨rfl, rfl⟩ := h
    rfl
  | succ n ih =>
    rcases key with _ | k
    · simp [restartLoop] at h
    rw [restartLoop] at h ⊢
    simp only at h ⊢
    rcases hr : randomize (nxt k) s with e | s0
    · rw [hr] at h; simp at h
    rw [hr] at h; simp only at h
    rcases hm : minim w s0 with ⟨⟨e⟩ | ⟨s1, o1⟩, w1⟩
    · rw [hm] at h; simp at h
    rw [hm] at h; simp only at h
    rcases hl : restartLoop minim randomize loss nxt n (some (nxt k)) s1 w1 with ⟨⟨e⟩ | ⟨rs'⟩, w2⟩
    · rw [hl] at h; simp at h
    rw [hl] at h
    simp only [Prod.mk.injEq, Except.ok.injEq] at h
    obtain ⟨rfl, rfl⟩ := h
    simp only [hm, ih _ _ _ _ hl, List.map_cons]

/-- C111: on losses that are all finite the floating-point selection is the selection of C15. -/
theorem C111_finite (minim : W → S → Except Err (S × O) × W) (randomize : R → S → Except Err S)
    (loss : S → ℝ) (nxt : R → R) (key : Option R) (s : S) (n : ℕ) (rh : Bool) (w w' : W)
    (res : S) (optres : O) (hist : Option (List S × List ℝ))
    (h : randomizedMinimization minim randomize loss nxt key s n rh w = (.ok (res, optres, hist), w')) :
    randomizedMinimizationF minim randomize (fun s => FVal.fin (loss s)) nxt key s n rh w =
      (.ok (res, optres, hist.map (fun h => (h.1, h.2.map FVal.fin))), w') := by
  unfold randomizedMinimization at h
  unfold randomizedMinimizationF
  rcases hk : checkRandomKey key n with e | u
  · rw [hk] at h; simp at h
  rw [hk] at h
  simp only at h
  rcases hm : minim w s with ⟨⟨e⟩ | ⟨s1, o1⟩, w1⟩
  · rw [hm] at h; simp at h
  rw [hm] at h; simp only at h
  rcases hl : restartLoop minim randomize loss nxt n key s1 w1 with ⟨⟨e⟩ | ⟨rs⟩, w2⟩
  · rw [hl] at h; simp at h
  rw [hl] at h
  simp only [Prod.mk.injEq] at h
  obtain ⟨h, rfl⟩ := h
  simp only [restartLoop_map minim randomize loss FVal.fin nxt n key s1 w1 w2 rs hl]
  obtain ⟨start, fin, opt, ws, h1, h2, h3, h4, h5, h6⟩ :=
    restartLoop_ok minim randomize loss nxt n key s1 o1 w1 w2 rs hl
  have hruns : (s1, loss s1, o1) :: rs =
      (List.range (n+1)).map (fun i => (fin i, loss (fin i), opt i)) := by
    rw [List.range_succ_eq_map, List.map_cons, List.map_map, h6, h1, h2]; rfl
  have hruns' : (s1, FVal.fin (loss s1), o1) :: rs.map (fun r => (r.1, FVal.fin r.2.1, r.2.2)) =
      (List.range (n+1)).map (fun i => (fin i, (fun s => FVal.fin (loss s)) (fin i), opt i)) := by
    have := congrArg (List.map (fun r : S × ℝ × O => (r.1, FVal.fin r.2.1, r.2.2))) hruns
    rw [List.map_cons, List.map_map] at this
    exact this
  obtain ⟨b, hb, b1, b2, b3⟩ := pickBest_range fin loss opt n rh
  obtain ⟨c, hc, -, c2, c3, c4⟩ := pickBestF_range fin (fun s => FVal.fin (loss s)) opt n rh
  rw [hruns, b3] at h
  rw [hruns', c4]
  simp only [Except.ok.injEq, Prod.mk.injEq] at h
  obtain ⟨rfl, rfl, rfl⟩ := h
  have hbc : c = b := by
    rcases lt_trichotomy c b with hlt | rfl | hlt
    · have := (c2 (by simp [FVal.fin, FVal.nan])).2 b hb
      exact absurd (by simpa [FVal.fin, FVal.lt] using b2 c hlt) this
    · rfl
    · rcases c3 b hlt with h | h
      · simp [FVal.fin, FVal.nan] at h
      · have := b1 c hc
        simp only [FVal.fin, FVal.lt, EReal.coe_lt_coe_iff] at h
        exact absurd h (not_lt.mpr this)
  subst hbc
  cases rh <;> simp [Function.comp_def]

/-- Non-vacuity: with the first loss finite and the second `nan`, the restarts return the third, best run. -/
example : randomizedMinimizationF exCount (fun (_ : Unit) s => .ok s)
    (fun s => if s = 0 then FVal.fin 5 else if s = 1 then FVal.nan else FVal.fin 3) id (some ()) 7 2 false 0 =
      (.ok (2, (), none), 3) := by
  simp [randomizedMinimizationF, checkRandomKey, exCount, restartLoop, pickBestF, pyMinF, pyMinLoopF,
    pyIndexF, pyGet, FVal.lt, FVal.eq, FVal.nan, FVal.fin, bind, Except.bind, pure, Except.pure]
  norm_num

end
end GPX.Props
