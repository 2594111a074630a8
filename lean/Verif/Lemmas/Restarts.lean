import Verif.Model.Restarts
import Mathlib.Logic.Function.Iterate

/-! # Helper lemmas for the restart loop -/

namespace GPX
variable {S O W R L : Type}

theorem foldl_min_le (xs : List ℝ) (x : ℝ) :
    let m := xs.foldl (fun m y => if y < m then y else m) x
    m ≤ x ∧ (∀ y ∈ xs, m ≤ y) ∧ (m = x ∨ m ∈ xs) := by
  induction xs generalizing x with
  | nil => simp
  | cons y ys ih =>
    simp only [List.foldl_cons]
    obtain ⟨h1, h2, h3⟩ := ih (if y < x then y else x)
    have hle : (if y < x then y else x) ≤ x ∧ (if y < x then y else x) ≤ y := by
      split
      · exact ⟨le_of_lt ‹_›, le_refl _⟩
      · exact ⟨le_refl _, not_lt.mp ‹_›⟩
    refine ⟨h1.trans hle.1, ?_, ?_⟩
    · intro z hz
      rcases List.mem_cons.mp hz with rfl | hz
      · exact h1.trans hle.2
      · exact h2 z hz
    · rcases h3 with h3 | h3
      · rw [h3]
        split
        · exact Or.inr List.mem_cons_self
        · exact Or.inl rfl
      · exact Or.inr (List.mem_cons_of_mem _ h3)

theorem pyIndex_ok (v : ℝ) (l : List ℝ) (h : v ∈ l) :
    ∃ i, pyIndex v l = .ok i ∧ l[i]? = some v ∧ ∀ j < i, ∀ y, l[j]? = some y → y ≠ v := by
  induction l with
  | nil => simp at h
  | cons x xs ih =>
    by_cases hx : x = v
    · exact ⟨0, by simp [pyIndex, hx], by simp [hx], by intro j hj; omega⟩
    · obtain ⟨i, h1, h2, h3⟩ := ih (by
        rcases List.mem_cons.mp h with rfl | h
        · exact absurd rfl hx
        · exact h)
      refine ⟨i + 1, by simp [pyIndex, hx, h1, bind, Except.bind, pure, Except.pure], by simpa using h2, ?_⟩
      intro j hj y hy
      rcases j with _ | j
      · simp at hy; rwa [← hy]
      · exact h3 j (by omega) y (by simpa using hy)

/-- `pickBest` on a list of runs given by functions of the index. -/
theorem pickBest_range (fin : ℕ → S) (loss : S → ℝ) (opt : ℕ → O) (n : ℕ) (rh : Bool) :
    ∃ best ≤ n, (∀ i ≤ n, loss (fin best) ≤ loss (fin i)) ∧
      (∀ i < best, loss (fin best) < loss (fin i)) ∧
      pickBest ((List.range (n+1)).map (fun i => (fin i, loss (fin i), opt i))) rh =
        .ok (fin best, opt best, if rh then some ((List.range (n+1)).map fin,
          (List.range (n+1)).map (fun i => loss (fin i))) else none) := by
  set l := (List.range (n+1)).map (fun i => loss (fin i)) with hl
  have hm : ∃ m, pyMin l = .ok m ∧ (∀ y ∈ l, m ≤ y) ∧ m ∈ l := by
    rw [hl]
    rcases hc : (List.range (n+1)).map (fun i => loss (fin i)) with _ | ⟨x, xs⟩
    · simp at hc
    · obtain ⟨h1, h2, h3⟩ := foldl_min_le xs x
      refine ⟨_, rfl, ?_, ?_⟩
      · intro y hy
        rcases List.mem_cons.mp hy with rfl | hy
        · exact h1
        · exact h2 y hy
      · rcases h3 with h3 | h3
        · rw [h3]; exact List.mem_cons_self
        · exact List.mem_cons_of_mem _ h3
  obtain ⟨m, hm1, hm2, hm3⟩ := hm
  obtain ⟨i, hi1, hi2, hi3⟩ := pyIndex_ok m l hm3
  have hin : i < n + 1 := by
    have := (List.getElem?_eq_some_iff.mp hi2).1
    simpa [hl] using this
  have him : loss (fin i) = m := by
    rw [hl, List.getElem?_map, List.getElem?_range hin] at hi2
    simpa using hi2
  have hmem : ∀ j ≤ n, loss (fin j) ∈ l := fun j hj =>
    List.mem_map.mpr ⟨j, List.mem_range.mpr (by omega), rfl⟩
  refine ⟨i, by omega, fun j hj => him ▸ hm2 _ (hmem j hj), ?_, ?_⟩
  · intro j hj
    refine lt_of_le_of_ne (him ▸ hm2 _ (hmem j (by omega))) ?_
    rw [him]
    refine fun h => hi3 j hj (loss (fin j)) ?_ h.symm
    rw [hl, List.getElem?_map, List.getElem?_range (by omega)]; rfl
  · have e2 : ((List.range (n+1)).map (fun i => (fin i, loss (fin i), opt i))).map
        (fun r => r.2.1) = l := by rw [hl, List.map_map]; rfl
    have e1 : ((List.range (n+1)).map (fun i => (fin i, loss (fin i), opt i))).map
        (fun r => r.1) = (List.range (n+1)).map fin := by rw [List.map_map]; rfl
    have e3 : ((List.range (n+1)).map (fun i => (fin i, loss (fin i), opt i))).map
        (fun r => r.2.2) = (List.range (n+1)).map opt := by rw [List.map_map]; rfl
    simp only [pickBest, e1, e2, e3, hm1, hi1, bind, Except.bind, pyGet, List.getElem?_map,
      List.getElem?_range hin, Option.map_some, pure, Except.pure]

/-- Every successful execution of the restart loop, as a chain. -/
theorem restartLoop_ok (minim : W → S → Except Err (S × O) × W) (randomize : R → S → Except Err S)
    (loss : S → L) (nxt : R → R) (n : ℕ) (key : Option R) (s : S) (o : O) (w w' : W)
    (rs : List (S × L × O)) (h : restartLoop minim randomize loss nxt n key s w = (.ok rs, w')) :
    ∃ (start fin : ℕ → S) (opt : ℕ → O) (ws : ℕ → W), fin 0 = s ∧ opt 0 = o ∧ ws 0 = w ∧ ws n = w' ∧
      (∀ i < n, ∃ k, key = some k ∧ randomize (nxt^[i+1] k) (fin i) = .ok (start (i+1)) ∧
        minim (ws i) (start (i+1)) = (.ok (fin (i+1), opt (i+1)), ws (i+1))) ∧
      rs = (List.range n).map (fun i => (fin (i+1), loss (fin (i+1)), opt (i+1))) := by
  induction n generalizing key s o w rs with
  | zero =>
    simp only [restartLoop, Prod.mk.injEq, Except.ok.injEq] at h
    exact ⟨fun _ => s, fun _ => s, fun _ => o, fun _ => w, rfl, rfl, rfl, h.2,
      fun i hi => absurd hi (by omega), by simp [← h.1]⟩
  | succ n ih =>
    rcases key with _ | k
    · simp [restartLoop] at h
    rw [restartLoop] at h
    simp only at h
    rcases hr : randomize (nxt k) s with e | s0
    · rw [hr] at h; simp at h
    rw [hr] at h; simp only at h
    rcases hm : minim w s0 with ⟨⟨e⟩ | ⟨s1, o1⟩, w1⟩
    · rw [hm] at h; simp at h
    rw [hm] at h; simp only at h
    rcases hl : restartLoop minim randomize loss nxt n (some (nxt k)) s1 w1 with ⟨⟨e⟩ | ⟨rs'⟩, w2⟩
    · rw [hl] at h; simp at h
    rw [hl] at h
    simp only [Prod.mk.injEq, Except.ok.injEq] at h
    obtain ⟨start, fin, opt, ws, h1, h2, h3, h4, h5, h6⟩ := ih _ _ o1 _ _ (by rw [hl, h.2])
    refine ⟨fun i => match i with | 0 => s | 1 => s0 | i+2 => start (i+1),
      fun i => match i with | 0 => s | i+1 => fin i,
      fun i => match i with | 0 => o | i+1 => opt i,
      fun i => match i with | 0 => w | i+1 => ws i, rfl, rfl, rfl, h4, ?_, ?_⟩
    · intro i hi
      refine ⟨k, rfl, ?_⟩
      rcases i with _ | i
      · simp only [Function.iterate_one, zero_add]
        exact ⟨hr, by rw [hm, h1, h2, h3]⟩
      · obtain ⟨k', hk', ha, hb⟩ := h5 i (by omega)
        simp only [Option.some.injEq] at hk'
        subst hk'
        refine ⟨?_, hb⟩
        rw [← ha, ← Function.iterate_succ_apply nxt]
    · rw [← h.1, List.range_succ_eq_map, List.map_cons, List.map_map, h6]
      simp only [h1, h2]
      rfl

/-- The loop succeeds when the minimiser and the randomisation do. -/
theorem restartLoop_total (minim : W → S → Except Err (S × O) × W) (randomize : R → S → Except Err S)
    (loss : S → L) (nxt : R → R) (n : ℕ) (key : Option R) (s : S) (w : W) (P : S → Prop) (hs : P s)
    (hm : ∀ w s, P s → ∃ s' o w', minim w s = (.ok (s', o), w') ∧ P s')
    (hr : ∀ k s, P s → ∃ s', randomize k s = .ok s' ∧ P s') (hk : 0 < n → key.isSome) :
    ∃ rs w', restartLoop minim randomize loss nxt n key s w = (.ok rs, w') := by
  induction n generalizing key s w with
  | zero => exact ⟨[], w, rfl⟩
  | succ n ih =>
    rcases key with _ | k
    · simp at hk
    obtain ⟨s0, h0, p0⟩ := hr (nxt k) s hs
    obtain ⟨s1, o, w1, h1, p1⟩ := hm w s0 p0
    obtain ⟨rs, w2, h2⟩ := ih (some (nxt k)) s1 w1 p1 (fun _ => rfl)
    exact ⟨(s1, loss s1, o) :: rs, w2, by simp only [restartLoop, h0, h1, h2]⟩

end GPX
