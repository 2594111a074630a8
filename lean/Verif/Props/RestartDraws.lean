import Verif.Props.Restarts
import Verif.Props.Bijectors

/-!
# C59: which random keys the restarts use
-/

namespace GPX.Props
open GPX GPX.Spec

variable {K M C O W R : Type}

/-- Number of trainable parameters. -/
def numDraws (d : Dict Param) : ℕ := (d.leaves.filter (·.trainable)).length

/-- A minimiser that also writes down the states it is started from. -/
def logged (minim : W → ModelState K M C → Except Err (ModelState K M C × O) × W) :
    W × List (ModelState K M C) → ModelState K M C →
      Except Err (ModelState K M C × O) × (W × List (ModelState K M C)) :=
  fun w s => ((minim w.1 s).1, (minim w.1 s).2, w.2 ++ [s])

theorem tags_draw (nxt : R → R) (ps : List Param) (i : ℕ) (key : R) :
    ∀ t ∈ tags nxt ps i key, t.1.trainable = true →
      ∃ c < (ps.filter (·.trainable)).length, t.2.2 = nxt^[c + 1] key := by
  induction ps generalizing i key with
  | nil => simp [tags]
  | cons p ps ih =>
    intro t ht htr
    rw [tags] at ht
    split at ht
    · rename_i hp
      rcases List.mem_cons.mp ht with rfl | ht
      · exact ⟨0, by simp [hp], rfl⟩
      · obtain ⟨c, hc, e⟩ := ih _ _ t ht htr
        exact ⟨c + 1, by simpa [hp] using hc, by rw [e]; rfl⟩
    · rename_i hp
      rcases List.mem_cons.mp ht with rfl | ht
      · exact absurd htr hp
      · obtain ⟨c, hc, e⟩ := ih _ _ t ht htr
        exact ⟨c, by simpa [hp] using hc, e⟩

/-- The values drawn by one `randomize`. -/
theorem randomize_draws (nxt : R → R) (sample : PriorObj → R → Arr)
    (hsample : ∀ q k, (sample q k).shape = q.shape ∧ (sample q k).dtype = q.dtype)
    (s r : ModelState K M C) (key : R) (hok : ParamsOK s.params) (h : s.randomize nxt sample key [] = .ok r) :
    ParamsOK r.params ∧ numDraws r.params = numDraws s.params ∧
    ∀ p ∈ r.params.leaves, p.trainable = true → ∃ c < numDraws s.params,
      p.value = (sample p.prior (nxt^[c + 1] key)).map p.bijector.forward := by
  have hcopy := ModelState.update_ok s ({} : StateUpdate K M C) hok
  simp only [Option.getD_none, List.foldl_nil] at hcopy
  set st : ModelState K M C := ⟨s.kernel, s.meanFn, s.params.sortKeys,
    s.opts.map (fun kv => (kv.1, kv.2.norm))⟩ with hst
  have hleaves : st.params.treeLeaves = s.params.sortKeys.leaves := by
    show s.params.sortKeys.sortKeys.leaves = _
    rw [Dict.sortKeys_idem]
  set ps := s.params.sortKeys.leaves with hps
  have hokps : ∀ p ∈ ps, ParamOK p := fun p hp => hok p ((mem_leaves_sortKeys _ _).mp hp)
  have hnum : (ps.filter (·.trainable)).length = numDraws s.params :=
    ((Dict.treeLeaves_perm s.params).filter _).length_eq
  have hloop := randomizeLoop_forall₂ nxt sample ps 0 key
  set vs := (randomizeLoop nxt sample ps key).1 with hvs
  have htgf : (tags nxt ps 0 key).map Prod.fst = ps := tags_fst nxt ps 0 key
  have hvalid : List.Forall₂ (fun (p : Param) (v : Arr) => v.shape = p.prior.shape ∧
      v.dtype = p.prior.dtype) st.params.treeLeaves vs := by
    rw [hleaves, ← htgf, List.forall₂_map_left_iff]
    rw [List.forall₂_iff_zip] at hloop ⊢
    refine ⟨hloop.1, fun {t v} htv => ?_⟩
    have e := hloop.2 htv
    have hmem : t.1 ∈ ps := by
      rw [← htgf]; exact List.mem_map.mpr ⟨t, (List.of_mem_zip htv).1, rfl⟩
    split at e
    · rw [e]; exact hsample _ _
    · rw [e]; exact hokps _ hmem
  obtain ⟨d', h1, h2, h3, h4⟩ := rebuildParams_ok st.params vs hvalid
  have h2' : d'.map (fun _ => ()) = s.params.sortKeys.map (fun _ => ()) := by
    rw [h2]; show s.params.sortKeys.sortKeys.map _ = _; rw [Dict.sortKeys_idem]
  rw [hleaves] at h3
  have hupd := ModelState.update_ok st ({ params := some d', opts := [] } : StateUpdate K M C) h4
  simp only [Option.getD_none, Option.getD_some] at hupd
  have hsorted : d'.sortKeys = d' := Dict.sortKeys_of_sorted _
    (Dict.sorted_of_map_eq _ _ h2' (Dict.sorted_sortKeys _))
  rw [ModelState.randomize, hcopy] at h
  simp only [bind, Except.bind] at h
  rw [show (randomizeLoop nxt sample st.params.treeLeaves key).1 = vs by rw [hleaves], h1] at h
  simp only at h
  rw [hupd, hsorted, Except.ok.injEq] at h
  obtain rfl := h
  simp only
  have key1 : ∀ (ts : List (Param × ℕ × R)) (vs : List Arr), ts.length = vs.length →
      ((List.zipWith (fun (p : Param) v => (⟨v, p.trainable, p.bijector, p.prior⟩ : Param)) (ts.map Prod.fst) vs).filter
        (·.trainable)).length = ((ts.map Prod.fst).filter (·.trainable)).length := by
    intro ts
    induction ts with
    | nil => intro vs _; simp
    | cons t ts ih =>
      intro vs hl
      rcases vs with _ | ⟨v, vs⟩
      · simp at hl
      · have := ih vs (by simpa using hl)
        simp only [List.map_cons, List.zipWith_cons_cons, List.filter_cons]
        split <;> simp [this]
  refine ⟨h4, ?_, fun p hp ht => ?_⟩
  · rw [numDraws, h3, ← hnum]
    have := key1 (tags nxt ps 0 key) vs hloop.length_eq
    rwa [htgf] at this
  · rw [h3, ← htgf, List.zipWith_map_left] at hp
    obtain ⟨t, v, htv, rfl⟩ : ∃ t v, (t, v) ∈ (tags nxt ps 0 key).zip vs ∧
        p = ⟨v, t.1.trainable, t.1.bijector, t.1.prior⟩ := by
      rw [← List.map_uncurry_zip_eq_zipWith] at hp
      obtain ⟨⟨t, v⟩, h1, h2⟩ := List.mem_map.mp hp
      exact ⟨t, v, h1, h2.symm⟩
    obtain ⟨c, hc, e⟩ := tags_draw nxt ps 0 key t (List.of_mem_zip htv).1 ht
    have e2 := (List.forall₂_iff_zip.mp hloop).2 htv
    simp only at ht
    rw [if_pos ht, e] at e2
    exact ⟨c, by rw [← hnum]; exact hc, e2⟩

theorem loop_draws (nxt : R → R) (sample : PriorObj → R → Arr)
    (hsample : ∀ q k, (sample q k).shape = q.shape ∧ (sample q k).dtype = q.dtype)
    (minim : W → ModelState K M C → Except Err (ModelState K M C × O) × W)
    (hmin : ∀ w s s' o w', ParamsOK s.params → minim w s = (.ok (s', o), w') →
      ParamsOK s'.params ∧ numDraws s'.params = numDraws s.params)
    {L : Type} (loss : ModelState K M C → L) (n : ℕ) (key : R) (s : ModelState K M C) (hok : ParamsOK s.params)
    (w : W × List (ModelState K M C)) :
    ∃ starts, (restartLoop (logged minim) (fun k s => s.randomize nxt sample k []) loss nxt n (some key) s w).2.2 =
        w.2 ++ starts ∧
      ∀ i si, starts[i]? = some si → ∀ p ∈ si.params.leaves, p.trainable = true →
        ∃ c < numDraws s.params, p.value = (sample p.prior (nxt^[i + 1 + (c + 1)] key)).map p.bijector.forward := by
  induction n generalizing key s w with
  | zero => exact ⟨[], by simp [restartLoop], by simp⟩
  | succ n ih =>
    rw [restartLoop]
    rcases e0 : s.randomize nxt sample (nxt key) [] with e | s0
    · exact ⟨[], by simp, by simp⟩
    obtain ⟨h1, h2, h3⟩ := randomize_draws nxt sample hsample s s0 (nxt key) hok e0
    have hfirst : ∀ p ∈ s0.params.leaves, p.trainable = true →
        ∃ c < numDraws s.params, p.value = (sample p.prior (nxt^[0 + 1 + (c + 1)] key)).map p.bijector.forward := by
      intro p hp ht
      obtain ⟨c, hc, e⟩ := h3 p hp ht
      refine ⟨c, hc, ?_⟩
      rw [e, Nat.zero_add, Nat.add_comm 1 (c + 1), Function.iterate_succ_apply nxt (c + 1)]
    simp only [logged]
    rcases e1 : minim w.1 s0 with ⟨e | ⟨s1, o⟩, w'⟩
    · refine ⟨[s0], by simp, fun i si hi => ?_⟩
      rcases i with _ | i
      · simp only [List.getElem?_cons_zero, Option.some.injEq] at hi
        subst hi
        exact hfirst
      · simp at hi
    · obtain ⟨g1, g2⟩ := hmin _ _ _ _ _ h1 e1
      obtain ⟨starts, k1, k2⟩ := ih (nxt key) s1 g1 (w', w.2 ++ [s0])
      refine ⟨s0 :: starts, ?_, fun i si hi => ?_⟩
      · simp only
        rcases hr : restartLoop (logged minim) (fun k s => s.randomize nxt sample k []) loss nxt n (some (nxt key)) s1
          (w', w.2 ++ [s0]) with ⟨_ | _, w''⟩ <;> rw [hr] at k1 <;> simp only at k1 ⊢ <;> rw [k1] <;> simp
      · rcases i with _ | i
        · simp only [List.getElem?_cons_zero, Option.some.injEq] at hi
          subst hi
          exact hfirst
        · intro p hp ht
          obtain ⟨c, hc, e⟩ := k2 i si (by simpa using hi) p hp ht
          refine ⟨c, by rw [← h2, ← g2]; exact hc, ?_⟩
          rw [e, show i + 1 + 1 + (c + 1) = (i + 1 + (c + 1)) + 1 by omega,
            Function.iterate_succ_apply nxt (i + 1 + (c + 1))]

/-- **C59**, what holds: with any minimiser that keeps the number of trainable parameters `t`, every starting value of
the `i`-th restart is drawn with one of `t` keys, and the keys of two restarts at least `t` apart are different. In
particular the claim holds for models with one trainable parameter. Missing: restarts less than `t` apart, where it
fails (`C59_false`). -/
theorem C59_apart_partial (nxt : R → R) (sample : PriorObj → R → Arr)
    (hsample : ∀ q k, (sample q k).shape = q.shape ∧ (sample q k).dtype = q.dtype)
    (minim : W → ModelState K M C → Except Err (ModelState K M C × O) × W)
    (hmin : ∀ w s s' o w', ParamsOK s.params → minim w s = (.ok (s', o), w') →
      ParamsOK s'.params ∧ numDraws s'.params = numDraws s.params)
    (loss : ModelState K M C → ℝ) (key : R) (hgen : ∀ a b, nxt^[a] key = nxt^[b] key → a = b) (n : ℕ)
    (s : ModelState K M C) (hok : ParamsOK s.params) (rh : Bool) (w : W) :
    let starts := (randomizedMinimization (logged minim) (fun k s => s.randomize nxt sample k []) loss nxt (some key) s n
      rh (w, [])).2.2
    ∃ keys : ℕ → List R,
      (∀ i, (keys i).length = numDraws s.params ∧ (keys i).Nodup) ∧
      (∀ i, 1 ≤ i → ∀ si, starts[i]? = some si → ∀ p ∈ si.params.leaves, p.trainable = true →
        ∃ k ∈ keys i, p.value = (sample p.prior k).map p.bijector.forward) ∧
      ∀ i j, i + numDraws s.params ≤ j → ∀ k ∈ keys i, k ∉ keys j := by
  intro starts
  refine ⟨fun i => (List.range (numDraws s.params)).map fun c => nxt^[i + (c + 1)] key, fun i => ⟨by simp, ?_⟩, ?_, ?_⟩
  · refine (List.nodup_map_iff_inj_on List.nodup_range).mpr fun a _ b _ hab => ?_
    have := hgen _ _ hab
    omega
  · have hst : starts = (randomizedMinimization (logged minim) (fun k s => s.randomize nxt sample k []) loss nxt
      (some key) s n rh (w, [])).2.2 := rfl
    intro i hi si hs p hp ht
    unfold randomizedMinimization at hst
    simp only [checkRandomKey, Option.isNone_some, Bool.false_eq_true, and_false, if_false] at hst
    simp only [logged] at hst
    rcases e1 : minim w s with ⟨e | ⟨s1, o⟩, w'⟩
    · rw [e1] at hst
      rw [hst] at hs
      rcases i with _ | i
      · omega
      · simp at hs
    · rw [e1] at hst
      obtain ⟨g1, g2⟩ := hmin _ _ _ _ _ hok e1
      obtain ⟨st, k1, k2⟩ := loop_draws nxt sample hsample minim hmin loss n key s1 g1 (w', [] ++ [s])
      have hst' : starts = [s] ++ st := by
        rw [hst]
        simp only
        rcases hr : restartLoop (logged minim) (fun k s => s.randomize nxt sample k []) loss nxt n (some key) s1
          (w', [] ++ [s]) with ⟨_ | _, w''⟩ <;> rw [hr] at k1 <;> simp only at k1 ⊢ <;> rw [k1] <;> simp
      rw [hst'] at hs
      rcases i with _ | i
      · omega
      · obtain ⟨c, hc, e⟩ := k2 i si (by simpa using hs) p hp ht
        exact ⟨_, List.mem_map.mpr ⟨c, List.mem_range.mpr (by rw [← g2]; exact hc), rfl⟩, e⟩
  · intro i j hij k hk hk'
    obtain ⟨a, ha, e⟩ := List.mem_map.mp hk
    obtain ⟨b, hb, e'⟩ := List.mem_map.mp hk'
    have := hgen _ _ (e.trans e'.symm)
    have := List.mem_range.mp ha
    omega

/-- Non-vacuity: two trainable parameters, a minimiser that changes nothing, two restarts; the starting states are the
given one and two fresh ones. -/
example : numDraws (exTwo 0 0).params = 2 ∧ ParamsOK (exTwo 0 0).params ∧
    (∀ a b, Nat.succ^[a] 0 = Nat.succ^[b] 0 → a = b) ∧
    (randomizedMinimization (logged fun (w : Unit) s => (.ok (s, ()), w))
      (fun k s => s.randomize Nat.succ (fun q k => ⟨q.shape, q.dtype, [(k:ℝ)]⟩) k []) (fun _ => 0) Nat.succ (some 0)
      (exTwo 0 0) 2 true ((), [])).2.2 = [exTwo 0 0, exTwo 2 3, exTwo 3 4] := by
  refine ⟨rfl, exTwo_ok 0 0, fun a b h => by simpa [Nat.succ_iterate] using h, ?_⟩
  have e1 := exTwo_randomize 0 0 1
  have e2 := exTwo_randomize ((1+1 : ℕ):ℝ) ((1+2 : ℕ):ℝ) 2
  simp only [randomizedMinimization, checkRandomKey, restartLoop, Option.isNone_some, logged,
    Bool.false_eq_true, and_false, if_false, Nat.succ_eq_add_one, Nat.zero_add] at e1 e2 ⊢
  norm_num at e1 e2 ⊢
  rw [e1]
  simp only
  rw [e2]

end GPX.Props
