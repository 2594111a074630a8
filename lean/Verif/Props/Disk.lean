import Verif.Lemmas.Disk

/-! # C116, C117, C118: files, file names and crashes -/

namespace GPX.Props
open GPX Spec
noncomputable section
variable {K M C : Type}

/-! ### C116: checkpoints survive a crash -/

/-- Everything a run of a checkpointer over the vectors `xs` needs in order not to raise. -/
def RunOK (s : ModelState K M C) (chkFile : List Char) (xs : List (List ℝ)) : Prop :=
  (∀ c ∈ chkFile, c ≠ '{' ∧ c ≠ '}') ∧ Saveable s ∧ ParamsOK s.params ∧
  (∀ p ∈ s.params.leaves, sensible p.bijector) ∧ ∀ x ∈ xs, x.length = numTrainable s.params

/-- C116, full statement: optimisations with checkpoints are run one after another with the same file name
(each with a new checkpointer), and the process dies at any moment. If some checkpoint had been completed,
there is a checkpoint that loads. -/
def C116_full : Prop :=
  ∀ (s : ModelState Unit Unit Unit) (chkFile : List Char) (runs : List (List (List ℝ))),
    (∀ xs ∈ runs, RunOK s chkFile xs) →
    ∀ ops, runs.mapM (checkpointsOps s chkFile 0) = .ok ops →
    ∀ seen, seen <+: ops.flatten → (∃ f c, DiskOp.closed f c ∈ seen) →
      ∃ n base r, chkName chkFile n = .ok base ∧ s.loadFrom (runOps seen []) (savezName base) = .ok r

theorem exState_saveable : Saveable exState := by
  refine ⟨by simp [exState, exParams, Dict.KeysDistinct, Dict.keys], ?_, ?_, ?_, ?_, ?_⟩
  · simp [exState, exParams, WellKeyed, goodKey]
  · simp [exState, exParams, NoShortShadow, leafKeys]
  · exact ⟨.leaf "lengthscale".toList exLength (.leaf "a".toList exVec .nil),
      by simp [exState, exParams, Dict.get?]⟩
  · simp [exState]
  · intro kv hkv
    simp only [exState, List.mem_cons, List.not_mem_nil, or_false] at hkv
    rcases hkv with rfl | rfl <;> simp [goodKey]

theorem exRun_ok : RunOK exState "run.npz".toList [[0, 1, 2]] := by
  refine ⟨by decide, exState_saveable, exParams_ok, ?_, ?_⟩
  · intro p hp
    simp only [exState, exParams, Dict.leaves, List.mem_cons, List.append_nil, List.not_mem_nil, or_false] at hp
    rcases hp with rfl | rfl | rfl
    · trivial
    · trivial
    · show (0:ℝ) < 5; norm_num
  · intro x hx
    simp only [List.mem_singleton] at hx
    subst hx
    decide

/-- C116 is false of the code: every new checkpointer counts from zero, so the second run overwrites the only
checkpoint of the first, and a crash while it does so leaves nothing that loads. -/
theorem C116_false : ¬ C116_full := by
  intro h
  obtain ⟨hf, hs, hok, hb, hx⟩ := exRun_ok
  obtain ⟨u, hu⟩ := proposeOn_total exState exState [0, 1, 2] hok (hx _ (by simp))
  obtain ⟨c, hc⟩ : ∃ c, u.save = .ok c := by
    obtain ⟨a, -⟩ := proposeOn_saveable exState u _ hs hok hb hu
    exact save_ok_of_node u (lookup_single.mpr a.2.2.2.1)
  have hname : chkName "run.npz".toList 0 = .ok "run.000.npz".toList := by decide +kernel
  have hsz : savezName "run.000.npz".toList = "run.000.npz".toList := by decide +kernel
  have hone : checkpointsOps exState "run.npz".toList 0 [[0, 1, 2]] =
      .ok [.opened "run.000.npz".toList, .closed "run.000.npz".toList c] := by
    unfold proposeOn at hu
    simp only [bind, Except.bind] at hu
    rcases h1 : unravelForward exState.params [0, 1, 2] with e | d
    · rw [h1] at hu; cases hu
    rw [h1] at hu
    simp only at hu
    simp only [checkpointsOps, checkpointOps, ModelState.saveOps, bind, Except.bind, pure, Except.pure, h1, hu,
      hname, hc, savezOps, hsz, List.append_nil]
  obtain ⟨n, base, r, h1, h2⟩ := h exState "run.npz".toList [[[0, 1, 2]], [[0, 1, 2]]]
    (by
      intro xs hxs
      have : xs = [[0, 1, 2]] := by
        simp only [List.mem_cons, List.not_mem_nil, or_false, or_self] at hxs; exact hxs
      rw [this]
      exact exRun_ok)
    [[.opened "run.000.npz".toList, .closed "run.000.npz".toList c],
      [.opened "run.000.npz".toList, .closed "run.000.npz".toList c]]
    (by simp only [List.mapM_cons, List.mapM_nil, hone, bind, Except.bind, pure, Except.pure])
    [.opened "run.000.npz".toList, .closed "run.000.npz".toList c, .opened "run.000.npz".toList]
    ⟨[.closed "run.000.npz".toList c], rfl⟩ ⟨"run.000.npz".toList, c, by simp⟩
  have hdisk : runOps [.opened "run.000.npz".toList, .closed "run.000.npz".toList c,
      .opened "run.000.npz".toList] [] = [("run.000.npz".toList, .torn)] := rfl
  rw [hdisk] at h2
  unfold ModelState.loadFrom at h2
  by_cases e : savezName base = "run.000.npz".toList
  · rw [e] at h2
    cases h2
  · have : assocGet (savezName base) ([("run.000.npz".toList, .torn)] : Disk) = none := by
      apply assocGet_none
      simpa only [List.map_cons, List.map_nil, List.mem_singleton] using e
    rw [this] at h2
    cases h2

/-- C116, for one run: the process dies after any initial part `seen` of the disk operations of a run of
a checkpointer (two per call). There are pairwise different names, those documented in C44, and the number `i`
of completed calls, such that every checkpoint before the `i`-th loads into the model and gives the state
rebuilt from its vector; the `i`-th is unreadable if the crash happened while it was written; everything else
on the disk is as before the run. Missing for the full statement: later runs with the same file name. -/
theorem C116_crash_partial (s : ModelState K M C) (chkFile : List Char) (xs : List (List ℝ))
    (h : RunOK s chkFile xs) (d : Disk) :
    ∃ (ops : List DiskOp) (name : ℕ → List Char), checkpointsOps s chkFile 0 xs = .ok ops ∧
      ops.length = 2 * xs.length ∧ (∀ m n, name m = name n → m = n) ∧
      (∀ n, ∃ base, chkName chkFile n = .ok base ∧ name n = savezName base) ∧
      ∀ seen, seen <+: ops → ∃ i, (seen.length = 2 * i ∨ seen.length = 2 * i + 1) ∧
        (∀ j (_ : j < i) (hj : j < xs.length), ∃ params u r,
          unravelForward s.params xs[j] = .ok params ∧ (s.update { params := some params }).1 = .ok u ∧
          s.loadFrom (runOps seen d) (name j) = .ok r ∧ viewOf r = viewOf u) ∧
        (seen.length = 2 * i + 1 → s.loadFrom (runOps seen d) (name i) = .error .unreadable) ∧
        ∀ k, (∀ j < i, k ≠ name j) → (seen.length = 2 * i + 1 → k ≠ name i) →
          assocGet k (runOps seen d) = assocGet k d := by
  obtain ⟨hf, hs, hok, hb, hx⟩ := h
  obtain ⟨ops, h1, h2, h3⟩ := checkpointsOps_ok s chkFile hf xs (by
    intro x hxm
    obtain ⟨u, hu⟩ := proposeOn_total s s x hok (hx x hxm)
    obtain ⟨a, -⟩ := proposeOn_saveable s u _ hs hok hb hu
    obtain ⟨c, hc⟩ := save_ok_of_node u (lookup_single.mpr a.2.2.2.1)
    exact ⟨u, c, hu, hc⟩) 0
  refine ⟨ops, chkFileName chkFile, h1, h2, fun m n e => savezName_inj chkFile m n e,
    fun n => ⟨_, chkName_free chkFile hf n, rfl⟩, ?_⟩
  intro seen hseen
  obtain ⟨i, hi, hl1, hl2, g1, g2, g3⟩ := h3 seen hseen d
  refine ⟨i, by omega, ?_, ?_, ?_⟩
  · intro j hji hj
    obtain ⟨u, c, e1, e2, e3⟩ := g1 j hj hji
    obtain ⟨q1, q2, q3, q4, q5⟩ := proposeOn_saveable s u _ hs hok hb e1
    obtain ⟨file, r, r1, r2, r3⟩ := load_restores u s q1 hs.1 q2 q3 (by
      intro k
      rw [q4, assocGet_map]
      cases assocGet k s.opts <;> simp [norm_idem]) q5
    rw [e2] at r1
    cases r1
    unfold proposeOn at e1
    simp only [bind, Except.bind] at e1
    rcases hu : unravelForward s.params xs[j] with e | p
    · rw [hu] at e1; cases e1
    rw [hu] at e1
    rw [Nat.zero_add] at e3
    exact ⟨p, u, r, rfl, e1, by rw [ModelState.loadFrom, e3]; simp only [r2], r3⟩
  · intro hlen
    rw [Nat.zero_add, if_neg (by omega)] at g3
    rw [ModelState.loadFrom, g3]
  · intro k hk1 hk2
    by_cases e : k = chkFileName chkFile i
    · rcases Nat.lt_or_ge (2 * i) seen.length with hlt | hge
      · exact absurd e (hk2 (by omega))
      · rw [e]
        rw [Nat.zero_add, if_pos (by omega)] at g3
        exact g3
    · refine g2 k (fun j hj => ?_)
      rw [Nat.zero_add]
      rcases Nat.lt_or_ge j i with hlt | hge
      · exact hk1 j hlt
      · rw [show j = i by omega]; exact e

/-- Non-vacuity: the hypotheses hold for the example state. -/
example : RunOK exState "run.npz".toList [[0, 1, 2], [0, 0, 0]] := by
  obtain ⟨a, b, c, d, e⟩ := exRun_ok
  refine ⟨a, b, c, d, ?_⟩
  intro x hx
  simp only [List.mem_cons, List.not_mem_nil, or_false] at hx
  rcases hx with rfl | rfl <;> decide

/-! ### C117: the name given to `save` can be given to `load` -/

/-- A model state that can be saved and consists of valid parameters. -/
def StateOK (s : ModelState K M C) : Prop := Saveable s ∧ ParamsOK s.params

/-- C117, full statement: after `save(file)`, `load(file)` gives the model back, whatever the name. -/
def C117_full : Prop :=
  ∀ (s : ModelState Unit Unit Unit) (d : Disk) (file : Key), StateOK s →
    ∃ ops r, s.saveOps file = .ok ops ∧ s.loadFrom (runOps ops d) file = .ok r ∧ viewOf r = viewOf s

theorem save_self (s : ModelState K M C) (hs : StateOK s) :
    ∃ c r, s.save = .ok c ∧ s.load c = .ok r ∧ viewOf r = viewOf s := by
  refine load_restores s s hs.1 hs.1.1 rfl rfl (fun _ => rfl) ?_
  intro path
  rcases g : lookup path s.params with _ | a | _ <;> simp only
  exact ⟨trivial, trivial, trivial, hs.2 a (lookup_mem path _ a g)⟩

/-- C117 is false of the code: `np.savez` appends `.npz` to a name without it, `np.load` does not, so that
`save("model")` followed by `load("model")` finds no file. -/
theorem C117_false : ¬ C117_full := by
  intro h
  obtain ⟨ops, r, h1, h2, -⟩ := h exState [] "model".toList ⟨exState_saveable, exParams_ok⟩
  obtain ⟨c, -, hc, -⟩ := save_self exState ⟨exState_saveable, exParams_ok⟩
  have hsz : savezName "model".toList = "model.npz".toList := by decide +kernel
  simp only [ModelState.saveOps, hc, bind, Except.bind, pure, Except.pure, savezOps, hsz, Except.ok.injEq] at h1
  subst h1
  have hdisk : runOps [.opened "model.npz".toList, .closed "model.npz".toList c] [] =
      [("model.npz".toList, .whole c)] := rfl
  rw [hdisk, ModelState.loadFrom] at h2
  have : assocGet "model".toList ([("model.npz".toList, .whole c)] : Disk) = none := by
    apply assocGet_none
    simp only [List.map_cons, List.map_nil, List.mem_singleton]
    decide
  rw [this] at h2
  cases h2

/-- C117. `save(file)` succeeds, and afterwards the model is read back, with all its parameters and options,
from `file` if that name ends in `.npz`, and from `file` with `.npz` appended otherwise; nothing else on the
disk changes. Missing for the full statement: `load(file)` itself in the second case, where it still gives what
it gave before the save. -/
theorem C117_save_load_partial (s : ModelState K M C) (d : Disk) (file : Key) (hs : StateOK s) :
    ∃ ops r, s.saveOps file = .ok ops ∧ viewOf r = viewOf s ∧
      (".npz".toList <:+ file → s.loadFrom (runOps ops d) file = .ok r ∧
        ∀ k, k ≠ file → assocGet k (runOps ops d) = assocGet k d) ∧
      (¬ ".npz".toList <:+ file → s.loadFrom (runOps ops d) (file ++ ".npz".toList) = .ok r ∧
        s.loadFrom (runOps ops d) file = s.loadFrom d file ∧
        ∀ k, k ≠ file ++ ".npz".toList → assocGet k (runOps ops d) = assocGet k d) := by
  obtain ⟨c, r, hc, hl, hv⟩ := save_self s hs
  have hget : ∀ k, assocGet k (runOps (savezOps file c) d) =
      if k = savezName file then some (.whole c) else assocGet k d := by
    intro k
    rw [savezOps, runOps_cons, runOps_cons, runOps_nil, assocGet_run_closed, assocGet_run_opened]
    by_cases h : k = savezName file <;> simp [h]
  refine ⟨savezOps file c, r, by simp only [ModelState.saveOps, hc, bind, Except.bind, pure, Except.pure], hv,
    ?_, ?_⟩
  · intro hsuf
    have e : savezName file = file := by unfold savezName; rw [if_pos hsuf]
    rw [e] at hget
    refine ⟨?_, fun k hk => by rw [hget, if_neg hk]⟩
    rw [ModelState.loadFrom, hget, if_pos rfl]
    simp only [hl]
  · intro hsuf
    have e : savezName file = file ++ ".npz".toList := by unfold savezName; rw [if_neg hsuf]
    rw [e] at hget
    refine ⟨?_, ?_, fun k hk => by rw [hget, if_neg hk]⟩
    · rw [ModelState.loadFrom, hget, if_pos rfl]
      simp only [hl]
    · have hne : file ≠ file ++ ".npz".toList := by
        intro h
        have := congrArg List.length h
        rw [List.length_append] at this
        have h4 : ".npz".toList.length = 4 := by decide
        omega
      rw [ModelState.loadFrom, ModelState.loadFrom, hget, if_neg hne]

/-- Non-vacuity: a state and names of both kinds. -/
example : StateOK exState ∧ ".npz".toList <:+ "model.npz".toList ∧ ¬ ".npz".toList <:+ "model".toList :=
  ⟨⟨exState_saveable, exParams_ok⟩, by decide +kernel, by decide +kernel⟩

/-! ### C118: a crash while saving over an existing model -/

/-- C118, full statement: the file holds a model; another one is saved under the same name and the process dies
at any moment. The file then holds one of the two. -/
def C118_full : Prop :=
  ∀ (s t : ModelState Unit Unit Unit) (d : Disk) (file : Key), StateOK s → ".npz".toList <:+ file →
    (∃ r, t.loadFrom d file = .ok r) → ∀ ops, s.saveOps file = .ok ops → ∀ seen, seen <+: ops →
      t.loadFrom (runOps seen d) file = t.loadFrom d file ∨
      t.loadFrom (runOps seen d) file = t.loadFrom (runOps ops d) file

/-- C118 is false of the code: the old content is thrown away when the file is opened. -/
theorem C118_false : ¬ C118_full := by
  intro h
  obtain ⟨c, r, hc, hl, -⟩ := save_self exState ⟨exState_saveable, exParams_ok⟩
  have hsz : savezName "model.npz".toList = "model.npz".toList := by decide +kernel
  have hold : exState.loadFrom [("model.npz".toList, .whole c)] "model.npz".toList = .ok r := by
    have : assocGet "model.npz".toList ([("model.npz".toList, .whole c)] : Disk) = some (.whole c) := rfl
    rw [ModelState.loadFrom, this]
    simp only [hl]
  have hops : exState.saveOps "model.npz".toList =
      .ok [.opened "model.npz".toList, .closed "model.npz".toList c] := by
    simp only [ModelState.saveOps, hc, bind, Except.bind, pure, Except.pure, savezOps, hsz]
  have hnew : exState.loadFrom (runOps [.opened "model.npz".toList, .closed "model.npz".toList c]
      [("model.npz".toList, .whole c)]) "model.npz".toList = .ok r := hold
  have hmid : exState.loadFrom (runOps [.opened "model.npz".toList] [("model.npz".toList, .whole c)])
      "model.npz".toList = .error .unreadable := rfl
  rcases h exState exState [("model.npz".toList, .whole c)] "model.npz".toList
    ⟨exState_saveable, exParams_ok⟩ (by decide +kernel) ⟨r, hold⟩ _ hops [.opened "model.npz".toList]
    ⟨[.closed "model.npz".toList c], rfl⟩ with e | e
  · rw [hmid, hold] at e; cases e
  · rw [hmid, hnew] at e; cases e

/-- C118. At every crash point of `save(file)` all other files are as they were, and the file written is as it
was, or holds the complete new model, or is refused by `load`: a half-written model is never loaded. Missing for
the full statement: the third case. -/
theorem C118_crash_partial (s t : ModelState K M C) (d : Disk) (file : Key) (ops seen : List DiskOp)
    (hops : s.saveOps file = .ok ops) (hseen : seen <+: ops) :
    (∀ k, k ≠ savezName file → t.loadFrom (runOps seen d) k = t.loadFrom d k) ∧
    (t.loadFrom (runOps seen d) (savezName file) = t.loadFrom d (savezName file) ∨
      (∃ content, s.save = .ok content ∧
        assocGet (savezName file) (runOps seen d) = some (.whole content)) ∨
      t.loadFrom (runOps seen d) (savezName file) = .error .unreadable) ∧
    (seen = ops → ∃ content, s.save = .ok content ∧
      assocGet (savezName file) (runOps seen d) = some (.whole content)) := by
  simp only [ModelState.saveOps, bind, Except.bind, pure, Except.pure] at hops
  rcases hc : s.save with e | c
  · rw [hc] at hops; cases hops
  rw [hc] at hops
  simp only [Except.ok.injEq, savezOps] at hops
  subst hops
  have hfull : ∀ k, assocGet k (runOps [.opened (savezName file), .closed (savezName file) c] d) =
      if k = savezName file then some (.whole c) else assocGet k d := by
    intro k
    rw [runOps_cons, runOps_cons, runOps_nil, assocGet_run_closed, assocGet_run_opened]
    by_cases h : k = savezName file <;> simp [h]
  have hcases : seen = [] ∨ seen = [.opened (savezName file)] ∨
      seen = [.opened (savezName file), .closed (savezName file) c] := by
    rcases seen with _ | ⟨o1, seen⟩
    · exact .inl rfl
    · rw [List.cons_prefix_cons] at hseen
      obtain ⟨rfl, hseen⟩ := hseen
      rcases seen with _ | ⟨o2, seen⟩
      · exact .inr (.inl rfl)
      · rw [List.cons_prefix_cons] at hseen
        obtain ⟨rfl, hseen⟩ := hseen
        rw [List.prefix_nil] at hseen
        subst hseen
        exact .inr (.inr rfl)
  refine ⟨?_, ?_, ?_⟩
  · intro k hk
    rcases hcases with rfl | rfl | rfl
    · rfl
    · rw [ModelState.loadFrom, ModelState.loadFrom, runOps_cons, runOps_nil, assocGet_run_opened, if_neg hk]
    · rw [ModelState.loadFrom, ModelState.loadFrom, hfull, if_neg hk]
  · rcases hcases with rfl | rfl | rfl
    · exact .inl rfl
    · right; right
      rw [ModelState.loadFrom, runOps_cons, runOps_nil, assocGet_run_opened, if_pos rfl]
    · right; left
      exact ⟨c, rfl, by rw [hfull, if_pos rfl]⟩
  · rintro rfl
    exact ⟨c, rfl, by rw [hfull, if_pos rfl]⟩

/-- C118, the way to save without losing anything: save under a name that is not in use. At every crash point
whatever could be loaded before can still be loaded. -/
theorem C118_fresh_name_partial (s t r : ModelState K M C) (d : Disk) (file old : Key) (ops seen : List DiskOp)
    (hops : s.saveOps file = .ok ops) (hseen : seen <+: ops) (hfresh : assocGet (savezName file) d = none)
    (hold : t.loadFrom d old = .ok r) : t.loadFrom (runOps seen d) old = .ok r := by
  have hne : old ≠ savezName file := by
    rintro rfl
    rw [ModelState.loadFrom, hfresh] at hold
    cases hold
  rw [(C118_crash_partial s t d file ops seen hops hseen).1 old hne, hold]

/-- Non-vacuity: a disk with one model, on which another name is free. -/
example : ∃ (d : Disk) (ops : List DiskOp) (r : ModelState Unit Unit Unit),
    exState.saveOps "b.npz".toList = .ok ops ∧ ops.length = 2 ∧ assocGet (savezName "b.npz".toList) d = none ∧
    exState.loadFrom d "a.npz".toList = .ok r := by
  obtain ⟨c, r, hc, hl, -⟩ := save_self exState ⟨exState_saveable, exParams_ok⟩
  have hsz : savezName "b.npz".toList = "b.npz".toList := by decide +kernel
  refine ⟨[("a.npz".toList, .whole c)], _, r, by
    simp only [ModelState.saveOps, hc, bind, Except.bind, pure, Except.pure]; rfl, rfl, ?_, ?_⟩
  · rw [hsz]
    apply assocGet_none
    simp only [List.map_cons, List.map_nil, List.mem_singleton]
    decide
  · have : assocGet "a.npz".toList ([("a.npz".toList, .whole c)] : Disk) = some (.whole c) := rfl
    rw [ModelState.loadFrom, this]
    simp only [hl]

end
end GPX.Props
