import Verif.Lemmas.Checkpoint

/-! # C44: checkpoints -/

namespace GPX.Props
open GPX Spec
noncomputable section
variable {K M C : Type}

/-- `d` is the decimal representation of `n`, padded with zeros to width three. -/
def IsPadded (n : ℕ) (d : List Char) : Prop :=
  (∀ c ∈ d, c.isDigit = true) ∧ parseNat d = n ∧ d.length = max 3 (Nat.digits 10 n).length

/-- C44, full statement: for any file name, any number of calls succeeds and the names are pairwise
different. -/
def C44_full : Prop :=
  ∀ chkFile : List Char, ∃ name : ℕ → List Char,
    (∀ n, chkName chkFile n = .ok (name n)) ∧ ∀ m n, savezName (name m) = savezName (name n) → m = n

/-- C44 is false of the code for file names with braces, which `str.format` interprets. -/
theorem C44_false : ¬ C44_full := by
  intro h
  obtain ⟨name, h1, -⟩ := h "run{a}.npz".toList
  have := h1 0
  have e : chkName "run{a}.npz".toList 0 = .error .valueError := by rfl
  rw [e] at this
  cases this

theorem chkName_escape (s : List Char) : ∃ stem ext, s = stem ++ ext ∧
    IsSplitExt (escapeBraces s) (escapeBraces stem) (escapeBraces ext) ∧
    ∀ n, chkName (escapeBraces s) n = .ok (stem ++ '.' :: format03d n ++ ext) := by
  have hs := splitext_exact (escapeBraces s)
  obtain ⟨h1, h2⟩ := splitext_spec (escapeBraces s)
  have hc : ∃ stem ext, s = stem ++ ext ∧ (splitext (escapeBraces s)).1 = escapeBraces stem ∧
      (splitext (escapeBraces s)).2 = escapeBraces ext := by
    rcases h2 with h2 | ⟨t, h2, -, -⟩
    · refine ⟨s, [], by simp, ?_, h2⟩
      rw [h2, List.append_nil] at h1
      exact h1.symm
    · rw [h2] at h1
      obtain ⟨a, b, rfl, e1, e2⟩ := escape_cut _ _ _ h1
      exact ⟨a, '.' :: b, rfl, e1, by rw [h2, e2]; simp [escapeBraces]⟩
  obtain ⟨stem, ext, rfl, e1, e2⟩ := hc
  refine ⟨stem, ext, rfl, by rw [← e1, ← e2]; exact hs, fun n => ?_⟩
  simp only [chkName, e1, e2, unescape_escape, bind, Except.bind, pure, Except.pure]

/-- C44, names, for every file name: the calls succeed if and only if the braces of the name are doubled. The name with
single braces is then cut into stem and extension as by `os.path.splitext`, and the `n`-th checkpoint is called
`stem.NNN.ext` with `NNN` the padded number `n`. -/
theorem C44_names_partial (chkFile : List Char) :
    (∀ s, chkFile = escapeBraces s → ∃ stem ext, s = stem ++ ext ∧
      IsSplitExt chkFile (escapeBraces stem) (escapeBraces ext) ∧
      ∀ n, ∃ d, IsPadded n d ∧ chkName chkFile n = .ok (stem ++ '.' :: d ++ ext)) ∧
    ((¬ ∃ s, chkFile = escapeBraces s) → ∀ n, ∃ e, chkName chkFile n = .error e) := by
  constructor
  · rintro s rfl
    obtain ⟨stem, ext, rfl, hs, hn⟩ := chkName_escape s
    exact ⟨stem, ext, rfl, hs, fun n => ⟨format03d n, ⟨format03d_digits n, parseNat_format03d n, format03d_length n⟩,
      hn n⟩⟩
  · intro hn n
    rcases h : chkName chkFile n with e | f
    · exact ⟨e, rfl⟩
    · exfalso
      apply hn
      obtain ⟨h1, -⟩ := splitext_spec chkFile
      simp only [chkName, bind, Except.bind] at h
      rcases e1 : unescapeBraces (splitext chkFile).1 with _ | a
      · rw [e1] at h; cases h
      rw [e1] at h
      rcases e2 : unescapeBraces (splitext chkFile).2 with _ | b
      · rw [e2] at h; cases h
      exact ⟨a ++ b, by rw [escape_append, ← escape_unescape _ _ e1, ← escape_unescape _ _ e2]; exact h1⟩

theorem escape_free (s : List Char) (h : ∀ c ∈ s, c ≠ '{' ∧ c ≠ '}') : escapeBraces s = s := by
  have : s = escapeBraces s := escape_unescape _ _ (unescape_free s h)
  exact this.symm

/-- Names without braces are among them, and so are names with doubled braces. -/
example : (∃ s, "run.npz".toList = escapeBraces s) ∧ (∃ s, "run{{1}}.npz".toList = escapeBraces s) ∧
    ¬ ∃ s, "run{1}.npz".toList = escapeBraces s := by
  refine ⟨⟨"run.npz".toList, by decide +kernel⟩, ⟨"run{1}.npz".toList, by decide +kernel⟩, ?_⟩
  rintro ⟨s, h⟩
  have h1 := unescape_escape s
  rw [← h] at h1
  have e : unescapeBraces "run{1}.npz".toList = .error .valueError := by rfl
  rw [e] at h1
  cases h1

/-- C44. For a file name whose braces are doubled (or that has none) and any sequence of calls of one checkpointer (with vectors of the
right length, on a state with a `kernel_params` entry), all calls succeed; there are pairwise different
file names, numbered consecutively from zero, such that afterwards the `i`-th one holds the save of the
state rebuilt from the `i`-th vector; files with other names are untouched. -/
theorem C44_checkpoints_partial (s : ModelState K M C) (chkFile : List Char)
    (hf : ∃ f, chkFile = escapeBraces f) (hok : ParamsOK s.params)
    (hb : ∀ p ∈ s.params.leaves, sensible p.bijector)
    (hk : lookup ["kernel_params".toList] s.params = some (.inr ()))
    (xs : List (List ℝ)) (hx : ∀ x ∈ xs, x.length = numTrainable s.params) (fs : Files) :
    ∃ (fs' : Files) (name : ℕ → List Char), checkpoints s chkFile 0 xs fs = .ok fs' ∧
      (∀ m n, name m = name n → m = n) ∧
      (∀ n, ∃ base, chkName chkFile n = .ok base ∧ (name n = base ∨ name n = base ++ ".npz".toList) ∧
        ".npz".toList <:+ name n) ∧
      (∀ i (hi : i < xs.length), ∃ params u content,
        unravelForward s.params xs[i] = .ok params ∧ (s.update { params := some params }).1 = .ok u ∧
        u.save = .ok content ∧ assocGet (name i) fs' = some content) ∧
      (∀ k, (∀ i < xs.length, k ≠ name i) → assocGet k fs' = assocGet k fs) := by
  obtain ⟨f, rfl⟩ := hf
  obtain ⟨stem, ext, hn⟩ : ∃ a b, ∀ n, chkName (escapeBraces f) n = .ok (a ++ '.' :: format03d n ++ b) := by
    obtain ⟨a, b, -, -, h⟩ := chkName_escape f
    exact ⟨a, b, h⟩
  obtain ⟨fs', h1, h2, h3⟩ := checkpoints_ok_of s (escapeBraces f) stem ext hn 0 xs fs (by
    intro x hxm
    obtain ⟨u, hu⟩ := proposeOn_total s s x hok (hx x hxm)
    have hr := proposeOn_respects s s x hok hb u hu ["kernel_params".toList]
    rw [hk] at hr
    obtain ⟨c, hc⟩ := save_ok_of_node u (by
      show lookup ["kernel_params".toList] u.params = some (.inr ())
      rcases hl : lookup ["kernel_params".toList] u.params with _ | a | b
      · rw [hl] at hr; exact hr.elim
      · rw [hl] at hr; exact hr.elim
      · rfl)
    exact ⟨u, c, hu, hc⟩)
  refine ⟨fs', fun n => savezName (stem ++ '.' :: format03d n ++ ext), h1,
    fun m n h => savezName_inj_of stem ext m n h, ?_, ?_, ?_⟩
  · intro n
    refine ⟨_, hn n, ?_, ?_⟩
    · simp only [savezName]
      split
      · exact .inl rfl
      · exact .inr rfl
    · simp only [savezName]
      split
      · assumption
      · exact List.suffix_append _ _
  · intro i hi
    obtain ⟨u, c, g1, g2, g3⟩ := h2 i hi
    unfold proposeOn at g1
    simp only [bind, Except.bind] at g1
    rcases hu : unravelForward s.params xs[i] with e | d
    · rw [hu] at g1; cases g1
    · rw [hu] at g1
      exact ⟨d, u, c, rfl, g1, g2, by simpa using g3⟩
  · intro k hk'
    exact h3 k (by simpa using hk')

/-- The documented example, and the boundary where the number outgrows the padding. -/
example : chkName "test.npz".toList 0 = .ok "test.000.npz".toList ∧
    chkName "a.b/run".toList 7 = .ok "a.b/run.007".toList ∧
    chkName ".hidden".toList 12 = .ok ".hidden.012".toList ∧
    (chkName "test.npz".toList 1234).map savezName = .ok "test.1234.npz".toList ∧
    (chkName "run".toList 999).map savezName = .ok "run.999.npz".toList := by
  refine ⟨?_, ?_, ?_, ?_, ?_⟩ <;> decide +kernel

/-- Non-vacuity of the hypotheses of `C44_checkpoints_partial`. -/
example : ParamsOK exState.params ∧ (∀ p ∈ exState.params.leaves, sensible p.bijector) ∧
    lookup ["kernel_params".toList] exState.params = some (.inr ()) ∧ numTrainable exState.params = 3 := by
  refine ⟨exParams_ok, ?_, rfl, by decide⟩
  intro p hp
  simp only [exState, exParams, Dict.leaves, List.mem_cons, List.append_nil, List.not_mem_nil, or_false] at hp
  rcases hp with rfl | rfl | rfl
  · trivial
  · trivial
  · show (0:ℝ) < 5; norm_num

end
end GPX.Props
