import Verif.Lemmas.Optim
import Verif.Lemmas.SaveLoad
import Verif.Spec.Checkpoint

namespace GPX
open Spec Props
noncomputable section
variable {K M C : Type}

theorem splitLast_some (c : Char) (p a b : List Char) (h : splitLast c p = some (a, b)) :
    p = a ++ b ∧ ∃ t, b = c :: t ∧ c ∉ t := by
  induction p generalizing a with
  | nil => simp [splitLast] at h
  | cons x xs ih =>
    simp only [splitLast] at h
    rcases h1 : splitLast c xs with _ | ⟨a', b'⟩
    · rw [h1] at h
      simp only at h
      split at h
      · rename_i hx
        simp only [Option.some.injEq, Prod.mk.injEq] at h
        obtain ⟨rfl, rfl⟩ := h
        refine ⟨rfl, xs, by rw [hx], ?_⟩
        clear ih hx
        induction xs with
        | nil => simp
        | cons y ys ih =>
          simp only [splitLast] at h1
          rcases h2 : splitLast c ys with _ | q
          · rw [h2] at h1
            simp only at h1
            split at h1
            · cases h1
            · rename_i hy
              simp only [List.mem_cons, not_or]
              exact ⟨fun e => hy e.symm, ih h2⟩
          · rw [h2] at h1; cases h1
      · cases h
    · rw [h1] at h
      simp only [Option.some.injEq, Prod.mk.injEq] at h
      obtain ⟨rfl, rfl⟩ := h
      obtain ⟨e1, e2⟩ := ih a' h1
      exact ⟨by rw [e1]; rfl, e2⟩

theorem splitLast_none (c : Char) (p : List Char) (h : splitLast c p = none) : c ∉ p := by
  induction p with
  | nil => simp
  | cons y ys ih =>
    simp only [splitLast] at h
    rcases h2 : splitLast c ys with _ | q
    · rw [h2] at h
      simp only at h
      split at h
      · cases h
      · rename_i hy
        simp only [List.mem_cons, not_or]
        exact ⟨fun e => hy e.symm, ih h2⟩
    · rw [h2] at h; cases h

/-- What `splitext` returns. -/
theorem splitext_spec (p : List Char) :
    p = (splitext p).1 ++ (splitext p).2 ∧
      ((splitext p).2 = [] ∨ ∃ t, (splitext p).2 = '.' :: t ∧ '.' ∉ t ∧ '/' ∉ t) := by
  have key : ∀ dir base : List Char, p = dir ++ base → '/' ∉ base →
      let r := (match splitLast '.' (base.dropWhile (· = '.')) with
        | some (a, ext) => (dir ++ base.takeWhile (· = '.') ++ a, ext)
        | none => (p, []))
      p = r.1 ++ r.2 ∧ (r.2 = [] ∨ ∃ t, r.2 = '.' :: t ∧ '.' ∉ t ∧ '/' ∉ t) := by
    intro dir base hp hs
    rcases h : splitLast '.' (base.dropWhile (· = '.')) with _ | ⟨a, ext⟩
    · exact ⟨by simp, .inl rfl⟩
    · obtain ⟨e1, t, e2, e3⟩ := splitLast_some _ _ _ _ h
      refine ⟨?_, .inr ⟨t, e2, e3, ?_⟩⟩
      · simp only
        rw [List.append_assoc, ← e1, List.append_assoc, List.takeWhile_append_dropWhile]
        exact hp
      · intro ht
        apply hs
        have : '/' ∈ base.dropWhile (· = '.') := by rw [e1, e2]; simp [ht]
        exact (List.dropWhile_suffix _).subset this
  unfold splitext
  rcases h : splitLast '/' p with _ | ⟨a, b⟩
  · exact key [] p rfl (splitLast_none _ _ h)
  · obtain ⟨e1, t, e2, e3⟩ := splitLast_some _ _ _ _ h
    subst e2
    exact key (a ++ ['/']) t (by rw [e1]; simp) e3

theorem unescape_free (s : List Char) (h : ∀ c ∈ s, c ≠ '{' ∧ c ≠ '}') : unescapeBraces s = .ok s := by
  induction s with
  | nil => rfl
  | cons c r ih =>
    have hc := h c (by simp)
    rw [unescapeBraces.eq_4 c r (by rintro _ rfl; exact absurd rfl hc.1)
      (by rintro _ rfl; exact absurd rfl hc.2), if_neg (by simp [hc.1, hc.2]),
      ih (fun d hd => h d (by simp [hd]))]
    rfl

/-- Read a string of decimal digits. -/
def parseNat (s : List Char) : ℕ := s.foldl (fun a c => 10 * a + (c.toNat - '0'.toNat)) 0

theorem digitChar_val (d : ℕ) (h : d < 10) : (Nat.digitChar d).toNat - '0'.toNat = d := by
  interval_cases d <;> rfl

theorem digitChar_isDigit (d : ℕ) (h : d < 10) : (Nat.digitChar d).isDigit = true := by
  interval_cases d <;> rfl

theorem parseNat_decimal (n : ℕ) : parseNat (decimal n) = n := by
  unfold parseNat decimal
  rw [List.foldl_reverse]
  conv_rhs => rw [← Nat.ofDigits_digits 10 n]
  have h : ∀ d ∈ Nat.digits 10 n, d < 10 := fun d hd => Nat.digits_lt_base (by norm_num) hd
  generalize Nat.digits 10 n = ds at h
  induction ds with
  | nil => rfl
  | cons d ds ih =>
    simp only [List.map_cons, List.foldr_cons]
    rw [ih (fun e he => h e (by simp [he])), Nat.ofDigits_cons, digitChar_val d (h d (by simp))]
    exact Nat.add_comm _ _

theorem parseNat_format03d (n : ℕ) : parseNat (format03d n) = n := by
  unfold format03d
  have : ∀ k s, parseNat (List.replicate k '0' ++ s) = parseNat s := by
    intro k s
    induction k with
    | zero => rfl
    | succ k ih =>
      rw [List.replicate_succ, List.cons_append, ← ih]
      rfl
  rw [this, parseNat_decimal]

theorem format03d_digits (n : ℕ) : ∀ c ∈ format03d n, c.isDigit = true := by
  intro c hc
  simp only [format03d, decimal, List.mem_append, List.mem_replicate, List.mem_reverse, List.mem_map] at hc
  rcases hc with ⟨_, rfl⟩ | ⟨d, hd, rfl⟩
  · rfl
  · exact digitChar_isDigit d (Nat.digits_lt_base (by norm_num) hd)

theorem format03d_length (n : ℕ) : (format03d n).length = max 3 (Nat.digits 10 n).length := by
  simp only [format03d, decimal, List.length_append, List.length_replicate, List.length_reverse,
    List.length_map]
  omega

theorem dot_not_digit (n : ℕ) : '.' ∉ format03d n := fun h => absurd (format03d_digits n _ h) (by decide)

theorem format03d_inj (m n : ℕ) (h : format03d m = format03d n) : m = n := by
  rw [← parseNat_format03d m, h, parseNat_format03d]

theorem chkName_free (f : List Char) (hf : ∀ c ∈ f, c ≠ '{' ∧ c ≠ '}') (n : ℕ) :
    chkName f n = .ok ((splitext f).1 ++ '.' :: format03d n ++ (splitext f).2) := by
  obtain ⟨h1, -⟩ := splitext_spec f
  have e1 := unescape_free (splitext f).1 (fun c hc => hf c (by rw [h1]; simp [hc]))
  have e2 := unescape_free (splitext f).2 (fun c hc => hf c (by rw [h1]; simp [hc]))
  simp only [chkName, e1, e2, bind, Except.bind, pure, Except.pure]

/-- The names of the files written are pairwise different. -/
theorem savezName_inj_of (a b : List Char) (m n : ℕ)
    (h : savezName (a ++ '.' :: format03d m ++ b) =
      savezName (a ++ '.' :: format03d n ++ b)) : m = n := by
  have hcount : ∀ k, List.count '.' (a ++ '.' :: format03d k ++ b) =
      List.count '.' a + 1 + List.count '.' b := by
    intro k
    rw [List.count_append, List.count_append, List.count_cons, List.count_eq_zero.mpr (dot_not_digit k)]
    simp
  have hcore : a ++ '.' :: format03d m ++ b =
      a ++ '.' :: format03d n ++ b := by
    unfold savezName at h
    split at h <;> split at h
    · exact h
    · have := congrArg (List.count '.') h
      rw [hcount, List.count_append (l₂ := ".npz".toList), hcount] at this
      simp at this
    · have := congrArg (List.count '.') h
      rw [hcount, List.count_append (l₂ := ".npz".toList), hcount] at this
      simp at this
    · exact List.append_cancel_right h
  have h2 := List.append_cancel_right hcore
  have h3 := List.append_cancel_left h2
  simp only [List.cons.injEq, true_and] at h3
  exact format03d_inj m n h3

theorem savezName_inj (f : List Char) (m n : ℕ)
    (h : savezName ((splitext f).1 ++ '.' :: format03d m ++ (splitext f).2) =
      savezName ((splitext f).1 ++ '.' :: format03d n ++ (splitext f).2)) : m = n := savezName_inj_of _ _ m n h

theorem save_ok_of_node (u : ModelState K M C) (h : lookup [kernelParamsKey] u.params = some (.inr ())) :
    ∃ c, u.save = .ok c := by
  have : ∃ kp, u.params.get? kernelParamsKey = some (.inr kp) := by
    unfold lookup at h
    rcases hg : u.params.get? kernelParamsKey with _ | a | kp
    · rw [hg] at h; cases h
    · rw [hg] at h; simp at h
    · exact ⟨kp, rfl⟩
  obtain ⟨kp, hkp⟩ := this
  obtain ⟨others, ho⟩ := popNode_of_get? hkp
  unfold ModelState.save
  rw [ho]
  exact ⟨_, rfl⟩

/-- The loop of calls of a checkpointer. -/
theorem checkpoints_ok_of (s : ModelState K M C) (f a b : List Char)
    (hf : ∀ n, chkName f n = .ok (a ++ '.' :: format03d n ++ b))
    (n : ℕ) (xs : List (List ℝ)) (fs : Files)
    (hx : ∀ x ∈ xs, ∃ u c, proposeOn s s x = .ok u ∧ u.save = .ok c) :
    let name := fun i => savezName (a ++ '.' :: format03d i ++ b)
    ∃ fs', checkpoints s f n xs fs = .ok fs' ∧
      (∀ i (hi : i < xs.length), ∃ u c, proposeOn s s xs[i] = .ok u ∧ u.save = .ok c ∧
        assocGet (name (n + i)) fs' = some c) ∧
      (∀ k, (∀ i < xs.length, k ≠ name (n + i)) → assocGet k fs' = assocGet k fs) := by
  intro name
  induction xs generalizing n fs with
  | nil => exact ⟨fs, rfl, by simp, fun _ _ => rfl⟩
  | cons x xs ih =>
    obtain ⟨u, c, hu, hc⟩ := hx x (by simp)
    have hstep : checkpoint s f n x fs = .ok (assocSet (name n) c fs) := by
      unfold proposeOn at hu
      simp only [bind, Except.bind] at hu
      rcases h1 : unravelForward s.params x with e | d
      · rw [h1] at hu; cases hu
      rw [h1] at hu
      simp only at hu
      simp only [checkpoint, bind, Except.bind, pure, Except.pure, h1, hu, hf n, hc]
      rfl
    obtain ⟨fs', h1, h2, h3⟩ := ih (n+1) (assocSet (name n) c fs) (fun y hy => hx y (by simp [hy]))
    refine ⟨fs', ?_, ?_, ?_⟩
    · simp only [checkpoints, hstep, bind, Except.bind]; exact h1
    · intro i hi
      rcases i with _ | i
      · refine ⟨u, c, hu, hc, ?_⟩
        rw [Nat.add_zero, h3 (name n), assocGet_set, if_pos rfl]
        intro j _ hj
        have := savezName_inj_of a b _ _ hj
        omega
      · obtain ⟨u', c', g1, g2, g3⟩ := h2 i (by simpa using hi)
        exact ⟨u', c', g1, g2, by rw [show n + (i+1) = n + 1 + i by omega]; exact g3⟩
    · intro k hk
      rw [h3 k, assocGet_set, if_neg]
      · exact hk 0 (by simp)
      · intro i hi
        have := hk (i+1) (by simpa using hi)
        rwa [show n + (i+1) = n + 1 + i by omega] at this

/-- What `splitext` returns, exactly. -/
theorem splitext_exact (p : List Char) : IsSplitExt p (splitext p).1 (splitext p).2 := by
  have key : ∀ dir base : List Char, p = dir ++ base → (dir = [] ∨ ∃ t, dir = t ++ ['/']) → '/' ∉ base →
      let r := (match splitLast '.' (base.dropWhile (· = '.')) with
        | some (a, ext) => (dir ++ base.takeWhile (· = '.') ++ a, ext)
        | none => (p, []))
      IsSplitExt p r.1 r.2 := by
    intro dir base hp hd hs
    have hb : p = dir ++ base.takeWhile (· = '.') ++ base.dropWhile (· = '.') := by
      rw [List.append_assoc, List.takeWhile_append_dropWhile]; exact hp
    have hl : ∀ c ∈ base.takeWhile (· = '.'), c = '.' := fun c hc => by
      simpa using List.all_eq_true.mp (List.all_takeWhile (p := (· = '.')) (l := base)) c hc
    have hh : (base.dropWhile (· = '.')).head? ≠ some '.' := by
      intro h
      have := List.head?_dropWhile_not (· = '.') base
      rw [h] at this
      simp at this
    have hn : '/' ∉ base.takeWhile (· = '.') ++ base.dropWhile (· = '.') := by
      rw [List.takeWhile_append_dropWhile]; exact hs
    rcases h : splitLast '.' (base.dropWhile (· = '.')) with _ | ⟨a, ext⟩
    · exact ⟨dir, _, _, hb, hd, hn, hl, hh, .inl ⟨rfl, splitLast_none _ _ h, rfl⟩⟩
    · obtain ⟨e1, t, e2, e3⟩ := splitLast_some _ _ _ _ h
      exact ⟨dir, _, _, hb, hd, hn, hl, hh, .inr ⟨a, t, by rw [e1, e2], e3, rfl, e2⟩⟩
  unfold splitext
  rcases h : splitLast '/' p with _ | ⟨a, b⟩
  · exact key [] p rfl (.inl rfl) (splitLast_none _ _ h)
  · obtain ⟨e1, t, e2, e3⟩ := splitLast_some _ _ _ _ h
    subst e2
    exact key (a ++ ['/']) t (by rw [e1]; simp) (.inr ⟨a, rfl⟩) e3

theorem escape_append (a b : List Char) : escapeBraces (a ++ b) = escapeBraces a ++ escapeBraces b := by
  simp [escapeBraces]

/-- Escaped names are exactly the ones `str.format` accepts. -/
theorem unescape_escape (s : List Char) : unescapeBraces (escapeBraces s) = .ok s := by
  induction s with
  | nil => rfl
  | cons c r ih =>
    rw [show c :: r = [c] ++ r from rfl, escape_append]
    by_cases h1 : c = '{'
    · subst h1
      rw [show escapeBraces ['{'] = ['{', '{'] from rfl]
      simp only [List.cons_append, List.nil_append, unescapeBraces, ih]
      rfl
    by_cases h2 : c = '}'
    · subst h2
      rw [show escapeBraces ['}'] = ['}', '}'] from rfl]
      simp only [List.cons_append, List.nil_append, unescapeBraces, ih]
      rfl
    · rw [show escapeBraces [c] = [c] by simp [escapeBraces, h1, h2], List.cons_append, List.nil_append,
        unescapeBraces.eq_4 c _ (by rintro _ rfl; exact absurd rfl h1) (by rintro _ rfl; exact absurd rfl h2),
        if_neg (by simp [h1, h2]), ih]
      rfl

theorem escape_unescape (t s : List Char) (h : unescapeBraces t = .ok s) : t = escapeBraces s := by
  induction t using unescapeBraces.induct generalizing s with
  | case1 => simp only [unescapeBraces, Except.ok.injEq] at h; subst h; rfl
  | case2 r ih =>
    simp only [unescapeBraces, bind, Except.bind, pure, Except.pure] at h
    rcases h1 : unescapeBraces r with e | r'
    · rw [h1] at h; cases h
    · rw [h1] at h
      simp only [Except.ok.injEq] at h
      subst h
      rw [ih r' h1]; rfl
  | case3 r ih =>
    simp only [unescapeBraces, bind, Except.bind, pure, Except.pure] at h
    rcases h1 : unescapeBraces r with e | r'
    · rw [h1] at h; cases h
    · rw [h1] at h
      simp only [Except.ok.injEq] at h
      subst h
      rw [ih r' h1]; rfl
  | case4 c r g1 g2 hc => rw [unescapeBraces.eq_4 c r g1 g2, if_pos hc] at h; cases h
  | case5 c r g1 g2 hc ih =>
    rw [unescapeBraces.eq_4 c r g1 g2, if_neg hc] at h
    simp only [bind, Except.bind, pure, Except.pure] at h
    rcases h1 : unescapeBraces r with e | r'
    · rw [h1] at h; cases h
    · rw [h1] at h
      simp only [Except.ok.injEq] at h
      subst h
      rw [ih r' h1]
      simp [escapeBraces, hc]

/-- An escaped name can be cut before a dot. -/
theorem escape_cut (s u t : List Char) (h : escapeBraces s = u ++ '.' :: t) :
    ∃ a b, s = a ++ '.' :: b ∧ u = escapeBraces a ∧ t = escapeBraces b := by
  induction s generalizing u with
  | nil => simp [escapeBraces] at h
  | cons c r ih =>
    rw [show c :: r = [c] ++ r from rfl, escape_append] at h
    by_cases hc : c = '{' ∨ c = '}'
    · rw [show escapeBraces [c] = [c, c] by simp [escapeBraces, hc]] at h
      have hd : c ≠ '.' := by rcases hc with rfl | rfl <;> decide
      rcases u with _ | ⟨u1, _ | ⟨u2, u⟩⟩
      · simp [hd] at h
      · simp [hd] at h
      · simp only [List.cons_append, List.nil_append, List.cons.injEq] at h
        obtain ⟨rfl, rfl, h⟩ := h
        obtain ⟨a, b, rfl, rfl, rfl⟩ := ih u h
        exact ⟨c :: a, b, rfl, by simp [escapeBraces, hc], rfl⟩
    · rw [show escapeBraces [c] = [c] by simp [escapeBraces, hc]] at h
      rcases u with _ | ⟨u1, u⟩
      · simp only [List.nil_append, List.cons_append, List.cons.injEq] at h
        obtain ⟨rfl, rfl⟩ := h
        exact ⟨[], r, rfl, rfl, rfl⟩
      · simp only [List.cons_append, List.nil_append, List.cons.injEq] at h
        obtain ⟨rfl, h⟩ := h
        obtain ⟨a, b, rfl, rfl, rfl⟩ := ih u h
        exact ⟨c :: a, b, rfl, by simp [escapeBraces, hc], rfl⟩

end
end GPX
