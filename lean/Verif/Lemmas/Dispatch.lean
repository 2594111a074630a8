import Verif.Model.Dispatch
import Mathlib.Data.List.Forall2

/-!
# Lemmas about calls of Python functions
-/

namespace GPX

variable {V : Type}

theorem bindVals_ok {f : PySig} {pos : List (ArgVal V)} {kw : List (String × ArgVal V)} {env : String → Option (ArgVal V)} :
    f.bindVals pos kw = .ok env ↔
      f.toSig.bind pos.length (kw.map fun a => a.1.toList) = .ok () ∧ env = f.value pos kw := by
  have key : ∀ (r : Except Err Unit) (v : String → Option (ArgVal V)),
      (r >>= fun _ => (pure v : Except Err (String → Option (ArgVal V)))) = .ok env ↔ r = .ok () ∧ env = v := by
    intro r v
    rcases r with e | u
    · constructor
      · intro h; cases h
      · rintro ⟨h, -⟩; cases h
    · constructor
      · intro h; cases h; exact ⟨rfl, rfl⟩
      · rintro ⟨-, rfl⟩; rfl
  exact key _ _

theorem bindVals_error {f : PySig} {pos : List (ArgVal V)} {kw : List (String × ArgVal V)} {e : Err}
    (h : f.toSig.bind pos.length (kw.map fun a => a.1.toList) = .error e) : f.bindVals pos kw = .error e := by
  unfold PySig.bindVals
  rw [h]; rfl

theorem lookup_idxOf {β : Type} (p : String) : ∀ l : List (String × β), p ∈ l.map Prod.fst →
    ∃ b, l.lookup p = some b ∧ l[(l.map Prod.fst).idxOf p]? = some (p, b)
  | [], h => by simp at h
  | (q, b) :: l, h => by
    by_cases hq : p = q
    · subst hq
      exact ⟨b, by simp, by simp⟩
    · have hp : p ∈ l.map Prod.fst := by
        rcases List.mem_cons.1 h with h | h
        · exact absurd h hq
        · exact h
      obtain ⟨b', h1, h2⟩ := lookup_idxOf p l hp
      refine ⟨b', ?_, ?_⟩
      · rw [List.lookup_cons]
        rw [show (p == q) = false from by simpa using hq]
        exact h1
      · rw [List.map_cons, List.idxOf_cons_ne _ (Ne.symm hq)]
        simpa using h2

theorem lookup_isSome {β : Type} (p : String) (l : List (String × β)) (h : p ∈ l.map Prod.fst) : (l.lookup p).isSome := by
  obtain ⟨b, h1, -⟩ := lookup_idxOf p l h
  rw [h1]; rfl

/-- Every parameter of a call that is accepted has a value. -/
theorem value_isSome {f : PySig} {pos : List (ArgVal V)} {kw : List (String × ArgVal V)}
    (h : f.toSig.bind pos.length (kw.map fun a => a.1.toList) = .ok ()) (p : String) (hp : p ∈ f.names) :
    (f.value pos kw p).isSome := by
  unfold Sig.bind at h
  split at h
  · cases h
  split at h
  · cases h
  split at h
  · cases h
  split at h
  · cases h
  next h4 =>
  unfold PySig.value
  split
  · next hi => rw [List.getElem?_eq_getElem hi]; rfl
  · next hi =>
    rcases hk : kw.lookup p with _ | v
    · dsimp only
      obtain ⟨b, h1, h2⟩ := lookup_idxOf p f.params hp
      rw [h1]
      rcases b with _ | d
      · exfalso
        apply h4
        rw [List.any_eq_true]
        have hidx : (f.params.map fun p => (p.1.toList, p.2.isSome))[f.names.idxOf p]? = some (p.toList, false) := by
          rw [List.getElem?_map]
          unfold PySig.names
          rw [h2]
          rfl
        refine ⟨(p.toList, false), ?_, ?_⟩
        · unfold PySig.toSig
          rw [List.mem_iff_getElem?]
          refine ⟨f.names.idxOf p - pos.length, ?_⟩
          rw [List.getElem?_drop, Nat.add_sub_cancel' (not_lt.mp hi)]
          exact hidx
        · simp only [Bool.not_false, Bool.true_and, Bool.not_eq_true']
          rw [List.any_eq_false]
          intro k hkm hk'
          rw [List.mem_map] at hkm
          obtain ⟨a, ha, rfl⟩ := hkm
          have : a.1 = p := String.toList_injective (by simpa using hk')
          have := lookup_isSome p kw (List.mem_map.2 ⟨a, ha, this⟩)
          rw [hk] at this
          cases this
      · rfl
    · rfl

/-- Where the value of a parameter comes from in a call whose arguments are expressions. -/
def PySig.source (f : PySig) (pos : List CallArg) (kw : List (String × CallArg)) (p : String) : Option CallArg :=
  if f.names.idxOf p < pos.length then pos[f.names.idxOf p]?
  else match kw.lookup p with
    | some v => some v
    | none => match f.params.lookup p with
      | some (some d) => some (.text d)
      | _ => none

theorem mapM_pos {α β : Type} (g : α → Option β) : ∀ l : List α, (∀ a ∈ l, (g a).isSome) →
    ∃ l' : List β, (l.mapM fun a => orNameError (g a)) = .ok l' ∧ l.map g = l'.map some
  | [], _ => ⟨[], rfl, rfl⟩
  | a :: l, h => by
    obtain ⟨v, hv⟩ := Option.isSome_iff_exists.1 (h a (by simp))
    obtain ⟨l', h1, h2⟩ := mapM_pos g l fun b hb => h b (by simp [hb])
    refine ⟨v :: l', ?_, ?_⟩
    · rw [List.mapM_cons, hv, h1]; rfl
    · rw [List.map_cons, hv, h2]; rfl

theorem mapM_kw {β : Type} (g : CallArg → Option β) : ∀ l : List (String × CallArg), (∀ a ∈ l, (g a.2).isSome) →
    ∃ l' : List (String × β), (l.mapM fun a => orNameError ((g a.2).map fun v => (a.1, v))) = .ok l' ∧ (l'.map Prod.fst = l.map Prod.fst) ∧
        ∀ p, l'.lookup p = (l.lookup p).bind g
  | [], _ => ⟨[], rfl, rfl, fun _ => rfl⟩
  | (q, a) :: l, h => by
    obtain ⟨v, hv⟩ := Option.isSome_iff_exists.1 (h (q, a) (by simp))
    obtain ⟨l', h1, h2, h3⟩ := mapM_kw g l fun b hb => h b (by simp [hb])
    dsimp only at hv
    refine ⟨(q, v) :: l', ?_, ?_, fun p => ?_⟩
    · rw [List.mapM_cons, h1]
      dsimp only
      rw [hv]; rfl
    · rw [List.map_cons, List.map_cons, h2]
    · rw [List.lookup_cons, List.lookup_cons]
      by_cases hp : p == q
      · simp [hp, hv]
      · simp [hp, h3]

theorem value_source (f : PySig) (env : String → Option (ArgVal V)) (pos : List CallArg) (kw : List (String × CallArg))
    (pos' : List (ArgVal V)) (kw' : List (String × ArgVal V)) (hpos : pos.map (CallArg.eval env) = pos'.map some)
    (hkw : ∀ p, kw'.lookup p = (kw.lookup p).bind (CallArg.eval env)) (hs : ∀ a ∈ kw, (a.2.eval env).isSome) (p : String) :
    f.value pos' kw' p = (f.source pos kw p).bind (CallArg.eval env) := by
  have hl : pos.length = pos'.length := by simpa using congrArg List.length hpos
  unfold PySig.value PySig.source
  rw [← hl]
  split
  · next hi =>
    have := congrArg (fun l => l[f.names.idxOf p]?) hpos
    simp only [List.getElem?_map] at this
    rw [List.getElem?_eq_getElem hi, List.getElem?_eq_getElem (hl ▸ hi)] at this ⊢
    simpa using this.symm
  · rw [hkw]
    rcases hk : kw.lookup p with _ | a
    · dsimp only [Option.bind]
      rcases f.params.lookup p with _ | ⟨_ | d⟩ <;> rfl
    · have hm : ∃ q, (q, a) ∈ kw := by
        obtain ⟨l1, l2, h1, -⟩ := List.lookup_eq_some_iff.1 hk
        exact ⟨p, by rw [h1]; simp⟩
      obtain ⟨q, hm⟩ := hm
      obtain ⟨v, hv⟩ := Option.isSome_iff_exists.1 (hs _ hm)
      dsimp only at hv
      simp [hv]

/-- The same parameters, with at least the defaults of `f`. -/
def MoreDefaults (f g : PySig) : Prop :=
  List.Forall₂ (fun a b => a.1 = b.1 ∧ (a.2.isSome → b.2 = a.2)) f.params g.params

theorem MoreDefaults.names {f g : PySig} (h : MoreDefaults f g) : g.names = f.names := by
  obtain ⟨fp⟩ := f
  obtain ⟨gp⟩ := g
  simp only [MoreDefaults] at h
  simp only [PySig.names]
  induction h with
  | nil => rfl
  | cons h _ ih => rw [List.map_cons, List.map_cons, h.1, ih]

theorem any_mono {α : Type} {R : α → α → Prop} {P : α → Bool} (hP : ∀ a b, R a b → P b = true → P a = true)
    {l l' : List α} (h : List.Forall₂ R l l') (h' : l'.any P = true) : l.any P = true := by
  induction h with
  | nil => exact h'
  | cons hab _ ih =>
    rw [List.any_cons, Bool.or_eq_true] at h' ⊢
    exact h'.imp (hP _ _ hab) ih

theorem MoreDefaults.bind {f g : PySig} (h : MoreDefaults f g) (n : ℕ) (kw : List Key) (hf : f.toSig.bind n kw = .ok ()) :
    g.toSig.bind n kw = .ok () := by
  have hl : g.params.length = f.params.length := (List.Forall₂.length_eq h).symm
  have h2 : List.Forall₂ (fun a b : Key × Bool => a.1 = b.1 ∧ (a.2 = true → b.2 = true)) f.toSig.params g.toSig.params := by
    unfold PySig.toSig
    rw [List.forall₂_map_left_iff, List.forall₂_map_right_iff]
    refine List.Forall₂.imp ?_ h
    rintro a b ⟨h1, h2⟩
    exact ⟨by rw [h1], fun h3 => by rw [h2 h3]; exact h3⟩
  have h3 := List.Forall₂.imp (S := fun a b : Key × Bool => b.1 = a.1) (fun a b hab => hab.1.symm) h2
  have h4 := List.Forall₂.imp (S := fun b a : Key × Bool => b.1 = a.1) (fun a b hab => hab) h3.flip
  have hlen : g.toSig.params.length = f.toSig.params.length := (List.Forall₂.length_eq h2).symm
  unfold Sig.bind at hf ⊢
  split at hf
  · cases hf
  next c1 =>
  split at hf
  · cases hf
  next c2 =>
  split at hf
  · cases hf
  next c3 =>
  split at hf
  · cases hf
  next c4 =>
  rw [if_neg (by rw [hlen]; exact c1), if_neg, if_neg, if_neg]
  · intro hc
    refine c4 (any_mono (fun a b hab hb => ?_) (List.forall₂_drop n h2) hc)
    obtain ⟨e1, e2⟩ := hab
    rw [Bool.and_eq_true] at hb ⊢
    refine ⟨?_, by rw [e1]; exact hb.2⟩
    rcases ha : a.2 with _ | _
    · rfl
    · rw [e2 ha] at hb; exact absurd hb.1 (by decide)
  · intro hc
    apply c3
    rw [List.any_eq_true] at hc ⊢
    obtain ⟨k, hk, hk'⟩ := hc
    refine ⟨k, hk, ?_⟩
    rw [Bool.not_eq_true', ← Bool.not_eq_true] at hk' ⊢
    intro hc
    refine hk' (any_mono (fun a b hab hb => ?_) h4 hc)
    rw [hab]; exact hb
  · intro hc
    apply c2
    rw [List.any_eq_true] at hc ⊢
    obtain ⟨k, hk, hk'⟩ := hc
    refine ⟨k, hk, any_mono (fun a b hab hb => ?_) (List.forall₂_take n h3) hk'⟩
    rw [← hab]; exact hb

theorem MoreDefaults.lookup {f g : PySig} (h : MoreDefaults f g) (p d : String) (hd : f.params.lookup p = some (some d)) :
    g.params.lookup p = some (some d) := by
  obtain ⟨fp⟩ := f
  obtain ⟨gp⟩ := g
  simp only [MoreDefaults] at h
  simp only at hd ⊢
  induction h with
  | nil => exact hd
  | @cons a b l l' hab _ ih =>
    rw [List.lookup_cons] at hd ⊢
    rw [← hab.1]
    rcases hp : p == a.1
    · rw [hp] at hd; exact ih hd
    · rw [hp] at hd
      have := Option.some.inj hd
      dsimp only
      rw [hab.2 (by rw [this]; rfl), this]

theorem MoreDefaults.value {f g : PySig} (h : MoreDefaults f g) (pos : List (ArgVal V)) (kw : List (String × ArgVal V))
    (p : String) (hv : (f.value pos kw p).isSome) : g.value pos kw p = f.value pos kw p := by
  unfold PySig.value at hv ⊢
  rw [h.names]
  split
  · rfl
  · next hi =>
    rw [if_neg hi] at hv
    rcases hk : kw.lookup p with _ | v
    · rw [hk] at hv
      dsimp only at hv ⊢
      rcases hd : f.params.lookup p with _ | ⟨_ | d⟩
      · rw [hd] at hv; cases hv
      · rw [hd] at hv; cases hv
      · rw [h.lookup p d hd]
    · rfl

end GPX
