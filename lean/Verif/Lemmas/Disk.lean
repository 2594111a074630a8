import Verif.Model.Disk
import Verif.Lemmas.Checkpoint
import Verif.Props.SaveLoad

namespace GPX
open Spec Props
noncomputable section
variable {K M C : Type} {α β : Type}

/-! ### Key conditions do not depend on the order of the keys nor on the leaves -/

theorem leafKeys_map (f : α → β) (d : Dict α) : leafKeys (d.map f) = leafKeys d := by
  induction d with
  | nil => rfl
  | leaf k a r ih => simp [Dict.map, leafKeys, ih]
  | node k s r ih1 ih2 => simp [Dict.map, leafKeys, ih1, ih2]

theorem wellKeyed_map (f : α → β) (d : Dict α) : WellKeyed (d.map f) ↔ WellKeyed d := by
  induction d with
  | nil => rfl
  | leaf k a r ih => simp only [Dict.map, WellKeyed, ih]
  | node k s r ih1 ih2 => simp only [Dict.map, WellKeyed, ih1, ih2]

theorem noShortShadow_map (f : α → β) (d : Dict α) : NoShortShadow (d.map f) ↔ NoShortShadow d := by
  induction d with
  | nil => rfl
  | leaf k a r ih => simp only [Dict.map, NoShortShadow, ih]
  | node k s r ih1 ih2 => simp only [Dict.map, NoShortShadow, ih1, ih2, leafKeys_map]

theorem leafKeys_ins (k q : Key) (x : α ⊕ Dict α) (d : Dict α) :
    q ∈ leafKeys (Dict.ins k x d) ↔ q ∈ leafKeys (Dict.cons k x d) := by
  induction d using Dict.consInduction with
  | h0 => rw [Dict.ins_nil]
  | h1 k0 z r ih =>
    rw [Dict.ins_cons]
    split
    · rfl
    · revert ih
      cases x <;> cases z <;> simp only [Dict.cons, leafKeys, List.mem_cons, List.mem_append] <;> intro ih <;>
        rw [ih] <;> tauto

theorem leafKeys_sortKeys (q : Key) : ∀ d : Dict α, q ∈ leafKeys d.sortKeys ↔ q ∈ leafKeys d
  | .nil => Iff.rfl
  | .leaf k a r => by
    show q ∈ leafKeys (Dict.ins k (.inl a) r.sortKeys) ↔ _
    rw [leafKeys_ins]
    simp only [Dict.cons, leafKeys, List.mem_cons, leafKeys_sortKeys q r]
  | .node k s r => by
    show q ∈ leafKeys (Dict.ins k (.inr s.sortKeys) r.sortKeys) ↔ _
    rw [leafKeys_ins]
    simp only [Dict.cons, leafKeys, List.mem_append, leafKeys_sortKeys q r, leafKeys_sortKeys q s]

theorem wellKeyed_ins (k : Key) (x : α ⊕ Dict α) (d : Dict α) :
    WellKeyed (Dict.ins k x d) ↔ WellKeyed (Dict.cons k x d) := by
  induction d using Dict.consInduction with
  | h0 => rw [Dict.ins_nil]
  | h1 k0 z r ih =>
    rw [Dict.ins_cons]
    split
    · rfl
    · revert ih
      cases x <;> cases z <;> simp only [Dict.cons, WellKeyed] <;> intro ih <;> rw [ih] <;> tauto

theorem wellKeyed_sortKeys : ∀ d : Dict α, WellKeyed d.sortKeys ↔ WellKeyed d
  | .nil => Iff.rfl
  | .leaf k a r => by
    show WellKeyed (Dict.ins k (.inl a) r.sortKeys) ↔ _
    rw [wellKeyed_ins]
    simp only [Dict.cons, WellKeyed, wellKeyed_sortKeys r]
  | .node k s r => by
    show WellKeyed (Dict.ins k (.inr s.sortKeys) r.sortKeys) ↔ _
    rw [wellKeyed_ins]
    simp only [Dict.cons, WellKeyed, wellKeyed_sortKeys r, wellKeyed_sortKeys s]

theorem noShortShadow_ins (k : Key) (x : α ⊕ Dict α) (d : Dict α) :
    NoShortShadow (Dict.ins k x d) ↔ NoShortShadow (Dict.cons k x d) := by
  induction d using Dict.consInduction with
  | h0 => rw [Dict.ins_nil]
  | h1 k0 z r ih =>
    rw [Dict.ins_cons]
    split
    · rfl
    · revert ih
      cases x <;> cases z <;> (simp only [Dict.cons, NoShortShadow]; intro ih; rw [ih] <;> tauto)

theorem noShortShadow_sortKeys : ∀ d : Dict α, NoShortShadow d.sortKeys ↔ NoShortShadow d
  | .nil => Iff.rfl
  | .leaf k a r => by
    show NoShortShadow (Dict.ins k (.inl a) r.sortKeys) ↔ _
    rw [noShortShadow_ins]
    simp only [Dict.cons, NoShortShadow, noShortShadow_sortKeys r]
  | .node k s r => by
    show NoShortShadow (Dict.ins k (.inr s.sortKeys) r.sortKeys) ↔ _
    rw [noShortShadow_ins]
    simp only [Dict.cons, NoShortShadow, noShortShadow_sortKeys r, noShortShadow_sortKeys s,
      leafKeys_sortKeys]

/-- A dictionary with the same keys up to order satisfies the same conditions. -/
theorem keys_of_struct (d : Dict α) (d' : Dict β) (h : d'.map (fun _ => ()) = d.sortKeys.map (fun _ => ())) :
    (d.KeysDistinct → d'.KeysDistinct) ∧ (WellKeyed d → WellKeyed d') ∧ (NoShortShadow d → NoShortShadow d') := by
  refine ⟨fun g => ?_, fun g => ?_, fun g => ?_⟩
  · rw [← Dict.keysDistinct_map (fun _ => ()), h, Dict.keysDistinct_map]
    exact (Dict.keysDistinct_sortKeys d).mpr g
  · rw [← wellKeyed_map (fun _ => ()), h, wellKeyed_map]
    exact (wellKeyed_sortKeys d).mpr g
  · rw [← noShortShadow_map (fun _ => ()), h, noShortShadow_map]
    exact (noShortShadow_sortKeys d).mpr g

theorem lookup_single {d : Dict α} {k : Key} :
    lookup [k] d = some (.inr ()) ↔ ∃ s, d.get? k = some (.inr s) := by
  unfold lookup
  rcases hg : d.get? k with _ | a | s
  · simp
  · simp
  · simp [lookup]

/-! ### Proposals inherit everything that saving and loading need -/

/-- The state rebuilt from a vector. -/
theorem proposeOn_saveable (s u : ModelState K M C) (x : List ℝ) (hs : Saveable s) (hok : ParamsOK s.params)
    (hb : ∀ p ∈ s.params.leaves, sensible p.bijector) (h : proposeOn s s x = .ok u) :
    Saveable u ∧ u.kernel = s.kernel ∧ u.meanFn = s.meanFn ∧ u.opts = s.opts.map (fun kv => (kv.1, kv.2.norm)) ∧
    AtEveryPath (fun p q => p.trainable = q.trainable ∧ p.bijector = q.bijector ∧ p.prior = q.prior ∧
      p.value.shape = q.prior.shape ∧ p.value.dtype = q.prior.dtype) u.params s.params := by
  have hl := (proposeOn_ok s s x hok u h).1
  have hr := proposeOn_respects s s x hok hb u h
  obtain ⟨cs, d', h1, h2, h3, h4, h5⟩ := unravelForward_ok s.params x hok (by rw [sizes_sum]; exact hl)
  have hd := unravelForward_paramsOK _ _ hok _ h3
  have hu := ModelState.update_ok s { params := some d' } hd
  simp only [proposeOn, h3, bind, Except.bind] at h
  rw [hu] at h
  cases h
  simp only [Option.getD_some, List.foldl_nil] at hr ⊢
  obtain ⟨a1, a2, a3, a4, a5, a6⟩ := hs
  obtain ⟨k1, k2, k3⟩ := keys_of_struct s.params d' h4
  refine ⟨⟨(Dict.keysDistinct_sortKeys _).mpr (k1 a1), (wellKeyed_sortKeys _).mpr (k2 a2),
    (noShortShadow_sortKeys _).mpr (k3 a3), ?_, ?_, ?_⟩, rfl, rfl, trivial, ?_⟩
  · have := hr ["kernel_params".toList]
    rw [lookup_single.mpr a4] at this
    rcases hl : lookup ["kernel_params".toList] d'.sortKeys with _ | a | b
    · rw [hl] at this; exact this.elim
    · rw [hl] at this; exact this.elim
    · exact lookup_single.mp hl
  · rw [List.map_map]; exact a5
  · intro kv hkv
    obtain ⟨kv', hm, rfl⟩ := List.mem_map.mp hkv
    exact a6 kv' hm
  · intro path
    have := hr path
    rcases g1 : lookup path s.params with _ | a | _ <;> rcases g2 : lookup path d'.sortKeys with _ | b | _ <;>
      rw [g1, g2] at this <;> simp only at this ⊢
    have ha : ParamOK a := hok a (lookup_mem path _ a g1)
    cases ht : a.trainable with
    | false =>
      have e := this.1 ht
      subst e
      exact ⟨ht, rfl, rfl, ha⟩
    | true =>
      obtain ⟨b1, b2, b3, b4, b5, -⟩ := this.2 ht
      exact ⟨b1, b2, b3, by rw [b4]; exact ha.1, by rw [b5]; exact ha.2⟩

/-- Loading the save of `u` into a state that agrees with `u` except for the values restores `u`. -/
theorem load_restores (u t : ModelState K M C) (hu : Saveable u) (ht : t.params.KeysDistinct)
    (hk : u.kernel = t.kernel) (hm : u.meanFn = t.meanFn)
    (ho : ∀ k, (assocGet k u.opts).map OptVal.norm = (assocGet k t.opts).map OptVal.norm)
    (hp : AtEveryPath (fun p q => p.trainable = q.trainable ∧ p.bijector = q.bijector ∧ p.prior = q.prior ∧
      p.value.shape = q.prior.shape ∧ p.value.dtype = q.prior.dtype) u.params t.params) :
    ∃ file r, u.save = .ok file ∧ t.load file = .ok r ∧ viewOf r = viewOf u := by
  obtain ⟨file, r, h1, h2, h3, h4, h5, h6, h7⟩ := C08_save_load_partial u t hu ht (by
    intro path
    have := hp path
    rcases g1 : lookup path u.params with _ | a | _ <;> rcases g2 : lookup path t.params with _ | b | _ <;>
      rw [g1, g2] at this <;> simp only at this ⊢
    exact this.2.2.2)
  refine ⟨file, r, h1, h2, ?_⟩
  simp only [viewOf]
  congr 1
  · rw [h3, hk]
  · rw [h4, hm]
  · funext path
    have i1 := hp path
    have i2 := h5 path
    have i3 := h6 path
    rcases g1 : lookup path u.params with _ | a | _ <;> rcases g2 : lookup path t.params with _ | b | _ <;>
      rcases g3 : lookup path r.params with _ | c | _ <;>
      simp only [g1, g2, g3] at i1 i2 i3 ⊢
    obtain ⟨va, ta, ba, pa⟩ := a
    obtain ⟨vb, tb, bb, pb⟩ := b
    obtain ⟨vc, tc, bc, pc⟩ := c
    simp only at i1 i2 i3
    obtain ⟨rfl, rfl, rfl, -⟩ := i1
    obtain ⟨rfl, rfl, rfl⟩ := i3
    rw [i2]
  · funext k
    rw [h7 k]
    have := ho k
    revert this
    rcases assocGet k u.opts with _ | v
    · intro this; exact this.symm
    · cases v <;> intro this <;> first | rfl | exact this.symm

/-! ### Disks -/

theorem assocGet_run_opened (f k : Key) (d : Disk) :
    assocGet k ((DiskOp.opened f).run d) = if k = f then some .torn else assocGet k d := by
  rw [DiskOp.run, assocGet_set]

theorem assocGet_run_closed (f k : Key) (c : List (Key × Dumped)) (d : Disk) :
    assocGet k ((DiskOp.closed f c).run d) = if k = f then some (.whole c) else assocGet k d := by
  rw [DiskOp.run, assocGet_set]

theorem runOps_cons (op : DiskOp) (ops : List DiskOp) (d : Disk) : runOps (op :: ops) d = runOps ops (op.run d) := rfl

theorem runOps_nil (d : Disk) : runOps [] d = d := rfl

/-- The file name of a checkpoint. -/
def chkFileName (f : List Char) (i : ℕ) : List Char :=
  savezName ((splitext f).1 ++ '.' :: format03d i ++ (splitext f).2)

/-- All crash points of a run of a checkpointer. -/
theorem checkpointsOps_ok (s : ModelState K M C) (f : List Char) (hf : ∀ c ∈ f, c ≠ '{' ∧ c ≠ '}')
    (xs : List (List ℝ)) (hx : ∀ x ∈ xs, ∃ u c, proposeOn s s x = .ok u ∧ u.save = .ok c) (n : ℕ) :
    ∃ ops, checkpointsOps s f n xs = .ok ops ∧ ops.length = 2 * xs.length ∧
      ∀ seen, seen <+: ops → ∀ d : Disk, ∃ i ≤ xs.length, 2 * i ≤ seen.length ∧ seen.length ≤ 2 * i + 1 ∧
        (∀ j (hj : j < xs.length), j < i → ∃ u c, proposeOn s s xs[j] = .ok u ∧ u.save = .ok c ∧
          assocGet (chkFileName f (n + j)) (runOps seen d) = some (.whole c)) ∧
        (∀ k, (∀ j ≤ i, k ≠ chkFileName f (n + j)) → assocGet k (runOps seen d) = assocGet k d) ∧
        (assocGet (chkFileName f (n + i)) (runOps seen d) = if seen.length = 2 * i then
          assocGet (chkFileName f (n + i)) d else some .torn) := by
  induction xs generalizing n with
  | nil =>
    refine ⟨[], rfl, rfl, ?_⟩
    intro seen hseen d
    rw [List.prefix_nil] at hseen
    subst hseen
    exact ⟨0, le_refl _, le_refl _, by simp, by simp, fun _ _ => rfl, rfl⟩
  | cons x xs ih =>
    obtain ⟨u, c, hu, hc⟩ := hx x (by simp)
    have hstep : checkpointOps s f n x = .ok [.opened (chkFileName f n), .closed (chkFileName f n) c] := by
      unfold proposeOn at hu
      simp only [bind, Except.bind] at hu
      rcases h1 : unravelForward s.params x with e | d
      · rw [h1] at hu; cases hu
      rw [h1] at hu
      simp only at hu
      simp only [checkpointOps, ModelState.saveOps, bind, Except.bind, pure, Except.pure, h1, hu,
        chkName_free f hf n, hc]
      rfl
    obtain ⟨ops, h1, h2, h3⟩ := ih (fun y hy => hx y (by simp [hy])) (n+1)
    refine ⟨_, by simp only [checkpointsOps, hstep, h1, bind, Except.bind, pure, Except.pure]; rfl,
      by simp [h2]; omega, ?_⟩
    intro seen hseen d
    have hinj : ∀ j, chkFileName f (n + 1 + j) ≠ chkFileName f n := by
      intro j hj
      have := savezName_inj f _ _ hj
      omega
    rcases seen with _ | ⟨o1, seen⟩
    · exact ⟨0, by simp, by simp, by simp, by simp, fun _ _ => rfl, rfl⟩
    · simp only [List.cons_append, List.nil_append, List.cons_prefix_cons] at hseen
      obtain ⟨rfl, hseen⟩ := hseen
      rcases seen with _ | ⟨o2, seen⟩
      · refine ⟨0, by simp, by simp, by simp, by simp, ?_, ?_⟩
        · intro k hk
          rw [runOps_cons, runOps_nil, assocGet_run_opened,
            if_neg (by simpa using hk 0 (le_refl _))]
        · rw [runOps_cons, runOps_nil, assocGet_run_opened]
          simp
      · rw [List.cons_prefix_cons] at hseen
        obtain ⟨rfl, hseen⟩ := hseen
        rw [runOps_cons, runOps_cons]
        set d' := (DiskOp.closed (chkFileName f n) c).run ((DiskOp.opened (chkFileName f n)).run d) with hd'
        have hget : ∀ k, assocGet k d' = if k = chkFileName f n then some (.whole c) else assocGet k d := by
          intro k
          rw [hd', assocGet_run_closed, assocGet_run_opened]
          by_cases h : k = chkFileName f n <;> simp [h]
        obtain ⟨i, hi, hl1, hl2, g1, g2, g3⟩ := h3 seen hseen d'
        refine ⟨i + 1, by simp; omega, by simp; omega, by simp; omega, ?_, ?_, ?_⟩
        · intro j hj hji
          rcases j with _ | j
          · refine ⟨u, c, hu, hc, ?_⟩
            rw [g2 _ (fun j _ => by simpa using (hinj j).symm), hget]
            simp
          · obtain ⟨u', c', e1, e2, e3⟩ := g1 j (by simpa using hj) (by omega)
            exact ⟨u', c', e1, e2, by rw [show n + (j+1) = n + 1 + j by omega]; exact e3⟩
        · intro k hk
          rw [g2 k (fun j hj => by
            have := hk (j+1) (by omega)
            rwa [show n + (j+1) = n + 1 + j by omega] at this), hget, if_neg (by simpa using hk 0 (by omega))]
        · rw [show n + (i+1) = n + 1 + i by omega, g3, hget, if_neg (hinj i)]
          simp only [List.length_cons]
          by_cases h : seen.length = 2 * i
          · rw [if_pos h, if_pos (by omega)]
          · rw [if_neg h, if_neg (by omega)]

end
end GPX
