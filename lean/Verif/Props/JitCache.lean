import Verif.Model.JitCache
import Verif.Model.GPR

/-!
# C143: kernels changed after they have been used
-/

namespace GPX.Props
open GPX

section
variable {d : ℕ} {Fn Shape Out : Type} {Args : Shape → Type}

/-- Specification: the kernel objects after an operation, whatever is compiled. -/
def objsStep (objs : List (KernelObj d)) : KernelOp d Fn Shape Args → List (KernelObj d)
  | .make o => objs ++ [o]
  | .sum i j => match objs[i]?, objs[j]? with
    | some a, some b => objs ++ [a.sum b]
    | _, _ => objs
  | .prod i j => match objs[i]?, objs[j]? with
    | some a, some b => objs ++ [a.prod b]
    | _, _ => objs
  | .assign i f => objs.modify i f
  | .call _ _ _ _ => objs

/-- Specification: the kernel objects at the end of a program. -/
def objsAfter (ops : List (KernelOp d Fn Shape Args)) : List (KernelObj d) := ops.foldl objsStep []

/-- Specification: what a program returns when nothing is compiled: every call uses the kernel as it is at that moment. -/
def uncompiled (sem : Fn → KernelObj d → (sh : Shape) → Args sh → Out) :
    List (KernelObj d) → List (KernelOp d Fn Shape Args) → List (Option Out)
  | _, [] => []
  | objs, .call fn i sh args :: ops => (objs[i]?.map fun o => sem fn o sh args) :: uncompiled sem objs ops
  | objs, op :: ops => none :: uncompiled sem (objsStep objs op) ops

/-- No attribute of a kernel is assigned after a compiled function has been called with that kernel. -/
def NoChangeAfterUse (ops : List (KernelOp d Fn Shape Args)) : Prop :=
  ∀ pre i f post, ops = pre ++ .assign i f :: post → ∀ fn sh args, .call fn i sh args ∉ pre

variable [DecidableEq Fn] [DecidableEq Shape]

/-- The memory of a program that starts. -/
def startMem : KernelMem d Fn Shape := ⟨[], []⟩

theorem step_objs (sem : Fn → KernelObj d → (sh : Shape) → Args sh → Out) (mem : KernelMem d Fn Shape)
    (op : KernelOp d Fn Shape Args) : (mem.step sem op).1.objs = objsStep mem.objs op := by
  cases op with
  | make o => rfl
  | sum i j => simp only [KernelMem.step, objsStep]; split <;> simp_all
  | prod i j => simp only [KernelMem.step, objsStep]; split <;> simp_all
  | assign i f => rfl
  | call fn i sh args =>
    simp only [KernelMem.step, objsStep]
    split
    · rfl
    · split <;> rfl

theorem run_objs (sem : Fn → KernelObj d → (sh : Shape) → Args sh → Out) (ops : List (KernelOp d Fn Shape Args))
    (mem : KernelMem d Fn Shape) : (mem.run sem ops).1.objs = ops.foldl objsStep mem.objs := by
  induction ops generalizing mem with
  | nil => rfl
  | cons op ops ih => simp only [KernelMem.run, ih, step_objs, List.foldl_cons]

theorem run_append (sem : Fn → KernelObj d → (sh : Shape) → Args sh → Out) (a b : List (KernelOp d Fn Shape Args))
    (mem : KernelMem d Fn Shape) : mem.run sem (a ++ b) =
      (((mem.run sem a).1.run sem b).1, (mem.run sem a).2 ++ ((mem.run sem a).1.run sem b).2) := by
  induction a generalizing mem with
  | nil => simp [KernelMem.run]
  | cons op a ih => simp only [List.cons_append, KernelMem.run, ih]

theorem lookup_cons (mem : KernelMem d Fn Shape) (k key : Fn × ℕ × Shape) (o : KernelObj d) :
    KernelMem.lookup { mem with cache := (k, o) :: mem.cache } key = if k = key then some o else mem.lookup key := by
  simp only [KernelMem.lookup, List.find?_cons]
  by_cases h : k = key <;> simp [h]

theorem step_lookup (sem : Fn → KernelObj d → (sh : Shape) → Args sh → Out) (mem : KernelMem d Fn Shape)
    (op : KernelOp d Fn Shape Args) (key : Fn × ℕ × Shape) :
    (mem.step sem op).1.lookup key = mem.lookup key ∨
    (mem.lookup key = none ∧ ∃ args, op = .call key.1 key.2.1 key.2.2 args ∧
      (mem.step sem op).1.lookup key = mem.objs[key.2.1]?) := by
  cases op with
  | make o => exact .inl rfl
  | sum i j => left; simp only [KernelMem.step]; split <;> rfl
  | prod i j => left; simp only [KernelMem.step]; split <;> rfl
  | assign i f => exact .inl rfl
  | call fn i sh args =>
    simp only [KernelMem.step]
    split
    · exact .inl rfl
    · rename_i o ho
      split
      · exact .inl rfl
      · rename_i hl
        by_cases hk : (fn, i, sh) = key
        · subst hk
          refine .inr ⟨hl, args, rfl, ?_⟩
          rw [lookup_cons, if_pos rfl, ho]
        · left
          rw [lookup_cons, if_neg hk]

theorem run_lookup_kept (sem : Fn → KernelObj d → (sh : Shape) → Args sh → Out) (ops : List (KernelOp d Fn Shape Args))
    (mem : KernelMem d Fn Shape) (key : Fn × ℕ × Shape) (o : KernelObj d) (h : mem.lookup key = some o) :
    (mem.run sem ops).1.lookup key = some o := by
  induction ops generalizing mem with
  | nil => exact h
  | cons op ops ih =>
    refine ih _ ?_
    rcases step_lookup sem mem op key with h1 | ⟨h1, _⟩
    · rw [h1, h]
    · rw [h] at h1; cases h1

theorem run_lookup_none (sem : Fn → KernelObj d → (sh : Shape) → Args sh → Out) (ops : List (KernelOp d Fn Shape Args))
    (mem : KernelMem d Fn Shape) (fn : Fn) (i : ℕ) (sh : Shape) (h : mem.lookup (fn, i, sh) = none)
    (hops : ∀ args, KernelOp.call fn i sh args ∉ ops) : (mem.run sem ops).1.lookup (fn, i, sh) = none := by
  induction ops generalizing mem with
  | nil => exact h
  | cons op ops ih =>
    refine ih _ ?_ fun args hm => hops args (List.mem_cons_of_mem _ hm)
    rcases step_lookup sem mem op (fn, i, sh) with h1 | ⟨_, args, rfl, _⟩
    · rw [h1, h]
    · exact absurd List.mem_cons_self (hops args)

/-- The traces kept agree with the kernels as they are. -/
theorem run_faithful (sem : Fn → KernelObj d → (sh : Shape) → Args sh → Out) (ops : List (KernelOp d Fn Shape Args))
    (mem : KernelMem d Fn Shape)
    (hc : ∀ fn i sh o, mem.lookup (fn, i, sh) = some o → mem.objs[i]? = some o)
    (h : ∀ pre i f post, ops = pre ++ .assign i f :: post →
      (∀ fn sh, mem.lookup (fn, i, sh) = none) ∧ ∀ fn sh args, KernelOp.call fn i sh args ∉ pre) :
    (mem.run sem ops).2 = uncompiled sem mem.objs ops := by
  induction ops generalizing mem with
  | nil => rfl
  | cons op ops ih =>
    have hnext : (∀ fn i sh o, (mem.step sem op).1.lookup (fn, i, sh) = some o →
        (mem.step sem op).1.objs[i]? = some o) → ((mem.step sem op).1.run sem ops).2 =
        uncompiled sem (objsStep mem.objs op) ops := by
      intro hc'
      rw [← step_objs sem mem op]
      refine ih _ hc' fun pre i f post e => ⟨fun fn sh => ?_, fun fn sh args hm => ?_⟩
      · have h0 := h (op :: pre) i f post (by rw [e]; rfl)
        rcases step_lookup sem mem op (fn, i, sh) with h1 | ⟨_, args, rfl, _⟩
        · rw [h1, h0.1]
        · exact absurd List.mem_cons_self (h0.2 fn sh args)
      · exact (h (op :: pre) i f post (by rw [e]; rfl)).2 fn sh args (List.mem_cons_of_mem _ hm)
    have hgrow : ∀ o', (∀ fn i sh o, mem.lookup (fn, i, sh) = some o → (mem.objs ++ [o'])[i]? = some o) :=
      fun o' fn i sh o hl => by
        have h1 := hc fn i sh o hl
        obtain ⟨hlt, -⟩ := List.getElem?_eq_some_iff.1 h1
        rw [List.getElem?_append_left hlt, h1]
    cases op with
    | make o => exact congrArg (none :: ·) (hnext (hgrow o))
    | sum i j =>
      simp only [KernelMem.run, uncompiled]
      rw [hnext ?_]
      · simp only [KernelMem.step]; split <;> rfl
      · simp only [KernelMem.step]
        split
        · exact hgrow _
        · exact hc
    | prod i j =>
      simp only [KernelMem.run, uncompiled]
      rw [hnext ?_]
      · simp only [KernelMem.step]; split <;> rfl
      · simp only [KernelMem.step]
        split
        · exact hgrow _
        · exact hc
    | assign i f =>
      refine congrArg (none :: ·) (hnext fun fn i' sh o hl => ?_)
      have hl' : mem.lookup (fn, i', sh) = some o := hl
      have hne : i ≠ i' := by
        rintro rfl
        rw [(h [] i f ops rfl).1 fn sh] at hl'
        cases hl'
      change (mem.objs.modify i f)[i']? = some o
      rw [List.getElem?_modify_ne _ _ hne]
      exact hc fn i' sh o hl'
    | call fn i sh args =>
      simp only [KernelMem.run, uncompiled]
      have e1 : ((mem.step sem (.call fn i sh args)).1.run sem ops).2 = uncompiled sem mem.objs ops := by
        refine hnext fun fn' i' sh' o hl => ?_
        rw [step_objs]
        rcases step_lookup sem mem (.call fn i sh args) (fn', i', sh') with h1 | ⟨_, _, _, h1⟩
        · rw [h1] at hl; exact hc _ _ _ _ hl
        · rw [h1] at hl; exact hl
      rw [e1]
      congr 1
      simp only [KernelMem.step]
      split
      · rename_i ho; rw [ho]; rfl
      · rename_i o ho
        rw [ho]
        split
        · rename_i o' hl
          have := hc _ _ _ _ hl
          rw [ho, Option.some_inj] at this
          rw [this]; rfl
        · rfl

end

/-- **C143**, the full claim: compiling is not observable. Every program, whatever it does with kernels and models, gets
from compiled functions what the Python code computes with the kernels as they are at the moment of the call. -/
def C143_full : Prop :=
  ∀ (d : ℕ) (Fn Shape Out : Type) (Args : Shape → Type) [DecidableEq Fn] [DecidableEq Shape]
    (sem : Fn → KernelObj d → (sh : Shape) → Args sh → Out) (ops : List (KernelOp d Fn Shape Args)),
    (startMem.run sem ops).2 = uncompiled sem [] ops

variable {d : ℕ} {Fn Shape Out : Type} {Args : Shape → Type} [DecidableEq Fn] [DecidableEq Shape]

/-- **C143**, part: it holds for every program that does not assign attributes of a kernel after the kernel has been used
by a compiled function (making kernels, sums and products, and assigning before the first use are free). -/
theorem C143_faithful_partial (sem : Fn → KernelObj d → (sh : Shape) → Args sh → Out)
    (ops : List (KernelOp d Fn Shape Args)) (h : NoChangeAfterUse ops) :
    (startMem.run sem ops).2 = uncompiled sem [] ops :=
  run_faithful sem ops startMem (fun _ _ _ _ hl => by cases hl) fun pre i f post e =>
    ⟨fun _ _ => rfl, fun fn sh args => h pre i f post e fn sh args⟩

/-- **C143**, part, for every program: a call uses the kernel as it was at the first call of the same function with the
same kernel object and arrays of the same shapes, however it has been changed since. -/
theorem C143_first_use_partial (sem : Fn → KernelObj d → (sh : Shape) → Args sh → Out)
    (a b : List (KernelOp d Fn Shape Args)) (fn : Fn) (i : ℕ) (sh : Shape) (args args' : Args sh) (o : KernelObj d)
    (hfirst : ∀ args, .call fn i sh args ∉ a) (ho : (objsAfter a)[i]? = some o) :
    ((startMem.run sem (a ++ .call fn i sh args' :: (b ++ [.call fn i sh args]))).2.getLast?) =
      some (some (sem fn o sh args)) := by
  set mem : KernelMem d Fn Shape := (startMem.run sem a).1 with hmem
  have hobjs : mem.objs[i]? = some o := by rw [hmem, run_objs]; exact ho
  have hnone : mem.lookup (fn, i, sh) = none := run_lookup_none sem a startMem fn i sh rfl hfirst
  have h1 : (mem.step sem (.call fn i sh args')).1.lookup (fn, i, sh) = some o := by
    simp only [KernelMem.step, hobjs, hnone, lookup_cons, if_true]
  have h2 := run_lookup_kept sem b _ _ _ h1
  have hlive : ∀ (ops : List (KernelOp d Fn Shape Args)) (l : List (KernelObj d)), i < l.length →
      i < (ops.foldl objsStep l).length := by
    intro ops
    induction ops with
    | nil => exact fun l h => h
    | cons op ops ih =>
      intro l hl
      refine ih _ ?_
      cases op with
      | make o => simp [objsStep]; omega
      | sum i j =>
        simp only [objsStep]
        split
        · simp; omega
        · exact hl
      | prod i j =>
        simp only [objsStep]
        split
        · simp; omega
        · exact hl
      | assign i f => simp [objsStep]; omega
      | call => exact hl
  obtain ⟨hlt, -⟩ := List.getElem?_eq_some_iff.1 hobjs
  have h3 : i < ((mem.step sem (.call fn i sh args')).1.run sem b).1.objs.length := by
    rw [run_objs, step_objs]
    exact hlive b _ hlt
  rw [run_append, List.getLast?_append]
  simp only [KernelMem.run, run_append, ← hmem]
  rw [show ∀ (x : Option Out) l y, (x :: (l ++ [y])).getLast? = some y from fun x l y => by
    rw [← List.cons_append, List.getLast?_concat]]
  simp only [Option.some_or]
  congr 1
  simp only [KernelMem.step] at h2 h3 ⊢
  rw [List.getElem?_eq_getElem h3]
  simp only [h2]

/-- **C143**, part, for every program: a call of a function not yet called with this kernel object and these shapes uses
the kernel as it is now. -/
theorem C143_new_shapes_partial (sem : Fn → KernelObj d → (sh : Shape) → Args sh → Out)
    (a : List (KernelOp d Fn Shape Args)) (fn : Fn) (i : ℕ) (sh : Shape) (args : Args sh) (o : KernelObj d)
    (hfirst : ∀ args, .call fn i sh args ∉ a) (ho : (objsAfter a)[i]? = some o) :
    ((startMem.run sem (a ++ [.call fn i sh args])).2.getLast?) = some (some (sem fn o sh args)) := by
  have hobjs : (startMem.run sem a).1.objs[i]? = some o := by rw [run_objs]; exact ho
  have hnone := run_lookup_none sem a startMem fn i sh rfl hfirst
  rw [run_append, List.getLast?_append]
  simp only [KernelMem.run, KernelMem.step, hobjs, hnone, List.getLast?_singleton, Option.some_or]

/-- **C143**, part: a sum keeps the attributes its terms had when it was made, whatever is assigned to the terms later;
likewise a product. -/
theorem C143_parts_partial (a b : List (KernelOp d Fn Shape Args)) (i j : ℕ) (x y : KernelObj d)
    (hx : (objsAfter a)[i]? = some x) (hy : (objsAfter a)[j]? = some y)
    (hb : ∀ f, .assign (objsAfter a).length f ∉ b) :
    (objsAfter (a ++ .sum i j :: b))[(objsAfter a).length]? = some (x.sum y) ∧
    (objsAfter (a ++ .prod i j :: b))[(objsAfter a).length]? = some (x.prod y) := by
  set n := (objsAfter a).length with hn
  have hkeep : ∀ (ops : List (KernelOp d Fn Shape Args)) (l : List (KernelObj d)) (o : KernelObj d),
      (∀ f, .assign n f ∉ ops) → l[n]? = some o → (ops.foldl objsStep l)[n]? = some o := by
    intro ops
    induction ops with
    | nil => exact fun l o _ h => h
    | cons op ops ih =>
      intro l o hops hl
      refine ih _ o (fun f hm => hops f (List.mem_cons_of_mem _ hm)) ?_
      obtain ⟨hlt, -⟩ := List.getElem?_eq_some_iff.1 hl
      cases op with
      | make o => simp only [objsStep]; rw [List.getElem?_append_left hlt, hl]
      | sum i j =>
        simp only [objsStep]
        split
        · rw [List.getElem?_append_left hlt, hl]
        · exact hl
      | prod i j =>
        simp only [objsStep]
        split
        · rw [List.getElem?_append_left hlt, hl]
        · exact hl
      | assign i f =>
        have : i ≠ n := by
          rintro rfl
          exact hops f List.mem_cons_self
        simp only [objsStep]
        rw [List.getElem?_modify_ne _ _ this, hl]
      | call => exact hl
  constructor
  · rw [objsAfter, List.foldl_append, List.foldl_cons]
    refine hkeep b _ _ hb ?_
    change (objsStep (objsAfter a) (.sum i j))[n]? = _
    simp only [objsStep, hx, hy, hn]
    rw [List.getElem?_append_right le_rfl, Nat.sub_self]
    rfl
  · rw [objsAfter, List.foldl_append, List.foldl_cons]
    refine hkeep b _ _ hb ?_
    change (objsStep (objsAfter a) (.prod i j))[n]? = _
    simp only [objsStep, hx, hy, hn]
    rw [List.getElem?_append_right le_rfl, Nat.sub_self]
    rfl

/-- The compiled function `_A_lhs` without noise (`_gpr.py` 39-63), called with arrays of `m` and `n` samples. -/
def lhsSem : Unit → KernelObj 1 → (sh : ℕ × ℕ) → (GPParams × Batch sh.1 1 × Batch sh.2 1) → Σ m n : ℕ, Mat m n :=
  fun _ o _ a => ⟨_, _, aLhs a.1 o a.2.1 a.2.2⟩

/-- The attribute `k` replaced by one that is zero everywhere. -/
def zeroK (o : KernelObj 1) : KernelObj 1 := { o with k := fun _ _ _ _ _ => 0 }

noncomputable def lhsArgs : GPParams × Batch 1 1 × Batch 1 1 := (⟨fun _ => 1, 0⟩, fun _ _ => 0, fun _ _ => 0)

/-- A program that replaces `kernel.k` between two calls. -/
noncomputable def changingProgram : List (KernelOp 1 Unit (ℕ × ℕ) fun sh => GPParams × Batch sh.1 1 × Batch sh.2 1) :=
  [.make (.constant none), .call () 0 (1, 1) lhsArgs, .assign 0 zeroK, .call () 0 (1, 1) lhsArgs]

/-- **C143** fails: after `kernel.k` is replaced, the kernel matrix between arrays of a shape already seen is still that
of the old `k`. -/
theorem C143_false : ¬ C143_full := fun H => by
  have h := H 1 Unit (ℕ × ℕ) _ _ lhsSem changingProgram
  have h3 := congrArg (fun l => l[3]?) h
  have e1 : ((startMem.run lhsSem changingProgram).2)[3]? = some (some (lhsSem () (.constant none) (1, 1) lhsArgs)) :=
    rfl
  have e2 : (uncompiled lhsSem [] changingProgram)[3]? =
      some (some (lhsSem () (zeroK (.constant none)) (1, 1) lhsArgs)) := rfl
  simp only [e1, e2, Option.some_inj, lhsSem, Sigma.mk.injEq, heq_eq_eq, true_and] at h3
  have := congrFun (congrFun h3 0) 0
  simp [aLhs, zeroK, KernelObj.constant, constantK, lhsArgs, KPar.val] at this

/-- Non-vacuity: the program above changes its kernel after use; a program that changes the kernel before the first use
does not, and its calls return results. -/
example : ¬ NoChangeAfterUse changingProgram ∧
    NoChangeAfterUse ([.make (.constant none), .assign 0 zeroK, .call () 0 (1, 1) lhsArgs] :
      List (KernelOp 1 Unit (ℕ × ℕ) fun sh => GPParams × Batch sh.1 1 × Batch sh.2 1)) ∧
    (startMem.run lhsSem [.make (.constant none), .assign 0 zeroK, .call () 0 (1, 1) lhsArgs]).2[2]? =
      some (some (lhsSem () (zeroK (.constant none)) (1, 1) lhsArgs)) := by
  refine ⟨fun h => ?_, ?_, rfl⟩
  · exact h [.make (.constant none), .call () 0 (1, 1) lhsArgs] 0 zeroK [.call () 0 (1, 1) lhsArgs] rfl () (1, 1) lhsArgs
      (by simp)
  · intro pre i f post e fn sh args hm
    rcases pre with _ | ⟨p0, _ | ⟨p1, _ | ⟨p2, pre⟩⟩⟩
    · cases hm
    · simp only [List.cons_append, List.nil_append, List.cons.injEq] at e
      rw [← e.1] at hm
      simp at hm
    · simp only [List.cons_append, List.nil_append, List.cons.injEq] at e
      exact absurd e.2.2.1 (by simp)
    · simp only [List.cons_append, List.cons.injEq] at e
      have := congrArg List.length e.2.2.2
      simp at this

end GPX.Props
