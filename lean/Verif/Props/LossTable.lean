import Verif.Props.LossCalls

/-!
# C84: which losses of its module each fitting method can evaluate
-/

namespace GPX.Props
open GPX GPX.Spec

variable {V α : Type}

/-- What happens when a fitting method evaluates a loss. -/
inductive LossOutcome where
  /-- It is evaluated, with any of its optional arguments in `loss_kwargs`. -/
  | works
  /-- It is evaluated only if the caller puts the jacobian in `loss_kwargs`. -/
  | needsJacobian
  /-- TypeError, whatever `loss_kwargs` is. -/
  | raises

/-- The classes, their fitting methods and the losses of their modules. -/
def lossTable : List (GPClass × FitMethod × Sig × LossOutcome) :=
  [(.gpr, .fit, gprLoss, .works), (.gpr, .fit, gprLossDerivs, .needsJacobian), (.gpr, .fit, gprMseLoss, .raises),
   (.gpr, .fitDerivs, gprLoss, .raises), (.gpr, .fitDerivs, gprLossDerivs, .works), (.gpr, .fitDerivs, gprMseLoss, .raises),
   (.gpr, .fitOl, gprLoss, .raises), (.gpr, .fitOl, gprLossDerivs, .raises), (.gpr, .fitOl, gprMseLoss, .works),
   (.gpr, .fitNlopt, gprLoss, .works), (.gpr, .fitNlopt, gprLossDerivs, .needsJacobian), (.gpr, .fitNlopt, gprMseLoss, .raises),
   (.sgpr, .fit, sgprLoss, .raises), (.sgpr, .fit, sgprLossDerivs, .raises),
   (.sgpr, .fitDerivs, sgprLoss, .raises), (.sgpr, .fitDerivs, sgprLossDerivs, .raises),
   (.sgpr, .fitNlopt, sgprLoss, .works), (.sgpr, .fitNlopt, sgprLossDerivs, .needsJacobian),
   (.sgprRpchol, .fit, sgprLoss, .raises), (.sgprRpchol, .fit, sgprLossDerivs, .raises),
   (.sgprRpchol, .fitDerivs, sgprLoss, .raises), (.sgprRpchol, .fitDerivs, sgprLossDerivs, .raises),
   (.sgprRpchol, .fitNlopt, sgprLoss, .works), (.sgprRpchol, .fitNlopt, sgprLossDerivs, .needsJacobian),
   (.gprTD, .fitTD, tdLoss, .works)]

/-- The outcome `r` is what the evaluation of the loss gives, inside the minimiser (`trainCall`) and after it (`finalCall`), for all values of
the arguments. -/
def HasOutcome (m : FitMethod) (loss : Sig) (V α : Type) : LossOutcome → Prop
  | .works => ∀ (kw : Option (List (Key × V))), (∀ k ∈ names kw, k ∈ optionalNames loss) → ∀ (it np kp : V) (body : Except Err α),
      m.trainCall loss kw it np kp body = body ∧ m.finalCall loss kw it np kp body = body
  | .needsJacobian => ∀ (it np kp jac : V) (body : Except Err α),
      m.trainCall loss none it np kp body = .error .typeError ∧
      m.trainCall loss (some [("jacobian".toList, jac)]) it np kp body = body ∧
      m.finalCall loss (some [("jacobian".toList, jac)]) it np kp body = body
  | .raises => ∀ (kw : Option (List (Key × V))) (it np kp : V) (body : Except Err α),
      m.trainCall loss kw it np kp body = .error .typeError

/-- Finds the row of the table. -/
local macro "row_listed" : tactic => `(tactic| first
  | (refine ⟨LossOutcome.works, ?_⟩; simp only [lossTable, List.mem_cons, true_or, or_true]; done)
  | (refine ⟨LossOutcome.raises, ?_⟩; simp only [lossTable, List.mem_cons, true_or, or_true]; done)
  | (refine ⟨LossOutcome.needsJacobian, ?_⟩; simp only [lossTable, List.mem_cons, true_or, or_true]; done))

/-- **C84**, complete: the table lists every fitting method of every class with every loss of its module, and each row says what happens. -/
theorem C84_table :
    (∀ (cls : GPClass) (m : FitMethod) (loss : Sig),
      (∃ r, (cls, m, loss, r) ∈ lossTable) ↔ m ∈ cls.methods ∧ loss ∈ cls.losses) ∧
    ∀ row ∈ lossTable, ∀ V α : Type, HasOutcome row.2.1 row.2.2.1 V α row.2.2.2 := by
  constructor
  · intro cls m loss
    constructor
    · rintro ⟨r, h⟩
      simp only [lossTable, List.mem_cons, List.not_mem_nil, or_false, Prod.mk.injEq] at h
      rcases h with h | h | h | h | h | h | h | h | h | h | h | h | h | h | h | h | h | h | h | h | h | h | h | h | h <;>
        obtain ⟨rfl, rfl, rfl, rfl⟩ := h <;> simp [GPClass.methods, GPClass.losses]
    · rintro ⟨hm, hl⟩
      cases cls <;> simp only [GPClass.methods, GPClass.losses, List.mem_cons, List.not_mem_nil, or_false] at hm hl
      · rcases hm with rfl | rfl | rfl | rfl <;> rcases hl with rfl | rfl | rfl <;> row_listed
      · rcases hm with rfl | rfl | rfl <;> rcases hl with rfl | rfl <;> row_listed
      · rcases hm with rfl | rfl | rfl <;> rcases hl with rfl | rfl <;> row_listed
      · subst hm hl; row_listed
  · intro row h V α
    have works : ∀ {m : FitMethod} {loss : Sig}, Fits m loss → HasOutcome m loss V α .works := fun hf kw hk it np kp body =>
      calls_of_fits hf kw hk it np kp body
    have raises : ∀ {m : FitMethod} {loss : Sig} (k : Key), (k ∈ FitMethod.fixed m ∨ k ∈ m.dataKw) → (∀ p ∈ loss.params, p.1 ≠ k) →
        HasOutcome m loss V α .raises := fun k hk hu kw it np kp body => train_error hk hu kw it np kp body
    simp only [lossTable, List.mem_cons, List.not_mem_nil, or_false] at h
    rcases h with h | h | h | h | h | h | h | h | h | h | h | h | h | h | h | h | h | h | h | h | h | h | h | h | h <;> subst h
    all_goals first
      | exact works (by decide)
      | exact raises "n_pivots".toList (by decide) (by decide)
      | exact raises "iterative".toList (by decide) (by decide)
      | exact raises "y_derivs".toList (by decide) (by decide)
      | exact raises "jacobian".toList (by decide) (by decide)
      | exact fun it np kp jac body => ⟨rfl, rfl, rfl⟩

/-- The three outcomes occur. -/
example : (GPClass.gpr, FitMethod.fit, gprLoss, LossOutcome.works) ∈ lossTable ∧
    (GPClass.gpr, FitMethod.fit, gprLossDerivs, LossOutcome.needsJacobian) ∈ lossTable ∧
    (GPClass.sgpr, FitMethod.fit, sgprLoss, LossOutcome.raises) ∈ lossTable := by simp [lossTable]

end GPX.Props
