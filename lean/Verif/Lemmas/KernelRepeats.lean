import Verif.Spec.Repeats
import Verif.Spec.Joint
import Verif.Lemmas.Transfer

/-! # Closed forms of the kernels used by the models, for lists of active features with repetitions -/

namespace GPX
open GPX.Spec GPX.Props

variable {d d' : ℕ}

/-! ## Copies -/

theorem copyDims_noRepeat {K : ℕ} {a : Option (Dims d)} (h : (Dims.resolve a).k ≤ K + 1) :
    NoRepeat (copyDims K a) := by
  intro b c hbc
  have h2 := congrArg Fin.modNat hbc
  simp only [flat_modNat] at h2
  have h3 := congrArg Fin.val h2
  simp only [Fin.ofNat] at h3
  apply Fin.ext
  rwa [Nat.mod_eq_of_lt (b.isLt.trans_le h), Nat.mod_eq_of_lt (c.isLt.trans_le h)] at h3

theorem onCopies_noRepeats (K : ℕ) (e : KExpr d) (h : longest e ≤ K + 1) : NoRepeats (onCopies K e) := by
  induction e with
  | sum e1 e2 ih1 ih2 =>
    exact ⟨ih1 ((le_max_left _ _).trans h), ih2 ((le_max_right _ _).trans h)⟩
  | prod e1 e2 ih1 ih2 =>
    exact ⟨ih1 ((le_max_left _ _).trans h), ih2 ((le_max_right _ _).trans h)⟩
  | _ => exact copyDims_noRepeat h

theorem take_copies (K : ℕ) (a : Option (Dims d)) (x : Fin d → ℝ) :
    (Dims.resolve (copyDims K a)).take (copies K x) = (Dims.resolve a).take x := by
  funext c
  show x (flat ((Dims.resolve a).idx c) _).divNat = _
  rw [flat_divNat]; rfl

theorem copies_idx (K : ℕ) (a : Option (Dims d)) (x : Fin d → ℝ) (c : Fin (Dims.resolve a).k) :
    copies K x ((Dims.resolve (copyDims K a)).idx c) = x ((Dims.resolve a).idx c) :=
  congrFun (take_copies K a x) c

theorem carries_copies (K : ℕ) (a : Option (Dims d)) {κ : KernelObj d} {κ' : KernelObj (d * (K + 1))} {p : KPar}
    {c : Core} (h : ClosedJ κ p (Dims.resolve a) c) (h' : ClosedJ κ' p (Dims.resolve (copyDims K a)) c) :
    Carries κ p κ' p (copies K) (copies K) := by
  refine Carries.ofClosed h h' (fun x y => ?_) (fun x y u => ?_) (fun x y u => ?_) (fun x y u => ?_)
    (fun x y u w => ?_)
  · rw [take_copies, take_copies]; rfl
  · rw [take_copies, take_copies]
    exact Finset.sum_congr rfl fun b _ => congrArg (· * _) (copies_idx K a u b)
  · rw [take_copies, take_copies]
    exact Finset.sum_congr rfl fun b _ => congrArg (_ * ·) (copies_idx K a u b)
  · rw [take_copies, take_copies]
    exact Finset.sum_congr rfl fun b _ => congrArg (· * _) (copies_idx K a u b)
  · rw [take_copies, take_copies]
    refine Finset.sum_congr rfl fun b _ => Finset.sum_congr rfl fun b' _ => ?_
    rw [copies_idx K a u b, copies_idx K a w b']; rfl

theorem copies_carries (K : ℕ) (e : KExpr d) (p : KPar) :
    Carries e.obj p (onCopies K e).obj p (copies K) (copies K) := by
  induction e generalizing p with
  | constant a => exact carries_copies K a (closedJ_constant a p) (closedJ_constant _ p)
  | linear a => exact carries_copies K a (closedJ_linear a p) (closedJ_linear _ p)
  | polynomial a b => exact carries_copies K a (closedJ_polynomial a b p) (closedJ_polynomial _ b p)
  | squaredExponential a => exact carries_copies K a (closedJ_se a p) (closedJ_se _ p)
  | matern12 a => exact carries_copies K a (closedJ_m12 a p) (closedJ_m12 _ p)
  | matern32 a => exact carries_copies K a (closedJ_m32 a p) (closedJ_m32 _ p)
  | matern52 a => exact carries_copies K a (closedJ_m52 a p) (closedJ_m52 _ p)
  | expSinSquared a => exact carries_copies K a (closedJ_ess a p) (closedJ_ess _ p)
  | sum e1 e2 ih1 ih2 => exact Carries.sum (ih1 _) (ih2 _)
  | prod e1 e2 ih1 ih2 => exact Carries.prod (ih1 _) (ih2 _)

theorem sameKernels_copies (e : KExpr d) (p : KPar) :
    SameKernels e.obj (onCopies (longest e) e).obj p (copies (longest e)) := by
  have h := copies_carries (longest e) e p
  refine ⟨fun x1 x2 => ?_, fun x1 x2 J => ?_, fun x1 x2 J => ?_, fun x1 x2 J1 J2 => ?_⟩
  · funext i j; exact h.k x1 x2 i j
  · funext r j; obtain ⟨i, u, rfl⟩ := flat_surj r; exact h.d0kj x1 x2 J i u j
  · funext i c; obtain ⟨j, u, rfl⟩ := flat_surj c; exact h.d1kj x1 x2 J i j u
  · funext r c; obtain ⟨i, u, rfl⟩ := flat_surj r; obtain ⟨j, q, rfl⟩ := flat_surj c; exact h.d01kj x1 x2 J1 J2 i u j q

/-! ## Conditions on expressions, on copies -/

/-- Conditions on the hyperparameters do not depend on the lists of active features. -/
theorem onCopies_admissible (K : ℕ) (e : KExpr d) (p : KPar) : Admissible (onCopies K e) p ↔ Admissible e p := by
  induction e generalizing p with
  | sum e1 e2 ih1 ih2 => exact and_congr (ih1 _) (ih2 _)
  | prod e1 e2 ih1 ih2 => exact and_congr (ih1 _) (ih2 _)
  | _ => exact Iff.rfl

theorem onCopies_jointSmooth (K : ℕ) (e : KExpr d) (p : KPar) : JointSmooth (onCopies K e) p ↔ JointSmooth e p := by
  induction e generalizing p with
  | sum e1 e2 ih1 ih2 => exact and_congr (ih1 _) (ih2 _)
  | prod e1 e2 ih1 ih2 => exact and_congr (ih1 _) (ih2 _)
  | _ => exact Iff.rfl

theorem onCopies_derivSmooth (K : ℕ) {e : KExpr d} {p : KPar} (h : DerivSmooth e p) : DerivSmooth (onCopies K e) p := by
  induction h with
  | joint h => exact .joint ((onCopies_jointSmooth K _ _).2 h)
  | squaredExponential h => exact .squaredExponential h
  | sum _ _ ih1 ih2 => exact .sum ih1 ih2
  | scaleLeft h _ ih => exact .scaleLeft h ih
  | scaleRight _ h ih => exact .scaleRight ih h

end GPX
