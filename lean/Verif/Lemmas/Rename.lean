import Verif.Model.Autodiff
import Mathlib.Algebra.BigOperators.Ring.Finset

/-! # Derivatives of a program whose inputs are read through an index map -/

namespace GPX.Ex

variable {V W : Type}

/-- Read variable `v` from position `g v`. -/
def rename (g : V → W) : Ex V → Ex W
  | var v => var (g v)
  | const r => const r
  | add a b => add (a.rename g) (b.rename g)
  | mul a b => mul (a.rename g) (b.rename g)
  | neg a => neg (a.rename g)
  | inv a => inv (a.rename g)
  | exp a => exp (a.rename g)
  | sin a => sin (a.rename g)
  | cos a => cos (a.rename g)
  | abs a => abs (a.rename g)
  | absSign a => absSign (a.rename g)
  | sqrt a => sqrt (a.rename g)
  | maxc a c => maxc (a.rename g) c
  | maxMask a c => maxMask (a.rename g) c
  | powc a p => powc (a.rename g) p
  | sum a => sum fun i => (a i).rename g

@[simp] theorem eval_rename (g : V → W) (env : W → ℝ) (e : Ex V) :
    (e.rename g).eval env = e.eval (env ∘ g) := by
  induction e <;> simp_all [rename, eval]

variable [DecidableEq V] [DecidableEq W] [Fintype V]

/-- Sum over the preimages of `w`. -/
def pull (g : V → W) (w : W) (φ : V → ℝ) : ℝ := ∑ v, if g v = w then φ v else 0

section pull
omit [DecidableEq V]
variable (g : V → W) (w : W)

theorem pull_add (φ ψ : V → ℝ) : pull g w (fun v => φ v + ψ v) = pull g w φ + pull g w ψ := by
  unfold pull
  rw [← Finset.sum_add_distrib]
  exact Finset.sum_congr rfl fun v _ => by split_ifs <;> simp

theorem pull_neg (φ : V → ℝ) : pull g w (fun v => -φ v) = -pull g w φ := by
  unfold pull
  rw [← Finset.sum_neg_distrib]
  exact Finset.sum_congr rfl fun v _ => by split_ifs <;> simp

theorem pull_mul_right (φ : V → ℝ) (c : ℝ) : pull g w (fun v => φ v * c) = pull g w φ * c := by
  unfold pull
  rw [Finset.sum_mul]
  exact Finset.sum_congr rfl fun v _ => by split_ifs <;> simp

theorem pull_mul_left (φ : V → ℝ) (c : ℝ) : pull g w (fun v => c * φ v) = c * pull g w φ := by
  unfold pull
  rw [Finset.mul_sum]
  exact Finset.sum_congr rfl fun v _ => by split_ifs <;> simp

theorem pull_zero : pull g w (fun _ => 0) = 0 := by simp [pull]

theorem pull_sum {n : ℕ} (φ : Fin n → V → ℝ) :
    pull g w (fun v => ∑ i, φ i v) = ∑ i, pull g w (φ i) := by
  unfold pull
  rw [Finset.sum_comm]
  refine Finset.sum_congr rfl fun v _ => ?_
  split_ifs <;> simp

end pull

theorem eval_D_rename (g : V → W) (env : W → ℝ) (w : W) (e : Ex V) :
    ((e.rename g).D w).eval env = pull g w (fun v => (e.D v).eval (env ∘ g)) := by
  induction e with
  | var v =>
    simp only [rename, D, eval, pull]
    rw [Finset.sum_eq_single v]
    · simp
    · intro b _ hb
      simp [Ne.symm hb]
    · simp
  | _ => simp_all only [rename, D, eval, eval_rename, pull_add, pull_neg, pull_mul_right,
      pull_mul_left, pull_zero, pull_sum]

theorem eval_DD_rename (g : V → W) (env : W → ℝ) (w w' : W) (e : Ex V) :
    (((e.rename g).D w).D w').eval env =
      pull g w (fun v => pull g w' (fun v' => ((e.D v).D v').eval (env ∘ g))) := by
  induction e with
  | var v => simp [rename, D, eval, pull_zero]
  | _ => simp_all only [rename, D, eval, eval_rename, pull_add, pull_neg, pull_mul_right,
      pull_mul_left, pull_zero, pull_sum, eval_D_rename, mul_zero]

end GPX.Ex
