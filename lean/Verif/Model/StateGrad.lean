import Verif.Model.Optim
import Verif.Model.Pytree
import Mathlib.Analysis.Calculus.Deriv.Basic
import Mathlib.Analysis.SpecialFunctions.Pow.Real

/-!
# Gradients with respect to a model state, and Optax training with them

`jax.value_and_grad(loss_fn)(state, x, y)`, `optimizers/optax_optimize.py:101, 145`, differentiates a function of a
`ModelState`: the state is flattened (`model_state.py:146-167`), its values are replaced by tracers, and the function is
called on the state rebuilt from them (`model_state.py:169-173`), whose constructor cuts the values of frozen parameters
off with `jax.lax.stop_gradient` (`model_state.py:93-103`).

A tracer is represented by the values it takes when the traced number is moved by `t`. JAX's derivative of a program is
represented by the derivative of the function it computes (for the hand-written rules of the kernels see C24 and C112).
-/

namespace GPX
noncomputable section
variable {K M C O : Type}

/-- `jax.lax.stop_gradient`, used at `model_state.py:99` and `151`: the value does not move. -/
def stopGradient {α : Type} (c : ℝ → α) : ℝ → α := fun _ => c 0

/-- `ModelState.tree_unflatten` (`model_state.py:169-173`) on traced values, with the setter of `params` (`93-103`) called
by the constructor. -/
def ModelState.traced (s : ModelState K M C) (children : List (ℝ → Arr)) (t : ℝ) : Except Err (ModelState K M C) :=
  ModelState.treeUnflatten s.treeFlatten.2
    (List.zipWith (fun (p : Param) c => if p.trainable then c t else stopGradient c t) s.params.treeLeaves children)

/-- An array with its entry `k`, in row-major order, moved by `t`. -/
def Arr.bump (a : Arr) (k : ℕ) (t : ℝ) : Arr := { a with data := a.data.modify k (· + t) }

/-- The children of the state (`model_state.py:162`) when entry `k` of child `i` is traced. -/
def ModelState.children (s : ModelState K M C) (i k : ℕ) : List (ℝ → Arr) :=
  s.treeFlatten.1.mapIdx fun j a t => if j = i then a.bump k t else a

/-- The number computed by a function that does not raise. -/
def numOf : Except Err ℝ → ℝ
  | .ok v => v
  | .error _ => 0

/-- `grads` of `jax.value_and_grad(loss)(state)`, `optax_optimize.py:101-103`: one array per parameter, in tree order,
with the derivative in each entry. -/
def stateGrad (loss : ModelState K M C → Except Err ℝ) (s : ModelState K M C) : List Arr :=
  s.treeFlatten.1.mapIdx fun i a =>
    ⟨a.shape, a.dtype, (List.range a.data.length).map fun k =>
      deriv (fun t => numOf (s.traced (s.children i k) t >>= loss)) 0⟩

/-- An Optax gradient transformation: `optimizer.init(state)` and `optimizer.update(grads, opt_state)`,
`optax_optimize.py:104, 122`. -/
structure GradTransform (K M C O : Type) where
  init : ModelState K M C → O
  update : List Arr → O → List Arr × O

/-- The loss differentiated by `_step`, `optax_optimize.py:76-80`: parameters are constrained before the call. -/
def boundedLoss (loss : ModelState K M C → Except Err ℝ) (s : ModelState K M C) : Except Err ℝ := do
  let b ← s.transform "forward".toList
  loss b

/-- The optimiser together with JAX's gradient of the loss, `optax_optimize.py:101-105`. -/
def GradTransform.onLoss (gt : GradTransform K M C O) (loss : ModelState K M C → Except Err ℝ) : Optimizer K M C O where
  init := gt.init
  update s o := gt.update (stateGrad loss s) o

/-- `optax_minimize`, `optax_optimize.py:205-250`, with the gradient it uses (`optaxMinimize` takes any updates). -/
def optaxTrain {X Y : Type} (gt : GradTransform K M C O) (loss : X → Y → ModelState K M C → Except Err ℝ) (x : X) (y : Y)
    (xval : Option X) (yval : Option Y) (nsteps : ℕ) (state : ModelState K M C) :
    Except Err (ModelState K M C × O × OptaxHistory) :=
  optaxMinimize (gt.onLoss (boundedLoss (loss x y))) loss x y xval yval nsteps state

/-! ### Optimisers of the library `optax`

Not part of the repository; the optimisers that its users pass to `optax_minimize` work entry by entry. -/

/-- A rule for one entry: the number of the step (from one), the memory and the gradient give the update and the new
memory. -/
structure EntryRule (σ : Type) where
  init : σ
  step : ℕ → σ → ℝ → ℝ × σ

/-- The transformation that applies the rule to every entry of every array. -/
def EntryRule.transform {σ : Type} (e : EntryRule σ) : GradTransform K M C (ℕ × List (List σ)) where
  init s := (0, s.treeFlatten.1.map fun a => a.data.map fun _ => e.init)
  update g o := (List.zipWith (fun (a : Arr) m => { a with data := List.zipWith (fun x s => (e.step (o.1 + 1) s x).1) a.data m })
      g o.2,
    o.1 + 1, List.zipWith (fun (a : Arr) m => List.zipWith (fun x s => (e.step (o.1 + 1) s x).2) a.data m) g o.2)

/-- `optax.sgd(learning_rate)`. -/
def sgd (rate : ℝ) : EntryRule Unit := ⟨(), fun _ _ g => (-rate * g, ())⟩

/-- `optax.sgd(learning_rate, momentum)`. -/
def sgdMomentum (rate momentum : ℝ) : EntryRule ℝ :=
  ⟨0, fun _ m g => (-rate * (g + momentum * m), g + momentum * m)⟩

/-- `optax.adam(learning_rate, b1, b2, eps)`. -/
def adam (rate b1 b2 eps : ℝ) : EntryRule (ℝ × ℝ) :=
  ⟨(0, 0), fun t s g =>
    let m := (1 - b1) * g + b1 * s.1
    let v := (1 - b2) * g ^ 2 + b2 * s.2
    (-rate * ((m / (1 - b1 ^ t)) / (Real.sqrt (v / (1 - b2 ^ t)) + eps)), (m, v))⟩

end
end GPX
