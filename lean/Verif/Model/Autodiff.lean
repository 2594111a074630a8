import Verif.Model.Kernelizers
import Mathlib.Analysis.SpecialFunctions.Pow.Real
import Mathlib.Analysis.SpecialFunctions.Trigonometric.Basic

/-!
# Automatic differentiation of the base kernels

`kernels/kernelizers.py` differentiates the base kernels with `jacrev` and `jacfwd`. A base kernel is a
composition of JAX primitives; `Ex` is the language of these compositions and `Ex.D` transforms a
program into the program that computes its derivative, by the JVP rule of each primitive. Reverse and
forward mode compute the same number over the reals, so one transformation models both.

The rules are those of JAX (`jax/_src/lax/lax.py`): they are part of the trusted base. At a kink the rule
still returns a number: `abs` uses `+1` at `0`, `maximum` shares the derivative equally at a tie.
`Lemmas/Autodiff.lean` proves that the rules give the true derivative wherever no kink is hit.
-/

namespace GPX

/-- Programs over variables `V` built from the primitives the base kernels use. -/
inductive Ex (V : Type) : Type
  /-- an input -/
  | var (v : V)
  /-- a number that does not depend on the inputs (hyperparameters included) -/
  | const (r : ℝ)
  | add (a b : Ex V)
  | mul (a b : Ex V)
  | neg (a : Ex V)
  | inv (a : Ex V)
  | exp (a : Ex V)
  | sin (a : Ex V)
  | cos (a : Ex V)
  | abs (a : Ex V)
  /-- the factor the JVP rule of `abs` multiplies the tangent with -/
  | absSign (a : Ex V)
  | sqrt (a : Ex V)
  /-- `jnp.maximum(a, c)` with a literal `c` -/
  | maxc (a : Ex V) (c : ℝ)
  /-- the factor the JVP rule of `maximum` multiplies the tangent of its first argument with -/
  | maxMask (a : Ex V) (c : ℝ)
  /-- `a ** p` with `p` a hyperparameter -/
  | powc (a : Ex V) (p : ℝ)
  /-- `jnp.sum` over an axis of length `n` -/
  | sum {n : ℕ} (a : Fin n → Ex V)

namespace Ex

variable {V : Type}

/-- The value of a program. `1/0`, `sqrt` of a negative number and `pow` of a negative base are NaN or
infinite in the code and ordinary (junk) numbers here; the theorems exclude them. -/
noncomputable def eval (env : V → ℝ) : Ex V → ℝ
  | var v => env v
  | const r => r
  | add a b => a.eval env + b.eval env
  | mul a b => a.eval env * b.eval env
  | neg a => -a.eval env
  | inv a => (a.eval env)⁻¹
  | exp a => Real.exp (a.eval env)
  | sin a => Real.sin (a.eval env)
  | cos a => Real.cos (a.eval env)
  | abs a => |a.eval env|
  | absSign a => if 0 ≤ a.eval env then 1 else -1
  | sqrt a => Real.sqrt (a.eval env)
  | maxc a c => max (a.eval env) c
  | maxMask a c => if c < a.eval env then 1 else if a.eval env = c then 1 / 2 else 0
  | powc a p => (a.eval env) ^ p
  | sum a => ∑ i, (a i).eval env

/-- The derivative program with respect to variable `v`, by the JVP rules. For `pow` JAX uses the
exponent `1` instead of `p - 1` when `p = 0`. -/
noncomputable def D [DecidableEq V] (v : V) : Ex V → Ex V
  | var w => const (if w = v then 1 else 0)
  | const _ => const 0
  | add a b => add (D v a) (D v b)
  | mul a b => add (mul (D v a) b) (mul a (D v b))
  | neg a => neg (D v a)
  | inv a => neg (mul (D v a) (mul (inv a) (inv a)))
  | exp a => mul (D v a) (exp a)
  | sin a => mul (D v a) (cos a)
  | cos a => neg (mul (D v a) (sin a))
  | abs a => mul (D v a) (absSign a)
  | absSign _ => const 0
  | sqrt a => mul (D v a) (mul (const (1 / 2)) (inv (sqrt a)))
  | maxc a c => mul (D v a) (maxMask a c)
  | maxMask _ _ => const 0
  | powc a p => mul (D v a) (mul (const p) (powc a (if p = 0 then 1 else p - 1)))
  | sum a => sum fun i => D v (a i)

end Ex

/-- The inputs of a base kernel: `inl f` is feature `f` of `x1`, `inr f` of `x2`. -/
abbrev KVar (d : ℕ) := Fin d ⊕ Fin d

/-- The nested dictionary `params` of kernel hyperparameters: the value stored at a path of keys. A
missing key is a `KeyError` in the code and is not modelled. -/
abbrev KPar := List String → ℝ

/-- `params[key].value`. -/
def KPar.val (p : KPar) (key : String) : ℝ := p [key]

/-- `params[key]` when it is again a dictionary. -/
def KPar.sub (p : KPar) (key : String) : KPar := fun path => p (key :: path)

/-- A base kernel (a function of two samples) together with what `jacrev(·, argnums=0)`,
`jacrev(·, argnums=1)` and `jacfwd(jacrev(·, argnums=0), argnums=1)` return for it. -/
structure BaseKernel (d : ℕ) where
  f : KPar → Sample d → Sample d → ℝ
  g0 : KPar → Sample d → Sample d → Fin d → ℝ
  g1 : KPar → Sample d → Sample d → Fin d → ℝ
  h01 : KPar → Sample d → Sample d → Fin d → Fin d → ℝ

/-- A base kernel differentiated by JAX's own rules. -/
noncomputable def BaseKernel.ofEx {d : ℕ} (e : KPar → Ex (KVar d)) : BaseKernel d where
  f p x y := (e p).eval (Sum.elim x y)
  g0 p x y a := ((e p).D (Sum.inl a)).eval (Sum.elim x y)
  g1 p x y b := ((e p).D (Sum.inr b)).eval (Sum.elim x y)
  h01 p x y a b := (((e p).D (Sum.inl a)).D (Sum.inr b)).eval (Sum.elim x y)

/-- A base kernel `f(x1[active_dims], x2[active_dims])` whose derivative is given by `custom_jvp` rules:
`t0` and `t1` are the rules for the two (restricted) arguments. The gradient with respect to the full
sample is the transpose of the indexing, i.e. each active entry is added to its feature; the second
derivative differentiates the *rule* `t0`, by JAX's own rules. -/
noncomputable def BaseKernel.customJvp {d : ℕ} (ad : Dims d) (e : KPar → Ex (KVar d))
    (t0 t1 : KPar → Fin ad.k → Ex (KVar d)) : BaseKernel d where
  f p x y := (e p).eval (Sum.elim x y)
  g0 p x y a := (Ex.sum fun i => if ad.idx i = a then t0 p i else .const 0).eval (Sum.elim x y)
  g1 p x y b := (Ex.sum fun i => if ad.idx i = b then t1 p i else .const 0).eval (Sum.elim x y)
  h01 p x y a b :=
    ((Ex.sum fun i => if ad.idx i = a then t0 p i else .const 0).D (Sum.inr b)).eval (Sum.elim x y)

/-- The base kernel `k1 + k2` (`sum_kernels`, kernels/operations.py 103-124, applied to base kernels at
kernels/kernels.py 1821); differentiation is linear. -/
def BaseKernel.add {d : ℕ} (k1 k2 : BaseKernel d) : BaseKernel d where
  f p x y := k1.f (p.sub "kernel1") x y + k2.f (p.sub "kernel2") x y
  g0 p x y a := k1.g0 (p.sub "kernel1") x y a + k2.g0 (p.sub "kernel2") x y a
  g1 p x y a := k1.g1 (p.sub "kernel1") x y a + k2.g1 (p.sub "kernel2") x y a
  h01 p x y a b := k1.h01 (p.sub "kernel1") x y a b + k2.h01 (p.sub "kernel2") x y a b

/-- The base kernel `k1 * k2` (`prod_kernels`, kernels/operations.py 175-193, applied to base kernels at
kernels/kernels.py 1877); the JVP rule of multiplication. -/
def BaseKernel.mul {d : ℕ} (k1 k2 : BaseKernel d) : BaseKernel d where
  f p x y := k1.f (p.sub "kernel1") x y * k2.f (p.sub "kernel2") x y
  g0 p x y a := k1.g0 (p.sub "kernel1") x y a * k2.f (p.sub "kernel2") x y +
    k1.f (p.sub "kernel1") x y * k2.g0 (p.sub "kernel2") x y a
  g1 p x y a := k1.g1 (p.sub "kernel1") x y a * k2.f (p.sub "kernel2") x y +
    k1.f (p.sub "kernel1") x y * k2.g1 (p.sub "kernel2") x y a
  h01 p x y a b :=
    k1.h01 (p.sub "kernel1") x y a b * k2.f (p.sub "kernel2") x y +
    k1.g0 (p.sub "kernel1") x y a * k2.g1 (p.sub "kernel2") x y b +
    k1.g1 (p.sub "kernel1") x y b * k2.g0 (p.sub "kernel2") x y a +
    k1.f (p.sub "kernel1") x y * k2.h01 (p.sub "kernel2") x y a b

end GPX
