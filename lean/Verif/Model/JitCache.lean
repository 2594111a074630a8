import Verif.Model.KernelClasses

/-!
# Kernel objects as static arguments of compiled functions

The functions of `models/_gpr.py`, `_sgpr.py`, `_sgpr_rpchol.py`, `gpr_td.py` and `kernels/approximations.py` are compiled
by `jax.jit` with the kernel among `static_argnums` (e.g. `_gpr.py` 39-40, 262-263, 434-435). A compiled function is
traced at its first call with given static arguments and shapes; the trace is kept and used again when the static
arguments are equal and the shapes are the same. `Kernel` defines neither `__eq__` nor `__hash__` (kernels/kernels.py
1381-1494), so two kernels are equal when they are the same object. The trace contains what the attributes of the kernel
(`kernel.k`, `kernel.d01kj`, …) computed when it was made. Other static arguments (mean function, flags) do not change
and are part of the name `Fn` of the function here. Objects used as static arguments are kept alive by the cache, so
addresses are not used twice.
-/

namespace GPX
variable {d : ℕ} {Fn Shape Out : Type} {Args : Shape → Type}

/-- The memory of a program that uses kernels: the attributes of every kernel object, by address, and the traces kept by
the compiled functions: function, address of the kernel and shapes, with the attributes used by the trace. -/
structure KernelMem (d : ℕ) (Fn Shape : Type) where
  objs : List (KernelObj d)
  cache : List ((Fn × ℕ × Shape) × KernelObj d)

/-- What a program does with kernels. -/
inductive KernelOp (d : ℕ) (Fn Shape : Type) (Args : Shape → Type) where
  /-- Make a kernel, kernels/kernels.py 1433-1485 and the `__init__` of its subclasses. -/
  | make (o : KernelObj d)
  /-- `k1 + k2`, kernels/kernels.py 1490-1491 and 1813-1841: the attributes of the two kernels are read now. -/
  | sum (i j : ℕ)
  /-- `k1 * k2`, kernels/kernels.py 1493-1494 and 1870-1935. -/
  | prod (i j : ℕ)
  /-- Assign attributes (`kernel.k = …`), as the documentation of the class suggests (kernels/kernels.py 1414-1430). -/
  | assign (i : ℕ) (f : KernelObj d → KernelObj d)
  /-- Call a compiled function of a model with this kernel and arrays of the given shapes. -/
  | call (fn : Fn) (i : ℕ) (sh : Shape) (args : Args sh)

variable [DecidableEq Fn] [DecidableEq Shape]

/-- The trace kept for this function, kernel and shapes. -/
def KernelMem.lookup (mem : KernelMem d Fn Shape) (key : Fn × ℕ × Shape) : Option (KernelObj d) :=
  (mem.cache.find? fun e => e.1 = key).map (·.2)

/-- One operation; `sem fn o sh args` is what the Python code of function `fn` computes with a kernel with attributes
`o`. References to objects that do not exist have no effect (they cannot be written). -/
def KernelMem.step (sem : Fn → KernelObj d → (sh : Shape) → Args sh → Out) (mem : KernelMem d Fn Shape) :
    KernelOp d Fn Shape Args → KernelMem d Fn Shape × Option Out
  | .make o => ({ mem with objs := mem.objs ++ [o] }, none)
  | .sum i j => match mem.objs[i]?, mem.objs[j]? with
    | some a, some b => ({ mem with objs := mem.objs ++ [a.sum b] }, none)
    | _, _ => (mem, none)
  | .prod i j => match mem.objs[i]?, mem.objs[j]? with
    | some a, some b => ({ mem with objs := mem.objs ++ [a.prod b] }, none)
    | _, _ => (mem, none)
  | .assign i f => ({ mem with objs := mem.objs.modify i f }, none)
  | .call fn i sh args => match mem.objs[i]? with
    | none => (mem, none)
    | some o => match mem.lookup (fn, i, sh) with
      | some o' => (mem, some (sem fn o' sh args))
      | none => ({ mem with cache := ((fn, i, sh), o) :: mem.cache }, some (sem fn o sh args))

/-- A program: the memory afterwards and what each operation returned. -/
def KernelMem.run (sem : Fn → KernelObj d → (sh : Shape) → Args sh → Out) :
    KernelMem d Fn Shape → List (KernelOp d Fn Shape Args) → KernelMem d Fn Shape × List (Option Out)
  | mem, [] => (mem, [])
  | mem, op :: ops =>
    let r := mem.step sem op
    let r' := KernelMem.run sem r.1 ops
    (r'.1, r.2 :: r'.2)

end GPX
