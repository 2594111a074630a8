import Verif.Model.Kernels

/-!
# The kernel classes of `kernels/kernels.py` and the combinators of `kernels/operations.py`

A kernel object is the record of its callables. Each callable works for every batch size.
-/

namespace GPX

/-- The attributes of a `Kernel` object (kernels/kernels.py 1433-1494). `active_dims` is already bound in
every callable (`functools.partial`). -/
structure KernelObj (d : ℕ) where
  base : BaseKernel d
  k : ∀ {n m : ℕ}, KPar → Batch n d → Batch m d → Arr2 n m
  d0k : ∀ {n m : ℕ}, KPar → Batch n d → Batch m d → Arr2 (n * d) m
  d1k : ∀ {n m : ℕ}, KPar → Batch n d → Batch m d → Arr2 n (m * d)
  d01k : ∀ {n m : ℕ}, KPar → Batch n d → Batch m d → Arr2 (n * d) (m * d)
  d0kj : ∀ {n m v : ℕ}, KPar → Batch n d → Batch m d → Jac n d v → Arr2 (n * v) m
  d1kj : ∀ {n m v : ℕ}, KPar → Batch n d → Batch m d → Jac m d v → Arr2 n (m * v)
  d01kj : ∀ {n m v1 v2 : ℕ}, KPar → Batch n d → Batch m d → Jac n d v1 → Jac m d v2 →
    Arr2 (n * v1) (m * v2)
  d0kjc : ∀ {n m : ℕ}, KPar → Batch n d → Batch m d → Batch n d → Arr2 n m
  d01kjc : ∀ {n m v : ℕ}, KPar → Batch n d → Batch m d → Batch n d → Jac m d v → Arr2 n (m * v)

variable {d : ℕ}

/-- `Kernel.__init__`, kernels/kernels.py 1433-1485: every callable is the kernelized base kernel. The
coefficient variants use `trace_samples=False`. -/
def KernelObj.init (b : BaseKernel d) : KernelObj d where
  base := b
  k p x1 x2 := kernelize (b.f p) true x1 x2
  d0k p x1 x2 := grad0Kernelize (b.g0 p) x1 x2
  d1k p x1 x2 := grad1Kernelize (b.g1 p) x1 x2
  d01k p x1 x2 := grad01Kernelize (b.h01 p) x1 x2
  d0kj p x1 x2 J := grad0jacKernelize (b.g0 p) x1 x2 J
  d1kj p x1 x2 J := grad1jacKernelize (b.g1 p) x1 x2 J
  d01kj p x1 x2 J1 J2 := grad01jacKernelize (b.h01 p) x1 x2 J1 J2
  d0kjc p x1 x2 jc := grad0jaccoefUntraced (b.g0 p) x1 x2 jc
  d01kjc p x1 x2 jc J := grad01jaccoefUntraced (b.h01 p) x1 x2 jc J

/-- `Constant`, kernels/kernels.py 1497-1522. The callables are the public functions `constant_kernel…` (90-96,
106-110, 120-124, 134-138, 150-158, 170-178, 193-202), which take the values out of `params` and call the functions
of `Model/Kernels.lean`. -/
noncomputable def KernelObj.constant (active : Option (Dims d)) : KernelObj d :=
  let ad := Dims.resolve active
  { KernelObj.init (BaseKernel.ofEx fun p => constantBase ad (p.val "variance")) with
    k := fun p x1 x2 => constantK (p.val "variance") x1 x2
    d0k := fun _ x1 x2 => constantD0k x1 x2
    d1k := fun _ x1 x2 => constantD1k x1 x2
    d01k := fun _ x1 x2 => constantD01k x1 x2
    d0kj := fun _ x1 x2 J => constantD0kj x1 x2 J
    d1kj := fun _ x1 x2 J => constantD1kj x1 x2 J
    d01kj := fun _ x1 x2 J1 J2 => constantD01kj x1 x2 J1 J2 }

/-- `Linear`, kernels/kernels.py 1535-1559. The callables are the public functions `linear_kernel…` (248-253,
265-270, 283-288, 303-312, 327-336, 358-368), which call the functions of `Model/Kernels.lean`. -/
noncomputable def KernelObj.linear (active : Option (Dims d)) : KernelObj d :=
  let ad := Dims.resolve active
  { KernelObj.init (BaseKernel.ofEx fun _ => linearBase ad) with
    k := fun _ x1 x2 => linearK ad x1 x2
    d0k := fun _ x1 x2 => linearD0k ad x1 x2
    d1k := fun _ x1 x2 => linearD1k ad x1 x2
    d01k := fun _ x1 x2 => linearD01k ad x1 x2
    d0kj := fun _ x1 x2 J => linearD0kj ad x1 x2 J
    d1kj := fun _ x1 x2 J => linearD1kj ad x1 x2 J
    d01kj := fun _ x1 x2 J1 J2 => linearD01kj ad x1 x2 J1 J2 }

/-- `Polynomial`, kernels/kernels.py 1565-1605. The callables are the public functions `polynomial_kernel…` (428-435,
458-465, 499-506, 529-540, 563-574, 613-627, 666-680), which take `degree` and `offset` out of `params`. -/
noncomputable def KernelObj.polynomial (active : Option (Dims d)) (noIntercept : Bool) :
    KernelObj d :=
  let ad := Dims.resolve active
  let deg : KPar → ℝ := fun p => p.val "degree"
  let off : KPar → ℝ := fun p => p.val "offset"
  { KernelObj.init (BaseKernel.ofEx fun p =>
      if noIntercept then noInterceptPolynomialBase ad (deg p) (off p)
      else polynomialBase ad (deg p) (off p)) with
    k := fun p x1 x2 =>
      if noIntercept then noInterceptPolynomialK ad (deg p) (off p) x1 x2
      else polynomialK ad (deg p) (off p) x1 x2
    d0k := fun p x1 x2 => polynomialD0k ad (deg p) (off p) x1 x2
    d1k := fun p x1 x2 => polynomialD1k ad (deg p) (off p) x1 x2
    d01k := fun p x1 x2 => polynomialD01k ad (deg p) (off p) x1 x2
    d0kj := fun p x1 x2 J => polynomialD0kj ad (deg p) (off p) x1 x2 J
    d1kj := fun p x1 x2 J => polynomialD1kj ad (deg p) (off p) x1 x2 J
    d01kj := fun p x1 x2 J1 J2 => polynomialD01kj ad (deg p) (off p) x1 x2 J1 J2
    d01kjc := fun p x1 x2 jc J => polynomialD01kjc ad (deg p) (off p) x1 x2 jc J }

/-- `SquaredExponential`, kernels/kernels.py 1623-1648. The callables are the public functions
`squared_exponential_kernel…` (among them 792-801, 835-848, 881-894), which take `lengthscale` out of `params`. -/
noncomputable def KernelObj.squaredExponential (active : Option (Dims d)) : KernelObj d :=
  let ad := Dims.resolve active
  let l : KPar → ℝ := fun p => p.val "lengthscale"
  { KernelObj.init (BaseKernel.ofEx fun p => squaredExponentialBase ad (l p)) with
    k := fun p x1 x2 => squaredExponentialK ad (l p) x1 x2
    d01k := fun p x1 x2 => squaredExponentialD01k ad (l p) x1 x2
    d01kj := fun p x1 x2 J1 J2 => squaredExponentialD01kj ad (l p) x1 x2 J1 J2
    d01kjc := fun p x1 x2 jc J => squaredExponentialD01kjc ad (l p) x1 x2 jc J }

/-- `Matern12`, kernels/kernels.py 1661-1676. -/
noncomputable def KernelObj.matern12 (active : Option (Dims d)) : KernelObj d :=
  let ad := Dims.resolve active
  { KernelObj.init (BaseKernel.ofEx fun p => matern12Base ad (p.val "lengthscale")) with
    k := fun p x1 x2 => matern12K ad (p.val "lengthscale") x1 x2 }

/-- `Matern32`, kernels/kernels.py 1689-1704, with the `custom_jvp` rules of lines 1010-1021. -/
noncomputable def KernelObj.matern32 (active : Option (Dims d)) : KernelObj d :=
  let ad := Dims.resolve active
  { KernelObj.init (BaseKernel.customJvp ad (fun p => matern32BaseEx ad (p.val "lengthscale"))
      (fun p => matern32T0 ad (p.val "lengthscale"))
      (fun p => matern32T1 ad (p.val "lengthscale"))) with
    k := fun p x1 x2 => matern32K ad (p.val "lengthscale") x1 x2 }

/-- `Matern52`, kernels/kernels.py 1717-1744, with the `custom_jvp` rules of lines 1094-1105. The callables are the
public functions `matern52_kernel…` (1126-1132, 1153-1163, 1184-1190, 1211-1221, 1244-1250, 1287-1300, 1336-1347),
which take `lengthscale` out of `params`. -/
noncomputable def KernelObj.matern52 (active : Option (Dims d)) : KernelObj d :=
  let ad := Dims.resolve active
  let l : KPar → ℝ := fun p => p.val "lengthscale"
  { KernelObj.init (BaseKernel.customJvp ad (fun p => matern52BaseEx ad (l p))
      (fun p => matern52T0 ad (l p)) (fun p => matern52T1 ad (l p))) with
    k := fun p x1 x2 => matern52K ad (l p) x1 x2
    d0k := fun p x1 x2 => matern52D0k ad (l p) x1 x2
    d1k := fun p x1 x2 => matern52D1k ad (l p) x1 x2
    d01k := fun p x1 x2 => matern52D01k ad (l p) x1 x2
    d0kj := fun p x1 x2 J => matern52D0kj ad (l p) x1 x2 J
    d1kj := fun p x1 x2 J => matern52D1kj ad (l p) x1 x2 J
    d01kj := fun p x1 x2 J1 J2 => matern52D01kj ad (l p) x1 x2 J1 J2
    d01kjc := fun p x1 x2 jc J => matern52D01kjc ad (l p) x1 x2 jc J }

/-- `ExpSinSquared`, kernels/kernels.py 1757-1774: nothing overridden. -/
noncomputable def KernelObj.expSinSquared (active : Option (Dims d)) : KernelObj d :=
  let ad := Dims.resolve active
  KernelObj.init (BaseKernel.ofEx fun p =>
    expSinSquaredBase ad (p.val "lengthscale") (p.val "periodicity"))

/-! ## Combinators, `kernels/operations.py` -/

/-- `a + b` of two arrays. -/
def Arr2.add {n m : ℕ} (a b : Arr2 n m) : Arr2 n m := fun i j => a i j + b i j

/-- `a * b` (elementwise) of two arrays. -/
def Arr2.mul {n m : ℕ} (a b : Arr2 n m) : Arr2 n m := fun i j => a i j * b i j

/-- `sum_kernels`, kernels/operations.py 103-124 (for any output shape). -/
def sumKernels {n m N M : ℕ} (f1 f2 : KPar → Batch n d → Batch m d → Arr2 N M) (p : KPar)
    (x1 : Batch n d) (x2 : Batch m d) : Arr2 N M :=
  Arr2.add (f1 (p.sub "kernel1") x1 x2) (f2 (p.sub "kernel2") x1 x2)

/-- `sum_kernels_jac`, kernels/operations.py 127-148: one extra argument (a jacobian, or the contracted
coefficients). -/
def sumKernelsJac {n m N M : ℕ} {A : Type} (f1 f2 : KPar → Batch n d → Batch m d → A → Arr2 N M)
    (p : KPar) (x1 : Batch n d) (x2 : Batch m d) (J : A) : Arr2 N M :=
  Arr2.add (f1 (p.sub "kernel1") x1 x2 J) (f2 (p.sub "kernel2") x1 x2 J)

/-- `sum_kernels_jac2`, kernels/operations.py 151-172: two extra arguments. -/
def sumKernelsJac2 {n m N M : ℕ} {A B : Type}
    (f1 f2 : KPar → Batch n d → Batch m d → A → B → Arr2 N M)
    (p : KPar) (x1 : Batch n d) (x2 : Batch m d) (J1 : A) (J2 : B) : Arr2 N M :=
  Arr2.add (f1 (p.sub "kernel1") x1 x2 J1 J2) (f2 (p.sub "kernel2") x1 x2 J1 J2)

/-- `prod_kernels`, kernels/operations.py 175-193. -/
def prodKernels {n m : ℕ} (f1 f2 : KPar → Batch n d → Batch m d → Arr2 n m) (p : KPar)
    (x1 : Batch n d) (x2 : Batch m d) : Arr2 n m :=
  Arr2.mul (f1 (p.sub "kernel1") x1 x2) (f2 (p.sub "kernel2") x1 x2)

/-- `Sum.__init__`, kernels/kernels.py 1813-1841. -/
def KernelObj.sum (k1 k2 : KernelObj d) : KernelObj d where
  base := BaseKernel.add k1.base k2.base
  k p x1 x2 := sumKernels k1.k k2.k p x1 x2
  d0k p x1 x2 := sumKernels k1.d0k k2.d0k p x1 x2
  d1k p x1 x2 := sumKernels k1.d1k k2.d1k p x1 x2
  d01k p x1 x2 := sumKernels k1.d01k k2.d01k p x1 x2
  d0kj p x1 x2 J := sumKernelsJac k1.d0kj k2.d0kj p x1 x2 J
  d1kj p x1 x2 J := sumKernelsJac k1.d1kj k2.d1kj p x1 x2 J
  d01kj p x1 x2 J1 J2 := sumKernelsJac2 k1.d01kj k2.d01kj p x1 x2 J1 J2
  d0kjc p x1 x2 jc := sumKernelsJac k1.d0kjc k2.d0kjc p x1 x2 jc
  d01kjc p x1 x2 jc J := sumKernelsJac2 k1.d01kjc k2.d01kjc p x1 x2 jc J

/-- `prod_kernels_deriv(…, axis=0)`, kernels/operations.py 196-234, as used for `Prod.d0k`
(kernels/kernels.py 1886): the kernels that are not differentiated are repeated along the rows. -/
def prodDeriv0 {n m : ℕ} (k1 k2 : KernelObj d) (p : KPar) (x1 : Batch n d) (x2 : Batch m d) :
    Arr2 (n * d) m :=
  let p1 := p.sub "kernel1"
  let p2 := p.sub "kernel2"
  Arr2.add (Arr2.mul (repeatRows d (k1.k p1 x1 x2)) (k2.d0k p2 x1 x2))
    (Arr2.mul (k1.d0k p1 x1 x2) (repeatRows d (k2.k p2 x1 x2)))

/-- `prod_kernels_deriv(…, axis=-1)`, kernels/operations.py 196-234, as used for `Prod.d1k`
(kernels/kernels.py 1887-1889). -/
def prodDeriv1 {n m : ℕ} (k1 k2 : KernelObj d) (p : KPar) (x1 : Batch n d) (x2 : Batch m d) :
    Arr2 n (m * d) :=
  let p1 := p.sub "kernel1"
  let p2 := p.sub "kernel2"
  Arr2.add (Arr2.mul (repeatCols d (k1.k p1 x1 x2)) (k2.d1k p2 x1 x2))
    (Arr2.mul (k1.d1k p1 x1 x2) (repeatCols d (k2.k p2 x1 x2)))

/-- `prod_kernels_deriv01`, kernels/operations.py 237-277. -/
def prodDeriv01 {n m : ℕ} (k1 k2 : KernelObj d) (p : KPar) (x1 : Batch n d) (x2 : Batch m d) :
    Arr2 (n * d) (m * d) :=
  let p1 := p.sub "kernel1"
  let p2 := p.sub "kernel2"
  Arr2.add (Arr2.add (Arr2.add
    (Arr2.mul (repeatCols d (repeatRows d (k1.k p1 x1 x2))) (k2.d01k p2 x1 x2))
    (Arr2.mul (repeatCols d (k1.d0k p1 x1 x2)) (repeatRows d (k2.d1k p2 x1 x2))))
    (Arr2.mul (repeatRows d (k1.d1k p1 x1 x2)) (repeatCols d (k2.d0k p2 x1 x2))))
    (Arr2.mul (k1.d01k p1 x1 x2) (repeatCols d (repeatRows d (k2.k p2 x1 x2))))

/-- `prod_kernels_deriv_jac(…, axis=0)`, kernels/operations.py 280-317, as used for `Prod.d0kj`
(kernels/kernels.py 1902-1904). -/
def prodDeriv0Jac {n m v : ℕ} (k1 k2 : KernelObj d) (p : KPar) (x1 : Batch n d) (x2 : Batch m d)
    (J : Jac n d v) : Arr2 (n * v) m :=
  let p1 := p.sub "kernel1"
  let p2 := p.sub "kernel2"
  Arr2.add (Arr2.mul (repeatRows v (k1.k p1 x1 x2)) (k2.d0kj p2 x1 x2 J))
    (Arr2.mul (k1.d0kj p1 x1 x2 J) (repeatRows v (k2.k p2 x1 x2)))

/-- `prod_kernels_deriv_jac(…, axis=-1)`, kernels/operations.py 280-317, as used for `Prod.d1kj`
(kernels/kernels.py 1905-1907). -/
def prodDeriv1Jac {n m v : ℕ} (k1 k2 : KernelObj d) (p : KPar) (x1 : Batch n d) (x2 : Batch m d)
    (J : Jac m d v) : Arr2 n (m * v) :=
  let p1 := p.sub "kernel1"
  let p2 := p.sub "kernel2"
  Arr2.add (Arr2.mul (repeatCols v (k1.k p1 x1 x2)) (k2.d1kj p2 x1 x2 J))
    (Arr2.mul (k1.d1kj p1 x1 x2 J) (repeatCols v (k2.k p2 x1 x2)))

/-- `prod_kernels_deriv0_jaccoef`, kernels/operations.py 320-342. -/
def prodDeriv0Jaccoef {n m : ℕ} (k1 k2 : KernelObj d) (p : KPar) (x1 : Batch n d) (x2 : Batch m d)
    (jc : Batch n d) : Arr2 n m :=
  let p1 := p.sub "kernel1"
  let p2 := p.sub "kernel2"
  Arr2.add (Arr2.mul (k1.k p1 x1 x2) (k2.d0kjc p2 x1 x2 jc))
    (Arr2.mul (k1.d0kjc p1 x1 x2 jc) (k2.k p2 x1 x2))

/-- `prod_kernels_deriv01_jac`, kernels/operations.py 345-389. -/
def prodDeriv01Jac {n m v1 v2 : ℕ} (k1 k2 : KernelObj d) (p : KPar) (x1 : Batch n d)
    (x2 : Batch m d) (J1 : Jac n d v1) (J2 : Jac m d v2) : Arr2 (n * v1) (m * v2) :=
  let p1 := p.sub "kernel1"
  let p2 := p.sub "kernel2"
  Arr2.add (Arr2.add (Arr2.add
    (Arr2.mul (repeatCols v2 (repeatRows v1 (k1.k p1 x1 x2))) (k2.d01kj p2 x1 x2 J1 J2))
    (Arr2.mul (repeatCols v2 (k1.d0kj p1 x1 x2 J1)) (repeatRows v1 (k2.d1kj p2 x1 x2 J2))))
    (Arr2.mul (repeatRows v1 (k1.d1kj p1 x1 x2 J2)) (repeatCols v2 (k2.d0kj p2 x1 x2 J1))))
    (Arr2.mul (k1.d01kj p1 x1 x2 J1 J2) (repeatCols v2 (repeatRows v1 (k2.k p2 x1 x2))))

/-- `prod_kernels_deriv01_jaccoef`, kernels/operations.py 392-426. -/
def prodDeriv01Jaccoef {n m v : ℕ} (k1 k2 : KernelObj d) (p : KPar) (x1 : Batch n d)
    (x2 : Batch m d) (jc : Batch n d) (J : Jac m d v) : Arr2 n (m * v) :=
  let p1 := p.sub "kernel1"
  let p2 := p.sub "kernel2"
  Arr2.add (Arr2.add (Arr2.add
    (Arr2.mul (repeatCols v (k1.k p1 x1 x2)) (k2.d01kjc p2 x1 x2 jc J))
    (Arr2.mul (repeatCols v (k1.d0kjc p1 x1 x2 jc)) (k2.d1kj p2 x1 x2 J)))
    (Arr2.mul (k1.d1kj p1 x1 x2 J) (repeatCols v (k2.d0kjc p2 x1 x2 jc))))
    (Arr2.mul (k1.d01kjc p1 x1 x2 jc J) (repeatCols v (k2.k p2 x1 x2)))

/-- `Prod.__init__`, kernels/kernels.py 1870-1935. -/
def KernelObj.prod (k1 k2 : KernelObj d) : KernelObj d where
  base := BaseKernel.mul k1.base k2.base
  k p x1 x2 := prodKernels k1.k k2.k p x1 x2
  d0k p x1 x2 := prodDeriv0 k1 k2 p x1 x2
  d1k p x1 x2 := prodDeriv1 k1 k2 p x1 x2
  d01k p x1 x2 := prodDeriv01 k1 k2 p x1 x2
  d0kj p x1 x2 J := prodDeriv0Jac k1 k2 p x1 x2 J
  d1kj p x1 x2 J := prodDeriv1Jac k1 k2 p x1 x2 J
  d01kj p x1 x2 J1 J2 := prodDeriv01Jac k1 k2 p x1 x2 J1 J2
  d0kjc p x1 x2 jc := prodDeriv0Jaccoef k1 k2 p x1 x2 jc
  d01kjc p x1 x2 jc J := prodDeriv01Jaccoef k1 k2 p x1 x2 jc J

/-- The kernels a user can build from the library's classes with `+` and `*`
(`Kernel.__add__`, `Kernel.__mul__`, kernels/kernels.py 1490-1494). -/
inductive KExpr (d : ℕ)
  | constant (active : Option (Dims d))
  | linear (active : Option (Dims d))
  | polynomial (active : Option (Dims d)) (noIntercept : Bool)
  | squaredExponential (active : Option (Dims d))
  | matern12 (active : Option (Dims d))
  | matern32 (active : Option (Dims d))
  | matern52 (active : Option (Dims d))
  | expSinSquared (active : Option (Dims d))
  | sum (k1 k2 : KExpr d)
  | prod (k1 k2 : KExpr d)

/-- The kernel object a kernel expression evaluates to. -/
noncomputable def KExpr.obj : KExpr d → KernelObj d
  | .constant a => .constant a
  | .linear a => .linear a
  | .polynomial a b => .polynomial a b
  | .squaredExponential a => .squaredExponential a
  | .matern12 a => .matern12 a
  | .matern32 a => .matern32 a
  | .matern52 a => .matern52 a
  | .expSinSquared a => .expSinSquared a
  | .sum k1 k2 => .sum k1.obj k2.obj
  | .prod k1 k2 => .prod k1.obj k2.obj

end GPX
