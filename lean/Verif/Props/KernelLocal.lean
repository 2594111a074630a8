import Verif.Lemmas.KernelClosedJ

/-!
# C63: kernel matrices are built sample by sample
-/

namespace GPX.Props
open GPX GPX.Spec

variable {d : ℕ}

theorem sampleWise_of_forms {κ : KernelObj d} {p : KPar} {ad : Dims d} {c : Core} {G0 G1 H}
    (h : ClosedJ κ p ad c) (hr : RawForm κ p G0 G1 H) : SampleWise κ p where
  k x1 x2 f g i j := by rw [h.k, h.k]
  d0k x1 x2 f g i q j := by rw [hr.d0k, hr.d0k]
  d1k x1 x2 f g i j q := by rw [hr.d1k, hr.d1k]
  d01k x1 x2 f g i q j r := by rw [hr.d01k, hr.d01k]
  d0kj x1 x2 J f g i q j := by rw [h.d0kj, h.d0kj]
  d1kj x1 x2 J f g i j q := by rw [h.d1kj, h.d1kj]
  d01kj x1 x2 J1 J2 f g i q j r := by rw [h.d01kj, h.d01kj]
  d0kjc x1 x2 jc f g i j := by rw [h.d0kjc, h.d0kjc]
  d01kjc x1 x2 jc J f g i j q := by rw [h.d01kjc, h.d01kjc]

theorem sampleWise_of_closed {κ : KernelObj d} {p : KPar} {ad : Dims d} {c : Core}
    (h : ClosedForm κ p ad c) : SampleWise κ p := sampleWise_of_forms h.toJ h.raw

theorem sampleWise_sum {κ1 κ2 : KernelObj d} {p : KPar} (h1 : SampleWise κ1 (p.sub "kernel1"))
    (h2 : SampleWise κ2 (p.sub "kernel2")) : SampleWise (κ1.sum κ2) p where
  k x1 x2 f g i j := by simp only [KernelObj.sum, sumKernels, Arr2.add]; rw [h1.k, h2.k]
  d0k x1 x2 f g i q j := by simp only [KernelObj.sum, sumKernels, Arr2.add]; rw [h1.d0k, h2.d0k]
  d1k x1 x2 f g i j q := by simp only [KernelObj.sum, sumKernels, Arr2.add]; rw [h1.d1k, h2.d1k]
  d01k x1 x2 f g i q j r := by
    simp only [KernelObj.sum, sumKernels, Arr2.add]; rw [h1.d01k, h2.d01k]
  d0kj x1 x2 J f g i q j := by
    simp only [KernelObj.sum, sumKernelsJac, Arr2.add]; rw [h1.d0kj, h2.d0kj]
  d1kj x1 x2 J f g i j q := by
    simp only [KernelObj.sum, sumKernelsJac, Arr2.add]; rw [h1.d1kj, h2.d1kj]
  d01kj x1 x2 J1 J2 f g i q j r := by
    simp only [KernelObj.sum, sumKernelsJac2, Arr2.add]; rw [h1.d01kj, h2.d01kj]
  d0kjc x1 x2 jc f g i j := by
    simp only [KernelObj.sum, sumKernelsJac, Arr2.add]; rw [h1.d0kjc, h2.d0kjc]
  d01kjc x1 x2 jc J f g i j q := by
    simp only [KernelObj.sum, sumKernelsJac2, Arr2.add]; rw [h1.d01kjc, h2.d01kjc]

theorem sampleWise_prod {κ1 κ2 : KernelObj d} {p : KPar} (h1 : SampleWise κ1 (p.sub "kernel1"))
    (h2 : SampleWise κ2 (p.sub "kernel2")) : SampleWise (κ1.prod κ2) p where
  k x1 x2 f g i j := by simp only [KernelObj.prod, prodKernels, Arr2.mul]; rw [h1.k, h2.k]
  d0k x1 x2 f g i q j := by
    simp only [KernelObj.prod, prodDeriv0, Arr2.mul, Arr2.add, repeatRows_flat]
    rw [h1.k, h2.k, h1.d0k, h2.d0k]
  d1k x1 x2 f g i j q := by
    simp only [KernelObj.prod, prodDeriv1, Arr2.mul, Arr2.add, repeatCols_flat]
    rw [h1.k, h2.k, h1.d1k, h2.d1k]
  d01k x1 x2 f g i q j r := by
    simp only [KernelObj.prod, prodDeriv01, Arr2.mul, Arr2.add, repeatCols_flat, repeatRows_flat]
    rw [h1.k, h2.k, h1.d0k, h2.d0k, h1.d1k, h2.d1k, h1.d01k, h2.d01k]
  d0kj x1 x2 J f g i q j := by
    simp only [KernelObj.prod, prodDeriv0Jac, Arr2.mul, Arr2.add, repeatRows_flat]
    rw [h1.k, h2.k, h1.d0kj, h2.d0kj]
  d1kj x1 x2 J f g i j q := by
    simp only [KernelObj.prod, prodDeriv1Jac, Arr2.mul, Arr2.add, repeatCols_flat]
    rw [h1.k, h2.k, h1.d1kj, h2.d1kj]
  d01kj x1 x2 J1 J2 f g i q j r := by
    simp only [KernelObj.prod, prodDeriv01Jac, Arr2.mul, Arr2.add, repeatCols_flat, repeatRows_flat]
    rw [h1.k, h2.k, h1.d0kj, h2.d0kj, h1.d1kj, h2.d1kj, h1.d01kj, h2.d01kj]
  d0kjc x1 x2 jc f g i j := by
    simp only [KernelObj.prod, prodDeriv0Jaccoef, Arr2.mul, Arr2.add]
    rw [h1.k, h2.k, h1.d0kjc, h2.d0kjc]
  d01kjc x1 x2 jc J f g i j q := by
    simp only [KernelObj.prod, prodDeriv01Jaccoef, Arr2.mul, Arr2.add, repeatCols_flat]
    rw [h1.k, h2.k, h1.d0kjc, h2.d0kjc, h1.d1kj, h2.d1kj, h1.d01kjc, h2.d01kjc]

/-- **C63.** For every kernel expression (leaves with any `active_dims`, sums, products), all hyperparameters, datasets and
index lists: the kernel matrix and all eight derivative kernels of selected samples are the selected rows and columns of
those of all samples. -/
theorem C63_sampleWise (e : KExpr d) (p : KPar) : SampleWise e.obj p := by
  induction e generalizing p with
  | constant a => exact sampleWise_of_closed (closed_constant a p)
  | linear a => exact sampleWise_of_forms (closedJ_linear a p) (raw_linear a p)
  | polynomial a b => exact sampleWise_of_forms (closedJ_polynomial a b p) (raw_polynomial a b p)
  | squaredExponential a => exact sampleWise_of_forms (closedJ_se a p) (raw_se a p)
  | matern12 a => exact sampleWise_of_closed (closed_m12 a p)
  | matern32 a => exact sampleWise_of_closed (closed_m32 a p)
  | matern52 a => exact sampleWise_of_forms (closedJ_m52 a p) (raw_m52 a p)
  | expSinSquared a => exact sampleWise_of_closed (closed_ess a p)
  | sum e1 e2 ih1 ih2 => exact sampleWise_sum (ih1 _) (ih2 _)
  | prod e1 e2 ih1 ih2 => exact sampleWise_prod (ih1 _) (ih2 _)

/-- Non-vacuity: the value of a product kernel, one factor on repeated features, on the third and the first sample. -/
example (p : KPar) (x : Batch 3 3) :
    let κ := (KExpr.prod (.squaredExponential none) (.linear (some ⟨2, ![2, 2]⟩)) : KExpr 3).obj
    κ.k p (fun s : Fin 2 => x (![2, 0] s)) x 0 1 = κ.k p x x 2 1 :=
  (C63_sampleWise _ p).k x x ![2, 0] id 0 1

end GPX.Props
