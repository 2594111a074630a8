import Verif.Model.KernelClasses

/-!
# Specification vocabulary: writing the same kernel in another way

A kernel expression comes with its hyperparameters: those of `e1` in `e1 + e2` or `e1 * e2` are stored under `"kernel1"`,
those of `e2` under `"kernel2"`.
-/

namespace GPX.Spec
open GPX

variable {d : ℕ}

/-- Both kernels have the same values, derivatives, and contracted derivatives. -/
structure SameFunctions (e : KExpr d) (p : KPar) (f : KExpr d) (q : KPar) : Prop where
  k : ∀ {n m : ℕ} (x1 : Batch n d) (x2 : Batch m d), f.obj.k q x1 x2 = e.obj.k p x1 x2
  d0k : ∀ {n m : ℕ} (x1 : Batch n d) (x2 : Batch m d), f.obj.d0k q x1 x2 = e.obj.d0k p x1 x2
  d1k : ∀ {n m : ℕ} (x1 : Batch n d) (x2 : Batch m d), f.obj.d1k q x1 x2 = e.obj.d1k p x1 x2
  d01k : ∀ {n m : ℕ} (x1 : Batch n d) (x2 : Batch m d), f.obj.d01k q x1 x2 = e.obj.d01k p x1 x2
  d0kj : ∀ {n m v : ℕ} (x1 : Batch n d) (x2 : Batch m d) (J : Jac n d v),
    f.obj.d0kj q x1 x2 J = e.obj.d0kj p x1 x2 J
  d1kj : ∀ {n m v : ℕ} (x1 : Batch n d) (x2 : Batch m d) (J : Jac m d v),
    f.obj.d1kj q x1 x2 J = e.obj.d1kj p x1 x2 J
  d01kj : ∀ {n m v w : ℕ} (x1 : Batch n d) (x2 : Batch m d) (J1 : Jac n d v) (J2 : Jac m d w),
    f.obj.d01kj q x1 x2 J1 J2 = e.obj.d01kj p x1 x2 J1 J2
  d0kjc : ∀ {n m : ℕ} (x1 : Batch n d) (x2 : Batch m d) (jc : Batch n d),
    f.obj.d0kjc q x1 x2 jc = e.obj.d0kjc p x1 x2 jc
  d01kjc : ∀ {n m v : ℕ} (x1 : Batch n d) (x2 : Batch m d) (jc : Batch n d) (J : Jac m d v),
    f.obj.d01kjc q x1 x2 jc J = e.obj.d01kjc p x1 x2 jc J

/-- One expression is obtained from the other by the rules of arithmetic, and the hyperparameters move along: exchanging and
regrouping the terms of sums and the factors of products, multiplying out, joining constants, dropping a factor `1` and a
summand `0`; at any depth, any number of times, in both directions. -/
inductive Rearranged : KExpr d → KPar → KExpr d → KPar → Prop
  | refl {e p} : Rearranged e p e p
  | symm {e p f q} : Rearranged e p f q → Rearranged f q e p
  | trans {e p f q g r} : Rearranged e p f q → Rearranged f q g r → Rearranged e p g r
  | inSum {e1 e2 p f1 f2 q} : Rearranged e1 (p.sub "kernel1") f1 (q.sub "kernel1") →
      Rearranged e2 (p.sub "kernel2") f2 (q.sub "kernel2") → Rearranged (.sum e1 e2) p (.sum f1 f2) q
  | inProd {e1 e2 p f1 f2 q} : Rearranged e1 (p.sub "kernel1") f1 (q.sub "kernel1") →
      Rearranged e2 (p.sub "kernel2") f2 (q.sub "kernel2") → Rearranged (.prod e1 e2) p (.prod f1 f2) q
  | addComm {e1 e2 p q} : q.sub "kernel1" = p.sub "kernel2" → q.sub "kernel2" = p.sub "kernel1" →
      Rearranged (.sum e1 e2) p (.sum e2 e1) q
  | addAssoc {e1 e2 e3 p q} : q.sub "kernel1" = (p.sub "kernel1").sub "kernel1" →
      (q.sub "kernel2").sub "kernel1" = (p.sub "kernel1").sub "kernel2" →
      (q.sub "kernel2").sub "kernel2" = p.sub "kernel2" →
      Rearranged (.sum (.sum e1 e2) e3) p (.sum e1 (.sum e2 e3)) q
  | mulComm {e1 e2 p q} : q.sub "kernel1" = p.sub "kernel2" → q.sub "kernel2" = p.sub "kernel1" →
      Rearranged (.prod e1 e2) p (.prod e2 e1) q
  | mulAssoc {e1 e2 e3 p q} : q.sub "kernel1" = (p.sub "kernel1").sub "kernel1" →
      (q.sub "kernel2").sub "kernel1" = (p.sub "kernel1").sub "kernel2" →
      (q.sub "kernel2").sub "kernel2" = p.sub "kernel2" →
      Rearranged (.prod (.prod e1 e2) e3) p (.prod e1 (.prod e2 e3)) q
  | distrib {e1 e2 e3 p q} : (q.sub "kernel1").sub "kernel1" = (p.sub "kernel1").sub "kernel1" →
      (q.sub "kernel1").sub "kernel2" = p.sub "kernel2" →
      (q.sub "kernel2").sub "kernel1" = (p.sub "kernel1").sub "kernel2" →
      (q.sub "kernel2").sub "kernel2" = p.sub "kernel2" →
      Rearranged (.prod (.sum e1 e2) e3) p (.sum (.prod e1 e3) (.prod e2 e3)) q
  | constAdd {a b c p q} : q.val "variance" = (p.sub "kernel1").val "variance" + (p.sub "kernel2").val "variance" →
      Rearranged (.sum (.constant a) (.constant b)) p (.constant c) q
  | constMul {a b c p q} : q.val "variance" = (p.sub "kernel1").val "variance" * (p.sub "kernel2").val "variance" →
      Rearranged (.prod (.constant a) (.constant b)) p (.constant c) q
  | addZero {a e p} : (p.sub "kernel1").val "variance" = 0 →
      Rearranged (.sum (.constant a) e) p e (p.sub "kernel2")
  | mulOne {a e p} : (p.sub "kernel1").val "variance" = 1 →
      Rearranged (.prod (.constant a) e) p e (p.sub "kernel2")

end GPX.Spec
