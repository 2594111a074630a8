import Verif.Model.GPRTD
import Verif.Lemmas.Operations
import Verif.Lemmas.GPR

/-! # Helper lemmas for `models/gpr_td.py` -/

namespace GPX
open GPX.Spec

variable {d m n o v w v' w' a b c r : ℕ}

/-! ## Lists -/

theorem laxScan_counter_list {A B : Type*} (φ : ℕ → A → B) (x : Fin n → A) (c : ℕ) :
    (laxScan (fun (c : ℕ) a => (c + 1, φ c a)) c (List.ofFn x)).2 = List.ofFn fun i => φ (c + i.val) (x i) := by
  induction n generalizing c with
  | zero => simp [laxScan]
  | succ n ih =>
    rw [List.ofFn_succ, List.ofFn_succ]
    simp only [laxScan]
    rw [ih]
    simp only [Fin.val_zero, Nat.add_zero, Fin.val_succ, List.cons.injEq, true_and]
    congr 1; funext i; congr 1; omega

/-- The elements of a list where a mask is true. -/
def keep {A : Type*} : List Bool → List A → List A
  | b :: bs, x :: xs => if b then x :: keep bs xs else keep bs xs
  | _, _ => []

theorem gather_aux (mask : List Bool) : ∀ (pre l : List (Fin o → ℝ)), mask.length = l.length →
    gatherRows (pre ++ l) (maskIdx pre.length mask) = keep mask l := by
  induction mask with
  | nil => intro pre l h; cases l <;> simp_all [maskIdx, keep, gatherRows]
  | cons t ts ih =>
    intro pre l h
    cases l with
    | nil => simp at h
    | cons x xs =>
      have h' : ts.length = xs.length := by simpa using h
      have := ih (pre ++ [x]) xs h'
      rw [List.append_assoc, List.singleton_append, List.length_append, List.length_singleton] at this
      cases t
      · simpa [maskIdx, keep] using this
      · simp only [maskIdx, keep, if_true, gatherRows, List.map_cons] at this ⊢
        rw [this]
        simp

theorem gather_maskIdx (mask : List Bool) (l : List (Fin o → ℝ)) (h : mask.length = l.length) :
    gatherRows l (maskIdx 0 mask) = keep mask l := gather_aux mask [] l h

theorem keep_append {A : Type*} (m1 : List Bool) : ∀ (m2 : List Bool) (l1 l2 : List A), m1.length = l1.length →
    keep (m1 ++ m2) (l1 ++ l2) = keep m1 l1 ++ keep m2 l2 := by
  induction m1 with
  | nil => intro m2 l1 l2 h; cases l1 <;> simp_all [keep]
  | cons t ts ih =>
    intro m2 l1 l2 h
    cases l1 with
    | nil => simp at h
    | cons x xs =>
      have := ih m2 xs l2 (by simpa using h)
      cases t <;> simp [keep, this]

theorem keep_true {A : Type*} (l : List A) : keep (List.replicate l.length true) l = l := by
  induction l with
  | nil => rfl
  | cons x xs ih => simp [List.replicate_succ, keep, ih]

theorem keep_false {A : Type*} (l : List A) : keep (List.replicate l.length false) l = [] := by
  induction l with
  | nil => rfl
  | cons x xs ih => simp [List.replicate_succ, keep, ih]

theorem keep_tile {A : Type*} (row : List Bool) (blk : Fin m → List A) (h : ∀ i, row.length = (blk i).length) :
    keep (tileMask m row) (List.ofFn blk).flatten = (List.ofFn fun i => keep row (blk i)).flatten := by
  induction m with
  | zero => simp [tileMask, keep]
  | succ m ih =>
    rw [List.ofFn_succ, List.ofFn_succ, tileMask, List.replicate_succ, List.flatten_cons, List.flatten_cons,
      List.flatten_cons, keep_append _ _ _ _ (h 0), ← ih (fun i => blk i.succ) (fun i => h i.succ)]
    rfl

theorem tileMask_length (k : ℕ) (row : List Bool) : (tileMask k row).length = k * row.length := by
  simp [tileMask]

theorem flatten_length {A : Type*} {k : ℕ} (blk : Fin m → List A) (h : ∀ i, (blk i).length = k) :
    (List.ofFn blk).flatten.length = m * k := by
  induction m with
  | zero => simp
  | succ m ih =>
    rw [List.ofFn_succ, List.flatten_cons, List.length_append, ih (fun i => blk i.succ) (fun i => h _), h]
    ring

theorem tdReorder2_blocks (A : Fin m → List (Fin o → ℝ)) (B : Fin m → List (Fin o → ℝ))
    (C : Fin m → List (Fin o → ℝ)) (hA : ∀ i, (A i).length = 1) (hB : ∀ i, (B i).length = v)
    (hC : ∀ i, (C i).length = v') :
    tdReorder2 m v v' (List.ofFn fun i => A i ++ B i ++ C i).flatten =
      (List.ofFn A).flatten ++ (List.ofFn B).flatten ++ (List.ofFn C).flatten := by
  have hl : ∀ i, (A i ++ B i ++ C i).length = 1 + v + v' := by
    intro i; simp [hA, hB, hC, Nat.add_assoc]
  have key : ∀ (x y z : Bool), gatherRows (List.ofFn fun i => A i ++ B i ++ C i).flatten
      (maskIdx 0 (tileMask m (x :: List.replicate v y ++ List.replicate v' z))) =
      (List.ofFn fun i => keep [x] (A i) ++ keep (List.replicate v y) (B i) ++
        keep (List.replicate v' z) (C i)).flatten := by
    intro x y z
    rw [gather_maskIdx, keep_tile]
    · congr 2; funext i
      have e : x :: List.replicate v y ++ List.replicate v' z =
        ([x] ++ List.replicate v y) ++ List.replicate v' z := rfl
      rw [e, keep_append _ _ _ _ (by simp [hA, hB, Nat.add_comm]), keep_append _ _ _ _ (by simp [hA])]
    · intro i; rw [hl]; simp; omega
    · rw [tileMask_length, flatten_length _ hl]; congr 1; simp; omega
  have kt : ∀ i, keep [true] (A i) = A i := fun i => by
    have := keep_true (A i); rwa [hA] at this
  have kf : ∀ i, keep [false] (A i) = [] := fun i => by
    have := keep_false (A i); rwa [hA] at this
  have bt : ∀ i, keep (List.replicate v true) (B i) = B i := fun i => by rw [← hB i]; exact keep_true _
  have bf : ∀ i, keep (List.replicate v false) (B i) = [] := fun i => by rw [← hB i]; exact keep_false _
  have ct : ∀ i, keep (List.replicate v' true) (C i) = C i := fun i => by rw [← hC i]; exact keep_true _
  have cf : ∀ i, keep (List.replicate v' false) (C i) = [] := fun i => by rw [← hC i]; exact keep_false _
  unfold tdReorder2
  simp only [key, kt, kf, bt, bf, ct, cf, List.append_nil, List.nil_append]

theorem maskIdx_append (m1 m2 : List Bool) (k : ℕ) :
    maskIdx k (m1 ++ m2) = maskIdx k m1 ++ maskIdx (k + m1.length) m2 := by
  induction m1 generalizing k with
  | nil => simp [maskIdx]
  | cons t ts ih =>
    have e : k + 1 + ts.length = k + (ts.length + 1) := by omega
    cases t <;> simp [maskIdx, ih, e]

theorem maskIdx_false (k v : ℕ) : maskIdx k (List.replicate v false) = [] := by
  induction v generalizing k with
  | zero => rfl
  | succ v ih => simp [List.replicate_succ, maskIdx, ih]

theorem maskIdx_tile (v : ℕ) : ∀ m k : ℕ, maskIdx k (tileMask m (true :: List.replicate v false)) =
    (List.range m).map fun i => k + i * (v + 1) := by
  intro m
  induction m with
  | zero => intro k; rfl
  | succ m ih =>
    intro k
    have : tileMask (m + 1) (true :: List.replicate v false) =
        (true :: List.replicate v false) ++ tileMask m (true :: List.replicate v false) := by
      rw [tileMask, List.replicate_succ, List.flatten_cons]; rfl
    rw [this, maskIdx_append, ih, List.range_succ_eq_map]
    simp only [maskIdx, if_true, maskIdx_false, List.length_cons, List.length_replicate, List.map_cons,
      Nat.zero_mul, Nat.add_zero, List.map_map, List.cons_append, List.nil_append, List.cons.injEq, true_and]
    apply List.map_congr_left
    intro i _
    simp only [Function.comp]
    rw [Nat.succ_mul]; omega

theorem arange_eq (m v : ℕ) :
    arangeStep (m + m * v) (v + 1) = maskIdx 0 (tileMask m (true :: List.replicate v false)) := by
  rw [maskIdx_tile]
  unfold arangeStep
  have : (m + m * v + (v + 1) - 1) / (v + 1) = m := by
    have e : m + m * v + (v + 1) - 1 = v + (v + 1) * m := by
      rw [Nat.succ_mul, Nat.mul_comm v m]; omega
    rw [e, Nat.add_mul_div_left _ _ (Nat.succ_pos v), Nat.div_eq_of_lt (Nat.lt_succ_self v), Nat.zero_add]
  rw [this]
  simp

theorem mem_maskIdx (mask : List Bool) (k i : ℕ) :
    i ∈ maskIdx k mask ↔ k ≤ i ∧ mask.getD (i - k) false = true := by
  induction mask generalizing k with
  | nil => simp [maskIdx]
  | cons t ts ih =>
    have key : i ∈ maskIdx (k + 1) ts ↔ k + 1 ≤ i ∧ (t :: ts).getD (i - k) false = true := by
      rw [ih]
      constructor
      · rintro ⟨h1, h2⟩
        refine ⟨h1, ?_⟩
        rw [show i - k = (i - (k + 1)) + 1 by omega]; simpa using h2
      · rintro ⟨h1, h2⟩
        refine ⟨h1, ?_⟩
        rw [show i - k = (i - (k + 1)) + 1 by omega] at h2; simpa using h2
    cases t
    · simp only [maskIdx, Bool.false_eq_true, if_false]
      rw [key]
      constructor
      · rintro ⟨h1, h2⟩; exact ⟨by omega, h2⟩
      · rintro ⟨h1, h2⟩
        refine ⟨?_, h2⟩
        rcases Nat.lt_or_ge k i with h | h
        · exact h
        · have : i - k = 0 := by omega
          rw [this] at h2; simp at h2
    · simp only [maskIdx, if_true, List.mem_cons]
      rw [key]
      constructor
      · rintro (h | ⟨h1, h2⟩)
        · subst h; exact ⟨le_rfl, by simp⟩
        · exact ⟨by omega, h2⟩
      · rintro ⟨h1, h2⟩
        rcases Nat.eq_or_lt_of_le h1 with h | h
        · left; exact h.symm
        · right; exact ⟨h, h2⟩

theorem maskIdx_eq_filter (mask : List Bool) (k : ℕ) :
    maskIdx k mask = ((List.range mask.length).filter fun i => mask.getD i false).map (k + ·) := by
  induction mask generalizing k with
  | nil => rfl
  | cons t ts ih =>
    rw [List.length_cons, List.range_succ_eq_map, List.filter_cons, List.filter_map]
    have e : ((fun i => (t :: ts).getD i false) ∘ Nat.succ) = fun i => ts.getD i false := by
      funext i; simp
    have e2 : ∀ l : List ℕ, (l.map Nat.succ).map (k + ·) = l.map (k + 1 + ·) := by
      intro l; rw [List.map_map]; apply List.map_congr_left; intro i _; simp only [Function.comp]; omega
    rw [e]
    cases t
    · simp only [maskIdx, Bool.false_eq_true, if_false, List.getD_cons_zero]
      rw [ih, e2]
    · simp only [maskIdx, if_true, List.getD_cons_zero, List.map_cons, Nat.add_zero, List.cons.injEq, true_and]
      rw [ih, e2]

theorem deleteRows_mask (mask : List Bool) (l : List (Fin o → ℝ)) (h : mask.length = l.length) :
    deleteRows l (maskIdx 0 mask) = keep (mask.map not) l := by
  rw [← gather_maskIdx _ _ (by simpa using h)]
  unfold deleteRows
  congr 1
  rw [maskIdx_eq_filter (mask.map not)]
  simp only [List.length_map, h, Nat.zero_add, List.map_id']
  apply List.filter_congr
  intro i hi
  have hi' : i < mask.length := by rw [h]; simpa using hi
  have hc : (maskIdx 0 mask).contains i = mask.getD i false := by
    rw [Bool.eq_iff_iff, List.contains_iff_mem, mem_maskIdx]; simp
  rw [hc]
  simp [List.getD, hi']

theorem tdReorder1_blocks (A : Fin m → List (Fin o → ℝ)) (B : Fin m → List (Fin o → ℝ))
    (hA : ∀ i, (A i).length = 1) (hB : ∀ i, (B i).length = v) :
    tdReorder1 m v (List.ofFn fun i => A i ++ B i).flatten =
      (List.ofFn A).flatten ++ (List.ofFn B).flatten := by
  have hl : ∀ i, (A i ++ B i).length = 1 + v := by intro i; simp [hA, hB]
  have key : ∀ (x y : Bool), keep (tileMask m (x :: List.replicate v y)) (List.ofFn fun i => A i ++ B i).flatten =
      (List.ofFn fun i => keep [x] (A i) ++ keep (List.replicate v y) (B i)).flatten := by
    intro x y
    rw [keep_tile]
    · congr 2; funext i
      have e : x :: List.replicate v y = [x] ++ List.replicate v y := rfl
      rw [e, keep_append _ _ _ _ (by simp [hA])]
    · intro i; rw [hl]; simp [Nat.add_comm]
  have hlen : (tileMask m (true :: List.replicate v false)).length =
      (List.ofFn fun i => A i ++ B i).flatten.length := by
    rw [tileMask_length, flatten_length _ hl]; simp [Nat.add_comm]
  have hnot : (tileMask m (true :: List.replicate v false)).map not = tileMask m (false :: List.replicate v true) := by
    unfold tileMask
    rw [List.map_flatten, List.map_replicate]; simp
  have kt : ∀ i, keep [true] (A i) = A i := fun i => by
    have := keep_true (A i); rwa [hA] at this
  have kf : ∀ i, keep [false] (A i) = [] := fun i => by
    have := keep_false (A i); rwa [hA] at this
  have bt : ∀ i, keep (List.replicate v true) (B i) = B i := fun i => by rw [← hB i]; exact keep_true _
  have bf : ∀ i, keep (List.replicate v false) (B i) = [] := fun i => by rw [← hB i]; exact keep_false _
  unfold tdReorder1
  rw [arange_eq, gather_maskIdx _ _ hlen, deleteRows_mask _ _ hlen, hnot]
  simp only [key, kt, kf, bt, bf, List.append_nil, List.nil_append]

/-! ## Blocks -/

theorem hcat_mul (A : Mat r a) (B : Mat r b) (z : Mat (a + b) o) :
    hcat A B * z = A * topRows z + B * botRows z := by
  ext i c
  simp [Matrix.mul_apply, hcat, topRows, botRows, Fin.sum_univ_add]

theorem vcat_mul (A : Mat a c) (B : Mat b c) (z : Mat c o) : vcat A B * z = vcat (A * z) (B * z) := by
  ext i c
  refine Fin.addCases (fun i => ?_) (fun i => ?_) i <;> simp [Matrix.mul_apply, vcat]

@[simp] theorem hcat_left (A : Mat r a) (B : Mat r b) (i : Fin r) (j : Fin a) :
    hcat A B i (Fin.castAdd b j) = A i j := by simp [hcat]

@[simp] theorem hcat_right (A : Mat r a) (B : Mat r b) (i : Fin r) (j : Fin b) :
    hcat A B i (Fin.natAdd a j) = B i j := by simp [hcat]

@[simp] theorem vcat_left (A : Mat a c) (B : Mat b c) (i : Fin a) (j : Fin c) :
    vcat A B (Fin.castAdd b i) j = A i j := by simp [vcat]

@[simp] theorem vcat_right (A : Mat a c) (B : Mat b c) (i : Fin b) (j : Fin c) :
    vcat A B (Fin.natAdd a i) j = B i j := by simp [vcat]

theorem matRows_vcat (A : Mat a o) (B : Mat b o) : matRows (vcat A B) = matRows A ++ matRows B := by
  unfold matRows
  rw [← List.ofFn_fin_append]
  congr 1
  funext i
  refine Fin.addCases (fun i => ?_) (fun i => ?_) i
  · rw [Fin.append_left]; funext j; simp
  · rw [Fin.append_right]; funext j; simp

theorem matRows_flat (A : Mat (m * v) o) :
    matRows A = (List.ofFn fun i : Fin m => List.ofFn fun u : Fin v => A (flat i u)).flatten := by
  unfold matRows
  rw [List.ofFn_mul]
  rfl

theorem matRows_single (A : Mat m o) : matRows A = (List.ofFn fun i : Fin m => [A i]).flatten := by
  unfold matRows
  induction m with
  | zero => simp
  | succ m ih =>
    rw [List.ofFn_succ, List.ofFn_succ, List.flatten_cons]
    have := ih (Matrix.of fun i => A i.succ)
    exact congrArg (List.cons (A 0)) this

theorem rowsToMat_matRows (A : Mat a o) : rowsToMat a (matRows A) = A := by
  ext i c
  simp [rowsToMat, matRows]

theorem matRows_one (A : Mat 1 o) : matRows A = [A 0] := by simp [matRows]

theorem matRows_one_mul (A : Mat (1 * v) o) : matRows A = List.ofFn fun u : Fin v => A (flat (0 : Fin 1) u) := by
  rw [matRows_flat]; simp

end GPX
