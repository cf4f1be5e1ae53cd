import Verif.Poseidon.Native
import Mathlib.LinearAlgebra.Matrix.Adjugate
import Mathlib.LinearAlgebra.Matrix.Determinant.Basic
import Mathlib.LinearAlgebra.Matrix.NonsingularInverse

/-!
# Model of `poseidon/hasher/mds.rs` and `poseidon/hasher/spec.rs`

`[F; N]` and `[[F; N]; N]` are functions on `Fin N` (the array sizes are static).  `none` is a panic.  The round constants
and the MDS matrix come from the external crate `poseidon-rs` (Grain LFSR); they are parameters here.
-/

set_option autoImplicit false
namespace H2
variable {p : ℕ} [Fact p.Prime]

/-- `[[F; N]; N]`. -/
abbrev Mat (p n : ℕ) := Matrix (Fin n) (Fin n) (ZMod p)

/-- `mul_vector` (mds.rs:49-57). -/
def mulVector {n : ℕ} (m : Mat p n) (v : Fin n → ZMod p) : Fin n → ZMod p := fun i => ∑ j, m i j * v j

/-- `mul` (mds.rs:68-78). -/
def matMul {n : ℕ} (a b : Mat p n) : Mat p n := fun i j => ∑ k, a i k * b k j

/-- `transpose` (mds.rs:80-88). -/
def matT {n : ℕ} (a : Mat p n) : Mat p n := fun i j => a j i

/-- The search `while m[pivot][i] == 0 { pivot += 1; assert!(pivot < N) }` (mds.rs:94-98): the first row `≥ i` with a
nonzero entry in column `i`. -/
def findPivot {n : ℕ} (m : Mat p n) (i : Fin n) : Option (Fin n) :=
  (List.finRange n).find? (fun r => decide (i ≤ r) && decide (m r i ≠ 0))

/-- The row swap (mds.rs:99-102). -/
def swapRows {n : ℕ} (m : Mat p n) (a b : Fin n) : Mat p n := fun r => m (Equiv.swap a b r)

/-- The elimination below row `i` (mds.rs:105-110): only the entries with row and column `> i` change. -/
def eliminate {n : ℕ} (m : Mat p n) (i : Fin n) : Mat p n := fun j k =>
  if i < j ∧ i < k then m j k - m i k * (m j i * (m i i)⁻¹) else m j k

/-- One iteration of the outer loop of `determinant` (mds.rs:93-111) on `(m, res)`. -/
def detStep {n : ℕ} (i : Fin n) (e : Mat p n × ZMod p) : Option (Mat p n × ZMod p) := do
  let pv ← findPivot e.1 i
  let m := if pv ≠ i then swapRows e.1 pv i else e.1
  let res := if pv ≠ i then -e.2 else e.2
  pure (eliminate m i, res * m i i)

/-- The loop `for i in 0..N`. -/
def detLoop {n : ℕ} : List (Fin n) → Mat p n × ZMod p → Option (Mat p n × ZMod p)
  | [], e => some e
  | i :: is, e => do
    let e ← detStep i e
    detLoop is e

/-- `determinant` (mds.rs:90-113); `none` is the panic "matrix is not invertible". -/
def determinant {n : ℕ} (m : Mat p n) : Option (ZMod p) := (detLoop (List.finRange n) (m, 1)).map Prod.snd

/-- The bottom right `RATE × RATE` block (mds.rs:146-151). -/
def hat {R : ℕ} (m : Mat p (R + 1)) : Mat p R := fun i j => m i.succ j.succ

/-- The closure `prime` (mds.rs:122-131): `[[1 | 0], [0 | hat]]`. -/
def primeMat {R : ℕ} (h : Mat p R) : Mat p (R + 1) := fun i j =>
  Fin.cases (Fin.cases 1 (fun _ => 0) j) (fun i' => Fin.cases 0 (fun j' => h i' j') j) i

/-- All of an `Option`-valued family. -/
def allSome {α : Type} : {n : ℕ} → (Fin n → Option α) → Option (Fin n → α)
  | 0, _ => some (fun i => i.elim0)
  | _ + 1, f => do
    let a ← f 0
    let g ← allSome (fun i => f i.succ)
    pure (Fin.cases a g)

/-- `Option::<F>::from(x.invert())`. -/
def invOpt (x : ZMod p) : Option (ZMod p) := if x = 0 then none else some x⁻¹

/-- The vector `w_hat` by Cramer's rule (mds.rs:152-165). -/
def wHat {R : ℕ} (m : Mat p (R + 1)) : Option (Fin R → ZMod p) := do
  let w : Fin R → ZMod p := fun i => m i.succ 0
  let det ← determinant (hat m)
  let detInv ← invOpt det
  allSome (fun j => (determinant (fun i k => if k = j then w i else hat m i k)).map (· * detInv))

/-- `factorise` (mds.rs:115-171): `m_prime`, and the sparse matrix given by `row` (first column of `m_prime_prime`) and
`col_hat` (the rest of its first row). -/
def factorise {R : ℕ} (m : Mat p (R + 1)) : Option (Mat p (R + 1) × (Fin (R + 1) → ZMod p) × (Fin R → ZMod p)) := do
  let w ← wHat m
  pure (primeMat (hat m), Fin.cases (m 0 0) w, fun j => m 0 j.succ)

/-- The loop of `calculate_sparse_matrices` (spec.rs:165-171). -/
def sparseLoop {R : ℕ} (mdsT : Mat p (R + 1)) : ℕ → Mat p (R + 1) →
    Option (List ((Fin (R + 1) → ZMod p) × (Fin R → ZMod p)) × Mat p (R + 1))
  | 0, acc => some ([], acc)
  | n + 1, acc => do
    let (mp, s) ← factorise acc
    let (l, acc) ← sparseLoop mdsT n (matMul mdsT mp)
    pure (s :: l, acc)

/-- `calculate_sparse_matrices` (spec.rs:158-175). -/
def calcSparse {R : ℕ} (rP : ℕ) (mds : Mat p (R + 1)) :
    Option (List ((Fin (R + 1) → ZMod p) × (Fin R → ZMod p)) × Mat p (R + 1)) := do
  let (l, acc) ← sparseLoop (matT mds) rP (matT mds)
  pure (l.reverse, matT acc)

/-- The loop over the partial rounds' constants, last round first (spec.rs:127-139). -/
def partLoop {T : ℕ} (inv : Mat p (T + 1)) : List (Fin (T + 1) → ZMod p) → (Fin (T + 1) → ZMod p) → List (ZMod p) →
    (Fin (T + 1) → ZMod p) × List (ZMod p)
  | [], acc, parts => (acc, parts)
  | c :: cs, acc, parts =>
    let tmp := mulVector inv acc
    partLoop inv cs (fun i => (if i = 0 then 0 else tmp i) + c i) (tmp 0 :: parts)

/-- `OptimizedConstants` before conversion to lists. -/
structure OptConsts (p T : ℕ) where
  start : List (Fin T → ZMod p)
  part : List (ZMod p)
  fin : List (Fin T → ZMod p)

/-- `calculate_optimized_constants` (spec.rs:105-156).  The vectors filled through `zip` have exactly the written
lengths because of the asserted number of constants. -/
def calcConsts {R : ℕ} (rF rP : ℕ) (cs : List (Fin (R + 1) → ZMod p)) (inv : Mat p (R + 1)) :
    Option (OptConsts p (R + 1)) := do
  let half := rF / 2
  if cs.length ≠ rF + rP then none
  else if half = 0 then none
  else do
    let c0 ← cs[0]?
    let acc ← cs[half + rP]?
    let e := partLoop inv (((cs.drop half).reverse.drop half).take rP) acc []
    pure ⟨(c0 :: ((cs.drop 1).take (half - 1)).map (mulVector inv)) ++ [mulVector inv e.1], e.2,
      ((cs.drop (half + rP + 1)).take (half - 1)).map (mulVector inv)⟩

/-- The rows of a matrix as lists. -/
def matRows {n m : ℕ} (a : Fin n → Fin m → ZMod p) : List (List (ZMod p)) := List.ofFn (fun i => List.ofFn (a i))

/-- `OptimizedPoseidonSpec::new` (spec.rs:86-103) from given round constants, MDS matrix and inverse MDS matrix. -/
def newSpec {R : ℕ} (rF rP : ℕ) (cs : List (Fin (R + 1) → ZMod p)) (mds inv : Mat p (R + 1)) : Option (PSpec p) := do
  let c ← calcConsts rF rP cs inv
  let s ← calcSparse rP mds
  pure
    { rF := rF
      mds := matRows mds
      preSparse := matRows s.2
      sparse := s.1.map (fun e => ⟨List.ofFn e.1, List.ofFn e.2⟩)
      start := c.start.map List.ofFn
      part := c.part
      fin := c.fin.map List.ofFn }

/-! ### Specification: the textbook Poseidon permutation -/

/-- A full round: add the round constants, fifth powers, mix. -/
def fullRound {R : ℕ} (mds : Mat p (R + 1)) (x c : Fin (R + 1) → ZMod p) : Fin (R + 1) → ZMod p :=
  mds.mulVec (fun i => (x i + c i) ^ 5)

/-- A partial round: add the round constants, fifth power of the first element only, mix. -/
def partRound {R : ℕ} (mds : Mat p (R + 1)) (x c : Fin (R + 1) → ZMod p) : Fin (R + 1) → ZMod p :=
  mds.mulVec (fun i => if i = 0 then (x i + c i) ^ 5 else x i + c i)

/-- The Poseidon permutation: `rF/2` full rounds, `rP` partial rounds, `rF/2` full rounds. -/
def poseidonPerm {R : ℕ} (rF rP : ℕ) (mds : Mat p (R + 1)) (cs : List (Fin (R + 1) → ZMod p))
    (x : Fin (R + 1) → ZMod p) : Fin (R + 1) → ZMod p :=
  let x := (cs.take (rF / 2)).foldl (fullRound mds) x
  let x := ((cs.drop (rF / 2)).take rP).foldl (partRound mds) x
  (cs.drop (rF / 2 + rP)).foldl (fullRound mds) x

/-! ### The determinant is the determinant -/

/-- What the elimination has left to do after `i` columns: identity on the first `i` rows and columns. -/
def clean {n : ℕ} (i : ℕ) (m : Mat p n) : Mat p n := fun r c =>
  if (r : ℕ) < i ∨ (c : ℕ) < i then (if r = c then 1 else 0) else m r c

theorem clean_zero {n : ℕ} (m : Mat p n) : clean 0 m = m := by
  funext r c; simp [clean]

theorem clean_n {n : ℕ} (m : Mat p n) : clean n m = 1 := by
  funext r c; simp [clean, Matrix.one_apply]

theorem clean_swap {n : ℕ} (m : Mat p n) (i a b : Fin n) (ha : i ≤ a) (hb : i ≤ b) :
    clean i (swapRows m a b) = swapRows (clean i m) a b := by
  funext r c
  have ha' : ¬ (a : ℕ) < i := by simpa using ha
  have hb' : ¬ (b : ℕ) < i := by simpa using hb
  by_cases hra : r = a
  · subst hra
    simp only [clean, swapRows, Equiv.swap_apply_left, ha', hb', false_or]
    split
    · rename_i h
      rw [if_neg, if_neg] <;> rintro rfl <;> omega
    · rfl
  · by_cases hrb : r = b
    · subst hrb
      simp only [clean, swapRows, Equiv.swap_apply_right, ha', hb', false_or]
      split
      · rename_i h
        rw [if_neg, if_neg] <;> rintro rfl <;> omega
      · rfl
    · simp only [clean, swapRows, Equiv.swap_apply_of_ne_of_ne hra hrb]

theorem det_swapRows {n : ℕ} (m : Mat p n) {a b : Fin n} (h : a ≠ b) : (swapRows m a b).det = -m.det := by
  have := Matrix.det_permute (Equiv.swap a b) m
  have e : swapRows m a b = m.submatrix (Equiv.swap a b) id := rfl
  rw [e, this, Equiv.Perm.sign_swap h]
  simp

theorem eliminate_row {n : ℕ} (m : Mat p n) (i k : Fin n) : eliminate m i i k = m i k := by simp [eliminate]

/-- One elimination step divides the determinant of what is left by the pivot. -/
theorem clean_eliminate {n : ℕ} (m : Mat p n) (i : Fin n) (h : m i i ≠ 0) :
    (clean i m).det = m i i * (clean (i + 1) (eliminate m i)).det := by
  -- 1. the row operations
  set M2 : Mat p n := fun r c => clean i m r c + (if i < r then -(m r i * (m i i)⁻¹) else 0) * clean i m i c with hM2
  have d1 : M2.det = (clean i m).det := by
    refine Matrix.det_eq_of_forall_row_eq_smul_add_const (fun r => if i < r then -(m r i * (m i i)⁻¹) else 0) i
      (by simp) fun r c => ?_
    simp only [hM2]
  -- 2. column `i` is `m i i` times a unit vector
  have hcol : ∀ r, M2 r i = m i i * (if r = i then 1 else 0) := by
    intro r
    simp only [hM2, clean, lt_irrefl, or_false, if_false]
    rcases lt_trichotomy r i with hr | hr | hr
    · have : (r : ℕ) < i := hr
      simp [this, hr.ne, not_lt.2 hr.le]
    · subst hr; simp
    · have h1 : ¬ (r : ℕ) < i := by have : (i : ℕ) < r := hr; omega
      simp only [h1, if_false, hr, if_true, hr.ne', mul_zero]
      field_simp
      ring
  set M3 : Mat p n := M2.updateCol i (fun r => if r = i then 1 else 0) with hM3
  have d2 : M2.det = m i i * M3.det := by
    rw [hM3, ← Matrix.det_updateCol_smul]
    congr 1
    funext r c
    by_cases hc : c = i
    · subst hc; simp [hcol r]
    · simp [Matrix.updateCol_apply, hc]
  -- 3. clear the rest of row `i`
  have d3 : (clean (i + 1) (eliminate m i)).det = M3.det := by
    rw [← Matrix.det_transpose, ← Matrix.det_transpose M3]
    refine Matrix.det_eq_of_forall_row_eq_smul_add_const (fun c => if c = i then 0 else -(M2 i c)) i (by simp) fun c r => ?_
    simp only [Matrix.transpose_apply, hM3, Matrix.updateCol_apply, if_true]
    by_cases hc : c = i
    · subst hc
      simp only [if_true, zero_mul, add_zero, clean, Nat.lt_succ_self, or_true]
    · simp only [hc, if_false]
      by_cases hr : r = i
      · subst hr
        have : (r : ℕ) < r + 1 := Nat.lt_succ_self _
        simp only [clean, this, true_or, if_true, Ne.symm hc, if_false]
        ring
      · simp only [hr, if_false, mul_zero, add_zero, hM2, clean]
        have hri : (r : ℕ) ≠ i := fun h => hr (Fin.ext h)
        have hci : (c : ℕ) ≠ i := fun h => hc (Fin.ext h)
        by_cases h1 : (r : ℕ) < i
        · have : (r : ℕ) < i + 1 := by omega
          have h2 : ¬ i < r := by simpa using h1.le
          simp [h1, this, h2]
        · have h1' : ¬ (r : ℕ) < i + 1 := by omega
          have h2 : i < r := by
            change (i : ℕ) < r; omega
          by_cases h3 : (c : ℕ) < i
          · have : (c : ℕ) < i + 1 := by omega
            simp [h3, this, h1, h1', Ne.symm hc]
          · have h3' : ¬ (c : ℕ) < i + 1 := by omega
            have h4 : i < c := by
              change (i : ℕ) < c; omega
            simp only [h1, h1', h3, h3', or_self, if_false, h2, if_true, eliminate, h4, and_self, lt_irrefl]
            ring
  rw [← d1, d2, d3]

theorem findPivot_some {n : ℕ} {m : Mat p n} {i r : Fin n} (h : findPivot m i = some r) : i ≤ r ∧ m r i ≠ 0 := by
  have := List.find?_some h
  simpa using this

theorem findPivot_none {n : ℕ} {m : Mat p n} {i : Fin n} (h : findPivot m i = none) (r : Fin n) (hr : i ≤ r) :
    m r i = 0 := by
  have := List.find?_eq_none.1 h r (List.mem_finRange r)
  simpa [hr] using this

theorem detStep_some {n : ℕ} {i : Fin n} {e e' : Mat p n × ZMod p} (h : detStep i e = some e') :
    e.2 * (clean i e.1).det = e'.2 * (clean (i + 1) e'.1).det ∧ (e.2 ≠ 0 → e'.2 ≠ 0) := by
  simp only [detStep, Option.bind_eq_bind, Option.bind_eq_some_iff, Option.pure_def, Option.some.injEq] at h
  obtain ⟨r, hr, rfl⟩ := h
  obtain ⟨h1, h2⟩ := findPivot_some hr
  by_cases hri : r = i
  · subst hri
    simp only [ne_eq, not_true_eq_false, if_false]
    refine ⟨?_, fun h => mul_ne_zero h h2⟩
    rw [clean_eliminate _ _ h2, mul_assoc]
  · simp only [ne_eq, hri, not_false_eq_true, if_true]
    have e1 : swapRows e.1 r i i i = e.1 r i := by simp [swapRows]
    refine ⟨?_, fun h => mul_ne_zero (neg_ne_zero.2 h) (by rw [e1]; exact h2)⟩
    rw [mul_assoc, ← clean_eliminate _ _ (by rw [e1]; exact h2), clean_swap _ _ _ _ h1 le_rfl, det_swapRows _ hri]
    ring

theorem detStep_none {n : ℕ} {i : Fin n} {e : Mat p n × ZMod p} (h : detStep i e = none) : (clean i e.1).det = 0 := by
  simp only [detStep, Option.bind_eq_bind, Option.bind_eq_none_iff, Option.pure_def] at h
  have hn : findPivot e.1 i = none := by
    cases hf : findPivot e.1 i with
    | none => rfl
    | some r => exact absurd (h r hf) (by simp)
  refine Matrix.det_eq_zero_of_column_eq_zero i fun r => ?_
  simp only [clean, lt_irrefl, or_false]
  split
  · rename_i hr
    rw [if_neg]; rintro rfl; omega
  · rename_i hr
    exact findPivot_none hn r (by simpa using hr)

theorem detLoop_spec {n : ℕ} (k : ℕ) (hk : k ≤ n) (e : Mat p n × ZMod p) :
    match detLoop ((List.finRange n).drop k) e with
    | none => (clean k e.1).det = 0
    | some e' => e'.2 = e.2 * (clean k e.1).det ∧ (e.2 ≠ 0 → e'.2 ≠ 0) := by
  obtain ⟨d, hd⟩ : ∃ d, n - k = d := ⟨_, rfl⟩
  induction d generalizing k e with
  | zero =>
    have : k = n := by omega
    subst this
    rw [List.drop_of_length_le (by simp)]
    simp [detLoop, clean_n]
  | succ d ih =>
    have hlt : k < n := by omega
    have hd' : (List.finRange n).drop k = ⟨k, hlt⟩ :: (List.finRange n).drop (k + 1) := by
      rw [List.drop_eq_getElem_cons (by simpa using hlt)]; simp
    rw [hd', detLoop]
    cases hs : detStep ⟨k, hlt⟩ e with
    | none => exact detStep_none hs
    | some e1 =>
      have h1 := detStep_some hs
      have h2 := ih (k + 1) (by omega) e1 (by omega)
      simp only [Option.bind_eq_bind, Option.bind_some]
      revert h2
      cases detLoop ((List.finRange n).drop (k + 1)) e1 with
      | none =>
        intro h2
        by_cases he : e.2 = 0
        · -- unreachable with a nonzero factor; still the determinant is determined by the matrix alone
          have hs' : ∃ e1' : Mat p n × ZMod p, detStep ⟨k, hlt⟩ (e.1, 1) = some e1' ∧ e1'.1 = e1.1 := by
            simp only [detStep, Option.bind_eq_bind, Option.bind_eq_some_iff, Option.pure_def, Option.some.injEq] at hs ⊢
            obtain ⟨r, hr, rfl⟩ := hs
            exact ⟨_, ⟨r, hr, rfl⟩, rfl⟩
          obtain ⟨e1', hs1, hs2⟩ := hs'
          have := (detStep_some hs1).1
          rw [hs2] at this
          simp only [one_mul] at this
          change (clean k e.1).det = 0
          rw [this]
          exact mul_eq_zero_of_right _ h2
        · have := h1.1
          change (clean k e.1).det = 0
          have h0 : e.2 * (clean k e.1).det = 0 := by
            rw [this]; exact mul_eq_zero_of_right _ h2
          exact (mul_eq_zero.1 h0).resolve_left he
      | some e' =>
        rintro ⟨h2, h3⟩
        refine ⟨?_, fun h => h3 (h1.2 h)⟩
        rw [h2]; exact h1.1.symm

/-- `determinant` is the determinant, and panics exactly on singular matrices. -/
theorem determinant_eq {n : ℕ} (m : Mat p n) : determinant m = if m.det = 0 then none else some m.det := by
  have := detLoop_spec 0 (Nat.zero_le n) (m, (1 : ZMod p))
  rw [List.drop_zero] at this
  unfold determinant
  revert this
  cases detLoop (List.finRange n) (m, (1 : ZMod p)) with
  | none => intro h; rw [clean_zero] at h; simp [h]
  | some e =>
    rintro ⟨h1, h2⟩
    rw [clean_zero, one_mul] at h1
    have := h2 one_ne_zero
    rw [h1] at this
    simp [this, h1]

end H2
