import Verif.BigInt.Model
import Verif.Gate.SoundList
import Mathlib.Data.Int.ModEq
import Mathlib.Algebra.BigOperators.Intervals
import Mathlib.Algebra.BigOperators.Ring.Finset
import Mathlib.Data.Int.GCD
import Mathlib.Algebra.Order.BigOperators.Group.Finset
import Mathlib.Algebra.Order.Group.Unbundled.Int
import Mathlib.Tactic.NormNum
import Mathlib.Tactic.Positivity
import Mathlib.Tactic.Linarith
import Mathlib.Algebra.CharP.Basic

/-!
# Specification of big integers: what an `OverflowInteger` / `CRTInteger` / `ProperCrtUint` represents

Limbs are in base `2 ^ n`, least significant first.
-/

set_option autoImplicit false
namespace H2
variable {p : ℕ}

/-- The integer with signed limbs `xs` in base `2 ^ n`. -/
def limbVal (n : ℕ) : List ℤ → ℤ
  | [] => 0
  | x :: xs => x + 2 ^ n * limbVal n xs

/-- In the assignment `w`, the limbs of `a` hold (the residues of) the signed integers `xs`, all below
`2 ^ max_limb_bits` in absolute value. -/
structure OvOk (w : Cell → ZMod p) (a : OvInt p) (xs : List ℤ) : Prop where
  limbs : a.limbs.map (at' w) = xs.map (fun x : ℤ => (x : ZMod p))
  bound : ∀ x ∈ xs, |x| < 2 ^ a.maxBits

/-- In the assignment `w`, the `CRTInteger` `a` with `k` limbs represents the integer `X`: its limbs do modulo
`2 ^ (n k)`, and its native part does modulo `p` (the "IMPLICIT ASSUMPTION" of bigint/mod.rs:171). -/
def CrtOk (n k : ℕ) (w : Cell → ZMod p) (a : CrtInt p) (X : ℤ) : Prop :=
  ∃ xs : List ℤ, xs.length = k ∧ OvOk w a.trunc xs ∧ limbVal n xs ≡ X [ZMOD 2 ^ (n * k)] ∧ at' w a.native = (X : ZMod p)

/-- In the assignment `w`, the `ProperCrtUint` `a` with `k` limbs represents the natural number `X`: every limb is below
`2 ^ n`, `X` is the number with these digits, and the native part is `X` modulo `p` (bigint/mod.rs:211-217). -/
def ProperOk (n k : ℕ) (w : Cell → ZMod p) (a : CrtInt p) (X : ℕ) : Prop :=
  ∃ ds : List ℕ, ds.length = k ∧ a.trunc.maxBits = n ∧ a.trunc.limbs.map (at' w) = ds.map (fun d : ℕ => (d : ZMod p)) ∧
    (∀ d ∈ ds, d < 2 ^ n) ∧ X = Nat.ofDigits (2 ^ n) ds ∧ at' w a.native = (X : ZMod p)

/-- The chip's constants are those of the modulus: what `FpChip::new` establishes. -/
structure ChipOk (c : FpChip p) : Prop where
  k1 : 1 ≤ c.k
  n64 : 64 ≤ c.n
  n128 : c.n < 128
  bases : c.bases = (List.range c.k).map (fun i : ℕ => ((2 ^ c.n : ℕ) : ZMod p) ^ i)
  limbs : c.modLimbs = (limbsOf c.modulus c.k c.n).map (fun d : ℕ => (d : ZMod p))
  native : c.modNative = (c.modulus : ZMod p)
  pos : 1 ≤ c.modulus
  lt : c.modulus < 2 ^ (c.n * c.k)
  kBits : c.k < 2 ^ c.kBits
  kLog2 : c.k ≤ 2 ^ c.kLog2

/-! ### Facts about limb values -/

theorem limbVal_append (n : ℕ) (xs ys : List ℤ) :
    limbVal n (xs ++ ys) = limbVal n xs + 2 ^ (n * xs.length) * limbVal n ys := by
  induction xs with
  | nil => simp [limbVal]
  | cons x xs ih => simp only [List.cons_append, limbVal, ih, List.length_cons]; ring

theorem limbVal_map_nat (n : ℕ) (ds : List ℕ) :
    limbVal n (ds.map (fun d : ℕ => (d : ℤ))) = (Nat.ofDigits (2 ^ n) ds : ℕ) := by
  induction ds with
  | nil => rfl
  | cons d ds ih => simp only [List.map_cons, limbVal, ih, Nat.ofDigits_cons]; push_cast; ring

theorem limbVal_zipWith_add (n : ℕ) (xs ys : List ℤ) (h : xs.length = ys.length) :
    limbVal n (List.zipWith (· + ·) xs ys) = limbVal n xs + limbVal n ys := by
  induction xs generalizing ys with
  | nil => cases ys <;> simp_all [limbVal]
  | cons x xs ih => cases ys with
    | nil => simp at h
    | cons y ys => simp only [List.zipWith_cons_cons, limbVal, ih ys (by simpa using h)]; ring

theorem limbVal_zipWith_sub (n : ℕ) (xs ys : List ℤ) (h : xs.length = ys.length) :
    limbVal n (List.zipWith (· - ·) xs ys) = limbVal n xs - limbVal n ys := by
  induction xs generalizing ys with
  | nil => cases ys <;> simp_all [limbVal]
  | cons x xs ih => cases ys with
    | nil => simp at h
    | cons y ys => simp only [List.zipWith_cons_cons, limbVal, ih ys (by simpa using h)]; ring

theorem limbVal_zipWith_muladd (n : ℕ) (c : ℤ) (xs ys : List ℤ) (h : xs.length = ys.length) :
    limbVal n (List.zipWith (fun x y => x * c + y) xs ys) = limbVal n xs * c + limbVal n ys := by
  induction xs generalizing ys with
  | nil => cases ys <;> simp_all [limbVal]
  | cons x xs ih => cases ys with
    | nil => simp at h
    | cons y ys => simp only [List.zipWith_cons_cons, limbVal, ih ys (by simpa using h)]; ring

theorem limbVal_map_mul (n : ℕ) (c : ℤ) (xs : List ℤ) : limbVal n (xs.map (· * c)) = limbVal n xs * c := by
  induction xs with
  | nil => simp [limbVal]
  | cons x xs ih => simp only [List.map_cons, limbVal, ih]; ring

theorem limbVal_map_neg (n : ℕ) (xs : List ℤ) : limbVal n (xs.map (fun x => -x)) = -limbVal n xs := by
  induction xs with
  | nil => simp [limbVal]
  | cons x xs ih => simp only [List.map_cons, limbVal, ih]; ring

theorem limbVal_getD (n : ℕ) (xs : List ℤ) :
    limbVal n xs = ∑ i ∈ Finset.range xs.length, xs.getD i 0 * (2 ^ n) ^ i := by
  induction xs with
  | nil => simp [limbVal]
  | cons x xs ih =>
    rw [List.length_cons, Finset.sum_range_succ', limbVal, ih, Finset.mul_sum]
    simp only [List.getD_cons_succ, List.getD_cons_zero, pow_zero, mul_one]
    rw [add_comm]
    congr 1
    refine Finset.sum_congr rfl fun i _ => ?_
    ring

/-- Schoolbook multiplication truncated to `k` columns: the `i`-th column. -/
def conv {R : Type} [CommRing R] (xs ys : List R) (i : ℕ) : R :=
  ∑ j ∈ Finset.range (i + 1), xs.getD j 0 * ys.getD (i - j) 0

theorem limbVal_range (n k : ℕ) (f : ℕ → ℤ) :
    limbVal n ((List.range k).map f) = ∑ i ∈ Finset.range k, f i * (2 ^ n) ^ i := by
  rw [limbVal_getD]
  simp only [List.length_map, List.length_range]
  refine Finset.sum_congr rfl fun i hi => ?_
  rw [Finset.mem_range] at hi
  simp [List.getD, hi]

/-- Truncated multiplication is multiplication modulo `2 ^ (n k)`. -/
theorem limbVal_conv (n : ℕ) (xs ys : List ℤ) (h : xs.length = ys.length) :
    limbVal n ((List.range xs.length).map (conv xs ys)) ≡ limbVal n xs * limbVal n ys [ZMOD 2 ^ (n * xs.length)] := by
  set k := xs.length with hk
  set B : ℤ := 2 ^ n with hB
  rw [limbVal_range, limbVal_getD n xs, limbVal_getD n ys, ← h, ← hk, pow_mul, ← hB]
  have e1 : ∑ i ∈ Finset.range k, conv xs ys i * B ^ i =
      ∑ i ∈ Finset.range k, ∑ j ∈ Finset.range (i + 1), (xs.getD j 0 * B ^ j) * (ys.getD (i - j) 0 * B ^ (i - j)) := by
    refine Finset.sum_congr rfl fun i _ => ?_
    rw [conv, Finset.sum_mul]
    refine Finset.sum_congr rfl fun j hj => ?_
    rw [Finset.mem_range] at hj
    have : B ^ i = B ^ j * B ^ (i - j) := by rw [← pow_add]; congr 1; omega
    rw [this]; ring
  have e2 := Finset.sum_range_diag_flip k (fun j l => (xs.getD j 0 * B ^ j) * (ys.getD l 0 * B ^ l))
  rw [e1, e2, Finset.sum_mul]
  refine Int.ModEq.symm ?_
  rw [Int.modEq_iff_dvd, ← Finset.sum_sub_distrib]
  refine Finset.dvd_sum fun j hj => ?_
  rw [Finset.mem_range] at hj
  rw [← Finset.mul_sum, ← mul_sub, mul_assoc]
  refine Dvd.dvd.mul_left ?_ _
  rw [← Finset.sum_range_add_sum_Ico _ (Nat.sub_le k j), sub_add_cancel_left]
  rw [mul_neg, Int.dvd_neg, Finset.mul_sum]
  refine Finset.dvd_sum fun l hl => ?_
  rw [Finset.mem_Ico] at hl
  rw [mul_left_comm, ← pow_add]
  exact Dvd.dvd.mul_left (pow_dvd_pow _ (by omega)) _

theorem conv_map {R S : Type} [CommRing R] [CommRing S] (f : R →+* S) (xs ys : List R) (i : ℕ) :
    conv (xs.map f) (ys.map f) i = f (conv xs ys i) := by
  simp only [conv, map_sum, map_mul]
  refine Finset.sum_congr rfl fun j _ => ?_
  rw [show (0 : S) = f 0 by simp, List.getD_map, List.getD_map]

/-- Absolute value of a truncated column. -/
theorem conv_abs_le (xs ys : List ℤ) (i : ℕ) {A B : ℤ} (hx : ∀ x ∈ xs, |x| ≤ A) (hy : ∀ y ∈ ys, |y| ≤ B) (hA : 0 ≤ A)
    (hB : 0 ≤ B) : |conv xs ys i| ≤ (i + 1) * (A * B) := by
  have g : ∀ (l : List ℤ) (j : ℕ) (C : ℤ), 0 ≤ C → (∀ x ∈ l, |x| ≤ C) → |l.getD j 0| ≤ C := by
    intro l j C hC h
    rw [List.getD_eq_getElem?_getD]
    rcases hj : l[j]? with _ | x
    · simpa using hC
    · exact h x (List.mem_of_getElem? hj)
  unfold conv
  refine (Finset.abs_sum_le_sum_abs _ _).trans ?_
  calc ∑ j ∈ Finset.range (i + 1), |xs.getD j 0 * ys.getD (i - j) 0|
      ≤ ∑ _j ∈ Finset.range (i + 1), A * B := by
        refine Finset.sum_le_sum fun j _ => ?_
        rw [abs_mul]
        exact mul_le_mul (g _ _ _ hA hx) (g _ _ _ hB hy) (abs_nonneg _) hA
    _ = (i + 1) * (A * B) := by simp

theorem getD_take_lt {α : Type} (l : List α) (n i : ℕ) (d : α) (h : i < n) : (l.take n).getD i d = l.getD i d := by
  simp [List.getD, List.getElem?_take, h]

/-- `inner_product(a[..=i], rev b[..=i])` is a column of the product. -/
theorem dot_conv [Fact p.Prime] (xs ys : List (ZMod p)) (i : ℕ) (hx : i < xs.length) (hy : i < ys.length) :
    dot (xs.take (i + 1)) (ys.take (i + 1)).reverse = conv xs ys i := by
  have hd : ∀ as bs : List (ZMod p), as.length = bs.length →
      dot as bs = ∑ j ∈ Finset.range as.length, as.getD j 0 * bs.getD j 0 := by
    intro as
    induction as with
    | nil => intro bs _; simp
    | cons a as ih =>
      intro bs h
      cases bs with
      | nil => simp at h
      | cons b bs =>
        rw [dot_cons, ih bs (by simpa using h), List.length_cons, Finset.sum_range_succ']
        simp [add_comm]
  rw [hd _ _ (by simp; omega)]
  have hl : (xs.take (i + 1)).length = i + 1 := by simp; omega
  rw [hl, conv]
  refine Finset.sum_congr rfl fun j hj => ?_
  rw [Finset.mem_range] at hj
  rw [getD_take_lt _ _ _ _ hj]
  congr 1
  have hl2 : (ys.take (i + 1)).length = i + 1 := by simp; omega
  have e : (ys.take (i + 1)).reverse[j]? = ys[i - j]? := by
    rw [List.getElem?_reverse (by omega), hl2, List.getElem?_take, if_pos (by omega)]
    congr 1
  simp only [List.getD_eq_getElem?_getD, e]

theorem intCast_eq_of_abs {x y : ℤ} (h : (x : ZMod p) = (y : ZMod p)) (hb : |x - y| < p) : x = y := by
  have h1 : ((x - y : ℤ) : ZMod p) = 0 := by push_cast; rw [h, sub_self]
  rw [ZMod.intCast_zmod_eq_zero_iff_dvd] at h1
  have := Int.eq_zero_of_abs_lt_dvd h1 hb
  omega

theorem abs_limbVal_le (n : ℕ) (xs : List ℤ) {A : ℤ} (h : ∀ x ∈ xs, |x| ≤ A) :
    |limbVal n xs| * (2 ^ n - 1) ≤ A * (2 ^ (n * xs.length) - 1) := by
  induction xs with
  | nil => simp [limbVal]
  | cons x xs ih =>
    have h1 := ih (fun y hy => h y (by simp [hy]))
    have h0 := h x (by simp)
    have hB : (1 : ℤ) ≤ 2 ^ n := one_le_pow₀ (by norm_num)
    have h2 : |limbVal n (x :: xs)| ≤ |x| + 2 ^ n * |limbVal n xs| := by
      rw [limbVal]
      refine (abs_add_le _ _).trans ?_
      rw [abs_mul, abs_of_nonneg (by positivity : (0:ℤ) ≤ 2 ^ n)]
    calc |limbVal n (x :: xs)| * (2 ^ n - 1) ≤ (|x| + 2 ^ n * |limbVal n xs|) * (2 ^ n - 1) :=
          mul_le_mul_of_nonneg_right h2 (by linarith)
      _ = |x| * (2 ^ n - 1) + 2 ^ n * (|limbVal n xs| * (2 ^ n - 1)) := by ring
      _ ≤ A * (2 ^ n - 1) + 2 ^ n * (A * (2 ^ (n * xs.length) - 1)) := by
          refine add_le_add (mul_le_mul_of_nonneg_right h0 (by linarith)) ?_
          exact mul_le_mul_of_nonneg_left h1 (by positivity)
      _ = A * (2 ^ (n * (x :: xs).length) - 1) := by
          rw [List.length_cons, Nat.mul_succ, pow_add]; ring

theorem ofDigits_lt {n : ℕ} (ds : List ℕ) (h : ∀ d ∈ ds, d < 2 ^ n) : Nat.ofDigits (2 ^ n) ds < 2 ^ (n * ds.length) := by
  induction ds with
  | nil => simp
  | cons d ds ih =>
    have h1 := ih (fun e he => h e (by simp [he]))
    have h0 := h d (by simp)
    rw [Nat.ofDigits_cons, List.length_cons, Nat.mul_succ, Nat.add_comm (n * _), pow_add]
    calc d + 2 ^ n * Nat.ofDigits (2 ^ n) ds < 2 ^ n + 2 ^ n * Nat.ofDigits (2 ^ n) ds := by omega
      _ = 2 ^ n * (Nat.ofDigits (2 ^ n) ds + 1) := by ring
      _ ≤ 2 ^ n * 2 ^ (n * ds.length) := Nat.mul_le_mul_left _ h1

theorem ProperOk.lt {n k : ℕ} {w : Cell → ZMod p} {a : CrtInt p} {X : ℕ} (h : ProperOk n k w a X) : X < 2 ^ (n * k) := by
  obtain ⟨ds, h1, -, -, h2, rfl, -⟩ := h
  rw [← h1]; exact ofDigits_lt ds h2

/-- A proper integer is in particular a CRT integer. -/
theorem ProperOk.crt {n k : ℕ} {w : Cell → ZMod p} {a : CrtInt p} {X : ℕ} (h : ProperOk n k w a X) :
    CrtOk n k w a (X : ℤ) := by
  obtain ⟨ds, h1, hm, h2, h3, rfl, h4⟩ := h
  refine ⟨ds.map (fun d : ℕ => (d : ℤ)), by simpa using h1, ⟨?_, ?_⟩, ?_, by rw [h4]; simp⟩
  · rw [h2]; simp
  · intro x hx
    rw [List.mem_map] at hx
    obtain ⟨d, hd, rfl⟩ := hx
    rw [hm, abs_of_nonneg (by positivity)]
    exact_mod_cast h3 d hd
  · rw [limbVal_map_nat]

theorem CrtOk.length {n k : ℕ} {w : Cell → ZMod p} {a : CrtInt p} {X : ℤ} (h : CrtOk n k w a X) :
    a.trunc.limbs.length = k := by
  obtain ⟨xs, h1, h2, -⟩ := h
  have := congrArg List.length h2.limbs
  simpa [h1] using this

theorem ProperOk.length {n k : ℕ} {w : Cell → ZMod p} {a : CrtInt p} {X : ℕ} (h : ProperOk n k w a X) :
    a.trunc.limbs.length = k := h.crt.length

end H2
