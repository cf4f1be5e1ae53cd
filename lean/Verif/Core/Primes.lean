import Mathlib.NumberTheory.LucasPrimality
import Mathlib.Tactic.NormNum.Prime
import Mathlib.Tactic.NormNum.DivMod
import Mathlib.Tactic.Ring

/-!
# Primality of the concrete moduli

Pratt certificates, checked by the kernel.  The numbers are those of the curve crates used by the
library: BN254 scalar field `r` (native field of every circuit), BN254 base field `q`.

-/

set_option autoImplicit false
namespace H2

/-- Square-and-multiply, `k` bits of the exponent. -/
def powMod (m : ℕ) : ℕ → ℕ → ℕ → ℕ → ℕ
  | 0, _, _, acc => acc % m
  | k + 1, a, e, acc => powMod m k (a * a % m) (e / 2) (if e % 2 = 1 then acc * a % m else acc)

theorem powMod_eq (m k a e acc : ℕ) (h : e < 2 ^ k) : powMod m k a e acc = acc * a ^ e % m := by
  induction k generalizing a e acc with
  | zero =>
    have : e = 0 := by simpa using h
    subst this; simp [powMod]
  | succ k ih =>
    rw [powMod, ih _ _ _ (by rw [pow_succ] at h; omega)]
    have he := Nat.div_add_mod e 2
    have hp : ∀ c, (c * (a * a % m) ^ (e / 2)) % m = (c * a ^ (2 * (e / 2))) % m := by
      intro c
      rw [Nat.mul_mod, ← Nat.pow_mod, ← Nat.mul_mod, pow_mul, pow_two]
    rw [hp]
    split
    · rename_i h1
      conv_rhs => rw [← he, h1, pow_succ]
      rw [Nat.mul_mod, Nat.mod_mod, ← Nat.mul_mod]
      ring_nf
    · rename_i h1
      have h0 : e % 2 = 0 := by omega
      conv_rhs => rw [← he, h0, add_zero]

/-- Pratt's criterion. `fs` lists the distinct prime factors of `p - 1`. -/
theorem pratt (p a : ℕ) (fs : List ℕ) (hp : 1 < p)
    (hprod : ∃ es : List ℕ, es.length = fs.length ∧ (List.zipWith (· ^ ·) fs es).prod = p - 1)
    (hprime : ∀ q ∈ fs, q.Prime) (hs : p < 2 ^ 256) (h1 : powMod p 256 a (p - 1) 1 = 1)
    (h2 : ∀ q ∈ fs, powMod p 256 a ((p - 1) / q) 1 ≠ 1) : p.Prime := by
  have hle : ∀ k, (p - 1) / k < 2 ^ 256 := fun k => lt_of_le_of_lt (Nat.div_le_self _ _) (by omega)
  rw [powMod_eq _ _ _ _ _ (by omega), one_mul] at h1
  have cast : ∀ n : ℕ, ((a : ZMod p)) ^ n = 1 ↔ a ^ n % p = 1 := by
    intro n
    rw [← Nat.cast_pow, ← Nat.cast_one, ZMod.natCast_eq_natCast_iff, Nat.ModEq, Nat.mod_eq_of_lt hp]
  refine lucas_primality p (a : ZMod p) ((cast _).2 h1) fun q hq hd => ?_
  obtain ⟨es, _, hes⟩ := hprod
  rw [← hes] at hd
  obtain ⟨y, hy, hqy⟩ := (Prime.dvd_prod_iff hq.prime).1 hd
  obtain ⟨i, hi, rfl⟩ := List.mem_iff_getElem.1 hy
  rw [List.getElem_zipWith] at hqy
  have hq' := hq.dvd_of_dvd_pow hqy
  have hmem : fs[i]'(by simp at hi; omega) ∈ fs := List.getElem_mem _
  have := (Nat.prime_dvd_prime_iff_eq hq (hprime _ hmem)).1 hq'
  rw [Ne, cast, this]
  have := h2 _ hmem
  rwa [powMod_eq _ _ _ _ _ (hle _), one_mul] at this

theorem prime_2 : Nat.Prime 2 := by norm_num

theorem prime_3 : Nat.Prime 3 := by norm_num

theorem prime_13 : Nat.Prime 13 := by norm_num

theorem prime_29 : Nat.Prime 29 := by norm_num

theorem prime_983 : Nat.Prime 983 := by norm_num

theorem prime_11003 : Nat.Prime 11003 := by norm_num

theorem prime_11 : Nat.Prime 11 := by norm_num

theorem prime_449 : Nat.Prime 449 := by norm_num

theorem prime_237073 : Nat.Prime 237073 := by
  refine pratt 237073 15 [2, 3, 11, 449] (by norm_num) ?_ ?_ (by norm_num) (by decide +kernel) (by decide +kernel)
  · exact ⟨[4, 1, 1, 1], by norm_num, by norm_num⟩
  · simp only [List.forall_mem_cons, List.not_mem_nil, false_implies, implies_true, and_true]
    exact ⟨prime_2, prime_3, prime_11, prime_449⟩

theorem prime_3691 : Nat.Prime 3691 := by norm_num

theorem prime_4999 : Nat.Prime 4999 := by norm_num

theorem prime_405928799 : Nat.Prime 405928799 := by
  refine pratt 405928799 22 [2, 11, 3691, 4999] (by norm_num) ?_ ?_ (by norm_num) (by decide +kernel) (by decide +kernel)
  · exact ⟨[1, 1, 1, 1], by norm_num, by norm_num⟩
  · simp only [List.forall_mem_cons, List.not_mem_nil, false_implies, implies_true, and_true]
    exact ⟨prime_2, prime_11, prime_3691, prime_4999⟩

theorem prime_107 : Nat.Prime 107 := by norm_num

theorem prime_7 : Nat.Prime 7 := by norm_num

theorem prime_661 : Nat.Prime 661 := by norm_num

theorem prime_93001 : Nat.Prime 93001 := by norm_num

theorem prime_12048837557 : Nat.Prime 12048837557 := by
  refine pratt 12048837557 2 [2, 7, 661, 93001] (by norm_num) ?_ ?_ (by norm_num) (by decide +kernel) (by decide +kernel)
  · exact ⟨[2, 2, 1, 1], by norm_num, by norm_num⟩
  · simp only [List.forall_mem_cons, List.not_mem_nil, false_implies, implies_true, and_true]
    exact ⟨prime_2, prime_7, prime_661, prime_93001⟩

theorem prime_5156902474397 : Nat.Prime 5156902474397 := by
  refine pratt 5156902474397 2 [2, 107, 12048837557] (by norm_num) ?_ ?_ (by norm_num) (by decide +kernel) (by decide +kernel)
  · exact ⟨[2, 1, 1], by norm_num, by norm_num⟩
  · simp only [List.forall_mem_cons, List.not_mem_nil, false_implies, implies_true, and_true]
    exact ⟨prime_2, prime_107, prime_12048837557⟩

theorem prime_1670836401704629 : Nat.Prime 1670836401704629 := by
  refine pratt 1670836401704629 2 [2, 3, 5156902474397] (by norm_num) ?_ ?_ (by norm_num) (by decide +kernel) (by decide +kernel)
  · exact ⟨[2, 4, 1], by norm_num, by norm_num⟩
  · simp only [List.forall_mem_cons, List.not_mem_nil, false_implies, implies_true, and_true]
    exact ⟨prime_2, prime_3, prime_5156902474397⟩

theorem prime_5 : Nat.Prime 5 := by norm_num

theorem prime_823 : Nat.Prime 823 := by norm_num

theorem prime_19 : Nat.Prime 19 := by norm_num

theorem prime_41927 : Nat.Prime 41927 := by norm_num

theorem prime_1593227 : Nat.Prime 1593227 := by
  refine pratt 1593227 2 [2, 19, 41927] (by norm_num) ?_ ?_ (by norm_num) (by decide +kernel) (by decide +kernel)
  · exact ⟨[1, 1, 1], by norm_num, by norm_num⟩
  · simp only [List.forall_mem_cons, List.not_mem_nil, false_implies, implies_true, and_true]
    exact ⟨prime_2, prime_19, prime_41927⟩

theorem prime_83 : Nat.Prime 83 := by norm_num

theorem prime_379 : Nat.Prime 379 := by norm_num

theorem prime_1637 : Nat.Prime 1637 := by norm_num

theorem prime_229 : Nat.Prime 229 := by norm_num

theorem prime_853 : Nat.Prime 853 := by norm_num

theorem prime_639533339 : Nat.Prime 639533339 := by
  refine pratt 639533339 2 [2, 229, 853, 1637] (by norm_num) ?_ ?_ (by norm_num) (by decide +kernel) (by decide +kernel)
  · exact ⟨[1, 1, 1, 1], by norm_num, by norm_num⟩
  · simp only [List.forall_mem_cons, List.not_mem_nil, false_implies, implies_true, and_true]
    exact ⟨prime_2, prime_229, prime_853, prime_1637⟩

theorem prime_65865678001877903 : Nat.Prime 65865678001877903 := by
  refine pratt 65865678001877903 5 [2, 83, 379, 1637, 639533339] (by norm_num) ?_ ?_ (by norm_num) (by decide +kernel) (by decide +kernel)
  · exact ⟨[1, 1, 1, 1, 1], by norm_num, by norm_num⟩
  · simp only [List.forall_mem_cons, List.not_mem_nil, false_implies, implies_true, and_true]
    exact ⟨prime_2, prime_83, prime_379, prime_1637, prime_639533339⟩

theorem prime_13818364434197438864469338081 : Nat.Prime 13818364434197438864469338081 := by
  refine pratt 13818364434197438864469338081 3 [2, 5, 823, 1593227, 65865678001877903] (by norm_num) ?_ ?_ (by norm_num) (by decide +kernel) (by decide +kernel)
  · exact ⟨[5, 1, 1, 1, 1], by norm_num, by norm_num⟩
  · simp only [List.forall_mem_cons, List.not_mem_nil, false_implies, implies_true, and_true]
    exact ⟨prime_2, prime_5, prime_823, prime_1593227, prime_65865678001877903⟩

theorem prime_bn254R : Nat.Prime 21888242871839275222246405745257275088548364400416034343698204186575808495617 := by
  refine pratt 21888242871839275222246405745257275088548364400416034343698204186575808495617 5 [2, 3, 13, 29, 983, 11003, 237073, 405928799, 1670836401704629, 13818364434197438864469338081] (by norm_num) ?_ ?_ (by norm_num) (by decide +kernel) (by decide +kernel)
  · exact ⟨[28, 2, 1, 1, 1, 1, 1, 1, 1, 1], by norm_num, by norm_num⟩
  · simp only [List.forall_mem_cons, List.not_mem_nil, false_implies, implies_true, and_true]
    exact ⟨prime_2, prime_3, prime_13, prime_29, prime_983, prime_11003, prime_237073, prime_405928799, prime_1670836401704629, prime_13818364434197438864469338081⟩

theorem prime_67 : Nat.Prime 67 := by norm_num

theorem prime_311 : Nat.Prime 311 := by norm_num

theorem prime_37 : Nat.Prime 37 := by norm_num

theorem prime_233 : Nat.Prime 233 := by norm_num

theorem prime_327599 : Nat.Prime 327599 := by
  refine pratt 327599 19 [2, 19, 37, 233] (by norm_num) ?_ ?_ (by norm_num) (by decide +kernel) (by decide +kernel)
  · exact ⟨[1, 1, 1, 1], by norm_num, by norm_num⟩
  · simp only [List.forall_mem_cons, List.not_mem_nil, false_implies, implies_true, and_true]
    exact ⟨prime_2, prime_19, prime_37, prime_233⟩

theorem prime_11465965001 : Nat.Prime 11465965001 := by
  refine pratt 11465965001 3 [2, 5, 7, 327599] (by norm_num) ?_ ?_ (by norm_num) (by decide +kernel) (by decide +kernel)
  · exact ⟨[3, 4, 1, 1], by norm_num, by norm_num⟩
  · simp only [List.forall_mem_cons, List.not_mem_nil, false_implies, implies_true, and_true]
    exact ⟨prime_2, prime_5, prime_7, prime_327599⟩

theorem prime_271 : Nat.Prime 271 := by norm_num

theorem prime_1853641 : Nat.Prime 1853641 := by
  refine pratt 1853641 17 [2, 3, 5, 19, 271] (by norm_num) ?_ ?_ (by norm_num) (by decide +kernel) (by decide +kernel)
  · exact ⟨[3, 2, 1, 1, 1], by norm_num, by norm_num⟩
  · simp only [List.forall_mem_cons, List.not_mem_nil, false_implies, implies_true, and_true]
    exact ⟨prime_2, prime_3, prime_5, prime_19, prime_271⟩

theorem prime_17 : Nat.Prime 17 := by norm_num

theorem prime_109 : Nat.Prime 109 := by norm_num

theorem prime_1231 : Nat.Prime 1231 := by norm_num

theorem prime_4562087 : Nat.Prime 4562087 := by
  refine pratt 4562087 5 [2, 17, 109, 1231] (by norm_num) ?_ ?_ (by norm_num) (by decide +kernel) (by decide +kernel)
  · exact ⟨[1, 1, 1, 1], by norm_num, by norm_num⟩
  · simp only [List.forall_mem_cons, List.not_mem_nil, false_implies, implies_true, and_true]
    exact ⟨prime_2, prime_17, prime_109, prime_1231⟩

theorem prime_73 : Nat.Prime 73 := by norm_num

theorem prime_89 : Nat.Prime 89 := by norm_num

theorem prime_13327 : Nat.Prime 13327 := by norm_num

theorem prime_173171039 : Nat.Prime 173171039 := by
  refine pratt 173171039 13 [2, 73, 89, 13327] (by norm_num) ?_ ?_ (by norm_num) (by decide +kernel) (by decide +kernel)
  · exact ⟨[1, 1, 1, 1], by norm_num, by norm_num⟩
  · simp only [List.forall_mem_cons, List.not_mem_nil, false_implies, implies_true, and_true]
    exact ⟨prime_2, prime_73, prime_89, prime_13327⟩

theorem prime_41 : Nat.Prime 41 := by norm_num

theorem prime_911 : Nat.Prime 911 := by norm_num

theorem prime_3557 : Nat.Prime 3557 := by norm_num

theorem prime_1263766531 : Nat.Prime 1263766531 := by
  refine pratt 1263766531 10 [2, 3, 5, 13, 911, 3557] (by norm_num) ?_ ?_ (by norm_num) (by decide +kernel) (by decide +kernel)
  · exact ⟨[1, 1, 1, 1, 1, 1], by norm_num, by norm_num⟩
  · simp only [List.forall_mem_cons, List.not_mem_nil, false_implies, implies_true, and_true]
    exact ⟨prime_2, prime_3, prime_5, prime_13, prime_911, prime_3557⟩

theorem prime_35385462869 : Nat.Prime 35385462869 := by
  refine pratt 35385462869 2 [2, 7, 1263766531] (by norm_num) ?_ ?_ (by norm_num) (by decide +kernel) (by decide +kernel)
  · exact ⟨[2, 1, 1], by norm_num, by norm_num⟩
  · simp only [List.forall_mem_cons, List.not_mem_nil, false_implies, implies_true, and_true]
    exact ⟨prime_2, prime_7, prime_1263766531⟩

theorem prime_2480874801745591 : Nat.Prime 2480874801745591 := by
  refine pratt 2480874801745591 6 [2, 3, 5, 19, 41, 35385462869] (by norm_num) ?_ ?_ (by norm_num) (by decide +kernel) (by decide +kernel)
  · exact ⟨[1, 2, 1, 1, 1, 1], by norm_num, by norm_num⟩
  · simp only [List.forall_mem_cons, List.not_mem_nil, false_implies, implies_true, and_true]
    exact ⟨prime_2, prime_3, prime_5, prime_19, prime_41, prime_35385462869⟩

theorem prime_13427688667394608761327070753331941386769 : Nat.Prime 13427688667394608761327070753331941386769 := by
  refine pratt 13427688667394608761327070753331941386769 17 [2, 3, 7, 11, 1853641, 4562087, 173171039, 2480874801745591] (by norm_num) ?_ ?_ (by norm_num) (by decide +kernel) (by decide +kernel)
  · exact ⟨[4, 1, 1, 1, 1, 1, 1, 1], by norm_num, by norm_num⟩
  · simp only [List.forall_mem_cons, List.not_mem_nil, false_implies, implies_true, and_true]
    exact ⟨prime_2, prime_3, prime_7, prime_11, prime_1853641, prime_4562087, prime_173171039, prime_2480874801745591⟩

theorem prime_bn254Q : Nat.Prime 21888242871839275222246405745257275088696311157297823662689037894645226208583 := by
  refine pratt 21888242871839275222246405745257275088696311157297823662689037894645226208583 3 [2, 3, 13, 29, 67, 229, 311, 983, 11003, 405928799, 11465965001, 13427688667394608761327070753331941386769] (by norm_num) ?_ ?_ (by norm_num) (by decide +kernel) (by decide +kernel)
  · exact ⟨[1, 2, 1, 1, 1, 1, 1, 1, 1, 1, 1, 1], by norm_num, by norm_num⟩
  · simp only [List.forall_mem_cons, List.not_mem_nil, false_implies, implies_true, and_true]
    exact ⟨prime_2, prime_3, prime_13, prime_29, prime_67, prime_229, prime_311, prime_983, prime_11003, prime_405928799, prime_11465965001, prime_13427688667394608761327070753331941386769⟩

def bn254R : ℕ := 21888242871839275222246405745257275088548364400416034343698204186575808495617

def bn254Q : ℕ := 21888242871839275222246405745257275088696311157297823662689037894645226208583

instance fact_bn254R : Fact (Nat.Prime bn254R) := ⟨prime_bn254R⟩

instance fact_bn254Q : Fact (Nat.Prime bn254Q) := ⟨prime_bn254Q⟩

end H2
