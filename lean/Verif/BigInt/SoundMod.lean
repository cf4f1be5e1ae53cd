import Verif.BigInt.SoundCarry
import Verif.Core.Ret

/-! # Soundness of `carry_mod` and `check_carry_mod_to_zero` -/

set_option autoImplicit false
set_option linter.unusedSectionVars false
namespace H2
variable {p : ℕ} [Fact p.Prime] {tbl : ZMod p → Prop} {n k L : ℕ}

/-- Relation between the modulus, the limb size and the native field under which the CRT argument of `carry_mod` and
`check_carry_mod_to_zero` works: `quot_max_bits < n k` (debug-asserted, carry_mod.rs:55; asserted,
check_carry_mod_to_zero.rs:38), at least three bits for the top limb of the quotient, and a native field of at least 4
bits. -/
structure CarryOk (c : FpChip p) : Prop where
  quot : numBits p ≤ Nat.size c.modulus + 1
  crt : Nat.size c.modulus + 5 ≤ c.n + numBits p
  field : 4 ≤ numBits p

/-- The carry chain of `carry_mod` on limbs of `ma` bits cannot wrap around the native modulus. -/
def CarryFits (c : FpChip p) (ma : ℕ) : Prop :=
  c.k * 2 ^ (2 * c.n) + 2 ^ ma + 2 ^ c.n +
    (2 ^ c.n + 1) * 2 ^ carryBits c.L (max (max c.n ma + 1) (2 * c.n + c.kBits)) c.n < p

/-- The carry chain of `check_carry_mod_to_zero` on limbs of `ma` bits cannot wrap around the native modulus. -/
def CarryZeroFits (c : FpChip p) (ma : ℕ) : Prop :=
  c.k * 2 ^ (2 * c.n) + 2 ^ ma + (2 ^ c.n + 1) * 2 ^ carryBits c.L (max ma (2 * c.n + c.kBits)) c.n < p

theorem rangeChecksLast_sound (hL : RangeOk p L) (n last : ℕ) (hn : last ≤ n) (as : List (AV p)) :
    Sound (RangeTable p L) (rangeChecksLast L n last as) (fun w _ => ∃ ds : List ℕ,
      as.map (at' w) = ds.map (fun d : ℕ => (d : ZMod p)) ∧ (∀ d ∈ ds, d < 2 ^ n) ∧
      (as ≠ [] → Nat.ofDigits (2 ^ n) ds < 2 ^ (n * (as.length - 1) + last))) := by
  match as with
  | [] => exact fun s => Snd.pure fun w _ => ⟨[], rfl, by simp, fun h => absurd rfl h⟩
  | [a] =>
    refine fun s => (rangeCheck_sound a last hL s).weaken ?_
    rintro w _ _ ⟨m, h1, h2⟩
    refine ⟨[m], by simp [h2], ?_, fun _ => by simpa using h1⟩
    simp only [List.mem_singleton, forall_eq]
    exact h1.trans_le (Nat.pow_le_pow_right (by norm_num) hn)
  | a :: b :: as =>
    intro s
    refine Snd.bind (rangeCheck_sound a n hL s) fun _ s1 _ => ?_
    refine (rangeChecksLast_sound hL n last hn (b :: as) s1).weaken ?_
    rintro w _ _ ⟨ds, h1, h2, h3⟩ ⟨m, h4, h5⟩
    refine ⟨m :: ds, ?_, ?_, fun _ => ?_⟩
    · show at' w a :: (b :: as).map (at' w) = ((m : ℕ) : ZMod p) :: ds.map (fun d : ℕ => (d : ZMod p))
      rw [h5, h1]
    · intro d hd
      rcases List.mem_cons.1 hd with rfl | hd
      · exact h4
      · exact h2 d hd
    · have h3 := h3 (by simp)
      simp only [List.length_cons, Nat.add_sub_cancel] at h3 ⊢
      rw [Nat.ofDigits_cons, Nat.mul_succ, show n * as.length + n + last = n + (n * as.length + last) by ring, pow_add]
      calc m + 2 ^ n * Nat.ofDigits (2 ^ n) ds < 2 ^ n + 2 ^ n * Nat.ofDigits (2 ^ n) ds := by omega
        _ = 2 ^ n * (Nat.ofDigits (2 ^ n) ds + 1) := by ring
        _ ≤ 2 ^ n * 2 ^ (n * as.length + last) := Nat.mul_le_mul_left _ h3

theorem quotCheck_sound (hL : RangeOk p L) (bits : ℕ) (a : AV p) :
    Sound (RangeTable p L) (quotCheck L bits (2 ^ bits) a) (fun w _ => ∃ z : ℤ, at' w a = (z : ZMod p) ∧ |z| ≤ 2 ^ bits) := by
  intro s
  refine Snd.bind (addc_ex a _ s) fun sh s1 _ => (rangeCheck_sound sh _ hL s1).weaken ?_
  rintro w _ _ ⟨m, h1, h2⟩ h3
  refine ⟨(m : ℤ) - 2 ^ bits, ?_, ?_⟩
  · have : at' w a = at' w sh - 2 ^ bits := by rw [h3]; ring
    rw [this, h2]; push_cast; ring
  · have h1 : (m : ℤ) < 2 ^ (bits + 1) := by exact_mod_cast h1
    rw [pow_succ] at h1
    have : (0 : ℤ) ≤ m := Int.natCast_nonneg m
    rw [abs_le]; constructor <;> linarith

theorem quotChecks_sound (hL : RangeOk p L) (n last : ℕ) (hn : 1 ≤ n) (hl : last ≤ n) (base : List (ZMod p)) (as : List (AV p))
    (hb : 2 ≤ as.length → base[1]? = some (2 ^ n)) :
    Sound (RangeTable p L) (quotChecks L n last base as) (fun w _ => ∃ zs : List ℤ,
      as.map (at' w) = zs.map (fun z : ℤ => (z : ZMod p)) ∧ (∀ z ∈ zs, |z| ≤ 2 ^ n) ∧
      (as ≠ [] → |limbVal n zs| ≤ 2 ^ (n * (as.length - 1)) * (2 ^ last + 2) - 2)) := by
  match as with
  | [] => exact fun s => Snd.pure fun w _ => ⟨[], rfl, by simp, fun h => absurd rfl h⟩
  | [a] =>
    intro s
    refine Snd.rd (pow2At_rd _) fun b hb => ?_
    obtain ⟨-, rfl⟩ := hb
    refine (quotCheck_sound hL last a s).weaken ?_
    rintro w _ _ ⟨z, h1, h2⟩
    refine ⟨[z], by simp [h1], ?_, fun _ => ?_⟩
    · simp only [List.mem_singleton, forall_eq]
      exact h2.trans (pow_le_pow_right₀ (by norm_num) hl)
    · simpa [limbVal] using h2
  | a :: b :: as =>
    intro s
    refine Snd.rd (unwrap_rd _) fun b1 hb1 => ?_
    rw [hb (by simp), Option.some.injEq] at hb1
    subst hb1
    refine Snd.bind (quotCheck_sound hL n a s) fun _ s1 _ => ?_
    refine (quotChecks_sound hL n last hn hl base (b :: as) (fun _ => hb (by simp)) s1).weaken ?_
    rintro w _ _ ⟨zs, h1, h2, h3⟩ ⟨z, h4, h5⟩
    refine ⟨z :: zs, ?_, ?_, fun _ => ?_⟩
    · show at' w a :: (b :: as).map (at' w) = ((z : ℤ) : ZMod p) :: zs.map (fun z : ℤ => (z : ZMod p))
      rw [h4, h1]
    · intro d hd
      rcases List.mem_cons.1 hd with rfl | hd
      · exact h5
      · exact h2 d hd
    · have h3 := h3 (by simp)
      simp only [List.length_cons, Nat.add_sub_cancel] at h3 ⊢
      have hB : (2 : ℤ) ≤ 2 ^ n := by
        calc (2 : ℤ) = 2 ^ 1 := by norm_num
          _ ≤ 2 ^ n := pow_le_pow_right₀ (by norm_num) hn
      rw [limbVal, Nat.mul_succ, Nat.add_comm, pow_add]
      calc |z + 2 ^ n * limbVal n zs| ≤ |z| + |2 ^ n * limbVal n zs| := abs_add_le _ _
        _ = |z| + 2 ^ n * |limbVal n zs| := by rw [abs_mul, abs_of_pos (by positivity : (0:ℤ) < 2 ^ n)]
        _ ≤ 2 ^ n + 2 ^ n * (2 ^ (n * as.length) * (2 ^ last + 2) - 2) :=
            add_le_add h5 (mul_le_mul_of_nonneg_left h3 (by positivity))
        _ = 2 ^ n * 2 ^ (n * as.length) * (2 ^ last + 2) - 2 ^ n := by ring
        _ ≤ _ := by linarith

/-! ### the CRT argument -/

theorem crt_zero (hp : p ≠ 2) {t : ℕ} {Z : ℤ} (h1 : (2 : ℤ) ^ t ∣ Z) (h2 : (Z : ZMod p) = 0) (hb : |Z| < 2 ^ t * p) : Z = 0 := by
  have hd : (p : ℤ) ∣ Z := (ZMod.intCast_zmod_eq_zero_iff_dvd Z p).1 h2
  have hc : IsCoprime ((2 : ℤ) ^ t) (p : ℤ) := by
    apply IsCoprime.pow_left
    have := (Nat.coprime_primes Nat.prime_two (Fact.out : p.Prime)).2 hp.symm
    exact_mod_cast (Nat.isCoprime_iff_coprime.2 this)
  exact Int.eq_zero_of_abs_lt_dvd (hc.mul_dvd h1 hd) hb

theorem crt_bound {n k mb NB pp : ℕ} {M Q A R : ℤ} (hn : 1 ≤ n) (hk : 1 ≤ k) (hNB : 4 ≤ NB) (hp : 2 ^ (NB - 1) ≤ pp)
    (hcrt : mb + 5 ≤ n + NB) (hmb : mb ≤ n * k) (hM : |M| ≤ 2 ^ mb)
    (hQ : |Q| ≤ 2 ^ (n * (k - 1)) * (2 ^ ((n * k - 1 + NB - 1 - mb) - n * (k - 1)) + 2) - 2)
    (hA : |A| + 2 ^ (n * k) * (6 * 2 ^ (NB - 4)) ≤ 2 ^ (n * k) * pp) (hR : |R| < 2 ^ mb) :
    |R + M * Q - A| < 2 ^ (n * k) * pp := by
  obtain ⟨j, rfl⟩ : ∃ j, k = j + 1 := ⟨k - 1, by omega⟩
  have hnk : n * (j + 1) = n * j + n := by ring
  rw [Nat.add_sub_cancel] at hQ
  set last := (n * (j + 1) - 1 + NB - 1 - mb) - n * j with hlast
  have hl3 : 3 ≤ last := by omega
  have hls : mb + n * j + last = n * (j + 1) + (NB - 2) := by omega
  set T : ℤ := 2 ^ (n * (j + 1)) with hT
  set E : ℤ := 2 ^ (NB - 4) with hE
  have hTp : 0 < T := by positivity
  have hE1 : 1 ≤ E := one_le_pow₀ (by norm_num)
  have e1 : (2 : ℤ) ^ (NB - 1) = 8 * E := by
    rw [hE, show NB - 1 = (NB - 4) + 3 by omega, pow_add]; norm_num; ring
  have e2 : (2 : ℤ) ^ mb * 2 ^ (n * j) * 2 ^ last = T * (4 * E) := by
    rw [← pow_add, ← pow_add, hls, pow_add, hT, hE, show NB - 2 = (NB - 4) + 2 by omega, pow_add]; norm_num; ring
  have e4 : (2 : ℤ) ^ mb * 2 ^ (n * j) * 2 ≤ T * E := by
    have h8 : (8 : ℤ) ≤ 2 ^ last := by
      calc (8 : ℤ) = 2 ^ 3 := by norm_num
        _ ≤ _ := pow_le_pow_right₀ (by norm_num) hl3
    have : (2 : ℤ) ^ mb * 2 ^ (n * j) * 8 ≤ T * (4 * E) := by
      rw [← e2]; exact mul_le_mul_of_nonneg_left h8 (by positivity)
    linarith
  have e5 : (2 : ℤ) ^ mb ≤ T * E := by
    calc (2 : ℤ) ^ mb ≤ T := pow_le_pow_right₀ (by norm_num) hmb
      _ = T * 1 := by ring
      _ ≤ T * E := mul_le_mul_of_nonneg_left hE1 hTp.le
  have hMQ : |M * Q| ≤ T * (5 * E) := by
    rw [abs_mul]
    calc |M| * |Q| ≤ 2 ^ mb * (2 ^ (n * j) * (2 ^ last + 2)) :=
          mul_le_mul hM (by linarith) (abs_nonneg _) (by positivity)
      _ = 2 ^ mb * 2 ^ (n * j) * 2 ^ last + 2 ^ mb * 2 ^ (n * j) * 2 := by ring
      _ ≤ T * (5 * E) := by rw [e2]; linarith
  calc |R + M * Q - A| ≤ |R + M * Q| + |A| := abs_sub _ _
    _ ≤ |R| + |M * Q| + |A| := by have := abs_add_le R (M * Q); linarith
    _ < T * E + T * (5 * E) + |A| := by linarith
    _ = |A| + T * (6 * E) := by ring
    _ ≤ _ := hA

/-- The bound documented at carry_mod.rs:24 implies the weaker one which suffices. -/
theorem crt_fits {t NB pp : ℕ} (hNB : 4 ≤ NB) (hp : 2 ^ (NB - 1) ≤ pp) {A : ℤ} (hA : |A| ≤ 2 ^ (t + NB - 3)) :
    |A| + 2 ^ t * (6 * 2 ^ (NB - 4)) ≤ 2 ^ t * pp := by
  have e1 : (2 : ℤ) ^ (NB - 1) = 8 * 2 ^ (NB - 4) := by
    rw [show NB - 1 = (NB - 4) + 3 by omega, pow_add]; norm_num; ring
  have e3 : (2 : ℤ) ^ (t + NB - 3) = 2 ^ t * (2 * 2 ^ (NB - 4)) := by
    rw [show t + NB - 3 = t + ((NB - 4) + 1) by omega, pow_add, pow_add]; ring
  have hpp : (2 : ℤ) ^ t * (8 * 2 ^ (NB - 4)) ≤ 2 ^ t * pp := by
    rw [← e1]
    exact mul_le_mul_of_nonneg_left (by exact_mod_cast hp) (by positivity)
  rw [e3] at hA
  linarith

/-- The largest absolute value for which `carry_mod` is proved correct (a little more than the documented `2^(n k + NUM_BITS - 3)`). -/
def crtMax (c : FpChip p) : ℕ := 2 ^ (c.n * c.k) * p - 2 ^ (c.n * c.k) * (6 * 2 ^ (numBits p - 4))

theorem crtMax_ge {c : FpChip p} (h : 4 ≤ numBits p) (hp : 2 ^ (numBits p - 1) ≤ p) : 2 ^ (c.n * c.k + numBits p - 3) ≤ crtMax c := by
  have := crt_fits (t := c.n * c.k) h hp (A := 2 ^ (c.n * c.k + numBits p - 3)) (by rw [abs_of_nonneg (by positivity)])
  rw [abs_of_nonneg (by positivity)] at this
  unfold crtMax
  have h2 : 2 ^ (c.n * c.k + numBits p - 3) + 2 ^ (c.n * c.k) * (6 * 2 ^ (numBits p - 4)) ≤ 2 ^ (c.n * c.k) * p := by exact_mod_cast this
  omega

theorem crtMax_fits {c : FpChip p} (h : 4 ≤ numBits p) (hp : 2 ^ (numBits p - 1) ≤ p) {A : ℤ} (hA : |A| ≤ crtMax c) :
    |A| + 2 ^ (c.n * c.k) * (6 * 2 ^ (numBits p - 4)) ≤ 2 ^ (c.n * c.k) * p := by
  have h1 : 2 ^ (c.n * c.k) * (6 * 2 ^ (numBits p - 4)) ≤ 2 ^ (c.n * c.k) * p := by
    refine Nat.mul_le_mul_left _ (le_trans ?_ hp)
    rw [show numBits p - 1 = (numBits p - 4) + 3 by omega, pow_add]; omega
  have h2 : ((crtMax c : ℕ) : ℤ) + 2 ^ (c.n * c.k) * (6 * 2 ^ (numBits p - 4)) = 2 ^ (c.n * c.k) * p := by
    have : crtMax c + 2 ^ (c.n * c.k) * (6 * 2 ^ (numBits p - 4)) = 2 ^ (c.n * c.k) * p := by unfold crtMax; omega
    exact_mod_cast this
  linarith

theorem limbVal_check (n k : ℕ) (qs ms xs os : List ℤ) (hq : qs.length = k) (hm : ms.length = k) (hx : xs.length = k)
    (ho : os.length = k) :
    limbVal n ((List.range k).map (fun i => conv qs ms i - xs.getD i 0 + os.getD i 0)) ≡
      limbVal n qs * limbVal n ms - limbVal n xs + limbVal n os [ZMOD 2 ^ (n * k)] := by
  have h := limbVal_conv n qs ms (hq.trans hm.symm)
  rw [hq] at h
  have e : limbVal n ((List.range k).map (fun i => conv qs ms i - xs.getD i 0 + os.getD i 0)) =
      limbVal n ((List.range k).map (conv qs ms)) - limbVal n xs + limbVal n os := by
    rw [limbVal_range, limbVal_range, limbVal_getD n xs, limbVal_getD n os, hx, ho, ← Finset.sum_sub_distrib,
      ← Finset.sum_add_distrib]
    exact Finset.sum_congr rfl fun i _ => by ring
  rw [e]
  exact (h.sub_right _).add_right _

theorem abs_getD_le {l : List ℤ} {C : ℤ} (hC : 0 ≤ C) (h : ∀ x ∈ l, |x| ≤ C) (j : ℕ) : |l.getD j 0| ≤ C := by
  rw [List.getD_eq_getElem?_getD]
  rcases hj : l[j]? with _ | x
  · simpa using hC
  · exact h x (List.mem_of_getElem? hj)

theorem getD_casts (xs : List ℤ) (i : ℕ) : (xs.map (fun x : ℤ => (x : ZMod p))).getD i 0 = ((xs.getD i 0 : ℤ) : ZMod p) := by
  simp only [List.getD_eq_getElem?_getD, List.getElem?_map]
  cases xs[i]? <;> simp

/-- The limbs of the modulus, as integers. -/
def modInts (c : FpChip p) : List ℤ := (limbsOf c.modulus c.k c.n).map (fun d : ℕ => (d : ℤ))

theorem modInts_val {c : FpChip p} (hc : ChipOk c) : limbVal c.n (modInts c) = c.modulus := by
  rw [modInts, limbVal_map_nat, ofDigits_limbsOf _ _ _ hc.lt]

theorem modInts_casts {c : FpChip p} (hc : ChipOk c) : c.modLimbs = (modInts c).map (fun x : ℤ => (x : ZMod p)) := by
  rw [hc.limbs, modInts, List.map_map]; exact List.map_congr_left fun _ _ => by simp

theorem modInts_length {c : FpChip p} : (modInts c).length = c.k := by simp [modInts, limbsOf_length]

theorem modInts_abs {c : FpChip p} : ∀ x ∈ modInts c, |x| ≤ 2 ^ c.n := by
  intro x hx
  rw [modInts, List.mem_map] at hx
  obtain ⟨d, hd, rfl⟩ := hx
  rw [abs_of_nonneg (Int.natCast_nonneg d)]
  exact_mod_cast (limbsOf_lt' hd).le

theorem base1_get {c : FpChip p} (hc : ChipOk c) (h : 2 ≤ c.k) : c.bases[1]? = some (2 ^ c.n) := by
  rw [hc.bases]; simp [show 1 < c.k by omega]

theorem base1_rd {s : Ctx p} {c : FpChip p} (hc : ChipOk c) : Rd s c.base1 (fun r => r = 2 ^ c.n ∧ 2 ≤ c.k) := by
  refine (unwrap_rd _).weaken fun r hr => ?_
  have h2 : 2 ≤ c.k := by
    have := (List.getElem?_eq_some_iff.1 hr).1
    rw [hc.bases, List.length_map, List.length_range] at this; exact this
  rw [base1_get hc h2, Option.some.injEq] at hr
  exact ⟨hr.symm, h2⟩

theorem conv_bound (c : FpChip p) {qs : List ℤ} (hq : ∀ z ∈ qs, |z| ≤ 2 ^ c.n) {i : ℕ} (hi : i < c.k) :
    |conv qs (modInts c) i| ≤ c.k * 2 ^ (2 * c.n) := by
  refine (conv_abs_le qs (modInts c) i hq modInts_abs (by positivity) (by positivity)).trans ?_
  rw [← pow_add, ← two_mul]
  exact mul_le_mul_of_nonneg_right (by exact_mod_cast hi) (by positivity)

theorem size_le_of_lt {m t : ℕ} (h : m < 2 ^ t) : Nat.size m ≤ t := Nat.size_le.2 h

theorem pow_numBits_le : 2 ^ (numBits p - 1) ≤ p := pow_capacity_le (n := numBits p - 1) (by rw [capacity])

theorem subU_rd {s : Ctx p} (a b : ℕ) : Rd s (subU a b : M p ℕ) (fun r => b ≤ a ∧ r = a - b) := by
  unfold subU
  exact Rd.ite (fun h => Rd.pure ⟨h, rfl⟩) fun _ => Rd.panic

/-- Region `[constant, existing q, existing a]` with the gate one row above: `on + c * q = a`. -/
theorem finalRegion_snd {s : Ctx p} {on : AV p} (hon : IsLast s on) (c : ZMod p) (q a : AV p) :
    Snd tbl s (assignRegion [.constant c, .existing q, .existing a] [-1])
      (fun w _ _ => at' w on + c * at' w q = at' w a) := by
  refine (assignRegion_snd _ _).weaken ?_
  rintro w _ _ ⟨-, hq, hg⟩
  have em := hon.rowV w
  generalize rowV w s s.advice.length = V at *
  have g1 := hg (-1) (by simp)
  simp only [QsOk, QOk, and_true, true_and] at hq
  obtain ⟨q0, q1, q3⟩ := hq
  norm_num [gateV] at g1 q0 q1 q3
  rw [← em, ← q0, ← q1, ← q3, g1]

theorem decomposeBigint_length {c : FpChip p} (hc : ChipOk c) {e : ℤ} {ls : List (ZMod p)}
    (h : Utils.decomposeBigint p false e c.k c.n = some ls) : ls.length = c.k := by
  have h0 := Utils.decomposeBigLimbs_eq (chk := false) (e := e.natAbs) hc.n64 hc.n128 (by have := hc.k1; omega : c.k ≠ 0)
  unfold Utils.decomposeBigint Utils.decomposeBiguint at h
  rw [h0] at h
  split at h
  · simp only [Option.map_some, Option.some.injEq] at h
    rw [← h]; simp [limbsOf_length]
  · simp only [Option.map_some, Option.some.injEq] at h
    rw [← h]; simp [limbsOf_length]

theorem ne_two_of_numBits (h : 4 ≤ numBits p) : p ≠ 2 := by
  intro e
  have : numBits p ≤ 2 := by rw [numBits, e]; exact Nat.size_le.2 (by norm_num)
  omega

theorem carryModLoop_ret (modLimbs : List (ZMod p)) (l : List (AV p × ZMod p × ZMod p)) (qs : List (AV p)) :
    Ret (carryModLoop modLimbs l qs) (fun r => r.1.length = qs.length + l.length ∧ r.2.1.length = l.length ∧
      r.2.2.length = l.length) := by
  induction l generalizing qs with
  | nil => exact Ret.pure ⟨rfl, rfl, rfl⟩
  | cons e l ih =>
    obtain ⟨a, q, o⟩ := e
    refine Ret.bind_ fun ms => Ret.bind_ fun pq => ?_
    obtain ⟨prod, qc⟩ := pq
    refine Ret.bind_ fun pv => Ret.bind_ fun av => Ret.bind_ fun _ => Ret.bind_ fun check => Ret.bind_ fun oc => ?_
    refine Ret.bind (ih _) fun r hr => ?_
    obtain ⟨qs', os, cs⟩ := r
    obtain ⟨h1, h2, h3⟩ := hr
    refine Ret.pure ⟨?_, ?_, ?_⟩
    · dsimp only at h1 ⊢; rw [h1]; simp; omega
    · simpa using h2
    · simpa using h3

theorem carryModCrt_sound {c : FpChip p} (hc : ChipOk c) (hL : RangeOk p c.L) (ho : CarryOk c) (a : CrtInt p) :
    Sound (RangeTable p c.L) (carryModCrt c a) (fun w r => r.value = a.value % c.modulus ∧
      (CarryFits c a.trunc.maxBits → ∀ A : ℤ, CrtOk c.n c.k w a A → |A| ≤ crtMax c →
        ∃ R : ℕ, ProperOk c.n c.k w r R ∧ R < 2 ^ Nat.size c.modulus ∧ (R : ℤ) ≡ A [ZMOD c.modulus])) := by
  intro s
  have hmb : Nat.size c.modulus ≤ c.n * c.k := size_le_of_lt hc.lt
  have hn1 : 1 ≤ c.n := by have := hc.n64; omega
  refine Snd.assert fun h0 => ?_
  rw [decide_eq_true_eq] at h0
  obtain ⟨hk1, hnk1, hsz⟩ := h0
  refine Snd.rd (subU_rd _ _) fun _ hs1 => Snd.rd (subU_rd _ _) fun _ hs2 => ?_
  refine Snd.assert fun hm0 => ?_
  refine Snd.rd (unwrap_rd _) fun ov hov => Snd.rd (unwrap_rd _) fun qv hqv => ?_
  refine Snd.assert fun hml => ?_
  rw [decide_eq_true_eq, modInts_casts hc, List.length_map, modInts_length] at hml
  rw [← hml] at hs1 hs2 hsz hov hqv ⊢
  have hal : a.trunc.limbs.length = c.k := hml.symm
  have hovl : ov.length = c.k := decomposeBigint_length hc hov
  have hqvl : qv.length = c.k := decomposeBigint_length hc hqv
  have hzl : (a.trunc.limbs.zip (qv.zip ov)).length = c.k := by simp [hal, hovl, hqvl]
  have hk : c.n * c.k = c.n * (c.k - 1) + c.n := by
    have : c.k = c.k - 1 + 1 := by omega
    conv_lhs => rw [this, Nat.mul_succ]
  refine Snd.bindP (carryModLoop_sound c.modLimbs (a.trunc.limbs.zip (qv.zip ov)) [] s)
    (P := fun r _ => r.1.length = c.k ∧ r.2.1.length = c.k) (fun _ r s' hr => by
      obtain ⟨h1, h2, -⟩ := carryModLoop_ret _ _ _ s r s' hr
      rw [hzl] at h1 h2
      exact ⟨by simpa using h1, h2⟩) fun r s1 _ hr => ?_
  obtain ⟨qs, os, cs⟩ := r
  obtain ⟨hql, hol⟩ := hr
  dsimp only at hql hol
  refine Snd.bind (rangeChecksLast_sound hL c.n _ (by omega) os s1) fun _ s2 _ => ?_
  have hlast : quotLast p c.n c.k (Nat.size c.modulus) ≤ c.n := by
    unfold quotLast
    have := ho.quot
    omega
  refine Snd.bind (quotChecks_sound hL c.n _ hn1 hlast c.bases qs (fun h => base1_get hc (by omega)) s2) fun _ s3 _ => ?_
  refine Snd.rd (base1_rd hc) fun b1 hb1 => ?_
  obtain ⟨rfl, hk2⟩ := hb1
  refine Snd.bind (checkCarryToZero_sound hL ⟨cs, _⟩ c.n (c.k * 2 ^ (2 * c.n) + 2 ^ a.trunc.maxBits + 2 ^ c.n) s3)
    fun _ s4 _ => ?_
  have hbl : c.bases.length = c.k := by rw [hc.bases]; simp
  refine Snd.bind (evalNative_sound qs c.bases (by omega) s4) fun qn s5 _ => ?_
  refine Snd.bindP (evalNative_sound os c.bases (by omega) s5)
    (innerProduct_last _ _ (by simp; omega)) fun on s6 _ hlst => ?_
  refine Snd.bind (finalRegion_snd hlst _ _ _) fun _ s7 _ => Snd.pure ?_
  rintro w - hfin hon hqn hcz ⟨zs, hz1, hz2, hz3⟩ ⟨ds, hd1, hd2, hd3⟩ ⟨-, new, -, -, -, hcs⟩
  refine ⟨rfl, ?_⟩
  rintro hf A ⟨xs, hxl, hox, hcx, hnx⟩ hA
  have hcz := hcz (by
    have : c.k * 2 ^ (2 * c.n) + 2 ^ a.trunc.maxBits + 2 ^ c.n +
      (2 ^ c.n + 1) * 2 ^ carryBits c.L (max (max c.n a.trunc.maxBits + 1) (2 * c.n + c.kBits)) c.n < p := hf
    exact_mod_cast this)
  dsimp only at hcs hcz
  have hzsl : zs.length = c.k := by rw [← hql]; simpa using (congrArg List.length hz1).symm
  have hdsl : ds.length = c.k := by rw [← hol]; simpa using (congrArg List.length hd1).symm
  have hqne : qs ≠ [] := by intro h; subst h; simp at hql; omega
  have hone : os ≠ [] := by intro h; subst h; simp at hol; omega
  have hQ := hz3 hqne
  have hR := hd3 hone
  rw [hql] at hQ
  rw [hol, show c.n * (c.k - 1) + (Nat.size c.modulus - c.n * (c.k - 1)) = Nat.size c.modulus by omega] at hR
  set R := Nat.ofDigits (2 ^ c.n) ds with hRdef
  set Q := limbVal c.n zs with hQdef
  have hos : os.map (at' w) = (ds.map (fun d : ℕ => (d : ℤ))).map (fun x : ℤ => (x : ZMod p)) := by
    rw [hd1, List.map_map]; exact List.map_congr_left fun _ _ => by simp
  -- the check limbs as integers
  set chk : List ℤ := (List.range c.k).map (fun i => conv zs (modInts c) i - xs.getD i 0 +
    (ds.map (fun d : ℕ => (d : ℤ))).getD i 0) with hchk
  have hcsz : cs.map (at' w) = chk.map (fun x : ℤ => (x : ZMod p)) := by
    rw [hcs, hzl, hchk, List.map_map]
    refine List.map_congr_left fun i _ => ?_
    have ea : (a.trunc.limbs.zip (qv.zip ov)).map (fun e => at' w e.1) = a.trunc.limbs.map (at' w) := by
      rw [show (fun e : AV p × ZMod p × ZMod p => at' w e.1) = at' w ∘ Prod.fst from rfl, ← List.map_map,
        List.map_fst_zip]
      simp [hal, hovl, hqvl]
    rw [ea, hz1, modInts_casts hc, hox.limbs, hos, getD_casts, getD_casts, List.length_nil, Nat.zero_add, conv_casts]
    simp
  have hbnd : ∀ x ∈ chk, |x| ≤ c.k * 2 ^ (2 * c.n) + 2 ^ a.trunc.maxBits + 2 ^ c.n := by
    intro x hx
    rw [hchk, List.mem_map] at hx
    obtain ⟨i, hi, rfl⟩ := hx
    rw [List.mem_range] at hi
    have b1 := conv_bound c hz2 hi
    have b2 := abs_getD_le (l := xs) (C := 2 ^ a.trunc.maxBits) (by positivity) (fun x hx => (hox.bound x hx).le) i
    have b3 := abs_getD_le (l := ds.map (fun d : ℕ => (d : ℤ))) (C := 2 ^ c.n) (by positivity) (fun x hx => by
      rw [List.mem_map] at hx
      obtain ⟨d, hd, rfl⟩ := hx
      rw [abs_of_nonneg (Int.natCast_nonneg d)]
      exact_mod_cast (hd2 d hd).le) i
    have t1 := abs_add_le (conv zs (modInts c) i - xs.getD i 0) ((ds.map (fun d : ℕ => (d : ℤ))).getD i 0)
    have t2 := abs_sub (conv zs (modInts c) i) (xs.getD i 0)
    linarith
  have hcsl : cs.length = c.k := by
    have := congrArg List.length hcs
    simpa [hzl] using this
  have hdiv := hcz chk hcsz hbnd
  rw [hcsl] at hdiv
  have hmod := limbVal_check c.n c.k zs (modInts c) xs (ds.map (fun d : ℕ => (d : ℤ))) hzsl modInts_length hxl (by simpa using hdsl)
  rw [modInts_val hc, limbVal_map_nat, ← hRdef, ← hQdef] at hmod
  have hZ : (R : ℤ) + c.modulus * Q - A = 0 := by
    refine crt_zero (p := p) (t := c.n * c.k) ?_ ?_ ?_ ?_
    · exact ne_two_of_numBits ho.field
    · have e1 : (0 : ℤ) ≡ Q * c.modulus - A + R [ZMOD 2 ^ (c.n * c.k)] := by
        refine ((Int.modEq_zero_iff_dvd.2 hdiv).symm.trans hmod).trans ?_
        exact ((hcx.sub_left _).add_right _)
      have := Int.modEq_zero_iff_dvd.1 e1.symm
      convert this using 1; ring
    · have hq : at' w qn = (Q : ZMod p) := by
        rw [hqn, hz1, dot_bases_int zs hzsl hc.bases]
      have ho' : at' w on = (R : ZMod p) := by
        rw [hon, hd1, dot_bases ds hdsl hc.bases]
      rw [hq, ho', hc.native, hnx] at hfin
      push_cast
      rw [hfin]; ring
    · refine crt_bound (NB := numBits p) hn1 hc.k1 ho.field pow_numBits_le ho.crt hmb ?_ hQ (crtMax_fits ho.field pow_numBits_le hA) ?_
      · rw [abs_of_nonneg (Int.natCast_nonneg _)]
        exact_mod_cast (Nat.lt_size_self c.modulus).le
      · rw [abs_of_nonneg (Int.natCast_nonneg _)]
        exact_mod_cast hR
  refine ⟨R, ⟨ds, hdsl, rfl, hd1, hd2, rfl, ?_⟩, hR, ?_⟩
  · rw [show at' w _ = _ from hon, hd1, dot_bases ds hdsl hc.bases]
  · rw [Int.modEq_iff_dvd]
    exact ⟨Q, by linarith⟩

/-! ### `check_carry_mod_to_zero` -/

theorem czRegion_snd {s : Ctx p} {prod : AV p} (hp : IsLast s prod) (a : AV p) (x : ZMod p) :
    Snd tbl s (assignRegionLast [.constant (-1), .existing a, .witness x] [-1])
      (fun w r _ => at' w r = at' w prod - at' w a) := by
  refine Snd.bind (assignRegion_snd _ _) fun _ s1 e1 => ?_
  refine lastM_rd.snd.weaken ?_
  rintro w r _ ⟨rfl, hc1, hc2, -⟩ ⟨hl, hq, hg⟩
  simp only [List.length_cons, List.length_nil] at hl
  have e5 : at' w r = rowV w s s.advice.length 2 := by
    rw [← e1.rowV]; exact rowV_of_cell hc2 (by omega)
  have em := hp.rowV w
  generalize rowV w s s.advice.length = V at *
  have g1 := hg (-1) (by simp)
  simp only [QsOk, QOk, and_true, true_and] at hq
  obtain ⟨q0, q1⟩ := hq
  norm_num [gateV] at g1 q0 q1
  rw [e5, ← g1, em, q0, q1]
  ring

theorem carryZeroLoop_sound (modLimbs : List (ZMod p)) (l : List (AV p × ZMod p)) (qs : List (AV p)) :
    Sound tbl (carryZeroLoop modLimbs l qs) (fun w r => qs.length + l.length ≤ max qs.length modLimbs.length ∧
      ∃ new, r.1 = qs ++ new ∧ new.length = l.length ∧
      r.2.map (at' w) = (List.range l.length).map (fun i => conv (r.1.map (at' w)) modLimbs (qs.length + i)
        - (l.map (fun e => at' w e.1)).getD i 0)) := by
  induction l generalizing qs with
  | nil => exact fun s => Snd.pure fun w _ => ⟨by simp, [], by simp, rfl, rfl⟩
  | cons e l ih =>
    obtain ⟨a, q⟩ := e
    intro s
    refine Snd.rd (sliceTo_rd _ _) fun ms hms => ?_
    obtain ⟨hml, rfl⟩ := hms
    have hlen : (qs.map .existing ++ [.witness q] : List (QCell p)).length =
        ((modLimbs.take (qs.length + 1)).reverse.map (.constant : ZMod p → QCell p)).length := by simp; omega
    refine Snd.bindP (innerProductLeftLast_sound _ _ hlen s) (innerProductLeftLast_last _ _ hlen) fun pq s1 _ hlast => ?_
    obtain ⟨prod, qc⟩ := pq
    refine Snd.unwrap fun pv _ => Snd.unwrap fun av _ => ?_
    refine Snd.bind (czRegion_snd hlast a _) fun check s2 _ => ?_
    refine Snd.bind (ih (qs ++ [qc]) s2) fun r s3 _ => ?_
    obtain ⟨qs', cs⟩ := r
    refine Snd.pure ?_
    rintro w - ⟨hle, new, h1, h2, h4⟩ hco ⟨xs, ys, hx, hy, hp, hlst⟩
    dsimp only at h1 h2 h4 hco hp hlst ⊢
    have hxs := QOks_quot hx hlst
    subst hxs
    rw [prod_eq hml hy] at hp
    refine ⟨by rw [List.length_append, List.length_singleton] at hle; simp only [List.length_cons]; omega,
      qc :: new, by rw [h1]; simp, by simp [h2], ?_⟩
    rw [List.map_cons, h4, List.length_cons, List.range_succ_eq_map, List.map_cons, List.map_map]
    refine List.cons_eq_cons.2 ⟨?_, ?_⟩
    · have hc := conv_append ((qs ++ [qc]).map (at' w)) (new.map (at' w)) modLimbs qs.length (by simp)
      rw [← List.map_append, ← h1] at hc
      rw [hco, hp, ← hc]
      simp
    · refine List.map_congr_left fun i _ => ?_
      simp only [Function.comp, Nat.succ_eq_add_one, List.map_cons, List.getD_cons_succ, List.length_append,
        List.length_singleton]
      rw [show qs.length + 1 + i = qs.length + (i + 1) by ring]

theorem carryZeroLoop_ret (modLimbs : List (ZMod p)) (l : List (AV p × ZMod p)) (qs : List (AV p)) :
    Ret (carryZeroLoop modLimbs l qs) (fun r => r.1.length = qs.length + l.length ∧ r.2.length = l.length) := by
  induction l generalizing qs with
  | nil => exact Ret.pure ⟨rfl, rfl⟩
  | cons e l ih =>
    obtain ⟨a, q⟩ := e
    refine Ret.bind_ fun ms => Ret.bind_ fun pq => ?_
    obtain ⟨prod, qc⟩ := pq
    refine Ret.bind_ fun pv => Ret.bind_ fun av => Ret.bind_ fun check => ?_
    refine Ret.bind (ih _) fun r hr => ?_
    obtain ⟨qs', cs⟩ := r
    obtain ⟨h1, h3⟩ := hr
    refine Ret.pure ⟨?_, ?_⟩
    · dsimp only at h1 ⊢; rw [h1]; simp; omega
    · simpa using h3

theorem limbVal_check0 (n k : ℕ) (qs ms xs : List ℤ) (hq : qs.length = k) (hm : ms.length = k) (hx : xs.length = k) :
    limbVal n ((List.range k).map (fun i => conv qs ms i - xs.getD i 0)) ≡
      limbVal n qs * limbVal n ms - limbVal n xs [ZMOD 2 ^ (n * k)] := by
  have h := limbVal_conv n qs ms (hq.trans hm.symm)
  rw [hq] at h
  have e : limbVal n ((List.range k).map (fun i => conv qs ms i - xs.getD i 0)) =
      limbVal n ((List.range k).map (conv qs ms)) - limbVal n xs := by
    rw [limbVal_range, limbVal_range, limbVal_getD n xs, hx, ← Finset.sum_sub_distrib]
    exact Finset.sum_congr rfl fun i _ => by ring
  rw [e]
  exact h.sub_right _

theorem zeroRegion_snd {s : Ctx p} (c : ZMod p) (q a : AV p) :
    Snd tbl s (assignRegion [.constant 0, .constant c, .existing q, .existing a] [0])
      (fun w _ _ => c * at' w q = at' w a) := by
  refine (assignRegion_snd _ _).weaken ?_
  rintro w _ _ ⟨-, hq, hg⟩
  generalize rowV w s s.advice.length = V at *
  have g1 := hg 0 (by simp)
  simp only [QsOk, QOk, and_true, true_and] at hq
  obtain ⟨q0, q1, q2, q3⟩ := hq
  norm_num [gateV] at g1 q0 q1 q2 q3
  rw [← q1, ← q2, ← q3, ← g1, q0, zero_add]

theorem innerProduct_true (a b : List (QCell p)) : Sound tbl (innerProduct a b) (fun _ _ => True) := by
  intro s
  unfold innerProduct innerProductSimple
  rw [bind_assoc]
  refine Snd.rd (Q := fun _ => True) ?_ fun cells _ => ?_
  · unfold ipCells
    refine Rd.ite (fun _ => ?_) fun _ => ?_
    · exact Rd.bind (unwrap_rd _) fun _ _ => Rd.bind (unwrap_rd _) fun _ _ => Rd.bind (ipBody_rd _ _) fun _ _ => Rd.pure trivial
    · exact Rd.bind (ipBody_rd _ _) fun _ _ => Rd.pure trivial
  · rw [bind_assoc]
    refine getWgo_bind ?_
    rw [bind_assoc]
    unfold ipRegion
    rw [if_neg (by simp)]
    refine Snd.bind (assignRegion_snd _ _) fun _ s1 _ => ?_
    rw [pure_bind]
    exact lastM_rd.snd.weaken fun _ _ _ _ _ => trivial

theorem quotChecks_true (hL : RangeOk p L) (n last : ℕ) (base : List (ZMod p)) (as : List (AV p)) :
    Sound (RangeTable p L) (quotChecks L n last base as) (fun _ _ => True) := by
  have hq : ∀ bits b a, Sound (RangeTable p L) (quotCheck L bits b a) (fun _ _ => True) := fun bits b a s =>
    Snd.bind (addc_ex a _ s) fun sh s1 _ => (rangeCheck_sound sh _ hL s1).weaken fun _ _ _ _ _ => trivial
  match as with
  | [] => exact fun s => Snd.pure fun w _ => trivial
  | [a] =>
    intro s
    exact Snd.rd (pow2At_rd _) fun b hb => hq _ _ _ s
  | a :: b :: as =>
    intro s
    refine Snd.unwrap fun b1 _ => ?_
    exact Snd.bind (hq _ _ _ s) fun _ s1 _ => (quotChecks_true hL n last base (b :: as) s1).weaken fun _ _ _ _ _ => trivial

theorem checkCarryModToZeroCrt_true {c : FpChip p} (hc : ChipOk c) (hL : RangeOk p c.L) (a : CrtInt p) :
    Sound (RangeTable p c.L) (checkCarryModToZeroCrt c a) (fun _ _ => True) := by
  intro s
  refine Snd.assert fun _ => Snd.assert fun _ => Snd.rd (subU_rd _ _) fun _ _ => Snd.assert fun _ =>
    Snd.rd (unwrap_rd _) fun qv _ => ?_
  refine Snd.bind (carryZeroLoop_sound c.modLimbs (a.trunc.limbs.zip qv) [] s) fun r s1 _ => ?_
  obtain ⟨qs, cs⟩ := r
  refine Snd.bind (quotChecks_true hL _ _ _ _ s1) fun _ s2 _ => ?_
  refine Snd.rd (base1_rd hc) fun b1 hb1 => ?_
  obtain ⟨rfl, -⟩ := hb1
  refine Snd.bind (checkCarryToZero_sound hL _ _ 0 s2) fun _ s3 _ => ?_
  refine Snd.bind (innerProduct_true _ _ s3) fun qn s4 _ => ?_
  exact (zeroRegion_snd _ _ _).weaken fun _ _ _ _ _ _ _ _ => trivial

theorem checkCarryModToZeroCrt_sound {c : FpChip p} (hc : ChipOk c) (hL : RangeOk p c.L) (ho : CarryOk c) (a : CrtInt p) :
    Sound (RangeTable p c.L) (checkCarryModToZeroCrt c a) (fun w _ => CarryZeroFits c a.trunc.maxBits →
      ∀ A : ℤ, CrtOk c.n c.k w a A → |A| ≤ 2 ^ (c.n * c.k + numBits p - 3) → A ≡ 0 [ZMOD c.modulus]) := by
  intro s
  have hmb : Nat.size c.modulus ≤ c.n * c.k := size_le_of_lt hc.lt
  have hn1 : 1 ≤ c.n := by have := hc.n64; omega
  by_cases hak : a.trunc.limbs.length = c.k
  swap
  · exact (checkCarryModToZeroCrt_true hc hL a s).weaken fun w _ _ _ _ A hA _ => absurd hA.length hak
  unfold checkCarryModToZeroCrt
  dsimp only
  rw [hak]
  refine Snd.assert fun h0 => ?_
  rw [decide_eq_true_eq] at h0
  obtain ⟨hk1, hnk1, hsz⟩ := h0
  refine Snd.assert fun h0' => ?_
  refine Snd.rd (subU_rd _ _) fun _ hs1 => ?_
  refine Snd.assert fun hm0 => ?_
  refine Snd.rd (unwrap_rd _) fun qv hqv => ?_
  have hqvl : qv.length = c.k := decomposeBigint_length hc hqv
  have hzl : (a.trunc.limbs.zip qv).length = c.k := by simp [hak, hqvl]
  have hk : c.n * c.k = c.n * (c.k - 1) + c.n := by
    have : c.k = c.k - 1 + 1 := by omega
    conv_lhs => rw [this, Nat.mul_succ]
  refine Snd.bindR (carryZeroLoop_sound c.modLimbs (a.trunc.limbs.zip qv) [] s)
    (carryZeroLoop_ret _ _ _) fun r s1 _ hr => ?_
  obtain ⟨qs, cs⟩ := r
  obtain ⟨hql, hcl⟩ := hr
  rw [hzl] at hql hcl
  rw [List.length_nil, Nat.zero_add] at hql
  dsimp only at hql hcl
  have hlast : quotLast p c.n c.k (Nat.size c.modulus) ≤ c.n := by
    unfold quotLast
    have := ho.quot
    omega
  refine Snd.bind (quotChecks_sound hL c.n _ hn1 hlast c.bases qs (fun h => base1_get hc (by omega)) s1) fun _ s3 _ => ?_
  refine Snd.rd (base1_rd hc) fun b1 hb1 => ?_
  obtain ⟨rfl, hk2⟩ := hb1
  refine Snd.bind (checkCarryToZero_sound hL ⟨cs, _⟩ c.n (c.k * 2 ^ (2 * c.n) + 2 ^ a.trunc.maxBits) s3)
    fun _ s4 _ => ?_
  have hbl : c.bases.length = c.k := by rw [hc.bases]; simp
  refine Snd.bind (evalNative_sound qs c.bases (by omega) s4) fun qn s5 _ => ?_
  refine (zeroRegion_snd _ _ _).weaken ?_
  rintro w _ _ hfin hqn hcz ⟨zs, hz1, hz2, hz3⟩ ⟨-, new, -, -, hcs⟩
  rintro hf A ⟨xs, hxl, hox, hcx, hnx⟩ hA
  have hcz := hcz (by
    have : c.k * 2 ^ (2 * c.n) + 2 ^ a.trunc.maxBits +
      (2 ^ c.n + 1) * 2 ^ carryBits c.L (max a.trunc.maxBits (2 * c.n + c.kBits)) c.n < p := hf
    exact_mod_cast this)
  dsimp only at hcs hcz
  have hzsl : zs.length = c.k := by rw [← hql]; simpa using (congrArg List.length hz1).symm
  have hqne : qs ≠ [] := by intro h; subst h; simp at hql; omega
  have hQ := hz3 hqne
  rw [hql] at hQ
  set Q := limbVal c.n zs with hQdef
  set chk : List ℤ := (List.range c.k).map (fun i => conv zs (modInts c) i - xs.getD i 0) with hchk
  have hcsz : cs.map (at' w) = chk.map (fun x : ℤ => (x : ZMod p)) := by
    rw [hcs, hzl, hchk, List.map_map]
    refine List.map_congr_left fun i _ => ?_
    have ea : (a.trunc.limbs.zip qv).map (fun e => at' w e.1) = a.trunc.limbs.map (at' w) := by
      rw [show (fun e : AV p × ZMod p => at' w e.1) = at' w ∘ Prod.fst from rfl, ← List.map_map, List.map_fst_zip]
      simp [hak, hqvl]
    rw [ea, hz1, modInts_casts hc, hox.limbs, getD_casts, List.length_nil, Nat.zero_add, conv_casts]
    simp
  have hbnd : ∀ x ∈ chk, |x| ≤ c.k * 2 ^ (2 * c.n) + 2 ^ a.trunc.maxBits := by
    intro x hx
    rw [hchk, List.mem_map] at hx
    obtain ⟨i, hi, rfl⟩ := hx
    rw [List.mem_range] at hi
    have b1 := conv_bound c hz2 hi
    have b2 := abs_getD_le (l := xs) (C := 2 ^ a.trunc.maxBits) (by positivity) (fun x hx => (hox.bound x hx).le) i
    have t2 := abs_sub (conv zs (modInts c) i) (xs.getD i 0)
    linarith
  have hdiv := hcz chk hcsz hbnd
  rw [hcl] at hdiv
  have hmod := limbVal_check0 c.n c.k zs (modInts c) xs hzsl modInts_length hxl
  rw [modInts_val hc, ← hQdef] at hmod
  have hZ : (0 : ℤ) + c.modulus * Q - A = 0 := by
    refine crt_zero (p := p) (t := c.n * c.k) ?_ ?_ ?_ ?_
    · exact ne_two_of_numBits ho.field
    · have e1 : (0 : ℤ) ≡ Q * c.modulus - A [ZMOD 2 ^ (c.n * c.k)] :=
        ((Int.modEq_zero_iff_dvd.2 hdiv).symm.trans hmod).trans (hcx.sub_left _)
      have := Int.modEq_zero_iff_dvd.1 e1.symm
      convert this using 1; ring
    · have hq : at' w qn = (Q : ZMod p) := by
        rw [hqn, hz1, dot_bases_int zs hzsl hc.bases]
      rw [hq, hc.native, hnx] at hfin
      push_cast
      rw [hfin]; ring
    · refine crt_bound (NB := numBits p) hn1 hc.k1 ho.field pow_numBits_le ho.crt hmb ?_ hQ (crt_fits ho.field pow_numBits_le hA) ?_
      · rw [abs_of_nonneg (Int.natCast_nonneg _)]
        exact_mod_cast (Nat.lt_size_self c.modulus).le
      · simp
  rw [Int.modEq_zero_iff_dvd]
  exact ⟨Q, by linarith⟩

end H2
