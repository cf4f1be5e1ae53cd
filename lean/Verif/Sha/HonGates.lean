import Verif.Sha.WitBits
import Verif.Sha.SoundHash

/-!
# Honest rows satisfy the gates

`Hon n adv`: the advice columns hold (as bits, resp. field elements) numbers satisfying the equations of the circuit over ℕ.
-/

set_option autoImplicit false
namespace H2.Sha
variable {F : Type} [Field F]

/-- Outside the assigned rows every gate vanishes, whatever the advice. -/
theorem unassigned_rows {n : ℕ} {adv : ℤ → Row F} {r : ℤ} (hr : ¬ (0 ≤ r ∧ r < 72 * n)) : ∀ c ∈ gates (fixedCols n) adv r, c = 0 := by
  have e : (fixedCols n r : Fix F) = ⟨0, 0, 0, 0, 0, 0, 0, 0, 0, 0, 0, 0⟩ := if_neg hr
  show Z _
  simp only [gates, Z_append, gInput, gExtend, gCompress, gStart, gEnd, gFinal, gPadding, gWordValue, gLength, gCross, crossAdd, gSqueeze, gUnused,
    gPaddingAt, Z_gate, Z_cond, e, Z_flatMap, true_or, and_true, true_and, sub_zero, or_true, andE, List.foldl_cons, List.foldl_nil, mul_zero,
    zero_mul, implies_true, and_self]

structure Hon (n : ℕ) (adv : ℤ → Row F) where
  (w a e : ℕ → ℕ → U64)
  P : ℕ → ℕ → ℕ → Bool
  fin : ℕ → ℕ → Bool
  (len io : ℕ → ℕ → ℕ)
  hw : ∀ b < n, ∀ k < 72, wExt adv (72 * b + k : ℕ) = bitsOf ((w b k).setWidth 34)
  ha : ∀ b < n, ∀ k < 72, aExt adv (72 * b + k : ℕ) = bitsOf ((a b k).setWidth 35)
  he : ∀ b < n, ∀ k < 72, eExt adv (72 * b + k : ℕ) = bitsOf ((e b k).setWidth 35)
  hP : ∀ b < n, ∀ k < 72, ∀ i < 4, (adv (72 * b + k : ℕ)).pad i = b2f (P b k i)
  hfin : ∀ b < n, ∀ k < 72, (adv (72 * b + k : ℕ)).isFinal = b2f (fin b k)
  hlen : ∀ b < n, ∀ k < 72, (adv (72 * b + k : ℕ)).length = (len b k : F)
  hio : ∀ b < n, ∀ k < 72, (adv (72 * b + k : ℕ)).io = (io b k : F)
  wb : ∀ b < n, ∀ k < 72, (w b k).toNat < 2 ^ 34
  ab : ∀ b < n, ∀ k < 72, (a b k).toNat < 2 ^ 35
  eb : ∀ b < n, ∀ k < 72, (e b k).toNat < 2 ^ 35
  extend : ∀ b < n, ∀ k, 20 ≤ k → k < 68 → (w b k).toNat = ((w b (k - 16)).setWidth 32 : W).toNat + (smallSigma0 ((w b (k - 15)).setWidth 32)).toNat +
    ((w b (k - 7)).setWidth 32 : W).toNat + (smallSigma1 ((w b (k - 2)).setWidth 32)).toNat
  compA : ∀ b < n, ∀ k, 4 ≤ k → k < 68 → (a b k).toNat = ((e b (k - 4)).setWidth 32 : W).toNat + (bigSigma1 ((e b (k - 1)).setWidth 32)).toNat +
    (Ch ((e b (k - 1)).setWidth 32) ((e b (k - 2)).setWidth 32) ((e b (k - 3)).setWidth 32)).toNat + ROUND_CST.getD (k - 4) 0 +
    ((w b k).setWidth 32 : W).toNat + ((bigSigma0 ((a b (k - 1)).setWidth 32)).toNat +
    (Maj ((a b (k - 1)).setWidth 32) ((a b (k - 2)).setWidth 32) ((a b (k - 3)).setWidth 32)).toNat)
  compE : ∀ b < n, ∀ k, 4 ≤ k → k < 68 → (e b k).toNat = ((a b (k - 4)).setWidth 32 : W).toNat + (((e b (k - 4)).setWidth 32 : W).toNat + (bigSigma1 ((e b (k - 1)).setWidth 32)).toNat +
    (Ch ((e b (k - 1)).setWidth 32) ((e b (k - 2)).setWidth 32) ((e b (k - 3)).setWidth 32)).toNat + ROUND_CST.getD (k - 4) 0 +
    ((w b k).setWidth 32 : W).toNat)
  startI : ∀ b < n, ∀ k < 4, fin b k = true → (a b k).toNat = HINIT.getD (3 - k) 0 ∧ (e b k).toNat = HINIT.getD (7 - k) 0
  startC : ∀ b < n, ∀ k < 4, fin b k = false → b ≠ 0 ∧ (a b k).toNat = ((a (b - 1) (68 + k)).setWidth 32 : W).toNat ∧
    (e b k).toNat = ((e (b - 1) (68 + k)).setWidth 32 : W).toNat
  end_ : ∀ b < n, ∀ k, 68 ≤ k → k < 72 → (a b k).toNat = ((a b (k - 4)).setWidth 32 : W).toNat + ((a b (k - 68)).setWidth 32 : W).toNat ∧
    (e b k).toNat = ((e b (k - 4)).setWidth 32 : W).toNat + ((e b (k - 68)).setWidth 32 : W).toNat
  fin0 : ∀ k < 4, fin 0 k = true
  finS : ∀ b < n, b ≠ 0 → ∀ k < 4, fin b k = fin (b - 1) 71
  fin71 : ∀ b < n, fin b 71 = P b 17 3
  padMono : ∀ b < n, ∀ k, 4 ≤ k → k < 20 → ∀ i < 4, (if i = 0 then P b (k - 1) 3 else P b k (i - 1)) = true → P b k i = true
  padByte : ∀ b < n, ∀ k, 4 ≤ k → k < 20 → ∀ i < 4, P b k i = true → (k ≠ 19 ∨ P b 17 3 = false) →
    byteW ((w b k).setWidth 32) i = if (if i = 0 then P b (k - 1) 3 else P b k (i - 1)) then 0 else 0x80
  padLen : ∀ b < n, P b 17 3 = true → ((w b 19).setWidth 32 : W).toNat = len b 19 * 8
  word : ∀ b < n, ∀ k, 4 ≤ k → k < 20 → io b k = pack4 (if P b k 0 then (0 : Byte) else byteW ((w b k).setWidth 32) 0).toNat
      (if P b k 1 then (0 : Byte) else byteW ((w b k).setWidth 32) 1).toNat
      (if P b k 2 then (0 : Byte) else byteW ((w b k).setWidth 32) 2).toNat
      (if P b k 3 then (0 : Byte) else byteW ((w b k).setWidth 32) 3).toNat
  length : ∀ b < n, ∀ k, 4 ≤ k → k < 20 → len b k = len b (k - 1) + ((if P b k 0 then 0 else 1) + (if P b k 1 then 0 else 1) + (if P b k 2 then 0 else 1) + (if P b k 3 then 0 else 1))
  cross71 : ∀ b < n, len b 71 = len b 19 ∧ P b 71 3 = P b 19 3
  crossI : ∀ b < n, ∀ k < 4, fin b k = true → len b k = 0 ∧ P b k 3 = false
  crossC : ∀ b < n, ∀ k < 4, fin b k = false → if k = 0 then len b k = len (b - 1) 71 ∧ P b k 3 = P (b - 1) 71 3 else len b k = len b (k - 1) ∧ P b k 3 = P b (k - 1) 3
  finK : ∀ b < n, ∀ k < 3, fin b (k + 1) = fin b k
  squeeze : ∀ b < n, fin b 71 = true → ∀ d : ℕ, d = ((a b 71).setWidth 32 ++ (a b 70).setWidth 32 ++ (a b 69).setWidth 32 ++ (a b 68).setWidth 32 ++
    (e b 71).setWidth 32 ++ (e b 70).setWidth 32 ++ (e b 69).setWidth 32 ++ (e b 68).setWidth 32 : BitVec (32 + 32 + 32 + 32 + 32 + 32 + 32 + 32)).toNat →
    io b 71 = d % 2 ^ 128 ∧ io b 70 = d / 2 ^ 128
  unW : ∀ b < n, ∀ k < 72, ¬ (20 ≤ k ∧ k < 68) → (w b k).toNat < 2 ^ 32
  unW0 : ∀ b < n, ∀ k < 72, (k < 4 ∨ 68 ≤ k) → w b k = 0
  unFin : ∀ b < n, ∀ k, 4 ≤ k → k < 71 → fin b k = false
  unPad : ∀ b < n, ∀ k < 72, ¬ (4 ≤ k ∧ k < 20) → ∀ i < 3, P b k i = false
  unPad3 : ∀ b < n, ∀ k, 20 ≤ k → k < 71 → P b k 3 = false ∧ len b k = 0
  unIo : ∀ b < n, ∀ k < 70, ¬ (4 ≤ k ∧ k < 20) → io b k = 0

namespace Hon
variable {n : ℕ} {adv : ℤ → Row F} (H : Hon n adv)
include H

/-- The words. -/
def W (b k : ℕ) : Sha.W := (H.w b k).setWidth 32
def A (b k : ℕ) : Sha.W := (H.a b k).setWidth 32
def E (b k : ℕ) : Sha.W := (H.e b k).setWidth 32

theorem wCur {b k : ℕ} (hb : b < n) (hk : k < 72) {z : ℤ} (hz : z = (72 * b + k : ℕ)) : wCur adv z = bitsOf (H.W b k) := by
  subst hz
  rw [Sha.wCur, H.hw b hb k hk, show 34 = 2 + 32 from rfl, drop_bitsOf]
  congr 1; unfold Hon.W
  apply BitVec.eq_of_getLsbD_eq; intro i hi; simp only [BitVec.getLsbD_setWidth]; simp [hi]; omega
theorem newA {b k : ℕ} (hb : b < n) (hk : k < 72) {z : ℤ} (hz : z = (72 * b + k : ℕ)) : newA adv z = bitsOf (H.A b k) := by
  subst hz
  rw [Sha.newA, H.ha b hb k hk, show 35 = 3 + 32 from rfl, drop_bitsOf]
  congr 1; unfold Hon.A
  apply BitVec.eq_of_getLsbD_eq; intro i hi; simp only [BitVec.getLsbD_setWidth]; simp [hi]; omega
theorem newE {b k : ℕ} (hb : b < n) (hk : k < 72) {z : ℤ} (hz : z = (72 * b + k : ℕ)) : newE adv z = bitsOf (H.E b k) := by
  subst hz
  rw [Sha.newE, H.he b hb k hk, show 35 = 3 + 32 from rfl, drop_bitsOf]
  congr 1; unfold Hon.E
  apply BitVec.eq_of_getLsbD_eq; intro i hi; simp only [BitVec.getLsbD_setWidth]; simp [hi]; omega

theorem dw {b k : ℕ} (hb : b < n) (hk : k < 72) : decode (wExt adv (72 * b + k : ℕ)) = ((H.w b k).toNat : F) := by
  rw [H.hw b hb k hk, decode_bitsOf, BitVec.toNat_setWidth, Nat.mod_eq_of_lt (H.wb b hb k hk)]
theorem da {b k : ℕ} (hb : b < n) (hk : k < 72) : decode (aExt adv (72 * b + k : ℕ)) = ((H.a b k).toNat : F) := by
  rw [H.ha b hb k hk, decode_bitsOf, BitVec.toNat_setWidth, Nat.mod_eq_of_lt (H.ab b hb k hk)]
theorem de {b k : ℕ} (hb : b < n) (hk : k < 72) : decode (eExt adv (72 * b + k : ℕ)) = ((H.e b k).toNat : F) := by
  rw [H.he b hb k hk, decode_bitsOf, BitVec.toNat_setWidth, Nat.mod_eq_of_lt (H.eb b hb k hk)]

theorem fx {b k : ℕ} (hb : b < n) (hk : k < 72) : (fixedCols n (72 * b + k : ℕ) : Fix F) = fixedAt (72 * b + k) := fixedCols_eq (by omega)

theorem md (b : ℕ) {k : ℕ} (hk : k < 72) : (72 * b + k) % 72 = k := by omega

omit H in
theorem bits_bool {m : ℕ} (x : BitVec m) : ∀ y ∈ (bitsOf x : List F), y * (1 - y) = 0 := by
  intro y hy
  simp only [bitsOf, List.mem_map] at hy
  obtain ⟨i, _, rfl⟩ := hy
  cases x.getMsbD i <;> simp [b2f]

theorem g_input {b k : ℕ} (hb : b < n) (hk : k < 72) : Z (gInput (fixedCols n) adv (72 * b + k : ℕ)) := by
  rw [gInput, Z_gate, Z_append, Z_append]
  right
  simp only [Z_flatMap_bool, H.hw b hb k hk, H.ha b hb k hk, H.he b hb k hk]
  exact ⟨⟨bits_bool _, bits_bool _⟩, bits_bool _⟩

theorem g_extend {b k : ℕ} (hb : b < n) (hk : k < 72) : Z (gExtend (fixedCols n) adv (72 * b + k : ℕ)) := by
  simp only [gExtend, Z_gate, H.fx hb hk, w32_eq, Z_reqEq]
  by_cases h : 20 ≤ k ∧ k < 68
  · right
    obtain ⟨h1, h2⟩ := h
    rw [H.wCur (b := b) (k := k - 16) hb (by omega) (by omega), H.wCur (b := b) (k := k - 15) hb (by omega) (by omega),
      H.wCur (b := b) (k := k - 7) hb (by omega) (by omega), H.wCur (b := b) (k := k - 2) hb (by omega) (by omega), H.dw hb hk,
      H.extend b hb k h1 h2]
    rw [rotE_bitsOf _ _ (by norm_num), rotE_bitsOf _ _ (by norm_num), rotE_bitsOf _ _ (by norm_num), rotE_bitsOf _ _ (by norm_num), shrE_bitsOf _ _ (by norm_num), shrE_bitsOf _ _ (by norm_num),
      xorL_bitsOf, xorL_bitsOf, xorL_bitsOf, xorL_bitsOf, decode_bitsOf, decode_bitsOf, decode_bitsOf, decode_bitsOf]
    simp only [smallSigma0, smallSigma1, BitVec.xor_assoc, Hon.W]
    push_cast; rfl
  · left; simp only [fixedAt, ind_eq_zero, H.md b hk]; exact h

theorem g_compress {b k : ℕ} (hb : b < n) (hk : k < 72) : Z (gCompress (fixedCols n) adv (72 * b + k : ℕ)) := by
  simp only [gCompress, Z_gate, H.fx hb hk, a32_eq, e32_eq, Z_append, Z_reqEq]
  by_cases h : 4 ≤ k ∧ k < 68
  · right
    obtain ⟨h1, h2⟩ := h
    have hc : (fixedAt (72 * b + k) : Fix F).roundCst = ((ROUND_CST.getD (k - 4) 0 : ℕ) : F) := by
      simp only [fixedAt, H.md b hk, h1, h2, and_self, if_true]
    rw [hc, H.newA (b := b) (k := k - 1) (z := ((72 * b + k : ℕ) : ℤ) - 1) hb (by omega) (by omega), H.newA (b := b) (k := k - 2) (z := ((72 * b + k : ℕ) : ℤ) - 2) hb (by omega) (by omega),
      H.newA (b := b) (k := k - 3) (z := ((72 * b + k : ℕ) : ℤ) - 3) hb (by omega) (by omega), H.newA (b := b) (k := k - 4) (z := ((72 * b + k : ℕ) : ℤ) - 4) hb (by omega) (by omega),
      H.newE (b := b) (k := k - 1) (z := ((72 * b + k : ℕ) : ℤ) - 1) hb (by omega) (by omega), H.newE (b := b) (k := k - 2) (z := ((72 * b + k : ℕ) : ℤ) - 2) hb (by omega) (by omega),
      H.newE (b := b) (k := k - 3) (z := ((72 * b + k : ℕ) : ℤ) - 3) hb (by omega) (by omega), H.newE (b := b) (k := k - 4) (z := ((72 * b + k : ℕ) : ℤ) - 4) hb (by omega) (by omega), H.da hb hk, H.de hb hk,
      H.wCur hb hk rfl, H.compA b hb k h1 h2, H.compE b hb k h1 h2]
    rw [rotE_bitsOf _ _ (by norm_num), rotE_bitsOf _ _ (by norm_num), rotE_bitsOf _ _ (by norm_num), rotE_bitsOf _ _ (by norm_num), rotE_bitsOf _ _ (by norm_num),
      rotE_bitsOf _ _ (by norm_num), xorL_bitsOf, xorL_bitsOf, xorL_bitsOf, xorL_bitsOf, xorL_bitsOf, selL_bitsOf, selL_bitsOf, maj_eq]
    simp only [decode_bitsOf]
    simp only [bigSigma0, bigSigma1, Ch, BitVec.xor_assoc, Hon.W, Hon.A, Hon.E]
    push_cast; exact ⟨rfl, rfl⟩
  · left; simp only [fixedAt, ind_eq_zero, H.md b hk]; exact h

theorem g_start {b k : ℕ} (hb : b < n) (hk : k < 72) : Z (gStart (fixedCols n) adv (72 * b + k : ℕ)) := by
  simp only [gStart, Z_gate, H.fx hb hk, a32_eq, e32_eq, Z_append, Z_reqEq]
  by_cases h : k < 4
  · right
    have h1 : (fixedAt (72 * b + k) : Fix F).hA = ((HINIT.getD (3 - k) 0 : ℕ) : F) := by simp only [fixedAt, H.md b hk, if_pos h]
    have h2 : (fixedAt (72 * b + k) : Fix F).hE = ((HINIT.getD (7 - k) 0 : ℕ) : F) := by simp only [fixedAt, H.md b hk, if_pos h]
    rw [H.hfin b hb k hk, H.da hb hk, H.de hb hk, h1, h2]
    cases hf : H.fin b k with
    | true =>
      obtain ⟨e1, e2⟩ := H.startI b hb k h hf
      rw [e1, e2]; simp [selE, b2f]
    | false =>
      obtain ⟨e0, e1, e2⟩ := H.startC b hb k h hf
      rw [H.newA (b := b - 1) (k := 68 + k) (by omega) (by omega) (by omega), H.newE (b := b - 1) (k := 68 + k) (by omega) (by omega) (by omega),
        decode_bitsOf, decode_bitsOf, e1, e2]
      simp [selE, b2f, Hon.A, Hon.E]
  · left; simp only [fixedAt, ind_eq_zero, H.md b hk]; exact h

theorem g_end {b k : ℕ} (hb : b < n) (hk : k < 72) : Z (gEnd (fixedCols n) adv (72 * b + k : ℕ)) := by
  simp only [gEnd, Z_gate, H.fx hb hk, a32_eq, e32_eq, Z_append, Z_reqEq]
  by_cases h : 68 ≤ k
  · right
    obtain ⟨e1, e2⟩ := H.end_ b hb k h hk
    rw [H.da hb hk, H.de hb hk, H.newA (b := b) (k := k - 4) hb (by omega) (by omega), H.newA (b := b) (k := k - 68) hb (by omega) (by omega),
      H.newE (b := b) (k := k - 4) hb (by omega) (by omega), H.newE (b := b) (k := k - 68) hb (by omega) (by omega), e1, e2]
    simp only [decode_bitsOf, Hon.A, Hon.E]
    push_cast; exact ⟨rfl, rfl⟩
  · left; simp only [fixedAt, ind_eq_zero, H.md b hk]; exact h

theorem g_final {b k : ℕ} (hb : b < n) (hk : k < 72) : Z (gFinal (fixedCols n) adv (72 * b + k : ℕ)) := by
  simp only [gFinal, Z_gate1, Z_cond, H.fx hb hk, Z_append, Z_reqEq]
  refine ⟨⟨?_, ?_⟩, ?_⟩
  · by_cases h : 72 * b + k = 0
    · right
      obtain rfl : b = 0 := by omega
      obtain rfl : k = 0 := by omega
      rw [H.hfin 0 hb 0 hk, H.fin0 0 (by omega)]; rfl
    · left; simp only [fixedAt, ind_eq_zero]; exact h
  · by_cases h : k = 71
    · right
      subst h
      rw [H.hfin b hb 71 hk, H.fin71 b hb, show (((72 * b + 71 : ℕ) : ℤ) - 52 - 2) = ((72 * b + 17 : ℕ) : ℤ) by omega, H.hP b hb 17 (by omega) 3 (by omega)]
    · left; simp only [fixedAt, ind_eq_zero, H.md b hk]; exact h
  · by_cases h : 72 * b + k ≠ 0 ∧ k < 4
    · right
      obtain ⟨h0, h1⟩ := h
      rw [H.hfin b hb k hk]
      by_cases hk0 : k = 0
      · subst hk0
        rw [show (((72 * b + 0 : ℕ) : ℤ) - 1) = ((72 * (b - 1) + 71 : ℕ) : ℤ) by omega, H.hfin (b - 1) (by omega) 71 (by omega), H.finS b hb (by omega) 0 h1]
      · rw [show (((72 * b + k : ℕ) : ℤ) - 1) = ((72 * b + (k - 1) : ℕ) : ℤ) by omega, H.hfin b hb (k - 1) (by omega), ← H.finK b hb (k - 1) (by omega),
          show k - 1 + 1 = k by omega]
    · left
      simp only [fixedAt, ind, H.md b hk]
      by_cases h1 : k < 4
      · have : 72 * b + k = 0 := by by_contra h2; exact h ⟨h2, h1⟩
        rw [if_pos h1, if_pos this, sub_self]
      · rw [if_neg h1, if_neg (by omega), sub_self]

theorem g_padding {b k : ℕ} (hb : b < n) (hk : k < 72) : Z (gPadding (fixedCols n) adv (72 * b + k : ℕ)) := by
  simp only [gPadding, Z_gate1, H.fx hb hk, Z_append, Z_flatMap, List.mem_range]
  refine ⟨⟨fun i hi => ?_, fun i hi => ?_⟩, ?_⟩
  · rw [Z_cond, Z_reqBool]; right
    rw [H.hP b hb k hk i hi]; cases H.P b k i <;> simp [b2f]
  · simp only [gPaddingAt, H.fx hb hk, Z_append, Z_cond, Z_reqBool, Z_reqEq]
    by_cases h : 4 ≤ k ∧ k < 20
    · obtain ⟨h1, h2⟩ := h
      have hprev : (if i = 0 then (adv ((72 * b + k : ℕ) - 1)).pad 3 else (adv (72 * b + k : ℕ)).pad (i - 1)) =
          b2f (if i = 0 then H.P b (k - 1) 3 else H.P b k (i - 1)) := by
        split
        · rw [show (((72 * b + k : ℕ) : ℤ) - 1) = ((72 * b + (k - 1) : ℕ) : ℤ) by omega, H.hP b hb (k - 1) (by omega) 3 (by omega)]
        · rw [H.hP b hb k hk (i - 1) (by omega)]
      have hbyte : (inputBytes adv (72 * b + k : ℕ)).getD i 0 = ((byteW (H.W b k) i).toNat : F) := by
        rw [inputBytes, H.wCur hb hk rfl, toBeBytes_bitsOf]
        simp [List.getD, hi]
      rw [hprev, hbyte, H.hP b hb k hk i hi]
      have hm := H.padMono b hb k h1 h2 i hi
      have hy := H.padByte b hb k h1 h2 i hi
      generalize (if i = 0 then H.P b (k - 1) 3 else H.P b k (i - 1)) = prev at *
      have key : H.P b k i = true → (k ≠ 19 ∨ H.P b 17 3 = false) →
          ((byteW (H.W b k) i).toNat : F) = (b2f (H.P b k i) - b2f prev) * 128 := by
        intro g1 g2
        rw [Hon.W, hy g1 g2, g1]
        cases prev <;> simp [b2f]
      refine ⟨⟨.inr ?_, ?_⟩, ?_⟩
      · cases hp : prev with
        | true => rw [hm hp]; simp [b2f]
        | false => cases H.P b k i <;> simp [b2f]
      · cases hp : H.P b k i with
        | false => left; simp [andE, b2f]
        | true =>
          by_cases h19 : k = 19
          · left; simp [andE, fixedAt, ind, H.md b hk, h19]
          · right; rw [← hp]; exact key hp (.inl h19)
      · cases hp : H.P b k i with
        | false => left; simp [andE, b2f]
        | true =>
          by_cases h19 : k = 19
          · have e3 : (((72 * b + k : ℕ) : ℤ) - 2) = ((72 * b + 17 : ℕ) : ℤ) := by omega
            rw [e3, H.hP b hb 17 (by omega) 3 (by omega)]
            cases h17 : H.P b 17 3 with
            | true => left; simp [andE, notE, b2f]
            | false => right; rw [← hp]; exact key hp (.inr h17)
          · left; simp [andE, fixedAt, ind, H.md b hk, h19]
    · have h19 : k ≠ 19 := by omega
      have e1 : (fixedAt (72 * b + k) : Fix F).qInput = 0 := by simp only [fixedAt, ind_eq_zero, H.md b hk]; exact h
      have e2 : (fixedAt (72 * b + k) : Fix F).qInputLast = 0 := by simp only [fixedAt, ind_eq_zero, H.md b hk]; exact h19
      rw [e1, e2]
      exact ⟨⟨.inl rfl, .inl (by simp [andE])⟩, .inl (by simp [andE])⟩
  · rw [Z_cond, Z_reqEq]
    by_cases h19 : k = 19
    · subst h19
      rw [show (((72 * b + 19 : ℕ) : ℤ) - 2) = ((72 * b + 17 : ℕ) : ℤ) by omega, H.hP b hb 17 (by omega) 3 (by omega)]
      cases h17 : H.P b 17 3 with
      | false => left; simp [andE, b2f]
      | true =>
        right
        rw [H.wCur hb hk rfl, decode_bitsOf, Hon.W, H.padLen b hb h17, H.hlen b hb 19 hk]; push_cast; rfl
    · left; simp [andE, fixedAt, ind, H.md b hk, h19]

theorem g_word {b k : ℕ} (hb : b < n) (hk : k < 72) : Z (gWordValue (fixedCols n) adv (72 * b + k : ℕ)) := by
  simp only [gWordValue, Z_gate, H.fx hb hk, Z_reqEq]
  by_cases h : 4 ≤ k ∧ k < 20
  · right
    rw [inputBytes, H.wCur hb hk rfl, toBeBytes_bitsOf, H.hio b hb k hk, H.word b hb k h.1 h.2]
    have h0 := H.hP b hb k hk 0 (by omega)
    have h1 := H.hP b hb k hk 1 (by omega)
    have h2 := H.hP b hb k hk 2 (by omega)
    have h3 := H.hP b hb k hk 3 (by omega)
    have key : ∀ (x : Byte) (b : Bool), ((x.toNat : ℕ) : F) * notE (b2f b) = (((if b then (0 : Byte) else x).toNat : ℕ) : F) := by
      intro x b; cases b <;> simp [b2f, notE]
    simp only [List.range_succ, List.range_zero, List.nil_append, List.map_cons, List.map_nil, List.cons_append,
      List.zipWith_cons_cons, List.zipWith_nil_left, fromBytes_cons, fromBytes_nil, h0, h1, h2, h3, key]
    exact le_sum _ _ _ _
  · left; simp only [fixedAt, ind_eq_zero, H.md b hk]; exact h

theorem g_length {b k : ℕ} (hb : b < n) (hk : k < 72) : Z (gLength (fixedCols n) adv (72 * b + k : ℕ)) := by
  simp only [gLength, Z_gate, H.fx hb hk, Z_reqEq]
  by_cases h : 4 ≤ k ∧ k < 20
  · right
    have h0 := H.hP b hb k hk 0 (by omega)
    have h1 := H.hP b hb k hk 1 (by omega)
    have h2 := H.hP b hb k hk 2 (by omega)
    have h3 := H.hP b hb k hk 3 (by omega)
    rw [show (((72 * b + k : ℕ) : ℤ) - 1) = ((72 * b + (k - 1) : ℕ) : ℤ) by omega, H.hlen b hb k hk, H.hlen b hb (k - 1) (by omega), H.length b hb k h.1 h.2]
    simp only [List.range_succ, List.range_zero, List.nil_append, List.map_append, List.map_cons, List.map_nil, List.cons_append,
      sumE, List.foldl_cons, List.foldl_nil, h0, h1, h2, h3]
    have key : ∀ b : Bool, notE (b2f b) = (((if b then 0 else 1 : ℕ)) : F) := by intro b; cases b <;> simp [b2f, notE]
    rw [key, key, key, key]
    push_cast; ring
  · left; simp only [fixedAt, ind_eq_zero, H.md b hk]; exact h

theorem g_cross {b k : ℕ} (hb : b < n) (hk : k < 72) : Z (gCross (fixedCols n) adv (72 * b + k : ℕ)) := by
  have main : ∀ (col : Row F → F) (v : ℕ → ℕ → F), (∀ b < n, ∀ k < 72, col (adv (72 * b + k : ℕ)) = v b k) → (∀ b < n, v b 71 = v b 19) →
      (∀ b < n, ∀ k < 4, H.fin b k = true → v b k = 0) → (∀ b < n, ∀ k < 4, H.fin b k = false → v b k = if k = 0 then v (b - 1) 71 else v b (k - 1)) →
      Z (crossAdd (fixedCols n) adv (72 * b + k : ℕ) col) := by
    intro col v hv h71 hI hC
    simp only [crossAdd, Z_append, Z_cond, H.fx hb hk, Z_reqEq]
    refine ⟨⟨?_, ?_⟩, ?_⟩
    · by_cases h : k = 71
      · right; subst h
        rw [hv b hb 71 hk, h71 b hb, show (((72 * b + 71 : ℕ) : ℤ) - 52) = ((72 * b + 19 : ℕ) : ℤ) by omega, hv b hb 19 (by omega)]
      · left; simp only [fixedAt, ind_eq_zero, H.md b hk]; exact h
    · by_cases h : 72 * b + k ≠ 0 ∧ k < 4
      · right
        obtain ⟨h0, h1⟩ := h
        rw [hv b hb k hk, H.hfin b hb k hk]
        cases hf : H.fin b k with
        | true => rw [hI b hb k h1 hf]; simp [notE, b2f]
        | false =>
          rw [hC b hb k h1 hf]
          by_cases hk0 : k = 0
          · subst hk0
            rw [show (((72 * b + 0 : ℕ) : ℤ) - 1) = ((72 * (b - 1) + 71 : ℕ) : ℤ) by omega, hv (b - 1) (by omega) 71 (by omega)]
            simp [notE, b2f]
          · rw [show (((72 * b + k : ℕ) : ℤ) - 1) = ((72 * b + (k - 1) : ℕ) : ℤ) by omega, hv b hb (k - 1) (by omega)]
            simp [notE, b2f, hk0]
      · left
        simp only [fixedAt, ind, H.md b hk]
        by_cases h1 : k < 4
        · have : 72 * b + k = 0 := by by_contra h2; exact h ⟨h2, h1⟩
          rw [if_pos h1, if_pos this, sub_self]
        · rw [if_neg h1, if_neg (by omega), sub_self]
    · by_cases h : 72 * b + k = 0
      · right
        obtain rfl : b = 0 := by omega
        obtain rfl : k = 0 := by omega
        rw [hv 0 hb 0 hk, hI 0 hb 0 (by omega) (H.fin0 0 (by omega))]
      · left; simp only [fixedAt, ind_eq_zero]; exact h
  rw [gCross, Z_gate1, Z_append]
  constructor
  · refine main _ (fun b k => (H.len b k : F)) (fun b hb k hk => H.hlen b hb k hk) (fun b hb => by rw [(H.cross71 b hb).1])
      (fun b hb k hk hf => by rw [(H.crossI b hb k hk hf).1]; simp) (fun b hb k hk hf => ?_)
    have := H.crossC b hb k hk hf
    split <;> rename_i h
    · rw [if_pos h] at this; simp only [this.1]
    · rw [if_neg h] at this; simp only [this.1]
  · refine main _ (fun b k => b2f (H.P b k 3)) (fun b hb k hk => H.hP b hb k hk 3 (by omega)) (fun b hb => by rw [(H.cross71 b hb).2])
      (fun b hb k hk hf => by rw [(H.crossI b hb k hk hf).2]; rfl) (fun b hb k hk hf => ?_)
    have := H.crossC b hb k hk hf
    split <;> rename_i h
    · rw [if_pos h] at this; simp only [this.2]
    · rw [if_neg h] at this; simp only [this.2]

theorem g_squeeze {b k : ℕ} (hb : b < n) (hk : k < 72) : Z (gSqueeze (fixedCols n) adv (72 * b + k : ℕ)) := by
  simp only [gSqueeze, Z_gate, H.fx hb hk, Z_cond, Z_append, Z_reqEq, a32_eq, e32_eq]
  by_cases h : k = 71
  · right
    subst h
    rw [H.hfin b hb 71 hk]
    cases hf : H.fin b 71 with
    | false => left; rfl
    | true =>
      right
      rw [H.newA (b := b) (k := 71) hb (by omega) rfl, H.newA (b := b) (k := 70) hb (by omega) (by omega),
        H.newA (b := b) (k := 69) hb (by omega) (by omega), H.newA (b := b) (k := 68) hb (by omega) (by omega),
        H.newE (b := b) (k := 71) hb (by omega) rfl, H.newE (b := b) (k := 70) hb (by omega) (by omega),
        H.newE (b := b) (k := 69) hb (by omega) (by omega), H.newE (b := b) (k := 68) hb (by omega) (by omega),
        show (((72 * b + 71 : ℕ) : ℤ) - 1) = ((72 * b + 70 : ℕ) : ℤ) by omega, H.hio b hb 71 hk, H.hio b hb 70 (by omega)]
      obtain ⟨s1, s2⟩ := H.squeeze b hb hf _ rfl
      have hd := split_digest (F := F) (H.A b 71) (H.A b 70) (H.A b 69) (H.A b 68) (H.E b 71) (H.E b 70) (H.E b 69) (H.E b 68) _ rfl
      rw [s1, s2]
      exact hd
  · left; simp only [fixedAt, ind_eq_zero, H.md b hk]; exact h

theorem bit0 (x : U64) (h : x.toNat < 2 ^ 32) (i : ℕ) (hi : i < 2) : (x.setWidth 34).getMsbD i = false := by
  rw [BitVec.getMsbD, BitVec.getLsbD_setWidth, BitVec.getLsbD, Nat.testBit_lt_two_pow]
  · simp
  · exact lt_of_lt_of_le h (Nat.pow_le_pow_right (by norm_num) (by omega))

theorem w_bit {b k : ℕ} (hb : b < n) (hk : k < 72) (i : ℕ) (hi : i < 34) : (adv (72 * b + k : ℕ)).w i = b2f (((H.w b k).setWidth 34).getMsbD i) := by
  have h := congrArg (fun l : List F => l[i]?) (H.hw b hb k hk)
  simp only [wExt, bitsOf_getElem?, if_pos hi, List.getElem?_map, List.getElem?_range hi, Option.map_some, Option.some.injEq] at h
  exact h

theorem g_unused {b k : ℕ} (hb : b < n) (hk : k < 72) : Z (gUnused (fixedCols n) adv (72 * b + k : ℕ)) := by
  simp only [gUnused, Z_gate, H.fx hb hk, Z_append, Z_cond, Z_reqZero, Z_flatMap, List.mem_range]
  right
  have ne : ∀ {P : Prop} [Decidable P], (¬ P) → (ind P : F) = 0 := fun h => (ind_eq_zero _).mpr h
  have po : ∀ {P : Prop} [Decidable P], P → (ind P : F) = 1 := fun h => if_pos h
  have hE : (fixedAt (72 * b + k) : Fix F).qExtend = ind (20 ≤ k ∧ k < 68) := by simp only [fixedAt, H.md b hk]
  have hS : (fixedAt (72 * b + k) : Fix F).qStart = ind (k < 4) := by simp only [fixedAt, H.md b hk]
  have hC : (fixedAt (72 * b + k) : Fix F).qCompression = ind (4 ≤ k ∧ k < 68) := by simp only [fixedAt, H.md b hk]
  have hD : (fixedAt (72 * b + k) : Fix F).qEnd = ind (68 ≤ k) := by simp only [fixedAt, H.md b hk]
  have hI : (fixedAt (72 * b + k) : Fix F).qInput = ind (4 ≤ k ∧ k < 20) := by simp only [fixedAt, H.md b hk]
  have hQ : (fixedAt (72 * b + k) : Fix F).qSqueeze = ind (k = 71) := by simp only [fixedAt, H.md b hk]
  rw [hE, hS, hC, hD, hI, hQ]
  refine ⟨⟨⟨⟨⟨⟨?_, ?_⟩, ?_⟩, ?_⟩, ?_⟩, ?_⟩, ?_⟩
  · by_cases h : 20 ≤ k ∧ k < 68
    · left; rw [po h]; simp [notE]
    · right
      have := H.unW b hb k hk h
      rw [H.w_bit hb hk 0 (by omega), H.w_bit hb hk 1 (by omega), H.bit0 _ this 0 (by omega), H.bit0 _ this 1 (by omega)]
      exact ⟨rfl, rfl⟩
  · by_cases h : k < 4 ∨ 68 ≤ k
    · right; intro i hi
      rw [H.w_bit hb hk (i + 2) (by omega), H.unW0 b hb k hk h]
      simp [b2f]
    · left; rw [ne (show ¬ k < 4 by omega), ne (show ¬ 68 ≤ k by omega), add_zero]
  · by_cases h : 4 ≤ k ∧ k < 71
    · right; rw [H.hfin b hb k hk, H.unFin b hb k h.1 h.2]; rfl
    · left
      by_cases h1 : k < 4
      · rw [ne (show ¬ (4 ≤ k ∧ k < 68) by omega), ne (show ¬ 68 ≤ k by omega), ne (show ¬ k = 71 by omega)]; simp
      · rw [ne (show ¬ (4 ≤ k ∧ k < 68) by omega), po (show 68 ≤ k by omega), po (show k = 71 by omega)]; simp
  · by_cases h : 4 ≤ k ∧ k < 20
    · left; rw [po h]; simp [notE]
    · right; intro i hi
      rw [H.hP b hb k hk i (by omega), H.unPad b hb k hk h i hi]; rfl
  · by_cases h : 20 ≤ k ∧ k < 71
    · right; rw [H.hP b hb k hk 3 (by omega), (H.unPad3 b hb k h.1 h.2).1]; rfl
    · left
      by_cases h1 : k < 20
      · rw [ne (show ¬ (20 ≤ k ∧ k < 68) by omega), ne (show ¬ 68 ≤ k by omega), ne (show ¬ k = 71 by omega)]; simp
      · rw [ne (show ¬ (20 ≤ k ∧ k < 68) by omega), po (show 68 ≤ k by omega), po (show k = 71 by omega)]; simp
  · by_cases h : 4 ≤ k ∧ k < 20
    · left
      have : (fixedCols n (((72 * b + k : ℕ) : ℤ) + 1) : Fix F).qSqueeze = 0 := by
        rw [show (((72 * b + k : ℕ) : ℤ) + 1) = ((72 * b + (k + 1) : ℕ) : ℤ) by omega, H.fx hb (by omega)]
        simp only [fixedAt, H.md b (show k + 1 < 72 by omega)]
        exact ne (by omega)
      rw [this, po h, ne (show ¬ k = 71 by omega)]; simp [notE]
    · by_cases h1 : k < 70
      · right; rw [H.hio b hb k hk, H.unIo b hb k h1 h]; simp
      · left
        rw [ne h]
        by_cases h2 : k = 71
        · have : (fixedCols n (((72 * b + k : ℕ) : ℤ) + 1) : Fix F).qSqueeze = 0 := by
            rw [show (((72 * b + k : ℕ) : ℤ) + 1) = ((72 * (b + 1) : ℕ) : ℤ) by omega]
            unfold fixedCols
            split
            · rw [Int.toNat_natCast]; simp only [fixedAt]; exact ne (by omega)
            · rfl
          rw [this, po h2]; simp [notE]
        · have : (fixedCols n (((72 * b + k : ℕ) : ℤ) + 1) : Fix F).qSqueeze = 1 := by
            rw [show (((72 * b + k : ℕ) : ℤ) + 1) = ((72 * b + (k + 1) : ℕ) : ℤ) by omega, H.fx hb (by omega)]
            simp only [fixedAt, H.md b (show k + 1 < 72 by omega)]
            exact po (by omega)
          rw [this, ne h2]; simp [notE]
  · by_cases h : 20 ≤ k ∧ k < 71
    · right; rw [H.hlen b hb k hk, (H.unPad3 b hb k h.1 h.2).2]; simp
    · left
      by_cases h1 : k < 20
      · rw [ne (show ¬ (20 ≤ k ∧ k < 68) by omega), ne (show ¬ 68 ≤ k by omega), ne (show ¬ k = 71 by omega)]; simp
      · rw [ne (show ¬ (20 ≤ k ∧ k < 68) by omega), po (show 68 ≤ k by omega), po (show k = 71 by omega)]; simp

/-- Honest rows satisfy the circuit. -/
theorem sat : ShaSat n adv := by
  intro r hr
  obtain ⟨b, k, hb, hk, rfl⟩ : ∃ b k, b < n ∧ k < 72 ∧ r = 72 * b + k := ⟨r / 72, r % 72, by omega, by omega, by omega⟩
  show Z _
  simp only [gates, Z_append]
  exact ⟨⟨⟨⟨⟨⟨⟨⟨⟨⟨⟨H.g_input hb hk, H.g_extend hb hk⟩, H.g_compress hb hk⟩, H.g_start hb hk⟩, H.g_end hb hk⟩, H.g_final hb hk⟩, H.g_padding hb hk⟩,
    H.g_word hb hk⟩, H.g_length hb hk⟩, H.g_cross hb hk⟩, H.g_squeeze hb hk⟩, H.g_unused hb hk⟩

end Hon
end H2.Sha
