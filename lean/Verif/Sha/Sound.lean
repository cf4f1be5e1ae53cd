import Verif.Sha.Rows
import Verif.Core.Sat
import Mathlib.Tactic.IntervalCases

/-!
# The rounds of the SHA-256 circuit compute the compression function
-/

set_option autoImplicit false
namespace H2.Sha
variable {p : ℕ} [Fact p.Prime]

theorem cast_inj {a b : ℕ} (ha : a < p) (hb : b < p) (h : (a : ZMod p) = b) : a = b := by
  have := congrArg ZMod.val h
  rwa [ZMod.val_cast_of_lt ha, ZMod.val_cast_of_lt hb] at this

theorem setWidth_of_toNat {m : ℕ} (x : BitVec m) (k : ℕ) (h : x.toNat = k) : x.setWidth 32 = BitVec.ofNat 32 k := by
  apply BitVec.eq_of_toNat_eq
  simp [h]

theorem K_eq (t : ℕ) : K.getD t 0 = BitVec.ofNat 32 (ROUND_CST.getD t 0) := by
  have h : K = ROUND_CST.map (BitVec.ofNat 32) := rfl
  rw [h]
  simp only [List.getD, List.getElem?_map]
  cases ROUND_CST[t]? <;> rfl

theorem ROUND_CST_lt (t : ℕ) : ROUND_CST.getD t 0 < 2 ^ 32 := by
  by_cases h : t < 64
  · have : ∀ t < 64, ROUND_CST.getD t 0 < 2 ^ 32 := by decide +kernel
    exact this t h
  · simp only [List.getD]; rw [List.getElem?_eq_none (by simp [ROUND_CST]; omega)]; simp

/-- The 32-bit words in the columns. -/
structure Words (n : ℕ) (adv : ℤ → Row (ZMod p)) where
  wf : ℕ → BitVec 34
  af : ℕ → BitVec 35
  ef : ℕ → BitVec 35
  hw : ∀ r < 72 * n, wExt adv r = bitsOf (wf r)
  ha : ∀ r < 72 * n, aExt adv r = bitsOf (af r)
  he : ∀ r < 72 * n, eExt adv r = bitsOf (ef r)

namespace Words
variable {n : ℕ} {adv : ℤ → Row (ZMod p)} (D : Words n adv)
def w (r : ℕ) : W := (D.wf r).setWidth 32
def a (r : ℕ) : W := (D.af r).setWidth 32
def e (r : ℕ) : W := (D.ef r).setWidth 32

theorem wCur {r : ℕ} (hr : r < 72 * n) {z : ℤ} (hz : z = r) : wCur adv z = bitsOf (D.w r) := by
  rw [hz, Sha.wCur, D.hw r hr]; exact drop_bitsOf (n := 32) 2 (D.wf r)
theorem newA {r : ℕ} (hr : r < 72 * n) {z : ℤ} (hz : z = r) : newA adv z = bitsOf (D.a r) := by
  rw [hz, Sha.newA, D.ha r hr]; exact drop_bitsOf (n := 32) 3 (D.af r)
theorem newE {r : ℕ} (hr : r < 72 * n) {z : ℤ} (hz : z = r) : newE adv z = bitsOf (D.e r) := by
  rw [hz, Sha.newE, D.he r hr]; exact drop_bitsOf (n := 32) 3 (D.ef r)

end Words

theorem exists_words {n : ℕ} {adv : ℤ → Row (ZMod p)} (hs : ShaSat n adv) : Nonempty (Words n adv) := by
  choose! wf hw using fun (r : ℕ) (hr : r < 72 * n) => (sat_input hs hr).1
  choose! af ha using fun (r : ℕ) (hr : r < 72 * n) => (sat_input hs hr).2.1
  choose! ef he using fun (r : ℕ) (hr : r < 72 * n) => (sat_input hs hr).2.2
  exact ⟨⟨wf, af, ef, hw, ha, he⟩⟩

section
variable {n : ℕ} {adv : ℤ → Row (ZMod p)} (hs : ShaSat n adv) (hp : 2 ^ 35 ≤ p) (D : Words n adv)
include hs hp

/-- The message schedule. -/
theorem extend_word {b t : ℕ} (hb : b < n) (h1 : 16 ≤ t) (h2 : t < 64) :
    D.w (72 * b + 4 + t) = smallSigma1 (D.w (72 * b + 4 + (t - 2))) + D.w (72 * b + 4 + (t - 7)) +
      smallSigma0 (D.w (72 * b + 4 + (t - 15))) + D.w (72 * b + 4 + (t - 16)) := by
  have hr : 72 * b + 4 + t < 72 * n := by omega
  have h := sat_extend hs hr (by omega) (by omega)
  rw [D.wCur (r := 72 * b + 4 + (t - 16)) (by omega) (by omega), D.wCur (r := 72 * b + 4 + (t - 15)) (by omega) (by omega),
    D.wCur (r := 72 * b + 4 + (t - 7)) (by omega) (by omega), D.wCur (r := 72 * b + 4 + (t - 2)) (by omega) (by omega), D.hw _ hr,
    rotE_bitsOf _ _ (by omega), rotE_bitsOf _ _ (by omega), rotE_bitsOf _ _ (by omega), rotE_bitsOf _ _ (by omega),
    shrE_bitsOf _ _ (by omega), shrE_bitsOf _ _ (by omega)] at h
  simp only [xorL_bitsOf, decode_bitsOf] at h
  rw [← BitVec.xor_assoc, ← BitVec.xor_assoc] at h
  generalize D.w (72 * b + 4 + (t - 16)) = w16 at h ⊢
  generalize D.w (72 * b + 4 + (t - 15)) = w15 at h ⊢
  generalize D.w (72 * b + 4 + (t - 7)) = w7 at h ⊢
  generalize D.w (72 * b + 4 + (t - 2)) = w2 at h ⊢
  change ((w16.toNat : ℕ) : ZMod p) + (((smallSigma0 w15).toNat : ℕ) : ZMod p) + ((w7.toNat : ℕ) : ZMod p) +
    (((smallSigma1 w2).toNat : ℕ) : ZMod p) = _ at h
  have e1 := w16.isLt
  have e2 := (smallSigma0 w15).isLt
  have e3 := w7.isLt
  have e4 := (smallSigma1 w2).isLt
  have e5 := (D.wf (72 * b + 4 + t)).isLt
  norm_num at e1 e2 e3 e4 e5 hp
  have := cast_inj (p := p) (a := w16.toNat + (smallSigma0 w15).toNat + w7.toNat + (smallSigma1 w2).toNat)
    (b := (D.wf (72 * b + 4 + t)).toNat) (by omega) (by omega) (by push_cast; exact h)
  unfold Words.w
  rw [setWidth_of_toNat _ _ this.symm]
  simp only [BitVec.ofNat_add, BitVec.ofNat_toNat, BitVec.setWidth_eq]
  ac_rfl

/-- The working variables before row `r` (the previous four rows of the columns `a` and `e`). -/
def stAt (D : Words n adv) (r : ℕ) : St :=
  ⟨D.a (r - 1), D.a (r - 2), D.a (r - 3), D.a (r - 4), D.e (r - 1), D.e (r - 2), D.e (r - 3), D.e (r - 4)⟩

theorem round_word {b t : ℕ} (hb : b < n) (h2 : t < 64) :
    stAt D (72 * b + 4 + (t + 1)) = round (K.getD t 0) (D.w (72 * b + 4 + t)) (stAt D (72 * b + 4 + t)) := by
  have hr : 72 * b + 4 + t < 72 * n := by omega
  have h := sat_compress hs hr (by omega) (by omega)
  generalize hrr : 72 * b + 4 + t = r at *
  have hr4 : 4 ≤ r := by omega
  have hmod : r % 72 - 4 = t := by omega
  simp only at h
  rw [D.newA (z := (r : ℤ) - 1) (r := r - 1) (by omega) (by omega), D.newA (z := (r : ℤ) - 2) (r := r - 2) (by omega) (by omega),
    D.newA (z := (r : ℤ) - 3) (r := r - 3) (by omega) (by omega), D.newA (z := (r : ℤ) - 4) (r := r - 4) (by omega) (by omega),
    D.newE (z := (r : ℤ) - 1) (r := r - 1) (by omega) (by omega), D.newE (z := (r : ℤ) - 2) (r := r - 2) (by omega) (by omega),
    D.newE (z := (r : ℤ) - 3) (r := r - 3) (by omega) (by omega), D.newE (z := (r : ℤ) - 4) (r := r - 4) (by omega) (by omega),
    D.wCur hr rfl, D.ha r hr, D.he r hr, hmod] at h
  rw [rotE_bitsOf _ _ (by omega), rotE_bitsOf _ _ (by omega), rotE_bitsOf _ _ (by omega), rotE_bitsOf _ _ (by omega),
    rotE_bitsOf _ _ (by omega), rotE_bitsOf _ _ (by omega)] at h
  simp only [xorL_bitsOf, selL_bitsOf, decode_bitsOf, maj_eq, ← BitVec.xor_assoc] at h
  have hK := K_eq t
  have hKlt := ROUND_CST_lt t
  generalize ROUND_CST.getD t 0 = k at h hK hKlt
  have hst : stAt D (72 * b + 4 + (t + 1)) =
      ⟨D.a r, D.a (r - 1), D.a (r - 2), D.a (r - 3), D.e r, D.e (r - 1), D.e (r - 2), D.e (r - 3)⟩ := by
    rw [show 72 * b + 4 + (t + 1) = r + 1 by omega, stAt]
    simp only [Nat.add_sub_cancel, show r + 1 - 2 = r - 1 by omega, show r + 1 - 3 = r - 2 by omega, show r + 1 - 4 = r - 3 by omega]
  rw [hst, hK]
  have hA : D.a r = (D.af r).setWidth 32 := rfl
  have hE : D.e r = (D.ef r).setWidth 32 := rfl
  have eA := (D.af r).isLt
  have eE := (D.ef r).isLt
  unfold stAt round
  simp only
  generalize D.a (r - 1) = a at *
  generalize D.a (r - 2) = b at *
  generalize D.a (r - 3) = c at *
  generalize D.a (r - 4) = d at *
  generalize D.e (r - 1) = e at *
  generalize D.e (r - 2) = f at *
  generalize D.e (r - 3) = g at *
  generalize D.e (r - 4) = h' at *
  generalize D.w r = w at *
  generalize D.af r = AF at *
  generalize D.ef r = EF at *
  rw [hA, hE]
  obtain ⟨h1, h3⟩ := h
  change ((AF.toNat : ℕ) : ZMod p) = ((h'.toNat : ℕ) : ZMod p) + (((bigSigma1 e).toNat : ℕ) : ZMod p) + (((Ch e f g).toNat : ℕ) : ZMod p) +
    (k : ZMod p) + ((w.toNat : ℕ) : ZMod p) + ((((bigSigma0 a).toNat : ℕ) : ZMod p) + (((Maj a b c).toNat : ℕ) : ZMod p)) at h1
  change ((EF.toNat : ℕ) : ZMod p) = ((d.toNat : ℕ) : ZMod p) + (((h'.toNat : ℕ) : ZMod p) + (((bigSigma1 e).toNat : ℕ) : ZMod p) +
    (((Ch e f g).toNat : ℕ) : ZMod p) + (k : ZMod p) + ((w.toNat : ℕ) : ZMod p)) at h3
  have e1 := h'.isLt
  have e2 := (bigSigma1 e).isLt
  have e3 := (Ch e f g).isLt
  have e4 := w.isLt
  have e5 := (bigSigma0 a).isLt
  have e6 := (Maj a b c).isLt
  have e7 := d.isLt
  norm_num at e1 e2 e3 e4 e5 e6 e7 eA eE hp hKlt
  have r1 := cast_inj (p := p) (a := AF.toNat) (b := h'.toNat + (bigSigma1 e).toNat + (Ch e f g).toNat + k + w.toNat +
    ((bigSigma0 a).toNat + (Maj a b c).toNat)) (by omega) (by omega) (by push_cast; exact h1)
  have r2 := cast_inj (p := p) (a := EF.toNat) (b := d.toNat + (h'.toNat + (bigSigma1 e).toNat + (Ch e f g).toNat + k + w.toNat))
    (by omega) (by omega) (by push_cast; exact h3)
  rw [setWidth_of_toNat _ _ r1, setWidth_of_toNat _ _ r2]
  simp only [BitVec.ofNat_add, BitVec.ofNat_toNat, BitVec.setWidth_eq]

theorem schedule_word {b : ℕ} (hb : b < n) (t : ℕ) (h2 : t < 64) :
    D.w (72 * b + 4 + t) = schedule (fun i => D.w (72 * b + 4 + i)) t := by
  induction t using Nat.strongRecOn with
  | _ t ih =>
    rw [schedule]
    split
    · rfl
    · rw [extend_word hs hp D hb (by omega) h2, ih (t - 2) (by omega) (by omega), ih (t - 7) (by omega) (by omega),
        ih (t - 15) (by omega) (by omega), ih (t - 16) (by omega) (by omega)]

theorem rounds_word {b : ℕ} (hb : b < n) (t : ℕ) (h2 : t ≤ 64) :
    stAt D (72 * b + 4 + t) = rounds (schedule fun i => D.w (72 * b + 4 + i)) (stAt D (72 * b + 4)) t := by
  induction t with
  | zero => rfl
  | succ t ih =>
    rw [round_word hs hp D hb (by omega), ih (by omega), rounds, ← schedule_word hs hp D hb t (by omega)]

theorem end_word {b k : ℕ} (hb : b < n) (hk : k < 4) :
    D.a (72 * b + 68 + k) = D.a (72 * b + 64 + k) + D.a (72 * b + k) ∧ D.e (72 * b + 68 + k) = D.e (72 * b + 64 + k) + D.e (72 * b + k) := by
  have hr : 72 * b + 68 + k < 72 * n := by omega
  have h := sat_end hs hr (by omega)
  rw [D.newA (r := 72 * b + 64 + k) (by omega) (by omega), D.newA (r := 72 * b + k) (by omega) (by omega),
    D.newE (r := 72 * b + 64 + k) (by omega) (by omega), D.newE (r := 72 * b + k) (by omega) (by omega), D.ha _ hr, D.he _ hr] at h
  simp only [decode_bitsOf] at h
  generalize D.a (72 * b + 64 + k) = a1 at *
  generalize D.e (72 * b + 64 + k) = e1 at *
  generalize D.a (72 * b + k) = a2 at *
  generalize D.e (72 * b + k) = e2 at *
  have f1 := a1.isLt
  have f2 := a2.isLt
  have f3 := e1.isLt
  have f4 := e2.isLt
  have f5 := (D.af (72 * b + 68 + k)).isLt
  have f6 := (D.ef (72 * b + 68 + k)).isLt
  norm_num at f1 f2 f3 f4 f5 f6 hp
  have r1 := cast_inj (p := p) (by omega) (b := a1.toNat + a2.toNat) (by omega) (h.1.trans (by push_cast; rfl))
  have r2 := cast_inj (p := p) (by omega) (b := e1.toNat + e2.toNat) (by omega) (h.2.trans (by push_cast; rfl))
  unfold Words.a Words.e
  rw [setWidth_of_toNat _ _ r1, setWidth_of_toNat _ _ r2]
  simp only [BitVec.ofNat_add, BitVec.ofNat_toNat, BitVec.setWidth_eq, and_self]

/-- A block computes the compression function: the words of the last four rows. -/
theorem compress_word {b : ℕ} (hb : b < n) :
    stAt D (72 * b + 72) = compress (stAt D (72 * b + 4)) fun i => D.w (72 * b + 4 + i) := by
  unfold compress
  rw [← rounds_word hs hp D hb 64 (le_refl _)]
  unfold stAt St.add
  obtain ⟨a0, e0⟩ := end_word hs hp D (k := 0) hb (by omega)
  obtain ⟨a1, e1⟩ := end_word hs hp D (k := 1) hb (by omega)
  obtain ⟨a2, e2⟩ := end_word hs hp D (k := 2) hb (by omega)
  obtain ⟨a3, e3⟩ := end_word hs hp D (k := 3) hb (by omega)
  simp only [St.mk.injEq]
  refine ⟨?_, ?_, ?_, ?_, ?_, ?_, ?_, ?_⟩
  · convert a3 using 2; all_goals (try omega); all_goals (congr 1)
  · convert a2 using 2; all_goals (try omega); all_goals (congr 1)
  · convert a1 using 2; all_goals (try omega); all_goals (congr 1)
  · convert a0 using 2; all_goals (try omega); all_goals (congr 1)
  · convert e3 using 2; all_goals (try omega); all_goals (congr 1)
  · convert e2 using 2; all_goals (try omega); all_goals (congr 1)
  · convert e1 using 2; all_goals (try omega); all_goals (congr 1)
  · convert e0 using 2; all_goals (try omega); all_goals (congr 1)

theorem start_word {b k : ℕ} (hb : b < n) (hk : k < 4) :
    ((adv (72 * b + k : ℕ)).isFinal = 1 → D.a (72 * b + k) = BitVec.ofNat 32 (HINIT.getD (3 - k) 0) ∧
      D.e (72 * b + k) = BitVec.ofNat 32 (HINIT.getD (7 - k) 0)) ∧
    (0 < b → (adv (72 * b + k : ℕ)).isFinal = 0 → D.a (72 * b + k) = D.a (72 * b - 4 + k) ∧ D.e (72 * b + k) = D.e (72 * b - 4 + k)) := by
  have hr : 72 * b + k < 72 * n := by omega
  have h := sat_start hs hr (by omega)
  rw [show (72 * b + k) % 72 = k by omega, D.ha _ hr, D.he _ hr] at h
  have f5 := (D.af (72 * b + k)).isLt
  have f6 := (D.ef (72 * b + k)).isLt
  norm_num at f5 f6 hp
  constructor
  · intro hf
    rw [hf] at h
    simp only [selE, one_mul, sub_self, zero_mul, add_zero, decode_bitsOf] at h
    have hb1 : HINIT.getD (3 - k) 0 < 4294967296 ∧ HINIT.getD (7 - k) 0 < 4294967296 := by
      have : ∀ k < 4, HINIT.getD (3 - k) 0 < 4294967296 ∧ HINIT.getD (7 - k) 0 < 4294967296 := by decide
      exact this k hk
    have r1 := cast_inj (p := p) (by omega) (by omega) h.1
    have r2 := cast_inj (p := p) (by omega) (by omega) h.2
    exact ⟨setWidth_of_toNat _ _ r1, setWidth_of_toNat _ _ r2⟩
  · intro hb0 hf
    rw [hf, D.newA (r := 72 * b - 4 + k) (by omega) (by omega), D.newE (r := 72 * b - 4 + k) (by omega) (by omega)] at h
    simp only [selE, zero_mul, sub_zero, one_mul, zero_add, decode_bitsOf] at h
    have f1 := (D.a (72 * b - 4 + k)).isLt
    have f2 := (D.e (72 * b - 4 + k)).isLt
    norm_num at f1 f2
    have r1 := cast_inj (p := p) (by omega) (by omega) h.1
    have r2 := cast_inj (p := p) (by omega) (by omega) h.2
    refine ⟨(setWidth_of_toNat _ _ r1).trans ?_, (setWidth_of_toNat _ _ r2).trans ?_⟩ <;> simp

end
end H2.Sha
