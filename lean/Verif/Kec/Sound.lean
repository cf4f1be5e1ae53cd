import Verif.Kec.Round2
import Verif.Sha.SoundPad

/-!
# Absorbing, squeezing, padding
-/

set_option autoImplicit false
set_option linter.unusedSectionVars false
namespace H2.Kec
open H2.Sha (Z Z_append Z_gate Z_cond Z_gate1 Z_reqEq Z_reqZero Z_reqBool Z_flatMap ind_eq_zero ind b2f bool_cases b2f_inj notE selE sumE andE
  fromBytes fromBytes_nil fromBytes_cons fromBytes_append reqEq reqZero reqBool gate cond)

variable {p : ℕ} [Fact p.Prime] {k h n : ℕ} {a : Adv (ZMod p)}

/-- The lane of 8 bytes. -/
def lane8 (f : ℕ → Byte) : Lane := leLane ((List.range 8).map f) 0

theorem lane8_congr {f g : ℕ → Byte} (h : ∀ i, i < 8 → f i = g i) : lane8 f = lane8 g := by
  unfold lane8
  rw [List.map_congr_left fun i hi => h i (List.mem_range.mp hi)]

theorem bytes_range {l : List Byte} (h : l.length = 8) : (List.range 8).map (fun i => l.getD i 0) = l := by
  refine List.ext_getElem (by simp [h]) fun i h1 h2 => ?_
  simp [h2]

/-! ### The fixed values -/

section
variable {F : Type} [Field F] (t i : ℕ)
theorem fr_enable : (fixRound t i : Fix F).qEnable = ind (i = 0) := rfl
theorem fr_first : (fixRound t i : Fix F).qFirst = 0 := rfl
theorem fr_round : (fixRound t i : Fix F).qRound = ind (i = 0 ∧ t < 24) := rfl
theorem fr_absorb : (fixRound t i : Fix F).qAbsorb = ind (i = 0 ∧ t = 24) := rfl
theorem fr_last : (fixRound t i : Fix F).qRoundLast = ind (i = 0 ∧ t = 24) := rfl
theorem fr_input : (fixRound t i : Fix F).qInput = ind (i = 0 ∧ t < 17) := rfl
theorem fr_inputLast : (fixRound t i : Fix F).qInputLast = ind (i = 0 ∧ t = 16) := rfl
end

theorem fix_zero {F : Type} [Field F] (hh : 1 ≤ h) : fixedCols h n (bs h 0) = (fixDummy 0 : Fix F) := by
  have : bs h 0 = ((0 : ℕ) : ℤ) := by unfold bs; simp
  rw [this]
  exact fix_dummy (by omega)

theorem fix_last {F : Type} [Field F] (hh : 1 ≤ h) {b : ℕ} (h1 : 1 ≤ b) (hb : b ≤ n) : fixedCols h n (bs h (25 * b)) = (fixRound 24 0 : Fix F) := by
  rw [fix_bs hh (by omega) (by omega), show (25 * b - 1) % 25 = 24 by omega]

theorem fix_in {F : Type} [Field F] (hh : 1 ≤ h) {b q : ℕ} (hb : b < n) (hq : q < 25) : fixedCols h n (bs h (25 * b + 1 + q)) = (fixRound q 0 : Fix F) := by
  rw [fix_bs hh (by omega) (by omega), show (25 * b + 1 + q - 1) % 25 = q by omega]

theorem qEnable_one {F : Type} [Field F] (hh : 1 ≤ h) {R : ℕ} (hR : R < 1 + n * 25) : (fixedCols h n (bs h R) : Fix F).qEnable = 1 := by
  by_cases h0 : R = 0
  · subst h0; rw [fix_zero hh]; simp [fixDummy, ind]
  · rw [fix_bs hh (by omega) hR]; simp [fixRound, ind]

/-! ### Bytes and selectors -/

section
variable (hs : KecSat k h n a) (hg : GoodL k h) (hp : 8 ^ 82 ≤ p)
include hs hg hp

theorem input_bytes {R : ℕ} (h1 : 1 ≤ R) (hR : R < 1 + n * 25) (ht : (R - 1) % 25 < 24) :
    ∃ f : ℕ → Byte, (∀ i, i < 8 → byteAt (layout k h) a (bs h R) i = (((f i).toNat : ℕ) : ZMod p)) ∧
      a.val (bs h R) (layout k h).absorbData = ((spread (lane8 f) : ℕ) : ZMod p) := by
  have e := (sat_round hs hg.hh h1 hR ht).2.2.1
  obtain ⟨hl, bytes, hb, hm, hx⟩ := unpack_step hs hg.hk hp hg.packed.2 hg.packed.1 hR e
  refine ⟨fun i => bytes.getD i 0, fun i hi => ?_, ?_⟩
  · have := congrArg (fun l : List (ZMod p) => l.getD i 0) hm
    rw [getD_map _ (by omega) 0 (0, 0), getD_map _ (by omega) 0 0] at this
    exact this
  · rw [lane8, bytes_range hb]; exact hx

theorem exists_bytes : ∃ D : ℕ → ℕ → Byte, ∀ R, 1 ≤ R → R < 1 + n * 25 → (R - 1) % 25 < 24 →
    (∀ i, i < 8 → byteAt (layout k h) a (bs h R) i = (((D R i).toNat : ℕ) : ZMod p)) ∧
      a.val (bs h R) (layout k h).absorbData = ((spread (lane8 (D R)) : ℕ) : ZMod p) := by
  have key : ∀ R : ℕ, ∃ f : ℕ → Byte, 1 ≤ R → R < 1 + n * 25 → (R - 1) % 25 < 24 →
    (∀ i, i < 8 → byteAt (layout k h) a (bs h R) i = (((f i).toNat : ℕ) : ZMod p)) ∧
      a.val (bs h R) (layout k h).absorbData = ((spread (lane8 f) : ℕ) : ZMod p) := by
    intro R
    by_cases hc : 1 ≤ R ∧ R < 1 + n * 25 ∧ (R - 1) % 25 < 24
    · obtain ⟨f, hf⟩ := input_bytes hs hg hp hc.1 hc.2.1 hc.2.2
      exact ⟨f, fun _ _ _ => hf⟩
    · exact ⟨fun _ => 0, fun h1 h2 h3 => (hc ⟨h1, h2, h3⟩).elim⟩
  choose D hD using key
  exact ⟨D, hD⟩

/-- The absorb step of a round. -/
theorem absorb_xor {R : ℕ} (h1 : 1 ≤ R) (hR : R < 1 + n * 25) (ht : (R - 1) % 25 < 24) {x y : Lane}
    (hx : a.val (bs h R) (layout k h).absorbFrom = ((spread x : ℕ) : ZMod p)) (hy : a.val (bs h R) (layout k h).absorbData = ((spread y : ℕ) : ZMod p)) :
    a.val (bs h R) (layout k h).absorbResult = ((spread (x ^^^ y) : ℕ) : ZMod p) := by
  have hsat := sat_round hs hg.hh h1 hR ht
  obtain ⟨e1, e2, _⟩ := hsat
  have hk := hg.hk
  obtain ⟨_, g2, _⟩ := norm_step hs hk hp (range := 3) (ps := ps3 k) (sz := partSizes (ps3 k) 0 false)
    (X := ([x, y].map spread).sum) rfl (by norm_num) rfl hk.h3.1 hk.s3.1 hk.s3.2 hk.sum3 hg.absorb.2 hg.absorb.1 hR
    (sum_spread_lt _ (by simp)) (by
      rw [e1, hx, hy]
      simp only [List.map_cons, List.map_nil, List.sum_cons, List.sum_nil]
      push_cast
      ring)
  rw [← e2, decode_partsOf]
  generalize decN ((partSizes (ps3 k) 0 false).zip ((layout k h).absorbRes.map (nv a (bs h R)))) = N at *
  have key : N = spread (x ^^^ y) := eq_spread fun b => by
    rw [g2, (dig_sum _ (by simp) b).1]
    simp only [BitVec.getLsbD_xor, xor_toNat, List.map_cons, List.map_nil, List.sum_cons, List.sum_nil, Nat.add_zero]
  rw [key]

/-- The squeezed bytes of a round. -/
theorem squeeze_bytes {R : ℕ} (h1 : 1 ≤ R) (hR : R < 1 + n * 25) (ht : (R - 1) % 25 < 24) {x : Lane}
    (hx : a.val (bs h R) (layout k h).squeezeFrom = ((spread x : ℕ) : ZMod p)) :
    (layout k h).squeezeBytes.map (fun c => a.val (bs h R) c) = (laneBytes x).map fun b => ((b.toNat : ℕ) : ZMod p) := by
  have e := (sat_round hs hg.hh h1 hR ht).2.2.2.2.2.2.2
  obtain ⟨hl, bytes, hb, hm, hx'⟩ := unpack_step hs hg.hk hp hg.squeeze.2 hg.squeeze.1 hR e
  have h64 : (8 : ℕ) ^ 64 ≤ p := le_trans (Nat.pow_le_pow_right (by norm_num) (by norm_num)) hp
  rw [hx] at hx'
  have hsp := spread_inj (nat_eq (lt_of_lt_of_le (spread_lt x) h64) (lt_of_lt_of_le (spread_lt _) h64) hx')
  have : laneBytes x = bytes := by
    rw [hsp]
    refine List.ext_getElem (by simp [laneBytes, hb]) fun i i1 i2 => ?_
    simp only [laneBytes, List.getElem_map, List.getElem_range]
    apply BitVec.eq_of_getLsbD_eq
    intro j hj
    rw [BitVec.getLsbD_extractLsb', leLane_bit _ _ _ (by omega), show 8 * 0 + (8 * i + j) / 8 = i by omega, show (8 * i + j) % 8 = j by omega]
    simp [hj, i2]
  rw [this]
  exact hm

end

section
variable (hs : KecSat k h n a) (hh : 1 ≤ h)
include hs hh

theorem exists_pads : ∃ P : ℕ → ℕ → Bool, ∀ R, R < 1 + n * 25 → ∀ i, i < 8 → padAt (layout k h) a (bs h R) i = b2f (P R i) := by
  have key : ∀ (R i : ℕ), ∃ b : Bool, R < 1 + n * 25 → i < 8 → padAt (layout k h) a (bs h R) i = b2f b := by
    intro R i
    by_cases hc : R < 1 + n * 25 ∧ i < 8
    · have hz := sat_gates hs hh hc.1
      simp only [gates, gPadding, Z_append, Z_gate1, Z_flatMap, Z_cond, Z_reqBool, List.mem_range] at hz
      have h2 := hz.2.1.1 i hc.2
      rw [qEnable_one hh hc.1] at h2
      obtain ⟨b, hb⟩ := bool_cases (h2.resolve_left one_ne_zero)
      exact ⟨b, fun _ _ => hb⟩
    · exact ⟨false, fun h1 h2 => (hc ⟨h1, h2⟩).elim⟩
  choose P hP using key
  exact ⟨P, fun R hR i hi => hP R i hR hi⟩

theorem pad_abs {b : ℕ} (hb : b < n) : padAt (layout k h) a (bs h (25 * b)) 7 = 0 := by
  have hz := sat_gates hs hh (R := 25 * b) (by omega)
  simp only [gates, gPadding, Z_append, Z_gate1, Z_cond, Z_reqZero] at hz
  refine hz.2.1.2.resolve_left ?_
  by_cases h0 : b = 0
  · subst h0; rw [Nat.mul_zero, fix_zero hh]; simp [fixDummy, ind]
  · rw [fix_last hh (by omega) (by omega)]; simp [fixRound, ind]

theorem final_pad {b : ℕ} (hb : b < n) : a.isFinal (bs h (25 * (b + 1))) = padAt (layout k h) a (bs h (25 * b + 17)) 7 := by
  have hz := sat_gates hs hh (R := 25 * (b + 1)) (by omega)
  simp only [gates, gFinal, Z_append, Z_gate1, Z_cond, Z_reqEq] at hz
  have h1 := hz.1.2.1
  rw [fix_last hh (by omega) (by omega)] at h1
  have h2 := h1.resolve_left (by simp [fixRound, ind])
  rw [h2]
  have := bs_sub h (25 * (b + 1)) 8 (by omega)
  rw [show 25 * (b + 1) - 8 = 25 * b + 17 by omega] at this
  rw [← this]; push_cast; rfl

theorem final_zero : a.isFinal (bs h 0) = 0 := by
  have hz := sat_gates hs hh (R := 0) (by omega)
  simp only [gates, gFirst, Z_append, Z_gate, Z_reqZero] at hz
  have h1 := hz.1.1.1.1.2
  rw [fix_zero hh] at h1
  exact h1.resolve_left (by simp [fixDummy, ind])

theorem final_bool {R : ℕ} (hR : R < 1 + n * 25) : ∃ b : Bool, a.isFinal (bs h R) = b2f b := by
  have hz := sat_gates hs hh hR
  simp only [gates, gInput, Z_append, Z_gate, Z_reqBool] at hz
  have h1 := hz.1.1.1.1.1.2
  rw [qEnable_one hh hR] at h1
  exact bool_cases (h1.resolve_left one_ne_zero)

/-- Does block `b` start a new hash? -/
def startB (P : ℕ → ℕ → Bool) (b : ℕ) : Bool := if b = 0 then true else P (25 * (b - 1) + 17) 7

variable {P : ℕ → ℕ → Bool} (hP : ∀ R, R < 1 + n * 25 → ∀ i, i < 8 → padAt (layout k h) a (bs h R) i = b2f (P R i))
include hP

theorem final_eq {b : ℕ} (hb : b < n) : a.isFinal (bs h (25 * (b + 1))) = b2f (P (25 * b + 17) 7) := by
  rw [final_pad hs hh hb, hP _ (by omega) 7 (by norm_num)]

theorem start_eq {b : ℕ} (hb : b ≤ n) : startNew (fixedCols h n) a (bs h (25 * b)) = b2f (startB P b) := by
  unfold startNew startB
  by_cases h0 : b = 0
  · subst h0; rw [Nat.mul_zero, fix_zero hh, final_zero hs hh]; simp [fixDummy, ind, b2f]
  · rw [if_neg h0, fix_last hh (by omega) hb]
    obtain ⟨c, rfl⟩ : ∃ c, b = c + 1 := ⟨b - 1, by omega⟩
    rw [final_eq hs hh hP (by omega)]
    simp [fixRound]

theorem sat_absorb {b : ℕ} (hb : b < n) {i j : ℕ} (hi : i < 5) (hj : j < 5) :
    (startB P b = true → sAt (layout k h) a (bs h (25 * b + 1)) i j =
      if i + j * 5 < 17 then a.val (bs h (25 * b + 1 + (i + j * 5))) (layout k h).absorbData else 0) ∧
    (startB P b = false →
      (i + j * 5 < 17 → a.val (bs h (25 * b + 1 + (i + j * 5))) (layout k h).absorbFrom = sAt (layout k h) a (bs h (25 * b)) i j) ∧
      sAt (layout k h) a (bs h (25 * b + 1)) i j =
        if i + j * 5 < 17 then a.val (bs h (25 * b + 1 + (i + j * 5))) (layout k h).absorbResult else sAt (layout k h) a (bs h (25 * b)) i j) := by
  have hz := sat_gates hs hh (R := 25 * b) (by omega)
  simp only [gates, gAbsorb, Z_append, Z_gate, Z_flatMap, List.mem_range] at hz
  have h1 := hz.1.1.1.1.1.1.1.2.resolve_left (by
    by_cases h0 : b = 0
    · subst h0; rw [Nat.mul_zero, fix_zero hh]; simp [fixDummy, ind]
    · rw [fix_last hh (by omega) (by omega)]; simp [fixRound, ind]) j hj i hi
  unfold gAbsorbAt at h1
  simp only at h1
  rw [start_eq hs hh hP (by omega)] at h1
  have e1 : bs h (25 * b) + (((i + j * 5 : ℕ) : ℤ) + 1) * h = bs h (25 * b + 1 + (i + j * 5)) := by
    have := bs_add h (25 * b) (i + j * 5 + 1)
    rw [show 25 * b + (i + j * 5 + 1) = 25 * b + 1 + (i + j * 5) by omega] at this
    rw [← this]; push_cast; ring
  rw [bs_succ, e1] at h1
  by_cases hc : i + j * 5 < 17
  · rw [if_pos hc] at h1
    simp only [if_pos hc]
    simp only [Z_append, Z_cond, Z_reqEq] at h1
    cases hsb : startB P b
    · rw [hsb] at h1
      simp only [b2f, Bool.false_eq_true, if_false, notE, selE, sub_zero, one_ne_zero, false_or, one_mul, sub_self, zero_mul, add_zero] at h1
      exact ⟨fun hx => (Bool.false_ne_true hx).elim, fun _ => ⟨fun _ => h1.1, h1.2.symm⟩⟩
    · rw [hsb] at h1
      simp only [b2f, if_true, notE, selE, sub_self, sub_zero, zero_mul, one_mul, zero_add] at h1
      exact ⟨fun _ => h1.2.symm, fun hx => (Bool.false_ne_true hx.symm).elim⟩
  · rw [if_neg hc] at h1
    simp only [if_neg hc]
    rw [Z_reqEq] at h1
    rw [← h1]
    cases hsb : startB P b
    · simp [b2f, notE, hc]
    · simp [b2f, notE]

end

end H2.Kec
