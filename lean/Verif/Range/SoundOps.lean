import Verif.Range.Sound
import Mathlib.Data.BitVec

/-! # Soundness of the comparisons, divisions, decompositions and rotations of the range chip -/

set_option autoImplicit false
namespace H2
variable {p : ℕ} [Fact p.Prime] {L : ℕ}

theorem cast_val_eq {x : ZMod p} {n : ℕ} (h : x = (n : ZMod p)) (hn : n < p) : x.val = n := by
  rw [h, ZMod.val_natCast_of_lt hn]

theorem natCast_inj_lt {m n : ℕ} (h : (m : ZMod p) = (n : ZMod p)) (hm : m < p) (hn : n < p) : m = n := by
  have := cast_val_eq h hn
  rwa [ZMod.val_natCast_of_lt hm] at this

/-- The seven-cell comparison region: `| a + 2^n - b | b | 1 | a + 2^n | -2^n | 1 | a |`. -/
theorem cmpRegion_snd {tbl : ZMod p → Prop} {s : Ctx p} (u v pw : ZMod p) (a b : QCell p) :
    Snd tbl s (do
        assignRegion [.witness u, b, .constant 1, .witness v, .constant (-pw), .constant 1, a] [0, 3]
        getM (-7)) (fun w r _ => ∃ x y, QOk w a x ∧ QOk w b y ∧ at' w r = x + pw - y) := by
  refine (regionGet_snd _ _ (-7) (by omega) (by simp)).weaken ?_
  rintro w r _ ⟨V, hq, hg, hr⟩
  simp only [QsOk, QOk, and_true, true_and] at hq
  obtain ⟨hb, h1, h4, h5, ha⟩ := hq
  have g0 := hg 0 (by simp)
  have g3 := hg 3 (by simp)
  simp only [gateV] at g0 g3
  norm_num at hb h1 h4 h5 ha g0 g3 hr
  refine ⟨_, _, ha, hb, ?_⟩
  rw [hr, ← g3, ← g0, h1, h4, h5]
  ring

theorem checkLessThan_sound (a b : QCell p) (n : ℕ) (hL : RangeOk p L) :
    Sound (RangeTable p L) (checkLessThan L a b n) (fun w _ => ∃ x y, QOk w a x ∧ QOk w b y ∧
      ∃ m : ℕ, m < 2 ^ n ∧ x + 2 ^ n = y + (m : ZMod p)) := by
  intro s
  refine Snd.rd (pow2At_rd n) fun pw hpw => ?_
  obtain ⟨-, rfl⟩ := hpw
  refine Snd.unwrap fun x _ => Snd.unwrap fun y _ => ?_
  rw [← bind_assoc]
  refine Snd.bind (cmpRegion_snd _ _ _ a b) fun c s1 _ => ?_
  refine (rangeCheck_sound c n hL s1).weaken ?_
  rintro w _ _ ⟨m, hm, hc⟩ ⟨x, y, hx, hy, h⟩
  refine ⟨x, y, hx, hy, m, hm, ?_⟩
  rw [← hc, h]; ring

/-- Integers: `x + 2^n ≡ y + m (mod p)` with `m < 2^n` and `x + 2^n < p + y` forces `x < y`. -/
theorem lt_of_shift {x y : ZMod p} {n m : ℕ} (hm : m < 2 ^ n) (h : x + 2 ^ n = y + (m : ZMod p))
    (hb : x.val + 2 ^ n < p + y.val) : x.val < y.val := by
  by_contra hcon
  have e : ((x.val + 2 ^ n - y.val : ℕ) : ZMod p) = (m : ZMod p) := by
    rw [Nat.cast_sub (by omega)]
    push_cast
    rw [ZMod.natCast_zmod_val, ZMod.natCast_zmod_val, h]; ring
  have := natCast_inj_lt e (by omega) (by omega)
  omega

/-- `check_less_than` enforces `a < b` as soon as `a + 2^n < p + b`, in particular for `a < 2^n`,
`2^(n+1) ≤ p`. -/
theorem checkLessThan_lt (a b : QCell p) (n : ℕ) (hL : RangeOk p L) :
    Sound (RangeTable p L) (checkLessThan L a b n) (fun w _ => ∃ x y, QOk w a x ∧ QOk w b y ∧
      (x.val + 2 ^ n < p + y.val → x.val < y.val)) := by
  refine fun s => (checkLessThan_sound a b n hL s).weaken ?_
  rintro w _ _ ⟨x, y, hx, hy, m, hm, h⟩
  exact ⟨x, y, hx, hy, lt_of_shift hm h⟩

/-- `ceil(bits(b)/L)*L`: the number of bits the `_safe` routines range check. -/
def safeBits (L b : ℕ) : ℕ := ceilDiv (Nat.size b) L * L

/-- The exact condition under which the `_safe` comparison with the constant `b` cannot wrap. -/
structure LtSafeOk (p L b : ℕ) : Prop where
  fits : 2 ^ safeBits L b ≤ p
  nowrap : 2 ^ (safeBits L b + 1) ≤ p + b

omit [Fact p.Prime] in
theorem size_le_safeBits (hL : 1 ≤ L) (b : ℕ) : Nat.size b ≤ safeBits L b := by
  rcases Nat.eq_zero_or_pos (Nat.size b) with h | h
  · omega
  · exact (ceilDiv_spec hL h).2.1

omit [Fact p.Prime] in
theorem lt_two_pow_safeBits (hL : 1 ≤ L) (b : ℕ) : b < 2 ^ safeBits L b :=
  Nat.size_le.1 (size_le_safeBits hL b)

theorem checkLessThanSafe_sound (a : AV p) (b : ℕ) (hL : RangeOk p L) (hb : LtSafeOk p L b) :
    Sound (RangeTable p L) (checkLessThanSafe L a b) (fun w _ => (at' w a).val < b) := by
  intro s
  have hbl := lt_two_pow_safeBits hL.pos b
  have hf := hb.fits
  have hn := hb.nowrap
  refine Snd.bind (rangeCheck_val a (safeBits L b) hL hf s) fun _ s1 _ => ?_
  refine (checkLessThan_lt _ _ (safeBits L b) hL s1).weaken ?_
  rintro w _ _ ⟨x, y, hx, hy, h⟩ hr
  rw [show x = at' w a from hx] at h
  rw [show y = (b : ZMod p) from hy, ZMod.val_natCast_of_lt (by omega)] at h
  rw [pow_succ] at hn
  have hr : (at' w a).val < 2 ^ safeBits L b := hr
  exact h (by omega)

theorem checkBigLessThanSafe_sound (a : AV p) (b : ℕ) (hL : RangeOk p L) (hb : LtSafeOk p L b) :
    Sound (RangeTable p L) (checkBigLessThanSafe L a b) (fun w _ => (at' w a).val < b) := by
  intro s
  have hbl := lt_two_pow_safeBits hL.pos b
  have hf := hb.fits
  have hn := hb.nowrap
  refine Snd.bind (rangeCheck_val a (safeBits L b) hL hf s) fun _ s1 _ => ?_
  refine Snd.rd (bigToFe_rd b) fun bf hbf => ?_
  obtain ⟨-, rfl⟩ := hbf
  refine (checkLessThan_lt _ _ (safeBits L b) hL s1).weaken ?_
  rintro w _ _ ⟨x, y, hx, hy, h⟩ hr
  rw [show x = at' w a from hx] at h
  rw [show y = (b : ZMod p) from hy, ZMod.val_natCast_of_lt (by omega)] at h
  rw [pow_succ] at hn
  have hr : (at' w a).val < 2 ^ safeBits L b := hr
  exact h (by omega)

omit [Fact p.Prime] in
theorem ceilDiv_mul_add (hL : 1 ≤ L) (k : ℕ) : ceilDiv (k * L + L) L = k + 1 := by
  unfold ceilDiv
  rw [Nat.div_eq_iff (by omega)]
  have : (k + 1) * L = k * L + L := by ring
  constructor <;> omega

theorem isLessThan_sound (a b : QCell p) (n : ℕ) (hL : RangeOk p L)
    (hn : ceilDiv n L * L + L ≤ capacity p) :
    Sound (RangeTable p L) (isLessThan L a b n) (fun w r => ∃ x y, QOk w a x ∧ QOk w b y ∧
      (x.val < 2 ^ (ceilDiv n L * L) → y.val ≤ 2 ^ (ceilDiv n L * L) →
        at' w r = if x.val < y.val then 1 else 0)) := by
  intro s
  unfold isLessThan
  set K := ceilDiv n L with hK
  refine Snd.rd (pow2At_rd _) fun pw hpw => ?_
  obtain ⟨-, rfl⟩ := hpw
  refine Snd.unwrap fun x _ => Snd.unwrap fun y _ => ?_
  rw [← bind_assoc]
  refine Snd.bind (cmpRegion_snd _ _ _ a b) fun c s1 _ => ?_
  refine Snd.bind (rangeCheckLimb_sound c _ hL s1) fun last s2 _ => ?_
  refine (isZero_sound last s2).weaken ?_
  rintro w r _ hz ⟨m, hm, hc, hl⟩ ⟨x, y, hx, hy, h⟩
  refine ⟨x, y, hx, hy, fun hxl hyl => ?_⟩
  beta_reduce at hz
  have hp := pow_capacity_le hn
  have hl := hl (by have := hL.pos; omega)
  rw [ceilDiv_mul_add hL.pos, Nat.add_sub_cancel, Nat.mul_comm L K] at hl
  have h2 : 2 ^ (K * L) + 2 ^ (K * L) ≤ 2 ^ (K * L + L) := by
    rw [← mul_two, ← pow_succ]
    exact Nat.pow_le_pow_right (by norm_num) (by have := hL.pos; omega)
  have hmv : x.val + 2 ^ (K * L) - y.val = m := by
    refine natCast_inj_lt (p := p) ?_ (by omega) (by omega)
    rw [← hc, h, Nat.cast_sub (by omega)]
    push_cast
    simp only [ZMod.natCast_zmod_val]
  have hmd : m / 2 ^ (K * L) < p := lt_of_le_of_lt (Nat.div_le_self _ _) (by omega)
  rw [hz]
  have key : at' w last = 0 ↔ x.val < y.val := by
    rw [hl]
    constructor
    · intro h0
      have : m / 2 ^ (K * L) = 0 := natCast_inj_lt (p := p) (by simpa using h0) hmd (by omega)
      rw [Nat.div_eq_zero_iff] at this
      rcases this with h' | h'
      · have : 0 < 2 ^ (K * L) := by positivity
        omega
      · omega
    · intro hlt
      rw [Nat.div_eq_of_lt (by omega)]; simp
  by_cases hlt : x.val < y.val
  · rw [if_pos hlt, if_pos (key.2 hlt)]
  · rw [if_neg hlt, if_neg fun h0 => hlt (key.1 h0)]

theorem isLessThanSafe_sound (a : AV p) (b : ℕ) (hL : RangeOk p L)
    (hn : safeBits L b + L ≤ capacity p) :
    Sound (RangeTable p L) (isLessThanSafe L a b) (fun w r =>
      (at' w a).val < 2 ^ safeBits L b ∧ at' w r = if (at' w a).val < b then 1 else 0) := by
  intro s
  have hbl := lt_two_pow_safeBits hL.pos b
  have hf : 2 ^ safeBits L b ≤ p := pow_capacity_le (by omega)
  have hcd : ceilDiv (safeBits L b) L * L = safeBits L b := by
    rcases Nat.eq_zero_or_pos (safeBits L b) with h | h
    · rw [h]; unfold ceilDiv
      have := hL.pos
      rw [Nat.div_eq_of_lt (by omega)]; simp
    · exact (ceilDiv_spec hL.pos h).2.2.2.1 (by simp [safeBits])
  refine Snd.bind (rangeCheck_val a (safeBits L b) hL hf s) fun _ s1 _ => ?_
  refine (isLessThan_sound _ _ (safeBits L b) hL (by rw [hcd]; exact hn) s1).weaken ?_
  rintro w r _ ⟨x, y, hx, hy, h⟩ hr
  have hr : (at' w a).val < 2 ^ safeBits L b := hr
  rw [hcd, show x = at' w a from hx, show y = (b : ZMod p) from hy, ZMod.val_natCast_of_lt (by omega)] at h
  exact ⟨hr, h hr (by omega)⟩

theorem isBigLessThanSafe_sound (a : AV p) (b : ℕ) (hL : RangeOk p L)
    (hn : safeBits L b + L ≤ capacity p) :
    Sound (RangeTable p L) (isBigLessThanSafe L a b) (fun w r =>
      (at' w a).val < 2 ^ safeBits L b ∧ at' w r = if (at' w a).val < b then 1 else 0) := by
  intro s
  have hbl := lt_two_pow_safeBits hL.pos b
  have hf : 2 ^ safeBits L b ≤ p := pow_capacity_le (by omega)
  have hcd : ceilDiv (safeBits L b) L * L = safeBits L b := by
    rcases Nat.eq_zero_or_pos (safeBits L b) with h | h
    · rw [h]; unfold ceilDiv
      have := hL.pos
      rw [Nat.div_eq_of_lt (by omega)]; simp
    · exact (ceilDiv_spec hL.pos h).2.2.2.1 (by simp [safeBits])
  refine Snd.bind (rangeCheck_val a (safeBits L b) hL hf s) fun _ s1 _ => ?_
  refine Snd.rd (bigToFe_rd b) fun bf hbf => ?_
  obtain ⟨-, rfl⟩ := hbf
  refine (isLessThan_sound _ _ (safeBits L b) hL (by rw [hcd]; exact hn) s1).weaken ?_
  rintro w r _ ⟨x, y, hx, hy, h⟩ hr
  have hr : (at' w a).val < 2 ^ safeBits L b := hr
  rw [hcd, show x = at' w a from hx, show y = (b : ZMod p) from hy, ZMod.val_natCast_of_lt (by omega)] at h
  exact ⟨hr, h hr (by omega)⟩

/-- Conditions under which `div_mod` by `b` of an `n`-bit number cannot wrap. -/
structure DivModOk (p L b n : ℕ) : Prop where
  div : LtSafeOk p L (2 ^ n / b + 1)
  rem : LtSafeOk p L b
  sum : 2 ^ n + b ≤ p

theorem region4_get_snd {tbl : ZMod p → Prop} {s : Ctx p} (q0 q1 q2 q3 : QCell p) :
    Snd tbl s (do
        assignRegion [q0, q1, q2, q3] [0]
        let c0 ← getM (-4)
        let c2 ← getM (-2)
        pure (c0, c2)) (fun w r _ => ∃ x1 x3, QOk w q0 (at' w r.1) ∧ QOk w q1 x1 ∧ QOk w q2 (at' w r.2) ∧
          QOk w q3 x3 ∧ at' w r.1 + x1 * at' w r.2 = x3) := by
  refine Snd.bind (assignRegion_snd _ _) fun _ s1 e1 => ?_
  refine Snd.rd (getM_rd _) fun c0 h0 => Snd.rd (getM_rd _) fun c2 h2 => Snd.pure ?_
  rintro w - ⟨hl, hq, hg⟩
  simp only [QsOk, and_true] at hq
  have g0 := hg 0 (by simp)
  simp only [gateV] at g0
  norm_num at hq g0
  simp only [List.length_cons, List.length_nil] at hl
  obtain ⟨i, hi, _, hc, _⟩ := h0
  obtain ⟨j, hj, _, hc', _⟩ := h2
  rw [getRow, if_pos (by omega)] at hi hj
  have e0 : at' w c0 = rowV w s s.advice.length 0 := by
    rw [← e1.rowV]; exact rowV_of_cell hc (by omega)
  have e2 : at' w c2 = rowV w s s.advice.length 2 := by
    rw [← e1.rowV]; exact rowV_of_cell hc' (by omega)
  refine ⟨_, _, ?_, hq.2.1, ?_, hq.2.2.2, ?_⟩
  · rw [e0]; exact hq.1
  · rw [e2]; exact hq.2.2.1
  · rw [e0, e2]; exact g0

theorem divMod_sound (a : QCell p) (b n : ℕ) (hL : RangeOk p L) (hok : DivModOk p L b n) :
    Sound (RangeTable p L) (divMod L a b n) (fun w r => ∃ x, QOk w a x ∧
      (at' w r.1).val = x.val / b ∧ (at' w r.2).val = x.val % b ∧ (at' w r.1).val ≤ 2 ^ n / b) := by
  intro s
  refine Snd.unwrap fun x _ => Snd.assert fun hb0 => ?_
  simp only [ne_eq, decide_eq_true_eq] at hb0
  refine Snd.rd (bigToFe_rd _) fun dv hdv => Snd.rd (bigToFe_rd _) fun rv hrv =>
    Snd.rd (bigToFe_rd _) fun bf hbf => ?_
  obtain ⟨hbp, rfl⟩ := hbf
  have hsplit : (do
      assignRegion [.witness rv, .constant (b : ZMod p), .witness dv, a] [0]
      let rem ← getM (-4)
      let div ← getM (-2)
      checkBigLessThanSafe L div (2 ^ n / b + 1)
      checkBigLessThanSafe L rem b
      pure (div, rem) : M p (AV p × AV p)) = (do
      let c ← (do
        assignRegion [.witness rv, .constant (b : ZMod p), .witness dv, a] [0]
        let c0 ← getM (-4)
        let c2 ← getM (-2)
        pure (c0, c2))
      checkBigLessThanSafe L c.2 (2 ^ n / b + 1)
      checkBigLessThanSafe L c.1 b
      pure (c.2, c.1)) := by simp only [bind_assoc, pure_bind]
  rw [hsplit]
  refine Snd.bind (region4_get_snd _ _ _ _) fun c s1 _ => ?_
  refine Snd.bind (checkBigLessThanSafe_sound c.2 _ hL hok.div s1) fun _ s2 _ => ?_
  refine Snd.bind (checkBigLessThanSafe_sound c.1 b hL hok.rem s2) fun _ s3 _ => Snd.pure ?_
  rintro w - hrem hdiv ⟨x1, x3, -, h1, -, h3, hg⟩
  refine ⟨x3, h3, ?_⟩
  have hrem : (at' w c.1).val < b := hrem
  have hdiv : (at' w c.2).val < 2 ^ n / b + 1 := hdiv
  have hx1 : x1 = (b : ZMod p) := h1
  have hle : b * (at' w c.2).val ≤ 2 ^ n := by
    calc b * (at' w c.2).val ≤ b * (2 ^ n / b) := Nat.mul_le_mul_left _ (by omega)
      _ ≤ 2 ^ n := Nat.mul_div_le _ _
  have hs := hok.sum
  have hv : x3.val = (at' w c.1).val + b * (at' w c.2).val := by
    refine cast_val_eq ?_ (by omega)
    push_cast
    rw [ZMod.natCast_zmod_val, ZMod.natCast_zmod_val, ← hx1, hg]
  refine ⟨?_, ?_, Nat.lt_succ_iff.1 hdiv⟩
  · rw [hv, Nat.add_mul_div_left _ _ (by omega), Nat.div_eq_of_lt hrem, zero_add]
  · rw [hv, Nat.add_mul_mod_self_left, Nat.mod_eq_of_lt hrem]

/-- A quantum cell whose value is determined by the circuit (not a fresh witness). -/
def QCell.Bound : QCell p → Prop
  | .existing _ => True
  | .constant _ => True
  | _ => False

omit [Fact p.Prime] in
theorem QOk.unique {w : Cell → ZMod p} {q : QCell p} (hq : q.Bound) {x y : ZMod p} (hx : QOk w q x)
    (hy : QOk w q y) : x = y := by
  cases q <;> simp [QCell.Bound] at hq
  · exact (show x = _ from hx).trans (show y = _ from hy).symm
  · exact (show x = _ from hx).trans (show y = _ from hy).symm

/-- Conditions under which `div_mod_var` cannot wrap. -/
structure DivModVarOk (p L an bn : ℕ) : Prop where
  dm : DivModOk p L (2 ^ bn) an
  prod : 2 ^ (2 * bn) ≤ p

theorem divModVarHi_sound (a : AV p) (an bn : ℕ) (hL : RangeOk p L) (hp : 2 ^ an ≤ p) :
    Sound (RangeTable p L) (divModVarHi L a an bn) (fun w _ => (at' w a).val < 2 ^ (an - bn)) := by
  intro s
  unfold divModVarHi
  refine Snd.ite (fun h => ?_) fun h => ?_
  · refine (assertIsConst_sound a 0 s).weaken ?_
    intro w _ _ h0
    have h0 : at' w a = 0 := h0
    show (at' w a).val < _
    rw [h0, ZMod.val_zero]; positivity
  · exact rangeCheck_val a _ hL (le_trans (Nat.pow_le_pow_right (by norm_num) (by omega)) hp) s

theorem divModVar_sound (a b : QCell p) (an bn : ℕ) (hL : RangeOk p L) (hok : DivModVarOk p L an bn)
    (hb : b.Bound) :
    Sound (RangeTable p L) (divModVar L a b an bn) (fun w r => ∃ x y, QOk w a x ∧ QOk w b y ∧
      (y.val < 2 ^ bn →
        y.val ≠ 0 ∧ (at' w r.1).val = x.val / y.val ∧ (at' w r.2).val = x.val % y.val)) := by
  intro s
  have hsum := hok.dm.sum
  have hprod := hok.prod
  have hrb := hok.dm.rem.nowrap
  have hsb := size_le_safeBits hL.pos (2 ^ bn)
  rw [Nat.size_pow] at hsb
  have hp1 : 2 ^ (bn + 1) ≤ p := by
    have h1 : 2 ^ (bn + 1) * 2 ≤ 2 ^ (safeBits L (2 ^ bn) + 1) := by
      rw [← pow_succ]; exact Nat.pow_le_pow_right (by norm_num) (by omega)
    rw [pow_succ] at h1 ⊢
    omega
  rw [pow_succ] at hp1
  refine Snd.unwrap fun x0 _ => Snd.unwrap fun y0 _ => Snd.assert fun _ => ?_
  refine Snd.rd (pow2At_rd _) fun xfe hx => ?_
  obtain ⟨-, rfl⟩ := hx
  refine Snd.rd (bigToFe_rd _) fun v1 _ => Snd.rd (bigToFe_rd _) fun v2 _ =>
    Snd.rd (bigToFe_rd _) fun v3 _ => Snd.rd (bigToFe_rd _) fun v4 _ => ?_
  refine Snd.bind (assignRegion_snd _ _) fun _ s1 e1 => ?_
  refine Snd.rd (getM_rd _) fun dlo hdlo => Snd.rd (getM_rd _) fun dhi hdhi =>
    Snd.rd (getM_rd _) fun div hdiv => Snd.rd (getM_rd _) fun rem hrem => ?_
  refine Snd.bind (rangeCheck_val dlo bn hL (by omega) s1) fun _ s2 _ => ?_
  refine Snd.bind (divModVarHi_sound dhi an bn hL (by omega) s2) fun _ s3 _ => ?_
  refine Snd.bind (mulAdd_sound b _ _ s3) fun bcr0 s4 _ => ?_
  refine Snd.bind (divMod_sound (.existing bcr0) (2 ^ bn) an hL hok.dm s4) fun d1 s5 _ => ?_
  refine Snd.bind (mulAdd_sound b _ _ s5) fun bcrHi s6 _ => ?_
  refine Snd.bind (divMod_sound a (2 ^ bn) an hL hok.dm s6) fun d2 s7 _ => ?_
  refine Snd.bind (constrainEqual_sound _ _ s7) fun _ s8 _ => ?_
  refine Snd.bind (constrainEqual_sound _ _ s8) fun _ s9 _ => ?_
  refine Snd.bind (rangeCheck_val rem bn hL (by omega) s9) fun _ s10 _ => ?_
  refine Snd.bind (checkLessThan_lt (.existing rem) b bn hL s10) fun _ s11 _ => Snd.pure ?_
  rintro w - ⟨rx, y, hrx, hy, hlt⟩ hremv heqlo heqhi ⟨x, hx, ha1, ha2, ha3⟩ ⟨y2, u2, v2, hy2, hu2, hv2, hhi⟩
    ⟨b0, hb0, hb1, hb2, hb3⟩ ⟨y3, u3, v3, hy3, hu3, hv3, hbcr⟩ hdhiv hdlov ⟨hl, hq, hg⟩
  -- name the cell values
  have hremv : (at' w rem).val < 2 ^ bn := hremv
  have heqlo : at' w d1.2 = at' w d2.2 := heqlo
  have heqhi : at' w bcrHi = at' w d2.1 := heqhi
  have hdhiv : (at' w dhi).val < 2 ^ (an - bn) := hdhiv
  have hdlov : (at' w dlo).val < 2 ^ bn := hdlov
  rw [show rx = at' w rem from hrx] at hlt
  have e2 : y2 = y := QOk.unique hb hy2 hy
  have e3 : y3 = y := QOk.unique hb hy3 hy
  rw [e2] at hhi
  rw [e3] at hbcr
  rw [show u2 = at' w dhi from hu2, show v2 = at' w d1.1 from hv2] at hhi
  rw [show u3 = at' w dlo from hu3, show v3 = at' w rem from hv3] at hbcr
  rw [show b0 = at' w bcr0 from hb0] at hb1 hb2
  simp only [QsOk, QOk, and_true, true_and] at hq
  have g0 := hg 0 (by simp)
  simp only [gateV] at g0
  norm_num at hq g0
  simp only [List.length_cons, List.length_nil] at hl
  have cell : ∀ (c : AV p) (o : ℤ) (k : ℤ), (∃ i : ℕ, (i : ℤ) = getRow s1.advice.length o ∧
      i < s1.advice.length ∧ c.cell = some (s1.cellAt i) ∧ s1.advice[i]? = some c.value) → o < 0 → k = 5 + o →
      at' w c = rowV w s s.advice.length k := by
    rintro c o k ⟨i, hi, _, hc, _⟩ ho rfl
    rw [getRow, if_pos ho] at hi
    rw [← e1.rowV]; exact rowV_of_cell hc (by omega)
  have c0 := cell dlo _ 0 hdlo (by omega) (by omega)
  have c1 := cell dhi _ 1 hdhi (by omega) (by omega)
  have c3 := cell div _ 3 hdiv (by omega) (by omega)
  rw [← c0, ← c1, ← c3, hq] at g0
  refine ⟨x, y, hx, hy, fun hyb => ?_⟩
  have hremlt : (at' w rem).val < y.val := hlt (by omega)
  -- integer identities
  set X := 2 ^ bn with hX
  have hXpos : 0 < X := by positivity
  have hpr : 2 ^ (2 * bn) = X * X := by rw [hX, ← pow_add]; congr 1; omega
  have hyl : y.val * (at' w dlo).val + (at' w rem).val < X * X := by
    calc y.val * (at' w dlo).val + (at' w rem).val < y.val * (at' w dlo).val + y.val := by omega
      _ = y.val * ((at' w dlo).val + 1) := by ring
      _ ≤ X * X := Nat.mul_le_mul (by omega) (by omega)
  have hbcr0 : (at' w bcr0).val = y.val * (at' w dlo).val + (at' w rem).val := by
    refine cast_val_eq ?_ (by omega)
    push_cast
    simp only [ZMod.natCast_zmod_val]
    exact hbcr
  have hh1 : (at' w d1.1).val < X := by
    rw [hb1, Nat.div_lt_iff_lt_mul hXpos, hbcr0]; exact hyl
  have hyh : y.val * (at' w dhi).val ≤ 2 ^ an := by
    rcases Nat.lt_or_ge bn an with h | h
    · calc y.val * (at' w dhi).val ≤ X * 2 ^ (an - bn) := Nat.mul_le_mul (by omega) (by omega)
        _ = 2 ^ an := by rw [hX, ← pow_add]; congr 1; omega
    · have : (at' w dhi).val = 0 := by
        rw [show an - bn = 0 by omega] at hdhiv; omega
      rw [this]; simp
  have hhiv : (at' w d2.1).val = y.val * (at' w dhi).val + (at' w d1.1).val := by
    refine cast_val_eq ?_ (by omega)
    push_cast
    simp only [ZMod.natCast_zmod_val]
    rw [← heqhi]; exact hhi
  have hlov : (at' w d2.2).val = (at' w bcr0).val % X := by rw [← heqlo, hb2]
  have hxv : x.val = y.val * ((at' w dhi).val * X + (at' w dlo).val) + (at' w rem).val := by
    have h1 := Nat.div_add_mod x.val X
    have h2 := Nat.div_add_mod (at' w bcr0).val X
    rw [← ha1, ← ha2, hhiv, hlov] at h1
    rw [← hb1, hbcr0] at h2
    rw [hbcr0] at h1
    rw [← h1]
    have : X * (y.val * (at' w dhi).val + (at' w d1.1).val)
      = y.val * (at' w dhi).val * X + X * (at' w d1.1).val := by ring
    rw [this, add_assoc, h2]; ring
  have hy0 : y.val ≠ 0 := by omega
  have hDle : (at' w dhi).val * X + (at' w dlo).val ≤ x.val := by
    rw [hxv]
    calc (at' w dhi).val * X + (at' w dlo).val ≤ y.val * ((at' w dhi).val * X + (at' w dlo).val) :=
          Nat.le_mul_of_pos_left _ (by omega)
      _ ≤ _ := by omega
  have hxp := ZMod.val_lt x
  have hdv : (at' w div).val = (at' w dhi).val * X + (at' w dlo).val := by
    refine cast_val_eq ?_ (by omega)
    push_cast
    simp only [ZMod.natCast_zmod_val]
    rw [← g0, hX]; push_cast; ring
  refine ⟨hy0, ?_, ?_⟩
  · rw [hdv, hxv, Nat.add_comm _ (at' w rem).val, Nat.add_mul_div_left _ _ (by omega), Nat.div_eq_of_lt hremlt, zero_add]
  · rw [hxv, Nat.add_comm, Nat.add_mul_mod_self_left, Nat.mod_eq_of_lt hremlt]

theorem getLastBit_sound (a : AV p) (n : ℕ) (hL : RangeOk p L) (hn : 2 ^ n ≤ p) :
    Sound (RangeTable p L) (getLastBit L a n) (fun w r =>
      (at' w a).val < 2 ^ n ∧ at' w r = (((at' w a).val % 2 : ℕ) : ZMod p)) := by
  intro s
  refine Snd.unwrap fun x _ => ?_
  refine Snd.bind (assignRegion_snd _ _) fun _ s1 e1 => ?_
  refine Snd.rd (getM_rd _) fun half hhalf => Snd.rd (getM_rd _) fun bit hbit => ?_
  refine Snd.assert fun hn0 => ?_
  simp only [ne_eq, decide_eq_true_eq] at hn0
  have hnn : 2 ^ n = 2 * 2 ^ (n - 1) := by rw [← pow_succ']; congr 1; omega
  refine Snd.bind (rangeCheck_val half (n - 1) hL (by omega) s1) fun _ s2 _ => ?_
  refine Snd.bind (assertBit_sound bit s2) fun _ s3 _ => Snd.pure ?_
  rintro w - hb hr ⟨hl, hq, hg⟩
  have hr : (at' w half).val < 2 ^ (n - 1) := hr
  have hb : at' w bit = 0 ∨ at' w bit = 1 := hb
  simp only [QsOk, QOk, and_true, true_and] at hq
  have g0 := hg 0 (by simp)
  simp only [gateV] at g0
  norm_num at hq g0
  simp only [List.length_cons, List.length_nil] at hl
  have e0 : at' w bit = rowV w s s.advice.length 0 := by
    obtain ⟨i, hi, _, hc, _⟩ := hbit
    rw [getRow, if_pos (by omega)] at hi
    rw [← e1.rowV]; exact rowV_of_cell hc (by omega)
  have e1' : at' w half = rowV w s s.advice.length 1 := by
    obtain ⟨i, hi, _, hc, _⟩ := hhalf
    rw [getRow, if_pos (by omega)] at hi
    rw [← e1.rowV]; exact rowV_of_cell hc (by omega)
  rw [← e0, ← e1', hq.1, hq.2] at g0
  obtain ⟨v, hv, hbv⟩ : ∃ v : ℕ, v < 2 ∧ at' w bit = (v : ZMod p) := by
    rcases hb with h | h
    · exact ⟨0, by omega, by simp [h]⟩
    · exact ⟨1, by omega, by simp [h]⟩
  have hav : (at' w a).val = v + 2 * (at' w half).val := by
    refine cast_val_eq ?_ (by omega)
    push_cast
    rw [ZMod.natCast_zmod_val, ← g0, hbv]; ring
  refine ⟨by omega, ?_⟩
  rw [hbv]; congr 1; omega

theorem powStep_rd {s : Ctx p} (b n : ℕ) (hn : n ≤ ceilDiv (numBits p) b) :
    Rd s (powStep b n : M p (List (ZMod p))) (fun r => 1 ≤ b ∧
      r = (List.range n).map (fun i : ℕ => ((2 ^ b : ℕ) : ZMod p) ^ i)) := by
  unfold powStep
  refine Rd.ite (fun _ => Rd.panic) fun h => Rd.pure ⟨by omega, ?_⟩
  rw [← List.map_take, List.take_range, Nat.min_eq_left hn]
  apply List.map_congr_left
  intro i _
  push_cast
  rw [pow_mul]

theorem rangeChecks_sound (as : List (AV p)) (n : ℕ) (hL : RangeOk p L) :
    Sound (RangeTable p L) (rangeChecks L as n) (fun w _ => ∃ ds : List ℕ, (∀ d ∈ ds, d < 2 ^ n) ∧
      as.map (at' w) = ds.map (fun d : ℕ => (d : ZMod p))) := by
  induction as with
  | nil => exact fun s => Snd.pure fun w _ => ⟨[], by simp, rfl⟩
  | cons a as ih =>
    intro s
    refine Snd.bind (rangeCheck_sound a n hL s) fun _ s1 _ => ?_
    refine (ih s1).weaken ?_
    rintro w _ _ ⟨ds, h1, h2⟩ ⟨m, h3, h4⟩
    exact ⟨m :: ds, by simpa using ⟨h3, h1⟩, by simp [h2, h4]⟩

theorem decomposeLe_sound (num : AV p) (b n : ℕ) (hL : RangeOk p L) (hn : n ≤ ceilDiv (numBits p) b) :
    Sound (RangeTable p L) (decomposeLe L num b n) (fun w rs => ∃ ds : List ℕ, ds.length = n ∧
      (∀ d ∈ ds, d < 2 ^ b) ∧ rs.map (at' w) = ds.map (fun d : ℕ => (d : ZMod p)) ∧
      at' w num = ((Nat.ofDigits (2 ^ b) ds : ℕ) : ZMod p)) := by
  intro s
  refine Snd.rd (powStep_rd b n hn) fun pows hp => ?_
  obtain ⟨-, rfl⟩ := hp
  refine Snd.unwrap fun x _ => ?_
  refine Snd.bind (innerProductLeft_sound _ _ (by simp [limbsOf]) s) fun r s1 _ => ?_
  refine Snd.bind (constrainEqual_sound _ _ s1) fun _ s2 _ => ?_
  refine Snd.bind (rangeChecks_sound r.2 b hL s2) fun _ s3 _ => Snd.pure ?_
  rintro w - ⟨ds, h1, h2⟩ heq ⟨xs, ys, hx, hy, hr, hrs⟩
  have heq : at' w r.1 = at' w num := heq
  have hxl := hx.length
  have hl : ds.length = n := by
    have := congrArg List.length h2
    simp only [List.length_map] at this
    have h3 := congrArg List.length hrs
    simp only [List.length_map] at h3
    simp [limbsOf] at hxl
    omega
  refine ⟨ds, hl, h1, h2, ?_⟩
  rw [← heq, hr, ← hrs, h2, QOks.constants hy, ← hl, dot_powB]

theorem limbsToNum_sound (limbs : List (AV p)) (b : ℕ) (hn : limbs.length ≤ ceilDiv (numBits p) b)
    {tbl : ZMod p → Prop} :
    Sound tbl (limbsToNum limbs b) (fun w r => ∀ ds : List ℕ,
      limbs.map (at' w) = ds.map (fun d : ℕ => (d : ZMod p)) →
      at' w r = ((Nat.ofDigits (2 ^ b) ds : ℕ) : ZMod p)) := by
  intro s
  refine Snd.rd (powStep_rd b _ hn) fun pows hp => ?_
  obtain ⟨-, rfl⟩ := hp
  refine (innerProduct_sound _ _ (by simp) s).weaken ?_
  rintro w r _ ⟨xs, ys, hx, hy, hr⟩ ds hds
  have hl : limbs.length = ds.length := by simpa using congrArg List.length hds
  rw [hr, QOks.existing hx, hds, QOks.constants hy, hl, dot_powB]

/-- What the rotation gadget proves: `a = l 2^bit + r`, result `r 2^(n-bit) + l`. -/
theorem rotRightInternal_sound (a : AV p) (bit n : ℕ) (hL : RangeOk p L) (hb : bit ≤ n) :
    Sound (RangeTable p L) (rotRightInternal L a bit n) (fun w r => (at' w a).val < 2 ^ n ∧
      (at' w r).val = (at' w a).val % 2 ^ bit * 2 ^ (n - bit) + (at' w a).val / 2 ^ bit) := by
  intro s
  refine Snd.assert fun hn => ?_
  simp only [decide_eq_true_eq] at hn
  have hp := pow_capacity_le hn.2
  refine Snd.unwrap fun x _ => Snd.assert fun _ => ?_
  refine Snd.rd (bigToFe_rd _) fun lf _ => ?_
  refine Snd.bind (loadWitness_sound lf s) fun l s1 _ => ?_
  refine Snd.rd (bigToFe_rd _) fun rf _ => ?_
  refine Snd.bind (loadWitness_sound rf s1) fun r s2 _ => ?_
  refine Snd.rd (pow2At_rd _) fun pb hpb => ?_
  obtain ⟨-, rfl⟩ := hpb
  have hnb : 2 ^ (n - bit) ≤ 2 ^ n := Nat.pow_le_pow_right (by norm_num) (by omega)
  have hbb : 2 ^ bit ≤ 2 ^ n := Nat.pow_le_pow_right (by norm_num) (by omega)
  have hmul : 2 ^ bit * 2 ^ (n - bit) = 2 ^ n := by rw [← pow_add]; congr 1; omega
  refine Snd.bind (mulAdd_sound _ _ _ s2) fun v s3 _ => ?_
  refine Snd.bind (rangeCheck_val l (n - bit) hL (by omega) s3) fun _ s4 _ => ?_
  refine Snd.bind (rangeCheck_val r bit hL (by omega) s4) fun _ s5 _ => ?_
  refine Snd.bind (constrainEqual_sound _ _ s5) fun _ s6 _ => ?_
  refine Snd.rd (pow2At_rd _) fun pnb hpnb => ?_
  obtain ⟨-, rfl⟩ := hpnb
  refine (mulAdd_sound _ _ _ s6).weaken ?_
  rintro w out _ ⟨x1, y1, z1, hx1, hy1, hz1, ho⟩ heq hr hl ⟨x2, y2, z2, hx2, hy2, hz2, hv⟩ _ _
  have hr : (at' w r).val < 2 ^ bit := hr
  have hl : (at' w l).val < 2 ^ (n - bit) := hl
  have heq : at' w a = at' w v := heq
  rw [show x1 = at' w r from hx1, show y1 = 2 ^ (n - bit) from hy1, show z1 = at' w l from hz1] at ho
  rw [show x2 = at' w l from hx2, show y2 = 2 ^ bit from hy2, show z2 = at' w r from hz2] at hv
  have hbl : (at' w l).val * 2 ^ bit + (at' w r).val < 2 ^ n := by
    calc (at' w l).val * 2 ^ bit + (at' w r).val < ((at' w l).val + 1) * 2 ^ bit := by
          rw [Nat.add_mul, one_mul]; omega
      _ ≤ 2 ^ (n - bit) * 2 ^ bit := Nat.mul_le_mul_right _ (by omega)
      _ = 2 ^ n := by rw [Nat.mul_comm, hmul]
  have hbr : (at' w r).val * 2 ^ (n - bit) + (at' w l).val < 2 ^ n := by
    calc (at' w r).val * 2 ^ (n - bit) + (at' w l).val < ((at' w r).val + 1) * 2 ^ (n - bit) := by
          rw [Nat.add_mul, one_mul]; omega
      _ ≤ 2 ^ bit * 2 ^ (n - bit) := Nat.mul_le_mul_right _ (by omega)
      _ = 2 ^ n := hmul
  have hav : (at' w a).val = (at' w l).val * 2 ^ bit + (at' w r).val := by
    refine cast_val_eq ?_ (by omega)
    push_cast
    simp only [ZMod.natCast_zmod_val]
    rw [heq, hv]
  have hov : (at' w out).val = (at' w r).val * 2 ^ (n - bit) + (at' w l).val := by
    refine cast_val_eq ?_ (by omega)
    push_cast
    simp only [ZMod.natCast_zmod_val]
    exact ho
  refine ⟨by omega, ?_⟩
  rw [hov, hav]
  have e1 : ((at' w l).val * 2 ^ bit + (at' w r).val) % 2 ^ bit = (at' w r).val := by
    rw [Nat.add_comm, Nat.add_mul_mod_self_right, Nat.mod_eq_of_lt hr]
  have e2 : ((at' w l).val * 2 ^ bit + (at' w r).val) / 2 ^ bit = (at' w l).val := by
    rw [Nat.add_comm, Nat.add_mul_div_right _ _ (by positivity), Nat.div_eq_of_lt hr, zero_add]
  rw [e1, e2]

/-- The arithmetic form of a rotation is `BitVec.rotateRight`. -/
theorem rotateRight_toNat {n x bit : ℕ} (hx : x < 2 ^ n) (hb : bit < n) :
    ((BitVec.ofNat n x).rotateRight bit).toNat = x % 2 ^ bit * 2 ^ (n - bit) + x / 2 ^ bit := by
  rw [BitVec.toNat_rotateRight, Nat.mod_eq_of_lt hb, BitVec.toNat_ofNat, Nat.mod_eq_of_lt hx,
    Nat.shiftRight_eq_div_pow, Nat.shiftLeft_eq]
  have hmul : 2 ^ bit * 2 ^ (n - bit) = 2 ^ n := by rw [← pow_add]; congr 1; omega
  have h1 : x * 2 ^ (n - bit) % 2 ^ n = x % 2 ^ bit * 2 ^ (n - bit) := by
    rw [← hmul, Nat.mul_mod_mul_right]
  have h2 : x / 2 ^ bit < 2 ^ (n - bit) := by
    rw [Nat.div_lt_iff_lt_mul (by positivity), Nat.mul_comm, hmul]; exact hx
  rw [h1, Nat.or_comm, Nat.mul_comm, ← Nat.two_pow_add_eq_or_of_lt h2]

theorem constRightRotate_sound (a : AV p) (bit n : ℕ) (hL : RangeOk p L) :
    Sound (RangeTable p L) (constRightRotate L a bit n) (fun w r =>
      bit % n ≠ 0 → (at' w a).val < 2 ^ n ∧
        (at' w r).val = ((BitVec.ofNat n (at' w a).val).rotateRight bit).toNat) := by
  intro s
  unfold constRightRotate
  refine Snd.ite (fun _ => Snd.panic) fun hn => Snd.ite (fun h => Snd.pure fun _ _ h' => absurd h h') fun h => ?_
  have hlt := Nat.mod_lt bit (Nat.pos_of_ne_zero hn)
  refine (rotRightInternal_sound a _ n hL (by omega) s).weaken ?_
  rintro w r _ ⟨h1, h2⟩ _
  refine ⟨h1, ?_⟩
  rw [h2, ← rotateRight_toNat h1 hlt, BitVec.toNat_rotateRight, BitVec.toNat_rotateRight, Nat.mod_mod]

theorem constLeftRotate_sound (a : AV p) (bit n : ℕ) (hL : RangeOk p L) :
    Sound (RangeTable p L) (constLeftRotate L a bit n) (fun w r =>
      bit % n ≠ 0 → (at' w a).val < 2 ^ n ∧
        (at' w r).val = ((BitVec.ofNat n (at' w a).val).rotateLeft bit).toNat) := by
  intro s
  unfold constLeftRotate
  refine Snd.ite (fun _ => Snd.panic) fun hn => Snd.ite (fun h => Snd.pure fun _ _ h' => absurd h h') fun h => ?_
  have hlt := Nat.mod_lt bit (Nat.pos_of_ne_zero hn)
  refine (rotRightInternal_sound a _ n hL (by omega) s).weaken ?_
  rintro w r _ ⟨h1, h2⟩ _
  refine ⟨h1, ?_⟩
  rw [h2, ← rotateRight_toNat h1 (by omega), BitVec.toNat_rotateRight, BitVec.toNat_rotateLeft,
    Nat.mod_eq_of_lt (show n - bit % n < n by omega), Nat.or_comm]
  congr 3
  omega

end H2
