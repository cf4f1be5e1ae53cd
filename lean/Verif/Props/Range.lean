import Verif.Core.Run
import Verif.Core.Primes
import Verif.Range.Complete
import Verif.Props.Gate

/-!
# Properties C16 - C25 (range chip)

Reading guide: see `Verif/Props/Gate.lean`.  `RangeTable p L` is the lookup table `{0, .., 2^L - 1}`;
`RangeOk p L` says `1 ≤ L < 64` and `2 L ≤ CAPACITY` (true for BN254 and every `L ≤ 63`, `rangeOk_bn254`).
`(x : ZMod p).val` is the canonical integer of `x`.
-/

set_option autoImplicit false
namespace H2
variable {p : ℕ} [Fact p.Prime] {ext : Cell → ZMod p} {s s' : Ctx p} {w : Cell → ZMod p} {L : ℕ}

theorem size_bn254R : Nat.size bn254R = 254 :=
  le_antisymm (Nat.size_le.2 (by norm_num [bn254R])) (Nat.lt_size.2 (by norm_num [bn254R]))

theorem capacity_bn254R : capacity bn254R = 253 := by rw [capacity, numBits, size_bn254R]

theorem rangeOk_bn254 {L : ℕ} (h1 : 1 ≤ L) (h2 : L < 64) : RangeOk bn254R L :=
  ⟨h1, h2, by rw [capacity_bn254R]; omega⟩

theorem capacity101 : capacity 101 = 6 := by rw [capacity, numBits, size101]

theorem rangeOk101 : RangeOk 101 2 := ⟨by norm_num, by norm_num, by rw [capacity101]; norm_num⟩

/-! ## C16 -/

/-- C16, soundness: whenever the constraints hold, `a < 2^range_bits`. -/
theorem C16_range_check {a : AV p} {n : ℕ} {u : Unit} (hi : Inv s) (hL : RangeOk p L)
    (hn : n ≤ capacity p) (hrun : rangeCheck L a n s = some (u, s'))
    (hw : Sat (RangeTable p L) s' w) : (at' w a).val < 2 ^ n :=
  (rangeCheck_val a n hL (pow_capacity_le hn)).run hi hrun hw

/-- C16, completeness. -/
theorem C16_range_check_complete {a : AV p} {x : ZMod p} {n : ℕ} (hg : Good (RangeTable p L) ext s)
    (hL : RangeOk p L) (ha : Con ext s a x) (hn : ceilDiv n L * L ≤ capacity p) (hx : x.val < 2 ^ n) :
    Completes (RangeTable p L) ext s (rangeCheck L a n) (fun _ _ => True) :=
  (rangeCheck_cmp hL ha (ceilDiv_le_of_mul_le hL.pos hn) hx).run hg

/-- C16: `range_check` accepts the value `x` iff `x < 2^range_bits`: some run extended by some assignment
keeping the value of `a` satisfies all constraints exactly when `x` is in range. -/
theorem C16_range_check_exact {a : AV p} {x : ZMod p} {n : ℕ} (hg : Good (RangeTable p L) ext s)
    (hL : RangeOk p L) (ha : Con ext s a x) (hn : ceilDiv n L * L ≤ capacity p) :
    (∃ s' w, rangeCheck L a n s = some ((), s') ∧ Sat (RangeTable p L) s' w ∧ at' w a = x) ↔
      x.val < 2 ^ n := by
  have hn' : n ≤ capacity p := by
    rcases Nat.eq_zero_or_pos n with h | h
    · omega
    · exact le_trans (ceilDiv_spec hL.pos h).2.1 hn
  constructor
  · rintro ⟨s', w, h1, h2, rfl⟩
    exact C16_range_check hg.inv hL hn' h1 h2
  · intro hx
    obtain ⟨u, s', h1, _, h3, h4, _⟩ := C16_range_check_complete hg hL ha hn hx
    exact ⟨s', hw ext s', h1, h3, (ha.mono h4).at⟩

example : Completes (RangeTable 101 2) (fun _ => 0) ctx0
    (do let a ← loadWitness 29; rangeCheck 2 a 5) (fun _ _ => True) :=
  (Cmp.bind (loadWitness_cmp 29) fun _ _ _ h => rangeCheck_cmp rangeOk101 h
    (by rw [capacity101]; decide) (by decide)).run good0

/-! ## C17 -/

/-- C17, soundness. -/
theorem C17_check_less_than {a b : QCell p} {n : ℕ} {u : Unit} (hi : Inv s) (hL : RangeOk p L)
    (hn : 2 ^ (n + 1) ≤ p) (hrun : checkLessThan L a b n s = some (u, s'))
    (hw : Sat (RangeTable p L) s' w) :
    ∃ x y, QOk w a x ∧ QOk w b y ∧ (x.val < 2 ^ n → x.val < y.val) := by
  obtain ⟨x, y, h1, h2, h3⟩ := (checkLessThan_lt a b n hL).run hi hrun hw
  refine ⟨x, y, h1, h2, fun hx => h3 ?_⟩
  rw [pow_succ] at hn
  omega

theorem C17_check_less_than_complete {a b : QCell p} {x y : ZMod p} {n : ℕ}
    (hg : Good (RangeTable p L) ext s) (hL : RangeOk p L) (ha : QCon ext s a x) (hb : QCon ext s b y)
    (hn : n ≤ capacity p) (hn' : ceilDiv n L * L ≤ capacity p) (hy : y.val ≤ 2 ^ n) (hxy : x.val < y.val) :
    Completes (RangeTable p L) ext s (checkLessThan L a b n) (fun _ _ => True) :=
  (checkLessThan_cmp hL ha hb (lt_numBits_of_le_capacity hn) (ceilDiv_le_of_mul_le hL.pos hn')
    (shift_val_lt hxy (by omega) (pow_capacity_le hn))).run hg

example : Completes (RangeTable 101 2) (fun _ => 0) ctx0
    (checkLessThan 2 (.witness 13) (.constant 14) 4) (fun _ _ => True) :=
  C17_check_less_than_complete (x := 13) (y := 14) good0 rangeOk101 rfl rfl (by rw [capacity101]; decide)
    (by rw [capacity101]; decide) (by decide) (by decide)

/-! ## C18 -/

/-- A simple sufficient condition for `LtSafeOk`: one spare bit. -/
theorem ltSafeOk_of_le {b : ℕ} (h : safeBits L b + 1 ≤ capacity p) : LtSafeOk p L b :=
  ⟨pow_capacity_le (by omega), le_trans (pow_capacity_le h) (by omega)⟩

/-- C18, soundness, `b : u64`; `LtSafeOk p L b` is `2^rb ≤ p` and `2^(rb+1) ≤ p + b` where
`rb = ceil(bitlen b / L) L`.  The second condition cannot be dropped: `C18_unsound_when_tight`. -/
theorem C18_check_less_than_safe {a : AV p} {b : ℕ} {u : Unit} (hi : Inv s) (hL : RangeOk p L)
    (hb : LtSafeOk p L b) (hrun : checkLessThanSafe L a b s = some (u, s'))
    (hw : Sat (RangeTable p L) s' w) : (at' w a).val < b :=
  (checkLessThanSafe_sound a b hL hb).run hi hrun hw

theorem C18_check_big_less_than_safe {a : AV p} {b : ℕ} {u : Unit} (hi : Inv s) (hL : RangeOk p L)
    (hb : LtSafeOk p L b) (hrun : checkBigLessThanSafe L a b s = some (u, s'))
    (hw : Sat (RangeTable p L) s' w) : (at' w a).val < b :=
  (checkBigLessThanSafe_sound a b hL hb).run hi hrun hw

theorem C18_check_less_than_safe_complete {a : AV p} {x : ZMod p} {b : ℕ}
    (hg : Good (RangeTable p L) ext s) (hL : RangeOk p L) (ha : Con ext s a x)
    (hn : safeBits L b ≤ capacity p) (hx : x.val < b) :
    Completes (RangeTable p L) ext s (checkLessThanSafe L a b) (fun _ _ => True) :=
  (checkLessThanSafe_cmp hL ha hn hx).run hg

theorem C18_check_big_less_than_safe_complete {a : AV p} {x : ZMod p} {b : ℕ}
    (hg : Good (RangeTable p L) ext s) (hL : RangeOk p L) (ha : Con ext s a x)
    (hn : safeBits L b ≤ capacity p) (hx : x.val < b) :
    Completes (RangeTable p L) ext s (checkBigLessThanSafe L a b) (fun _ _ => True) :=
  (checkBigLessThanSafe_cmp hL ha hn hx).run hg

/-- Finding: inside the documented range (`rb ≤ CAPACITY`) but with `p + b < 2^(rb+1)`, the value
`a = p + b - 2^rb ≥ b` passes the check, with the witness the code itself computes. -/
theorem C18_unsound_when_tight {a : AV p} {x : ZMod p} {b : ℕ} (hg : Good (RangeTable p L) ext s)
    (hL : RangeOk p L) (ha : Con ext s a x) (hn : safeBits L b ≤ capacity p)
    (htight : p + b < 2 ^ (safeBits L b + 1)) (hx : x.val = p + b - 2 ^ safeBits L b) :
    b ≤ x.val ∧ Completes (RangeTable p L) ext s (checkBigLessThanSafe L a b) (fun _ _ => True) := by
  have hp := pow_capacity_le hn
  have hbl := lt_two_pow_safeBits hL.pos b
  rw [pow_succ] at htight
  refine ⟨by omega, (checkBigLessThanSafe_cmp' hL ha (by omega) hn (by omega) ?_).run hg⟩
  have : (2 ^ safeBits L b + x - (b : ZMod p)) = 0 := by
    rw [← ZMod.natCast_zmod_val x, hx, Nat.cast_sub (by omega)]
    push_cast
    rw [ZMod.natCast_self]
    ring
  rw [this, ZMod.val_zero]
  positivity

/-- The finding on the real field: BN254, `lookup_bits = 11`, bound `b = 2^242`. -/
theorem C18_unsound_bn254 (ext : Cell → ZMod bn254R) :
    ∃ x : ZMod bn254R, 2 ^ 242 ≤ x.val ∧
      Completes (RangeTable bn254R 11) ext (Ctx.new false 0 "t" 0 [] [])
        (do let a ← loadWitness x; checkBigLessThanSafe 11 a (2 ^ 242)) (fun _ _ => True) := by
  have hs : safeBits 11 (2 ^ 242) = 253 := by
    have : Nat.size (2 ^ 242) = 243 := Nat.size_pow
    rw [safeBits, this]; rfl
  have hv : ((bn254R + 2 ^ 242 - 2 ^ 253 : ℕ) : ZMod bn254R).val = bn254R + 2 ^ 242 - 2 ^ 253 :=
    ZMod.val_natCast_of_lt (by norm_num [bn254R])
  have hle : 2 ^ 242 ≤ ((bn254R + 2 ^ 242 - 2 ^ 253 : ℕ) : ZMod bn254R).val := by
    rw [hv]; norm_num [bn254R]
  refine ⟨((bn254R + 2 ^ 242 - 2 ^ 253 : ℕ) : ZMod bn254R), hle, ?_⟩
  refine Cmp.run ?_ (good_new _ _ _)
  refine Cmp.bind (loadWitness_cmp _) fun a s1 _ h => ?_
  intro hg
  obtain ⟨-, r, s2, h1, h2, _, h3, h4⟩ := C18_unsound_when_tight (b := 2 ^ 242) hg
    (rangeOk_bn254 (by norm_num) (by norm_num)) h (by rw [hs, capacity_bn254R]) (by rw [hs]; norm_num [bn254R])
    (by rw [hv, hs])
  exact ⟨r, s2, h1, h2, h3, h4⟩

example : Completes (RangeTable 101 2) (fun _ => 0) ctx0
    (do let a ← loadWitness 5; checkBigLessThanSafe 2 a 6) (fun _ _ => True) :=
  (Cmp.bind (loadWitness_cmp 5) fun _ _ _ h => checkBigLessThanSafe_cmp rangeOk101 h
    (by rw [capacity101]; decide +kernel) (by decide)).run good0

example : LtSafeOk 101 2 6 := ⟨by decide +kernel, by decide +kernel⟩

/-! ## C19 -/

/-- C19, soundness. -/
theorem C19_is_less_than {a b : QCell p} {n : ℕ} {r : AV p} (hi : Inv s) (hL : RangeOk p L)
    (hn : ceilDiv n L * L + L ≤ capacity p) (hrun : isLessThan L a b n s = some (r, s'))
    (hw : Sat (RangeTable p L) s' w) :
    ∃ x y, QOk w a x ∧ QOk w b y ∧ (x.val < 2 ^ n → y.val < 2 ^ n →
      at' w r = if x.val < y.val then 1 else 0) := by
  obtain ⟨x, y, h1, h2, h3⟩ := (isLessThan_sound a b n hL hn).run hi hrun hw
  refine ⟨x, y, h1, h2, fun hx hy => ?_⟩
  have : 2 ^ n ≤ 2 ^ (ceilDiv n L * L) := Nat.pow_le_pow_right (by norm_num) (by
    rcases Nat.eq_zero_or_pos n with h | h
    · omega
    · exact (ceilDiv_spec hL.pos h).2.1)
  exact h3 (by omega) (by omega)

theorem C19_is_less_than_complete {a b : QCell p} {x y : ZMod p} {n : ℕ}
    (hg : Good (RangeTable p L) ext s) (hL : RangeOk p L) (ha : QCon ext s a x) (hb : QCon ext s b y)
    (hn : ceilDiv n L * L + L ≤ capacity p) (hx : x.val < 2 ^ n) (hy : y.val < 2 ^ n) :
    Completes (RangeTable p L) ext s (isLessThan L a b n)
      (fun r s' => Con ext s' r (if x.val < y.val then 1 else 0)) := by
  have : 2 ^ n ≤ 2 ^ (ceilDiv n L * L) := Nat.pow_le_pow_right (by norm_num) (by
    rcases Nat.eq_zero_or_pos n with h | h
    · omega
    · exact (ceilDiv_spec hL.pos h).2.1)
  exact (isLessThan_cmp hL ha hb hn (by omega) (by omega)).run hg

theorem C19_is_less_than_safe {a r : AV p} {b : ℕ} (hi : Inv s) (hL : RangeOk p L)
    (hn : safeBits L b + L ≤ capacity p) (hrun : isLessThanSafe L a b s = some (r, s'))
    (hw : Sat (RangeTable p L) s' w) :
    (at' w a).val < 2 ^ safeBits L b ∧ at' w r = if (at' w a).val < b then 1 else 0 :=
  (isLessThanSafe_sound a b hL hn).run hi hrun hw

theorem C19_is_big_less_than_safe {a r : AV p} {b : ℕ} (hi : Inv s) (hL : RangeOk p L)
    (hn : safeBits L b + L ≤ capacity p) (hrun : isBigLessThanSafe L a b s = some (r, s'))
    (hw : Sat (RangeTable p L) s' w) :
    (at' w a).val < 2 ^ safeBits L b ∧ at' w r = if (at' w a).val < b then 1 else 0 :=
  (isBigLessThanSafe_sound a b hL hn).run hi hrun hw

theorem C19_is_less_than_safe_complete {a : AV p} {x : ZMod p} {b : ℕ}
    (hg : Good (RangeTable p L) ext s) (hL : RangeOk p L) (ha : Con ext s a x)
    (hn : safeBits L b + L ≤ capacity p) (hx : x.val < 2 ^ safeBits L b) :
    Completes (RangeTable p L) ext s (isLessThanSafe L a b)
      (fun r s' => Con ext s' r (if x.val < b then 1 else 0)) ∧
    Completes (RangeTable p L) ext s (isBigLessThanSafe L a b)
      (fun r s' => Con ext s' r (if x.val < b then 1 else 0)) :=
  ⟨(isLessThanSafe_cmp hL ha hn hx).run hg, (isBigLessThanSafe_cmp hL ha hn hx).run hg⟩

example : Completes (RangeTable 101 2) (fun _ => 0) ctx0 (isLessThan 2 (.witness 13) (.constant 7) 4)
    (fun r s' => Con (fun _ => 0) s' r 0) :=
  C19_is_less_than_complete (x := 13) (y := 7) good0 rangeOk101 rfl rfl (by rw [capacity101]; decide)
    (by decide) (by decide)

/-! ## C20 -/

/-- A simple sufficient condition for `DivModOk`: one spare bit everywhere. -/
theorem divModOk_of_le {b n : ℕ} (hL : 1 ≤ L) (hd : safeBits L (2 ^ n / b + 1) + 1 ≤ capacity p)
    (hr : safeBits L b + 1 ≤ capacity p) (hn : n + 1 ≤ capacity p) : DivModOk p L b n := by
  refine ⟨ltSafeOk_of_le hd, ltSafeOk_of_le hr, ?_⟩
  have h1 := lt_two_pow_safeBits hL b
  have h2 : 2 ^ safeBits L b ≤ 2 ^ (capacity p - 1) := Nat.pow_le_pow_right (by norm_num) (by omega)
  have h3 : 2 ^ n ≤ 2 ^ (capacity p - 1) := Nat.pow_le_pow_right (by norm_num) (by omega)
  have h4 := pow_capacity_le (p := p) le_rfl
  have h5 : 2 ^ capacity p = 2 ^ (capacity p - 1) * 2 := by rw [← pow_succ]; congr 1; omega
  omega

/-- C20, soundness.  `DivModOk` is the no-wrap condition (`divModOk_of_le` gives a simple form). -/
theorem C20_div_mod {a : QCell p} {b n : ℕ} {r : AV p × AV p} (hi : Inv s) (hL : RangeOk p L)
    (hok : DivModOk p L b n) (hrun : divMod L a b n s = some (r, s')) (hw : Sat (RangeTable p L) s' w) :
    ∃ x, QOk w a x ∧ (at' w r.1).val = x.val / b ∧ (at' w r.2).val = x.val % b := by
  obtain ⟨x, h1, h2, h3, _⟩ := (divMod_sound a b n hL hok).run hi hrun hw
  exact ⟨x, h1, h2, h3⟩

theorem C20_div_mod_complete {a : QCell p} {x : ZMod p} {b n : ℕ} (hg : Good (RangeTable p L) ext s)
    (hL : RangeOk p L) (ha : QCon ext s a x) (hb : b ≠ 0)
    (hd : safeBits L (2 ^ n / b + 1) ≤ capacity p) (hr : safeBits L b ≤ capacity p) (hx : x.val < 2 ^ n) :
    Completes (RangeTable p L) ext s (divMod L a b n) (fun c s' =>
      Con ext s' c.1 ((x.val / b : ℕ) : ZMod p) ∧ Con ext s' c.2 ((x.val % b : ℕ) : ZMod p)) :=
  (divMod_cmp hL ha hb hd hr (Nat.div_le_div_right (by omega))).run hg

example : Completes (RangeTable 101 2) (fun _ => 0) ctx0 (divMod 2 (.witness 29) 7 5)
    (fun c s' => Con (fun _ => 0) s' c.1 4 ∧ Con (fun _ => 0) s' c.2 1) :=
  C20_div_mod_complete (a := .witness 29) (x := 29) good0 rangeOk101 rfl (by norm_num) (by rw [capacity101]; decide +kernel)
    (by rw [capacity101]; decide +kernel) (by decide)

example : DivModOk 101 2 7 5 :=
  divModOk_of_le (by norm_num) (by rw [capacity101]; decide +kernel) (by rw [capacity101]; decide +kernel)
    (by rw [capacity101])

/-! ## C21 -/

/-- C21, soundness: under the no-wrap conditions and for a divisor fixed by the circuit. -/
theorem C21_div_mod_var {a b : QCell p} {an bn : ℕ} {r : AV p × AV p} (hi : Inv s) (hL : RangeOk p L)
    (hok : DivModVarOk p L an bn) (hb : b.Bound) (hrun : divModVar L a b an bn s = some (r, s'))
    (hw : Sat (RangeTable p L) s' w) :
    ∃ x y, QOk w a x ∧ QOk w b y ∧ (y.val < 2 ^ bn →
      y.val ≠ 0 ∧ (at' w r.1).val = x.val / y.val ∧ (at' w r.2).val = x.val % y.val) :=
  (divModVar_sound a b an bn hL hok hb).run hi hrun hw

theorem C21_div_mod_var_complete {a b : QCell p} {x y : ZMod p} {an bn : ℕ}
    (hg : Good (RangeTable p L) ext s) (hL : RangeOk p L) (ha : QCon ext s a x)
    (hb : QCon ext s b y) (hbn : ceilDiv bn L * L ≤ capacity p) (han : ceilDiv an L * L ≤ capacity p)
    (hd : safeBits L (2 ^ an / 2 ^ bn + 1) ≤ capacity p) (hr : safeBits L (2 ^ bn) ≤ capacity p)
    (hx : x.val < 2 ^ an) (hy0 : y.val ≠ 0) (hy : y.val < 2 ^ bn) :
    Completes (RangeTable p L) ext s (divModVar L a b an bn) (fun c s' =>
      Con ext s' c.1 ((x.val / y.val : ℕ) : ZMod p) ∧ Con ext s' c.2 ((x.val % y.val : ℕ) : ZMod p)) :=
  (divModVar_cmp hL ha hb hbn han hd hr hx hy0 hy).run hg

example : Completes (RangeTable 101 2) (fun _ => 0) ctx0 (divModVar 2 (.witness 13) (.constant 3) 4 2)
    (fun c s' => Con (fun _ => 0) s' c.1 4 ∧ Con (fun _ => 0) s' c.2 1) :=
  C21_div_mod_var_complete (a := .witness 13) (b := .constant 3) (x := 13) (y := 3) good0 rangeOk101 rfl rfl (by rw [capacity101]; decide)
    (by rw [capacity101]; decide) (by rw [capacity101]; decide +kernel) (by rw [capacity101]; decide +kernel)
    (by decide) (by decide) (by decide)

example : DivModVarOk 101 2 4 2 :=
  ⟨divModOk_of_le (by norm_num) (by rw [capacity101]; decide +kernel) (by rw [capacity101]; decide +kernel)
    (by rw [capacity101]; norm_num), by norm_num⟩

/-! ## C22 -/

/-- C22. -/
theorem C22_get_last_bit {a r : AV p} {n : ℕ} (hi : Inv s) (hL : RangeOk p L) (hn : n ≤ capacity p)
    (hrun : getLastBit L a n s = some (r, s')) (hw : Sat (RangeTable p L) s' w) :
    (at' w a).val < 2 ^ n ∧ at' w r = (((at' w a).val % 2 : ℕ) : ZMod p) :=
  (getLastBit_sound a n hL (pow_capacity_le hn)).run hi hrun hw

theorem C22_get_last_bit_complete {a : AV p} {x : ZMod p} {n : ℕ} (hg : Good (RangeTable p L) ext s)
    (hL : RangeOk p L) (ha : Con ext s a x) (h1 : 1 ≤ n) (hn : ceilDiv n L * L ≤ capacity p)
    (hx : x.val < 2 ^ n) :
    Completes (RangeTable p L) ext s (getLastBit L a n)
      (fun r s' => Con ext s' r ((x.val % 2 : ℕ) : ZMod p)) :=
  (getLastBit_cmp hL ha h1 (le_trans (Nat.div_le_div_right (by omega))
    (ceilDiv_le_of_mul_le hL.pos hn)) hx).run hg

example : Completes (RangeTable 101 2) (fun _ => 0) ctx0 (do let a ← loadWitness 13; getLastBit 2 a 4)
    (fun r s' => Con (fun _ => 0) s' r 1) :=
  (Cmp.bind (loadWitness_cmp 13) fun _ _ _ h => getLastBit_cmp rangeOk101 h (by norm_num)
    (by rw [capacity101]; decide) (by decide)).run good0

/-! ## C23 -/

/-- Base-`2^b` digits are unique. -/
theorem digits_unique {ds : List ℕ} {n b N : ℕ} (hb : 1 ≤ b) (hl : ds.length = n) (hd : ∀ d ∈ ds, d < 2 ^ b)
    (h : Nat.ofDigits (2 ^ b) ds = N) : ds = limbsOf N n b := by
  have hB : 1 < 2 ^ b := Nat.one_lt_two_pow (by omega)
  refine Nat.ofDigits_inj_of_len_eq hB ?_ hd (limbsOf_lt _ _ _) ?_
  · rw [limbsOf_length, hl]
  · rw [limbsOf_ofDigits, h, Nat.mod_eq_of_lt]
    rw [← h, pow_mul, ← hl]
    exact Nat.ofDigits_lt_base_pow_length hB hd

/-- C23, soundness: the limbs are the digits of `num`, digit `i` being `num / 2^(b i) mod 2^b`. -/
theorem C23_decompose_le {num : AV p} {rs : List (AV p)} {b n : ℕ} (hi : Inv s) (hL : RangeOk p L)
    (hb : 1 ≤ b) (hbn : 2 ^ (b * n) ≤ p) (hrun : decomposeLe L num b n s = some (rs, s'))
    (hw : Sat (RangeTable p L) s' w) :
    rs.map (at' w) = (List.range n).map
      (fun i : ℕ => (((at' w num).val / 2 ^ (b * i) % 2 ^ b : ℕ) : ZMod p)) ∧ (at' w num).val < 2 ^ (b * n) := by
  have hB : 1 < 2 ^ b := Nat.one_lt_two_pow (by omega)
  have hn : n ≤ ceilDiv (numBits p) b := by
    have h1 : b * n ≤ numBits p := by
      rw [numBits]
      by_contra hcon
      have := (Nat.size_le (m := p) (n := b * n)).1 (by omega)
      omega
    rw [ceilDiv, Nat.le_div_iff_mul_le (by omega), Nat.mul_comm]
    omega
  obtain ⟨ds, h1, h2, h3, h4⟩ := (decomposeLe_sound num b n hL hn).run hi hrun hw
  have hlt : Nat.ofDigits (2 ^ b) ds < 2 ^ (b * n) := by
    rw [pow_mul, ← h1]
    exact Nat.ofDigits_lt_base_pow_length hB h2
  have hv : (at' w num).val = Nat.ofDigits (2 ^ b) ds := cast_val_eq h4 (by omega)
  refine ⟨?_, by omega⟩
  rw [h3, digits_unique hb h1 h2 hv.symm, limbsOf, List.map_map]
  rfl

theorem C23_decompose_le_complete {num : AV p} {x : ZMod p} {b n : ℕ} (hg : Good (RangeTable p L) ext s)
    (hL : RangeOk p L) (hx : Con ext s num x) (hb : 1 ≤ b) (hn : b * n < numBits p + b)
    (hbn : ceilDiv b L * L ≤ capacity p) (hlt : x.val < 2 ^ (b * n)) :
    Completes (RangeTable p L) ext s (decomposeLe L num b n) (fun rs s' =>
      AvsCon ext s' rs ((List.range n).map (fun i : ℕ => ((x.val / 2 ^ (b * i) % 2 ^ b : ℕ) : ZMod p)))) := by
  have hcb : b ≤ capacity p := le_trans (ceilDiv_spec hL.pos hb).2.1 hbn
  have := decomposeLe_cmp hL hx hb (n := n) (by
    rw [ceilDiv, Nat.le_div_iff_mul_le (by omega), Nat.mul_comm]; omega) (pow_capacity_le hcb)
    (ceilDiv_le_of_mul_le hL.pos hbn) hlt
  rw [limbsOf, List.map_map] at this
  exact this.run hg

/-- C23: `limbs_to_num` recomposes, so it inverts `decompose_le` (no size condition on the number). -/
theorem C23_limbs_to_num {limbs : List (AV p)} {b : ℕ} {r : AV p} {ds : List ℕ} {tbl : ZMod p → Prop}
    (hi : Inv s) (hn : limbs.length ≤ ceilDiv (numBits p) b)
    (hrun : limbsToNum limbs b s = some (r, s')) (hw : Sat tbl s' w)
    (hd : limbs.map (at' w) = ds.map (fun d : ℕ => (d : ZMod p))) :
    at' w r = ((Nat.ofDigits (2 ^ b) ds : ℕ) : ZMod p) :=
  (limbsToNum_sound limbs b hn).run hi hrun hw ds hd

theorem C23_roundtrip {num r : AV p} {b n : ℕ} (hi : Inv s) (hL : RangeOk p L)
    (hn : n ≤ ceilDiv (numBits p) b)
    (hrun : (do let l ← decomposeLe L num b n; limbsToNum l b) s = some (r, s'))
    (hw : Sat (RangeTable p L) s' w) : at' w r = at' w num := by
  obtain ⟨l, s1, h1, h2⟩ := bind_some.1 hrun
  obtain ⟨i1, e1, q1⟩ := decomposeLe_sound num b n hL hn s hi _ _ h1
  obtain ⟨-, e2, -⟩ := limbsToNum_sound (tbl := RangeTable p L) l b
    (by
      unfold decomposeLe at h1
      obtain ⟨_, _, g1, h1⟩ := bind_some.1 h1
      obtain ⟨_, _, g2, h1⟩ := bind_some.1 h1
      obtain ⟨⟨acc, l'⟩, s4, g3, h1⟩ := bind_some.1 h1
      obtain ⟨_, _, _, h1⟩ := bind_some.1 h1
      obtain ⟨_, _, _, h1⟩ := bind_some.1 h1
      simp only [pure_apply, Option.some.injEq, Prod.mk.injEq] at h1
      obtain ⟨rfl, -⟩ := h1
      unfold innerProductLeft at g3
      obtain ⟨_, _, _, g3⟩ := bind_some.1 g3
      obtain ⟨_, _, _, g3⟩ := bind_some.1 g3
      obtain ⟨as, _, g4, g3⟩ := bind_some.1 g3
      obtain ⟨_, _, _, g3⟩ := bind_some.1 g3
      simp only [pure_apply, Option.some.injEq, Prod.mk.injEq] at g3
      obtain ⟨⟨-, rfl⟩, -⟩ := g3
      have hlen : ∀ (os : List ℤ) (t t' : Ctx p) (as : List (AV p)), getsM os t = some (as, t') →
          as.length = os.length := by
        intro os
        induction os with
        | nil => intro t t' as h; simp [getsM] at h; simp [← h.1]
        | cons o os ih =>
          intro t t' as h
          rw [getsM] at h
          obtain ⟨_, _, _, h⟩ := bind_some.1 h
          obtain ⟨bs, _, k, h⟩ := bind_some.1 h
          simp only [pure_apply, Option.some.injEq, Prod.mk.injEq] at h
          rw [← h.1]; simp [ih _ _ _ k]
      rw [hlen _ _ _ _ g4]
      simpa [limbsOf] using hn) s1 i1 _ _ h2
  obtain ⟨ds, hl, _, h3, h4⟩ := q1 w (hw.mono e2)
  rw [h4]
  refine C23_limbs_to_num i1 ?_ h2 hw h3
  have := congrArg List.length h3
  simp at this
  omega

example : Completes (RangeTable 101 2) (fun _ => 0) ctx0 (do let a ← loadWitness 29; decomposeLe 2 a 3 2)
    (fun rs s' => AvsCon (fun _ => 0) s' rs [5, 3]) :=
  (Cmp.bind (loadWitness_cmp 29) fun _ _ _ h => decomposeLe_cmp (b := 3) (n := 2) rangeOk101 h (by norm_num)
    (by rw [numBits, size101]; decide) (by norm_num) (by rw [capacity101]; decide) (by decide)).run good0

/-! ## C24, C25 -/

/-- C24: soundness of the rotations, against `BitVec.rotateRight`. -/
theorem C24_const_right_rotate {a r : AV p} {bit n : ℕ} (hi : Inv s) (hL : RangeOk p L)
    (hb : bit % n ≠ 0) (hrun : constRightRotate L a bit n s = some (r, s'))
    (hw : Sat (RangeTable p L) s' w) :
    (at' w a).val < 2 ^ n ∧ (at' w r).val = ((BitVec.ofNat n (at' w a).val).rotateRight bit).toNat :=
  (constRightRotate_sound a bit n hL).run hi hrun hw hb

theorem C24_const_left_rotate {a r : AV p} {bit n : ℕ} (hi : Inv s) (hL : RangeOk p L)
    (hb : bit % n ≠ 0) (hrun : constLeftRotate L a bit n s = some (r, s'))
    (hw : Sat (RangeTable p L) s' w) :
    (at' w a).val < 2 ^ n ∧ (at' w r).val = ((BitVec.ofNat n (at' w a).val).rotateLeft bit).toNat :=
  (constLeftRotate_sound a bit n hL).run hi hrun hw hb

/-- With `BIT = 0 mod N` the rotation is the identity (and `a` is *not* range checked). -/
theorem C24_rotate_zero {a r : AV p} {bit n : ℕ} (hn : n ≠ 0) (hb : bit % n = 0)
    (hrun : constRightRotate L a bit n s = some (r, s') ∨ constLeftRotate L a bit n s = some (r, s')) :
    r = a ∧ s' = s := by
  simp only [constRightRotate, constLeftRotate, hn, hb, if_true, if_false, pure_apply, Option.some.injEq,
    Prod.mk.injEq, or_self] at hrun
  exact ⟨hrun.1.symm, hrun.2.symm⟩

/-- C25, finding: the witness written by `const_right_rotate` satisfies the circuit only if the swapped
recomposition `(a mod 2^k) 2^k + a / 2^k` gives `a` back (`k = BIT mod N`). -/
theorem C25_right_rotate_witness {a r : AV p} {x : ZMod p} {bit n : ℕ} {tbl : ZMod p → Prop}
    (hg : Good tbl ext s) (ha : Con ext s a x) (hb : bit % n ≠ 0)
    (hrun : constRightRotate L a bit n s = some (r, s')) (hw : Sat tbl s' (hw ext s')) :
    ((x.val % 2 ^ (bit % n) * 2 ^ (bit % n) + x.val / 2 ^ (bit % n) : ℕ) : ZMod p) = x := by
  unfold constRightRotate at hrun
  by_cases hn : n = 0
  · simp [hn, panic] at hrun
  · rw [if_neg hn, if_neg hb] at hrun
    exact rotRightInternal_honest hg ha hrun hw

/-- C25 is false of the code: an honest prover cannot rotate the 8-bit number 1 by one position on BN254, for
any lookup size: whatever `const_right_rotate::<1, 8>` records is not satisfied by its own witness. -/
theorem C25_right_rotate_incomplete {s s' : Ctx bn254R} {ext : Cell → ZMod bn254R} {tbl : ZMod bn254R → Prop}
    {a r : AV bn254R} {L : ℕ} (hg : Good tbl ext s) (ha : Con ext s a 1)
    (hrun : constRightRotate L a 1 8 s = some (r, s')) : ¬ Sat tbl s' (hw ext s') := by
  intro hw
  have := C25_right_rotate_witness hg ha (by norm_num) hrun hw
  have h1 : ((1 : ZMod bn254R)).val = 1 := ZMod.val_one _
  rw [h1] at this
  have h2 := natCast_inj_lt (p := bn254R) (m := 2) (n := 1) (by simpa using this) (by norm_num [bn254R])
    (by norm_num [bn254R])
  omega

/-- The values on which the honest witness is accepted. -/
theorem C25_right_rotate_complete_when_symmetric {a : AV p} {x : ZMod p} {bit n : ℕ}
    (hg : Good (RangeTable p L) ext s) (hL : RangeOk p L) (ha : Con ext s a x) (hbn : bit < n)
    (hb : bit ≠ 0) (hn : ceilDiv n L * L ≤ capacity p) (hx : x.val < 2 ^ n)
    (h1 : x.val % 2 ^ bit < 2 ^ (n - bit)) (h2 : x.val / 2 ^ bit < 2 ^ bit)
    (h3 : x.val % 2 ^ bit * 2 ^ bit + x.val / 2 ^ bit = x.val) :
    Completes (RangeTable p L) ext s (constRightRotate L a bit n) (fun r s' =>
      Con ext s' r ((x.val / 2 ^ bit * 2 ^ (n - bit) + x.val % 2 ^ bit : ℕ) : ZMod p)) := by
  unfold constRightRotate
  rw [if_neg (by omega), Nat.mod_eq_of_lt hbn, if_neg hb]
  exact (rotRightInternal_cmp hL ha (by omega) hn (by omega) hx h1 h2 h3).run hg

/-- Non-vacuity: 10 = 0b1010 rotated by 2 of 4 (the two halves agree). -/
example : Completes (RangeTable 101 2) (fun _ => 0) ctx0 (do let a ← loadWitness 10; constRightRotate 2 a 2 4)
    (fun r s' => Con (fun _ => 0) s' r 10) := by
  refine (Cmp.bind (loadWitness_cmp 10) fun _ s1 _ h => ?_).run good0
  exact rotRightInternal_cmp (bit := 2) (n := 4) rangeOk101 h (by norm_num) (by rw [capacity101]; decide)
    (by norm_num) (by decide) (by decide) (by decide) (by decide)

end H2
