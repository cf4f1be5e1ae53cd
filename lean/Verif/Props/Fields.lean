import Verif.Fields.Concrete

/-!
# Property C47 (`FpChip`)

`c.pRep w a X`: in the assignment `w` the limbs of `a` are the digits (base `2 ^ n`, all below `2 ^ n`) of a number of at most
as many bits as the modulus, and this number is `X` modulo the modulus; `c.rRep w a X`: that number is the canonical
representative, below the modulus; `c.uRep w a X (bits, B)`: `a` represents an integer of absolute value at most `B`, with
limbs of at most `bits` bits, which is `X` modulo the modulus.
-/

set_option autoImplicit false
namespace H2
variable {p : ℕ} [Fact p.Prime] {s s' : Ctx p} {w : Cell → ZMod p} {c : FpChip p} {a b r : CrtInt p} {z : AV p} {u : Unit}

/-- C47: with suitable parameters `FpChip::new` succeeds, and what it returns is a chip for the modulus for which the theorems
below hold. -/
theorem C47_new {L m n k : ℕ} (h : FpParams p L m n k) :
    ∃ c : FpChip p, FpChip.new L m n k = some c ∧ FpOk c ∧ c.modulus = m ∧ c.n = n ∧ c.k = k ∧ c.L = L :=
  ⟨_, h.new_eq, h.ok h.new_eq, rfl, rfl, rfl, rfl⟩

/-- Products of two points can be carried. -/
structure MulFits (c : FpChip p) : Prop where
  bits : CarryFits c (c.kLog2 + c.n + c.n)
  size : 2 ^ Nat.size c.modulus * 2 ^ Nat.size c.modulus ≤ 2 ^ (c.n * c.k + numBits p - 3)

/-- Quotients of two points can be checked. -/
structure DivFits (c : FpChip p) : Prop where
  bits : CarryZeroFits c (c.kLog2 + c.n + c.n + 1)
  size : 2 ^ Nat.size c.modulus * 2 ^ Nat.size c.modulus + 2 ^ Nat.size c.modulus ≤ 2 ^ (c.n * c.k + numBits p - 3)

theorem C47_load_private (h : FpOk c) {v : ZMod c.modulus} (hi : Inv s) (hrun : c.loadPrivate v s = some (r, s'))
    (hw : Sat (RangeTable p c.L) s' w) : ∃ X, c.pRep w r X := by
  obtain ⟨A, h1, h2⟩ := (FpChip.loadPrivate_sound h v).run hi hrun hw
  exact ⟨A, A, h1, h2, rfl⟩

theorem C47_load_constant (h : FpOk c) {v : ZMod c.modulus} (hi : Inv s) (hrun : c.loadConstant v s = some (r, s'))
    (hw : Sat (RangeTable p c.L) s' w) : c.rRep w r v := (FpChip.loadConstant_sound h v).run hi hrun hw

variable [Fact c.modulus.Prime] {X Y : ZMod c.modulus}

theorem C47_add (h : FpOk c) {sx sy : ℕ × ℕ} (hi : Inv s) (hrun : addNoCarryCrt a b s = some (r, s'))
    (hw : Sat (RangeTable p c.L) s' w) (ha : c.uRep w a X sx) (hb : c.uRep w b Y sy) :
    c.uRep w r (X + Y) (max sx.1 sy.1 + 1, sx.2 + sy.2) :=
  ((FpChip.laws h).addNoCarry a b).run hi hrun hw X Y sx sy ha hb

theorem C47_sub (h : FpOk c) {sx sy : ℕ × ℕ} (hi : Inv s) (hrun : subNoCarryCrt a b s = some (r, s'))
    (hw : Sat (RangeTable p c.L) s' w) (ha : c.uRep w a X sx) (hb : c.uRep w b Y sy) :
    c.uRep w r (X - Y) (max sx.1 sy.1 + 1, sx.2 + sy.2) :=
  ((FpChip.laws h).subNoCarry a b).run hi hrun hw X Y sx sy ha hb

theorem C47_mul_no_carry (h : FpOk c) {sx sy : ℕ × ℕ} (hi : Inv s) (hrun : mulNoCarryCrt a b c.kLog2 s = some (r, s'))
    (hw : Sat (RangeTable p c.L) s' w) (ha : c.uRep w a X sx) (hb : c.uRep w b Y sy) :
    c.uRep w r (X * Y) (c.kLog2 + sx.1 + sy.1, sx.2 * sy.2) :=
  ((FpChip.laws h).mulNoCarry a b).run hi hrun hw X Y sx sy ha hb

theorem C47_add_constant (h : FpOk c) {v : ZMod c.modulus} {sx : ℕ × ℕ} (hi : Inv s)
    (hrun : c.addConstantNoCarry a v s = some (r, s')) (hw : Sat (RangeTable p c.L) s' w) (ha : c.uRep w a X sx) :
    c.uRep w r (X + v) (max sx.1 c.n + 1, sx.2 + c.modulus) :=
  ((FpChip.laws h).addConstantNoCarry a v).run hi hrun hw X sx ha

theorem C47_scalar_mul (h : FpOk c) {v : ℤ} {sx : ℕ × ℕ} (hi : Inv s)
    (hrun : scalarMulNoCarryCrt a v s = some (r, s')) (hw : Sat (RangeTable p c.L) s' w) (ha : c.uRep w a X sx) :
    c.uRep w r (X * v) (sx.1 + FpChip.mulBits v, sx.2 * v.natAbs) :=
  ((FpChip.laws h).scalarMulNoCarry a v).run hi hrun hw X sx ha

/-- `carry_mod`: the same residue, properly ranged, when the sizes fit. -/
theorem C47_carry_mod (h : FpOk c) {sx : ℕ × ℕ} (hi : Inv s) (hrun : carryModCrt c a s = some (r, s'))
    (hw : Sat (RangeTable p c.L) s' w) (h1 : CarryFits c sx.1) (h2 : sx.2 ≤ 2 ^ (c.n * c.k + numBits p - 3))
    (ha : c.uRep w a X sx) : c.pRep w r X := ((FpChip.laws h).carryMod a).run hi hrun hw X sx ⟨h1, h2.trans (FpChip.max_ge h)⟩ ha

theorem C47_check_carry_mod_to_zero (h : FpOk c) {sx : ℕ × ℕ} (hi : Inv s)
    (hrun : checkCarryModToZeroCrt c a s = some (u, s')) (hw : Sat (RangeTable p c.L) s' w) (h1 : CarryZeroFits c sx.1)
    (h2 : sx.2 ≤ 2 ^ (c.n * c.k + numBits p - 3)) (ha : c.uRep w a X sx) : X = 0 :=
  ((FpChip.laws h).checkCarryModToZero a).run hi hrun hw X sx ⟨h1, h2⟩ ha

theorem C47_mul (h : FpOk c) (hf : MulFits c) (hi : Inv s) (hrun : c.ops.mul a b s = some (r, s'))
    (hw : Sat (RangeTable p c.L) s' w) (ha : c.pRep w a X) (hb : c.pRep w b Y) : c.pRep w r (X * Y) :=
  ((FpChip.laws h).mul a b).run hi hrun hw X Y (FpChip.laws h).pSz (FpChip.laws h).pSz ⟨hf.bits, hf.size.trans (FpChip.max_ge h)⟩ ((FpChip.laws h).p_u _ _ _ ha) ((FpChip.laws h).p_u _ _ _ hb)

theorem DivFits.zeroFits (h : FpOk c) (hf : DivFits c) :
    (FpChip.laws h).zeroFits ((FpChip.laws h).subSz ((FpChip.laws h).mulSz (FpChip.laws h).pSz (FpChip.laws h).pSz) (FpChip.laws h).pSz) := by
  refine ⟨?_, hf.size⟩
  show CarryZeroFits c (max (c.kLog2 + c.n + c.n) c.n + 1)
  rw [max_eq_left (by omega)]
  exact hf.bits

/-- `divide_unsafe`: the result times the divisor is the dividend; it is *the* quotient only if the divisor is not zero. -/
theorem C47_divide_unsafe (h : FpOk c) (hf : DivFits c) (hi : Inv s) (hrun : c.ops.divideUnsafe a b s = some (r, s'))
    (hw : Sat (RangeTable p c.L) s' w) (ha : c.pRep w a X) (hb : c.pRep w b Y) :
    ∃ Q, c.pRep w r Q ∧ Q * Y = X ∧ (Y ≠ 0 → Q = X / Y) := by
  obtain ⟨Q, h1, h2⟩ := ((FpChip.laws h).divideUnsafe a b).run hi hrun hw
  have := h2 X Y _ _ (hf.zeroFits h) ((FpChip.laws h).p_u _ _ _ ha) ((FpChip.laws h).p_u _ _ _ hb)
  exact ⟨Q, h1, this, fun hY => (eq_div_iff hY).2 this⟩

theorem C47_divide (h : FpOk c) (hf : DivFits c) (hi : Inv s) (hrun : c.ops.divide a b s = some (r, s'))
    (hw : Sat (RangeTable p c.L) s' w) (ha : c.pRep w a X) (hb : c.pRep w b Y) : Y ≠ 0 ∧ c.pRep w r (X / Y) :=
  ((FpChip.laws h).divide a b (hf.zeroFits h)).run hi hrun hw X Y ha hb

theorem C47_neg_divide (h : FpOk c) (hf : DivFits c) (hi : Inv s) (hrun : c.ops.negDivide a b s = some (r, s'))
    (hw : Sat (RangeTable p c.L) s' w) (ha : c.pRep w a X) (hb : c.pRep w b Y) : Y ≠ 0 ∧ c.pRep w r (-X / Y) :=
  ((FpChip.laws h).negDivide a b (hf.zeroFits h)).run hi hrun hw X Y ha hb

theorem C47_negate (h : FpOk c) (hi : Inv s) (hrun : c.negate a s = some (r, s'))
    (hw : Sat (RangeTable p c.L) s' w) (ha : c.pRep w a X) : c.rRep w r (-X) :=
  ((FpChip.laws h).negate a).run hi hrun hw X ha

/-- `enforce_less_than`: the point is the canonical representative. -/
theorem C47_enforce_less_than (h : FpOk c) (hi : Inv s) (hrun : c.ops.enforceLessThan a s = some (r, s'))
    (hw : Sat (RangeTable p c.L) s' w) (ha : c.pRep w a X) : c.rRep w r X :=
  ((FpChip.laws h).enforceLessThan a).run hi hrun hw X ha

theorem C47_is_zero (h : FpOk c) (hi : Inv s) (hrun : c.isZero a s = some (z, s'))
    (hw : Sat (RangeTable p c.L) s' w) (ha : c.pRep w a X) : at' w z = if X = 0 then 1 else 0 :=
  ((FpChip.laws h).isZero a).run hi hrun hw X ha

theorem C47_is_equal (h : FpOk c) (hi : Inv s) (hrun : c.ops.isEqual a b s = some (z, s'))
    (hw : Sat (RangeTable p c.L) s' w) (ha : c.pRep w a X) (hb : c.pRep w b Y) : at' w z = if X = Y then 1 else 0 :=
  ((FpChip.laws h).isEqual a b).run hi hrun hw X Y ha hb

theorem C47_assert_equal (h : FpOk c) (hi : Inv s) (hrun : c.assertEqual a b s = some (u, s'))
    (hw : Sat (RangeTable p c.L) s' w) (ha : c.pRep w a X) (hb : c.pRep w b Y) : X = Y :=
  ((FpChip.laws h).assertEqual a b).run hi hrun hw X Y ha hb

/-- `is_soft_nonzero` returning 1 means nonzero; for a canonical representative it decides. -/
theorem C47_is_soft_nonzero (h : FpOk c) (hi : Inv s) (hrun : c.isSoftNonzero a s = some (z, s'))
    (hw : Sat (RangeTable p c.L) s' w) (ha : c.pRep w a X) : (at' w z = 0 ∨ at' w z = 1) ∧ (at' w z = 1 → X ≠ 0) ∧
      (c.rRep w a X → at' w z = if X ≠ 0 then 1 else 0) :=
  (FpChip.softNonzero h a).run hi hrun hw X ha

theorem C47_select (h : FpOk c) {sel : AV p} (hi : Inv s) (hrun : selectCrt a b sel s = some (r, s'))
    (hw : Sat (RangeTable p c.L) s' w) (ha : c.pRep w a X) (hb : c.pRep w b Y) :
    (at' w sel = 1 → c.pRep w r X) ∧ (at' w sel = 0 → c.pRep w r Y) :=
  (((FpChip.laws h).select a b sel).run hi hrun hw).1 X Y ha hb

theorem C47_is_less_than_p (h : FpOk c) {A : ℕ} (hi : Inv s) (hrun : c.isLessThanP a s = some (z, s'))
    (hw : Sat (RangeTable p c.L) s' w) (ha : ProperOk c.n c.k w a A) : at' w z = if A < c.modulus then 1 else 0 :=
  (FpChip.isLessThanP_sound h a).run hi hrun hw A ha

/-- `is_even` enforces canonicity and decides the parity of the canonical representative. -/
theorem C47_is_even (h : FpOk c) (hi : Inv s) (hrun : c.isEven a s = some (z, s'))
    (hw : Sat (RangeTable p c.L) s' w) (ha : c.pRep w a X) : at' w z = if X.val % 2 = 0 then 1 else 0 := by
  obtain ⟨A, h1, -, rfl⟩ := ha
  obtain ⟨h3, h4⟩ := (FpChip.isEven_sound h a).run hi hrun hw A h1
  rw [h4, ZMod.val_natCast_of_lt h3]

/-- A point represents only one residue. -/
theorem C47_unique (h : FpOk c) (ha : c.pRep w a X) (hb : c.pRep w a Y) : X = Y := (FpChip.laws h).p_unique w a X Y ha hb

/-! ### The concrete parameters -/

theorem mulFits_88_3 {m : ℕ} (h2 : m < 2 ^ 256) : MulFits (fpChip bn254R 16 m 88 3) := by
  have s2 : Nat.size m ≤ 256 := Nat.size_le.2 h2
  refine ⟨carryFits_88_3 _ _ (by show (Utils.log2Ceil 3).getD 0 + 88 + 88 ≤ 240; decide), ?_⟩
  show 2 ^ Nat.size m * 2 ^ Nat.size m ≤ 2 ^ (88 * 3 + numBits bn254R - 3)
  rw [numBits, size_bn254R, ← pow_add]
  exact Nat.pow_le_pow_right (by norm_num) (by omega)

theorem divFits_88_3 {m : ℕ} (h2 : m < 2 ^ 256) : DivFits (fpChip bn254R 16 m 88 3) := by
  have s2 : Nat.size m ≤ 256 := Nat.size_le.2 h2
  refine ⟨carryZeroFits_88_3 _ _ (by show (Utils.log2Ceil 3).getD 0 + 88 + 88 + 1 ≤ 240; decide), ?_⟩
  show 2 ^ Nat.size m * 2 ^ Nat.size m + 2 ^ Nat.size m ≤ 2 ^ (88 * 3 + numBits bn254R - 3)
  rw [numBits, size_bn254R]
  have h : 2 ^ Nat.size m ≤ 2 ^ 256 := Nat.pow_le_pow_right (by norm_num) s2
  calc 2 ^ Nat.size m * 2 ^ Nat.size m + 2 ^ Nat.size m ≤ 2 ^ 256 * 2 ^ 256 + 2 ^ 256 := by
        exact Nat.add_le_add (Nat.mul_le_mul h h) h
    _ ≤ 2 ^ 256 * 2 ^ 256 + 2 ^ 256 * 2 ^ 256 := by
        exact Nat.add_le_add_left (Nat.le_mul_of_pos_right _ (by positivity)) _
    _ = 2 ^ 513 := by rw [← pow_add, ← Nat.two_mul, ← pow_succ']
    _ ≤ _ := Nat.pow_le_pow_right (by norm_num) (by norm_num)

example : ∃ c : FpChip bn254R, FpChip.new 16 secpP 88 3 = some c ∧ FpOk c ∧ MulFits c ∧ DivFits c ∧ c.modulus = secpP :=
  ⟨_, fpParams_secpP.new_eq, fpParams_secpP.ok fpParams_secpP.new_eq, mulFits_88_3 (by decide +kernel),
    divFits_88_3 (by decide +kernel), rfl⟩

end H2
