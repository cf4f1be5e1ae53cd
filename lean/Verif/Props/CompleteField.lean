import Verif.Ecc.CompleteConcrete
import Verif.Props.Fields

/-!
# Property C66 (`FpChip`: an honest prover always succeeds)

`c.pW ext s a X`: in the state `s`, the honest assignment (the values which the run itself wrote) gives `a` the limbs of the
canonical representative of `X`, and `a` knows this value; `c.uW ext s a X (bits, B)`: it gives `a` limbs of at most `bits` bits of an
integer of absolute value at most `B`, known to `a`, which is `X` modulo the modulus; `Con ext s z v`: the honest value of the
cell `z` is `v`.  `Completes tbl ext s m Q`: the run of `m` from `s` does not panic, the honest assignment satisfies all the
constraints of the resulting circuit, and the result satisfies `Q`.

`FpCmp c`: the chip is one for which the soundness theorems of C47 hold (`FpOk`), with at least two limbs, a modulus which reaches
the top limb, and `n + log2 k` below the capacity of the native field.
-/

set_option autoImplicit false
namespace H2
variable {p : ℕ} [Fact p.Prime] {s : Ctx p} {ext : Cell → ZMod p} {c : FpChip p} {a b : CrtInt p}

/-- Products of two points can be carried, and quotients of two points checked. -/
structure OpsFit (c : FpChip p) : Prop where
  mulBits : CarryFits c (c.kLog2 + c.n + c.n)
  divBits : CarryZeroFits c (c.kLog2 + c.n + c.n + 1)
  limbs : c.kLog2 + c.n + c.n + 3 ≤ 3 * c.n
  size : 2 ^ Nat.size c.modulus * 2 ^ Nat.size c.modulus + 2 ^ Nat.size c.modulus < 2 ^ (c.n * c.k + numBits p - 3)

/-- C66, loading: any element of the field can be loaded, as a witness or as a constant. -/
theorem C66_load (h : FpCmp c) (hg : Good (RangeTable p c.L) ext s) (v : ZMod c.modulus) :
    Completes (RangeTable p c.L) ext s (c.loadPrivate v) (fun r s' => c.pW ext s' r v) ∧
    Completes (RangeTable p c.L) ext s (c.loadConstant v) (fun r s' => c.pW ext s' r v) :=
  ⟨(FpChip.loadPrivate_cmp h v).run hg, (FpChip.loadConstant_cmp h v).run hg⟩

variable [Fact c.modulus.Prime] {X Y : ZMod c.modulus}

/-- C66, operations without carry: they never fail. -/
theorem C66_no_carry (h : FpCmp c) (hg : Good (RangeTable p c.L) ext s) {sx sy : ℕ × ℕ} (ha : c.uW ext s a X sx)
    (hb : c.uW ext s b Y sy) (v : ZMod c.modulus) (z : ℤ) (hz : |z| < 2 ^ 63) :
    Completes (RangeTable p c.L) ext s (addNoCarryCrt a b) (fun r s' => c.uW ext s' r (X + Y) (max sx.1 sy.1 + 1, sx.2 + sy.2)) ∧
    Completes (RangeTable p c.L) ext s (subNoCarryCrt a b) (fun r s' => c.uW ext s' r (X - Y) (max sx.1 sy.1 + 1, sx.2 + sy.2)) ∧
    Completes (RangeTable p c.L) ext s (mulNoCarryCrt a b c.kLog2) (fun r s' =>
      c.uW ext s' r (X * Y) (c.kLog2 + sx.1 + sy.1, sx.2 * sy.2)) ∧
    Completes (RangeTable p c.L) ext s (c.addConstantNoCarry a v) (fun r s' =>
      c.uW ext s' r (X + v) (max sx.1 c.n + 1, sx.2 + c.modulus)) ∧
    Completes (RangeTable p c.L) ext s (scalarMulNoCarryCrt a z) (fun r s' =>
      c.uW ext s' r (X * z) (sx.1 + FpChip.mulBits z, sx.2 * z.natAbs)) :=
  ⟨((FpChip.cmp h).addNoCarry ha hb).run hg, ((FpChip.cmp h).subNoCarry ha hb).run hg, ((FpChip.cmp h).mulNoCarry ha hb).run hg,
    ((FpChip.cmp h).addConstantNoCarry v ha).run hg, ((FpChip.cmp h).scalarMulNoCarry z hz ha).run hg⟩

/-- C66, `carry_mod`: when the sizes fit, reduction succeeds and gives the canonical representative. -/
theorem C66_carry_mod (h : FpCmp c) (hg : Good (RangeTable p c.L) ext s) {sx : ℕ × ℕ} (h1 : CarryFits c sx.1)
    (h2 : sx.2 < 2 ^ (c.n * c.k + numBits p - 3)) (ha : c.uW ext s a X sx) :
    Completes (RangeTable p c.L) ext s (carryModCrt c a) (fun r s' => c.pW ext s' r X) :=
  ((FpChip.cmp h).carryMod ha ⟨h1, h2⟩).run hg

theorem C66_check_carry_mod_to_zero (h : FpCmp c) (hg : Good (RangeTable p c.L) ext s) {sx : ℕ × ℕ} (h1 : CarryZeroFits c sx.1)
    (h2 : sx.1 + 2 ≤ 3 * c.n) (h3 : sx.2 < 2 ^ (c.n * c.k + numBits p - 3)) (ha : c.uW ext s a 0 sx) :
    Completes (RangeTable p c.L) ext s (checkCarryModToZeroCrt c a) (fun _ _ => True) :=
  ((FpChip.cmp h).checkCarryModToZero ha ⟨h1, h2, h3⟩).run hg

theorem C66_mul (h : FpCmp c) (hf : OpsFit c) (hg : Good (RangeTable p c.L) ext s) (ha : c.pW ext s a X) (hb : c.pW ext s b Y) :
    Completes (RangeTable p c.L) ext s (c.ops.mul a b) (fun r s' => c.pW ext s' r (X * Y)) :=
  ((FpChip.cmp h).mul (sx := (FpChip.laws h.ok).pSz) (sy := (FpChip.laws h.ok).pSz)
    ⟨hf.mulBits, lt_of_le_of_lt (Nat.le_add_right _ _) hf.size⟩ ((FpChip.cmp h).p_u ha) ((FpChip.cmp h).p_u hb)).run hg

theorem OpsFit.zeroFits (h : FpCmp c) (hf : OpsFit c) :
    (FpChip.cmp h).zFits ((FpChip.laws h.ok).subSz ((FpChip.laws h.ok).mulSz (FpChip.laws h.ok).pSz (FpChip.laws h.ok).pSz)
      (FpChip.laws h.ok).pSz) := by
  have e : max (c.kLog2 + c.n + c.n) c.n = c.kLog2 + c.n + c.n := max_eq_left (by omega)
  refine ⟨?_, ?_, hf.size⟩
  · show CarryZeroFits c (max (c.kLog2 + c.n + c.n) c.n + 1)
    rw [e]
    exact hf.divBits
  · show max (c.kLog2 + c.n + c.n) c.n + 1 + 2 ≤ _
    rw [e]
    exact hf.limbs

/-- C66, division: by anything but zero.  (`divide_unsafe` also completes for `0 / 0`.) -/
theorem C66_divide (h : FpCmp c) (hf : OpsFit c) (hg : Good (RangeTable p c.L) ext s) (ha : c.pW ext s a X) (hb : c.pW ext s b Y) :
    (Y ≠ 0 → Completes (RangeTable p c.L) ext s (c.ops.divide a b) (fun r s' => c.pW ext s' r (X / Y))) ∧
    ((Y = 0 → X = 0) → Completes (RangeTable p c.L) ext s (c.ops.divideUnsafe a b) (fun r s' => c.pW ext s' r (X / Y))) :=
  ⟨fun hY => ((FpChip.cmp h).divide (hf.zeroFits h) ha hb hY).run hg,
   fun hY => ((FpChip.cmp h).divideUnsafe (hf.zeroFits h) ((FpChip.cmp h).p_u ha) ((FpChip.cmp h).p_u hb) hY).run hg⟩

theorem C66_neg_divide (h : FpCmp c) (hf : OpsFit c) (hg : Good (RangeTable p c.L) ext s) (ha : c.pW ext s a X)
    (hb : c.pW ext s b Y) (hY : Y ≠ 0) :
    Completes (RangeTable p c.L) ext s (c.ops.negDivide a b) (fun r s' => c.pW ext s' r (-X / Y)) :=
  ((FpChip.cmp h).negDivide (hf.zeroFits h) ha hb hY).run hg

theorem C66_negate (h : FpCmp c) (hg : Good (RangeTable p c.L) ext s) (ha : c.pW ext s a X) :
    Completes (RangeTable p c.L) ext s (c.negate a) (fun r s' => c.pW ext s' r (-X)) :=
  ((FpChip.cmp h).negate ha).run hg

/-- C66, `enforce_less_than`: canonical representatives pass. -/
theorem C66_enforce_less_than (h : FpCmp c) (hg : Good (RangeTable p c.L) ext s) (ha : c.pW ext s a X) :
    Completes (RangeTable p c.L) ext s (c.ops.enforceLessThan a) (fun r s' => c.pW ext s' r X) :=
  ((FpChip.cmp h).enforceLessThan ha).run hg

/-- C66, predicates: they complete with the right bit, whatever the inputs. -/
theorem C66_predicates (h : FpCmp c) (hg : Good (RangeTable p c.L) ext s) (ha : c.pW ext s a X) (hb : c.pW ext s b Y) :
    Completes (RangeTable p c.L) ext s (c.isZero a) (fun r s' => Con ext s' r (if X = 0 then 1 else 0)) ∧
    Completes (RangeTable p c.L) ext s (c.isSoftNonzero a) (fun r s' => Con ext s' r (if X ≠ 0 then 1 else 0)) ∧
    Completes (RangeTable p c.L) ext s (c.ops.isEqual a b) (fun r s' => Con ext s' r (if X = Y then 1 else 0)) ∧
    Completes (RangeTable p c.L) ext s (c.isEven a) (fun r s' => Con ext s' r (if X.val % 2 = 0 then 1 else 0)) :=
  ⟨((FpChip.cmp h).isZero ha).run hg, ((FpChip.cmp h).isSoftNonzero ha).run hg, ((FpChip.cmp h).isEqual ha hb).run hg,
    (FpChip.isEven_cmp h ha (FpChip.pW.lt h ha)).run hg⟩

theorem C66_assert_equal (h : FpCmp c) (hg : Good (RangeTable p c.L) ext s) (ha : c.pW ext s a X) (hb : c.pW ext s b X) :
    Completes (RangeTable p c.L) ext s (c.assertEqual a b) (fun _ _ => True) :=
  ((FpChip.cmp h).assertEqual ha hb).run hg

theorem C66_select (h : FpCmp c) (hg : Good (RangeTable p c.L) ext s) {sel : AV p} {t : Bool} (ha : c.pW ext s a X)
    (hb : c.pW ext s b Y) (hs : Con ext s sel (if t then 1 else 0)) :
    Completes (RangeTable p c.L) ext s (selectCrt a b sel) (fun r s' => c.pW ext s' r (if t then X else Y)) :=
  ((FpChip.cmp h).select (t := t = true) ha hb (by simpa [bit] using hs)).run hg

/-- C66, `range_check`: any number of the claimed size passes. -/
theorem C66_range_check (h : FpCmp c) (hg : Good (RangeTable p c.L) ext s) {A maxBits : ℕ} (ha : ProperW c.n c.k ext s a A)
    (hA : A < 2 ^ maxBits) : Completes (RangeTable p c.L) ext s (c.rangeCheck a maxBits) (fun _ _ => True) :=
  (FpChip.rangeCheck_cmp h ha hA).run hg

/-- C66, `is_less_than_p` decides for any properly ranged number. -/
theorem C66_is_less_than_p (h : FpCmp c) (hg : Good (RangeTable p c.L) ext s) {A : ℕ} (ha : ProperW c.n c.k ext s a A) :
    Completes (RangeTable p c.L) ext s (c.isLessThanP a) (fun r s' => Con ext s' r (if A < c.modulus then 1 else 0)) :=
  (FpChip.isLessThanP_cmp h ha).run hg

/-! ### The concrete parameters -/

theorem opsFit_88_3 {m : ℕ} (h2 : m < 2 ^ 256) : OpsFit (fpChip bn254R 16 m 88 3) := by
  have s2 : Nat.size m ≤ 256 := Nat.size_le.2 h2
  refine ⟨carryFits_88_3 _ _ (by show (Utils.log2Ceil 3).getD 0 + 88 + 88 ≤ 240; decide),
    carryZeroFits_88_3 _ _ (by show (Utils.log2Ceil 3).getD 0 + 88 + 88 + 1 ≤ 240; decide),
    by show (Utils.log2Ceil 3).getD 0 + 88 + 88 + 3 ≤ 3 * 88; decide, ?_⟩
  show 2 ^ Nat.size m * 2 ^ Nat.size m + 2 ^ Nat.size m < 2 ^ (88 * 3 + numBits bn254R - 3)
  rw [numBits, size_bn254R]
  have h : 2 ^ Nat.size m ≤ 2 ^ 256 := Nat.pow_le_pow_right (by norm_num) s2
  calc 2 ^ Nat.size m * 2 ^ Nat.size m + 2 ^ Nat.size m ≤ 2 ^ 256 * 2 ^ 256 + 2 ^ 256 := by
        exact Nat.add_le_add (Nat.mul_le_mul h h) h
    _ ≤ 2 ^ 256 * 2 ^ 256 + 2 ^ 256 * 2 ^ 256 := by
        exact Nat.add_le_add_left (Nat.le_mul_of_pos_right _ (by positivity)) _
    _ = 2 ^ 513 := by rw [← pow_add, ← Nat.two_mul, ← pow_succ']
    _ < _ := Nat.pow_lt_pow_right (by norm_num) (by norm_num)

theorem fpCmp_secpP : FpCmp (fpChip bn254R 16 secpP 88 3) := fpCmp_88_3 (by decide +kernel) (by decide +kernel)

/-- Load two elements of secp256k1's base field, divide one by the other, and check the product: a program using `C66` for all
inputs. -/
def secpDivCheck (u v : ZMod secpP) : M bn254R Unit := do
  let c := fpChip bn254R 16 secpP 88 3
  let a ← c.loadPrivate u
  let b ← c.loadPrivate v
  let q ← c.ops.divide a b
  let r ← c.ops.mul q b
  c.assertEqual r a

/-- The hypotheses of C66 are met: the program completes for every `u` and every nonzero `v`. -/
theorem secpDivCheck_completes [Fact (fpChip bn254R 16 secpP 88 3).modulus.Prime] (ext : Cell → ZMod bn254R) (u v : ZMod secpP)
    (hv : v ≠ 0) :
    Completes (RangeTable bn254R 16) ext (Ctx.new false 0 "" 0 [] []) (secpDivCheck u v) (fun _ _ => True) := by
  have hf := opsFit_88_3 (m := secpP) (by decide +kernel)
  let k := FpChip.cmp fpCmp_secpP
  refine Cmp.run ?_ (good_new 0 "" 0)
  refine Cmp.bind (k.loadPrivate u) fun a s1 _ ha => Cmp.bind (k.loadPrivate v) fun b s2 e2 hb => ?_
  refine Cmp.bind (k.divide (hf.zeroFits fpCmp_secpP) (k.p_mono ha e2) hb hv) fun q s3 e3 hq => ?_
  refine Cmp.bind (k.mul (sx := (FpChip.laws fpCmp_secpP.ok).pSz) (sy := (FpChip.laws fpCmp_secpP.ok).pSz)
    ⟨hf.mulBits, lt_of_le_of_lt (Nat.le_add_right _ _) hf.size⟩ (k.p_u hq) (k.p_u (k.p_mono hb e3))) fun r s4 e4 hr => ?_
  have : u / v * v = u := by
    have := (Fact.out : (fpChip bn254R 16 secpP 88 3).modulus.Prime)
    haveI : Fact secpP.Prime := ⟨this⟩
    exact div_mul_cancel₀ u hv
  refine k.assertEqual ?_ (k.p_mono (k.p_mono (k.p_mono ha e2) e3) e4)
  exact this ▸ hr

end H2
