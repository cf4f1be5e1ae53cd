import Verif.Ecc.SoundSig
import Verif.Ecc.GroupOrder
import Verif.Props.Ecc

/-!
# C52: the signature verifiers

`EcdsaValid` and `SchnorrValid` (Ecc/SoundSig.lean) are the textbook conditions, over Mathlib's group of points.
-/

set_option autoImplicit false
set_option linter.unusedSectionVars false
namespace H2
variable {p : ℕ} [Fact p.Prime] {c : FpChip p} {N : ℕ} {cs : FpChip p} {st st' : Ctx p} {w : Cell → ZMod p}

section
variable (h : FpOk c) [Fact c.modulus.Prime] (hf : EcFits (FpChip.laws h)) [hNp : Fact N.Prime]
    (hcs : ScalarChip c N cs) (hN2 : N ≠ 2) (hNP : N ≤ c.modulus) {b : ZMod c.modulus} (hb : CurveOk b)
    {C : NativeCurve c.ops} {φ : C.G → ECurve b} (hC : NativeLaws (FpChip.laws h) b C φ) {gen : C.G} (hg : φ gen ≠ 0)
    (hgN : N • φ gen = 0) {rand : SigRand c} {pubkey : EcPt c.ops} {r s z : CrtInt p} {vw fw : ℕ} (hfw : 2 ^ fw ≤ N) (hfp : fw < p)
    {res : AV p} (hi : Inv st) {Q : ECurve b} {R S Z : ℕ}
include h hf hNp hcs hN2 hNP hb hC hg hgN hfw hfp hi

/-- **C52** ECDSA, acceptance: whenever the constraints hold and the result cell is not zero, the result is one and the signature is valid.  Assumptions: the
public key is a finite point of order `N` (not checked, as the name says), the message hash is not a multiple of `N`, `N ≤` the
modulus of the coordinate field. -/
theorem C52_ecdsa_accept (hrun : ecdsaVerify c N C b gen rand pubkey r s z vw fw st = some (res, st')) (hw : Sat (RangeTable p c.L) st' w)
    (hQ : EcRep0 (FpChip.laws h) b w pubkey Q) (hQ0 : Q ≠ 0) (hQN : N • Q = 0) (hR : ProperOk c.n c.k w r R)
    (hS : ProperOk c.n c.k w s S) (hZ : ProperOk c.n c.k w z Z) (hZN : ¬ N ∣ Z) (h1 : at' w res ≠ 0) :
    at' w res = 1 ∧ EcdsaValid N (φ gen) Q Z R S := by
  obtain ⟨U1, U2, -, -, -, e, -⟩ := (ecdsaVerify_sound h hf hcs hN2 hNP b hb hC gen hg hgN rand pubkey r s z vw fw hfw hfp).run hi hrun hw
    Q R S Z hQ hQ0 hQN hR hS hZ hZN
  rw [e] at h1 ⊢
  split at h1
  · rename_i h2
    rw [if_pos h2]
    exact ⟨rfl, h2.1⟩
  · exact absurd rfl h1

/-- **C52** ECDSA, rejection: the result is one or zero, and it is one for a valid signature, unless `z / s` or `r / s` modulo `N` is
below `2 ^ bits(N) - N` (for secp256k1 below `2 ^ 129`): then the prover may choose the other representative and reject. -/
theorem C52_ecdsa_reject (hrun : ecdsaVerify c N C b gen rand pubkey r s z vw fw st = some (res, st')) (hw : Sat (RangeTable p c.L) st' w)
    (hQ : EcRep0 (FpChip.laws h) b w pubkey Q) (hQ0 : Q ≠ 0) (hQN : N • Q = 0) (hR : ProperOk c.n c.k w r R)
    (hS : ProperOk c.n c.k w s S) (hZ : ProperOk c.n c.k w z Z) (hZN : ¬ N ∣ Z) :
    (at' w res = 0 ∨ at' w res = 1) ∧ (EcdsaValid N (φ gen) Q Z R S → at' w res = 0 →
      ((Z : ZMod N) * (S : ZMod N)⁻¹).val + N < 2 ^ Nat.size N ∨ ((R : ZMod N) * (S : ZMod N)⁻¹).val + N < 2 ^ Nat.size N) := by
  obtain ⟨U1, U2, u1, u2, hq, e, -⟩ := (ecdsaVerify_sound h hf hcs hN2 hNP b hb hC gen hg hgN rand pubkey r s z vw fw hfw hfp).run hi hrun hw
    Q R S Z hQ hQ0 hQN hR hS hZ hZN
  refine ⟨by rw [e]; split <;> simp, fun hv h0 => ?_⟩
  obtain ⟨q1, q2⟩ := hq ⟨hv.2.1.1.ne', hv.2.1.2⟩
  have key : ∀ {U : ℕ}, U < 2 ^ Nat.size N → ¬ U < N → (U : ZMod N).val + N < 2 ^ Nat.size N := by
    intro U hU hN
    rw [ZMod.val_natCast]
    have := Nat.div_add_mod U N
    have h1 : 1 ≤ U / N := (Nat.one_le_div_iff hNp.out.pos).2 (by omega)
    have := Nat.mul_le_mul_left N h1
    omega
  rw [e] at h0
  split at h0
  · simp at h0
  · rename_i h1
    rw [← q1, ← q2]
    by_cases g1 : U1 < N
    · exact .inr (key u2 fun g2 => h1 ⟨hv, g1, g2⟩)
    · exact .inl (key u1 g1)

/-- **C52** ECDSA: for `r` and `s` in range the circuit can only be satisfied if the point `z / s G + r / s Q` is finite with first
coordinate below `N`: a valid signature for which it is in `[N, modulus)` cannot be proved at all (nor can its invalidity). -/
theorem C52_ecdsa_small_x (hrun : ecdsaVerify c N C b gen rand pubkey r s z vw fw st = some (res, st')) (hw : Sat (RangeTable p c.L) st' w)
    (hQ : EcRep0 (FpChip.laws h) b w pubkey Q) (hQ0 : Q ≠ 0) (hQN : N • Q = 0) (hR : ProperOk c.n c.k w r R)
    (hS : ProperOk c.n c.k w s S) (hZ : ProperOk c.n c.k w z Z) (hZN : ¬ N ∣ Z) (h1 : R ≠ 0) (h2 : R < N) (h3 : S ≠ 0) (h4 : S < N) :
    ∃ x y, IsPt b x y (((Z : ZMod N) * (S : ZMod N)⁻¹).val • φ gen + ((R : ZMod N) * (S : ZMod N)⁻¹).val • Q) ∧ x.val < N := by
  obtain ⟨U1, U2, -, -, hq, -, e⟩ := (ecdsaVerify_sound h hf hcs hN2 hNP b hb hC gen hg hgN rand pubkey r s z vw fw hfw hfp).run hi hrun hw
    Q R S Z hQ hQ0 hQN hR hS hZ hZN
  obtain ⟨q1, q2⟩ := hq ⟨h3, h4⟩
  rw [← q1, ← q2, smul_val hgN, smul_val hQN]
  exact e h1 h2 h3 h4

open Classical in
/-- **C52** Schnorr: the result is exactly the validity of the signature for `0 < s` and `0 < e < N`.  When the latter hold, the
circuit can only be satisfied if `R = s G - e P` is finite with first coordinate below `N` and `s G ≠ - e P`. -/
theorem C52_schnorr (hrun : schnorrVerify c N C b gen rand pubkey r s z vw fw st = some (res, st')) (hw : Sat (RangeTable p c.L) st' w)
    (hQ : EcRep0 (FpChip.laws h) b w pubkey Q) (hQ0 : Q ≠ 0) (hQN : N • Q = 0) (hR : ProperOk c.n c.k w r R)
    (hS : ProperOk c.n c.k w s S) (hZ : ProperOk c.n c.k w z Z) :
    at' w res = (if SchnorrValid N (φ gen) Q Z R S ∧ S ≠ 0 ∧ Z ≠ 0 ∧ Z < N then 1 else 0) ∧
    (S ≠ 0 → S < N → Z ≠ 0 → Z < N → ∃ x y, IsPt b x y (S • φ gen - Z • Q) ∧ x.val < N ∧ S • φ gen ≠ -(Z • Q)) :=
  (schnorrVerify_sound h hf hcs hN2 hNP b hb hC gen hg hgN rand pubkey r s z vw fw hfw hfp).run hi hrun hw Q R S Z hQ hQ0 hQN hR hS hZ

end

/-! ### secp256k1 -/

theorem scalarChip_secp : ScalarChip secpChip secpN (fpChip bn254R 16 secpN 88 3) where
  new := fpParams_secpN.new_eq
  ok := fpParams_secpN.ok fpParams_secpN.new_eq
  L := rfl
  n := rfl
  k := rfl
  modulus := rfl
  fits := by
    refine ⟨carryZeroFits_88_3 _ _ (by show _ ≤ 240; exact of_decide_eq_true rfl), ?_⟩
    rw [size_secpN, numBits, size_bn254R]
    show 2 ^ 256 * 2 ^ 256 + 2 ^ (88 * 3) ≤ 2 ^ (88 * 3 + 254 - 3)
    decide +kernel

/-- The generator of secp256k1. -/
noncomputable def secpG : ECurve (7 : ZMod secpP) := secpG_pt.choose

theorem secpG_spec : IsPt (7 : ZMod secpP) (secpGx : ZMod secpP) (secpGy : ZMod secpP) secpG := secpG_pt.choose_spec

variable {t t' : Ctx bn254R} {v : Cell → ZMod bn254R} {rand : SigRand secpChip} {pubkey : EcPt secpChip.ops}
    {r s z : CrtInt bn254R} {vw fw : ℕ} {res : AV bn254R} {Q : ECurve (7 : ZMod secpP)} {R S Z : ℕ}

theorem windowBits_secp (h : fw ≤ 64) : 2 ^ fw ≤ secpN ∧ fw < bn254R :=
  ⟨(Nat.pow_le_pow_right (by norm_num) h).trans (by decide +kernel), h.trans_lt (by decide +kernel)⟩

theorem secp_order (g : ECurve (7 : ZMod secpP)) : secpN • g = 0 := by
  have := card_nsmul_eq_zero' (G := ECurve (7 : ZMod secpP)) (x := g)
  rwa [card_secp256k1] at this

/-- `C52_ecdsa_accept` for secp256k1 over BN254 with three limbs of 88 bits: no side condition is left but those on the inputs. -/
theorem C52_ecdsa_accept_secp256k1 (hfw : fw ≤ 64) (hi : Inv t)
    (hrun : ecdsaVerify secpChip secpN (groupCurve secpChip (7 : ZMod secpP)) (7 : ZMod secpP) secpG rand pubkey r s z vw fw t = some (res, t'))
    (hw : Sat (RangeTable bn254R 16) t' v) (hQ : EcRep0 (FpChip.laws secpOk) (7 : ZMod secpP) v pubkey Q) (hQ0 : Q ≠ 0)
    (hR : ProperOk 88 3 v r R) (hS : ProperOk 88 3 v s S) (hZ : ProperOk 88 3 v z Z) (hZN : ¬ secpN ∣ Z)
    (h1 : at' v res ≠ 0) : at' v res = 1 ∧ EcdsaValid secpN secpG Q Z R S :=
  C52_ecdsa_accept secpOk (ecFits_88_3 (by decide +kernel) secpOk) scalarChip_secp (by decide +kernel) (by decide +kernel)
    curveOk_secp256k1 (groupCurve_laws secpOk (7 : ZMod secpP)) secpG_spec.ne_zero (secpG_order secpG_spec) (windowBits_secp hfw).1
    (windowBits_secp hfw).2 hi hrun hw hQ hQ0 (secp_order Q) hR hS hZ hZN h1

open Classical in
/-- `C52_schnorr` for secp256k1. -/
theorem C52_schnorr_secp256k1 (hfw : fw ≤ 64) (hi : Inv t)
    (hrun : schnorrVerify secpChip secpN (groupCurve secpChip (7 : ZMod secpP)) (7 : ZMod secpP) secpG rand pubkey r s z vw fw t = some (res, t'))
    (hw : Sat (RangeTable bn254R 16) t' v) (hQ : EcRep0 (FpChip.laws secpOk) (7 : ZMod secpP) v pubkey Q) (hQ0 : Q ≠ 0)
    (hR : ProperOk 88 3 v r R) (hS : ProperOk 88 3 v s S) (hZ : ProperOk 88 3 v z Z) :
    at' v res = (if SchnorrValid secpN secpG Q Z R S ∧ S ≠ 0 ∧ Z ≠ 0 ∧ Z < secpN then 1 else 0) ∧
    (S ≠ 0 → S < secpN → Z ≠ 0 → Z < secpN → ∃ x y, IsPt (7 : ZMod secpP) x y (S • secpG - Z • Q) ∧ x.val < secpN ∧ S • secpG ≠ -(Z • Q)) :=
  C52_schnorr secpOk (ecFits_88_3 (by decide +kernel) secpOk) scalarChip_secp (by decide +kernel) (by decide +kernel)
    curveOk_secp256k1 (groupCurve_laws secpOk (7 : ZMod secpP)) secpG_spec.ne_zero (secpG_order secpG_spec) (windowBits_secp hfw).1
    (windowBits_secp hfw).2 hi hrun hw hQ hQ0 (secp_order Q) hR hS hZ

end H2
