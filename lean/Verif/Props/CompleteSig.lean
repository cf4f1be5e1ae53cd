import Verif.Ecc.CompleteSig
import Verif.Props.Sig

/-!
# Property C70 (signature verification: an honest prover succeeds)

The verifiers draw three random points: one for the fixed base multiplication, one for the variable base multiplication and, for ECDSA,
one for the final sum.  Apart from a few exceptional values of each (the bounds are explicit), the run does not panic, the honest
assignment satisfies every constraint and the result cell holds the validity of the signature.
-/

set_option autoImplicit false
set_option linter.unusedSectionVars false
namespace H2
variable {p : ℕ} [Fact p.Prime] {ext : Cell → ZMod p} {c : FpChip p} {N : ℕ} {cs : FpChip p} {st : Ctx p}

theorem sum_bad_card {G : Type} [AddCommGroup G] {n : ℕ} (hn : n.Prime) (hn2 : n ≠ 2) (hG : Nat.card G = n) (g1 g2 : G) :
    {A : G | ¬ (SumOk A [g1, g2] ∧ A + (g1 + g2) ≠ -A)}.ncard ≤ 5 := by
  have hfin : Finite G := Nat.finite_of_card_ne_zero (by rw [hG]; exact hn.ne_zero)
  have h1 : ¬ (n : ℤ) ∣ 1 := by
    intro h
    have := Int.le_of_dvd (by norm_num) h
    have := hn.two_le
    omega
  have h2 : ¬ (n : ℤ) ∣ 2 := by
    intro h
    have := Int.le_of_dvd (by norm_num) h
    have := hn.two_le
    omega
  refine le_trans (Set.ncard_le_ncard ?_ (Set.toFinite _))
    (bad_card hn hG [(1, g1), (1, -g1), (1, g2 - g1), (1, -g2 - g1), (2, -(g1 + g2))] ?_)
  · intro A hA
    simp only [Set.mem_setOf_eq, SumOk, and_true] at hA
    simp only [List.mem_cons, List.not_mem_nil, or_false, Set.mem_setOf_eq, exists_eq_or_imp, exists_eq_left, one_smul, two_smul]
    by_contra hc
    simp only [not_or] at hc
    obtain ⟨n1, n2, n3, n4, n5⟩ := hc
    refine hA ⟨⟨n1, n2, fun h => n3 (by rw [← h]; abel), fun h => n4 (by rw [← h]; abel)⟩, fun h => n5 ?_⟩
    calc A + A = A + (g1 + g2) + A - (g1 + g2) := by abel
      _ = -A + A - (g1 + g2) := by rw [h]
      _ = -(g1 + g2) := by abel
  · intro e he
    simp only [List.mem_cons, List.not_mem_nil, or_false] at he
    rcases he with rfl | rfl | rfl | rfl | rfl <;> assumption

section
variable (h : FpCmp c) [Fact c.modulus.Prime] (hf : EcFitsC (FpChip.cmp h)) [hNp : Fact N.Prime]
    (hcs : ScalarChipC c N cs) {b : ZMod c.modulus} (hb : CurveOk b) (hG : Nat.card (ECurve b) = N)
    {C : NativeCurve c.ops} {φ : C.G → ECurve b} (hC : NativeLaws (FpChip.laws h.ok) b C φ) {gen : C.G} (hg : φ gen ≠ 0)
    (pf pv : c.ops.V × c.ops.V) {pubkey : EcPt c.ops} {r s z : CrtInt p} {vw fw : ℕ} (hvw : 1 ≤ vw) (hvN : 2 ^ (vw + 1) < N)
    (hfw0 : 1 ≤ fw) (hfw : 2 ^ fw ≤ N) (hfp : fw < p) (hgood : Good (RangeTable p c.L) ext st)
    {Q : ECurve b} {R S Z : ℕ} (hQ : EcW0 (FpChip.cmp h) b ext st pubkey Q) (hQ0 : Q ≠ 0)
    (hR : ProperW c.n c.k ext st r R) (hS : ProperW c.n c.k ext st s S) (hZ : ProperW c.n c.k ext st z Z)
include h hf hNp hcs hb hG hC hg hvw hvN hfw0 hfw hfp hgood hQ hQ0 hR hS hZ

open Classical in
/-- **C70** ECDSA: for all inputs with `0 < s < N`, `r` and the message hash not divisible by `N`, and `z / s G + r / s Q` finite with
first coordinate below `N` (C52 shows that the circuit cannot be satisfied otherwise, for `r` in range), and all but a few random
points, the prover succeeds and the result is the validity of the signature. -/
theorem C70_ecdsa (hNP : N ≤ c.modulus) (hS0 : S ≠ 0) (hSN : S < N) (hRN : ¬ N ∣ R) (hZN : ¬ N ∣ Z)
    (hV : ∃ x y, IsPt b x y (((Z : ZMod N) * (S : ZMod N)⁻¹).val • φ gen + ((R : ZMod N) * (S : ZMod N)⁻¹).val • Q) ∧ x.val < N) :
    ∃ B1 B2 B3 : Set (ECurve b), B1.ncard ≤ fbBadBound ((c.n * c.k + fw - 1) / fw) ∧
      B2.ncard ≤ msmBadBound vw ((c.n * c.k + vw - 1) / vw) 1 ∧ B3.ncard ≤ 5 ∧
      ∀ rand : SigRand c, rand.fixed.pair = pf → rand.var.pair = pv → ∀ A1 A2 A3, SigRandPts rand b A1 A2 A3 →
        A1 ∉ B1 → A2 ∉ B2 → A3 ∉ B3 →
        Completes (RangeTable p c.L) ext st (ecdsaVerify c N C b gen rand pubkey r s z vw fw) (fun res s' =>
          Con ext s' res (if EcdsaValid N (φ gen) Q Z R S then 1 else 0)) := by
  have hfin : Finite (ECurve b) := Nat.finite_of_card_ne_zero (by rw [hG]; exact hNp.out.ne_zero)
  have hord : ∀ g : ECurve b, N • g = 0 := fun g => by rw [← hG]; exact card_nsmul_eq_zero'
  have hN2 : N ≠ 2 := by
    have : 2 ^ 1 ≤ 2 ^ (vw + 1) := Nat.pow_le_pow_right (by norm_num) (by omega)
    omega
  obtain ⟨x, y, hV, hx⟩ := hV
  refine ⟨_, _, _, fb_bad_card hNp.out hN2 hG (K := ZMod c.modulus) pf.1 (wb := fw) (Q := φ gen) (N := ((Z : ZMod N) * (S : ZMod N)⁻¹).val),
    msm_bad_card hNp.out hG (K := ZMod c.modulus) pv.1 (wb := vw) (qs := [Q]) (Ns := [((R : ZMod N) * (S : ZMod N)⁻¹).val]) (by simp) rfl hvw hvN,
    sum_bad_card hNp.out hN2 hG (((Z : ZMod N) * (S : ZMod N)⁻¹).val • φ gen) (((R : ZMod N) * (S : ZMod N)⁻¹).val • Q), ?_⟩
  rintro rand rfl rfl A1 A2 A3 hA b1 b2 b3
  simp only [Set.mem_setOf_eq, not_not] at b1 b2 b3
  exact (ecdsaVerify_cmp h hf hcs hN2 hNP b hb hC gen hg (hord _) rand hvw hfw0 hfw hfp hQ hQ0 (hord Q) hR hS hZ hS0 hSN hRN hZN rfl rfl hV hx
    hA b1 b2 b3.1 b3.2).run hgood

open Classical in
/-- **C70** Schnorr: for all inputs with `s` and the challenge `e` not divisible by `N`, and `R = s G - e P` finite with first coordinate
below `N` and `s G ≠ - e P`. -/
theorem C70_schnorr (hSN : ¬ N ∣ S) (hZN : ¬ N ∣ Z) (hV : ∃ x y, IsPt b x y (S • φ gen - Z • Q) ∧ x.val < N)
    (hop : S • φ gen ≠ -(Z • Q)) :
    ∃ B1 B2 : Set (ECurve b), B1.ncard ≤ fbBadBound ((c.n * c.k + fw - 1) / fw) ∧
      B2.ncard ≤ msmBadBound vw ((c.n * c.k + vw - 1) / vw) 1 ∧
      ∀ rand : SigRand c, rand.fixed.pair = pf → rand.var.pair = pv → ∀ A1 A2 A3, SigRandPts rand b A1 A2 A3 → A1 ∉ B1 → A2 ∉ B2 →
        Completes (RangeTable p c.L) ext st (schnorrVerify c N C b gen rand pubkey r s z vw fw) (fun res s' =>
          Con ext s' res (if SchnorrValid N (φ gen) Q Z R S ∧ Z < N then 1 else 0)) := by
  have hfin : Finite (ECurve b) := Nat.finite_of_card_ne_zero (by rw [hG]; exact hNp.out.ne_zero)
  have hord : ∀ g : ECurve b, N • g = 0 := fun g => by rw [← hG]; exact card_nsmul_eq_zero'
  have hN2 : N ≠ 2 := by
    have : 2 ^ 1 ≤ 2 ^ (vw + 1) := Nat.pow_le_pow_right (by norm_num) (by omega)
    omega
  obtain ⟨x, y, hV, hx⟩ := hV
  refine ⟨_, _, fb_bad_card hNp.out hN2 hG (K := ZMod c.modulus) pf.1 (wb := fw) (Q := φ gen) (N := S),
    msm_bad_card hNp.out hG (K := ZMod c.modulus) pv.1 (wb := vw) (qs := [Q]) (Ns := [Z]) (by simp) rfl hvw hvN, ?_⟩
  rintro rand rfl rfl A1 A2 A3 hA b1 b2
  simp only [Set.mem_setOf_eq, not_not] at b1 b2
  exact (schnorrVerify_cmp h hf hcs hN2 b hb hC gen hg (hord _) rand hvw hfw0 hfw hfp hQ hQ0 (hord Q) hR hS hZ hSN hZN hV hx hop
    hA b1 b2).run hgood

end

/-! ### secp256k1 -/

theorem scalarChipC_secp : ScalarChipC secpChip secpN (fpChip bn254R 16 secpN 88 3) where
  toScalarChip := scalarChip_secp
  cmp := fpCmp_88_3 (by decide +kernel) (by decide +kernel)
  limbs := by
    show max (_ + 88 + 88) 88 + 3 ≤ 3 * 88
    exact of_decide_eq_true rfl
  size := by
    rw [size_secpN, numBits, size_bn254R]
    show 2 ^ 256 * 2 ^ 256 + 2 ^ (88 * 3) < 2 ^ (88 * 3 + 254 - 3)
    decide +kernel

open Classical in
/-- **C70** ECDSA over secp256k1 (windows of 4 bits, three limbs of 88 bits, BN254): of the about `2 ^ 256` values of each of the three
random points at most 135, 232 and 5 are bad. -/
theorem C70_ecdsa_secp256k1 {ext : Cell → ZMod bn254R} {st : Ctx bn254R} (hgood : Good (RangeTable bn254R 16) ext st)
    (pf pv : ZMod secpP × ZMod secpP) {pubkey : EcPt secpChip.ops} {r s z : CrtInt bn254R} {Q : ECurve (7 : ZMod secpP)} {R S Z : ℕ}
    (hQ : EcW0 secpK (7 : ZMod secpP) ext st pubkey Q) (hQ0 : Q ≠ 0) (hR : ProperW 88 3 ext st r R) (hS : ProperW 88 3 ext st s S)
    (hZ : ProperW 88 3 ext st z Z) (hS0 : S ≠ 0) (hSN : S < secpN) (hRN : ¬ secpN ∣ R) (hZN : ¬ secpN ∣ Z)
    (hV : ∃ x y, IsPt (7 : ZMod secpP) x y (((Z : ZMod secpN) * (S : ZMod secpN)⁻¹).val • secpG +
      ((R : ZMod secpN) * (S : ZMod secpN)⁻¹).val • Q) ∧ x.val < secpN) :
    ∃ B1 B2 B3 : Set (ECurve (7 : ZMod secpP)), B1.ncard ≤ 135 ∧ B2.ncard ≤ 232 ∧ B3.ncard ≤ 5 ∧
      ∀ rand : SigRand secpChip, rand.fixed.pair = pf → rand.var.pair = pv → ∀ A1 A2 A3, SigRandPts rand (7 : ZMod secpP) A1 A2 A3 →
        A1 ∉ B1 → A2 ∉ B2 → A3 ∉ B3 →
        Completes (RangeTable bn254R 16) ext st
          (ecdsaVerify secpChip secpN (groupCurve secpChip (7 : ZMod secpP)) (7 : ZMod secpP) secpG rand pubkey r s z 4 4)
          (fun res s' => Con ext s' res (if EcdsaValid secpN secpG Q Z R S then 1 else 0)) := by
  obtain ⟨B1, B2, B3, h1, h2, h3, hB⟩ := C70_ecdsa secpCmp (ecFitsC_88_3 (by decide +kernel) secpCmp) scalarChipC_secp
    curveOk_secp256k1 card_secp256k1 (groupCurve_laws secpCmp.ok (7 : ZMod secpP)) secpG_spec.ne_zero pf pv (vw := 4) (fw := 4)
    (by norm_num) (by decide +kernel) (by norm_num) (by decide +kernel) (by decide +kernel) hgood hQ hQ0 hR hS hZ (by decide +kernel)
    hS0 hSN hRN hZN hV
  exact ⟨B1, B2, B3, h1.trans (by decide), h2.trans (by decide), h3, hB⟩

open Classical in
/-- **C70** Schnorr over secp256k1. -/
theorem C70_schnorr_secp256k1 {ext : Cell → ZMod bn254R} {st : Ctx bn254R} (hgood : Good (RangeTable bn254R 16) ext st)
    (pf pv : ZMod secpP × ZMod secpP) {pubkey : EcPt secpChip.ops} {r s z : CrtInt bn254R} {Q : ECurve (7 : ZMod secpP)} {R S Z : ℕ}
    (hQ : EcW0 secpK (7 : ZMod secpP) ext st pubkey Q) (hQ0 : Q ≠ 0) (hR : ProperW 88 3 ext st r R) (hS : ProperW 88 3 ext st s S)
    (hZ : ProperW 88 3 ext st z Z) (hSN : ¬ secpN ∣ S) (hZN : ¬ secpN ∣ Z)
    (hV : ∃ x y, IsPt (7 : ZMod secpP) x y (S • secpG - Z • Q) ∧ x.val < secpN) (hop : S • secpG ≠ -(Z • Q)) :
    ∃ B1 B2 : Set (ECurve (7 : ZMod secpP)), B1.ncard ≤ 135 ∧ B2.ncard ≤ 232 ∧
      ∀ rand : SigRand secpChip, rand.fixed.pair = pf → rand.var.pair = pv → ∀ A1 A2 A3, SigRandPts rand (7 : ZMod secpP) A1 A2 A3 →
        A1 ∉ B1 → A2 ∉ B2 →
        Completes (RangeTable bn254R 16) ext st
          (schnorrVerify secpChip secpN (groupCurve secpChip (7 : ZMod secpP)) (7 : ZMod secpP) secpG rand pubkey r s z 4 4)
          (fun res s' => Con ext s' res (if SchnorrValid secpN secpG Q Z R S ∧ Z < secpN then 1 else 0)) := by
  obtain ⟨B1, B2, h1, h2, hB⟩ := C70_schnorr secpCmp (ecFitsC_88_3 (by decide +kernel) secpCmp) scalarChipC_secp
    curveOk_secp256k1 card_secp256k1 (groupCurve_laws secpCmp.ok (7 : ZMod secpP)) secpG_spec.ne_zero pf pv (vw := 4) (fw := 4)
    (by norm_num) (by decide +kernel) (by norm_num) (by decide +kernel) (by decide +kernel) hgood hQ hQ0 hR hS hZ
    hSN hZN hV hop
  exact ⟨B1, B2, h1.trans (by decide), h2.trans (by decide), hB⟩

/-- The hypotheses of `C70_ecdsa_secp256k1` on the numbers are met, for a valid signature: the key `1`, the nonce `1`, the message hash
`1`, `r` the first coordinate of the generator and `s = r + 1`. -/
theorem ecdsa_example : secpGx + 1 ≠ 0 ∧ secpGx + 1 < secpN ∧ ¬ secpN ∣ secpGx ∧ ¬ secpN ∣ 1 ∧ secpG ≠ 0 ∧
    (∃ x y, IsPt (7 : ZMod secpP) x y ((((1 : ℕ) : ZMod secpN) * ((secpGx + 1 : ℕ) : ZMod secpN)⁻¹).val • secpG +
      (((secpGx : ℕ) : ZMod secpN) * ((secpGx + 1 : ℕ) : ZMod secpN)⁻¹).val • secpG) ∧ x.val < secpN) ∧
    EcdsaValid secpN secpG secpG 1 secpGx (secpGx + 1) := by
  have hlt : secpGx + 1 < secpN := by decide +kernel
  have hxp : secpGx < secpP := by decide +kernel
  have h0 : 0 < secpGx := by decide +kernel
  have hnd : ¬ secpN ∣ secpGx := fun h => absurd (Nat.le_of_dvd h0 h) (by omega)
  have hpos : 1 < secpN := by omega
  have hnd1 : ¬ secpN ∣ 1 := fun h => absurd (Nat.le_of_dvd one_pos h) (by omega)
  have hs : ((secpGx + 1 : ℕ) : ZMod secpN) ≠ 0 := natCast_ne_zero_of_lt (by omega) hlt
  have hsum : (((1 : ℕ) : ZMod secpN) * ((secpGx + 1 : ℕ) : ZMod secpN)⁻¹).val • secpG +
      (((secpGx : ℕ) : ZMod secpN) * ((secpGx + 1 : ℕ) : ZMod secpN)⁻¹).val • secpG = secpG := by
    generalize secpGx = X at hs ⊢
    have key : ∀ a b : ZMod secpN, a + b = 1 → a.val • secpG + b.val • secpG = secpG := by
      intro a b hab
      rw [← add_smul]
      have h1 : (a.val + b.val) % secpN = 1 := by
        rw [← ZMod.val_add, hab, ZMod.val_one]
      have h2 := Nat.div_add_mod (a.val + b.val) secpN
      rw [← h2, h1, add_smul, mul_comm, mul_smul, secp_order, smul_zero, zero_add, one_smul]
    refine key _ _ ?_
    rw [← add_mul, ← Nat.cast_add, add_comm 1 X, mul_inv_cancel₀ hs]
  have hval : ((secpGx : ZMod secpP)).val = secpGx := ZMod.val_natCast_of_lt hxp
  refine ⟨by omega, hlt, hnd, hnd1, secpG_spec.ne_zero, ⟨_, _, by rw [hsum]; exact secpG_spec, by rw [hval]; omega⟩, ?_⟩
  refine ⟨⟨h0, by omega⟩, ⟨by omega, hlt⟩, _, _, by rw [hsum]; exact secpG_spec, ?_⟩
  rw [hval]
  exact Nat.mod_eq_of_lt (by omega)

end H2
