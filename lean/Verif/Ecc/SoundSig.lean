import Verif.Ecc.Sig
import Verif.Ecc.SoundFixed

/-!
# Soundness of the signature verifiers
-/

set_option autoImplicit false
set_option linter.unusedSectionVars false
namespace H2
variable {p : ℕ} [Fact p.Prime]

/-! ### Specification -/

/-- ECDSA (SEC 1, 4.1.4): `r` and `s` are in `[1, N)`, the point `(z / s) G + (r / s) Q` is finite and its first coordinate is
`r` modulo `N`. -/
def EcdsaValid {q : ℕ} [Fact q.Prime] {b : ZMod q} (N : ℕ) (G Q : ECurve b) (z r s : ℕ) : Prop :=
  (0 < r ∧ r < N) ∧ (0 < s ∧ s < N) ∧ ∃ x y, IsPt b x y (((z : ZMod N) * (s : ZMod N)⁻¹).val • G +
    ((r : ZMod N) * (s : ZMod N)⁻¹).val • Q) ∧ x.val % N = r

/-- BIP 340 verification after the challenge `e` has been computed: `r` is a field element, `s < N`, and `R = s G - e P` is finite,
has an even second coordinate and the first coordinate `r`. -/
def SchnorrValid {q : ℕ} [Fact q.Prime] {b : ZMod q} (N : ℕ) (G P : ECurve b) (e r s : ℕ) : Prop :=
  r < q ∧ s < N ∧ ∃ x y, IsPt b x y (s • G - e • P) ∧ x.val = r ∧ y.val % 2 = 0

/-- `cs` is the chip for the field of scalars with the same parameters as `c`. -/
structure ScalarChip (c : FpChip p) (N : ℕ) (cs : FpChip p) : Prop where
  new : FpChip.new (p := p) c.L N c.n c.k = some cs
  ok : FpOk cs
  L : cs.L = c.L
  n : cs.n = c.n
  k : cs.k = c.k
  modulus : cs.modulus = N
  fits : CarryZeroFits cs (max (cs.kLog2 + cs.n + cs.n) cs.n + 1) ∧
    2 ^ Nat.size N * 2 ^ Nat.size N + 2 ^ (c.n * c.k) ≤ 2 ^ (c.n * c.k + numBits p - 3)

/-! ### Lemmas -/

theorem NumsRep.unique {m : ℕ} (hm : 2 ^ m ≤ p) {w : Cell → ZMod p} {as : List (AV p)} {Ns Ms : List ℕ} (h1 : NumsRep m w as Ns)
    (h2 : NumsRep m w as Ms) : Ns = Ms := casts_inj hm h1.2 h2.2 (h1.1.symm.trans h2.1)

theorem ProperOk.nums {n k : ℕ} {w : Cell → ZMod p} {a : CrtInt p} {A : ℕ} (h : ProperOk n k w a A) :
    ∃ ds, NumsRep n w a.trunc.limbs ds ∧ A = Nat.ofDigits (2 ^ n) ds := by
  obtain ⟨ds, h1, h2, h3, h4, h5, -⟩ := h
  exact ⟨ds, ⟨h3, h4⟩, h5⟩

theorem scalarMultiply_sound {F : FieldOps p} {K : Type} [Field K] [DecidableEq K] {tbl : ZMod p → Prop} (l : FieldLaws F K tbl)
    (hf : EcFits l) (bv : F.V) (hb : CurveOk (l.val bv)) (rand : MsmRand F) (P : EcPt F) (scalar : List (AV p)) (m wb : ℕ)
    (hm : 1 ≤ m) : Sound tbl (scalarMultiply F bv rand P scalar m wb) (fun w r => ∀ q : ECurve (l.val bv),
      EcRep0 l (l.val bv) w P q → (2 • q = 0 → q = 0) → ∃ Ns : List ℕ, NumsRep m w scalar Ns ∧
        EcRep0 l (l.val bv) w r (Nat.ofDigits (2 ^ m) Ns • q)) := by
  intro s
  refine Snd.assert fun _ => Snd.assert fun _ => Snd.assert fun _ => ?_
  refine (multiScalarMultiply_sound l hf bv hb rand [P] [scalar] m wb hm scalar.length (by simp) s).weaken ?_
  intro w r _ h q hP hq
  obtain ⟨Nss, h1, h2⟩ := h [q] (.cons hP .nil) (by simpa using hq)
  rcases h1 with _ | ⟨h1, h3⟩
  cases h3
  exact ⟨_, h1, by simpa using h2⟩

section
variable {G : Type} [AddCommGroup G] {N : ℕ} [hN : Fact N.Prime] {g : G}

theorem smul_ne_zero_of_prime (hg : g ≠ 0) (hNg : N • g = 0) {u : ℕ} (hu : (u : ZMod N) ≠ 0) : u • g ≠ 0 := by
  intro h
  have h1 : addOrderOf g ∣ u := addOrderOf_dvd_of_nsmul_eq_zero h
  have h2 : addOrderOf g ∣ N := addOrderOf_dvd_of_nsmul_eq_zero hNg
  rcases (Nat.dvd_prime hN.out).1 h2 with h3 | h3
  · exact hg (AddMonoid.addOrderOf_eq_one_iff.1 h3)
  · rw [h3] at h1
    exact hu ((ZMod.natCast_eq_zero_iff u N).2 h1)

theorem two_torsion_of_prime (h2 : N ≠ 2) (hNg : N • g = 0) (h : 2 • g = 0) : g = 0 := by
  by_contra hg
  refine smul_ne_zero_of_prime (N := N) hg hNg (u := 2) ?_ h
  rw [Ne, ZMod.natCast_eq_zero_iff]
  intro hd
  exact h2 ((Nat.prime_dvd_prime_iff_eq hN.out Nat.prime_two).1 hd)

theorem smul_val {u : ℕ} (hNg : N • g = 0) : (u : ZMod N).val • g = u • g := by
  rw [ZMod.val_natCast]
  conv_rhs => rw [← Nat.mod_add_div u N, add_smul, mul_comm, mul_smul, hNg, smul_zero, add_zero]

end

theorem EcRep0.finite {F : FieldOps p} {K : Type} [Field K] [DecidableEq K] {tbl : ZMod p → Prop} {l : FieldLaws F K tbl} {b : K}
    {w : Cell → ZMod p} {P : EcPt F} {g : ECurve b} (h : EcRep0 l b w P g) (hg : g ≠ 0) : EcRep l b w P g := by
  obtain ⟨X, Y, h1, h2 | ⟨h2, -⟩⟩ := h
  · exact ⟨X, Y, h1, h2⟩
  · exact absurd h2 hg

theorem not_neg_of {K : Type} [Field K] [DecidableEq K] {b : K} {X1 Y1 X2 Y2 : K} {g1 g2 : ECurve b} (h1 : IsPt b X1 Y1 g1)
    (h3 : IsPt b X2 Y2 g2) (h : g1 + g2 ≠ 0) : X1 ≠ X2 ∨ Y1 = Y2 := by
  by_contra hc
  push Not at hc
  obtain ⟨rfl, hy⟩ := hc
  rcases h1.x_eq h3 with ⟨e, -⟩ | ⟨-, e⟩
  · exact hy e
  · exact h (by rw [e]; simp)

theorem natCast_ne_zero_of_lt {N a : ℕ} (h0 : a ≠ 0) (h : a < N) : (a : ZMod N) ≠ 0 := by
  rw [Ne, ZMod.natCast_eq_zero_iff]
  exact Nat.not_dvd_of_pos_of_lt (Nat.pos_of_ne_zero h0) h

/-- A residue quotient, from a product. -/
theorem eq_mul_inv {N : ℕ} [Fact N.Prime] {u s z : ZMod N} (hs : s ≠ 0) (h : u * s = z) : u = z * s⁻¹ := by
  rw [← h, mul_assoc, mul_inv_cancel₀ hs, mul_one]

variable {c : FpChip p} {N : ℕ} {cs : FpChip p}

/-- The divisions of the verifier. -/
theorem sigDivide_sound [Fact N.Prime] (hcs : ScalarChip c N cs) (a s : CrtInt p) :
    Sound (RangeTable p c.L) (cs.ops.divideUnsafe a s) (fun w (r : CrtInt p) => ∃ U : ℕ, ProperOk c.n c.k w r U ∧
      U < 2 ^ Nat.size N ∧ ∀ A S : ℕ, ProperOk c.n c.k w a A → ProperOk c.n c.k w s S → S < N → (U : ZMod N) * S = A) := by
  obtain ⟨h1, h2, e1, e2, e3, rfl, h3, h4⟩ := hcs
  rw [← e1]
  intro st
  refine ((FpChip.laws h2).divideUnsafe a s st).weaken ?_
  rintro w r _ ⟨Q, ⟨U, u1, u2, rfl⟩, hq⟩
  rw [e2, e3] at u1
  refine ⟨U, u1, u2, fun A S hA hS hSN => ?_⟩
  have hA' : cs.uRep w a (A : ZMod cs.modulus) (cs.n, 2 ^ (c.n * c.k)) := by
    refine ⟨A, by rw [e2, e3]; exact hA.crt, ?_, ?_, by simp⟩
    · obtain ⟨_, _, e, -⟩ := hA
      rw [e2]; exact e.le
    · rw [abs_of_nonneg (Int.natCast_nonneg A)]
      exact_mod_cast hA.lt.le
  have hS' : cs.uRep w s (S : ZMod cs.modulus) (cs.n, 2 ^ Nat.size cs.modulus) := by
    refine ⟨S, by rw [e2, e3]; exact hS.crt, ?_, ?_, by simp⟩
    · obtain ⟨_, _, e, -⟩ := hS
      rw [e2]; exact e.le
    · rw [abs_of_nonneg (Int.natCast_nonneg S)]
      exact_mod_cast (hSN.trans (Nat.lt_size_self _)).le
  refine hq _ _ _ _ ⟨?_, ?_⟩ hA' hS'
  · exact h3
  · show _ ≤ 2 ^ (cs.n * cs.k + numBits p - 3)
    rw [e2, e3]
    exact h4

theorem sigNonzero_sound (hcs : ScalarChip c N cs) (a : CrtInt p) :
    Sound (RangeTable p c.L) (cs.isSoftNonzero a) (fun w r => ∀ A, ProperOk c.n c.k w a A →
      at' w r = if A ≠ 0 ∧ A < N then 1 else 0) := by
  rw [← hcs.L, ← hcs.n, ← hcs.k, ← hcs.modulus]
  exact FpChip.isSoftNonzero_sound hcs.ok a

theorem sigEnforce_sound (hcs : ScalarChip c N cs) (a : CrtInt p) :
    Sound (RangeTable p c.L) (cs.ops.enforceLessThan a) (fun w r => r = a ∧ ∀ A, ProperOk c.n c.k w a A → A < N) := by
  rw [← hcs.L, ← hcs.n, ← hcs.k, ← hcs.modulus]
  intro s
  exact Snd.bind (FpChip.enforceLessThanP_sound hcs.ok a s) fun _ s1 _ => Snd.pure fun w _ h => ⟨rfl, h⟩

theorem ite_bit_mul {P Q : Prop} [Decidable P] [Decidable Q] :
    (if P then (1 : ZMod p) else 0) * (if Q then 1 else 0) = if P ∧ Q then 1 else 0 := by
  by_cases hP : P <;> by_cases hQ : Q <;> simp [hP, hQ]

set_option maxHeartbeats 1000000 in
open Classical in
/-- **`ecdsa_verify_no_pubkey_check`.** -/
theorem ecdsaVerify_sound (h : FpOk c) [Fact c.modulus.Prime] (hf : EcFits (FpChip.laws h)) [hNp : Fact N.Prime]
    (hcs : ScalarChip c N cs) (hN2 : N ≠ 2) (hNP : N ≤ c.modulus) (b : ZMod c.modulus) (hb : CurveOk b)
    {C : NativeCurve c.ops} {φ : C.G → ECurve b} (hC : NativeLaws (FpChip.laws h) b C φ) (gen : C.G) (hg : φ gen ≠ 0)
    (hgN : N • φ gen = 0) (rand : SigRand c) (pubkey : EcPt c.ops) (r s msghash : CrtInt p) (vw fw : ℕ) (hfw : 2 ^ fw ≤ N) (hfp : fw < p) :
    Sound (RangeTable p c.L) (ecdsaVerify c N C b gen rand pubkey r s msghash vw fw) (fun w res =>
      ∀ (Q : ECurve b) (R S Z : ℕ), EcRep0 (FpChip.laws h) b w pubkey Q → Q ≠ 0 → N • Q = 0 → ProperOk c.n c.k w r R →
      ProperOk c.n c.k w s S → ProperOk c.n c.k w msghash Z → ¬ N ∣ Z →
      ∃ U1 U2 : ℕ, U1 < 2 ^ Nat.size N ∧ U2 < 2 ^ Nat.size N ∧
        (S ≠ 0 ∧ S < N → (U1 : ZMod N) = (Z : ZMod N) * (S : ZMod N)⁻¹ ∧ (U2 : ZMod N) = (R : ZMod N) * (S : ZMod N)⁻¹) ∧
        at' w res = (if EcdsaValid N (φ gen) Q Z R S ∧ U1 < N ∧ U2 < N then 1 else 0) ∧
        (R ≠ 0 → R < N → S ≠ 0 → S < N → ∃ x y, IsPt b x y (U1 • φ gen + U2 • Q) ∧ x.val < N)) := by
  intro st
  have hn1 : 1 ≤ c.n := h.n1
  refine Snd.unwrap fun cs' hcs' => ?_
  obtain rfl : cs = cs' := by rw [hcs.new, Option.some.injEq] at hcs'; exact hcs'
  refine Snd.unwrap fun nl hnl => ?_
  refine Snd.bind (loadConstants_sound nl st) fun n s1 _ => Snd.bind (sigNonzero_sound hcs r s1) fun rv s2 _ =>
    Snd.bind (sigNonzero_sound hcs s s2) fun sv s3 _ =>
    Snd.bind (sigDivide_sound hcs msghash s s3) fun u1 s4 _ => Snd.bind (sigDivide_sound hcs r s s4) fun u2 s5 _ => ?_
  refine Snd.bind (fixedScalarMultiply_sound (FpChip.laws h) hf b hb rand.fixed hC gen u1.trunc.limbs hn1 hfp
      (fun _ => fbSafe_of_prime hNp.out hfw hN2 hg hgN) s5) fun p1 s6 _ =>
    Snd.bind (scalarMultiply_sound (FpChip.laws h) hf b hb rand.var pubkey u2.trunc.limbs c.n vw hn1 s6) fun p2 s7 _ => ?_
  refine Snd.bind ((FpChip.laws h).isEqual p1.x p2.x s7) fun xe s8 _ => Snd.bind (not_ex xe s8) fun xn s9 _ =>
    Snd.bind ((FpChip.laws h).isEqual p1.y p2.y s9) fun ye s10 _ => Snd.bind (or_ex xn ye s10) fun nn s11 _ =>
    Snd.bind (ecSum_sound (FpChip.laws h) hf b hb rand.sum [p1, p2] s11) fun sm s12 _ => ?_
  refine Snd.bind (sigEnforce_sound hcs sm.x s12) fun x1 s13 _ =>
    Snd.bind (bigIsEqual_proper (n := c.n) (k := c.k) h.pow_n' x1 r s13) fun eq s14 _ => ?_
  refine Snd.rd (base1_rd h.ok) fun b1 hb1 => ?_
  obtain ⟨rfl, -⟩ := hb1
  refine Snd.bind (bigLessThan_sound h.L h.sub u1.trunc.limbs n s14) fun u1s s15 _ => ?_
  refine Snd.rd (base1_rd h.ok) fun b1 hb1 => ?_
  obtain ⟨rfl, -⟩ := hb1
  refine Snd.bind (bigLessThan_sound h.L h.sub u2.trunc.limbs n s15) fun u2s s16 _ => ?_
  refine Snd.bind (and_ex rv sv s16) fun r1 s17 _ => Snd.bind (and_ex r1 u1s s17) fun r2 s18 _ =>
    Snd.bind (and_ex r2 u2s s18) fun r3 s19 _ => Snd.bind (and_ex r3 nn s19) fun r4 s20 _ => (and_ex r4 eq s20).weaken ?_
  rintro w res _ a5 a4 a3 a2 a1 l2 l1 he ⟨rfl, hx⟩ hsum hor hye hxn hxe hp2 hp1 ⟨U2, m1, m2, m3⟩ ⟨U1, k1, k2, k3⟩ hsv hrv hcn
    Q R S Z hQ hQ0 hQN hR hS hZ hZN
  have hq : S ≠ 0 ∧ S < N → (U1 : ZMod N) = (Z : ZMod N) * (S : ZMod N)⁻¹ ∧ (U2 : ZMod N) = (R : ZMod N) * (S : ZMod N)⁻¹ := by
    rintro ⟨h0, h1⟩
    have hS0 := natCast_ne_zero_of_lt h0 h1
    exact ⟨eq_mul_inv hS0 (k3 Z S hZ hS h1), eq_mul_inv hS0 (m3 R S hR hS h1)⟩
  refine ⟨U1, U2, k2, m2, hq, ?_⟩
  rw [a5, a4, a3, a2, a1, hrv R hR, hsv S hS]
  by_cases hRS : (R ≠ 0 ∧ R < N) ∧ (S ≠ 0 ∧ S < N)
  swap
  · refine ⟨?_, fun h1 h2 h3 h4 => absurd ⟨⟨h1, h2⟩, h3, h4⟩ hRS⟩
    rw [ite_bit_mul, if_neg hRS, zero_mul, zero_mul, zero_mul, zero_mul, if_neg]
    rintro ⟨⟨⟨h1, h2⟩, ⟨h3, h4⟩, -⟩, -⟩
    exact hRS ⟨⟨h1.ne', h2⟩, h3.ne', h4⟩
  obtain ⟨hR0, hS0⟩ := hRS
  rw [if_pos hR0, if_pos hS0, one_mul, one_mul]
  obtain ⟨q1, q2⟩ := hq hS0
  have hSz := natCast_ne_zero_of_lt hS0.1 hS0.2
  have hU1 : (U1 : ZMod N) ≠ 0 := by
    rw [q1]
    exact mul_ne_zero (fun hz => hZN ((ZMod.natCast_eq_zero_iff Z N).1 hz)) (inv_ne_zero hSz)
  have hU2 : (U2 : ZMod N) ≠ 0 := by
    rw [q2]
    exact mul_ne_zero (natCast_ne_zero_of_lt hR0.1 hR0.2) (inv_ne_zero hSz)
  -- the two multiples
  obtain ⟨d1, nr1, rfl⟩ := k1.nums
  obtain ⟨d2, nr2, rfl⟩ := m1.nums
  obtain ⟨d1', nr1', e1⟩ := hp1.2 hg
  obtain rfl := nr1.unique h.pow_n' nr1'
  obtain ⟨d2', nr2', e2⟩ := hp2 Q hQ (two_torsion_of_prime hN2 hQN)
  obtain rfl := nr2.unique h.pow_n' nr2'
  have f1 := e1.finite (smul_ne_zero_of_prime hg hgN hU1)
  have f2 := e2.finite (smul_ne_zero_of_prime hQ0 hQN hU2)
  have fs := hsum _ (.cons f1 (.cons f2 .nil))
  simp only [List.sum_cons, List.sum_nil, add_zero] at fs
  obtain ⟨X1, Y1, x1, i1⟩ := f1
  obtain ⟨X2, Y2, x2, i2⟩ := f2
  obtain ⟨X, Y, ⟨hX, hY⟩, i3⟩ := fs
  obtain ⟨A, hA, -, rfl⟩ := hX
  have hAN := hx A hA
  -- the bits
  have hnl' : n.map (at' w) = (limbsOf N c.k c.n).map (fun d : ℕ => (d : ZMod p)) := by
    rw [hcs.modulus, hcs.k, hcs.n, Utils.decomposeBiguint,
      Utils.decomposeBigLimbs_eq h.ok.n64 h.ok.n128 (by have := h.ok.k1; omega), Option.map_some, Option.some.injEq] at hnl
    rw [hcn, ← hnl]
  have hNlt : N < 2 ^ (c.n * c.k) := hNP.trans_lt h.ok.lt
  have hv1 : ((Nat.ofDigits (2 ^ c.n) d1 : ℕ) : ZMod N).val • φ gen = Nat.ofDigits (2 ^ c.n) d1 • φ gen := smul_val hgN
  have hv2 : ((Nat.ofDigits (2 ^ c.n) d2 : ℕ) : ZMod N).val • Q = Nat.ofDigits (2 ^ c.n) d2 • Q := smul_val hQN
  have hAP : A < c.modulus := hAN.trans_le hNP
  have hAv : (A : ZMod c.modulus).val = A := ZMod.val_natCast_of_lt hAP
  have hvalid : EcdsaValid N (φ gen) Q Z R S ↔ A = R := by
    unfold EcdsaValid
    rw [← q1, ← q2, hv1, hv2]
    constructor
    · rintro ⟨-, -, x, y, i4, i5⟩
      obtain ⟨rfl, -⟩ := i3.coords i4
      rwa [hAv, Nat.mod_eq_of_lt hAN] at i5
    · rintro rfl
      exact ⟨⟨Nat.pos_of_ne_zero hR0.1, hR0.2⟩, ⟨Nat.pos_of_ne_zero hS0.1, hS0.2⟩, _, _, i3, by rw [hAv, Nat.mod_eq_of_lt hAN]⟩
  refine ⟨?_, fun _ _ _ _ => ⟨_, _, i3, by rw [hAv]; exact hAN⟩⟩
  rw [l1 d1 (limbsOf N c.k c.n) nr1.1 hnl' nr1.2 (fun d => limbsOf_lt'), l2 d2 (limbsOf N c.k c.n) nr2.1 hnl' nr2.2 (fun d => limbsOf_lt'),
    he A R hA hR, hor, hxn, hxe X1 X2 x1.1 x2.1, hye Y1 Y2 x1.2 x2.2]
  rw [ofDigits_limbsOf _ _ _ hNlt, hvalid]
  have hnn : (1 - (if X1 = X2 then (1 : ZMod p) else 0) + (if Y1 = Y2 then 1 else 0) -
      (1 - if X1 = X2 then 1 else 0) * if Y1 = Y2 then 1 else 0) = 1 := by
    rcases not_neg_of i1 i2 i3.ne_zero with hne | hne
    · rw [if_neg hne]; ring
    · rw [if_pos hne]; ring
  rw [hnn, mul_one, ite_bit_mul, ite_bit_mul]
  congr 1
  rw [eq_iff_iff]
  tauto

set_option maxHeartbeats 1000000 in
open Classical in
/-- **`schnorr_verify_no_pubkey_check`.** -/
theorem schnorrVerify_sound (h : FpOk c) [Fact c.modulus.Prime] (hf : EcFits (FpChip.laws h)) [hNp : Fact N.Prime]
    (hcs : ScalarChip c N cs) (hN2 : N ≠ 2) (hNP : N ≤ c.modulus) (b : ZMod c.modulus) (hb : CurveOk b)
    {C : NativeCurve c.ops} {φ : C.G → ECurve b} (hC : NativeLaws (FpChip.laws h) b C φ) (gen : C.G) (hg : φ gen ≠ 0)
    (hgN : N • φ gen = 0) (rand : SigRand c) (pubkey : EcPt c.ops) (r s e : CrtInt p) (vw fw : ℕ) (hfw : 2 ^ fw ≤ N) (hfp : fw < p) :
    Sound (RangeTable p c.L) (schnorrVerify c N C b gen rand pubkey r s e vw fw) (fun w res =>
      ∀ (Q : ECurve b) (R S E : ℕ), EcRep0 (FpChip.laws h) b w pubkey Q → Q ≠ 0 → N • Q = 0 → ProperOk c.n c.k w r R →
      ProperOk c.n c.k w s S → ProperOk c.n c.k w e E →
      at' w res = (if SchnorrValid N (φ gen) Q E R S ∧ S ≠ 0 ∧ E ≠ 0 ∧ E < N then 1 else 0) ∧
      (S ≠ 0 → S < N → E ≠ 0 → E < N → ∃ x y, IsPt b x y (S • φ gen - E • Q) ∧ x.val < N ∧ S • φ gen ≠ -(E • Q))) := by
  intro st
  have hn1 : 1 ≤ c.n := h.n1
  refine Snd.unwrap fun cs' hcs' => ?_
  obtain rfl : cs = cs' := by rw [hcs.new, Option.some.injEq] at hcs'; exact hcs'
  refine Snd.bind (FpChip.isLessThanP_sound h r st) fun rv s2 _ =>
    Snd.bind (sigNonzero_sound hcs s s2) fun sv s3 _ => Snd.bind (sigNonzero_sound hcs e s3) fun ev s4 _ => ?_
  refine Snd.bind (fixedScalarMultiply_sound (FpChip.laws h) hf b hb rand.fixed hC gen s.trunc.limbs hn1 hfp
      (fun _ => fbSafe_of_prime hNp.out hfw hN2 hg hgN) s4) fun p1 s6 _ =>
    Snd.bind (scalarMultiply_sound (FpChip.laws h) hf b hb rand.var pubkey e.trunc.limbs c.n vw hn1 s6) fun p2 s7 _ => ?_
  refine Snd.bind ((FpChip.laws h).isEqual p1.x p2.x s7) fun xe s8 _ => Snd.bind (not_ex xe s8) fun xn s9 _ =>
    Snd.bind (ecSubUnequal_sound (FpChip.laws h) b hf _ _ true s9) fun pr s10 _ => ?_
  refine Snd.bind (FpChip.isEven_sound h pr.y s10) fun ye s12 _ => Snd.bind (sigEnforce_sound hcs pr.x s12) fun x1 s13 _ =>
    Snd.bind (bigIsEqual_proper (n := c.n) (k := c.k) h.pow_n' x1 r s13) fun eq s14 _ => ?_
  refine Snd.bind (and_ex rv sv s14) fun r1 s17 _ => Snd.bind (and_ex r1 ev s17) fun r2 s18 _ =>
    Snd.bind (and_ex r2 xn s18) fun r3 s19 _ => Snd.bind (and_ex r3 ye s19) fun r4 s20 _ => (and_ex r4 eq s20).weaken ?_
  rintro w res _ a5 a4 a3 a2 a1 he ⟨rfl, hx⟩ hye hsub hxn hxe hp2 hp1 hev hsv hrv Q R S E hQ hQ0 hQN hR hS hE
  rw [a5, a4, a3, a2, a1, hrv R hR, hsv S hS, hev E hE]
  by_cases hRS : (S ≠ 0 ∧ S < N) ∧ (E ≠ 0 ∧ E < N)
  swap
  · refine ⟨?_, fun h1 h2 h3 h4 => absurd ⟨⟨h1, h2⟩, h3, h4⟩ hRS⟩
    rw [mul_assoc (if R < c.modulus then (1 : ZMod p) else 0), ite_bit_mul, if_neg hRS, mul_zero, zero_mul, zero_mul, zero_mul, if_neg]
    rintro ⟨⟨-, h1, -⟩, h2, h3, h4⟩
    exact hRS ⟨⟨h2, h1⟩, h3, h4⟩
  obtain ⟨hS0, hE0⟩ := hRS
  rw [if_pos hE0, if_pos hS0, mul_one, mul_one]
  have hSz := natCast_ne_zero_of_lt hS0.1 hS0.2
  have hEz := natCast_ne_zero_of_lt hE0.1 hE0.2
  obtain ⟨d1, nr1, rfl⟩ := hS.nums
  obtain ⟨d2, nr2, rfl⟩ := hE.nums
  obtain ⟨d1', nr1', e1⟩ := hp1.2 hg
  obtain rfl := nr1.unique h.pow_n' nr1'
  obtain ⟨d2', nr2', e2⟩ := hp2 Q hQ (two_torsion_of_prime hN2 hQN)
  obtain rfl := nr2.unique h.pow_n' nr2'
  have f1 := e1.finite (smul_ne_zero_of_prime hg hgN hSz)
  have f2 := e2.finite (smul_ne_zero_of_prime hQ0 hQN hEz)
  obtain ⟨c1, c2⟩ := hsub _ _ f1.cmp f2.cmp
  obtain ⟨n1, n2⟩ := c1 rfl
  have fs := c2 n1 n2
  obtain ⟨X1, Y1, x1, i1⟩ := f1
  obtain ⟨X2, Y2, x2, i2⟩ := f2
  obtain ⟨X, Y, ⟨hX, hY⟩, i3⟩ := fs
  obtain ⟨A, hA, -, rfl⟩ := hX
  obtain ⟨B, hB, -, rfl⟩ := hY
  have hAN := hx A hA
  obtain ⟨hBP, hyB⟩ := hye B hB
  have hAP : A < c.modulus := hAN.trans_le hNP
  have hAv : (A : ZMod c.modulus).val = A := ZMod.val_natCast_of_lt hAP
  have hBv : (B : ZMod c.modulus).val = B := ZMod.val_natCast_of_lt hBP
  have hne : X1 ≠ X2 := by
    rintro rfl
    rcases i1.x_eq i2 with ⟨-, e⟩ | ⟨-, e⟩
    · exact n1 e
    · exact n2 e
  refine ⟨?_, fun _ _ _ _ => ⟨_, _, i3, by rw [hAv]; exact hAN, n2⟩⟩
  have hvalid : SchnorrValid N (φ gen) Q (Nat.ofDigits (2 ^ c.n) d2) R (Nat.ofDigits (2 ^ c.n) d1) ↔ R < c.modulus ∧ B % 2 = 0 ∧ A = R := by
    unfold SchnorrValid
    constructor
    · rintro ⟨h1, -, x, y, i4, i5, i6⟩
      obtain ⟨rfl, rfl⟩ := i3.coords i4
      rw [hAv] at i5
      rw [hBv] at i6
      exact ⟨h1, i6, i5⟩
    · rintro ⟨h1, h2, h3⟩
      exact ⟨h1, hS0.2, _, _, i3, by rw [hAv]; exact h3, by rw [hBv]; exact h2⟩
  rw [hyB, he A R hA hR, hxn, hxe X1 X2 x1.1 x2.1, if_neg hne, sub_zero, mul_one, ite_bit_mul, ite_bit_mul, hvalid]
  congr 1
  rw [eq_iff_iff]
  tauto

end H2
