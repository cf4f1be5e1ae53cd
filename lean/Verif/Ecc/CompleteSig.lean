import Verif.Ecc.CompleteFixed
import Verif.Ecc.SoundSig
import Verif.Props.CompleteEcc

/-!
# Completeness of the signature verifiers
-/

set_option autoImplicit false
set_option linter.unusedSectionVars false
namespace H2
variable {p : ℕ} [Fact p.Prime] {ext : Cell → ZMod p}
variable {c : FpChip p} {N : ℕ} {cs : FpChip p}

/-- What completeness requires of the chip of the scalar field, besides `ScalarChip`. -/
structure ScalarChipC (c : FpChip p) (N : ℕ) (cs : FpChip p) : Prop extends ScalarChip c N cs where
  cmp : FpCmp cs
  limbs : max (cs.kLog2 + cs.n + cs.n) cs.n + 3 ≤ 3 * cs.n
  size : 2 ^ Nat.size N * 2 ^ Nat.size N + 2 ^ (c.n * c.k) < 2 ^ (c.n * c.k + numBits p - 3)

theorem bigLessThanLimbs_cmp {L n : ℕ} {s : Ctx p} (hL : RangeOk p L) (ok : SubOk p L n) {as bs : List (AV p)} {das dbs : List ℕ}
    (ha : AvsCon ext s as (das.map (fun d : ℕ => (d : ZMod p)))) (hb : AvsCon ext s bs (dbs.map (fun d : ℕ => (d : ZMod p))))
    (hl : das.length = dbs.length) (h0 : das ≠ []) (hda : ∀ d ∈ das, d < 2 ^ n) (hdb : ∀ d ∈ dbs, d < 2 ^ n) :
    Cmp (RangeTable p L) ext s (bigLessThan L n (2 ^ n) as bs)
      (fun r s' => Con ext s' r (if Nat.ofDigits (2 ^ n) das < Nat.ofDigits (2 ^ n) dbs then 1 else 0)) := by
  have h : Cmp (RangeTable p L) ext s (bigLessThan L n (2 ^ n) as bs) (fun r s' => Ext s s' ∧ AvW ext s' r) :=
    Cmp.bind (subInt_cmp hL ok ha hb hl h0 hda hdb) fun r s1 e1 hr => Cmp.pure ⟨e1, hr.2⟩
  refine (h.withSnd (bigLessThan_sound hL ok _ _)).weaken fun r s' hr => ?_
  obtain ⟨⟨e, h1⟩, h2⟩ := hr
  unfold AvW at h1
  rwa [h2 das dbs (ha.mono e).map_at (hb.mono e).map_at hda hdb] at h1

theorem sigNonzero_cmp (hcs : ScalarChipC c N cs) {s : Ctx p} {a : CrtInt p} {A : ℕ} (ha : ProperW c.n c.k ext s a A) :
    Cmp (RangeTable p c.L) ext s (cs.isSoftNonzero a) (fun r s' => Con ext s' r (bit (A ≠ 0 ∧ A < N))) := by
  rw [← hcs.n, ← hcs.k] at ha
  rw [← hcs.L, ← hcs.modulus]
  exact FpChip.isSoftNonzero_cmp hcs.cmp ha

theorem sigEnforce_cmp (hcs : ScalarChipC c N cs) {s : Ctx p} {a : CrtInt p} {A : ℕ} (ha : ProperW c.n c.k ext s a A) (hA : A < N) :
    Cmp (RangeTable p c.L) ext s (cs.ops.enforceLessThan a) (fun r s' => ProperW c.n c.k ext s' r A) := by
  have h2 := ha
  rw [← hcs.n, ← hcs.k] at h2
  rw [← hcs.L]
  rw [← hcs.modulus] at hA
  exact Cmp.bind (FpChip.enforceLessThanP_cmp hcs.cmp h2 hA) fun _ s1 e1 _ => Cmp.pure (ha.mono e1)

theorem sigDivide_cmp [hNp : Fact N.Prime] (hcs : ScalarChipC c N cs) {s : Ctx p} {a d : CrtInt p} {A S : ℕ}
    (ha : ProperW c.n c.k ext s a A) (hd : ProperW c.n c.k ext s d S) (h0 : S ≠ 0) (hS : S < N) :
    Cmp (RangeTable p c.L) ext s (cs.ops.divideUnsafe a d) (fun r s' =>
      ProperW c.n c.k ext s' r ((A : ZMod N) * (S : ZMod N)⁻¹).val) := by
  have e1 := hcs.n
  have e2 := hcs.k
  have e3 := hcs.L
  have hfit := hcs.fits.1
  have hsz := hcs.size
  have hlim := hcs.limbs
  have hc := hcs.cmp
  obtain rfl := hcs.modulus
  rw [← e1, ← e2] at ha hd hsz ⊢
  rw [← e3]
  have hA : A < 2 ^ (cs.n * cs.k) := by
    obtain ⟨ds, h1, -, h3, rfl⟩ := ha.digits
    have := Nat.ofDigits_lt_base_pow_length' (b := 2 ^ cs.n - 2) (l := ds) (by
      intro x hx
      have := h3 x hx
      have h4 : 2 ^ 1 ≤ 2 ^ cs.n := Nat.pow_le_pow_right (by norm_num) hc.ok.n1
      omega)
    have h4 : 2 ^ 1 ≤ 2 ^ cs.n := Nat.pow_le_pow_right (by norm_num) hc.ok.n1
    rw [show 2 ^ cs.n - 2 + 2 = 2 ^ cs.n by omega, h1, ← pow_mul] at this
    exact this
  have hau : (FpChip.cmp hc).UW ext s a (A : ZMod cs.modulus) (cs.n, 2 ^ (cs.n * cs.k)) := by
    refine ⟨A, ha.crt, ?_, ?_, ?_⟩
    · obtain ⟨_, _, e, -⟩ := ha.ok
      exact e.le
    · rw [abs_of_nonneg (Int.natCast_nonneg _)]
      exact_mod_cast hA.le
    · exact Int.cast_natCast _
  have hdp : (FpChip.cmp hc).PW ext s d (S : ZMod cs.modulus) := by
    show ProperW cs.n cs.k ext s d (S : ZMod cs.modulus).val
    rwa [ZMod.val_natCast_of_lt hS]
  have hS0 := natCast_ne_zero_of_lt h0 hS
  refine ((FpChip.cmp hc).divideUnsafe ?_ hau ((FpChip.cmp hc).p_u hdp) fun h => absurd h hS0).weaken fun r s' hr => ?_
  · refine ⟨hfit, hlim, hsz⟩
  · rw [div_eq_mul_inv] at hr
    exact hr

theorem ProperW.nums {n k : ℕ} {s : Ctx p} {a : CrtInt p} {A : ℕ} (hp : 2 ^ n ≤ p) (h : ProperW n k ext s a A) :
    ScalarW n ext s a.trunc.limbs A ∧ a.trunc.limbs.length = k := by
  obtain ⟨ds, h1, h2, h3, rfl⟩ := h.digits
  exact ⟨⟨ds, ⟨h2, fun x hx => ⟨h3 x hx, (h3 x hx).trans_le hp⟩⟩, rfl⟩, by rw [List.Forall₂.length_eq h2, List.length_map, h1]⟩

/-- The first coordinates of the three random choices of the verifiers, and the three random points. -/
structure SigRandPts (rand : SigRand c) (b : ZMod c.modulus) [Fact c.modulus.Prime] (A1 A2 A3 : ECurve b) : Prop where
  fixed : IsPt (K := ZMod c.modulus) b rand.fixed.base.1 rand.fixed.base.2 A1
  var : IsPt (K := ZMod c.modulus) b rand.var.base.1 rand.var.base.2 A2
  sum : IsPt (K := ZMod c.modulus) b rand.sum.1 rand.sum.2 A3

theorem bit_mul {P Q : Prop} [Decidable P] [Decidable Q] : (bit P : ZMod p) * bit Q = bit (P ∧ Q) := ite_bit_mul

set_option maxHeartbeats 1000000 in
open Classical in
/-- **`ecdsa_verify_no_pubkey_check`.** -/
theorem ecdsaVerify_cmp (h : FpCmp c) [Fact c.modulus.Prime] (hf : EcFitsC (FpChip.cmp h)) [hNp : Fact N.Prime]
    (hcs : ScalarChipC c N cs) (hN2 : N ≠ 2) (hNP : N ≤ c.modulus) (b : ZMod c.modulus) (hb : CurveOk b)
    {C : NativeCurve c.ops} {φ : C.G → ECurve b} (hC : NativeLaws (FpChip.laws h.ok) b C φ) (gen : C.G) (hg : φ gen ≠ 0)
    (hgN : N • φ gen = 0) (rand : SigRand c) {pubkey : EcPt c.ops} {r s msghash : CrtInt p} {vw fw : ℕ} (hvw : 1 ≤ vw) (hfw0 : 1 ≤ fw)
    (hfw : 2 ^ fw ≤ N) (hfp : fw < p) {st : Ctx p} {Q : ECurve b} {R S Z : ℕ} (hQ : EcW0 (FpChip.cmp h) b ext st pubkey Q) (hQ0 : Q ≠ 0)
    (hQN : N • Q = 0) (hR : ProperW c.n c.k ext st r R) (hS : ProperW c.n c.k ext st s S) (hZ : ProperW c.n c.k ext st msghash Z)
    (hS0 : S ≠ 0) (hSN : S < N) (hRN : ¬ N ∣ R) (hZN : ¬ N ∣ Z) {u1 u2 : ℕ} (hu1 : u1 = ((Z : ZMod N) * (S : ZMod N)⁻¹).val)
    (hu2 : u2 = ((R : ZMod N) * (S : ZMod N)⁻¹).val) {x y : ZMod c.modulus} (hV : IsPt b x y (u1 • φ gen + u2 • Q)) (hx : x.val < N)
    {A1 A2 A3 : ECurve b} (hA : SigRandPts rand b A1 A2 A3)
    (ok1 : FbOk (K := ZMod c.modulus) b rand.fixed.pair.1 A1 fw ((c.n * c.k + fw - 1) / fw) (φ gen) u1)
    (ok2 : MsmOk (K := ZMod c.modulus) b rand.var.pair.1 A2 vw ((c.n * c.k + vw - 1) / vw) [Q] [u2])
    (ok3 : SumOk A3 [u1 • φ gen, u2 • Q]) (ok4 : A3 + (u1 • φ gen + u2 • Q) ≠ -A3) :
    Cmp (RangeTable p c.L) ext st (ecdsaVerify c N C b gen rand pubkey r s msghash vw fw) (fun res s' =>
      Con ext s' res (if EcdsaValid N (φ gen) Q Z R S then 1 else 0)) := by
  have hn1 : 1 ≤ c.n := h.ok.n1
  have hk1 : 1 ≤ c.k := h.ok.ok.k1
  have hnb : c.n ≤ numBits p := by
    have := h.cap
    unfold capacity at this
    omega
  have hpn := h.ok.pow_n'
  have hSz := natCast_ne_zero_of_lt hS0 hSN
  have hu1N : (u1 : ZMod N) ≠ 0 := by
    rw [hu1, ZMod.natCast_zmod_val]
    exact mul_ne_zero (fun hz => hZN ((ZMod.natCast_eq_zero_iff Z N).1 hz)) (inv_ne_zero hSz)
  have hu2N : (u2 : ZMod N) ≠ 0 := by
    rw [hu2, ZMod.natCast_zmod_val]
    exact mul_ne_zero (fun hz => hRN ((ZMod.natCast_eq_zero_iff R N).1 hz)) (inv_ne_zero hSz)
  have hNlt : N < 2 ^ (c.n * c.k) := hNP.trans_lt h.ok.ok.lt
  refine Cmp.unwrap hcs.new (Cmp.unwrap (a := (limbsOf N c.k c.n).map (fun d : ℕ => (d : ZMod p))) ?_ ?_)
  · rw [hcs.modulus, hcs.k, hcs.n, Utils.decomposeBiguint,
      Utils.decomposeBigLimbs_eq h.ok.ok.n64 h.ok.ok.n128 (by omega), Option.map_some]
  refine Cmp.bind (loadConstants_cmp _) fun n s1 e1 hn => ?_
  refine Cmp.bind (sigNonzero_cmp hcs (hR.mono e1)) fun rv s2 e2 hrv => Cmp.bind (sigNonzero_cmp hcs (hS.mono (e1.trans e2))) fun sv s3 e3 hsv => ?_
  have e13 := (e1.trans e2).trans e3
  refine Cmp.bind (sigDivide_cmp hcs (hZ.mono e13) (hS.mono e13) hS0 hSN) fun U1 s4 e4 hU1 => ?_
  have e14 := e13.trans e4
  refine Cmp.bind (sigDivide_cmp hcs (hR.mono e14) (hS.mono e14) hS0 hSN) fun U2 s5 e5 hU2 => ?_
  have e15 := e14.trans e5
  rw [← hu1] at hU1
  rw [← hu2] at hU2
  have hU1 := hU1.mono e5
  obtain ⟨⟨d1, n1, q1⟩, l1⟩ := hU1.nums hpn
  obtain ⟨hU2s, l2⟩ := hU2.nums hpn
  refine Cmp.bind ((fixedScalarMultiply_cmp hf b rand.fixed hC gen hn1 hnb hfw0 hfp hg (fbSafe_of_prime hNp.out hfw hN2 hg hgN)
    (by rintro h0; rw [h0] at l1; simp at l1; omega) n1 hA.fixed (by rw [q1, l1]; exact ok1))) fun p1 s6 e6 hp1 => ?_
  rw [q1] at hp1
  have hp1 := hp1.finite (smul_ne_zero_of_prime hg hgN hu1N)
  have e16 := e15.trans e6
  have hU2s' : ScalarW c.n ext s6 U2.trunc.limbs u2 := ((hU2.mono e6).nums hpn).1
  refine Cmp.bind (scalarMultiply_cmp hf b hb rand.var hn1 hnb hvw (by rintro h0; rw [h0] at l2; simp at l2; omega) (hQ.mono e16) hU2s'
    (two_torsion_of_prime hN2 hQN) hA.var (by rw [l2]; exact ok2)) fun p2 s7 e7 hp2 => ?_
  have hp2 := hp2.finite (smul_ne_zero_of_prime hQ0 hQN hu2N)
  have hp1 := hp1.mono e7
  have e17 := e16.trans e7
  obtain ⟨X1, Y1, x1, i1⟩ := hp1
  obtain ⟨X2, Y2, x2, i2⟩ := hp2
  refine Cmp.bind ((FpChip.cmp h).isEqual x1.1 x2.1) fun xe s8 e8 hxe => ?_
  refine Cmp.bind (not_cmp (show QCon ext s8 (.existing xe) _ from hxe)) fun xn s9 e9 hxn => ?_
  have e79 := e8.trans e9
  refine Cmp.bind ((FpChip.cmp h).isEqual (x1.mono e79).2 (x2.mono e79).2) fun ye s10 e10 hye => ?_
  refine Cmp.bind (or_cmp (show QCon ext s10 (.existing xn) _ from hxn.mono e10) (show QCon ext s10 (.existing ye) _ from hye)) fun nn s11 e11 hnn => ?_
  have e711 := (e79.trans e10).trans e11
  refine Cmp.bind (ecSum_cmp hf b hA.sum (.cons ⟨X1, Y1, x1.mono e711, i1⟩ (.cons ⟨X2, Y2, x2.mono e711, i2⟩ .nil)) ok3 ?_ ?_)
    fun sm s12 e12 hsm => ?_
  · simp only [List.sum_cons, List.sum_nil, add_zero]
    intro h0
    exact hV.ne_zero (add_eq_left.1 h0)
  · simp only [List.sum_cons, List.sum_nil, add_zero]
    exact ok4
  simp only [List.sum_cons, List.sum_nil, add_zero] at hsm
  obtain ⟨X, Y, hXY, i3⟩ := hsm
  obtain ⟨rfl, rfl⟩ := i3.coords hV
  have e1_12 := (e17.trans e711).trans e12
  refine Cmp.bind (sigEnforce_cmp hcs (A := X.val) hXY.1 hx) fun x1' s13 e13' hx1 => ?_
  have e1_13 := e1_12.trans e13'
  refine Cmp.bind (bigIsEqual_cmp hk1 hpn hx1 (hR.mono e1_13)) fun eq s14 e14' heq => ?_
  have e5_14 : Ext s5 s14 := ((((e6.trans e7).trans e711).trans e12).trans e13').trans e14'
  have e1n : Ext s1 s14 := (((e2.trans e3).trans e4).trans e5).trans e5_14
  rw [FpChip.base1_pure h, pure_bind]
  obtain ⟨D1, c1, c2, c3, c4⟩ := (hU1.mono e5_14).digits
  refine Cmp.bind (bigLessThanLimbs_cmp h.ok.L h.ok.sub c2 (hn.mono e1n) (by simp [c1, limbsOf_length]) (by rintro rfl; simp at c1; omega) c3
    (fun d => limbsOf_lt')) fun u1s s15 e15' hu1s => ?_
  rw [pure_bind]
  obtain ⟨D2, f1, f2, f3, f4⟩ := (hU2.mono (e5_14.trans e15')).digits
  refine Cmp.bind (bigLessThanLimbs_cmp h.ok.L h.ok.sub f2 (hn.mono (e1n.trans e15')) (by simp [f1, limbsOf_length]) (by rintro rfl; simp at f1; omega) f3
    (fun d => limbsOf_lt')) fun u2s s16 e16' hu2s => ?_
  rw [← c4, ofDigits_limbsOf _ _ _ hNlt, if_pos (hu1 ▸ ZMod.val_lt _)] at hu1s
  rw [← f4, ofDigits_limbsOf _ _ _ hNlt, if_pos (hu2 ▸ ZMod.val_lt _)] at hu2s
  have e3_16 : Ext s3 s16 := (((e4.trans e5).trans e5_14).trans e15').trans e16'
  refine Cmp.bind (and_cmp (show QCon ext s16 (.existing rv) _ from hrv.mono (e3.trans e3_16))
    (show QCon ext s16 (.existing sv) _ from hsv.mono e3_16)) fun r1 s17 g1 hr1 => ?_
  refine Cmp.bind (and_cmp (show QCon ext s17 (.existing r1) _ from hr1)
    (show QCon ext s17 (.existing u1s) _ from hu1s.mono (e16'.trans g1))) fun r2 s18 g2 hr2 => ?_
  refine Cmp.bind (and_cmp (show QCon ext s18 (.existing r2) _ from hr2)
    (show QCon ext s18 (.existing u2s) _ from hu2s.mono (g1.trans g2))) fun r3 s19 g3 hr3 => ?_
  have g13 := (g1.trans g2).trans g3
  have e11_16 : Ext s11 s16 := (((e12.trans e13').trans e14').trans e15').trans e16'
  refine Cmp.bind (and_cmp (show QCon ext s19 (.existing r3) _ from hr3)
    (show QCon ext s19 (.existing nn) _ from hnn.mono (e11_16.trans g13))) fun r4 s20 g4 hr4 => ?_
  refine (and_cmp (show QCon ext s20 (.existing r4) _ from hr4)
    (show QCon ext s20 (.existing eq) _ from heq.mono (((e15'.trans e16').trans g13).trans g4))).weaken fun res s' hres => ?_
  have hnnv : (1 - (bit (X1 = X2) : ZMod p) + bit (Y1 = Y2) - (1 - bit (X1 = X2)) * bit (Y1 = Y2)) = 1 := by
    unfold bit
    rcases not_neg_of i1 i2 i3.ne_zero with hne | hne
    · rw [if_neg hne]; ring
    · rw [if_pos hne]; ring
  rw [hnnv, mul_one, mul_one, mul_one] at hres
  have hvalid : EcdsaValid N (φ gen) Q Z R S ↔ (R ≠ 0 ∧ R < N) ∧ (S ≠ 0 ∧ S < N) ∧ X.val = R := by
    unfold EcdsaValid
    rw [← hu1, ← hu2]
    constructor
    · rintro ⟨h1, -, x', y', i4, i5⟩
      obtain ⟨rfl, -⟩ := i3.coords i4
      rw [Nat.mod_eq_of_lt hx] at i5
      exact ⟨⟨h1.1.ne', h1.2⟩, ⟨hS0, hSN⟩, i5⟩
    · rintro ⟨h1, h2, h3⟩
      exact ⟨⟨Nat.pos_of_ne_zero h1.1, h1.2⟩, ⟨Nat.pos_of_ne_zero hS0, hSN⟩, X, Y, i3, by rw [Nat.mod_eq_of_lt hx]; exact h3⟩
  have : ((if EcdsaValid N (φ gen) Q Z R S then (1 : ZMod p) else 0)) =
      bit (R ≠ 0 ∧ R < N) * bit (S ≠ 0 ∧ S < N) * (if X.val = R then 1 else 0) := by
    rw [show (if X.val = R then (1 : ZMod p) else 0) = bit (X.val = R) from rfl, bit_mul, bit_mul]
    unfold bit
    congr 1
    rw [eq_iff_iff, hvalid]
    tauto
  rw [this]
  exact hres

set_option maxHeartbeats 1000000 in
open Classical in
/-- **`schnorr_verify_no_pubkey_check`.** -/
theorem schnorrVerify_cmp (h : FpCmp c) [Fact c.modulus.Prime] (hf : EcFitsC (FpChip.cmp h)) [hNp : Fact N.Prime]
    (hcs : ScalarChipC c N cs) (hN2 : N ≠ 2) (b : ZMod c.modulus) (hb : CurveOk b)
    {C : NativeCurve c.ops} {φ : C.G → ECurve b} (hC : NativeLaws (FpChip.laws h.ok) b C φ) (gen : C.G) (hg : φ gen ≠ 0)
    (hgN : N • φ gen = 0) (rand : SigRand c) {pubkey : EcPt c.ops} {r s e : CrtInt p} {vw fw : ℕ} (hvw : 1 ≤ vw) (hfw0 : 1 ≤ fw)
    (hfw : 2 ^ fw ≤ N) (hfp : fw < p) {st : Ctx p} {Q : ECurve b} {R S E : ℕ} (hQ : EcW0 (FpChip.cmp h) b ext st pubkey Q) (hQ0 : Q ≠ 0)
    (hQN : N • Q = 0) (hR : ProperW c.n c.k ext st r R) (hS : ProperW c.n c.k ext st s S) (hE : ProperW c.n c.k ext st e E)
    (hSN : ¬ N ∣ S) (hEN : ¬ N ∣ E) {x y : ZMod c.modulus} (hV : IsPt b x y (S • φ gen - E • Q)) (hx : x.val < N)
    (hop : S • φ gen ≠ -(E • Q))
    {A1 A2 A3 : ECurve b} (hA : SigRandPts rand b A1 A2 A3)
    (ok1 : FbOk (K := ZMod c.modulus) b rand.fixed.pair.1 A1 fw ((c.n * c.k + fw - 1) / fw) (φ gen) S)
    (ok2 : MsmOk (K := ZMod c.modulus) b rand.var.pair.1 A2 vw ((c.n * c.k + vw - 1) / vw) [Q] [E]) :
    Cmp (RangeTable p c.L) ext st (schnorrVerify c N C b gen rand pubkey r s e vw fw) (fun res s' =>
      Con ext s' res (if SchnorrValid N (φ gen) Q E R S ∧ E < N then 1 else 0)) := by
  have hn1 : 1 ≤ c.n := h.ok.n1
  have hk1 : 1 ≤ c.k := h.ok.ok.k1
  have hnb : c.n ≤ numBits p := by
    have := h.cap
    unfold capacity at this
    omega
  have hpn := h.ok.pow_n'
  have hSz : (S : ZMod N) ≠ 0 := fun hz => hSN ((ZMod.natCast_eq_zero_iff S N).1 hz)
  have hEz : (E : ZMod N) ≠ 0 := fun hz => hEN ((ZMod.natCast_eq_zero_iff E N).1 hz)
  refine Cmp.unwrap hcs.new ?_
  refine Cmp.bind (FpChip.isLessThanP_cmp h hR) fun rv s1 e1 hrv => Cmp.bind (sigNonzero_cmp hcs (hS.mono e1)) fun sv s2 e2 hsv => ?_
  refine Cmp.bind (sigNonzero_cmp hcs (hE.mono (e1.trans e2))) fun ev s3 e3 hev => ?_
  have e13 := (e1.trans e2).trans e3
  obtain ⟨⟨d1, n1, q1⟩, l1⟩ := (hS.mono e13).nums hpn
  obtain ⟨-, l2⟩ := (hE.mono e13).nums hpn
  refine Cmp.bind ((fixedScalarMultiply_cmp hf b rand.fixed hC gen hn1 hnb hfw0 hfp hg (fbSafe_of_prime hNp.out hfw hN2 hg hgN)
    (by rintro h0; rw [h0] at l1; simp at l1; omega) n1 hA.fixed (by rw [q1, l1]; exact ok1))) fun p1 s4 e4 hp1 => ?_
  rw [q1] at hp1
  have hp1 := hp1.finite (smul_ne_zero_of_prime hg hgN hSz)
  have e14 := e13.trans e4
  refine Cmp.bind (scalarMultiply_cmp hf b hb rand.var hn1 hnb hvw (by rintro h0; rw [h0] at l2; simp at l2; omega) (hQ.mono e14)
    ((hE.mono e14).nums hpn).1 (two_torsion_of_prime hN2 hQN) hA.var (by rw [l2]; exact ok2)) fun p2 s5 e5 hp2 => ?_
  have hp2 := hp2.finite (smul_ne_zero_of_prime hQ0 hQN hEz)
  have hp1 := hp1.mono e5
  have e15 := e14.trans e5
  obtain ⟨X1, Y1, x1, i1⟩ := hp1
  obtain ⟨X2, Y2, x2, i2⟩ := hp2
  refine Cmp.bind ((FpChip.cmp h).isEqual x1.1 x2.1) fun xe s6 e6 hxe => ?_
  refine Cmp.bind (not_cmp (show QCon ext s6 (.existing xe) _ from hxe)) fun xn s7 e7 hxn => ?_
  have e57 := e6.trans e7
  have hne : S • φ gen ≠ E • Q := fun h0 => hV.ne_zero (sub_eq_zero.2 h0)
  have hX12 : X1 ≠ X2 := by
    rintro rfl
    rcases i1.x_eq i2 with h0 | h0
    · exact hne h0.2
    · exact hop h0.2
  refine Cmp.bind (ecSubUnequal_cmp hf (P := .nonStrict p1) (Q := .nonStrict p2) (c := true) ⟨X1, Y1, x1.mono e57, i1⟩ ⟨X2, Y2, x2.mono e57, i2⟩
    hne hop) fun pr s8 e8 hpr => ?_
  obtain ⟨X, Y, hXY, i3⟩ := hpr
  obtain ⟨rfl, rfl⟩ := i3.coords hV
  refine Cmp.bind (FpChip.isEven_cmp h hXY.2 (FpChip.pW.lt h hXY.2)) fun ye s9 e9 hye => ?_
  refine Cmp.bind (sigEnforce_cmp hcs (A := X.val) (hXY.mono e9).1 hx) fun x1' s10 e10 hx1 => ?_
  have e1_10 := (((e15.trans e57).trans e8).trans e9).trans e10
  refine Cmp.bind (bigIsEqual_cmp hk1 hpn hx1 (hR.mono e1_10)) fun eq s11 e11 heq => ?_
  have e3_11 : Ext s3 s11 := (((((e4.trans e5).trans e57).trans e8).trans e9).trans e10).trans e11
  refine Cmp.bind (and_cmp (show QCon ext s11 (.existing rv) _ from hrv.mono ((e2.trans e3).trans e3_11))
    (show QCon ext s11 (.existing sv) _ from hsv.mono (e3.trans e3_11))) fun r1 s17 g1 hr1 => ?_
  refine Cmp.bind (and_cmp (show QCon ext s17 (.existing r1) _ from hr1)
    (show QCon ext s17 (.existing ev) _ from hev.mono (e3_11.trans g1))) fun r2 s18 g2 hr2 => ?_
  have e7_11 : Ext s7 s11 := ((e8.trans e9).trans e10).trans e11
  refine Cmp.bind (and_cmp (show QCon ext s18 (.existing r2) _ from hr2)
    (show QCon ext s18 (.existing xn) _ from hxn.mono ((e7_11.trans g1).trans g2))) fun r3 s19 g3 hr3 => ?_
  have g13 := (g1.trans g2).trans g3
  refine Cmp.bind (and_cmp (show QCon ext s19 (.existing r3) _ from hr3)
    (show QCon ext s19 (.existing ye) _ from hye.mono ((e10.trans e11).trans g13))) fun r4 s20 g4 hr4 => ?_
  refine (and_cmp (show QCon ext s20 (.existing r4) _ from hr4)
    (show QCon ext s20 (.existing eq) _ from heq.mono (g13.trans g4))).weaken fun res s' hres => ?_
  have hS0 : S ≠ 0 := by rintro rfl; exact hSN (dvd_zero _)
  have hE0 : E ≠ 0 := by rintro rfl; exact hEN (dvd_zero _)
  have hvalid : (SchnorrValid N (φ gen) Q E R S ∧ E < N) ↔
      ((((R < c.modulus ∧ (S ≠ 0 ∧ S < N)) ∧ (E ≠ 0 ∧ E < N)) ∧ ¬ X1 = X2) ∧ Y.val % 2 = 0) ∧ X.val = R := by
    unfold SchnorrValid
    constructor
    · rintro ⟨⟨h1, h2, x', y', i4, i5, i6⟩, h3⟩
      obtain ⟨rfl, rfl⟩ := i3.coords i4
      exact ⟨⟨⟨⟨⟨h1, hS0, h2⟩, hE0, h3⟩, hX12⟩, i6⟩, i5⟩
    · rintro ⟨⟨⟨⟨⟨h1, -, h2⟩, -, h3⟩, -⟩, h4⟩, h5⟩
      exact ⟨⟨h1, h2, X, Y, i3, h5, h4⟩, h3⟩
  have hnb' : (1 - (bit (X1 = X2) : ZMod p)) = bit (¬ X1 = X2) := by
    unfold bit
    rw [if_neg hX12, if_pos hX12, sub_zero]
  have : (if SchnorrValid N (φ gen) Q E R S ∧ E < N then (1 : ZMod p) else 0) =
      bit (R < c.modulus) * bit (S ≠ 0 ∧ S < N) * bit (E ≠ 0 ∧ E < N) * bit (¬ X1 = X2) * bit (Y.val % 2 = 0) * bit (X.val = R) := by
    rw [bit_mul, bit_mul, bit_mul, bit_mul, bit_mul]
    unfold bit
    congr 1
    rw [eq_iff_iff, hvalid]
  rw [hnb'] at hres
  rw [this]
  exact hres

end H2
