import Verif.Props.EcdsaCircuit
import Verif.Props.MainKeygen
import Verif.Ecc.EqOwn

/-!
# C87: key generation of the ECDSA circuit succeeds, and the circuit has proofs
-/

set_option autoImplicit false
set_option linter.unusedSectionVars false
namespace H2
open Phys EqO

theorem ecdsaMain_eo (i : SigInput) : EqOwn (ecdsaMain i) := by
  unfold ecdsaMain
  refine EqOwn.bind («FpChip.loadPrivate_eo» _ _) fun _ => EqOwn.bind («FpChip.loadPrivate_eo» _ _) fun _ => EqOwn.bind («FpChip.loadPrivate_eo» _ _) fun _ =>
    EqOwn.bind (loadPoint_eo _ _ _) fun _ => EqOwn.bind (ecdsaVerify_eo _ _ _ _ _ _ _ _ _ _ _ _) fun _ => EqOwn.bind (assertIsConst_eo _ _) fun _ => EqOwn.pure _

/-- An input of an honest prover: a valid signature of a hash different from `0` (`SigHonest`), and random points outside the exceptional values. -/
def SigGood (i : SigInput) : Prop := ∃ (Q A1 A2 A3 : ECurve (7 : ZMod secpP)), SigHonest i.pk i.r i.s i.z Q ∧ SigRandPts i.rand (7 : ZMod secpP) A1 A2 A3 ∧
  RandOk i.rand.fixed.pair i.rand.var.pair (i.z * i.s⁻¹).val (i.r * i.s⁻¹).val Q A1 A2 A3

theorem not_tbl16 : ¬ RangeTable bn254R 16 ((2 ^ 16 : ℕ) : ZMod bn254R) := by
  rintro ⟨n, hn, h⟩
  rw [ZMod.natCast_eq_natCast_iff'] at h
  have hb : 2 ^ 16 < bn254R := by decide +kernel
  rw [Nat.mod_eq_of_lt hb, Nat.mod_eq_of_lt (hn.trans hb)] at h
  omega

theorem ecdsa_mainRun {i : SigInput} (h : SigGood i) (phase : ℕ) (ty : String) :
    ∃ outs s, MainRun (ecdsaMain i) phase ty outs s ∧ outs.map List.length = [15] := by
  obtain ⟨Q, A1, A2, A3, hh, hA, ok⟩ := h
  obtain ⟨outs, s, h1, h2⟩ := mainRun (tbl := RangeTable bn254R 16) (phase := phase) (ty := ty) (cols := [sigColumn i.pk.1.val i.pk.2.val i.r.val i.s.val i.z.val])
    (ecdsaMain_eo i) (ecdsaMain_rel (i := i) (j := i) fun _ => rfl).keeps not_tbl16 fun x => by
      obtain ⟨o, s', e1, e2, e3, e4, e5, e6⟩ := (ecdsaMain_cmp hh ⟨hA, rfl, rfl⟩ ok (ext := fun _ => x) (st := Ctx.new false phase ty 0 [] [])).run (good_new _ _ _)
      refine ⟨o, s', e1, e2, e3, e4, ?_⟩
      rw [e5]
      exact .cons e6 .nil
  exact ⟨outs, s, h1, h2⟩

theorem ecdsa_shape {i j : SigInput} {phase : ℕ} {ty : String} {o o' : List (List (AV bn254R))} {s t : Ctx bn254R}
    (h : MainRun (ecdsaMain i) phase ty o s) (h' : MainRun (ecdsaMain j) phase ty o' t) : H2.SameShape s t :=
  ((ecdsaMain_rel (k := false) (i := i) (j := j) (by simp)).shape (R := fun _ _ => True) (fun _ _ _ => trivial)
    _ _ (by refine ⟨rfl, rfl, rfl, rfl, rfl, rfl, rfl, rfl, rfl, rfl⟩) _ _ _ _ h.run h'.run).1

/-- C87 (key generation): there are numbers of advice cells, of distinct constants and of lookups such that key generation succeeds, from every honest input,
on every configuration with the columns for them. -/
theorem C87_keygen_succeeds (phase : ℕ) (ty : String) :
    ∃ cells consts lookups : ℕ, ∀ cfg : Cfg, 4 ≤ cfg.maxRows → (cells - 1) / (cfg.maxRows - 3) < cfg.ncols → consts ≤ cfg.nfixed * cfg.usable →
      lookups ≤ cfg.nsets * cfg.usable → cfg.qLookup = false → cfg.withRange = true →
      ∀ i0, SigGood i0 → ∃ reg map bps, Keygen ecdsaCircuit phase ty cfg i0 [15] reg map bps := by
  by_cases hex : ∃ i, SigGood i
  · obtain ⟨i, hi⟩ := hex
    obtain ⟨o, s, hr, -⟩ := ecdsa_mainRun hi phase ty
    refine ⟨s.advice.length, (s.consts.map Prod.fst).toFinset.card, s.lookups.length, fun cfg h1 h2 h3 h4 h5 h6 i0 hi0 => ?_⟩
    obtain ⟨o', t, hr', hs'⟩ := ecdsa_mainRun hi0 phase ty
    have hsh := ecdsa_shape hr hr'
    rw [← hs']
    have hl := congrArg List.length hsh.lookups
    rw [List.length_map, List.length_map] at hl
    exact C57_main_circuit_keygen (f := ecdsaMain) hr' h1 (by rw [← hsh.len]; exact h2) (by rw [← hsh.consts]; exact h3) (by rw [← hl]; exact h4) h5 h6
  · exact ⟨0, 0, 0, fun cfg _ _ _ _ _ _ i0 h => absurd ⟨i0, h⟩ hex⟩

/-- There are more points than exceptional values. -/
theorem exists_rand {B : Set (ECurve (7 : ZMod secpP))} (h : B.ncard ≤ 232) : ∃ x y A, IsPt (7 : ZMod secpP) x y A ∧ A ∉ B := by
  have hc := card_secp256k1
  have hfin : Finite (ECurve (7 : ZMod secpP)) := Nat.finite_of_card_ne_zero (by rw [hc]; decide +kernel)
  have h1 : (insert 0 B).ncard < Nat.card (ECurve (7 : ZMod secpP)) := by
    rw [hc]
    exact ((Set.ncard_insert_le _ _).trans (Nat.add_le_add_right h 1)).trans_lt (by decide +kernel)
  have h2 : insert 0 B ≠ Set.univ := fun h => by rw [h, Set.ncard_univ] at h1; exact lt_irrefl _ h1
  obtain ⟨A, hA⟩ := (Set.ne_univ_iff_exists_notMem _).1 h2
  rw [Set.mem_insert_iff, not_or] at hA
  cases A with
  | zero => exact absurd rfl hA.1
  | some x y hxy => exact ⟨x, y, _, ⟨hxy, rfl⟩, hA.2⟩

open Classical in
/-- For every honest signature there are random points that make an honest input. -/
theorem exists_good {pk : ZMod secpP × ZMod secpP} {r s z : ZMod secpN} {Q : ECurve (7 : ZMod secpP)} (h : SigHonest pk r s z Q) :
    ∃ rand, SigGood ⟨pk, r, s, z, rand⟩ := by
  have hp : secpN.Prime := Fact.out
  have h2 : secpN ≠ 2 := by decide +kernel
  obtain ⟨x1, y1, A1, hA1, b1⟩ := exists_rand ((fb_bad_card hp h2 card_secp256k1 (K := ZMod secpP) (0 : ZMod secpP) (wb := 4) (Q := secpG) (N := (z * s⁻¹).val) (nw := (88 * 3 + 4 - 1) / 4)).trans (by decide))
  obtain ⟨x2, y2, A2, hA2, b2⟩ := exists_rand ((msm_bad_card hp card_secp256k1 (K := ZMod secpP) (0 : ZMod secpP) (wb := 4) (qs := [Q]) (Ns := [(r * s⁻¹).val]) (nw := (88 * 3 + 4 - 1) / 4) (by simp) rfl (by norm_num) (show 2 ^ (4 + 1) < secpN by decide +kernel)).trans (show msmBadBound 4 ((88 * 3 + 4 - 1) / 4) 1 ≤ 232 by decide))
  obtain ⟨x3, y3, A3, hA3, b3⟩ := exists_rand ((sum_bad_card hp h2 card_secp256k1 ((z * s⁻¹).val • secpG) ((r * s⁻¹).val • Q)).trans (by norm_num))
  replace b1 := not_not.1 b1
  replace b2 := not_not.1 b2
  replace b3 := not_not.1 b3
  exact ⟨⟨⟨(x1, y1), ((0 : ZMod secpP), (0 : ZMod secpP))⟩, ⟨(x2, y2), ((0 : ZMod secpP), (0 : ZMod secpP))⟩, (x3, y3)⟩, Q, A1, A2, A3, h, ⟨hA1, hA2, hA3⟩, ⟨b1, b2, b3.1, b3.2⟩⟩

/-- An honest signature: the key `1`, the nonce `1`, the message hash `1`. -/
theorem honest_example : SigHonest ((secpGx : ZMod secpP), (secpGy : ZMod secpP)) ((secpGx : ℕ) : ZMod secpN) ((secpGx + 1 : ℕ) : ZMod secpN) ((1 : ℕ) : ZMod secpN) secpG := by
  obtain ⟨-, h1, -, h3, -, h5, h6⟩ := ecdsa_example
  have hp : 1 < secpN := by decide +kernel
  have v1 : (((1 : ℕ) : ZMod secpN)).val = 1 := ZMod.val_natCast_of_lt hp
  have v2 : ((secpGx : ℕ) : ZMod secpN).val = secpGx := ZMod.val_natCast_of_lt ((Nat.lt_succ_self _).trans h1)
  have v3 : ((secpGx + 1 : ℕ) : ZMod secpN).val = secpGx + 1 := ZMod.val_natCast_of_lt h1
  refine ⟨secpG_spec, ?_, ?_, h5⟩
  · rw [v1, v2, v3]; exact h6
  · intro h
    rw [h, ZMod.val_zero] at v1
    exact absurd v1 (by decide)

/-- C87 together: with the columns of `C87_keygen_succeeds`, key generation from an honest input gives a key, and for every honest signature, for suitable random points
(all but a few, see `C87_ecdsa_proof_accepted`), the prover of that key succeeds on a satisfying assignment of the circuit of the key, with the limbs of the public key,
of the signature and of the hash as public inputs. -/
theorem C87_pipeline (phase : ℕ) (ty : String) :
    ∃ cells consts lookups : ℕ, ∀ cfg : Cfg, 4 ≤ cfg.maxRows → (cells - 1) / (cfg.maxRows - 3) < cfg.ncols → consts ≤ cfg.nfixed * cfg.usable →
      lookups ≤ cfg.nsets * cfg.usable → cfg.qLookup = false → cfg.withRange = true →
      ∃ i0 reg map bps, Keygen ecdsaCircuit phase ty cfg i0 [15] reg map bps ∧
        ∀ (pk : ZMod secpP × ZMod secpP) (r s z : ZMod secpN) (Q : ECurve (7 : ZMod secpP)), SigHonest pk r s z Q →
          ∃ rand ws v, ProverWrites ecdsaCircuit phase ty cfg bps ⟨pk, r, s, z, rand⟩ ws ∧
            v = proofAssignment ws reg.fixed [sigColumn pk.1.val pk.2.val r.val s.val z.val] ∧ Phys.PSat cfg tbl16 1 reg v ∧
            publicInputs [15] v = [sigColumn pk.1.val pk.2.val r.val s.val z.val] := by
  obtain ⟨n1, n2, n3, hN⟩ := C87_keygen_succeeds phase ty
  refine ⟨n1, n2, n3, fun cfg h1 h2 h3 h4 h5 h6 => ?_⟩
  obtain ⟨rand0, hr0⟩ := exists_good honest_example
  obtain ⟨reg, map, bps, hk⟩ := hN cfg h1 h2 h3 h4 h5 h6 _ hr0
  refine ⟨_, reg, map, bps, hk, fun pk r s z Q hh => ?_⟩
  obtain ⟨rand, Q', A1, A2, A3, hh', hA, ok⟩ := exists_good hh
  have h0 : tbl16 [0] := ⟨0, rfl, 0, by norm_num, by simp⟩
  obtain ⟨⟨ws, hws⟩, hacc⟩ := C77_proof_accepted ecdsaCircuit_lib h1 hk h0 (ext := fun _ => 0) (ecdsaCircuit_cmp hh' ⟨hA, rfl, rfl⟩ ok)
  exact ⟨rand, ws, _, hws, rfl, (hacc ws hws).2, public_proof _ _ _⟩

/-- The circuit has a key and an accepted proof: the signature of `honest_example`. -/
example : ∃ cfg i0 reg map bps rand ws v, Keygen ecdsaCircuit 0 "main" cfg i0 [15] reg map bps ∧
    ProverWrites ecdsaCircuit 0 "main" cfg bps ⟨((secpGx : ZMod secpP), (secpGy : ZMod secpP)), ((secpGx : ℕ) : ZMod secpN), ((secpGx + 1 : ℕ) : ZMod secpN), ((1 : ℕ) : ZMod secpN), rand⟩ ws ∧
    Phys.PSat cfg tbl16 1 reg v := by
  obtain ⟨n1, n2, n3, hN⟩ := C87_pipeline 0 "main"
  obtain ⟨i0, reg, map, bps, hk, hp⟩ := hN ⟨true, n1 + 1, n2 + 1, n3 + 1, false, 4, 1⟩ (by norm_num) (by simp) (by simp) (by simp) rfl rfl
  obtain ⟨rand, ws, v, h1, -, h2, -⟩ := hp _ _ _ _ _ honest_example
  exact ⟨_, i0, reg, map, bps, rand, ws, v, hk, h1, h2⟩

end H2
