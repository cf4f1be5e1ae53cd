import Verif.Props.EndToEnd
import Verif.Props.CompleteSig

/-!
# Property C87: a circuit that checks an ECDSA signature over secp256k1, end to end

The circuit loads a public key, a message hash and a signature, runs `ecdsa_verify_no_pubkey_check`, requires the result to be `1` and
exposes the loaded numbers.  It is laid out in the columns of a `BaseConfig`, as every circuit of the library; the theorems speak about the
physical circuit: an assignment of its columns satisfying gates, copy constraints and lookups shows that the public inputs are a valid
signature, and the prover writes such an assignment for every valid signature.
-/

set_option autoImplicit false
set_option linter.unusedSectionVars false
namespace H2
open Phys

/-! ### The circuit -/

/-- The inputs (`ECDSAInput`, secp256k1/tests/ecdsa.rs:40-46), with the random choices of the prover. -/
structure SigInput where
  pk : ZMod secpP × ZMod secpP
  r : ZMod secpN
  s : ZMod secpN
  z : ZMod secpN
  rand : SigRand secpChip

/-- `FqChip` of secp256k1 with three limbs of 88 bits over BN254. -/
abbrev secpFq : FpChip bn254R := fpChip bn254R 16 secpN 88 3

/-- `ecdsa_test` (secp256k1/tests/ecdsa.rs:48-69), with three additions that turn the test into a verifier: the public key is loaded with
the check that it is on the curve (`EccChip::load_private`, ecc/mod.rs:831-842, instead of `load_private_unchecked`), the result is
required to be `1` (`assert_is_const`) and the limbs of the public key, of the signature and of the message hash are returned as one
column of public inputs. -/
noncomputable def ecdsaMain (i : SigInput) : M bn254R (List (List (AV bn254R))) := do
  let z : CrtInt bn254R ← secpFq.loadPrivate i.z
  let r : CrtInt bn254R ← secpFq.loadPrivate i.r
  let s : CrtInt bn254R ← secpFq.loadPrivate i.s
  let pk ← loadPoint secpChip.ops (7 : ZMod secpP) i.pk
  let res ← ecdsaVerify secpChip secpN (groupCurve secpChip (7 : ZMod secpP)) (7 : ZMod secpP) secpG i.rand pk r s z 4 4
  assertIsConst res 1
  let x : CrtInt bn254R := pk.x
  let y : CrtInt bn254R := pk.y
  pure [x.trunc.limbs ++ (y.trunc.limbs ++ (r.trunc.limbs ++ (s.trunc.limbs ++ z.trunc.limbs)))]

/-- The circuit runs on the main thread of the builder (`base_test().run(|ctx, range| ..)`, utils/testing.rs). -/
noncomputable def ecdsaCircuit : Prog bn254R SigInput := fun i => onMain (ecdsaMain i)

/-! ### Specification -/

/-- The three limbs of 88 bits of a number, as public inputs. -/
def enc3 (n : ℕ) : List (ZMod bn254R) := [((n % 2 ^ 88 : ℕ) : ZMod bn254R), ((n / 2 ^ 88 % 2 ^ 88 : ℕ) : ZMod bn254R), ((n / 2 ^ 176 : ℕ) : ZMod bn254R)]

/-- The column of public inputs for the public key `(X, Y)`, the signature `(R, S)` and the message hash `Z`. -/
def sigColumn (X Y R S Z : ℕ) : List (ZMod bn254R) := enc3 X ++ (enc3 Y ++ (enc3 R ++ (enc3 S ++ enc3 Z)))

/-- The table of the lookup argument: the numbers below `2 ^ 16`. -/
def tbl16 : List (ZMod bn254R) → Prop := fun l => ∃ a, l = [a] ∧ RangeTable bn254R 16 a

/-! ### The circuit is a library circuit -/

theorem RV.of {k : Bool} {α : Type} {i j : SigInput} (h : k = true → i = j) (f : SigInput → α) : RV k (f i) (f j) := fun hk => by rw [h hk]

theorem RV2.of {k : Bool} {α β : Type} {i j : SigInput} (h : k = true → i = j) (f : SigInput → α × β) : RV2 k (f i) (f j) :=
  ⟨RV.of h fun i => (f i).1, RV.of h fun i => (f i).2⟩

theorem ecdsaMain_rel {k : Bool} {i j : SigInput} (h : k = true → i = j) :
    Rel k (ecdsaMain i) (ecdsaMain j) (List.Forall₂ (List.Forall₂ (RA k))) := by
  have hsig : RSig secpChip k i.rand j.rand :=
    ⟨⟨RV2.of h fun i => i.rand.fixed.base, RV2.of h fun i => i.rand.fixed.pair⟩,
      ⟨RV2.of h fun i => i.rand.var.base, RV2.of h fun i => i.rand.var.pair⟩, RV2.of h fun i => i.rand.sum⟩
  refine (secpFq.loadPrivate_rel (RV.of h SigInput.z)).bind fun z z' hz => (secpFq.loadPrivate_rel (RV.of h SigInput.r)).bind fun r r' hr =>
    (secpFq.loadPrivate_rel (RV.of h SigInput.s)).bind fun s s' hs =>
    (loadPoint_rel (secpChip.fieldRel k) (7 : ZMod secpP) (RV2.of h SigInput.pk)).bind fun P P' hP =>
    (ecdsaVerify_rel secpChip secpN _ _ _ hsig hP hr hs hz 4 4).bind fun u u' hu => (assertIsConst_rel hu 1).bind fun _ _ _ => Rel.pure ?_
  have hx : RC k P.x P'.x := hP.x
  have hy : RC k P.y P'.y := hP.y
  exact .cons (List.rel_append hx.trunc.limbs (List.rel_append hy.trunc.limbs (List.rel_append hr.trunc.limbs
    (List.rel_append hs.trunc.limbs hz.trunc.limbs)))) .nil

theorem ecdsaCircuit_lib : LibProg ecdsaCircuit := libProg_of_rel fun _ _ _ h => onMain_rel (ecdsaMain_rel h)

/-! ### Soundness -/

theorem digits3 {ds : List ℕ} {X : ℕ} (hl : ds.length = 3) (hd : ∀ d ∈ ds, d < 2 ^ 88) (hX : X = Nat.ofDigits (2 ^ 88) ds) :
    ds.map (fun d : ℕ => (d : ZMod bn254R)) = enc3 X := by
  obtain ⟨a, b, c, rfl⟩ := List.length_eq_three.1 hl
  have ha := hd a (by simp)
  have hb := hd b (by simp)
  have hc := hd c (by simp)
  simp only [Nat.ofDigits_cons, Nat.ofDigits_nil, Nat.cast_id] at hX
  have e1 : X % 2 ^ 88 = a := by omega
  have e2 : X / 2 ^ 88 % 2 ^ 88 = b := by omega
  have e3 : X / 2 ^ 176 = c := by omega
  rw [enc3, e1, e2, e3]
  rfl

theorem ProperOk.enc {w : Cell → ZMod bn254R} {a : CrtInt bn254R} {X : ℕ} (h : ProperOk 88 3 w a X) : a.trunc.limbs.map (at' w) = enc3 X := by
  obtain ⟨ds, hl, -, he, hd, hX, -⟩ := h
  rw [he, digits3 hl hd hX]

/-- What an accepted column of public inputs says. -/
def SigPublic (cols : List (List (ZMod bn254R))) : Prop :=
  ∃ X Y R S Z : ℕ, X < 2 ^ 256 ∧ Y < 2 ^ 256 ∧ R < 2 ^ 256 ∧ S < 2 ^ 256 ∧ Z < 2 ^ 256 ∧ cols = [sigColumn X Y R S Z] ∧
    ∃ Q, IsPt (7 : ZMod secpP) (X : ZMod secpP) (Y : ZMod secpP) Q ∧ (¬ secpN ∣ Z → EcdsaValid secpN secpG Q Z R S)

theorem ecdsaMain_sound (i : SigInput) : Sound (RangeTable bn254R 16) (ecdsaMain i) (fun w r => SigPublic (r.map (List.map (at' w)))) := by
  intro s0
  refine Snd.bind (secpFq.loadPrivate_sound scalarChip_secp.ok i.z s0) fun z s1 _ => Snd.bind (secpFq.loadPrivate_sound scalarChip_secp.ok i.r s1) fun r s2 _ =>
    Snd.bind (secpFq.loadPrivate_sound scalarChip_secp.ok i.s s2) fun s s3 _ =>
    Snd.bind (loadPoint_sound (l := FpChip.laws secpOk) (ecFits_88_3 (by decide +kernel) secpOk) (7 : ZMod secpP) curveOk_secp256k1 i.pk s3) fun P s4 _ =>
    Snd.bind (ecdsaVerify_sound secpOk (ecFits_88_3 (by decide +kernel) secpOk) scalarChip_secp (by decide +kernel) (by decide +kernel) (7 : ZMod secpP) curveOk_secp256k1
      (groupCurve_laws secpOk (7 : ZMod secpP)) secpG secpG_spec.ne_zero (secp_order _) i.rand P r s z 4 4 (by decide +kernel) (by decide +kernel) s4) fun res s5 _ =>
    Snd.bind (assertIsConst_sound res 1 s5) fun _ s6 _ => Snd.pure ?_
  rintro w - h1 hv ⟨Q, Xv, Yv, ⟨⟨X, hX, hX2, rfl⟩, ⟨Y, hY, hY2, rfl⟩⟩, hQ⟩ ⟨S, hS, hS2⟩ ⟨R, hR, hR2⟩ ⟨Z, hZ, hZ2⟩
  have hmp : secpChip.modulus = secpP := rfl
  have hmn : secpFq.modulus = secpN := rfl
  have hX3 := hX2
  have hY3 := hY2
  rw [hmp, size_secpP] at hX3 hY3
  rw [hmn, size_secpN] at hR2 hS2 hZ2
  refine ⟨X, Y, R, S, Z, hX3, hY3, hR2, hS2, hZ2, ?_, Q, hQ, fun hZN => ?_⟩
  · simp only [List.map_cons, List.map_nil, List.map_append]
    rw [ProperOk.enc hX, ProperOk.enc hY, ProperOk.enc hR, ProperOk.enc hS, ProperOk.enc hZ, sigColumn]
  · obtain ⟨U1, U2, -, -, -, he, -⟩ := hv Q R S Z ⟨_, _, ⟨⟨X, hX, hX2, rfl⟩, ⟨Y, hY, hY2, rfl⟩⟩, .inl hQ⟩ hQ.ne_zero (secp_order Q) hR hS hZ hZN
    rw [h1] at he
    by_contra hn
    rw [if_neg (fun h => hn h.1)] at he
    exact one_ne_zero he

theorem ecdsaCircuit_sound (i : SigInput) : PSound (fun x => tbl16 [x]) (ecdsaCircuit i) (fun w r => SigPublic (r.map (List.map (at' w)))) := by
  have : (fun x => tbl16 [x]) = RangeTable bn254R 16 := by
    funext x
    simp [tbl16]
  rw [this]
  exact onMain_sound (ecdsaMain_sound i)

/-- **C87** (soundness) An assignment of the physical circuit that satisfies every constraint shows that the public inputs are the limbs of
a point of the curve and of a valid signature of the message hash under it, unless the message hash is a multiple of the group order. -/
theorem C87_ecdsa_sound {phase : ℕ} {typeId : String} {cfg : Cfg} (hmx : 4 ≤ cfg.maxRows) {i0 : SigInput} {sizes : List ℕ} {reg : Region bn254R}
    {map : CellMap} {bps : List ℕ} (hk : Keygen ecdsaCircuit phase typeId cfg i0 sizes reg map bps) {v : PCell → ZMod bn254R}
    (hv : Phys.PSat cfg tbl16 1 reg v) :
    ∃ X Y R S Z : ℕ, X < 2 ^ 256 ∧ Y < 2 ^ 256 ∧ R < 2 ^ 256 ∧ S < 2 ^ 256 ∧ Z < 2 ^ 256 ∧
      publicInputs sizes v = [sigColumn X Y R S Z] ∧
      ∃ Q, IsPt (7 : ZMod secpP) (X : ZMod secpP) (Y : ZMod secpP) Q ∧ (¬ secpN ∣ Z → EcdsaValid secpN secpG Q Z R S) :=
  C77_accepted_sound ecdsaCircuit_lib hmx hk (ecdsaCircuit_sound i0) hv

/-! ### Completeness -/

/-- The random points of the prover. -/
structure RandIs (rand : SigRand secpChip) (pf pv : ZMod secpP × ZMod secpP) (A1 A2 A3 : ECurve (7 : ZMod secpP)) : Prop where
  pts : SigRandPts rand (7 : ZMod secpP) A1 A2 A3
  fixed : rand.fixed.pair = pf
  var : rand.var.pair = pv

theorem ProperW.encCon {ext : Cell → ZMod bn254R} {s : Ctx bn254R} {a : CrtInt bn254R} {X : ℕ} (h : ProperW 88 3 ext s a X) :
    AvsCon ext s a.trunc.limbs (enc3 X) := by
  rw [← h.ok.enc]
  exact h.limbs.con

/-- The conditions of an honest run on the numbers: a valid signature (`EcdsaValid`) of a hash that is not `0`, and the point of the
verification equation has a first coordinate below the group order. -/
structure SigHonest (pk : ZMod secpP × ZMod secpP) (r s z : ZMod secpN) (Q : ECurve (7 : ZMod secpP)) : Prop where
  pk : IsPt (7 : ZMod secpP) pk.1 pk.2 Q
  valid : EcdsaValid secpN secpG Q z.val r.val s.val
  hash : z ≠ 0
  small : ∃ x y, IsPt (7 : ZMod secpP) x y ((z * s⁻¹).val • secpG + (r * s⁻¹).val • Q) ∧ x.val < secpN

theorem not_dvd_val {x : ZMod secpN} (h : x ≠ 0) : ¬ secpN ∣ x.val := fun hd => by
  have hp : 0 < x.val := Nat.pos_of_ne_zero fun h0 => h ((ZMod.val_eq_zero x).1 h0)
  exact absurd (Nat.le_of_dvd hp hd) (not_le.2 (ZMod.val_lt x))

open Classical in
/-- The exceptional random points, for the multipliers `u1`, `u2` and the public key `Q`. -/
structure RandOk (pf pv : ZMod secpP × ZMod secpP) (u1 u2 : ℕ) (Q A1 A2 A3 : ECurve (7 : ZMod secpP)) : Prop where
  ok1 : FbOk (K := ZMod secpP) (7 : ZMod secpP) pf.1 A1 4 ((88 * 3 + 4 - 1) / 4) secpG u1
  ok2 : MsmOk (K := ZMod secpP) (7 : ZMod secpP) pv.1 A2 4 ((88 * 3 + 4 - 1) / 4) [Q] [u2]
  ok3 : SumOk A3 [u1 • secpG, u2 • Q]
  ok4 : A3 + (u1 • secpG + u2 • Q) ≠ -A3

theorem ecdsaMain_cmp {pk : ZMod secpP × ZMod secpP} {r s z : ZMod secpN} {Q : ECurve (7 : ZMod secpP)} (h : SigHonest pk r s z Q)
    {rand : SigRand secpChip} {pf pv : ZMod secpP × ZMod secpP} {A1 A2 A3 : ECurve (7 : ZMod secpP)} (hr : RandIs rand pf pv A1 A2 A3)
    (ok : RandOk pf pv (z * s⁻¹).val (r * s⁻¹).val Q A1 A2 A3) {ext : Cell → ZMod bn254R} {st : Ctx bn254R} :
    Cmp (RangeTable bn254R 16) ext st (ecdsaMain ⟨pk, r, s, z, rand⟩) (fun o s' => o = [o.headD []] ∧
      AvsCon ext s' (o.headD []) (sigColumn pk.1.val pk.2.val r.val s.val z.val)) := by
  have hcs : FpCmp secpFq := scalarChipC_secp.cmp
  refine Cmp.bind (secpFq.loadPrivate_cmp hcs z) fun za s1 e1 hz => Cmp.bind (secpFq.loadPrivate_cmp hcs r) fun ra s2 e2 hra =>
    Cmp.bind (secpFq.loadPrivate_cmp hcs s) fun sa s3 e3 hsa =>
    Cmp.bind (loadPoint_cmp (k := secpK) (ecFitsC_88_3 (by decide +kernel) secpCmp) (7 : ZMod secpP) h.pk) fun P s4 e4 hP => ?_
  replace hz := ((hz.mono e2).mono e3).mono e4
  replace hra := (hra.mono e3).mono e4
  replace hsa := hsa.mono e4
  obtain ⟨⟨-, hrN⟩, ⟨hs0, hsN⟩, -⟩ := h.valid
  have hr0 := h.valid.1.1
  obtain ⟨x, y, hV, hx⟩ := h.small
  obtain ⟨hA, rfl, rfl⟩ := hr
  have hr0' : r ≠ 0 := fun h0 => by rw [h0, ZMod.val_zero] at hr0; exact lt_irrefl _ hr0
  have hcast : ∀ a : ZMod secpN, ((a.val : ℕ) : ZMod secpN) = a := fun a => ZMod.natCast_zmod_val a
  have hu1 : (z * s⁻¹).val = (((z.val : ℕ) : ZMod secpN) * ((s.val : ℕ) : ZMod secpN)⁻¹).val := by rw [hcast, hcast]
  have hu2 : (r * s⁻¹).val = (((r.val : ℕ) : ZMod secpN) * ((s.val : ℕ) : ZMod secpN)⁻¹).val := by rw [hcast, hcast]
  refine Cmp.bind (ecdsaVerify_cmp secpCmp (ecFitsC_88_3 (by decide +kernel) secpCmp) scalarChipC_secp (by decide +kernel) (by decide +kernel) (7 : ZMod secpP)
    curveOk_secp256k1 (groupCurve_laws secpCmp.ok (7 : ZMod secpP)) secpG secpG_spec.ne_zero (secp_order _) rand (vw := 4) (fw := 4) (by norm_num) (by norm_num)
    (by decide +kernel) (by decide +kernel) hP.zero h.pk.ne_zero (secp_order Q) hra hsa hz hs0.ne' hsN (not_dvd_val hr0') (not_dvd_val h.hash) hu1 hu2
    hV hx hA ok.ok1 ok.ok2 ok.ok3 ok.ok4) fun res s5 e5 hres => ?_
  have hres1 : Con ext s5 res 1 := by
    split at hres
    · exact hres
    · rename_i hn
      exact absurd h.valid hn
  refine Cmp.bind (assertIsConst_cmp hres1.conF) fun _ s6 e6 _ => Cmp.pure ⟨rfl, ?_⟩
  obtain ⟨Xv, Yv, ⟨hPx, hPy⟩, hI⟩ := hP
  obtain ⟨rfl, rfl⟩ := IsPt.coords hI h.pk
  have c1 : AvsCon ext s4 (CrtInt.trunc P.x).limbs (enc3 pk.1.val) := ProperW.encCon hPx
  have c2 : AvsCon ext s4 (CrtInt.trunc P.y).limbs (enc3 pk.2.val) := ProperW.encCon hPy
  have c3 := ProperW.encCon hra
  have c4 := ProperW.encCon hsa
  have c5 := ProperW.encCon hz
  have key : ∀ {l l' : List (AV bn254R)} {x x' : List (ZMod bn254R)}, AvsCon ext s6 l x → AvsCon ext s6 l' x' → AvsCon ext s6 (l ++ l') (x ++ x') :=
    fun h h' => List.rel_append h h'
  exact key ((c1.mono e5).mono e6) (key ((c2.mono e5).mono e6) (key ((c3.mono e5).mono e6) (key ((c4.mono e5).mono e6) ((c5.mono e5).mono e6))))

theorem ecdsaCircuit_cmp {pk : ZMod secpP × ZMod secpP} {r s z : ZMod secpN} {Q : ECurve (7 : ZMod secpP)} (h : SigHonest pk r s z Q)
    {rand : SigRand secpChip} {pf pv : ZMod secpP × ZMod secpP} {A1 A2 A3 : ECurve (7 : ZMod secpP)} (hr : RandIs rand pf pv A1 A2 A3)
    (ok : RandOk pf pv (z * s⁻¹).val (r * s⁻¹).val Q A1 A2 A3) {ext : Cell → ZMod bn254R} {phase : ℕ} {ty : String} :
    PCompletes (fun x => tbl16 [x]) ext ⟨false, phase, ty, []⟩ (ecdsaCircuit ⟨pk, r, s, z, rand⟩)
      (fun w o => o.map (List.map (at' w)) = [sigColumn pk.1.val pk.2.val r.val s.val z.val]) := by
  have htbl : (fun x => tbl16 [x]) = RangeTable bn254R 16 := by
    funext x
    simp [tbl16]
  rw [htbl]
  have h1 : PCmp (RangeTable bn254R 16) ext ⟨false, phase, ty, []⟩ (ecdsaCircuit ⟨pk, r, s, z, rand⟩) (fun o S' =>
      PHolds ext S' fun w s' => o = [o.headD []] ∧ AvsCon w s' (o.headD []) (sigColumn pk.1.val pk.2.val r.val s.val z.val)) := by
    refine onMain_cmp (fun o => ?_) fun w _ s' _ => ecdsaMain_cmp h hr ok
    obtain ⟨avs, hm⟩ := Mov.avsCon (o.headD [])
    exact Mov.and (Mov.const _) ⟨avs, hm _⟩
  refine h1.run ?_ (pgood_new _ _)
  rintro o S' hg hz
  have ho : o = [o.headD []] := (hz _ (hon_poolW hg.ids) _ (member_new (S := S') le_rfl)).1
  have hf := PHolds.forall₂ hg.ids (hz.imp fun w s' h => h.2)
  rw [ho, List.map_cons, List.map_nil]
  congr 1
  generalize sigColumn pk.1.val pk.2.val r.val s.val z.val = col at hf
  clear ho hz h1
  generalize o.headD [] = l at hf ⊢
  induction hf with
  | nil => rfl
  | cons hd _ ih => rw [List.map_cons, pholds_at hg.ids hd, ih]

open Classical in
/-- **C87** (completeness) For every valid signature of a hash different from `0`, the point of the verification equation having a first
coordinate below the group order, and for all random points but at most 135, 232 and 5 exceptional values of each: the prover does not
panic, and what it writes satisfies the circuit made by key generation from any other input, with the limbs of the public key, of the
signature and of the hash as public inputs. -/
theorem C87_ecdsa_proof_accepted {phase : ℕ} {typeId : String} {cfg : Cfg} (hmx : 4 ≤ cfg.maxRows) {i0 : SigInput} {sizes : List ℕ} {reg : Region bn254R}
    {map : CellMap} {bps : List ℕ} (hk : Keygen ecdsaCircuit phase typeId cfg i0 sizes reg map bps)
    {pk : ZMod secpP × ZMod secpP} {r s z : ZMod secpN} {Q : ECurve (7 : ZMod secpP)} (hpk : IsPt (7 : ZMod secpP) pk.1 pk.2 Q)
    (hvalid : EcdsaValid secpN secpG Q z.val r.val s.val) (hz : z ≠ 0)
    (hsmall : ∃ x y, IsPt (7 : ZMod secpP) x y ((z * s⁻¹).val • secpG + (r * s⁻¹).val • Q) ∧ x.val < secpN) (pf pv : ZMod secpP × ZMod secpP) :
    ∃ B1 B2 B3 : Set (ECurve (7 : ZMod secpP)), B1.ncard ≤ 135 ∧ B2.ncard ≤ 232 ∧ B3.ncard ≤ 5 ∧
      ∀ rand : SigRand secpChip, rand.fixed.pair = pf → rand.var.pair = pv → ∀ A1 A2 A3, SigRandPts rand (7 : ZMod secpP) A1 A2 A3 →
        A1 ∉ B1 → A2 ∉ B2 → A3 ∉ B3 →
        (∃ ws, ProverWrites ecdsaCircuit phase typeId cfg bps ⟨pk, r, s, z, rand⟩ ws) ∧
        ∀ ws, ProverWrites ecdsaCircuit phase typeId cfg bps ⟨pk, r, s, z, rand⟩ ws →
          ws.map Prod.fst = reg.writes.map Prod.fst ∧
          Phys.PSat cfg tbl16 1 reg (proofAssignment ws reg.fixed [sigColumn pk.1.val pk.2.val r.val s.val z.val]) := by
  have hh : SigHonest pk r s z Q := ⟨hpk, hvalid, hz, hsmall⟩
  have hp : secpN.Prime := Fact.out
  have h2 : secpN ≠ 2 := by decide +kernel
  refine ⟨_, _, _, (fb_bad_card hp h2 card_secp256k1 (K := ZMod secpP) pf.1 (wb := 4) (Q := secpG) (N := (z * s⁻¹).val) (nw := (88 * 3 + 4 - 1) / 4)).trans (by decide),
    (msm_bad_card hp card_secp256k1 (K := ZMod secpP) pv.1 (wb := 4) (qs := [Q]) (Ns := [(r * s⁻¹).val]) (nw := (88 * 3 + 4 - 1) / 4) (by simp) rfl (by norm_num) (show 2 ^ (4 + 1) < secpN by decide +kernel)).trans (show msmBadBound 4 ((88 * 3 + 4 - 1) / 4) 1 ≤ 232 by decide),
    sum_bad_card hp h2 card_secp256k1 ((z * s⁻¹).val • secpG) ((r * s⁻¹).val • Q), ?_⟩
  intro rand hpf hpv A1 A2 A3 hA b1 b2 b3
  replace b1 := not_not.1 b1
  replace b2 := not_not.1 b2
  replace b3 := not_not.1 b3
  have h0 : tbl16 [0] := ⟨0, rfl, 0, by norm_num, by simp⟩
  exact C77_proof_accepted ecdsaCircuit_lib hmx hk h0 (ext := fun _ => 0)
    (ecdsaCircuit_cmp hh ⟨hA, hpf, hpv⟩ ⟨b1, b2, b3.1, b3.2⟩)

end H2
