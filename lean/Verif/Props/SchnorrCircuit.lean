import Verif.Props.EcdsaKeygen

/-!
# Property C88: a circuit that checks a Schnorr signature over secp256k1, end to end

As C87, with `schnorr_verify_no_pubkey_check`: `r` is an element of the base field, the challenge is an input.
-/

set_option autoImplicit false
set_option linter.unusedSectionVars false
namespace H2
open Phys EqO

/-! ### The circuit -/

/-- The inputs (`SchnorrInput`, secp256k1/tests/schnorr_signature.rs:29-34), with the random choices of the prover. -/
structure SchInput where
  pk : ZMod secpP × ZMod secpP
  r : ZMod secpP
  s : ZMod secpN
  e : ZMod secpN
  rand : SigRand secpChip

/-- `schnorr_signature_test` (secp256k1/tests/schnorr_signature.rs:36-55), with three changes that turn the test into a verifier: the public key is
loaded with the check that it is on the curve (`EccChip::load_private`, ecc/mod.rs:831-842; `assign_point` would also accept the point at infinity),
the result is required to be `1` (`assert_is_const`) and the limbs of the public key, of the signature and of the challenge are returned as one
column of public inputs. -/
noncomputable def schnorrMain (i : SchInput) : M bn254R (List (List (AV bn254R))) := do
  let e : CrtInt bn254R ← secpFq.loadPrivate i.e
  let s : CrtInt bn254R ← secpFq.loadPrivate i.s
  let r : CrtInt bn254R ← secpChip.loadPrivate i.r
  let pk ← loadPoint secpChip.ops (7 : ZMod secpP) i.pk
  let res ← schnorrVerify secpChip secpN (groupCurve secpChip (7 : ZMod secpP)) (7 : ZMod secpP) secpG i.rand pk r s e 4 4
  assertIsConst res 1
  let x : CrtInt bn254R := pk.x
  let y : CrtInt bn254R := pk.y
  pure [x.trunc.limbs ++ (y.trunc.limbs ++ (r.trunc.limbs ++ (s.trunc.limbs ++ e.trunc.limbs)))]

/-- The circuit runs on the main thread of the builder (`base_test().run(|ctx, range| ..)`, utils/testing.rs). -/
noncomputable def schnorrCircuit : Prog bn254R SchInput := fun i => onMain (schnorrMain i)

/-! ### The circuit is a library circuit -/

theorem schnorrMain_rel {k : Bool} {i j : SchInput} (h : k = true → i = j) :
    Rel k (schnorrMain i) (schnorrMain j) (List.Forall₂ (List.Forall₂ (RA k))) := by
  have of : ∀ {α : Type} (f : SchInput → α), RV k (f i) (f j) := fun f hk => by rw [h hk]
  have of2 : ∀ {α β : Type} (f : SchInput → α × β), RV2 k (f i) (f j) := fun f => ⟨of fun i => (f i).1, of fun i => (f i).2⟩
  have hsig : RSig secpChip k i.rand j.rand :=
    ⟨⟨of2 fun i => i.rand.fixed.base, of2 fun i => i.rand.fixed.pair⟩,
      ⟨of2 fun i => i.rand.var.base, of2 fun i => i.rand.var.pair⟩, of2 fun i => i.rand.sum⟩
  refine (secpFq.loadPrivate_rel (of SchInput.e)).bind fun z z' hz => (secpFq.loadPrivate_rel (of SchInput.s)).bind fun s s' hs =>
    (secpChip.loadPrivate_rel (of SchInput.r)).bind fun r r' hr =>
    (loadPoint_rel (secpChip.fieldRel k) (7 : ZMod secpP) (of2 SchInput.pk)).bind fun P P' hP =>
    (schnorrVerify_rel secpChip secpN _ _ _ hsig hP hr hs hz 4 4).bind fun u u' hu => (assertIsConst_rel hu 1).bind fun _ _ _ => Rel.pure ?_
  have hx : RC k P.x P'.x := hP.x
  have hy : RC k P.y P'.y := hP.y
  exact .cons (List.rel_append hx.trunc.limbs (List.rel_append hy.trunc.limbs (List.rel_append hr.trunc.limbs
    (List.rel_append hs.trunc.limbs hz.trunc.limbs)))) .nil

theorem schnorrCircuit_lib : LibProg schnorrCircuit := libProg_of_rel fun _ _ _ h => onMain_rel (schnorrMain_rel h)

/-! ### Soundness -/

/-- What an accepted column of public inputs says. -/
def SchPublic (cols : List (List (ZMod bn254R))) : Prop :=
  ∃ X Y R S E : ℕ, X < 2 ^ 256 ∧ Y < 2 ^ 256 ∧ R < secpP ∧ S < secpN ∧ E < secpN ∧ S ≠ 0 ∧ E ≠ 0 ∧ cols = [sigColumn X Y R S E] ∧
    ∃ Q, IsPt (7 : ZMod secpP) (X : ZMod secpP) (Y : ZMod secpP) Q ∧ SchnorrValid secpN secpG Q E R S

theorem schnorrMain_sound (i : SchInput) : Sound (RangeTable bn254R 16) (schnorrMain i) (fun w r => SchPublic (r.map (List.map (at' w)))) := by
  intro s0
  refine Snd.bind (secpFq.loadPrivate_sound scalarChip_secp.ok i.e s0) fun z s1 _ => Snd.bind (secpFq.loadPrivate_sound scalarChip_secp.ok i.s s1) fun s s2 _ =>
    Snd.bind (secpChip.loadPrivate_sound secpOk i.r s2) fun r s3 _ =>
    Snd.bind (loadPoint_sound (l := FpChip.laws secpOk) (ecFits_88_3 (by decide +kernel) secpOk) (7 : ZMod secpP) curveOk_secp256k1 i.pk s3) fun P s4 _ =>
    Snd.bind (schnorrVerify_sound secpOk (ecFits_88_3 (by decide +kernel) secpOk) scalarChip_secp (by decide +kernel) (by decide +kernel) (7 : ZMod secpP) curveOk_secp256k1
      (groupCurve_laws secpOk (7 : ZMod secpP)) secpG secpG_spec.ne_zero (secp_order _) i.rand P r s z 4 4 (by decide +kernel) (by decide +kernel) s4) fun res s5 _ =>
    Snd.bind (assertIsConst_sound res 1 s5) fun _ s6 _ => Snd.pure ?_
  rintro w - h1 hv ⟨Q, Xv, Yv, ⟨⟨X, hX, hX2, rfl⟩, ⟨Y, hY, hY2, rfl⟩⟩, hQ⟩ ⟨R, hR, hR2⟩ ⟨S, hS, hS2⟩ ⟨E, hE, hE2⟩
  have hmp : secpChip.modulus = secpP := rfl
  have hX3 := hX2
  have hY3 := hY2
  rw [hmp, size_secpP] at hX3 hY3
  obtain ⟨he, -⟩ := hv Q R S E ⟨_, _, ⟨⟨X, hX, hX2, rfl⟩, ⟨Y, hY, hY2, rfl⟩⟩, .inl hQ⟩ hQ.ne_zero (secp_order Q) hR hS hE
  rw [h1] at he
  split at he
  · rename_i hn
    refine ⟨X, Y, R, S, E, hX3, hY3, hn.1.1, hn.1.2.1, hn.2.2.2, hn.2.1, hn.2.2.1, ?_, Q, hQ, hn.1⟩
    simp only [List.map_cons, List.map_nil, List.map_append]
    rw [ProperOk.enc hX, ProperOk.enc hY, ProperOk.enc hR, ProperOk.enc hS, ProperOk.enc hE, sigColumn]
  · exact absurd he one_ne_zero

theorem tbl16_range : (fun x => tbl16 [x]) = RangeTable bn254R 16 := by
  funext x
  simp [tbl16]

theorem schnorrCircuit_sound (i : SchInput) : PSound (fun x => tbl16 [x]) (schnorrCircuit i) (fun w r => SchPublic (r.map (List.map (at' w)))) := by
  rw [tbl16_range]
  exact onMain_sound (schnorrMain_sound i)

/-- **C88** (soundness) An assignment of the physical circuit that satisfies every constraint shows that the public inputs are the limbs of
a point of the curve and of a valid signature of the challenge under it. -/
theorem C88_schnorr_sound {phase : ℕ} {typeId : String} {cfg : Cfg} (hmx : 4 ≤ cfg.maxRows) {i0 : SchInput} {sizes : List ℕ} {reg : Region bn254R}
    {map : CellMap} {bps : List ℕ} (hk : Keygen schnorrCircuit phase typeId cfg i0 sizes reg map bps) {v : PCell → ZMod bn254R}
    (hv : Phys.PSat cfg tbl16 1 reg v) :
    ∃ X Y R S E : ℕ, X < 2 ^ 256 ∧ Y < 2 ^ 256 ∧ R < secpP ∧ S < secpN ∧ E < secpN ∧ S ≠ 0 ∧ E ≠ 0 ∧
      publicInputs sizes v = [sigColumn X Y R S E] ∧
      ∃ Q, IsPt (7 : ZMod secpP) (X : ZMod secpP) (Y : ZMod secpP) Q ∧ SchnorrValid secpN secpG Q E R S :=
  C77_accepted_sound schnorrCircuit_lib hmx hk (schnorrCircuit_sound i0) hv

/-! ### Completeness -/

/-- The conditions of an honest run on the numbers: a valid signature (`SchnorrValid`) with `s` and the challenge different from `0`, the nonce point has
a first coordinate below the group order, and `s G` is not `-e Q` (the subtraction of the circuit is not complete). -/
structure SchHonest (pk : ZMod secpP × ZMod secpP) (r : ZMod secpP) (s e : ZMod secpN) (Q : ECurve (7 : ZMod secpP)) : Prop where
  pk : IsPt (7 : ZMod secpP) pk.1 pk.2 Q
  valid : SchnorrValid secpN secpG Q e.val r.val s.val
  s0 : s ≠ 0
  e0 : e ≠ 0
  small : r.val < secpN
  opp : s.val • secpG ≠ -(e.val • Q)

open Classical in
/-- The exceptional random points. -/
structure SchRandOk (pf pv : ZMod secpP × ZMod secpP) (u1 u2 : ℕ) (Q A1 A2 : ECurve (7 : ZMod secpP)) : Prop where
  ok1 : FbOk (K := ZMod secpP) (7 : ZMod secpP) pf.1 A1 4 ((88 * 3 + 4 - 1) / 4) secpG u1
  ok2 : MsmOk (K := ZMod secpP) (7 : ZMod secpP) pv.1 A2 4 ((88 * 3 + 4 - 1) / 4) [Q] [u2]

theorem schnorrMain_cmp {pk : ZMod secpP × ZMod secpP} {r : ZMod secpP} {s e : ZMod secpN} {Q : ECurve (7 : ZMod secpP)} (h : SchHonest pk r s e Q)
    {rand : SigRand secpChip} {pf pv : ZMod secpP × ZMod secpP} {A1 A2 A3 : ECurve (7 : ZMod secpP)} (hr : RandIs rand pf pv A1 A2 A3)
    (ok : SchRandOk pf pv s.val e.val Q A1 A2) {ext : Cell → ZMod bn254R} {st : Ctx bn254R} :
    Cmp (RangeTable bn254R 16) ext st (schnorrMain ⟨pk, r, s, e, rand⟩) (fun o s' => o = [o.headD []] ∧
      AvsCon ext s' (o.headD []) (sigColumn pk.1.val pk.2.val r.val s.val e.val)) := by
  have hcs : FpCmp secpFq := scalarChipC_secp.cmp
  refine Cmp.bind (secpFq.loadPrivate_cmp hcs e) fun za s1 e1 hz => Cmp.bind (secpFq.loadPrivate_cmp hcs s) fun sa s2 e2 hsa =>
    Cmp.bind (secpChip.loadPrivate_cmp secpCmp r) fun ra s3 e3 hra =>
    Cmp.bind (loadPoint_cmp (k := secpK) (ecFitsC_88_3 (by decide +kernel) secpCmp) (7 : ZMod secpP) h.pk) fun P s4 e4 hP => ?_
  replace hz := ((hz.mono e2).mono e3).mono e4
  replace hsa := (hsa.mono e3).mono e4
  replace hra := hra.mono e4
  obtain ⟨-, -, x, y, hV, hx, -⟩ := h.valid
  have hx' : x.val < secpN := by
    have := h.small
    rw [← hx] at this
    exact this
  obtain ⟨hA, rfl, rfl⟩ := hr
  refine Cmp.bind (schnorrVerify_cmp secpCmp (ecFitsC_88_3 (by decide +kernel) secpCmp) scalarChipC_secp (by decide +kernel) (7 : ZMod secpP)
    curveOk_secp256k1 (groupCurve_laws secpCmp.ok (7 : ZMod secpP)) secpG secpG_spec.ne_zero (secp_order _) rand (vw := 4) (fw := 4) (by norm_num) (by norm_num)
    (by decide +kernel) (by decide +kernel) hP.zero h.pk.ne_zero (secp_order Q) hra hsa hz (not_dvd_val h.s0) (not_dvd_val h.e0)
    hV hx' h.opp hA ok.ok1 ok.ok2) fun res s5 e5 hres => ?_
  have hres1 : Con ext s5 res 1 := by
    split at hres
    · exact hres
    · rename_i hn
      exact absurd ⟨h.valid, ZMod.val_lt e⟩ hn
  refine Cmp.bind (assertIsConst_cmp hres1.conF) fun _ s6 e6 _ => Cmp.pure ⟨rfl, ?_⟩
  obtain ⟨Xv, Yv, ⟨hPx, hPy⟩, hI⟩ := hP
  obtain ⟨rfl, rfl⟩ := IsPt.coords hI h.pk
  have c1 : AvsCon ext s4 (CrtInt.trunc P.x).limbs (enc3 pk.1.val) := ProperW.encCon hPx
  have c2 : AvsCon ext s4 (CrtInt.trunc P.y).limbs (enc3 pk.2.val) := ProperW.encCon hPy
  have c3 : AvsCon ext s4 ra.trunc.limbs (enc3 r.val) := ProperW.encCon hra
  have c4 := ProperW.encCon hsa
  have c5 := ProperW.encCon hz
  have key : ∀ {l l' : List (AV bn254R)} {x x' : List (ZMod bn254R)}, AvsCon ext s6 l x → AvsCon ext s6 l' x' → AvsCon ext s6 (l ++ l') (x ++ x') :=
    fun h h' => List.rel_append h h'
  exact key ((c1.mono e5).mono e6) (key ((c2.mono e5).mono e6) (key ((c3.mono e5).mono e6) (key ((c4.mono e5).mono e6) ((c5.mono e5).mono e6))))

/-- A routine with one column of results, on the main thread. -/
theorem onMain_column {tbl : ZMod bn254R → Prop} {m : M bn254R (List (List (AV bn254R)))} {col : List (ZMod bn254R)}
    (h : ∀ ext st, Cmp tbl ext st m (fun o s' => o = [o.headD []] ∧ AvsCon ext s' (o.headD []) col)) {ext : Cell → ZMod bn254R} {phase : ℕ} {ty : String} :
    PCompletes tbl ext ⟨false, phase, ty, []⟩ (onMain m) (fun w o => o.map (List.map (at' w)) = [col]) := by
  have h1 : PCmp tbl ext ⟨false, phase, ty, []⟩ (onMain m) (fun o S' =>
      PHolds ext S' fun w s' => o = [o.headD []] ∧ AvsCon w s' (o.headD []) col) := by
    refine onMain_cmp (fun o => ?_) fun w _ s' _ => h _ _
    obtain ⟨avs, hm⟩ := Mov.avsCon (o.headD [])
    exact Mov.and (Mov.const _) ⟨avs, hm _⟩
  refine h1.run ?_ (pgood_new _ _)
  rintro o S' hg hz
  have ho : o = [o.headD []] := (hz _ (hon_poolW hg.ids) _ (member_new (S := S') le_rfl)).1
  have hf := PHolds.forall₂ hg.ids (hz.imp fun w s' h => h.2)
  rw [ho, List.map_cons, List.map_nil]
  congr 1
  clear ho hz h1 h
  generalize o.headD [] = l at hf ⊢
  induction hf with
  | nil => rfl
  | cons hd _ ih => rw [List.map_cons, pholds_at hg.ids hd, ih]

theorem schnorrCircuit_cmp {pk : ZMod secpP × ZMod secpP} {r : ZMod secpP} {s e : ZMod secpN} {Q : ECurve (7 : ZMod secpP)} (h : SchHonest pk r s e Q)
    {rand : SigRand secpChip} {pf pv : ZMod secpP × ZMod secpP} {A1 A2 A3 : ECurve (7 : ZMod secpP)} (hr : RandIs rand pf pv A1 A2 A3)
    (ok : SchRandOk pf pv s.val e.val Q A1 A2) {ext : Cell → ZMod bn254R} {phase : ℕ} {ty : String} :
    PCompletes (fun x => tbl16 [x]) ext ⟨false, phase, ty, []⟩ (schnorrCircuit ⟨pk, r, s, e, rand⟩)
      (fun w o => o.map (List.map (at' w)) = [sigColumn pk.1.val pk.2.val r.val s.val e.val]) := by
  rw [tbl16_range]
  exact onMain_column fun _ _ => schnorrMain_cmp h hr ok

open Classical in
/-- **C88** (completeness) For every valid signature with `s` and the challenge different from `0`, the nonce point having a first coordinate below the group order
and `s G ≠ -e Q`, and for all random points but at most 135 and 232 exceptional values: the prover does not panic, and what it writes satisfies the circuit made by
key generation from any other input, with the limbs of the public key, of the signature and of the challenge as public inputs. -/
theorem C88_schnorr_proof_accepted {phase : ℕ} {typeId : String} {cfg : Cfg} (hmx : 4 ≤ cfg.maxRows) {i0 : SchInput} {sizes : List ℕ} {reg : Region bn254R}
    {map : CellMap} {bps : List ℕ} (hk : Keygen schnorrCircuit phase typeId cfg i0 sizes reg map bps)
    {pk : ZMod secpP × ZMod secpP} {r : ZMod secpP} {s e : ZMod secpN} {Q : ECurve (7 : ZMod secpP)} (hpk : IsPt (7 : ZMod secpP) pk.1 pk.2 Q)
    (hvalid : SchnorrValid secpN secpG Q e.val r.val s.val) (hs : s ≠ 0) (he : e ≠ 0) (hsmall : r.val < secpN) (hop : s.val • secpG ≠ -(e.val • Q))
    (pf pv : ZMod secpP × ZMod secpP) :
    ∃ B1 B2 : Set (ECurve (7 : ZMod secpP)), B1.ncard ≤ 135 ∧ B2.ncard ≤ 232 ∧
      ∀ rand : SigRand secpChip, rand.fixed.pair = pf → rand.var.pair = pv → ∀ A1 A2 A3, SigRandPts rand (7 : ZMod secpP) A1 A2 A3 →
        A1 ∉ B1 → A2 ∉ B2 →
        (∃ ws, ProverWrites schnorrCircuit phase typeId cfg bps ⟨pk, r, s, e, rand⟩ ws) ∧
        ∀ ws, ProverWrites schnorrCircuit phase typeId cfg bps ⟨pk, r, s, e, rand⟩ ws →
          ws.map Prod.fst = reg.writes.map Prod.fst ∧
          Phys.PSat cfg tbl16 1 reg (proofAssignment ws reg.fixed [sigColumn pk.1.val pk.2.val r.val s.val e.val]) := by
  have hh : SchHonest pk r s e Q := ⟨hpk, hvalid, hs, he, hsmall, hop⟩
  have hp : secpN.Prime := Fact.out
  have h2 : secpN ≠ 2 := by decide +kernel
  refine ⟨_, _, (fb_bad_card hp h2 card_secp256k1 (K := ZMod secpP) pf.1 (wb := 4) (Q := secpG) (N := s.val) (nw := (88 * 3 + 4 - 1) / 4)).trans (by decide),
    (msm_bad_card hp card_secp256k1 (K := ZMod secpP) pv.1 (wb := 4) (qs := [Q]) (Ns := [e.val]) (nw := (88 * 3 + 4 - 1) / 4) (by simp) rfl (by norm_num) (show 2 ^ (4 + 1) < secpN by decide +kernel)).trans (show msmBadBound 4 ((88 * 3 + 4 - 1) / 4) 1 ≤ 232 by decide), ?_⟩
  intro rand hpf hpv A1 A2 A3 hA b1 b2
  replace b1 := not_not.1 b1
  replace b2 := not_not.1 b2
  have h0 : tbl16 [0] := ⟨0, rfl, 0, by norm_num, by simp⟩
  exact C77_proof_accepted schnorrCircuit_lib hmx hk h0 (ext := fun _ => 0) (schnorrCircuit_cmp hh ⟨hA, hpf, hpv⟩ ⟨b1, b2⟩)

/-! ### Key generation -/

theorem schnorrMain_eo (i : SchInput) : EqOwn (schnorrMain i) := by
  unfold schnorrMain
  refine EqOwn.bind («FpChip.loadPrivate_eo» _ _) fun _ => EqOwn.bind («FpChip.loadPrivate_eo» _ _) fun _ => EqOwn.bind («FpChip.loadPrivate_eo» _ _) fun _ =>
    EqOwn.bind (loadPoint_eo _ _ _) fun _ => EqOwn.bind (schnorrVerify_eo _ _ _ _ _ _ _ _ _ _ _ _) fun _ => EqOwn.bind (assertIsConst_eo _ _) fun _ => EqOwn.pure _

/-- An input of an honest prover. -/
def SchGood (i : SchInput) : Prop := ∃ (Q A1 A2 A3 : ECurve (7 : ZMod secpP)), SchHonest i.pk i.r i.s i.e Q ∧ SigRandPts i.rand (7 : ZMod secpP) A1 A2 A3 ∧
  SchRandOk i.rand.fixed.pair i.rand.var.pair i.s.val i.e.val Q A1 A2

theorem schnorr_mainRun {i : SchInput} (h : SchGood i) (phase : ℕ) (ty : String) :
    ∃ outs s, MainRun (schnorrMain i) phase ty outs s ∧ outs.map List.length = [15] := by
  obtain ⟨Q, A1, A2, A3, hh, hA, ok⟩ := h
  obtain ⟨outs, s, h1, h2⟩ := mainRun (tbl := RangeTable bn254R 16) (phase := phase) (ty := ty) (cols := [sigColumn i.pk.1.val i.pk.2.val i.r.val i.s.val i.e.val])
    (schnorrMain_eo i) (schnorrMain_rel (i := i) (j := i) fun _ => rfl).keeps not_tbl16 fun x => by
      obtain ⟨o, s', e1, e2, e3, e4, e5, e6⟩ := (schnorrMain_cmp hh ⟨hA, rfl, rfl⟩ ok (ext := fun _ => x) (st := Ctx.new false phase ty 0 [] [])).run (good_new _ _ _)
      refine ⟨o, s', e1, e2, e3, e4, ?_⟩
      rw [e5]
      exact .cons e6 .nil
  exact ⟨outs, s, h1, h2⟩

theorem schnorr_shape {i j : SchInput} {phase : ℕ} {ty : String} {o o' : List (List (AV bn254R))} {s t : Ctx bn254R}
    (h : MainRun (schnorrMain i) phase ty o s) (h' : MainRun (schnorrMain j) phase ty o' t) : H2.SameShape s t :=
  ((schnorrMain_rel (k := false) (i := i) (j := j) (by simp)).shape (R := fun _ _ => True) (fun _ _ _ => trivial)
    _ _ (by refine ⟨rfl, rfl, rfl, rfl, rfl, rfl, rfl, rfl, rfl, rfl⟩) _ _ _ _ h.run h'.run).1

/-- C88 (key generation): there are numbers of advice cells, of distinct constants and of lookups such that key generation succeeds, from every honest input,
on every configuration with the columns for them. -/
theorem C88_keygen_succeeds (phase : ℕ) (ty : String) :
    ∃ cells consts lookups : ℕ, ∀ cfg : Cfg, 4 ≤ cfg.maxRows → (cells - 1) / (cfg.maxRows - 3) < cfg.ncols → consts ≤ cfg.nfixed * cfg.usable →
      lookups ≤ cfg.nsets * cfg.usable → cfg.qLookup = false → cfg.withRange = true →
      ∀ i0, SchGood i0 → ∃ reg map bps, Keygen schnorrCircuit phase ty cfg i0 [15] reg map bps := by
  by_cases hex : ∃ i, SchGood i
  · obtain ⟨i, hi⟩ := hex
    obtain ⟨o, s, hr, -⟩ := schnorr_mainRun hi phase ty
    refine ⟨s.advice.length, (s.consts.map Prod.fst).toFinset.card, s.lookups.length, fun cfg h1 h2 h3 h4 h5 h6 i0 hi0 => ?_⟩
    obtain ⟨o', t, hr', hs'⟩ := schnorr_mainRun hi0 phase ty
    have hsh := schnorr_shape hr hr'
    rw [← hs']
    have hl := congrArg List.length hsh.lookups
    rw [List.length_map, List.length_map] at hl
    exact C57_main_circuit_keygen (f := schnorrMain) hr' h1 (by rw [← hsh.len]; exact h2) (by rw [← hsh.consts]; exact h3) (by rw [← hl]; exact h4) h5 h6
  · exact ⟨0, 0, 0, fun cfg _ _ _ _ _ _ i0 h => absurd ⟨i0, h⟩ hex⟩

open Classical in
/-- For every honest signature there are random points that make an honest input. -/
theorem exists_schGood {pk : ZMod secpP × ZMod secpP} {r : ZMod secpP} {s e : ZMod secpN} {Q : ECurve (7 : ZMod secpP)} (h : SchHonest pk r s e Q) :
    ∃ rand, SchGood ⟨pk, r, s, e, rand⟩ := by
  have hp : secpN.Prime := Fact.out
  have h2 : secpN ≠ 2 := by decide +kernel
  obtain ⟨x1, y1, A1, hA1, b1⟩ := exists_rand ((fb_bad_card hp h2 card_secp256k1 (K := ZMod secpP) (0 : ZMod secpP) (wb := 4) (Q := secpG) (N := s.val) (nw := (88 * 3 + 4 - 1) / 4)).trans (by decide))
  obtain ⟨x2, y2, A2, hA2, b2⟩ := exists_rand ((msm_bad_card hp card_secp256k1 (K := ZMod secpP) (0 : ZMod secpP) (wb := 4) (qs := [Q]) (Ns := [e.val]) (nw := (88 * 3 + 4 - 1) / 4) (by simp) rfl (by norm_num) (show 2 ^ (4 + 1) < secpN by decide +kernel)).trans (show msmBadBound 4 ((88 * 3 + 4 - 1) / 4) 1 ≤ 232 by decide))
  replace b1 := not_not.1 b1
  replace b2 := not_not.1 b2
  exact ⟨⟨⟨(x1, y1), ((0 : ZMod secpP), (0 : ZMod secpP))⟩, ⟨(x2, y2), ((0 : ZMod secpP), (0 : ZMod secpP))⟩, (x2, y2)⟩, Q, A1, A2, A2, h, ⟨hA1, hA2, hA2⟩, ⟨b1, b2⟩⟩

/-- An honest signature: the key `1`, the nonce `1` (the generator has an even second coordinate), the challenge `1` and `s = 2`. -/
theorem schHonest_example : SchHonest ((secpGx : ZMod secpP), (secpGy : ZMod secpP)) (secpGx : ZMod secpP) ((2 : ℕ) : ZMod secpN) ((1 : ℕ) : ZMod secpN) secpG := by
  have hp1 : 1 < secpN := by decide +kernel
  have hp2 : 2 < secpN := by decide +kernel
  have hp3 : 3 < secpN := by decide +kernel
  have v1 : (((1 : ℕ) : ZMod secpN)).val = 1 := ZMod.val_natCast_of_lt hp1
  have v2 : (((2 : ℕ) : ZMod secpN)).val = 2 := ZMod.val_natCast_of_lt hp2
  have vx : ((secpGx : ZMod secpP)).val = secpGx := ZMod.val_natCast_of_lt (by decide +kernel)
  have vy : ((secpGy : ZMod secpP)).val = secpGy := ZMod.val_natCast_of_lt (by decide +kernel)
  have hG : (2 : ℕ) • secpG - (1 : ℕ) • secpG = secpG := by rw [two_smul, one_smul, add_sub_cancel_right]
  refine ⟨secpG_spec, ⟨ZMod.val_lt _, by rw [v2]; exact hp2, (secpGx : ZMod secpP), (secpGy : ZMod secpP), ?_, rfl, ?_⟩, ?_, ?_, ?_, ?_⟩
  · rw [v1, v2, hG]; exact secpG_spec
  · rw [vy]; decide +kernel
  · intro h
    rw [h, ZMod.val_zero] at v2
    exact absurd v2 (by decide)
  · intro h
    rw [h, ZMod.val_zero] at v1
    exact absurd v1 (by decide)
  · rw [vx]; decide +kernel
  · rw [v1, v2]
    intro h
    have h3 : (3 : ℕ) • secpG = 0 := by
      rw [show (3 : ℕ) = 2 + 1 from rfl, add_smul, h, neg_add_cancel]
    have hd : addOrderOf secpG ∣ 3 := addOrderOf_dvd_of_nsmul_eq_zero h3
    have ho : addOrderOf secpG = secpN := addOrderOf_eq_prime (secp_order _) secpG_spec.ne_zero
    rw [ho] at hd
    exact absurd (Nat.le_of_dvd (by norm_num) hd) (not_le.2 hp3)

/-- C88 together: as `C87_pipeline`. -/
theorem C88_pipeline (phase : ℕ) (ty : String) :
    ∃ cells consts lookups : ℕ, ∀ cfg : Cfg, 4 ≤ cfg.maxRows → (cells - 1) / (cfg.maxRows - 3) < cfg.ncols → consts ≤ cfg.nfixed * cfg.usable →
      lookups ≤ cfg.nsets * cfg.usable → cfg.qLookup = false → cfg.withRange = true →
      ∃ i0 reg map bps, Keygen schnorrCircuit phase ty cfg i0 [15] reg map bps ∧
        ∀ (pk : ZMod secpP × ZMod secpP) (r : ZMod secpP) (s e : ZMod secpN) (Q : ECurve (7 : ZMod secpP)), SchHonest pk r s e Q →
          ∃ rand ws v, ProverWrites schnorrCircuit phase ty cfg bps ⟨pk, r, s, e, rand⟩ ws ∧
            v = proofAssignment ws reg.fixed [sigColumn pk.1.val pk.2.val r.val s.val e.val] ∧ Phys.PSat cfg tbl16 1 reg v ∧
            publicInputs [15] v = [sigColumn pk.1.val pk.2.val r.val s.val e.val] := by
  obtain ⟨n1, n2, n3, hN⟩ := C88_keygen_succeeds phase ty
  refine ⟨n1, n2, n3, fun cfg h1 h2 h3 h4 h5 h6 => ?_⟩
  obtain ⟨rand0, hr0⟩ := exists_schGood schHonest_example
  obtain ⟨reg, map, bps, hk⟩ := hN cfg h1 h2 h3 h4 h5 h6 _ hr0
  refine ⟨_, reg, map, bps, hk, fun pk r s e Q hh => ?_⟩
  obtain ⟨rand, Q', A1, A2, A3, hh', hA, ok⟩ := exists_schGood hh
  have h0 : tbl16 [0] := ⟨0, rfl, 0, by norm_num, by simp⟩
  obtain ⟨⟨ws, hws⟩, hacc⟩ := C77_proof_accepted schnorrCircuit_lib h1 hk h0 (ext := fun _ => 0) (schnorrCircuit_cmp hh' ⟨hA, rfl, rfl⟩ ok)
  exact ⟨rand, ws, _, hws, rfl, (hacc ws hws).2, public_proof _ _ _⟩

/-- The circuit has a key and an accepted proof: the signature of `schHonest_example`. -/
example : ∃ cfg i0 reg map bps rand ws v, Keygen schnorrCircuit 0 "main" cfg i0 [15] reg map bps ∧
    ProverWrites schnorrCircuit 0 "main" cfg bps ⟨((secpGx : ZMod secpP), (secpGy : ZMod secpP)), (secpGx : ZMod secpP), ((2 : ℕ) : ZMod secpN), ((1 : ℕ) : ZMod secpN), rand⟩ ws ∧
    Phys.PSat cfg tbl16 1 reg v := by
  obtain ⟨n1, n2, n3, hN⟩ := C88_pipeline 0 "main"
  obtain ⟨i0, reg, map, bps, hk, hp⟩ := hN ⟨true, n1 + 1, n2 + 1, n3 + 1, false, 4, 1⟩ (by norm_num) (by simp) (by simp) (by simp) rfl rfl
  obtain ⟨rand, ws, v, h1, -, h2, -⟩ := hp _ _ _ _ _ schHonest_example
  exact ⟨_, i0, reg, map, bps, rand, ws, v, hk, h1, h2⟩

end H2
