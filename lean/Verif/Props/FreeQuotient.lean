import Verif.Props.PairingCircuit
import Mathlib.RingTheory.RootsOfUnity.Basic

/-!
# C90: exactly which quotients `divide_unsafe` accepts, and the two places of the pairing chip where that leaves a value free

`FieldChip::divide_unsafe(a, b)` (fields/mod.rs:218-239) assigns the quotient as a witness and checks only `q·b = a`.  So a prover who
computes other witnesses than the library's can have any `q` with `q·b = a` accepted: all of them, if both `a` and `b` are zero.

A circuit is built by running the library's program; the assignments which a cheating prover may use for it are produced here by running
a program which records the same constraints but computes another witness (`divideWith`).
-/

set_option autoImplicit false
set_option linter.unusedSectionVars false
namespace H2
open PairCfg

variable {p : ℕ} [Fact p.Prime]

/-- The program of a prover who uses the quotient `q` in place of the library's: `divide_unsafe` (fields/mod.rs:218-239) with the witness
replaced. -/
def divideWith (F : FieldOps p) (q : F.V) (a b : F.U) : M p F.P := do
  let _ ← F.getAssignedValue a
  let _ ← F.getAssignedValue b
  let q ← F.loadPrivate q
  let qb ← F.mulNoCarry (F.ofP q) b
  let c ← F.subNoCarry qb a
  F.checkCarryModToZero c
  pure q

theorem FieldRel.divideWith {F : FieldOps p} (R : FieldRel F false) (q : F.V) {a a' b b' : F.U} (ha : R.RU a a') (hb : R.RU b b') :
    Rel false (F.divideUnsafe a b) (divideWith F q a' b') R.RP :=
  (R.getAssignedValue ha).bind fun _ _ _ => (R.getAssignedValue hb).bind fun _ _ _ =>
    (R.loadPrivate (show RV false _ q from fun h => absurd h (by decide))).bind fun _ _ h3 => (R.mulNoCarry (R.ofP h3) hb).bind fun _ _ h4 =>
    (R.subNoCarry h4 ha).bind fun _ _ h5 => (R.checkCarryModToZero h5).bind fun _ _ _ => Rel.pure h3

theorem FieldCmp.divideWith {F : FieldOps p} {K : Type} [Field K] [DecidableEq K] {tbl : ZMod p → Prop} {l : FieldLaws F K tbl} (k : FieldCmp l)
    {ext : Cell → ZMod p} {s : Ctx p} {a b : F.U} {X Y : K} {sx sy : l.Sz} (hf : k.zFits (l.subSz (l.mulSz l.pSz sy) sx)) (ha : k.UW ext s a X sx)
    (hb : k.UW ext s b Y sy) (q : F.V) (hq : l.val q * Y = X) :
    Cmp tbl ext s (divideWith F q a b) (fun r s' => k.PW ext s' r (l.val q)) := by
  obtain ⟨u, hu, rfl⟩ := k.getAssignedValue ha
  obtain ⟨v, hv, rfl⟩ := k.getAssignedValue hb
  unfold H2.divideWith
  rw [hu, pure_bind, hv, pure_bind]
  refine Cmp.bind (k.loadPrivate _) fun q' s1 e1 h1 => ?_
  refine Cmp.bind (k.mulNoCarry (k.p_u h1) (k.u_mono hb e1)) fun qb s2 e2 hqb => ?_
  refine Cmp.bind (k.subNoCarry hqb (k.u_mono ha (e1.trans e2))) fun c s3 e3 hc => ?_
  rw [hq, sub_self] at hc
  exact Cmp.bind (k.checkCarryModToZero hc hf) fun _ s4 e4 _ => Cmp.pure (k.p_mono h1 ((e2.trans e3).trans e4))

theorem Inv.rs {s : Ctx p} (h : Inv s) : RS false s s := by
  refine SameShape.rs ⟨h.wgo, h.wgo, rfl, rfl, rfl, rfl, rfl, rfl, rfl, rfl⟩

/-- If another program records the same constraints, its honest assignment satisfies those of the library's. -/
theorem forge {α : Type} {tbl : ZMod p → Prop} {ext : Cell → ZMod p} {s s' : Ctx p} {m m' : M p α} {R : α → α → Prop} {Q : α → Ctx p → Prop} {r : α}
    (hm : m s = some (r, s')) (hr : Rel false m m' R) (hc : Cmp tbl ext s m' Q) (g : Good tbl ext s) :
    ∃ r' t', R r r' ∧ Ext s t' ∧ Sat tbl s' (hw ext t') ∧ Q r' t' := by
  obtain ⟨r', t', h', g', e', q'⟩ := hc g
  obtain ⟨c, -, e⟩ := (hr s s g.inv.rs r s' hm).2 r' t' h'
  exact ⟨r', t', e, e', (c.sameShape.sat _).2 g'.sat, q'⟩

/-! ### Related points represent the same element in every assignment -/

theorem at'_of_RA {w : Cell → ZMod p} {a b : AV p} (h : RA false a b) : at' w a = at' w b := by
  simp only [at', h.2 rfl]

theorem map_at'_of_RAs {w : Cell → ZMod p} {l l' : List (AV p)} (h : List.Forall₂ (RA false) l l') : l.map (at' w) = l'.map (at' w) := by
  induction h with
  | nil => rfl
  | cons h _ ih => simp only [List.map_cons, at'_of_RA h, ih]

theorem RC.properOk {n k : ℕ} {w : Cell → ZMod p} {a b : CrtInt p} (h : RC false a b) {A : ℕ} (hb : ProperOk n k w b A) : ProperOk n k w a A := by
  obtain ⟨ds, h1, h2, h3, h4, h5, h6⟩ := hb
  exact ⟨ds, h1, h.trunc.bits.trans h2, (map_at'_of_RAs h.trunc.limbs).trans h3, h4, h5, (at'_of_RA h.native).trans h6⟩

theorem RC.r1 {w : Cell → ZMod bn254R} {a b : CrtInt bn254R} (h : RC false a b) {X : ZMod bn254Q} (hb : H2.R1 w b X) : H2.R1 w a X := by
  obtain ⟨A, h1, h2⟩ := hb
  exact ⟨A, h.properOk h1, h2⟩

theorem forall₂_r1 {w : Cell → ZMod bn254R} {l l' : List (CrtInt bn254R)} (h : List.Forall₂ (RC false) l l') {xs : List (ZMod bn254Q)}
    (hb : List.Forall₂ (bnLaws.PRep w) l' xs) : List.Forall₂ (bnLaws.PRep w) l xs := by
  induction h generalizing xs with
  | nil => exact hb
  | cons h _ ih =>
    cases hb with
    | cons b bs => exact .cons (h.r1 b) (ih bs)

theorem RL.r2 {w : Cell → ZMod bn254R} {a b : List (CrtInt bn254R)} (h : RL false a b) {X : Fq2} (hb : H2.R2 w b X) : H2.R2 w a X := by
  obtain ⟨xs, h0, h1, h2⟩ := hb
  exact ⟨xs, h0, forall₂_r1 h h1, h2⟩

theorem RL.r12 {w : Cell → ZMod bn254R} {a b : List (CrtInt bn254R)} (h : RL false a b) {X : Fq12} (hb : H2.R12 w b X) : H2.R12 w a X := by
  obtain ⟨xs, h0, h1, h2⟩ := hb
  exact ⟨xs, h0, forall₂_r1 h h1, h2⟩


/-! ### `divide_unsafe` -/

/-- A circuit which divides: `a = load_private(x)`, `b = load_private(y)`, `r = divide_unsafe(a, b)`. -/
def divProg (F : FieldOps p) (x y : F.V) : M p (F.P × F.P × F.P) := do
  let a ← F.loadPrivate x
  let b ← F.loadPrivate y
  let r ← F.divideUnsafe (F.ofP a) (F.ofP b)
  pure (a, b, r)

/-- The circuit `divProg` accepts exactly the quotients with `Q · y = x`. -/
theorem divProg_exact {F : FieldOps p} {K : Type} [Field K] [DecidableEq K] {tbl : ZMod p → Prop} {l : FieldLaws F K tbl} (k : FieldCmp l)
    (R : FieldRel F false) (hT : ∀ w r r' X, R.RP r r' → l.PRep w r' X → l.PRep w r X) (hV : ∀ X : K, ∃ v, l.val v = X)
    (hc : k.zFits (l.subSz (l.mulSz l.pSz l.pSz) l.pSz)) (hz : l.zeroFits (l.subSz (l.mulSz l.pSz l.pSz) l.pSz)) (x y : F.V)
    (hxy : l.val y = 0 → l.val x = 0) :
    ∃ a b r s', divProg F x y (Ctx.new false 0 "" 0 [] []) = some ((a, b, r), s') ∧ ∀ Q,
      (∃ w, Sat tbl s' w ∧ l.PRep w a (l.val x) ∧ l.PRep w b (l.val y) ∧ l.PRep w r Q) ↔ Q * l.val y = l.val x := by
  have hg := good_new (p := p) (tbl := tbl) (ext := fun _ => 0) 0 "" 0
  have h0 : Cmp tbl (fun _ => 0) (Ctx.new false 0 "" 0 [] []) (divProg F x y) (fun _ _ => True) := by
    refine Cmp.bind (k.loadPrivate x) fun a s1 e1 ha => Cmp.bind (k.loadPrivate y) fun b s2 e2 hb => ?_
    exact Cmp.bind (k.divideUnsafe hc (k.p_u (k.p_mono ha e2)) (k.p_u hb) hxy) fun r s3 e3 hr => Cmp.pure trivial
  obtain ⟨⟨a, b, r⟩, s', h1, -, -, -⟩ := h0 hg
  refine ⟨a, b, r, s', h1, fun Q => ⟨?_, fun hQ => ?_⟩⟩
  · rintro ⟨w, hw, ha, hb, hr⟩
    have hs : Snd tbl (Ctx.new false 0 "" 0 [] []) (divProg F x y) (fun w o _ => ∃ Q, l.PRep w o.2.2 Q ∧ ∀ X Y, l.PRep w o.1 X → l.PRep w o.2.1 Y →
        Q * Y = X) := by
      refine Snd.bind (l.loadPrivate x _) fun a s1 _ => Snd.bind (l.loadPrivate y s1) fun b s2 _ =>
        Snd.bind (l.divideUnsafe _ _ s2) fun r s3 _ => Snd.pure ?_
      rintro w - ⟨Q, hQ, h⟩ - -
      exact ⟨Q, hQ, fun X Y hX hY => h X Y _ _ hz (l.p_u _ _ _ hX) (l.p_u _ _ _ hY)⟩
    obtain ⟨Q', hQ', h⟩ := (hs hg.inv _ _ h1).2.2 w hw
    rw [l.p_unique _ _ _ _ hr hQ']
    exact h _ _ ha hb
  · obtain ⟨q, rfl⟩ := hV Q
    have hrel : Rel false (divProg F x y) (do
        let a ← F.loadPrivate x
        let b ← F.loadPrivate y
        let r ← H2.divideWith F q (F.ofP a) (F.ofP b)
        pure (a, b, r)) (fun o o' => R.RP o.1 o'.1 ∧ R.RP o.2.1 o'.2.1 ∧ R.RP o.2.2 o'.2.2) :=
      (R.loadPrivate fun _ => rfl).bind fun _ _ ha => (R.loadPrivate fun _ => rfl).bind fun _ _ hb =>
        (R.divideWith q (R.ofP ha) (R.ofP hb)).bind fun _ _ hr => Rel.pure ⟨ha, hb, hr⟩
    have hcmp : Cmp tbl (fun _ => 0) (Ctx.new false 0 "" 0 [] []) (do
        let a ← F.loadPrivate x
        let b ← F.loadPrivate y
        let r ← H2.divideWith F q (F.ofP a) (F.ofP b)
        pure (a, b, r)) (fun o s' => k.PW (fun _ => 0) s' o.1 (l.val x) ∧ k.PW (fun _ => 0) s' o.2.1 (l.val y) ∧
          k.PW (fun _ => 0) s' o.2.2 (l.val q)) := by
      refine Cmp.bind (k.loadPrivate x) fun a s1 e1 ha => Cmp.bind (k.loadPrivate y) fun b s2 e2 hb => ?_
      exact Cmp.bind (k.divideWith hc (k.p_u (k.p_mono ha e2)) (k.p_u hb) q hQ) fun r s3 e3 hr =>
        Cmp.pure ⟨k.p_mono ha (e2.trans e3), k.p_mono hb e3, hr⟩
    obtain ⟨o', t', ⟨ra, rb, rr⟩, -, hsat, pa, pb, pr⟩ := forge h1 hrel hcmp hg
    exact ⟨_, hsat, hT _ _ _ _ ra (l.r_p _ _ _ (k.p_r pa)), hT _ _ _ _ rb (l.r_p _ _ _ (k.p_r pb)), hT _ _ _ _ rr (l.r_p _ _ _ (k.p_r pr))⟩

theorem szZ (x : List (ℕ × ℕ)) (h : szOk x = true) : ZFits x = true := by
  refine List.all_eq_true.2 fun y hy => ?_
  have := of_decide_eq_true (List.all_eq_true.1 h y hy)
  exact decide_eq_true ⟨this.1, this.2.le⟩

/-- C90, `Fq`: a circuit computing `divide_unsafe(x, y)` accepts exactly the quotients `Q` with `Q·y = x`: one if `y ≠ 0`, all if
`x = y = 0`. -/
theorem C90_fp_divide_unsafe (x y : ZMod bn254Q) (h : y = 0 → x = 0) :
    ∃ a b r s', divProg bnCfg.F x y (Ctx.new false 0 "" 0 [] []) = some ((a, b, r), s') ∧ ∀ Q,
      (∃ w, Sat (RangeTable bn254R 16) s' w ∧ bnLaws.PRep w a x ∧ bnLaws.PRep w b y ∧ bnLaws.PRep w r Q) ↔ Q * y = x :=
  divProg_exact (l := bnLaws) bnCmp (PairCfg.R1 bnCfg false) (fun _ _ _ _ h h' => RC.r1 h h') (fun X => ⟨X, rfl⟩)
    (bnCmp_zFits (by decide +kernel)) (bnLaws_zeroFits (by decide +kernel)) x y h

/-- C90, `Fq2`. -/
theorem C90_fp2_divide_unsafe (x y : Fq2) (h : y = 0 → x = 0) :
    ∃ a b r s', divProg bnCfg.F2 x y (Ctx.new false 0 "" 0 [] []) = some ((a, b, r), s') ∧ ∀ Q,
      (∃ w, Sat (RangeTable bn254R 16) s' w ∧ Fp2Rep bnLaws Fq2.u w a x ∧ Fp2Rep bnLaws Fq2.u w b y ∧ Fp2Rep bnLaws Fq2.u w r Q) ↔
        Q * y = x := by
  have h1 := divProg_exact (l := bnLaws2) bnCmp2 (PairCfg.R2 bnDeg false) (fun _ _ _ _ h h' => RL.r2 h h') (fun X => ⟨X, g2_val X⟩)
    bnCmp2_div (by rw [bnLaws2_pSz]; exact ZFits.z2 (by decide +kernel)) x y (by rwa [g2_val, g2_val])
  obtain ⟨a, b, r, s', h2, h3⟩ := h1
  refine ⟨a, b, r, s', h2, fun Q => ?_⟩
  have key : ∀ X Y : Fq2, X = bnLaws2.val x → Y = bnLaws2.val y →
      ((∃ w, Sat bnTbl s' w ∧ bnLaws2.PRep w a X ∧ bnLaws2.PRep w b Y ∧ bnLaws2.PRep w r Q) ↔ Q * Y = X) := by
    rintro _ _ rfl rfl
    exact h3 Q
  refine Iff.trans ⟨?_, ?_⟩ (key x y (g2_val x).symm (g2_val y).symm)
  · rintro ⟨w, h0, ha, hb, hr⟩
    exact ⟨w, h0, fp2Rep_iff.1 ha, fp2Rep_iff.1 hb, fp2Rep_iff.1 hr⟩
  · rintro ⟨w, h0, ha, hb, hr⟩
    exact ⟨w, h0, fp2Rep_iff.2 ha, fp2Rep_iff.2 hb, fp2Rep_iff.2 hr⟩

theorem bnCmp12_div' : bnCmp12.zFits (bnLaws12.subSz (bnLaws12.mulSz bnLaws12.pSz bnLaws12.pSz) bnLaws12.pSz) := by
  have hsub : bnLaws12.subSz = List.zipWith (bnSz 0).add := rfl
  rw [bnLaws12_pSz, bnLaws12_mulSz, hsub]
  exact bnCmp12_zFits (by decide +kernel)

/-- C90, `Fq12`. -/
theorem C90_fp12_divide_unsafe (x y : Fq12) (h : y = 0 → x = 0) :
    ∃ a b r s', divProg bnCfg.F12 x y (Ctx.new false 0 "" 0 [] []) = some ((a, b, r), s') ∧ ∀ Q,
      (∃ w, Sat (RangeTable bn254R 16) s' w ∧ Is12 w a x ∧ Is12 w b y ∧ Is12 w r Q) ↔ Q * y = x := by
  have h1 := divProg_exact (l := bnLaws12) bnCmp12 (PairCfg.R12 bnDeg false) (fun _ _ _ _ h h' => RL.r12 h h') (fun X => ⟨X, g12_val X⟩)
    bnCmp12_div' (by
      have hsub : bnLaws12.subSz = List.zipWith (bnSz 0).add := rfl
      rw [bnLaws12_pSz, bnLaws12_mulSz, hsub]
      exact ZFits.z12 (by decide +kernel)) x y (by rwa [g12_val, g12_val])
  obtain ⟨a, b, r, s', h2, h3⟩ := h1
  refine ⟨a, b, r, s', h2, fun Q => ?_⟩
  have key : ∀ X Y : Fq12, X = bnLaws12.val x → Y = bnLaws12.val y →
      ((∃ w, Sat bnTbl s' w ∧ bnLaws12.PRep w a X ∧ bnLaws12.PRep w b Y ∧ bnLaws12.PRep w r Q) ↔ Q * Y = X) := by
    rintro _ _ rfl rfl
    exact h3 Q
  refine Iff.trans ⟨?_, ?_⟩ (key x y (g12_val x).symm (g12_val y).symm)
  · rintro ⟨w, h0, ha, hb, hr⟩
    exact ⟨w, h0, is12_iff.1 ha, is12_iff.1 hb, is12_iff.1 hr⟩
  · rintro ⟨w, h0, ha, hb, hr⟩
    exact ⟨w, h0, is12_iff.2 ha, is12_iff.2 hb, is12_iff.2 hr⟩

/-- The case of C90 which matters: `0 / 0` can be any element. -/
example : ∃ a b r s', divProg bnCfg.F12 (0 : Fq12) (0 : Fq12) (Ctx.new false 0 "" 0 [] []) = some ((a, b, r), s') ∧ ∀ Q,
    ∃ w, Sat (RangeTable bn254R 16) s' w ∧ Is12 w a 0 ∧ Is12 w b 0 ∧ Is12 w r Q := by
  obtain ⟨a, b, r, s', h1, h2⟩ := C90_fp12_divide_unsafe 0 0 fun _ => rfl
  exact ⟨a, b, r, s', h1, fun Q => (h2 Q).2 (mul_zero Q)⟩

/-! ### The easy part of the final exponentiation -/

/-- The easy part of the final exponentiation with another quotient. -/
noncomputable def easyPartWith (q : Fq12) (a : List (CrtInt bn254R)) : M bn254R (List (CrtInt bn254R)) := do
  let f1 ← fp12Conjugate bnCfg.F a
  let f2 ← H2.divideWith bnCfg.F12 q f1 a
  let f3 ← bnCfg.frobeniusMap f2 2
  bnCfg.F12.mul f3 f2

theorem g12_divideWith {ext : Cell → ZMod bn254R} {s : Ctx bn254R} {a b : List (CrtInt bn254R)} {X Y : Fq12} (ha : HN12 ext s a X)
    (hb : HN12 ext s b Y) (q : Fq12) (hq : q * Y = X) :
    Cmp bnTbl ext s (H2.divideWith bnCfg.F12 q a b) (fun r s' => HN12 ext s' r q) := by
  have := bnCmp12.divideWith (sx := cS12) (sy := cS12) (by
    have hsub : bnLaws12.subSz = List.zipWith (bnSz 0).add := rfl
    rw [bnLaws12_pSz, bnLaws12_mulSz, hsub]
    exact bnCmp12_zFits (by decide +kernel)) ha.v hb.v q (by rw [g12_val]; exact hq)
  refine this.weaken fun r s' h => ?_
  rw [g12_val] at h
  exact h

theorem easyPartWith_rel (q : Fq12) {a a' : List (CrtInt bn254R)} (h : RL false a a') :
    Rel false (bnCfg.easyPart a) (easyPartWith q a') (RL false) :=
  (PairCfg.conj12 h).bind fun _ _ f1 => (FieldRel.divideWith (PairCfg.R12 bnDeg false) q f1 h).bind fun _ _ f2 => (frobeniusMap_rel bnDeg f2 2).bind fun _ _ f3 =>
    PairCfg.mul12 bnDeg f3 f2

theorem easyPartWith_cmp {ext : Cell → ZMod bn254R} {s : Ctx bn254R} {a : List (CrtInt bn254R)} (q : Fq12) (ha : HN12 ext s a 0) :
    Cmp bnTbl ext s (easyPartWith q a) (fun r s' => HN12 ext s' r (q ^ (bn254Q ^ 2 + 1))) := by
  unfold easyPartWith
  cb (g12_conj ha) f1 v1
  have e : (0 : Fq12) ^ bn254Q ^ 6 = 0 := zero_pow (pow_ne_zero _ (Fact.out : bn254Q.Prime).ne_zero)
  rw [e] at v1
  cb (g12_divideWith v1 ha q (mul_zero q)) f2 v2
  cb (frob_cmp 2 (by norm_num) v2) f3 v3
  refine (g12_mul v3 v2).weaken fun r s' v => ?_
  rwa [← pow_succ] at v

/-- C90: the easy part of the final exponentiation, called on `0`, is accepted with the result `q^(q²+1)` for every `q`. -/
theorem C90_easy_part_of_zero : ∃ a r s', (bnCfg.F12.loadPrivate (0 : Fq12) >>= fun a => bnCfg.easyPart a >>= fun r => pure (a, r))
    (Ctx.new false 0 "" 0 [] []) = some ((a, r), s') ∧ ∀ q : Fq12, ∃ w, Sat (RangeTable bn254R 16) s' w ∧ Is12 w a 0 ∧
      Is12 w r (q ^ (bn254Q ^ 2 + 1)) := by
  have hg := good_new (p := bn254R) (tbl := bnTbl) (ext := fun _ => 0) 0 "" 0
  have h0 : Cmp bnTbl (fun _ => 0) (Ctx.new false 0 "" 0 [] []) (bnCfg.F12.loadPrivate (0 : Fq12) >>= fun a => bnCfg.easyPart a >>= fun r => pure (a, r))
      (fun _ _ => True) := by
    cb (g12_loadPrivate 0) a va
    refine Cmp.bind (Q := fun _ _ => True) ?_ fun r s3 e3 hr => Cmp.pure trivial
    unfold PairCfg.easyPart
    cb (g12_conj va) f1 v1
    cb (g12_div v1 va fun h => zero_pow (pow_ne_zero _ (Fact.out : bn254Q.Prime).ne_zero)) f2 v2
    cb (frob_cmp 2 (by norm_num) v2) f3 v3
    exact (g12_mul v3 v2).weaken fun _ _ _ => trivial
  obtain ⟨⟨a, r⟩, s', h1, -, -, -⟩ := h0 hg
  refine ⟨a, r, s', h1, fun q => ?_⟩
  have hrel : Rel false (bnCfg.F12.loadPrivate (0 : Fq12) >>= fun a => bnCfg.easyPart a >>= fun r => pure (a, r))
      (bnCfg.F12.loadPrivate (0 : Fq12) >>= fun a => easyPartWith q a >>= fun r => pure (a, r)) (fun o o' => RL false o.1 o'.1 ∧ RL false o.2 o'.2) :=
    ((PairCfg.R12 bnDeg false).loadPrivate fun _ => rfl).bind fun _ _ ha => (easyPartWith_rel q ha).bind fun _ _ hr => Rel.pure ⟨ha, hr⟩
  have hcmp : Cmp bnTbl (fun _ => 0) (Ctx.new false 0 "" 0 [] []) (bnCfg.F12.loadPrivate (0 : Fq12) >>= fun a => easyPartWith q a >>= fun r => pure (a, r))
      (fun o s' => HN12 (fun _ => 0) s' o.1 0 ∧ HN12 (fun _ => 0) s' o.2 (q ^ (bn254Q ^ 2 + 1))) := by
    cb (g12_loadPrivate 0) a va
    cb (easyPartWith_cmp q va) r vr
    exact Cmp.pure ⟨va, vr⟩
  obtain ⟨o', t', ⟨ra, rr⟩, -, hsat, pa, pr⟩ := forge h1 hrel hcmp hg
  exact ⟨_, hsat, is12_iff.2 (RL.r12 ra pa.r), is12_iff.2 (RL.r12 rr pr.r)⟩


/-! ### Decompression of `1` -/

/-- `cyclotomic_decompress` (final_exp.rs:136-207) with another quotient in `g1 = 2·g4·g5 / g3`. -/
noncomputable def decWith (G : Fq2) (g : Comp (CrtInt bn254R)) : M bn254R (List (CrtInt bn254R)) := do
  let g5sq ← bnCfg.F2.mulNoCarry g.g5 g.g5
  let g5sqc ← mulNoCarryW6 bnCfg.F 9 g5sq
  let g4sq ← bnCfg.F2.mulNoCarry g.g4 g.g4
  let g4sq3 ← bnCfg.F2.scalarMulNoCarry g4sq 3
  let g32 ← bnCfg.F2.scalarMulNoCarry g.g3 2
  let num ← bnCfg.F2.addNoCarry g5sqc g4sq3
  let num ← bnCfg.F2.subNoCarry num g32
  let g24 ← bnCfg.F2.scalarMulNoCarry g.g2 4
  let g11 ← bnCfg.F2.divideUnsafe num g24
  let g4g5 ← bnCfg.F2.mulNoCarry g.g4 g.g5
  let num2 ← bnCfg.F2.scalarMulNoCarry g4g5 2
  let g10 ← H2.divideWith bnCfg.F2 G num2 g.g3
  let z ← bnCfg.F2.isZero g.g2
  let g1 ← vecSelect bnCfg.F g10 g11 z
  let g1sq ← bnCfg.F2.mulNoCarry g1 g1
  let g1sq2 ← bnCfg.F2.scalarMulNoCarry g1sq 2
  let g2g5 ← bnCfg.F2.mulNoCarry g.g2 g.g5
  let g3g4 ← bnCfg.F2.mulNoCarry g.g3 g.g4
  let g3g43 ← bnCfg.F2.scalarMulNoCarry g3g4 3
  let temp ← bnCfg.F2.addNoCarry g1sq2 g2g5
  let temp ← vecSelect bnCfg.F g1sq2 temp z
  let temp ← bnCfg.F2.subNoCarry temp g3g43
  let g0 ← mulNoCarryW6 bnCfg.F 9 temp
  let g0 ← addOne g0
  let g0 ← bnCfg.F2.carryMod g0
  join [g0, g.g2, g.g4, g1, g.g3, g.g5]

theorem decWith_rel (G : Fq2) {g g' : Comp (CrtInt bn254R)} (h : RComp false g g') :
    Rel false (bnCfg.cycDecompress g) (decWith G g') (RL false) :=
  (mulN2 bnDeg h.g5 h.g5).bind fun _ _ g5sq => (w6 9 g5sq).bind fun _ _ g5sqc => (mulN2 bnDeg h.g4 h.g4).bind fun _ _ g4sq =>
  (smul2 bnDeg g4sq 3).bind fun _ _ g4sq3 => (smul2 bnDeg h.g3 2).bind fun _ _ g32 => (add2 bnDeg g5sqc g4sq3).bind fun _ _ num =>
  (sub2 bnDeg num g32).bind fun _ _ num => (smul2 bnDeg h.g2 4).bind fun _ _ g24 => (div2 bnDeg num g24).bind fun _ _ g11 =>
  (mulN2 bnDeg h.g4 h.g5).bind fun _ _ g4g5 => (smul2 bnDeg g4g5 2).bind fun _ _ num2 =>
  (FieldRel.divideWith (PairCfg.R2 bnDeg false) G num2 h.g3).bind fun _ _ g10 =>
  (PairCfg.isZero2 bnDeg h.g2).bind fun _ _ z => (sel2 g10 g11 z).bind fun _ _ g1 => (mulN2 bnDeg g1 g1).bind fun _ _ g1sq =>
  (smul2 bnDeg g1sq 2).bind fun _ _ g1sq2 => (mulN2 bnDeg h.g2 h.g5).bind fun _ _ g2g5 => (mulN2 bnDeg h.g3 h.g4).bind fun _ _ g3g4 =>
  (smul2 bnDeg g3g4 3).bind fun _ _ g3g43 => (add2 bnDeg g1sq2 g2g5).bind fun _ _ temp => (sel2 g1sq2 temp z).bind fun _ _ temp =>
  (sub2 bnDeg temp g3g43).bind fun _ _ temp => (w6 9 temp).bind fun _ _ g0 => (addOne_rel g0).bind fun _ _ g0 =>
  (carry2 bnDeg g0).bind fun _ _ g0 => join_rel (.cons g0 (.cons h.g2 (.cons h.g4 (.cons g1 (.cons h.g3 (.cons h.g5 .nil))))))

theorem g2_divideWith {ext : Cell → ZMod bn254R} {s : Ctx bn254R} {a b : List (CrtInt bn254R)} {X Y : Fq2} {sx sy : List (ℕ × ℕ)}
    (hf : szOk (addS (mulS pS sy) sx) = true) (ha : HU2 ext s a X sx) (hb : HU2 ext s b Y sy) (q : Fq2) (hq : q * Y = X) :
    Cmp bnTbl ext s (H2.divideWith bnCfg.F2 q a b) (fun r s' => HN2 ext s' r q) := by
  have := bnCmp2.divideWith (sx := sx) (sy := sy) (by
    rw [bnLaws2_pSz]
    exact bnCmp2_zFits hf) ha hb q (by rw [g2_val]; exact hq)
  refine this.weaken fun r s' h => ?_
  rw [g2_val] at h
  exact h

theorem decWith_cmp {ext : Cell → ZMod bn254R} {s : Ctx bn254R} {g : Comp (CrtInt bn254R)} (hg : CompW ext s g 1) (G : Fq2) :
    Cmp bnTbl ext s (decWith G g) (fun r s' => HN12 ext s' r (e6 (G * G * 2 * Fq2.xi + 1) 0 0 G 0 0)) := by
  obtain ⟨a0, a1, a2, a3, a4, a5, ha, r1, r4, r2, r5⟩ := hg
  obtain ⟨rfl, rfl, rfl, rfl, rfl, rfl⟩ := e6_inj (e6_one.symm.trans ha)
  unfold decWith
  cb (g2_mulNC r5.v r5.v) g5sq v1
  cb (g2_w6 9 (by norm_num) v1) g5sqc v2
  cb (g2_mulNC r2.v r2.v) g4sq v3
  cb (g2_smul 3 (by norm_num) v3) g4sq3 v4
  cb (g2_smul 2 (by norm_num) r4.v) g32 v5
  cb (g2_add v2 v4) num v6
  cb (g2_sub v6 v5) num' v7
  cb (g2_smul 4 (by norm_num) r1.v) g24 v8
  simp only [zero_mul, add_zero, sub_zero] at v7 v8
  cb (g2_div (by decide +kernel) v7 v8 (fun h => rfl)) g11 w1
  cb (g2_mulNC r2.v r5.v) g4g5 v9
  cb (g2_smul 2 (by norm_num) v9) num2 v10
  simp only [zero_mul] at v10
  cb (g2_divideWith (by decide +kernel) v10 r4.v G (mul_zero G)) g10 w2
  cb (g2_isZero r1) z hz
  cb (g2_sel w2 w1 hz) g1 w3
  simp only [decide_true, if_true] at w3
  cb (g2_mulNC w3.v w3.v) g1sq v11
  cb (g2_smul 2 (by norm_num) v11) g1sq2 v12
  cb (g2_mulNC r1.v r5.v) g2g5 v13
  cb (g2_mulNC r4.v r2.v) g3g4 v14
  cb (g2_smul 3 (by norm_num) v14) g3g43 v15
  cb (g2_add v12 v13) temp v16
  cb (g2_selU v12 v16 hz) temp' v17
  simp only [decide_true, if_true] at v17
  cb (g2_sub v17 v15) temp'' v18
  simp only [zero_mul, sub_zero] at v18
  cb (g2_w6 9 (by norm_num) v18) g0 v19
  cb (addOne_cmp v19) g0' v20
  rw [xi_eq] at v20
  push_cast at v20
  cb (g2_carry (by decide +kernel) v20) g0'' w0
  exact join_cmp w0 r1 r2 w3 r4 r5

/-- C90: the decompression of the compression of `1`, the honest result of which is `1`, is accepted with the result
`1 + 2ξG² + G·w³` for every `G ∈ Fq2` (`ξ = 9 + u = w⁶`). -/
theorem C90_decompress_of_one : ∃ a r s', (bnCfg.F12.loadPrivate (1 : Fq12) >>= fun a => cycCompress a >>= fun g => bnCfg.cycDecompress g >>= fun r => pure (a, r))
    (Ctx.new false 0 "" 0 [] []) = some ((a, r), s') ∧ ∀ G : Fq2, ∃ w, Sat (RangeTable bn254R 16) s' w ∧ Is12 w a 1 ∧
      Is12 w r (1 + 2 * Fq12.w ^ 6 * algebraMap Fq2 Fq12 G ^ 2 + algebraMap Fq2 Fq12 G * Fq12.w ^ 3) := by
  have hg := good_new (p := bn254R) (tbl := bnTbl) (ext := fun _ => 0) 0 "" 0
  have hone : InCyc (1 : Fq12) := by
    unfold InCyc
    exact one_pow _
  have hdec : DecOk (1 : Fq12) := by
    intro a0 a1 a2 a3 a4 a5 h _
    exact Or.inl (e6_inj (e6_one.symm.trans h)).2.1.symm
  have h0 : Cmp bnTbl (fun _ => 0) (Ctx.new false 0 "" 0 [] []) (bnCfg.F12.loadPrivate (1 : Fq12) >>= fun a => cycCompress a >>= fun g =>
      bnCfg.cycDecompress g >>= fun r => pure (a, r)) (fun _ _ => True) := by
    cb (g12_loadPrivate 1) a va
    cb (cycCompress_cmp va) g vg
    exact Cmp.bind (cycDecompress_cmp vg hone hdec) fun r s3 e3 hr => Cmp.pure trivial
  obtain ⟨⟨a, r⟩, s', h1, -, -, -⟩ := h0 hg
  refine ⟨a, r, s', h1, fun G => ?_⟩
  have hrel : Rel false (bnCfg.F12.loadPrivate (1 : Fq12) >>= fun a => cycCompress a >>= fun g => bnCfg.cycDecompress g >>= fun r => pure (a, r))
      (bnCfg.F12.loadPrivate (1 : Fq12) >>= fun a => cycCompress a >>= fun g => decWith G g >>= fun r => pure (a, r))
      (fun o o' => RL false o.1 o'.1 ∧ RL false o.2 o'.2) :=
    ((PairCfg.R12 bnDeg false).loadPrivate fun _ => rfl).bind fun _ _ ha => (cycCompress_rel ha).bind fun _ _ hc =>
      (decWith_rel G hc).bind fun _ _ hr => Rel.pure ⟨ha, hr⟩
  have hcmp : Cmp bnTbl (fun _ => 0) (Ctx.new false 0 "" 0 [] []) (bnCfg.F12.loadPrivate (1 : Fq12) >>= fun a => cycCompress a >>= fun g =>
      decWith G g >>= fun r => pure (a, r))
      (fun o s' => HN12 (fun _ => 0) s' o.1 1 ∧ HN12 (fun _ => 0) s' o.2 (e6 (G * G * 2 * Fq2.xi + 1) 0 0 G 0 0)) := by
    cb (g12_loadPrivate 1) a va
    cb (cycCompress_cmp va) g vg
    cb (decWith_cmp vg G) r vr
    exact Cmp.pure ⟨va, vr⟩
  obtain ⟨o', t', ⟨ra, rr⟩, -, hsat, pa, pr⟩ := forge h1 hrel hcmp hg
  refine ⟨_, hsat, is12_iff.2 (RL.r12 ra pa.r), is12_iff.2 (RL.r12 rr ?_)⟩
  have e : (1 + 2 * Fq12.w ^ 6 * algebraMap Fq2 Fq12 G ^ 2 + algebraMap Fq2 Fq12 G * Fq12.w ^ 3 : Fq12) = e6 (G * G * 2 * Fq2.xi + 1) 0 0 G 0 0 := by
    rw [Fq12.w6]
    simp only [e6, map_zero, map_add, map_mul, map_one, map_ofNat]
    ring
  rw [e]
  exact pr.r

/-- Different `G` give different results: `1` is only one of them. -/
theorem C90_decompress_of_one_injective {G H : Fq2}
    (h : (1 + 2 * Fq12.w ^ 6 * algebraMap Fq2 Fq12 G ^ 2 + algebraMap Fq2 Fq12 G * Fq12.w ^ 3 : Fq12) =
      1 + 2 * Fq12.w ^ 6 * algebraMap Fq2 Fq12 H ^ 2 + algebraMap Fq2 Fq12 H * Fq12.w ^ 3) : G = H := by
  have e : ∀ G : Fq2, (1 + 2 * Fq12.w ^ 6 * algebraMap Fq2 Fq12 G ^ 2 + algebraMap Fq2 Fq12 G * Fq12.w ^ 3 : Fq12) =
      e6 (G * G * 2 * Fq2.xi + 1) 0 0 G 0 0 := by
    intro G
    rw [Fq12.w6]
    simp only [e6, map_zero, map_add, map_mul, map_one, map_ofNat]
    ring
  rw [e, e] at h
  exact (e6_inj h).2.2.2.1


/-! ### The final exponentiation of `1` -/

/-- The loop of `cyclotomic_pow` (final_exp.rs:279-301) in which the decompression at the last digit is done with another quotient. -/
noncomputable def cycPowLoopWith (G : Fq2) (a : List (CrtInt bn254R)) : List ℤ → Bool → Comp (CrtInt bn254R) → Option (List (CrtInt bn254R)) →
    M bn254R (Comp (CrtInt bn254R) × Option (List (CrtInt bn254R)))
  | [], _, comp, out => pure (comp, out)
  | z :: zs, started, comp, out => do
    let comp ← if started then bnCfg.cycSquare comp else pure comp
    if z ≠ 0 then do
      assertM (z == 1 || z == -1)
      if started then do
        let res ← if zs = [] then decWith G comp else bnCfg.cycDecompress comp
        let res ← if z = 1 then bnCfg.F12.mul res a else bnCfg.F12.divideUnsafe res a
        let comp ← cycCompress res
        cycPowLoopWith G a zs true comp (some res)
      else do
        assertM (z == 1)
        cycPowLoopWith G a zs true comp out
    else cycPowLoopWith G a zs started comp out

/-- `cyclotomic_pow` (final_exp.rs:273-306) with that loop. -/
noncomputable def cycPowWith (G : Fq2) (a : List (CrtInt bn254R)) (exp : List ℕ) : M bn254R (List (CrtInt bn254R)) := do
  let comp ← cycCompress a
  let naf ← unwrap (Naf.getNaf exp)
  let (comp, out) ← cycPowLoopWith G a naf.reverse false comp none
  let d0 ← unwrap naf[0]?
  let out ← if d0 = 0 then do
      let r ← bnCfg.cycDecompress comp
      pure (some r)
    else pure out
  pure (out.getD a)

/-- `hard_part_BN` (final_exp.rs:310-375) with another quotient in the last of the three calls of `cyclotomic_pow`. -/
noncomputable def hardPartWith (G : Fq2) (m : List (CrtInt bn254R)) : M bn254R (List (CrtInt bn254R)) := do
  let mp ← bnCfg.frobeniusMap m 1
  let mp2 ← bnCfg.frobeniusMap m 2
  let mp3 ← bnCfg.frobeniusMap m 3
  let mp2mp3 ← bnCfg.F12.mul mp2 mp3
  let y0 ← bnCfg.F12.mul mp mp2mp3
  let y1 ← fp12Conjugate bnCfg.F m
  let mx ← bnCfg.cycPow m [bnXWord]
  let mxp ← bnCfg.frobeniusMap mx 1
  let mx2 ← bnCfg.cycPow mx [bnXWord]
  let mx2p ← bnCfg.frobeniusMap mx2 1
  let y2 ← bnCfg.frobeniusMap mx2 2
  let y5 ← fp12Conjugate bnCfg.F mx2
  let mx3 ← cycPowWith G mx2 [bnXWord]
  let mx3p ← bnCfg.frobeniusMap mx3 1
  let y3 ← fp12Conjugate bnCfg.F mxp
  let mxmx2p ← bnCfg.F12.mul mx mx2p
  let y4 ← fp12Conjugate bnCfg.F mxmx2p
  let mx3mx3p ← bnCfg.F12.mul mx3 mx3p
  let y6 ← fp12Conjugate bnCfg.F mx3mx3p
  let t0 ← bnCfg.F12.mul y6 y6
  let t0 ← bnCfg.F12.mul t0 y4
  let t0 ← bnCfg.F12.mul t0 y5
  let t1 ← bnCfg.F12.mul y3 y5
  let t1 ← bnCfg.F12.mul t1 t0
  let t0 ← bnCfg.F12.mul t0 y2
  let t1 ← bnCfg.F12.mul t1 t1
  let t1 ← bnCfg.F12.mul t1 t0
  let t1 ← bnCfg.F12.mul t1 t1
  let t0 ← bnCfg.F12.mul t1 y1
  let t1 ← bnCfg.F12.mul t1 y0
  let t0 ← bnCfg.F12.mul t0 t0
  bnCfg.F12.mul t0 t1

theorem cycPowLoopWith_rel (G : Fq2) {a a' : List (CrtInt bn254R)} (h : RL false a a') (zs : List ℤ) (st : Bool) {c c' : Comp (CrtInt bn254R)}
    (hc : RComp false c c') {o o' : Option (List (CrtInt bn254R))} (ho : ROpt (RL false) o o') :
    Rel false (bnCfg.cycPowLoop a zs st c o) (cycPowLoopWith G a' zs st c' o') (fun x y => RComp false x.1 y.1 ∧ ROpt (RL false) x.2 y.2) := by
  induction zs generalizing st c c' o o' with
  | nil => exact Rel.pure ⟨hc, ho⟩
  | cons z zs ih =>
    unfold PairCfg.cycPowLoop cycPowLoopWith
    refine Rel.iteJp (Q := RComp false) (fun _ => cycSquare_rel bnDeg hc) (fun _ => Rel.pure hc) fun b b' hb => ?_
    refine Rel.ite Iff.rfl (fun _ => ?_) (fun _ => ih _ hb ho)
    refine (assertM_rel fun _ => rfl).bind fun _ _ _ => ?_
    refine Rel.ite Iff.rfl (fun _ => ?_) (fun _ => (assertM_rel fun _ => rfl).bind fun _ _ _ => ih _ hb ho)
    have key : ∀ res res', RL false res res' → Rel false
        (do let res ← if z = 1 then bnCfg.F12.mul res a else bnCfg.F12.divideUnsafe res a
            let comp ← cycCompress res
            bnCfg.cycPowLoop a zs true comp (some res))
        (do let res ← if z = 1 then bnCfg.F12.mul res' a' else bnCfg.F12.divideUnsafe res' a'
            let comp ← cycCompress res
            cycPowLoopWith G a' zs true comp (some res)) (fun x y => RComp false x.1 y.1 ∧ ROpt (RL false) x.2 y.2) := by
      intro res res' h1
      exact Rel.iteJp (Q := RL false) (fun _ => mul12 bnDeg h1 h) (fun _ => div12 bnDeg h1 h) fun _ _ h2 =>
        (cycCompress_rel h2).bind fun _ _ h3 => ih _ h3 (o := some _) (o' := some _) h2
    by_cases hz : zs = []
    · rw [if_pos hz]
      exact (decWith_rel G hb).bind key
    · rw [if_neg hz]
      exact (cycDecompress_rel bnDeg hb).bind key

theorem cycPowWith_rel (G : Fq2) {a a' : List (CrtInt bn254R)} (h : RL false a a') (e : List ℕ) :
    Rel false (bnCfg.cycPow a e) (cycPowWith G a' e) (RL false) := by
  unfold PairCfg.cycPow cycPowWith
  refine (cycCompress_rel h).bind fun c c' hc => (unwrapS_rel _).bind ?_
  rintro naf _ rfl
  refine (cycPowLoopWith_rel G h _ _ hc (o := none) (o' := none) trivial).bind fun x y hx => (unwrapS_rel _).bind ?_
  rintro d _ rfl
  have key : ∀ o o', ROpt (RL false) o o' → Rel false (pure (o.getD a) : M bn254R _) (pure (o'.getD a')) (RL false) :=
    fun o o' ho => Rel.pure (getD_rel ho h)
  exact Rel.ite Iff.rfl (fun _ => (cycDecompress_rel bnDeg hx.1).bind fun _ _ h1 => key (some _) (some _) h1)
    (fun _ => key _ _ hx.2)

theorem hardPartWith_rel (G : Fq2) {m m' : List (CrtInt bn254R)} (h : RL false m m') : Rel false (bnCfg.hardPart m) (hardPartWith G m') (RL false) :=
  (frobeniusMap_rel bnDeg h 1).bind fun _ _ mp => (frobeniusMap_rel bnDeg h 2).bind fun _ _ mp2 => (frobeniusMap_rel bnDeg h 3).bind fun _ _ mp3 =>
  (mul12 bnDeg mp2 mp3).bind fun _ _ mp2mp3 => (mul12 bnDeg mp mp2mp3).bind fun _ _ y0 => (conj12 h).bind fun _ _ y1 =>
  (cycPow_rel bnDeg h _).bind fun _ _ mx => (frobeniusMap_rel bnDeg mx 1).bind fun _ _ mxp => (cycPow_rel bnDeg mx _).bind fun _ _ mx2 =>
  (frobeniusMap_rel bnDeg mx2 1).bind fun _ _ mx2p => (frobeniusMap_rel bnDeg mx2 2).bind fun _ _ y2 => (conj12 mx2).bind fun _ _ y5 =>
  (cycPowWith_rel G mx2 _).bind fun _ _ mx3 => (frobeniusMap_rel bnDeg mx3 1).bind fun _ _ mx3p => (conj12 mxp).bind fun _ _ y3 =>
  (mul12 bnDeg mx mx2p).bind fun _ _ mxmx2p => (conj12 mxmx2p).bind fun _ _ y4 => (mul12 bnDeg mx3 mx3p).bind fun _ _ mx3mx3p =>
  (conj12 mx3mx3p).bind fun _ _ y6 => (mul12 bnDeg y6 y6).bind fun _ _ t0 => (mul12 bnDeg t0 y4).bind fun _ _ t0 =>
  (mul12 bnDeg t0 y5).bind fun _ _ t0 => (mul12 bnDeg y3 y5).bind fun _ _ t1 => (mul12 bnDeg t1 t0).bind fun _ _ t1 =>
  (mul12 bnDeg t0 y2).bind fun _ _ t0 => (mul12 bnDeg t1 t1).bind fun _ _ t1 => (mul12 bnDeg t1 t0).bind fun _ _ t1 =>
  (mul12 bnDeg t1 t1).bind fun _ _ t1 => (mul12 bnDeg t1 y1).bind fun _ _ t0 => (mul12 bnDeg t1 y0).bind fun _ _ t1 =>
  (mul12 bnDeg t0 t0).bind fun _ _ t0 => mul12 bnDeg t0 t1

theorem inCyc_one : InCyc (1 : Fq12) := by
  unfold InCyc
  exact one_pow _

/-- The forged decompression of `1`. -/
noncomputable def decOne (G : Fq2) : Fq12 := e6 (G * G * 2 * Fq2.xi + 1) 0 0 G 0 0

theorem cycPowLoopWith_cmp (G : Fq2) {ext : Cell → ZMod bn254R} {a : List (CrtInt bn254R)} : ∀ (zs : List ℤ) (st : Bool) (comp : Comp (CrtInt bn254R))
    (out : Option (List (CrtInt bn254R))) (s : Ctx bn254R), HN12 ext s a 1 → CompW ext s comp 1 → (st = false → Lead zs) →
    (∀ z ∈ zs, z = -1 ∨ z = 0 ∨ z = 1) → (st = false → ∃ z ∈ zs.dropLast, z ≠ 0) → (∃ z, zs.getLast? = some z ∧ z ≠ 0) →
    Cmp bnTbl ext s (cycPowLoopWith G a zs st comp out) (fun r s' => HN12 ext s' (r.2.getD a) (decOne G))
  | [], st, comp, out, s, _, _, _, _, _, h => by
    obtain ⟨z, h, -⟩ := h
    simp at h
  | z :: zs, st, comp, out, s, ha, hr, hl, hz, hs, hlast => by
    have hz0 := hz z (List.mem_cons_self ..)
    have hz' : ∀ y ∈ zs, y = -1 ∨ y = 0 ∨ y = 1 := fun y hy => hz y (List.mem_cons_of_mem _ hy)
    unfold cycPowLoopWith
    have hsq : Cmp bnTbl ext s (if st = true then bnCfg.cycSquare comp else pure comp) (fun r s' => CompW ext s' r 1) := by
      refine Cmp.ite (fun h => ?_) (fun h => ?_)
      · have := cycSquare_cmp hr inCyc_one
        rwa [one_pow] at this
      · exact Cmp.pure hr
    refine Cmp.jp hsq fun comp1 s1 e1 hr1 => ?_
    have ha1 := ha.mono e1
    have htail : zs ≠ [] → ∃ y, zs.getLast? = some y ∧ y ≠ 0 := by
      intro h
      obtain ⟨y, h1, h2⟩ := hlast
      cases zs with
      | nil => exact absurd rfl h
      | cons b l => exact ⟨y, by rwa [List.getLast?_cons_cons] at h1, h2⟩
    refine Cmp.ite (fun hz1 => Cmp.assert (by rcases hz0 with rfl | rfl | rfl <;> first | rfl | exact absurd rfl hz1) (Cmp.ite (fun hst => ?_)
      (fun hst => ?_))) (fun hz1 => ?_)
    · have key : ∀ (res0 : List (CrtInt bn254R)) (s2 : Ctx bn254R) (V : Fq12), Ext s1 s2 → HN12 ext s2 res0 V → (zs = [] → V = decOne G) → (zs ≠ [] → V = 1) →
          Cmp bnTbl ext s2 (do
            let res ← if z = 1 then bnCfg.F12.mul res0 a else bnCfg.F12.divideUnsafe res0 a
            let comp ← cycCompress res
            cycPowLoopWith G a zs true comp (some res)) (fun r s' => HN12 ext s' (r.2.getD a) (decOne G)) := by
        intro res0 s2 V e2 h2 hv1 hv2
        have ha2 := ha1.mono e2
        have hmul : Cmp bnTbl ext s2 (if z = 1 then bnCfg.F12.mul res0 a else bnCfg.F12.divideUnsafe res0 a) (fun r s' => HN12 ext s' r V) := by
          refine Cmp.ite (fun h => ?_) (fun h => ?_)
          · have := g12_mul h2 ha2
            rwa [mul_one] at this
          · have := g12_div h2 ha2 fun h => absurd h one_ne_zero
            rwa [div_one] at this
        refine Cmp.jp hmul fun res s3 e3 h3 => ?_
        have ha3 := ha2.mono e3
        refine Cmp.bind (cycCompress_cmp h3) fun comp2 s4 e4 h4 => ?_
        by_cases he : zs = []
        · subst he
          rw [hv1 rfl] at h3
          exact Cmp.pure (h3.mono e4)
        · rw [hv2 he] at h4
          exact cycPowLoopWith_cmp G zs true comp2 (some res) s4 (ha3.mono e4) h4 (by simp) hz' (by simp) (htail he)
      by_cases he : zs = []
      · rw [if_pos he]
        exact Cmp.bind (decWith_cmp hr1 G) fun res0 s2 e2 h2 => key res0 s2 _ e2 h2 (fun _ => rfl) fun h => absurd he h
      · rw [if_neg he]
        exact Cmp.bind (cycDecompress_cmp hr1 inCyc_one decOk_one) fun res0 s2 e2 h2 => key res0 s2 _ e2 h2 (fun h => absurd h he) fun _ => rfl
    · have hst' : st = false := by simpa using hst
      have hz3 : z = 1 := by
        have := hl hst'
        unfold Lead at this
        rwa [if_neg hz1] at this
      have he : zs ≠ [] := by
        rintro rfl
        obtain ⟨y, hy, -⟩ := hs hst'
        simp at hy
      exact Cmp.assert (by rw [hz3]; rfl) (cycPowLoopWith_cmp G zs true comp1 out s1 ha1 hr1 (by simp) hz' (by simp) (htail he))
    · have hz3 : z = 0 := not_not.1 hz1
      have he : zs ≠ [] := by
        rintro rfl
        obtain ⟨y, hy, hy0⟩ := hlast
        simp at hy
        exact hy0 (hy ▸ hz3)
      refine cycPowLoopWith_cmp G zs st comp1 out s1 ha1 hr1 (fun h => by have := hl h; unfold Lead at this; rwa [if_pos hz3] at this) hz' (fun h => ?_)
        (htail he)
      obtain ⟨y, hy, hy0⟩ := hs h
      cases zs with
      | nil => exact absurd rfl he
      | cons b l =>
        rw [List.dropLast_cons_cons] at hy
        rcases List.mem_cons.1 hy with rfl | hy
        · exact absurd hz3 hy0
        · exact ⟨y, hy, hy0⟩

theorem cycXWith_cmp (G : Fq2) {ext : Cell → ZMod bn254R} {s : Ctx bn254R} {a : List (CrtInt bn254R)} (ha : HN12 ext s a 1) :
    Cmp bnTbl ext s (cycPowWith G a [bnXWord]) (fun r s' => HN12 ext s' r (decOne G)) := by
  have hb : bnXWord = bnX := rfl
  have hx : ∀ x ∈ [bnXWord], x < 2 ^ 64 := by
    intro x hx
    rw [List.mem_singleton.1 hx]
    decide +kernel
  have hs : ∃ naf, Naf.getNaf [bnXWord] = some naf ∧ (∃ z ∈ naf.reverse.dropLast, z ≠ 0) ∧ (∃ z, naf.reverse.getLast? = some z ∧ z ≠ 0) ∧
      (∃ d, naf[0]? = some d ∧ d ≠ 0) := by
    have h : (Naf.getNaf [bnXWord]).any (fun naf => naf.reverse.dropLast.any (fun z => decide (z ≠ 0)) && naf.reverse.getLast?.any (fun z => decide (z ≠ 0)) &&
        naf[0]?.any (fun z => decide (z ≠ 0))) = true := by decide +kernel
    obtain ⟨naf, h1, h2⟩ := (Option.any_eq_true _ _).1 h
    simp only [Bool.and_eq_true, List.any_eq_true, Option.any_eq_true, decide_eq_true_eq] at h2
    exact ⟨naf, h1, h2.1.1, h2.1.2, h2.2⟩
  obtain ⟨naf, hn, h1, h2, d, h3, h4⟩ := hs
  obtain ⟨l1, l2⟩ := naf_lead hx hn
  unfold cycPowWith
  refine Cmp.bind (cycCompress_cmp ha) fun comp s1 e1 hc1 => ?_
  refine Cmp.unwrap hn ?_
  refine Cmp.bind (cycPowLoopWith_cmp G naf.reverse false comp none s1 (ha.mono e1) hc1 (fun _ => l1) l2 (fun _ => h1) h2) fun co s2 e2 hco => ?_
  obtain ⟨comp2, out⟩ := co
  refine Cmp.unwrap h3 ?_
  rw [if_neg h4]
  exact Cmp.pure hco

theorem hardPartWith_cmp (G : Fq2) {ext : Cell → ZMod bn254R} {s : Ctx bn254R} {a : List (CrtInt bn254R)} (ha : HN12 ext s a 1) :
    Cmp bnTbl ext s (hardPartWith G a) (fun r s' => HN12 ext s' r (((decOne G * decOne G ^ bn254Q) ^ bn254Q ^ 6) ^ 36)) := by
  have hdec : ∀ e ∈ bnXExps, DecOk ((1 : Fq12) ^ e) := fun e _ => by rw [one_pow]; exact decOk_one
  unfold hardPartWith
  cb (frob_cmp 1 (by norm_num) ha) mp v1
  cb (frob_cmp 2 (by norm_num) ha) mp2 v2
  cb (frob_cmp 3 (by norm_num) ha) mp3 v3
  simp only [one_pow, pow_one] at v1 v2 v3
  cb (g12_mul v2 v3) mp2mp3 v4
  rw [one_mul] at v4
  cb (g12_mul v1 v4) y0 vy0
  clear v1 v2 v3 v4
  cb (g12_conj ha) y1 vy1
  cb (cycX_cmp inCyc_one ha hdec) mx vx
  rw [one_pow] at vx vy1
  cb (frob_cmp 1 (by norm_num) vx) mxp vxp
  cb (cycX_cmp inCyc_one vx hdec) mx2 vx2
  rw [one_pow] at vx2 vxp
  cb (frob_cmp 1 (by norm_num) vx2) mx2p vx2p
  cb (frob_cmp 2 (by norm_num) vx2) y2 vy2
  cb (g12_conj vx2) y5 vy5
  rw [one_pow] at vx2p vy2 vy5
  cb (cycXWith_cmp G vx2) mx3 vx3
  cb (frob_cmp 1 (by norm_num) vx3) mx3p vx3p
  cb (g12_conj vxp) y3 vy3
  cb (g12_mul vx vx2p) mxmx2p v5
  rw [one_mul] at v5
  cb (g12_conj v5) y4 vy4
  cb (g12_mul vx3 vx3p) mx3mx3p v6
  cb (g12_conj v6) y6 vy6
  rw [one_pow] at vy3 vy4
  rw [pow_one] at vy6
  generalize (decOne G * decOne G ^ bn254Q) ^ bn254Q ^ 6 = Z at vy6 ⊢
  clear vx vxp vx2 vx2p vx3 vx3p v5 v6
  rw [one_mul] at vy0
  cb (g12_mul vy6 vy6) t0 v0
  cb (g12_mul v0 vy4) t1 v1
  cb (g12_mul v1 vy5) t2 v2
  cb (g12_mul vy3 vy5) t3 v3
  cb (g12_mul v3 v2) t4 v4
  cb (g12_mul v2 vy2) t5 v5
  cb (g12_mul v4 v4) t6 v6
  cb (g12_mul v6 v5) t7 v7
  cb (g12_mul v7 v7) t8 v8
  cb (g12_mul v8 vy1) t9 v9
  cb (g12_mul v8 vy0) t10 v10
  cb (g12_mul v9 v9) t11 v11
  refine (g12_mul v11 v10).weaken fun r s' v => ?_
  convert v using 1
  ring


theorem decOne_inj {G H : Fq2} (h : decOne G = decOne H) : G = H := (e6_inj h).2.2.2.1

theorem pow_aux {R : Type} [CommMonoid R] (E : R) (q : ℕ) : ((E * E ^ q) ^ q ^ 6) ^ 36 = (E ^ (36 * (q + 1))) ^ q ^ 6 := by
  have e : (q + 1) * (q ^ 6 * 36) = 36 * (q + 1) * q ^ 6 := by ring
  rw [← pow_succ', ← pow_mul, ← pow_mul, ← pow_mul, e]

/-- At most `n` elements are `n`-th roots of unity. -/
theorem card_image_roots {α R : Type} [Fintype α] [CommRing R] [IsDomain R] (f : α → R) (hf : Function.Injective f) {n : ℕ} (hn : 0 < n)
    (h : ∀ x, f x ^ n = 1) : Fintype.card α ≤ n := by
  classical
  have hsub : Finset.univ.image f ⊆ Polynomial.nthRootsFinset n (1 : R) := by
    intro x hx
    obtain ⟨y, -, rfl⟩ := Finset.mem_image.1 hx
    exact (Polynomial.mem_nthRootsFinset hn _).2 (h y)
  have hcard := Finset.card_le_card hsub
  rw [Finset.card_image_of_injective _ hf, Finset.card_univ] at hcard
  refine hcard.trans ?_
  unfold Polynomial.nthRootsFinset
  exact (Multiset.toFinset_card_le _).trans (Polynomial.card_nthRoots _ _)

/-- Some forged decompression of `1` leads to a result of the hard part other than `1`. -/
theorem exists_decOne : ∃ G : Fq2, ((decOne G * decOne G ^ bn254Q) ^ bn254Q ^ 6) ^ 36 ≠ 1 := by
  by_contra hall
  push Not at hall
  have h1 : ∀ G : Fq2, decOne G ^ (36 * (bn254Q + 1)) = 1 := by
    intro G
    have h := hall G
    have e : ((decOne G * decOne G ^ bn254Q) ^ bn254Q ^ 6) ^ 36 = (decOne G ^ (36 * (bn254Q + 1))) ^ bn254Q ^ 6 := by
      exact pow_aux _ _
    rw [e] at h
    have h2 := congrArg (· ^ bn254Q ^ 6) h
    simp only [one_pow] at h2
    rw [← pow_mul, ← pow_add] at h2
    have e12 := e6_pow_q12 (decOne G ^ (36 * (bn254Q + 1)))
    rw [show (6 + 6 : ℕ) = 12 from rfl, e12] at h2
    exact h2
  have hn : 0 < 36 * (bn254Q + 1) := Nat.mul_pos (by norm_num) (Nat.succ_pos _)
  have hcard := card_image_roots (fun xy : ZMod bn254Q × ZMod bn254Q => decOne ⟨xy.1, xy.2⟩) (by
    rintro ⟨x, y⟩ ⟨x', y'⟩ h
    have := decOne_inj h
    simp only [QuadraticAlgebra.mk.injEq] at this
    exact Prod.ext this.1 this.2) hn fun xy => h1 _
  rw [Fintype.card_prod, ZMod.card] at hcard
  have hbig : 36 * (bn254Q + 1) < bn254Q * bn254Q := by decide +kernel
  exact absurd hcard (not_le.2 hbig)

/-- C90: for every nonzero `X` whose easy part is `1` (such as `1` and all other nonzero elements of the subfield of `q⁶` elements) a circuit computing
`final_exp(X)`, the honest result of which is `1`, can be satisfied with another result. -/
theorem C90_final_exp_not_determined (X : Fq12) (h0 : X ≠ 0) (hX : X ^ ((bn254Q ^ 6 - 1) * (bn254Q ^ 2 + 1)) = 1) :
    ∃ a r s', (bnCfg.F12.loadPrivate X >>= fun a => bnCfg.finalExp a >>= fun r => pure (a, r)) (Ctx.new false 0 "" 0 [] []) = some ((a, r), s') ∧
      (∃ w, Sat (RangeTable bn254R 16) s' w ∧ Is12 w a X ∧ Is12 w r 1) ∧
      ∃ w Y, Y ≠ 1 ∧ Sat (RangeTable bn254R 16) s' w ∧ Is12 w a X ∧ Is12 w r Y := by
  have hg := good_new (p := bn254R) (tbl := bnTbl) (ext := fun _ => 0) 0 "" 0
  have h1c : Cmp bnTbl (fun _ => 0) (Ctx.new false 0 "" 0 [] []) (bnCfg.F12.loadPrivate X >>= fun a => bnCfg.finalExp a >>= fun r => pure (a, r))
      (fun o s' => HN12 (fun _ => 0) s' o.1 X ∧ HN12 (fun _ => 0) s' o.2 1) := by
    cb (g12_loadPrivate X) a va
    have hd : HardDec (X ^ ((bn254Q ^ 6 - 1) * (bn254Q ^ 2 + 1))) := by
      rw [hX]
      intro i _ e _
      rw [one_pow]
      exact decOk_one
    have hf := finalExp_cmp va h0 hd
    rw [finalE_eq, pow_mul, hX, one_pow] at hf
    cb hf r vr
    exact Cmp.pure ⟨va, vr⟩
  obtain ⟨⟨a, r⟩, s', h1, g1, -, ha, hr⟩ := h1c hg
  refine ⟨a, r, s', h1, ⟨_, g1.sat, is12_iff.2 ha.r, is12_iff.2 hr.r⟩, ?_⟩
  obtain ⟨G, hG⟩ := exists_decOne
  have hrel : Rel false (bnCfg.F12.loadPrivate X >>= fun a => bnCfg.finalExp a >>= fun r => pure (a, r))
      (bnCfg.F12.loadPrivate X >>= fun a => (bnCfg.easyPart a >>= hardPartWith G) >>= fun r => pure (a, r))
      (fun o o' => RL false o.1 o'.1 ∧ RL false o.2 o'.2) :=
    ((PairCfg.R12 bnDeg false).loadPrivate fun _ => rfl).bind fun _ _ ha =>
      ((easyPart_rel bnDeg ha).bind fun _ _ h => hardPartWith_rel G h).bind fun _ _ hr => Rel.pure ⟨ha, hr⟩
  have hcmp : Cmp bnTbl (fun _ => 0) (Ctx.new false 0 "" 0 [] []) (bnCfg.F12.loadPrivate X >>= fun a => (bnCfg.easyPart a >>= hardPartWith G) >>= fun r => pure (a, r))
      (fun o s' => HN12 (fun _ => 0) s' o.1 X ∧ HN12 (fun _ => 0) s' o.2 (((decOne G * decOne G ^ bn254Q) ^ bn254Q ^ 6) ^ 36)) := by
    refine Cmp.bind (g12_loadPrivate X) fun a s1 e1 va => ?_
    have hf : Cmp bnTbl (fun _ => 0) s1 (bnCfg.easyPart a >>= hardPartWith G)
        (fun r s' => HN12 (fun _ => 0) s' r (((decOne G * decOne G ^ bn254Q) ^ bn254Q ^ 6) ^ 36)) := by
      refine Cmp.bind (easyPart_cmp va h0) fun m s2 e2 hm => ?_
      rw [hX] at hm
      exact hardPartWith_cmp G hm
    cb hf r vr
    exact Cmp.pure ⟨va, vr⟩
  obtain ⟨o', t', ⟨ra, rr⟩, -, hsat, pa, pr⟩ := forge h1 hrel hcmp hg
  exact ⟨_, _, hG, hsat, is12_iff.2 (RL.r12 ra pa.r), is12_iff.2 (RL.r12 rr pr.r)⟩

/-- The hypotheses of `C90_final_exp_not_determined` hold for `1`. -/
example : (1 : Fq12) ≠ 0 ∧ (1 : Fq12) ^ ((bn254Q ^ 6 - 1) * (bn254Q ^ 2 + 1)) = 1 := ⟨one_ne_zero, one_pow _⟩

/-- They hold for the nonzero elements of the subfield of `q⁶` elements, such as `g · conj(g)` for every nonzero `g`. -/
example (X : Fq12) (h0 : X ≠ 0) (h6 : X ^ bn254Q ^ 6 = X) : X ^ ((bn254Q ^ 6 - 1) * (bn254Q ^ 2 + 1)) = 1 := by
  have hpos : 1 ≤ bn254Q ^ 6 := Nat.one_le_pow _ _ (by decide +kernel)
  obtain ⟨n, hn⟩ : ∃ n, bn254Q ^ 6 = n + 1 := ⟨bn254Q ^ 6 - 1, by omega⟩
  have : X ^ n = 1 := by
    rw [hn, pow_succ] at h6
    exact mul_right_cancel₀ h0 (h6.trans (one_mul X).symm)
  rw [hn, Nat.add_sub_cancel, pow_mul, this, one_pow]

end H2
