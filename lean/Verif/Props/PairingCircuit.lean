import Verif.Pairing.EqOwn
import Verif.Props.CompletePairing
import Verif.Props.SchnorrCircuit

/-!
# Property C89: a circuit that computes a pairing of BN254, end to end

As C87, with the limbs of the two points and of the twelve coefficients of the pairing as public inputs.
-/

set_option autoImplicit false
set_option linter.unusedSectionVars false
namespace H2
open Phys EqO PairCfg

/-! ### The circuit -/

/-- The inputs of `pairing_test` (bn254/tests/pairing.rs:23-46): a point of the curve and a point of the twist. -/
structure PairInput where
  pt : ZMod bn254Q × ZMod bn254Q
  tw : Fq2 × Fq2

/-- `pairing_test` (bn254/tests/pairing.rs:23-46), returning the limbs of the points and of the pairing as one column of public inputs. -/
noncomputable def pairMain (i : PairInput) : M bn254R (List (List (AV bn254R))) := do
  let P ← loadPoint bnCfg.F (3 : ZMod bn254Q) i.pt
  let Q ← loadPoint bnCfg.F2 g2B i.tw
  let f ← bnCfg.pairing Q P
  let Px : CrtInt bn254R := P.x
  let Py : CrtInt bn254R := P.y
  let Qx : List (CrtInt bn254R) := Q.x
  let Qy : List (CrtInt bn254R) := Q.y
  pure [((Px :: Py :: (Qx ++ (Qy ++ f))).flatMap fun c => c.trunc.limbs)]

/-- The circuit runs on the main thread of the builder (`base_test().run(|ctx, range| ..)`, utils/testing.rs). -/
noncomputable def pairCircuit : Prog bn254R PairInput := fun i => onMain (pairMain i)

/-- The element `Σ (Eᵢ + Eᵢ₊₆ u) wⁱ` of `Fq12`. -/
noncomputable def fq12Of (E : ℕ → ZMod bn254Q) : Fq12 :=
  ∑ i ∈ Finset.range 6, (algebraMap (ZMod bn254Q) Fq12 (E i) + algebraMap (ZMod bn254Q) Fq12 (E (i + 6)) * Fq12.u) * Fq12.w ^ i

/-- The column of public inputs for the point `(P0, P1)` of the curve, the point `(X0 + X1 u, Y0 + Y1 u)` of the twist and the element
`Σ (Eᵢ + Eᵢ₊₆ u) wⁱ`. -/
def pairColumn (P0 P1 X0 X1 Y0 Y1 : ℕ) (E : ℕ → ℕ) : List (ZMod bn254R) :=
  (P0 :: P1 :: X0 :: X1 :: Y0 :: Y1 :: (List.range 12).map E).flatMap enc3

/-! ### The circuit is a library circuit -/

theorem bnDeg : bnCfg.Deg := ⟨fun v v' => by rw [extFieldOf_len, extFieldOf_len], fun v v' => by rw [extFieldOf_len, extFieldOf_len]⟩

theorem crtLimbs_rel {k : Bool} {l l' : List (CrtInt bn254R)} (h : List.Forall₂ (RC k) l l') :
    List.Forall₂ (RA k) (l.flatMap fun c => c.trunc.limbs) (l'.flatMap fun c => c.trunc.limbs) := by
  induction h with
  | nil => exact .nil
  | cons h _ ih =>
    rw [List.flatMap_cons, List.flatMap_cons]
    exact List.rel_append h.trunc.limbs ih

theorem pairMain_rel {k : Bool} {i j : PairInput} (h : k = true → i = j) :
    Rel k (pairMain i) (pairMain j) (List.Forall₂ (List.Forall₂ (RA k))) := by
  have of : ∀ {α : Type} (f : PairInput → α), RV k (f i) (f j) := fun f hk => by rw [h hk]
  have of2 : ∀ {α β : Type} (f : PairInput → α × β), RV2 k (f i) (f j) := fun f => ⟨of fun i => (f i).1, of fun i => (f i).2⟩
  refine (loadPoint_rel (PairCfg.R1 bnCfg k) (3 : ZMod bn254Q) (of2 PairInput.pt)).bind fun P P' hP =>
    (loadPoint_rel (PairCfg.R2 bnDeg k) g2B (of2 PairInput.tw)).bind fun Q Q' hQ =>
    (pairing_rel bnDeg hQ hP).bind fun f f' hf => Rel.pure ?_
  have hx : RC k P.x P'.x := hP.x
  have hy : RC k P.y P'.y := hP.y
  have hX : RL k Q.x Q'.x := hQ.x
  have hY : RL k Q.y Q'.y := hQ.y
  exact .cons (crtLimbs_rel (.cons hx (.cons hy (List.rel_append hX (List.rel_append hY hf))))) .nil

theorem pairCircuit_lib : LibProg pairCircuit := libProg_of_rel fun _ _ _ h => onMain_rel (pairMain_rel h)

/-! ### Soundness -/

theorem crtLimbs_sound {w : Cell → ZMod bn254R} {l : List (CrtInt bn254R)} {xs : List (ZMod bn254Q)} (h : List.Forall₂ (bnLaws.PRep w) l xs) :
    ∃ Ns : List ℕ, (∀ N ∈ Ns, N < 2 ^ 254) ∧ Ns.map (fun N : ℕ => (N : ZMod bn254Q)) = xs ∧
      (l.flatMap fun c => c.trunc.limbs).map (at' w) = Ns.flatMap enc3 := by
  induction h with
  | nil => exact ⟨[], by simp, rfl, rfl⟩
  | @cons a x l xs h1 _ ih =>
    obtain ⟨Ns, h2, h3, h4⟩ := ih
    obtain ⟨X, hX, hX2, hx⟩ := h1
    have hm : bnChip.modulus = bn254Q := rfl
    rw [hm, size_bn254Q] at hX2
    refine ⟨X :: Ns, ?_, ?_, ?_⟩
    · intro N hN
      rcases List.mem_cons.1 hN with rfl | hN
      · exact hX2
      · exact h2 _ hN
    · rw [List.map_cons, h3]
      exact congrArg (fun y => y :: xs) hx
    · rw [List.flatMap_cons, List.flatMap_cons, List.map_append, ProperOk.enc hX, h4]

/-- What an accepted column of public inputs says. -/
def PairPublic (cols : List (List (ZMod bn254R))) : Prop :=
  ∃ (P0 P1 X0 X1 Y0 Y1 : ℕ) (E : ℕ → ℕ), (P0 < 2 ^ 254 ∧ P1 < 2 ^ 254 ∧ X0 < 2 ^ 254 ∧ X1 < 2 ^ 254 ∧ Y0 < 2 ^ 254 ∧ Y1 < 2 ^ 254 ∧ ∀ i < 12, E i < 2 ^ 254) ∧
    cols = [pairColumn P0 P1 X0 X1 Y0 Y1 E] ∧
    ∃ (C : G1) (A : G2), IsPt (3 : ZMod bn254Q) (P0 : ZMod bn254Q) (P1 : ZMod bn254Q) C ∧
      IsPt g2B (⟨(X0 : ZMod bn254Q), (X1 : ZMod bn254Q)⟩ : Fq2) (⟨(Y0 : ZMod bn254Q), (Y1 : ZMod bn254Q)⟩ : Fq2) A ∧
      (InG2 A → (eAte A C ≠ 1 → fq12Of (fun i => (E i : ZMod bn254Q)) = eAte A C) ∧
        (fq12Of (fun i => (E i : ZMod bn254Q)) = 1 → eAte A C = 1))

theorem R2.coords {w : Cell → ZMod bn254R} {a : List (CrtInt bn254R)} {X : Fq2} (h : R2 w a X) :
    ∃ x0 x1 : ZMod bn254Q, List.Forall₂ (bnLaws.PRep w) a [x0, x1] ∧ X = ⟨x0, x1⟩ := by
  obtain ⟨xs, hx, h, rfl⟩ := h
  obtain ⟨x0, x1, rfl⟩ := list2 hx
  exact ⟨x0, x1, h, Fq2.lin_eq _ _⟩

theorem pairMain_sound (i : PairInput) : Sound (RangeTable bn254R 16) (pairMain i) (fun w r => PairPublic (r.map (List.map (at' w)))) := by
  intro s0
  have f1 : EcFits bnLaws := ecFits_88_3 (by decide +kernel) bnOk
  have l2 : ∀ v s, Snd bnTbl s (loadPoint bnCfg.F2 g2B v) (fun w r _ => ∃ g : G2, E2 w r g) := by
    intro v s
    have := loadPoint_sound bnLaws2 bnLaws2_ecFits g2B (by rw [bnLaws2_val]; exact curveOk_g2) v s
    rw [bnLaws2_val] at this
    exact this
  refine Snd.bind (show Snd bnTbl s0 (loadPoint bnCfg.F (3 : ZMod bn254Q) i.pt) (fun w r _ => ∃ g : G1, E1 w r g) from
      loadPoint_sound bnLaws f1 (3 : ZMod bn254Q) curveOk_bn254 i.pt s0) fun P s1 _ =>
    Snd.bind (l2 i.tw s1) fun Q s2 _ => Snd.bind (pairing_sound Q P s2) fun f s3 _ => Snd.pure ?_
  rintro w - ⟨⟨E0, hE0⟩, hf⟩ ⟨A, hA⟩ ⟨C, hC⟩
  have hA' := hA
  have hC' := hC
  obtain ⟨Xv, Yv, ⟨hX, hY⟩, hAp⟩ := hA
  obtain ⟨x, y, ⟨hx, hy⟩, hCp⟩ := hC
  obtain ⟨x0, x1, hX', rfl⟩ := R2.coords hX
  obtain ⟨y0, y1, hY', rfl⟩ := R2.coords hY
  obtain ⟨e, he, rfl⟩ := is12_iff.2 hE0
  obtain ⟨Ns, hN1, hN2, hN3⟩ := crtLimbs_sound (List.Forall₂.cons hx (.cons hy (List.rel_append hX' (List.rel_append hY' he))))
  have hlen : Ns.length = 18 := by
    have := congrArg List.length hN2
    simpa using this
  obtain ⟨P0, P1, X0, X1, Y0, Y1, Es, rfl⟩ : ∃ P0 P1 X0 X1 Y0 Y1 Es, Ns = P0 :: P1 :: X0 :: X1 :: Y0 :: Y1 :: Es := by
    rcases Ns with _ | ⟨P0, _ | ⟨P1, _ | ⟨X0, _ | ⟨X1, _ | ⟨Y0, _ | ⟨Y1, Es⟩⟩⟩⟩⟩⟩ <;> simp at hlen
    exact ⟨_, _, _, _, _, _, _, rfl⟩
  simp only [List.map_cons, List.cons_append, List.nil_append, List.cons.injEq] at hN2
  obtain ⟨rfl, rfl, rfl, rfl, rfl, rfl, hE⟩ := hN2
  have hEl : Es.length = 12 := by simpa using hlen
  have hEe : Es = (List.range 12).map fun i => Es.getD i 0 := by
    refine List.ext_getElem (by simp [hEl]) fun i h1 h2 => ?_
    simp [List.getD, h1]
  have hEi : ∀ i < 12, ((Es.getD i 0 : ℕ) : ZMod bn254Q) = e i := by
    intro i hi
    have h1 := congrArg (fun l : List (ZMod bn254Q) => l[i]?) hE
    have h2 : i < Es.length := hEl ▸ hi
    simp only [List.getElem?_map, List.getElem?_range hi, Option.map_some, List.getElem?_eq_getElem h2, Option.some.injEq] at h1
    rw [List.getD_eq_getElem _ _ h2]
    exact h1
  have hfq : fq12Of (fun i => ((Es.getD i 0 : ℕ) : ZMod bn254Q)) = fq12Of e := by
    unfold fq12Of
    refine Finset.sum_congr rfl fun i hi => ?_
    have hi := Finset.mem_range.1 hi
    dsimp only
    rw [hEi i (by omega), hEi (i + 6) (by omega)]
  have hb : ∀ N ∈ P0 :: P1 :: X0 :: X1 :: Y0 :: Y1 :: Es, N < 2 ^ 254 := hN1
  refine ⟨P0, P1, X0, X1, Y0, Y1, fun i => Es.getD i 0, ⟨hb _ (by simp), hb _ (by simp), hb _ (by simp), hb _ (by simp), hb _ (by simp), hb _ (by simp), ?_⟩, ?_,
    C, A, hCp, hAp, fun hG => ⟨fun hne => ?_, fun h1 => ?_⟩⟩
  · intro i hi
    have h2 : i < Es.length := hEl ▸ hi
    show Es.getD i 0 < _
    rw [List.getD_eq_getElem _ _ h2]
    exact hb _ (by simp)
  · rw [pairColumn, ← hEe, ← hN3]
    rfl
  · rw [hfq]
    exact hE0.unique ((hf A C hG hA' hC').2 hne)
  · rw [hfq] at h1
    by_contra hne
    exact hne ((hE0.unique ((hf A C hG hA' hC').2 hne)).symm.trans h1)

theorem pairCircuit_sound (i : PairInput) : PSound (fun x => tbl16 [x]) (pairCircuit i) (fun w r => PairPublic (r.map (List.map (at' w)))) := by
  rw [tbl16_range]
  exact onMain_sound (pairMain_sound i)

/-- **C89** (soundness) An assignment of the physical circuit that satisfies every constraint shows that the public inputs are the limbs of a point of
the curve, of a point of the twist and, if the latter is of order `r` and the pairing is not `1`, of their pairing (if the limbs are those of `1`, so is
the pairing). -/
theorem C89_pairing_sound {phase : ℕ} {typeId : String} {cfg : Cfg} (hmx : 4 ≤ cfg.maxRows) {i0 : PairInput} {sizes : List ℕ} {reg : Region bn254R}
    {map : CellMap} {bps : List ℕ} (hk : Keygen pairCircuit phase typeId cfg i0 sizes reg map bps) {v : PCell → ZMod bn254R}
    (hv : Phys.PSat cfg tbl16 1 reg v) :
    ∃ (P0 P1 X0 X1 Y0 Y1 : ℕ) (E : ℕ → ℕ), (P0 < 2 ^ 254 ∧ P1 < 2 ^ 254 ∧ X0 < 2 ^ 254 ∧ X1 < 2 ^ 254 ∧ Y0 < 2 ^ 254 ∧ Y1 < 2 ^ 254 ∧ ∀ i < 12, E i < 2 ^ 254) ∧
      publicInputs sizes v = [pairColumn P0 P1 X0 X1 Y0 Y1 E] ∧
      ∃ (C : G1) (A : G2), IsPt (3 : ZMod bn254Q) (P0 : ZMod bn254Q) (P1 : ZMod bn254Q) C ∧
        IsPt g2B (⟨(X0 : ZMod bn254Q), (X1 : ZMod bn254Q)⟩ : Fq2) (⟨(Y0 : ZMod bn254Q), (Y1 : ZMod bn254Q)⟩ : Fq2) A ∧
        (InG2 A → (eAte A C ≠ 1 → fq12Of (fun i => (E i : ZMod bn254Q)) = eAte A C) ∧
          (fq12Of (fun i => (E i : ZMod bn254Q)) = 1 → eAte A C = 1)) :=
  C77_accepted_sound pairCircuit_lib hmx hk (pairCircuit_sound i0) hv

/-! ### Completeness -/

theorem crtLimbs_con {ext : Cell → ZMod bn254R} {s : Ctx bn254R} {l : List (CrtInt bn254R)} {xs : List (ZMod bn254Q)} (h : List.Forall₂ (bnChip.pW ext s) l xs) :
    AvsCon ext s (l.flatMap fun c => c.trunc.limbs) ((xs.map ZMod.val).flatMap enc3) := by
  induction h with
  | nil => exact .nil
  | cons h1 _ ih =>
    rw [List.flatMap_cons, List.map_cons, List.flatMap_cons]
    exact List.rel_append (ProperW.encCon h1) ih

theorem fq12Of_eq (E : ℕ → ZMod bn254Q) : fq12Of E = lin (K := ZMod bn254Q) (basis12 Fq12.u Fq12.w) ((List.range 12).map E) := by
  unfold fq12Of
  simp [Finset.sum_range_succ, lin, basis12, List.range_succ]
  ring

/-- The twelve coefficients are unique. -/
theorem fq12Of_inj {E E' : ℕ → ZMod bn254Q} (h : fq12Of E = fq12Of E') : ∀ i < 12, E i = E' i := by
  rw [fq12Of_eq, fq12Of_eq] at h
  have := Fq12.basis.indep ((List.range 12).map E) ((List.range 12).map E') rfl rfl h
  intro i hi
  have h1 := congrArg (fun l : List (ZMod bn254Q) => l[i]?) this
  simpa [hi] using h1

/-- Every element of `Fq12` has coefficients. -/
theorem exists_fq12Of (X : Fq12) : ∃ E, X = fq12Of E := by
  obtain ⟨xs, hx, rfl⟩ := Fq12.span X
  refine ⟨fun i => xs.getD i 0, ?_⟩
  rw [fq12Of_eq]
  show lin _ xs = lin _ _
  congr 1
  have hl : xs.length = 12 := hx
  refine List.ext_getElem (by simp [hl]) fun i h1 h2 => ?_
  simp [List.getD, h1]

/-- The conditions of an honest run: a point of the curve, a point of order `r` of the twist, and the compressed powers of the final exponentiation can be
decompressed (C75). -/
structure PairHonest (pt : ZMod bn254Q × ZMod bn254Q) (tw : Fq2 × Fq2) (C : G1) (A : G2) : Prop where
  pt : IsPt (3 : ZMod bn254Q) pt.1 pt.2 C
  tw : IsPt g2B tw.1 tw.2 A
  sub : InG2 A
  dec : HardDecompressible (fAte A C)

/-- The column of public inputs of an honest run. -/
noncomputable def pairColumnOf (pt : ZMod bn254Q × ZMod bn254Q) (tw : Fq2 × Fq2) (E : ℕ → ZMod bn254Q) : List (ZMod bn254R) :=
  pairColumn pt.1.val pt.2.val tw.1.re.val tw.1.im.val tw.2.re.val tw.2.im.val fun i => (E i).val

theorem pairMain_cmp {pt : ZMod bn254Q × ZMod bn254Q} {tw : Fq2 × Fq2} {C : G1} {A : G2} (h : PairHonest pt tw C A) {E : ℕ → ZMod bn254Q}
    (hE : eAte A C = fq12Of E) {ext : Cell → ZMod bn254R} {st : Ctx bn254R} :
    Cmp (RangeTable bn254R 16) ext st (pairMain ⟨pt, tw⟩) (fun o s' => o = [o.headD []] ∧ AvsCon ext s' (o.headD []) (pairColumnOf pt tw E)) := by
  refine Cmp.bind (show Cmp bnTbl ext st (loadPoint bnCfg.F (3 : ZMod bn254Q) pt) (fun r s' => G1W ext s' r C) from
    loadPoint_cmp (k := bnCmp) (ecFitsC_88_3 (by decide +kernel) bnCmpOk) (3 : ZMod bn254Q) (v := pt) h.pt) fun P s1 e1 h1 => ?_
  refine Cmp.bind (show Cmp bnTbl ext s1 (loadPoint bnCfg.F2 g2B tw) (fun r s' => G2W ext s' r A) from
    g2Load_cmp (extFieldOf_coeffs _ _ _) h.tw) fun Q s2 e2 h2 => ?_
  replace h1 := h1.mono e2
  refine Cmp.bind (pairing_cmp h.sub h2 h1 h.dec.hd) fun f s3 e3 h3 => Cmp.pure ⟨rfl, ?_⟩
  replace h1 := h1.mono e3
  replace h2 := h2.mono e3
  obtain ⟨x, y, hx, hy, hP⟩ := h1.elim
  obtain ⟨X, Y, hX, hY, hQ⟩ := h2.elim
  obtain ⟨rfl, rfl⟩ := IsPt.coords hP h.pt
  obtain ⟨rfl, rfl⟩ := IsPt.coords hQ h.tw
  obtain ⟨a0, a1, ha, b0, b1⟩ := fp2W_iff.2 hX
  obtain ⟨c0, c1, hc, d0, d1⟩ := fp2W_iff.2 hY
  obtain ⟨e, he, hee⟩ := fp12W_iff.2 h3
  have hE' : (List.range 12).map e = (List.range 12).map E := by
    refine List.map_congr_left fun i hi => ?_
    exact fq12Of_inj (E := e) (E' := E) (hee.symm.trans hE) i (List.mem_range.1 hi)
  replace he : List.Forall₂ (bnChip.pW ext s3) f ((List.range 12).map E) := Eq.mp (congrArg (List.Forall₂ (bnChip.pW ext s3) f) hE') he
  have key := crtLimbs_con (List.Forall₂.cons hx (.cons hy (List.rel_append (List.Forall₂.cons b0 (.cons b1 .nil)) (List.rel_append (List.Forall₂.cons d0 (.cons d1 .nil)) he))))
  rw [← ha, ← hc] at key
  have e4 : pairColumnOf pt tw E = (List.map ZMod.val (pt.1 :: pt.2 :: ([tw.1.re, tw.1.im] ++ ([tw.2.re, tw.2.im] ++ (List.range 12).map E)))).flatMap enc3 := by
    simp only [pairColumnOf, pairColumn, List.map_cons, List.cons_append, List.nil_append, List.map_map]
    rfl
  rw [e4]
  exact key

theorem pairCircuit_cmp {pt : ZMod bn254Q × ZMod bn254Q} {tw : Fq2 × Fq2} {C : G1} {A : G2} (h : PairHonest pt tw C A) {E : ℕ → ZMod bn254Q}
    (hE : eAte A C = fq12Of E) {ext : Cell → ZMod bn254R} {phase : ℕ} {ty : String} :
    PCompletes (fun x => tbl16 [x]) ext ⟨false, phase, ty, []⟩ (pairCircuit ⟨pt, tw⟩) (fun w o => o.map (List.map (at' w)) = [pairColumnOf pt tw E]) := by
  rw [tbl16_range]
  exact onMain_column fun _ _ => pairMain_cmp h hE

/-- **C89** (completeness) For every point of the curve and every point of order `r` of the twist (whose powers can be decompressed, C75), what the prover writes
satisfies the circuit made by key generation from any other input, with the limbs of the points and of their pairing as public inputs. -/
theorem C89_pairing_proof_accepted {phase : ℕ} {typeId : String} {cfg : Cfg} (hmx : 4 ≤ cfg.maxRows) {i0 : PairInput} {sizes : List ℕ} {reg : Region bn254R}
    {map : CellMap} {bps : List ℕ} (hk : Keygen pairCircuit phase typeId cfg i0 sizes reg map bps) {pt : ZMod bn254Q × ZMod bn254Q} {tw : Fq2 × Fq2} {C : G1} {A : G2}
    (hpt : IsPt (3 : ZMod bn254Q) pt.1 pt.2 C) (htw : IsPt g2B tw.1 tw.2 A) (hA : InG2 A) (hd : HardDecompressible (fAte A C)) {E : ℕ → ZMod bn254Q}
    (hE : eAte A C = fq12Of E) :
    (∃ ws, ProverWrites pairCircuit phase typeId cfg bps ⟨pt, tw⟩ ws) ∧
      ∀ ws, ProverWrites pairCircuit phase typeId cfg bps ⟨pt, tw⟩ ws →
        ws.map Prod.fst = reg.writes.map Prod.fst ∧
        Phys.PSat cfg tbl16 1 reg (proofAssignment ws reg.fixed [pairColumn pt.1.val pt.2.val tw.1.re.val tw.1.im.val tw.2.re.val tw.2.im.val fun i => (E i).val]) :=
  C77_proof_accepted pairCircuit_lib hmx hk ⟨0, rfl, 0, by norm_num, by simp⟩ (ext := fun _ => 0) (pairCircuit_cmp ⟨hpt, htw, hA, hd⟩ hE)

/-! ### Key generation -/

theorem pairMain_eo (i : PairInput) : EqOwn (pairMain i) := by
  unfold pairMain
  refine EqOwn.bind (loadPoint_eo _ _ _) fun _ => EqOwn.bind (loadPoint_eo _ _ _) fun _ => EqOwn.bind («PairCfg.pairing_eo» _ _ _) fun _ => EqOwn.pure _

theorem pair_mainRun {i : PairInput} {C : G1} {A : G2} (h : PairHonest i.pt i.tw C A) (phase : ℕ) (ty : String) :
    ∃ outs s, MainRun (pairMain i) phase ty outs s ∧ outs.map List.length = [54] := by
  obtain ⟨E, hE⟩ := exists_fq12Of (eAte A C)
  obtain ⟨outs, s, h1, h2⟩ := mainRun (tbl := RangeTable bn254R 16) (phase := phase) (ty := ty) (cols := [pairColumnOf i.pt i.tw E])
    (pairMain_eo i) (pairMain_rel (i := i) (j := i) fun _ => rfl).keeps not_tbl16 fun x => by
      obtain ⟨o, s', e1, e2, e3, e4, e5, e6⟩ := (pairMain_cmp h hE (ext := fun _ => x) (st := Ctx.new false phase ty 0 [] [])).run (good_new _ _ _)
      refine ⟨o, s', e1, e2, e3, e4, ?_⟩
      rw [e5]
      exact .cons e6 .nil
  exact ⟨outs, s, h1, h2⟩

theorem pair_shape {i j : PairInput} {phase : ℕ} {ty : String} {o o' : List (List (AV bn254R))} {s t : Ctx bn254R}
    (h : MainRun (pairMain i) phase ty o s) (h' : MainRun (pairMain j) phase ty o' t) : H2.SameShape s t :=
  ((pairMain_rel (k := false) (i := i) (j := j) (by simp)).shape (R := fun _ _ => True) (fun _ _ _ => trivial)
    _ _ (by refine ⟨rfl, rfl, rfl, rfl, rfl, rfl, rfl, rfl, rfl, rfl⟩) _ _ _ _ h.run h'.run).1

/-- C89 (key generation): as `C87_keygen_succeeds`. -/
theorem C89_keygen_succeeds (phase : ℕ) (ty : String) :
    ∃ cells consts lookups : ℕ, ∀ cfg : Cfg, 4 ≤ cfg.maxRows → (cells - 1) / (cfg.maxRows - 3) < cfg.ncols → consts ≤ cfg.nfixed * cfg.usable →
      lookups ≤ cfg.nsets * cfg.usable → cfg.qLookup = false → cfg.withRange = true →
      ∀ (i0 : PairInput) (C : G1) (A : G2), PairHonest i0.pt i0.tw C A → ∃ reg map bps, Keygen pairCircuit phase ty cfg i0 [54] reg map bps := by
  by_cases hex : ∃ (i : PairInput) (C : G1) (A : G2), PairHonest i.pt i.tw C A
  · obtain ⟨i, C, A, hi⟩ := hex
    obtain ⟨o, s, hr, -⟩ := pair_mainRun hi phase ty
    refine ⟨s.advice.length, (s.consts.map Prod.fst).toFinset.card, s.lookups.length, fun cfg h1 h2 h3 h4 h5 h6 i0 C0 A0 hi0 => ?_⟩
    obtain ⟨o', t, hr', hs'⟩ := pair_mainRun hi0 phase ty
    have hsh := pair_shape hr hr'
    rw [← hs']
    have hl := congrArg List.length hsh.lookups
    rw [List.length_map, List.length_map] at hl
    exact C57_main_circuit_keygen (f := pairMain) hr' h1 (by rw [← hsh.len]; exact h2) (by rw [← hsh.consts]; exact h3) (by rw [← hl]; exact h4) h5 h6
  · exact ⟨0, 0, 0, fun cfg _ _ _ _ _ _ i0 C A h => absurd ⟨i0, C, A, h⟩ hex⟩

/-- An honest input: the generators. -/
theorem pairHonest_example : ∃ (C : G1) (A : G2), PairHonest (((1 : ℕ) : ZMod bn254Q), ((2 : ℕ) : ZMod bn254Q)) (q2 g2Gen.1, q2 g2Gen.2) C A ∧ eAte A C ≠ 1 := by
  obtain ⟨A, hA⟩ := g2Gen_pt
  obtain ⟨C, hC⟩ := bn254G_pt
  exact ⟨C, A, ⟨hC, hA, g2Gen_inG2 hA, C75_generators hA hC⟩, (C64_generators hA hC).1⟩

/-- C89 together: on every configuration with the columns for it there is one circuit for which every honest prover makes an accepted proof, whose public inputs are
the limbs of the points and of their pairing. -/
theorem C89_pipeline (phase : ℕ) (ty : String) :
    ∃ cells consts lookups : ℕ, ∀ cfg : Cfg, 4 ≤ cfg.maxRows → (cells - 1) / (cfg.maxRows - 3) < cfg.ncols → consts ≤ cfg.nfixed * cfg.usable →
      lookups ≤ cfg.nsets * cfg.usable → cfg.qLookup = false → cfg.withRange = true →
      ∃ i0 reg map bps, Keygen pairCircuit phase ty cfg i0 [54] reg map bps ∧
        ∀ (pt : ZMod bn254Q × ZMod bn254Q) (tw : Fq2 × Fq2) (C : G1) (A : G2), PairHonest pt tw C A → ∀ E, eAte A C = fq12Of E →
          ∃ ws v, ProverWrites pairCircuit phase ty cfg bps ⟨pt, tw⟩ ws ∧ v = proofAssignment ws reg.fixed [pairColumnOf pt tw E] ∧
            Phys.PSat cfg tbl16 1 reg v ∧ publicInputs [54] v = [pairColumnOf pt tw E] := by
  obtain ⟨n1, n2, n3, hN⟩ := C89_keygen_succeeds phase ty
  refine ⟨n1, n2, n3, fun cfg h1 h2 h3 h4 h5 h6 => ?_⟩
  obtain ⟨C0, A0, hg, -⟩ := pairHonest_example
  obtain ⟨reg, map, bps, hk⟩ := hN cfg h1 h2 h3 h4 h5 h6 ⟨_, _⟩ C0 A0 hg
  refine ⟨_, reg, map, bps, hk, fun pt tw C A hh E hE => ?_⟩
  have h0 : tbl16 [0] := ⟨0, rfl, 0, by norm_num, by simp⟩
  obtain ⟨⟨ws, hws⟩, hacc⟩ := C77_proof_accepted pairCircuit_lib h1 hk h0 (ext := fun _ => 0) (pairCircuit_cmp hh hE)
  exact ⟨ws, _, hws, rfl, (hacc ws hws).2, public_proof _ _ _⟩

/-- The circuit has a key and an accepted proof for the generators, whose pairing is not `1`. -/
example : ∃ cfg i0 reg map bps ws v C A, Keygen pairCircuit 0 "main" cfg i0 [54] reg map bps ∧
    PairHonest (((1 : ℕ) : ZMod bn254Q), ((2 : ℕ) : ZMod bn254Q)) (q2 g2Gen.1, q2 g2Gen.2) C A ∧ eAte A C ≠ 1 ∧
    ProverWrites pairCircuit 0 "main" cfg bps ⟨(((1 : ℕ) : ZMod bn254Q), ((2 : ℕ) : ZMod bn254Q)), (q2 g2Gen.1, q2 g2Gen.2)⟩ ws ∧
    Phys.PSat cfg tbl16 1 reg v := by
  obtain ⟨n1, n2, n3, hN⟩ := C89_pipeline 0 "main"
  obtain ⟨i0, reg, map, bps, hk, hp⟩ := hN ⟨true, n1 + 1, n2 + 1, n3 + 1, false, 4, 1⟩ (by norm_num) (by simp) (by simp) (by simp) rfl rfl
  obtain ⟨C, A, hg, hne⟩ := pairHonest_example
  obtain ⟨E, hE⟩ := exists_fq12Of (eAte A C)
  obtain ⟨ws, v, h1, -, h2, -⟩ := hp _ _ _ _ hg E hE
  exact ⟨_, i0, reg, map, bps, ws, v, C, A, hk, hg, hne, h1, h2⟩

end H2
