import Verif.Pairing.CompleteMiller
import Verif.Pairing.CompletePow
import Verif.Pairing.SoundPairing
import Verif.Props.CompleteExt

/-!
# Completeness of `PairingChip::pairing`, `PairingChip::pairing_check` and `bls_signature_verify`
-/

set_option autoImplicit false
set_option linter.unusedSectionVars false
namespace H2
open PairCfg

variable {ext : Cell → ZMod bn254R} {s s' : Ctx bn254R} {a b : List (CrtInt bn254R)}

theorem G1W.ne_zero {P : EcPt bnCfg.F} {C : G1} (h : G1W ext s P C) : C ≠ 0 := by
  obtain ⟨X, Y, -, i⟩ := h
  exact i.ne_zero

theorem pairing_cmp {Q : EcPt bnCfg.F2} {P : EcPt bnCfg.F} {A : G2} {C : G1} (hA : InG2 A) (hQ : G2W ext s Q A) (hP : G1W ext s P C)
    (hk : HardDec (fAte A C ^ ((bn254Q ^ 6 - 1) * (bn254Q ^ 2 + 1)))) :
    Cmp bnTbl ext s (bnCfg.pairing Q P) (fun r s' => HN12 ext s' r (eAte A C)) := by
  unfold pairing
  refine Cmp.bind (millerLoop_cmp hA hQ hP) fun f s1 _ hf => ?_
  exact finalExp_cmp hf (fAte_ne hA hP.ne_zero) hk

theorem prod2 {A B : G2} {C D : G1} : ([(A, C), (B, D)].map fun x : G2 × G1 => fAte x.1 x.2).prod = fAte A C * fAte B D := by
  rw [List.map_cons, List.map_cons, List.map_nil, List.prod_cons, List.prod_cons, List.prod_nil, mul_one]

/-- The multi Miller loop of two pairs, and the final exponentiation. -/
theorem pair2_cmp {Q T : EcPt bnCfg.F2} {P S : EcPt bnCfg.F} {A B : G2} {C D : G1} (hA : InG2 A) (hB : InG2 B)
    (hQ : G2W ext s Q A) (hP : G1W ext s P C) (hT : G2W ext s T B) (hS : G1W ext s S D)
    (hk : HardDec ((fAte A C * fAte B D) ^ ((bn254Q ^ 6 - 1) * (bn254Q ^ 2 + 1)))) {α : Type} {f : List (CrtInt bn254R) → M bn254R α}
    {R : α → Ctx bn254R → Prop}
    (k : ∀ fe s1, Ext s s1 → HN12 ext s1 fe (eAte A C * eAte B D) → Cmp bnTbl ext s1 (f fe) R) :
    Cmp bnTbl ext s (bnCfg.multiMillerLoop [(P, Q), (S, T)] sixUPlus2Naf >>= fun mml => bnCfg.finalExp mml >>= f) R := by
  have hm := multiMillerLoop_cmp (pairs := [(P, Q), (S, T)]) (L := [(A, C), (B, D)]) (ext := ext) (s := s)
    (.cons ⟨hP, hQ⟩ (.cons ⟨hS, hT⟩ .nil)) (by simp) (by
      intro x hx
      simp only [List.mem_cons, List.not_mem_nil, or_false] at hx
      rcases hx with rfl | rfl <;> assumption)
  refine Cmp.bind hm fun m s1 e1 h1 => ?_
  have hk' : HardDec (([(A, C), (B, D)].map fun x : G2 × G1 => fAte x.1 x.2).prod ^ ((bn254Q ^ 6 - 1) * (bn254Q ^ 2 + 1))) := by
    rw [prod2]
    exact hk
  have hf := finalExp_cmp h1 (pair2_ne hA hB hP.ne_zero hS.ne_zero) hk'
  rw [pair2_pow] at hf
  exact Cmp.bind hf fun fe s2 e2 h2 => k fe s2 (e1.trans e2) h2

theorem pairingCheck_cmp {Q T : EcPt bnCfg.F2} {P S : EcPt bnCfg.F} {A B : G2} {C D : G1} (hA : InG2 A) (hB : InG2 B)
    (hQ : G2W ext s Q A) (hP : G1W ext s P C) (hT : G2W ext s T B) (hS : G1W ext s S D) (he : eAte A C = eAte B D)
    (hk : HardDec ((fAte A (-C) * fAte B D) ^ ((bn254Q ^ 6 - 1) * (bn254Q ^ 2 + 1)))) :
    Cmp bnTbl ext s (bnCfg.pairingCheck Q P T S) (fun _ _ => True) := by
  unfold pairingCheck
  refine Cmp.bind (ecNegate1_cmp hP) fun nP s1 e1 h1 => ?_
  refine pair2_cmp hA hB (hQ.mono e1) h1 (hT.mono e1) (hS.mono e1) hk fun fe s2 e2 h2 => ?_
  rw [eAte_negP hA hP.ne_zero, he, inv_mul_cancel₀ (eAte_ne hB hS.ne_zero)] at h2
  refine Cmp.bind (g12_loadConstant 1) fun one s3 e3 h3 => ?_
  exact bnCmp12.assertEqual (h2.mono e3) h3

/-- Loads of a list of points. -/
theorem loads1_cmp {vs : List (ZMod bn254Q × ZMod bn254Q)} {gs : List G1} (h : vs.Forall₂ (fun v g => IsPt (3 : ZMod bn254Q) v.1 v.2 g) gs) :
    Cmp bnTbl ext s (mapList (loadPoint bnCfg.F (3 : ZMod bn254Q)) vs) (fun rs s' => rs.Forall₂ (G1W ext s') gs) := by
  refine (mapList_cmp (S := fun _ (v : ZMod bn254Q × ZMod bn254Q) (g : G1) => IsPt (3 : ZMod bn254Q) v.1 v.2 g)
    (T := fun s r (g : G1) => G1W ext s r g) (g := id) (fun _ _ _ _ h _ => h) (fun _ _ _ _ h e => h.mono e) ?_ h).weaken fun rs s' h => ?_
  · intro s v g hv
    exact loadPoint_cmp (k := bnCmp) (ecFitsC_88_3 (by decide +kernel) bnCmpOk) (3 : ZMod bn254Q) (v := v) hv
  · rwa [List.map_id] at h

theorem loads2_cmp {vs : List (Fq2 × Fq2)} {gs : List G2} (h : vs.Forall₂ (fun v g => IsPt g2B v.1 v.2 g) gs) :
    Cmp bnTbl ext s (mapList (loadPoint bnCfg.F2 g2B) vs) (fun rs s' => rs.Forall₂ (G2W ext s') gs) := by
  refine (mapList_cmp (S := fun _ (v : Fq2 × Fq2) (g : G2) => IsPt g2B v.1 v.2 g)
    (T := fun s r (g : G2) => G2W ext s r g) (g := id) (fun _ _ _ _ h _ => h) (fun _ _ _ _ h e => h.mono e) ?_ h).weaken fun rs s' h => ?_
  · intro s v g hv
    exact g2Load_cmp (extFieldOf_coeffs _ _ _) hv
  · rwa [List.map_id] at h

theorem ecSum1_cmp {v : ZMod bn254Q × ZMod bn254Q} {g : G1} (hv : IsPt (3 : ZMod bn254Q) v.1 v.2 g) {Ps : List (EcPt bnCfg.F)} {gs : List G1}
    (hs : Ps.Forall₂ (G1W ext s) gs) (ho : SumOk g gs) (n1 : g + gs.sum ≠ g) (n2 : g + gs.sum ≠ -g) :
    Cmp bnTbl ext s (ecSum bnCfg.F (3 : ZMod bn254Q) v Ps) (fun r s' => G1W ext s' r gs.sum) :=
  ecSum_cmp (k := bnCmp) (ecFitsC_88_3 (by decide +kernel) bnCmpOk) (3 : ZMod bn254Q) (v := v) hv hs ho n1 n2

theorem ecSum2_aux {bv b : Fq2} (hb : bnLaws2.val bv = b) {v : Fq2 × Fq2} {g : ECurve b} (hv : IsPt b v.1 v.2 g) {Ps : List (EcPt bnCfg.F2)}
    {gs : List (ECurve b)} (hs : Ps.Forall₂ (EcW bnCmp2 b ext s) gs) (ho : SumOk g gs) (n1 : g + gs.sum ≠ g) (n2 : g + gs.sum ≠ -g) :
    Cmp bnTbl ext s (ecSum bnCfg.F2 bv v Ps) (fun r s' => EcW bnCmp2 b ext s' r gs.sum) := by
  subst hb
  have hv' : ∀ v : Fq2, bnLaws2.val v = v := fun v => extFieldOf_coeffs _ _ v
  exact ecSum_cmp bnCmp2_ecFits bv (v := v) (by rw [hv' v.1, hv' v.2]; exact hv) hs ho n1 n2

theorem ecSum2_cmp {v : Fq2 × Fq2} {g : G2} (hv : IsPt g2B v.1 v.2 g) {Ps : List (EcPt bnCfg.F2)} {gs : List G2}
    (hs : Ps.Forall₂ (G2W ext s) gs) (ho : SumOk g gs) (n1 : g + gs.sum ≠ g) (n2 : g + gs.sum ≠ -g) :
    Cmp bnTbl ext s (ecSum bnCfg.F2 g2B v Ps) (fun r s' => G2W ext s' r gs.sum) :=
  ecSum2_aux (extFieldOf_coeffs _ _ _) hv hs ho n1 n2

/-- `bls_signature_verify`. -/
theorem blsRun_cmp (x : bnCfg.BlsArgs) (h1 : x.b1 = (3 : ZMod bn254Q)) (h2 : x.b2 = g2B) {G R1 : G1} {H R2 : G2} {σs : List G2} {ks : List G1}
    (hG : IsPt (3 : ZMod bn254Q) (show ZMod bn254Q from x.g1.1) (show ZMod bn254Q from x.g1.2) G)
    (hH : IsPt g2B (show Fq2 from x.msghash.1) (show Fq2 from x.msghash.2) H)
    (hσ : List.Forall₂ (fun (v : Fq2 × Fq2) g => IsPt g2B v.1 v.2 g) x.signatures σs)
    (hk : List.Forall₂ (fun (v : ZMod bn254Q × ZMod bn254Q) g => IsPt (3 : ZMod bn254Q) v.1 v.2 g) x.pubkeys ks)
    (hR1 : IsPt (3 : ZMod bn254Q) (show ZMod bn254Q from x.rand1.1) (show ZMod bn254Q from x.rand1.2) R1)
    (hR2 : IsPt g2B (show Fq2 from x.rand2.1) (show Fq2 from x.rand2.2) R2)
    (hl : σs.length = ks.length) (hne : σs ≠ []) (hs2 : SumOk R2 σs) (n21 : R2 + σs.sum ≠ R2) (n22 : R2 + σs.sum ≠ -R2)
    (hs1 : SumOk R1 ks) (n11 : R1 + ks.sum ≠ R1) (n12 : R1 + ks.sum ≠ -R1) (iH : InG2 H) (iS : InG2 σs.sum)
    (hd : HardDec ((fAte (-σs.sum) G * fAte H ks.sum) ^ ((bn254Q ^ 6 - 1) * (bn254Q ^ 2 + 1)))) :
    Cmp bnTbl ext s (bnCfg.blsRun x) (fun r s' => Con ext s' r.1 (bit (eAte σs.sum G = eAte H ks.sum)) ∧ G1W ext s' r.2.1 G ∧
      G2W ext s' r.2.2.1 H ∧ r.2.2.2.1.Forall₂ (G2W ext s') σs ∧ r.2.2.2.2.Forall₂ (G1W ext s') ks) := by
  obtain ⟨b1, b2, rand1, rand2, g1, sigs, pks, hm⟩ := x
  dsimp only at h1 h2 hG hH hσ hk hR1 hR2
  subst h1 h2
  have ls := hσ.length_eq
  have lk := hk.length_eq
  have hnk : ks ≠ [] := by
    rintro rfl
    exact hne (List.length_eq_zero_iff.1 hl)
  unfold blsRun
  dsimp only
  refine Cmp.assert (beq_iff_eq.2 (ls.trans (hl.trans lk.symm))) ?_
  refine Cmp.assert (by
    have : sigs ≠ [] := by
      rintro rfl
      exact hne (List.length_eq_zero_iff.1 ls.symm)
    simpa using this) ?_
  refine Cmp.assert (by
    have : pks ≠ [] := by
      rintro rfl
      exact hnk (List.length_eq_zero_iff.1 lk.symm)
    simpa using this) ?_
  refine Cmp.bind (show Cmp bnTbl ext s (loadPoint bnCfg.F (3 : ZMod bn254Q) g1) (fun r s' => G1W ext s' r G) from
    loadPoint_cmp (k := bnCmp) (ecFitsC_88_3 (by decide +kernel) bnCmpOk) (3 : ZMod bn254Q) (v := g1) hG) fun g s1 e1 h1 => ?_
  refine Cmp.bind (show Cmp bnTbl ext s1 (loadPoint bnCfg.F2 g2B hm) (fun r s' => G2W ext s' r H) from
    g2Load_cmp (extFieldOf_coeffs _ _ _) hH) fun h s2 e2 h2 => ?_
  refine Cmp.bind (loads2_cmp hσ) fun ss s3 e3 h3 => ?_
  refine Cmp.bind (ecSum2_cmp hR2 h3 hs2 n21 n22) fun sg s4 e4 h4 => ?_
  refine Cmp.bind (loads1_cmp hk) fun ps s5 e5 h5 => ?_
  refine Cmp.bind (ecSum1_cmp hR1 h5 hs1 n11 n12) fun pk s6 e6 h6 => ?_
  obtain ⟨X, Y, ⟨hX, hY⟩, hpt⟩ := h4.mono (e5.trans e6)
  refine Cmp.bind (show Cmp bnTbl ext s6 (bnCfg.F12.negate sg.y) (fun r s' => HN2 ext s' r (-Y)) from bnCmp2.negate hY) fun ny s7 e7 h7 => ?_
  have hn : G2W ext s7 ⟨sg.x, ny⟩ (-σs.sum) := ⟨X, -Y, ⟨HN2.mono hX e7, h7⟩, hpt.neg⟩
  have e17 := e2.trans (e3.trans (e4.trans (e5.trans (e6.trans e7))))
  have e27 := e3.trans (e4.trans (e5.trans (e6.trans e7)))
  refine pair2_cmp iS.neg iH hn (h1.mono e17) (h2.mono e27) (h6.mono e7) hd fun fe s8 e8 h8 => ?_
  rw [eAte_negQ iS (h1.ne_zero)] at h8
  refine Cmp.bind (g12_loadConstant 1) fun one s9 e9 h9 => ?_
  refine Cmp.bind (bnCmp12.isEqual (h8.mono e9) h9) fun bt s10 e10 h10 => ?_
  refine Cmp.pure ⟨?_, h1.mono (e17.trans (e8.trans (e9.trans e10))), h2.mono (e27.trans (e8.trans (e9.trans e10))), ?_, ?_⟩
  · have hiff : (eAte σs.sum G)⁻¹ * eAte H ks.sum = 1 ↔ eAte σs.sum G = eAte H ks.sum := inv_mul_eq_one₀ (eAte_ne iS h1.ne_zero)
    have e : bit ((eAte σs.sum G)⁻¹ * eAte H ks.sum = 1) = (bit (eAte σs.sum G = eAte H ks.sum) : ZMod bn254R) := by
      unfold bit
      simp only [hiff]
    exact e ▸ h10
  · exact h3.imp fun _ _ h => h.mono (e4.trans (e5.trans (e6.trans (e7.trans (e8.trans (e9.trans e10))))))
  · exact h5.imp fun _ _ h => h.mono (e6.trans (e7.trans (e8.trans (e9.trans e10))))

end H2
