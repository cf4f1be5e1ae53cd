import Verif.Pairing.SoundMulti
import Verif.Pairing.SpecLemmas
import Verif.Pairing.WellFormed

/-!
# Soundness of `PairingChip::pairing`, `PairingChip::pairing_check` and `bls_signature_verify`
-/

set_option autoImplicit false
set_option linter.unusedSectionVars false
set_option linter.unusedVariables false
namespace H2
open PairCfg

theorem bnLaws2_val (v : Fq2) : bnLaws2.val v = v := by
  obtain ⟨h1, h2⟩ := Classical.choose_spec (Fq2.span v)
  show lin Fq2.basis.e ((Classical.choose (Fq2.span v)).map fun x => x) = v
  rw [List.map_id']
  exact h2.symm

theorem bnLaws12_val (v : Fq12) : bnLaws12.val v = v := by
  obtain ⟨h1, h2⟩ := Classical.choose_spec (Fq12.span v)
  show lin Fq12.basis.e ((Classical.choose (Fq12.span v)).map fun x => x) = v
  rw [List.map_id']
  exact h2.symm

theorem load12 (v : Fq12) : Sound bnTbl (bnCfg.F12.loadConstant v) (fun w r => R12 w r v) := by
  intro s
  refine (bnLaws12.loadConstant v s).weaken fun w r _ h => ?_
  have h' := bnLaws12.r_p _ _ _ h
  rwa [bnLaws12_val] at h'

theorem Snd.and {α : Type} {tbl : ZMod bn254R → Prop} {s : Ctx bn254R} {m : M bn254R α} {Q R : (Cell → ZMod bn254R) → α → Ctx bn254R → Prop}
    (h1 : Snd tbl s m Q) (h2 : Snd tbl s m R) : Snd tbl s m (fun w r s' => Q w r s' ∧ R w r s') := by
  intro hi r s' he
  obtain ⟨a1, a2, a3⟩ := h1 hi r s' he
  exact ⟨a1, a2, fun w hw => ⟨a3 w hw, (h2 hi r s' he).2.2 w hw⟩⟩

/-- A point of `EcRep` is not the point at infinity. -/
theorem E1.ne_zero {w : Cell → ZMod bn254R} {P : EcPt bnCfg.F} {g : G1} (h : E1 w P g) : g ≠ 0 := by
  obtain ⟨X, Y, -, i⟩ := h
  exact i.ne_zero

/-- `pairing`: the Miller loop and the final exponentiation. -/
theorem pairing_sound (Q : EcPt bnCfg.F2) (P : EcPt bnCfg.F) : Sound bnTbl (bnCfg.pairing Q P) (fun w r => W12 w r ∧
    ∀ A C, InG2 A → E2 w Q A → E1 w P C →
      (HardOk (fAte A C ^ ((bn254Q ^ 6 - 1) * (bn254Q ^ 2 + 1))) → R12 w r (eAte A C)) ∧ (eAte A C ≠ 1 → R12 w r (eAte A C))) := by
  intro s
  refine Snd.bind (millerLoop_sound Q P s) fun f0 s1 _ => ((finalExp_sound f0 s1).and (finalExp_wf f0 s1)).weaken ?_
  rintro w r _ ⟨h2, h3⟩ h1
  refine ⟨h3, fun A C hA hQ hP => ?_⟩
  exact h2 _ (h1 A C hA hQ hP) (fAte_ne hA (E1.ne_zero hP))

/-- The two-pair Miller loop with a final exponentiation. -/
theorem pair2_pow {A B : G2} {C D : G1} : ([(A, C), (B, D)].map fun x : G2 × G1 => fAte x.1 x.2).prod ^ finalE = eAte A C * eAte B D := by
  rw [prod_map_pow, List.map_cons, List.map_cons, List.map_nil, List.prod_cons, List.prod_cons, List.prod_nil, mul_one]
  rfl

theorem pair2_ne {A B : G2} {C D : G1} (hA : InG2 A) (hB : InG2 B) (hC : C ≠ 0) (hD : D ≠ 0) :
    ([(A, C), (B, D)].map fun x : G2 × G1 => fAte x.1 x.2).prod ≠ 0 := by
  rw [List.map_cons, List.map_cons, List.map_nil, List.prod_cons, List.prod_cons, List.prod_nil, mul_one]
  exact mul_ne_zero (fAte_ne hA hC) (fAte_ne hB hD)

/-- `pairing_check`. -/
theorem pairingCheck_sound (Q T : EcPt bnCfg.F2) (P S : EcPt bnCfg.F) : Sound bnTbl (bnCfg.pairingCheck Q P T S) (fun w _ =>
    ∀ A B C D, InG2 A → InG2 B → E2 w Q A → E1 w P C → E2 w T B → E1 w S D → eAte A C = eAte B D) := by
  intro s
  refine Snd.bind (ecNegate_sound bnLaws 3 P s) fun nP s1 _ => Snd.bind (multiMillerLoop_sound _ s1) fun mml s2 _ =>
    Snd.bind (finalExp_sound mml s2) fun fe s3 _ => Snd.bind (load12 1 s3) fun one s4 _ => (bnLaws12.assertEqual fe one s4).weaken ?_
  intro w _ _ h5 h4 h3 h2 h1 A B C D hA hB hQ hP hT hS
  have hm := h2 [(A, -C), (B, D)] (.cons ⟨(h1 C).1 hP, hQ⟩ (.cons ⟨hS, hT⟩ .nil)) (by
    intro x hx
    simp only [List.mem_cons, List.not_mem_nil, or_false] at hx
    rcases hx with rfl | rfl <;> assumption)
  have hC := E1.ne_zero hP
  have hf := (h3 _ hm (pair2_ne hA hB (neg_ne_zero.2 hC) (E1.ne_zero hS))).2
  rw [pair2_pow, eAte_negP hA hC] at hf
  by_contra hne
  have h' : (eAte A C)⁻¹ * eAte B D ≠ 1 := by
    intro h
    exact hne ((inv_mul_eq_one₀ (eAte_ne hA hC)).1 h)
  exact h' (h5 _ _ (hf h') h4)

/-- The points which a list of loads returns. -/
theorem loads_sound {F : FieldOps bn254R} {K : Type} [Field K] [DecidableEq K] {tbl : ZMod bn254R → Prop} (l : FieldLaws F K tbl)
    (hf : EcFits l) (bv : F.V) (hb : CurveOk (l.val bv)) (vs : List (F.V × F.V)) : Sound tbl (mapList (loadPoint F bv) vs) (fun w r =>
      ∃ gs : List (ECurve (l.val bv)), List.Forall₂ (EcRep l (l.val bv) w) r gs ∧ gs.length = vs.length) := by
  intro s
  refine (mapList_sound (fun v s => loadPoint_sound l hf bv hb v s) vs s).weaken ?_
  intro w r _ h
  induction h with
  | nil => exact ⟨[], .nil, rfl⟩
  | cons h _ ih =>
    obtain ⟨g, hg⟩ := h
    obtain ⟨gs, hgs, hl⟩ := ih
    exact ⟨g :: gs, .cons hg hgs, by simp [hl]⟩

/-- `bls_signature_verify`. -/
theorem blsRun_sound (x : bnCfg.BlsArgs) (h1 : x.b1 = (3 : ZMod bn254Q)) (h2 : x.b2 = g2B) : Sound bnTbl (bnCfg.blsRun x) (fun w r =>
    ∃ (G : G1) (H : G2) (σs : List G2) (ks : List G1), E1 w r.2.1 G ∧ E2 w r.2.2.1 H ∧ List.Forall₂ (E2 w) r.2.2.2.1 σs ∧
      List.Forall₂ (E1 w) r.2.2.2.2 ks ∧ σs.length = x.signatures.length ∧ ks.length = x.pubkeys.length ∧ σs.sum ≠ 0 ∧ ks.sum ≠ 0 ∧
      (at' w r.1 = 0 ∨ at' w r.1 = 1) ∧ (InG2 H → InG2 σs.sum →
        (at' w r.1 = 1 → eAte σs.sum G = eAte H ks.sum) ∧
        (HardOk ((fAte (-σs.sum) G * fAte H ks.sum) ^ ((bn254Q ^ 6 - 1) * (bn254Q ^ 2 + 1))) → eAte σs.sum G = eAte H ks.sum → at' w r.1 = 1))) := by
  intro s
  obtain ⟨b1, b2, rand1, rand2, g1, sigs, pks, hm⟩ := x
  dsimp only at h1 h2
  subst h1 h2
  have f1 : EcFits bnLaws := ecFits_88_3 (by decide +kernel) bnOk
  have l1 : ∀ v s, Snd bnTbl s (loadPoint bnCfg.F (3 : ZMod bn254Q) v) (fun w r _ => ∃ g : G1, E1 w r g) := fun v s =>
    loadPoint_sound bnLaws f1 (3 : ZMod bn254Q) curveOk_bn254 v s
  have ls1 : ∀ vs s, Snd bnTbl s (mapList (loadPoint bnCfg.F (3 : ZMod bn254Q)) vs) (fun w r _ => ∃ gs : List G1,
      List.Forall₂ (E1 w) r gs ∧ gs.length = vs.length) := fun vs s =>
    loads_sound bnLaws f1 (3 : ZMod bn254Q) curveOk_bn254 vs s
  have su1 : ∀ v Ps s, Snd bnTbl s (ecSum bnCfg.F (3 : ZMod bn254Q) v Ps) (fun w r _ => ∀ gs : List G1,
      List.Forall₂ (E1 w) Ps gs → E1 w r gs.sum) := fun v Ps s => ecSum_sound bnLaws f1 (3 : ZMod bn254Q) curveOk_bn254 v Ps s
  have l2 : ∀ v s, Snd bnTbl s (loadPoint bnCfg.F2 g2B v) (fun w r _ => ∃ g : G2, E2 w r g) := by
    intro v s
    have := loadPoint_sound bnLaws2 bnLaws2_ecFits g2B (by rw [bnLaws2_val]; exact curveOk_g2) v s
    rw [bnLaws2_val] at this
    exact this
  have ls2 : ∀ vs s, Snd bnTbl s (mapList (loadPoint bnCfg.F2 g2B) vs) (fun w r _ => ∃ gs : List G2,
      List.Forall₂ (E2 w) r gs ∧ gs.length = vs.length) := by
    intro vs s
    have := loads_sound bnLaws2 bnLaws2_ecFits g2B (by rw [bnLaws2_val]; exact curveOk_g2) vs s
    rw [bnLaws2_val] at this
    exact this
  have su2 : ∀ v Ps s, Snd bnTbl s (ecSum bnCfg.F2 g2B v Ps) (fun w r _ => ∀ gs : List G2,
      List.Forall₂ (E2 w) Ps gs → E2 w r gs.sum) := by
    intro v Ps s
    have := ecSum_sound bnLaws2 bnLaws2_ecFits g2B (by rw [bnLaws2_val]; exact curveOk_g2) v Ps s
    rw [bnLaws2_val] at this
    exact this
  unfold blsRun
  dsimp only
  refine Snd.assert fun _ => Snd.assert fun _ => Snd.assert fun _ => Snd.bind (l1 _ s) fun G s1 _ => Snd.bind (l2 _ s1) fun H s2 _ =>
    Snd.bind (ls2 _ s2) fun ss s3 _ => Snd.bind (su2 _ _ s3) fun σ s4 _ => Snd.bind (ls1 _ s4) fun ps s5 _ =>
    Snd.bind (su1 _ _ s5) fun k s6 _ => Snd.bind (bnLaws2.negate σ.y s6) fun ny s7 _ => Snd.bind (multiMillerLoop_sound _ s7) fun mp s8 _ =>
    Snd.bind ((finalExp_sound mp s8).and (finalExp_wf mp s8)) fun fe s9 _ => Snd.bind (load12 1 s9) fun one s10 _ =>
    Snd.bind (bnLaws12.isEqual fe one s10) fun bit s11 _ => Snd.pure ?_
  rintro w - h11 h10 ⟨h9, X, hX⟩ h8 h7 h6 ⟨ks, h5, lk⟩ h4 ⟨σs, h3, lσ⟩ ⟨H', h2⟩ ⟨G', h1⟩
  have e4 := h4 _ h3
  have e6 := h6 _ h5
  have b := h11 X 1 hX h10
  refine ⟨G', H', σs, ks, h1, h2, h3, h5, lσ, lk, ?_, E1.ne_zero e6, ?_, fun iH iS => ?_⟩
  · obtain ⟨x, y, -, i⟩ := e4
    exact i.ne_zero
  · rw [b]
    split
    · exact Or.inr rfl
    · exact Or.inl rfl
  have en : E2 w ⟨σ.x, ny⟩ (-σs.sum) := by
    obtain ⟨x, y, hp, i⟩ := e4
    exact ⟨x, -y, ⟨hp.1, bnLaws2.r_p _ _ _ (h7 _ hp.2)⟩, i.neg⟩
  have hm := h8 [(-σs.sum, G'), (H', ks.sum)] (.cons ⟨h1, en⟩ (.cons ⟨e6, h2⟩ .nil)) (by
    intro x hx
    simp only [List.mem_cons, List.not_mem_nil, or_false] at hx
    rcases hx with rfl | rfl
    · exact iS.neg
    · exact iH)
  have hG := E1.ne_zero h1
  have hF := h9 _ hm (pair2_ne iS.neg iH hG (E1.ne_zero e6))
  rw [pair2_pow, eAte_negQ iS hG] at hF
  have hiff : (eAte σs.sum G')⁻¹ * eAte H' ks.sum = 1 ↔ eAte σs.sum G' = eAte H' ks.sum := inv_mul_eq_one₀ (eAte_ne iS hG)
  constructor
  · intro hb
    by_contra hne
    have h' := fun h => hne (hiff.1 h)
    have hR := hF.2 h'
    rw [h11 _ _ hR h10, if_neg h'] at hb
    exact zero_ne_one hb
  · intro hk he
    have hR := hF.1 (by
      rw [List.map_cons, List.map_cons, List.map_nil, List.prod_cons, List.prod_cons, List.prod_nil, mul_one]
      exact hk)
    rw [h11 _ _ hR h10, if_pos (hiff.2 he)]

end H2
