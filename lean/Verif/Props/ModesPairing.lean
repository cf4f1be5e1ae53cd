import Verif.Pairing.Rel
import Verif.Pairing.Rep
import Verif.Props.ModesEcc

/-!
# C72 for the pairing chip and BLS verification
-/

set_option autoImplicit false
set_option linter.unusedSectionVars false
namespace H2
variable {p : ℕ} [Fact p.Prime]

namespace PairCfg
variable {C : PairCfg p} (D : C.Deg)

/-- Vectors of base field elements at the same place in the circuit. -/
abbrev Same (a b : List (CrtInt p)) : Prop := List.Forall₂ CrtInt.Same a b
/-- The prover-mode view of a vector. -/
abbrev prov (a : List (CrtInt p)) : List (CrtInt p) := a.map CrtInt.prover
/-- Points of G1 at the same place. -/
def Same1 (P P' : EcPt C.F) : Prop := CrtInt.Same P.x P'.x ∧ CrtInt.Same P.y P'.y
/-- Points of G2 at the same place. -/
def Same2 (Q Q' : EcPt C.F2) : Prop := Same (p := p) Q.x Q'.x ∧ Same (p := p) Q.y Q'.y
def prov1 (P : EcPt C.F) : EcPt C.F := ⟨CrtInt.prover P.x, CrtInt.prover P.y⟩
def prov2 (Q : EcPt C.F2) : EcPt C.F2 := ⟨prov (p := p) Q.x, prov (p := p) Q.y⟩
/-- Arguments of BLS verification for the same circuit: same curve constants, same numbers of signatures and keys. -/
def BlsSame (x y : C.BlsArgs) : Prop :=
  x.b1 = y.b1 ∧ x.b2 = y.b2 ∧ x.signatures.length = y.signatures.length ∧ x.pubkeys.length = y.pubkeys.length

theorem rl0 {a b : List (CrtInt p)} : RL false a b ↔ Same a b := forall₂_iff (fun _ _ => rc_same) _ _
theorem rl1 {a b : List (CrtInt p)} : RL true a b ↔ b = prov a := forall₂_fun (fun _ _ => rc_prover) _ _
theorem g10 {P P' : EcPt C.F} (h : Same1 P P') : RG1 C false P P' := ⟨rc_same.2 h.1, rc_same.2 h.2⟩
theorem g20 {Q Q' : EcPt C.F2} (h : Same2 Q Q') : RG2 D false Q Q' := ⟨rl0.2 h.1, rl0.2 h.2⟩
theorem g11 (P : EcPt C.F) : RG1 C true P (prov1 P) := ⟨rc_prover.2 rfl, rc_prover.2 rfl⟩
theorem g21 (Q : EcPt C.F2) : RG2 D true Q (prov2 Q) := ⟨rl1.2 rfl, rl1.2 rfl⟩

private theorem s0 : ∀ r r' : Unit, True → r = r' := fun _ _ _ => rfl
private theorem p0 : ∀ r r' : Unit, True → r' = id r := fun _ _ _ => rfl
private theorem sL : ∀ r r' : List (CrtInt p), RL false r r' → Same r r' := fun _ _ h => rl0.1 h
private theorem pL : ∀ r r' : List (CrtInt p), RL true r r' → r' = prov r := fun _ _ h => rl1.1 h

include D in
/-- C72, shape of the pairing chip: the circuit of the final exponentiation, of the Miller loops (for any digits), of the
pairing and of the pairing check depends only on the places of its inputs. -/
theorem C72_pairing_shape {a a' : List (CrtInt p)} {Q Q' T T' : EcPt C.F2} {P P' S S' : EcPt C.F}
    {l l' : List (EcPt C.F × EcPt C.F2)} (ha : Same a a') (hQ : Same2 Q Q') (hT : Same2 T T') (hP : Same1 P P') (hS : Same1 S S')
    (hl : List.Forall₂ (fun x y => Same1 x.1 y.1 ∧ Same2 x.2 y.2) l l') (n : ℕ) (e : List ℕ) (enc : List ℤ) :
    ShapeIndep Same (C.frobeniusMap a n) (C.frobeniusMap a' n) ∧
    ShapeIndep Same (C.pow a e) (C.pow a' e) ∧
    ShapeIndep Same (C.cycPow a e) (C.cycPow a' e) ∧
    ShapeIndep Same (C.finalExp a) (C.finalExp a') ∧
    ShapeIndep Same (C.mulLineUnequal a Q T P) (C.mulLineUnequal a' Q' T' P') ∧
    ShapeIndep Same (C.mulLineEqual a Q P) (C.mulLineEqual a' Q' P') ∧
    ShapeIndep Same (C.millerLoop Q P enc) (C.millerLoop Q' P' enc) ∧
    ShapeIndep Same (C.multiMillerLoop l enc) (C.multiMillerLoop l' enc) ∧
    ShapeIndep Same (C.pairing Q P) (C.pairing Q' P') ∧
    ShapeIndep Eq (C.pairingCheck Q P T S) (C.pairingCheck Q' P' T' S') := by
  have ha := rl0.2 ha
  have hQ := g20 D hQ
  have hT := g20 D hT
  have hP := g10 hP
  have hS := g10 hS
  have hl : List.Forall₂ (RPr D false) l l' := hl.imp fun _ _ h => ⟨g10 h.1, g20 D h.2⟩
  exact ⟨(frobeniusMap_rel D ha n).shape sL, (pow_rel D ha e).shape sL, (cycPow_rel D ha e).shape sL,
    (finalExp_rel D ha).shape sL, (mulLineUnequal_rel D ha hQ hT hP).shape sL, (mulLineEqual_rel D ha hQ hP).shape sL,
    (millerLoop_rel D hQ hP enc).shape sL, (multiMillerLoop_rel D hl enc).shape sL, (pairing_rel D hQ hP).shape sL,
    (pairingCheck_rel D hQ hP hT hS).shape s0⟩

include D in
/-- C72, prover mode of the pairing chip. -/
theorem C72_pairing_prover (a : List (CrtInt p)) (Q T : EcPt C.F2) (P S : EcPt C.F) (l : List (EcPt C.F × EcPt C.F2)) (n : ℕ)
    (e : List ℕ) (enc : List ℤ) :
    ProverMatches prov (C.frobeniusMap a n) (C.frobeniusMap (prov a) n) ∧
    ProverMatches prov (C.pow a e) (C.pow (prov a) e) ∧
    ProverMatches prov (C.cycPow a e) (C.cycPow (prov a) e) ∧
    ProverMatches prov (C.finalExp a) (C.finalExp (prov a)) ∧
    ProverMatches prov (C.mulLineUnequal a Q T P) (C.mulLineUnequal (prov a) (prov2 Q) (prov2 T) (prov1 P)) ∧
    ProverMatches prov (C.mulLineEqual a Q P) (C.mulLineEqual (prov a) (prov2 Q) (prov1 P)) ∧
    ProverMatches prov (C.millerLoop Q P enc) (C.millerLoop (prov2 Q) (prov1 P) enc) ∧
    ProverMatches prov (C.multiMillerLoop l enc) (C.multiMillerLoop (l.map fun x => (prov1 x.1, prov2 x.2)) enc) ∧
    ProverMatches prov (C.pairing Q P) (C.pairing (prov2 Q) (prov1 P)) ∧
    ProverMatches id (C.pairingCheck Q P T S) (C.pairingCheck (prov2 Q) (prov1 P) (prov2 T) (prov1 S)) := by
  have ha := rl1.2 (rfl : prov a = prov a)
  have hQ := g21 D Q
  have hT := g21 D T
  have hP := g11 P
  have hS := g11 S
  have hl : List.Forall₂ (RPr D true) l (l.map fun x => (prov1 x.1, prov2 x.2)) := by
    induction l with
    | nil => exact .nil
    | cons x l ih => exact .cons ⟨g11 _, g21 D _⟩ ih
  exact ⟨(frobeniusMap_rel D ha n).prover pL, (pow_rel D ha e).prover pL, (cycPow_rel D ha e).prover pL,
    (finalExp_rel D ha).prover pL, (mulLineUnequal_rel D ha hQ hT hP).prover pL, (mulLineEqual_rel D ha hQ hP).prover pL,
    (millerLoop_rel D hQ hP enc).prover pL, (multiMillerLoop_rel D hl enc).prover pL, (pairing_rel D hQ hP).prover pL,
    (pairingCheck_rel D hQ hP hT hS).prover p0⟩

private theorem rvs0 {α : Type} {l l' : List (α × α)} (h : l.length = l'.length) : List.Forall₂ (RV2 false) l l' := by
  induction l generalizing l' with
  | nil => cases l' <;> simp_all
  | cons a l ih => cases l' with
    | nil => simp at h
    | cons b l' =>
      simp only [List.length_cons, Nat.add_right_cancel_iff] at h
      exact .cons ⟨by intro h; simp at h, by intro h; simp at h⟩ (ih h)

private theorem rv20' {α β : Type} (v v' : α × β) : RV2 false v v' := ⟨by intro h; simp at h, by intro h; simp at h⟩

private theorem rvs1 {α : Type} (l : List (α × α)) : List.Forall₂ (RV2 true) l l :=
  List.forall₂_same.2 fun _ _ => ⟨fun _ => rfl, fun _ => rfl⟩

include D in
/-- C72, BLS verification: the circuit depends only on how many signatures and keys there are, and the prover-mode run
gives the same bit and the same witness. -/
theorem C72_bls {x y : C.BlsArgs} (h : BlsSame x y) :
    ShapeIndep AV.Same (C.blsVerify x) (C.blsVerify y) ∧ ProverMatches AV.prover (C.blsVerify x) (C.blsVerify x) := by
  obtain ⟨h1, h2, h3, h4⟩ := h
  exact ⟨(blsVerify_rel D ⟨h1, h2, rv20' _ _, rv20' _ _, rv20' _ _, rvs0 h3, rvs0 h4, rv20' _ _⟩).shape fun _ _ h => ra_same.1 h,
    (blsVerify_rel D ⟨rfl, rfl, ⟨fun _ => rfl, fun _ => rfl⟩, ⟨fun _ => rfl, fun _ => rfl⟩, ⟨fun _ => rfl, fun _ => rfl⟩,
      rvs1 _, rvs1 _, ⟨fun _ => rfl, fun _ => rfl⟩⟩).prover fun _ _ h => h.toProver⟩

/-- The hypothesis is met by the BN254 tower. -/
theorem C72_bn254_deg : PairCfg.Deg bnCfg := 
  ⟨fun v v' => (extFieldOf_len Fq2.basis Fq2.span v).trans (extFieldOf_len Fq2.basis Fq2.span v').symm,
    fun v v' => (extFieldOf_len Fq12.basis Fq12.span v).trans (extFieldOf_len Fq12.basis Fq12.span v').symm⟩

end PairCfg
end H2
