import Verif.Pairing.SoundLine
import Verif.Pairing.CompleteSparse
import Verif.Ecc.Complete

/-!
# Completeness of the line functions and of the Frobenius map through the twist (`pairing.rs`)
-/

set_option autoImplicit false
set_option linter.unusedSectionVars false
namespace H2
open PairCfg

/-- In the honest assignment, `P` holds the finite point `C` of the curve, with canonical coordinates. -/
def G1W (ext : Cell → ZMod bn254R) (s : Ctx bn254R) (P : EcPt bnCfg.F) (C : G1) : Prop := EcW bnCmp 3 ext s P C
/-- In the honest assignment, `Q` holds the finite point `A` of the twist, with canonical coordinates. -/
def G2W (ext : Cell → ZMod bn254R) (s : Ctx bn254R) (Q : EcPt bnCfg.F2) (A : G2) : Prop := EcW bnCmp2 g2B ext s Q A

variable {ext : Cell → ZMod bn254R} {s s' : Ctx bn254R} {a b : List (CrtInt bn254R)}

theorem G1W.mono {P : EcPt bnCfg.F} {C : G1} (h : G1W ext s P C) (e : Ext s s') : G1W ext s' P C := EcW.mono h e
theorem G2W.mono {P : EcPt bnCfg.F2} {C : G2} (h : G2W ext s P C) (e : Ext s s') : G2W ext s' P C := EcW.mono h e

theorem G1W.elim {P : EcPt bnCfg.F} {C : G1} (h : G1W ext s P C) : ∃ X Y, HN1 ext s P.x X ∧ HN1 ext s P.y Y ∧ IsPt 3 X Y C := by
  obtain ⟨X, Y, h, i⟩ := h
  exact ⟨X, Y, h.1, h.2, i⟩

theorem G2W.elim {P : EcPt bnCfg.F2} {C : G2} (h : G2W ext s P C) : ∃ X Y, HN2 ext s P.x X ∧ HN2 ext s P.y Y ∧ IsPt g2B X Y C := by
  obtain ⟨X, Y, h, i⟩ := h
  exact ⟨X, Y, h.1, h.2, i⟩

theorem HN2.len2 {X : Fq2} (h : HN2 ext s a X) : (a.length == 2) = true := beq_iff_eq.2 h.len

theorem lineUnequal_cmp {Q0 Q1 : EcPt bnCfg.F2} {P : EcPt bnCfg.F} {X1 Y1 X2 Y2 : Fq2} {X Y : ZMod bn254Q} (x1 : HN2 ext s Q0.x X1)
    (y1 : HN2 ext s Q0.y Y1) (x2 : HN2 ext s Q1.x X2) (y2 : HN2 ext s Q1.y Y2) (x : HN1 ext s P.x X) (y : HN1 ext s P.y Y) :
    Cmp bnTbl ext s (bnCfg.lineUnequal Q0 Q1 P) (fun r s' => ∃ r2 r3 r5, r = [none, none, some r2, some r3, none, some r5] ∧
      HN2 ext s' r2 ((X2 - X1) * alg2 Y) ∧ HN2 ext s' r3 ((Y1 - Y2) * alg2 X) ∧ HN2 ext s' r5 (X1 * Y2 - X2 * Y1)) := by
  unfold lineUnequal
  refine Cmp.assert x1.len2 (Cmp.assert y1.len2 (Cmp.assert x2.len2
    (Cmp.assert y2.len2 ?_)))
  cb (g2_sub y1.v y2.v) dy v1
  cb (g2_sub x2.v x1.v) dx v2
  cb (g2_mulNC x1.v y2.v) x1y2 v3
  cb (g2_mulNC x2.v y1.v) x2y1 v4
  cb (g2_fpMul v1 x) out3 v5
  cb (g2_fpMul v2 y) out2 v6
  cb (g2_sub v3 v4) out5 v7
  simp only [carryOpt, bind_assoc, pure_bind]
  cb (g2_carry (by decide +kernel) v6) r2 w2
  cb (g2_carry (by decide +kernel) v5) r3 w3
  cb (g2_carry (by decide +kernel) v7) r5 w5
  exact Cmp.pure ⟨r2, r3, r5, rfl, w2, w3, w5⟩

theorem lineEqual_cmp {Q : EcPt bnCfg.F2} {P : EcPt bnCfg.F} {x y : Fq2} {X Y : ZMod bn254Q} (hx : HN2 ext s Q.x x)
    (hy : HN2 ext s Q.y y) (hX : HN1 ext s P.x X) (hY : HN1 ext s P.y Y) :
    Cmp bnTbl ext s (bnCfg.lineEqual Q P) (fun r s' => ∃ r0 r3 r4, r = [some r0, none, none, some r3, some r4, none] ∧
      HN2 ext s' r0 ((3 * x ^ 3 - 2 * y ^ 2) * Fq2.xi) ∧ HN2 ext s' r3 (2 * y * alg2 Y) ∧ HN2 ext s' r4 (-3 * x ^ 2 * alg2 X)) := by
  unfold lineEqual
  refine Cmp.assert hx.len2 (Cmp.assert hy.len2 ?_)
  cb (g2_mul hx hx) xsq w1
  cb (g2_mulNC w1.v hx.v) xcu v2
  cb (g2_smul 3 (by norm_num) v2) xcu3 v3
  cb (g2_mulNC hy.v hy.v) ysq v4
  cb (g2_smul 2 (by norm_num) v4) ysq2 v5
  cb (g2_sub v3 v5) left v6
  cb (g2_w6 9 (by norm_num) v6) out0 v7
  cb (g2_fpMul w1.v hX) xsqP v8
  cb (g2_smul (-3) (by norm_num) v8) out4 v9
  cb (g2_fpMul hy.v hY) yP v10
  cb (g2_smul 2 (by norm_num) v10) out3 v11
  simp only [carryOpt, bind_assoc, pure_bind]
  cb (g2_carry (by decide +kernel) v7) r0 w0
  cb (g2_carry (by decide +kernel) v11) r3 w3
  cb (g2_carry (by decide +kernel) v9) r4 w4
  refine Cmp.pure ⟨r0, r3, r4, rfl, ?_, ?_, ?_⟩
  · convert w0 using 1
    rw [← xi_eq]
    push_cast
    ring
  · convert w3 using 1
    push_cast
    ring
  · convert w4 using 1
    push_cast
    ring

theorem mulLineUnequal_cmp {Q0 Q1 : EcPt bnCfg.F2} {P : EcPt bnCfg.F} {X : Fq12} {A B : G2} {C : G1} (hX : HN12 ext s a X)
    (hA : G2W ext s Q0 A) (hB : G2W ext s Q1 B) (hC : G1W ext s P C) :
    Cmp bnTbl ext s (bnCfg.mulLineUnequal a Q0 Q1 P) (fun r s' => HN12 ext s' r (X * chord A B C)) := by
  obtain ⟨X1, Y1, x1, y1, i1⟩ := hA.elim
  obtain ⟨X2, Y2, x2, y2, i2⟩ := hB.elim
  obtain ⟨X3, Y3, x3, y3, i3⟩ := hC.elim
  rw [chord_eq, i1.xOf_eq.1, i1.xOf_eq.2, i2.xOf_eq.1, i2.xOf_eq.2, i3.xOf_eq.1, i3.xOf_eq.2]
  cb (lineUnequal_cmp x1 y1 x2 y2 x3 y3) l hl
  obtain ⟨r2, r3, r5, rfl, k2, k3, k5⟩ := hl
  exact sparse235_cmp hX k2 k3 k5

theorem mulLineEqual_cmp {Q : EcPt bnCfg.F2} {P : EcPt bnCfg.F} {X : Fq12} {A : G2} {C : G1} (hX : HN12 ext s a X)
    (hA : G2W ext s Q A) (hC : G1W ext s P C) :
    Cmp bnTbl ext s (bnCfg.mulLineEqual a Q P) (fun r s' => HN12 ext s' r (X * tangent A C)) := by
  obtain ⟨X1, Y1, x1, y1, i1⟩ := hA.elim
  obtain ⟨X3, Y3, x3, y3, i3⟩ := hC.elim
  rw [tangent_eq, i1.xOf_eq.1, i1.xOf_eq.2, i3.xOf_eq.1, i3.xOf_eq.2]
  cb (lineEqual_cmp x1 y1 x3 y3) l hl
  obtain ⟨r0, r3, r4, rfl, k0, k3, k4⟩ := hl
  exact sparse034_cmp hX k0 k3 k4

theorem firstLine_cmp {Q : EcPt bnCfg.F2} {P : EcPt bnCfg.F} {A : G2} {C : G1} (hA : G2W ext s Q A) (hC : G1W ext s P C) :
    Cmp bnTbl ext s (bnCfg.firstLine Q P) (fun r s' => HN12 ext s' r (tangent A C)) := by
  obtain ⟨X1, Y1, x1, y1, i1⟩ := hA.elim
  obtain ⟨X3, Y3, x3, y3, i3⟩ := hC.elim
  rw [tangent_eq, i1.xOf_eq.1, i1.xOf_eq.2, i3.xOf_eq.1, i3.xOf_eq.2]
  unfold firstLine
  cb (lineEqual_cmp x1 y1 x3 y3) l hl
  obtain ⟨r0, r3, r4, rfl, k0, k3, k4⟩ := hl
  refine Cmp.assert rfl ?_
  cb (load1_cmp 0) z hz
  have hzz : HN2 ext _ [z, z] 0 := HN2.mk hz hz
  obtain ⟨a0, b0, rfl, -⟩ := k0.elim
  obtain ⟨a3, b3, rfl, -⟩ := k3.elim
  obtain ⟨a4, b4, rfl, -⟩ := k4.elim
  exact Cmp.pure (HN12.mk k0 hzz hzz k3 k4 hzz)

theorem twistedFrob_cmp {Q : EcPt bnCfg.F2} {c2 c3 : List (CrtInt bn254R)} {A : G2} (h2 : HN2 ext s c2 (frobC 1 ^ 2))
    (h3 : HN2 ext s c3 (frobC 1 ^ 3)) (hA : G2W ext s Q A) :
    Cmp bnTbl ext s (bnCfg.twistedFrob Q c2 c3) (fun r s' => G2W ext s' r (frobPt A)) := by
  obtain ⟨X, Y, x, y, i⟩ := hA.elim
  unfold twistedFrob
  refine Cmp.assert h2.len2 (Cmp.assert h3.len2 ?_)
  cb (g2_conj x) fx v1
  cb (g2_conj y) fy v2
  cb (g2_mul h2 v1) ox v3
  cb (g2_mul h3 v2) oy v4
  exact Cmp.pure ⟨_, _, ⟨v3, v4⟩, frobPt_isPt i⟩

theorem negTwistedFrob_cmp {Q : EcPt bnCfg.F2} {c2 c3 : List (CrtInt bn254R)} {A : G2} (h2 : HN2 ext s c2 (frobC 1 ^ 2))
    (h3 : HN2 ext s c3 (frobC 1 ^ 3)) (hA : G2W ext s Q A) :
    Cmp bnTbl ext s (bnCfg.negTwistedFrob Q c2 c3) (fun r s' => G2W ext s' r (-frobPt A)) := by
  obtain ⟨X, Y, x, y, i⟩ := hA.elim
  unfold negTwistedFrob
  refine Cmp.assert h2.len2 (Cmp.assert h3.len2 ?_)
  cb (g2_conj x) fx v1
  cb (g2_negConj y) fy v2
  cb (g2_mul h2 v1) ox v3
  cb (g2_mul h3 v2) oy v4
  rw [mul_neg] at v4
  exact Cmp.pure ⟨_, _, ⟨v3, v4⟩, (frobPt_isPt i).neg⟩

end H2
