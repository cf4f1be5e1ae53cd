import Verif.Pairing.SoundSparse
import Verif.Pairing.SoundExp2
import Verif.Pairing.Spec
import Verif.Ecc.Sound

/-!
# Soundness of the line functions and of the Frobenius map through the twist (`pairing.rs`)
-/

set_option autoImplicit false
set_option linter.unusedSectionVars false
namespace H2
open PairCfg

/-! ### The lines in coordinates -/

abbrev alg2 (x : ZMod bn254Q) : Fq2 := algebraMap (ZMod bn254Q) Fq2 x

theorem chord_eq (A B : G2) (P : G1) : chord A B P = e6 0 0 ((xOf B - xOf A) * alg2 (yOf P)) ((yOf A - yOf B) * alg2 (xOf P)) 0
    (xOf A * yOf B - xOf B * yOf A) := by
  unfold chord chordAt psiX psiY base12 e6
  simp only [map_mul, map_sub, map_zero]
  ring

theorem tangent_eq (A : G2) (P : G1) : tangent A P = e6 ((3 * xOf A ^ 3 - 2 * yOf A ^ 2) * Fq2.xi) 0 0 (2 * yOf A * alg2 (yOf P))
    (-3 * xOf A ^ 2 * alg2 (xOf P)) 0 := by
  unfold tangent tangentAt psiX psiY base12 e6
  simp only [map_mul, map_sub, map_zero, map_neg, map_pow, map_ofNat, ← Fq12.w6]
  ring

/-! ### `sparse_line_function_*` -/

theorem sparse235' (a : List (CrtInt bn254R)) (l : List (Option (List (CrtInt bn254R)))) :
    Sound bnTbl (bnCfg.sparseMultiply a l) (fun w r => ∀ b2 b3 b5, l = [none, none, some b2, some b3, none, some b5] →
      ∀ X B2 B3 B5, R12 w a X → R2 w b2 B2 → R2 w b3 B3 → R2 w b5 B5 → R12 w r (X * e6 0 0 B2 B3 0 B5)) := by
  intro s
  by_cases h : ∃ b2 b3 b5, l = [none, none, some b2, some b3, none, some b5]
  · obtain ⟨b2, b3, b5, rfl⟩ := h
    refine (sparse235_sound a b2 b3 b5 s).weaken fun w r _ h c2 c3 c5 e => ?_
    simp only [List.cons.injEq, Option.some.injEq, true_and, and_true] at e
    obtain ⟨rfl, rfl, rfl⟩ := e
    exact h
  · exact (sparseMultiply_sound a l s).weaken fun w r _ _ b2 b3 b5 e => absurd ⟨b2, b3, b5, e⟩ h

theorem sparse034' (a : List (CrtInt bn254R)) (l : List (Option (List (CrtInt bn254R)))) :
    Sound bnTbl (bnCfg.sparseMultiply a l) (fun w r => ∀ b0 b3 b4, l = [some b0, none, none, some b3, some b4, none] →
      ∀ X B0 B3 B4, R12 w a X → R2 w b0 B0 → R2 w b3 B3 → R2 w b4 B4 → R12 w r (X * e6 B0 0 0 B3 B4 0)) := by
  intro s
  by_cases h : ∃ b0 b3 b4, l = [some b0, none, none, some b3, some b4, none]
  · obtain ⟨b2, b3, b5, rfl⟩ := h
    refine (sparse034_sound a b2 b3 b5 s).weaken fun w r _ h c2 c3 c5 e => ?_
    simp only [List.cons.injEq, Option.some.injEq, true_and, and_true] at e
    obtain ⟨rfl, rfl, rfl⟩ := e
    exact h
  · exact (sparseMultiply_sound a l s).weaken fun w r _ _ b2 b3 b5 e => absurd ⟨b2, b3, b5, e⟩ h

theorem carryOpt_sound : ∀ l : List (Option (List (CrtInt bn254R))), Sound bnTbl (bnCfg.carryOpt l) (fun w r =>
    List.Forall₂ (fun (x y : Option (List (CrtInt bn254R))) => (x = none ∧ y = none) ∨ ∃ a b, x = some a ∧ y = some b ∧
      ∀ X sx, Fits sx = true → U2 w a X sx → R2 w b X) l r)
  | [] => fun _ => Snd.pure fun _ _ => .nil
  | none :: l => fun s => Snd.bind (carryOpt_sound l s) fun rs s1 _ => Snd.pure fun w _ h => .cons (.inl ⟨rfl, rfl⟩) h
  | some a :: l => fun s => Snd.bind (f2_carry a s) fun b s1 _ => Snd.bind (carryOpt_sound l s1) fun rs s2 _ =>
      Snd.pure fun w _ h hb => .cons (.inr ⟨a, b, rfl, rfl, hb⟩) h

theorem lineUnequal_sound (Q0 Q1 : EcPt bnCfg.F2) (P : EcPt bnCfg.F) : Sound bnTbl (bnCfg.lineUnequal Q0 Q1 P) (fun w r =>
    ∃ r2 r3 r5, r = [none, none, some r2, some r3, none, some r5] ∧ ∀ X1 Y1 X2 Y2 X Y, XYRep bnLaws2 w Q0 X1 Y1 →
      XYRep bnLaws2 w Q1 X2 Y2 → XYRep bnLaws w P X Y → R2 w r2 ((X2 - X1) * alg2 Y) ∧ R2 w r3 ((Y1 - Y2) * alg2 X) ∧
        R2 w r5 (X1 * Y2 - X2 * Y1)) := by
  intro s
  refine Snd.assert fun _ => Snd.assert fun _ => Snd.assert fun _ => Snd.assert fun _ => ?_
  refine Snd.bind (f2_sub _ _ _) fun dy s1 _ => Snd.bind (f2_sub _ _ _) fun dx s2 _ => Snd.bind (f2_mulNC _ _ _) fun x1y2 s3 _ =>
    Snd.bind (f2_mulNC _ _ _) fun x2y1 s4 _ => Snd.bind (f2_fpMul _ _ _) fun o3 s5 _ => Snd.bind (f2_fpMul _ _ _) fun o2 s6 _ =>
    Snd.bind (f2_sub _ _ _) fun o5 s7 _ => (carryOpt_sound _ _).weaken ?_
  intro w r _ h h5 h2 h3 hx2 hx1 hdx hdy
  simp only [List.forall₂_cons_left_iff, List.forall₂_nil_left_iff] at h
  obtain ⟨_, _, g0, ⟨_, _, g1, ⟨_, _, g2, ⟨_, _, g3, ⟨_, _, g4, ⟨_, _, g5, rfl, rfl⟩, rfl⟩, rfl⟩, rfl⟩, rfl⟩, rfl⟩ := h
  simp only [reduceCtorEq, false_and, exists_false, or_false, false_or, true_and, Option.some.injEq] at g0 g1 g2 g3 g4 g5
  obtain ⟨_, r2, er2, rfl, g2⟩ := g2
  cases er2
  obtain ⟨_, r3, er3, rfl, g3⟩ := g3
  cases er3
  obtain ⟨_, r5, er5, rfl, g5⟩ := g5
  cases er5
  subst g0 g1 g4
  refine ⟨r2, r3, r5, rfl, fun X1 Y1 X2 Y2 X Y hQ0 hQ1 hP => ⟨?_, ?_, ?_⟩⟩
  · exact g2 _ _ (by decide +kernel) (h2 _ _ _ (hdx _ _ _ _ (R2.u hQ1.1) (R2.u hQ0.1)) hP.2)
  · exact g3 _ _ (by decide +kernel) (h3 _ _ _ (hdy _ _ _ _ (R2.u hQ0.2) (R2.u hQ1.2)) hP.1)
  · exact g5 _ _ (by decide +kernel) (h5 _ _ _ _ (hx1 _ _ _ _ (R2.u hQ0.1) (R2.u hQ1.2)) (hx2 _ _ _ _ (R2.u hQ1.1) (R2.u hQ0.2)))

theorem lineEqual_sound (Q : EcPt bnCfg.F2) (P : EcPt bnCfg.F) : Sound bnTbl (bnCfg.lineEqual Q P) (fun w r =>
    ∃ r0 r3 r4, r = [some r0, none, none, some r3, some r4, none] ∧ ∀ x y X Y, XYRep bnLaws2 w Q x y → XYRep bnLaws w P X Y →
      R2 w r0 ((3 * x ^ 3 - 2 * y ^ 2) * Fq2.xi) ∧ R2 w r3 (2 * y * alg2 Y) ∧ R2 w r4 (-3 * x ^ 2 * alg2 X)) := by
  intro s
  refine Snd.assert fun _ => Snd.assert fun _ => ?_
  refine Snd.bind (f2_mul _ _ _) fun xsq s1 _ => Snd.bind (f2_mulNC _ _ _) fun xcu s2 _ => Snd.bind (f2_smul _ _ _) fun xcu3 s3 _ =>
    Snd.bind (f2_mulNC _ _ _) fun ysq s4 _ => Snd.bind (f2_smul _ _ _) fun ysq2 s5 _ => Snd.bind (f2_sub _ _ _) fun left s6 _ =>
    Snd.bind (f2_w6 _ _ _) fun o0 s7 _ => Snd.bind (f2_fpMul _ _ _) fun xsqP s8 _ => Snd.bind (f2_smul _ _ _) fun o4 s9 _ =>
    Snd.bind (f2_fpMul _ _ _) fun yP s10 _ => Snd.bind (f2_smul _ _ _) fun o3 s11 _ => (carryOpt_sound _ _).weaken ?_
  intro w r _ h h3 hyP h4 hxP h0 hl hy2 hy hx3 hxc hx
  simp only [List.forall₂_cons_left_iff, List.forall₂_nil_left_iff] at h
  obtain ⟨_, _, g0, ⟨_, _, g1, ⟨_, _, g2, ⟨_, _, g3, ⟨_, _, g4, ⟨_, _, g5, rfl, rfl⟩, rfl⟩, rfl⟩, rfl⟩, rfl⟩, rfl⟩ := h
  simp only [reduceCtorEq, false_and, exists_false, or_false, false_or, true_and, Option.some.injEq] at g0 g1 g2 g3 g4 g5
  obtain ⟨_, r0, er0, rfl, g0⟩ := g0
  cases er0
  obtain ⟨_, r3, er3, rfl, g3⟩ := g3
  cases er3
  obtain ⟨_, r4, er4, rfl, g4⟩ := g4
  cases er4
  subst g1 g2 g5
  refine ⟨r0, r3, r4, rfl, fun x y X Y hQ hP => ?_⟩
  have hxx := hx _ _ hQ.1 hQ.1
  have a1 := g0 _ _ (by decide +kernel) (h0 _ _ (hl _ _ _ _ (hx3 _ _ (hxc _ _ _ _ hxx.u (R2.u hQ.1))) (hy2 _ _ (hy _ _ _ _ (R2.u hQ.2) (R2.u hQ.2)))))
  have a2 := g3 _ _ (by decide +kernel) (h3 _ _ (hyP _ _ _ (R2.u hQ.2) hP.2))
  have a3 := g4 _ _ (by decide +kernel) (h4 _ _ (hxP _ _ _ hxx.u hP.1))
  refine ⟨?_, ?_, ?_⟩
  · convert a1 using 1
    rw [← xi_eq]
    push_cast
    ring
  · convert a2 using 1
    push_cast
    ring
  · convert a3 using 1
    push_cast
    ring

/-! ### Multiplication with lines -/

abbrev E1 (w : Cell → ZMod bn254R) (P : EcPt bnCfg.F) (g : G1) : Prop := EcRep bnLaws 3 w P g
abbrev E2 (w : Cell → ZMod bn254R) (Q : EcPt bnCfg.F2) (g : G2) : Prop := EcRep bnLaws2 g2B w Q g

theorem mulLineUnequal_sound (g : List (CrtInt bn254R)) (Q0 Q1 : EcPt bnCfg.F2) (P : EcPt bnCfg.F) :
    Sound bnTbl (bnCfg.mulLineUnequal g Q0 Q1 P) (fun w r => ∀ X A B C, R12 w g X → E2 w Q0 A → E2 w Q1 B → E1 w P C →
      R12 w r (X * chord A B C)) := by
  intro s
  refine Snd.bind (lineUnequal_sound Q0 Q1 P s) fun l s1 _ => (sparse235' g l s1).weaken ?_
  rintro w r _ h ⟨r2, r3, r5, e, hl⟩ X A B C hX ⟨X1, Y1, hQ0, i0⟩ ⟨X2, Y2, hQ1, i1⟩ ⟨X3, Y3, hP, i3⟩
  obtain ⟨k2, k3, k5⟩ := hl _ _ _ _ _ _ hQ0 hQ1 hP
  rw [chord_eq, i0.xOf_eq.1, i0.xOf_eq.2, i1.xOf_eq.1, i1.xOf_eq.2, i3.xOf_eq.1, i3.xOf_eq.2]
  exact h _ _ _ e _ _ _ _ hX k2 k3 k5

theorem mulLineEqual_sound (g : List (CrtInt bn254R)) (Q : EcPt bnCfg.F2) (P : EcPt bnCfg.F) :
    Sound bnTbl (bnCfg.mulLineEqual g Q P) (fun w r => ∀ X A C, R12 w g X → E2 w Q A → E1 w P C → R12 w r (X * tangent A C)) := by
  intro s
  refine Snd.bind (lineEqual_sound Q P s) fun l s1 _ => (sparse034' g l s1).weaken ?_
  rintro w r _ h ⟨r0, r3, r4, e, hl⟩ X A C hX ⟨X1, Y1, hQ, i0⟩ ⟨X3, Y3, hP, i3⟩
  obtain ⟨k0, k3, k4⟩ := hl _ _ _ _ hQ hP
  rw [tangent_eq, i0.xOf_eq.1, i0.xOf_eq.2, i3.xOf_eq.1, i3.xOf_eq.2]
  exact h _ _ _ e _ _ _ _ hX k0 k3 k4

theorem fillZero_sound (i : ℕ) (zero : CrtInt bn254R) : ∀ l : List (Option (List (CrtInt bn254R))),
    Sound bnTbl (fillZero i zero l) (fun _ r => List.Forall₂ (fun (x : Option (List (CrtInt bn254R))) y =>
      (x = none ∧ y = zero) ∨ ∃ a : List (CrtInt bn254R), x = some a ∧ a[i]? = some y) l r)
  | [] => fun _ => Snd.pure fun _ _ => .nil
  | none :: l => fun s => Snd.bind (fillZero_sound i zero l s) fun rs s1 _ => Snd.pure fun w _ h => .cons (.inl ⟨rfl, rfl⟩) h
  | some a :: l => fun s => Snd.bind (Q := fun _ r _ => a[i]? = some r) (Snd.weaken (unwrap_rd _).snd fun _ _ _ h => h.2) fun b s1 _ =>
      Snd.bind (fillZero_sound i zero l s1) fun rs s2 _ => Snd.pure fun w _ h hb => .cons (.inr ⟨a, rfl, hb⟩) h

theorem firstLine_sound (Q : EcPt bnCfg.F2) (P : EcPt bnCfg.F) : Sound bnTbl (bnCfg.firstLine Q P) (fun w r =>
    ∀ A C, E2 w Q A → E1 w P C → R12 w r (tangent A C)) := by
  intro s
  refine Snd.bind (lineEqual_sound Q P s) fun l s1 _ => Snd.assert fun _ => Snd.bind (load1 0 s1) fun z s2 _ =>
    Snd.bind (fillZero_sound 0 z l s2) fun xs s3 _ => Snd.bind (fillZero_sound 1 z l s3) fun ys s4 _ => Snd.pure ?_
  rintro w - hy hx hz ⟨r0, r3, r4, rfl, hl⟩ A C ⟨X1, Y1, hQ, i0⟩ ⟨X3, Y3, hP, i3⟩
  obtain ⟨k0, k3, k4⟩ := hl _ _ _ _ hQ hP
  rw [tangent_eq, i0.xOf_eq.1, i0.xOf_eq.2, i3.xOf_eq.1, i3.xOf_eq.2]
  have hzz : R2 w [z, z] 0 := R2.mk hz hz
  obtain ⟨a0, b0, rfl, -⟩ := k0.elim
  obtain ⟨a3, b3, rfl, -⟩ := k3.elim
  obtain ⟨a4, b4, rfl, -⟩ := k4.elim
  simp only [List.forall₂_cons_left_iff, List.forall₂_nil_left_iff, reduceCtorEq, false_and, exists_false, or_false, false_or,
    true_and, Option.some.injEq, exists_eq_left', List.getElem?_cons_zero, List.getElem?_cons_succ] at hx hy
  obtain ⟨_, _, rfl, ⟨_, _, rfl, ⟨_, _, rfl, ⟨_, _, rfl, ⟨_, _, rfl, ⟨_, _, rfl, rfl, rfl⟩, rfl⟩, rfl⟩, rfl⟩, rfl⟩, rfl⟩ := hx
  obtain ⟨_, _, rfl, ⟨_, _, rfl, ⟨_, _, rfl, ⟨_, _, rfl, ⟨_, _, rfl, ⟨_, _, rfl, rfl, rfl⟩, rfl⟩, rfl⟩, rfl⟩, rfl⟩, rfl⟩ := hy
  exact R12.mk k0 hzz hzz k3 k4 hzz

/-! ### `twisted_frobenius` -/

theorem twistedFrob_sound (Q : EcPt bnCfg.F2) (c2 c3 : List (CrtInt bn254R)) : Sound bnTbl (bnCfg.twistedFrob Q c2 c3) (fun w r =>
    R2 w c2 (frobC 1 ^ 2) → R2 w c3 (frobC 1 ^ 3) → ∀ A, E2 w Q A → E2 w r (frobPt A)) := by
  intro s
  refine Snd.assert fun _ => Snd.assert fun _ => Snd.bind (f2_conj _ _) fun fx s1 _ => Snd.bind (f2_conj _ _) fun fy s2 _ =>
    Snd.bind (f2_mul _ _ _) fun ox s3 _ => Snd.bind (f2_mul _ _ _) fun oy s4 _ => Snd.pure ?_
  rintro w - h4 h3 h2 h1 k2 k3 A ⟨X, Y, hQ, i⟩
  exact ⟨_, _, ⟨h3 _ _ k2 (h1 _ hQ.1), h4 _ _ k3 (h2 _ hQ.2)⟩, frobPt_isPt i⟩

theorem negTwistedFrob_sound (Q : EcPt bnCfg.F2) (c2 c3 : List (CrtInt bn254R)) : Sound bnTbl (bnCfg.negTwistedFrob Q c2 c3) (fun w r =>
    R2 w c2 (frobC 1 ^ 2) → R2 w c3 (frobC 1 ^ 3) → ∀ A, E2 w Q A → E2 w r (-frobPt A)) := by
  intro s
  refine Snd.assert fun _ => Snd.assert fun _ => Snd.bind (f2_conj _ _) fun fx s1 _ => Snd.bind (f2_negConj _ _) fun fy s2 _ =>
    Snd.bind (f2_mul _ _ _) fun ox s3 _ => Snd.bind (f2_mul _ _ _) fun oy s4 _ => Snd.pure ?_
  rintro w - h4 h3 h2 h1 k2 k3 A ⟨X, Y, hQ, i⟩
  refine ⟨_, _, ⟨h3 _ _ k2 (h1 _ hQ.1), h4 _ _ k3 (h2 _ hQ.2)⟩, ?_⟩
  rw [mul_neg]
  exact (frobPt_isPt i).neg

end H2
