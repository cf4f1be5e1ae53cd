import Verif.Pairing.SoundExp2
import Verif.Pairing.CompleteExp

/-!
# Completeness of `final_exp.rs`: the Frobenius map
-/

set_option autoImplicit false
set_option linter.unusedSectionVars false
namespace H2
open PairCfg

/-- A conditional statement in the middle of a `do` block. -/
theorem Cmp.jp {p : ℕ} [Fact p.Prime] {α β : Type} {tbl : ZMod p → Prop} {ext : Cell → ZMod p} {s : Ctx p} {c : Prop} [Decidable c]
    {m1 m2 : M p α} {f : α → M p β} {Q : α → Ctx p → Prop} {R : β → Ctx p → Prop} (h : Cmp tbl ext s (if c then m1 else m2) Q)
    (k : ∀ a s1, Ext s s1 → Q a s1 → Cmp tbl ext s1 (f a) R) : Cmp tbl ext s (if c then m1 >>= f else m2 >>= f) R := by
  split
  · rename_i hc
    rw [if_pos hc] at h
    exact Cmp.bind h k
  · rename_i hc
    rw [if_neg hc] at h
    exact Cmp.bind h k

theorem Cmp.ite {p : ℕ} [Fact p.Prime] {α : Type} {tbl : ZMod p → Prop} {ext : Cell → ZMod p} {s : Ctx p} {c : Prop} [Decidable c]
    {m1 m2 : M p α} {Q : α → Ctx p → Prop} (h1 : c → Cmp tbl ext s m1 Q) (h2 : ¬c → Cmp tbl ext s m2 Q) :
    Cmp tbl ext s (if c then m1 else m2) Q := by
  split
  · rename_i hc; exact h1 hc
  · rename_i hc; exact h2 hc

variable {ext : Cell → ZMod bn254R} {s s' : Ctx bn254R} {a b : List (CrtInt bn254R)}

theorem load1_cmp (v : ZMod bn254Q) : Cmp bnTbl ext s (bnCfg.F.loadConstant v) (fun r s' => HN1 ext s' r v) :=
  bnCmp.loadConstant v

theorem frobCoeff_cmp (k i : ℕ) {X : Fq2} (h : HN2 ext s a X) : Cmp bnTbl ext s (bnCfg.frobCoeff k i a) (fun r s' =>
    HN2 ext s' r (X ^ bn254Q ^ k * frobC k ^ i)) := by
  unfold frobCoeff
  have hconj : Cmp bnTbl ext s (if k % 2 ≠ 0 then fp2Conjugate bnCfg.F a else pure a) (fun r s' => HN2 ext s' r (X ^ bn254Q ^ k)) := by
    refine Cmp.ite (fun hk => ?_) (fun hk => ?_)
    · have e : k = 2 * (k / 2) + 1 := by omega
      rw [e, Fq2.pow_q_odd]
      exact g2_conj h
    · have e : k = 2 * (k / 2) := by omega
      rw [e, Fq2.pow_q_even]
      exact Cmp.pure h
  refine Cmp.jp hconj fun a' s1 _ h1 => ?_
  obtain ⟨c0, c1, hc, hv⟩ := bnE2_coeffs (frobC k ^ i)
  have hc' : bnCfg.E2.coeffs (bnCfg.frob k i) = [c0, c1] := hc
  beta_reduce
  rw [hc']
  dsimp only
  refine Cmp.ite (fun h => ?_) (fun h => Cmp.ite (fun h' => ?_) (fun h' => ?_))
  · rw [Bool.and_eq_true] at h
    have e0 : c0 = 1 := of_decide_eq_true h.1
    have e1 : c1 = 0 := of_decide_eq_true h.2
    rw [hv, e0, e1, map_one, map_zero, zero_mul, add_zero, mul_one]
    exact Cmp.pure h1
  · have e1 : c1 = 0 := of_decide_eq_true h'
    rw [hv, e1, map_zero, zero_mul, add_zero]
    cb (load1_cmp c0) f hf
    cb (g2_fpMul h1.v hf) nc hnc
    exact g2_carry (by decide +kernel) hnc
  · cb (g2_loadConstant (frobC k ^ i)) f hf
    exact g2_mul h1 hf

theorem frobeniusMap_cmp {X : Fq12} (n : ℕ) (h : HN12 ext s a X) : Cmp bnTbl ext s (bnCfg.frobeniusMap a n) (fun r s' =>
    HN12 ext s' r (X ^ bn254Q ^ (n % 12))) := by
  obtain ⟨o0, o1, o2, o3, o4, o5, X0, X1, X2, X3, X4, X5, rfl, hs, h0, h1, h2, h3, h4, h5⟩ := slices_cmp h
  unfold frobeniusMap
  rw [hs, pure_bind]
  clear h hs
  generalize n % 12 = k
  rw [e6_pow_q]
  have hl : Cmp bnTbl ext s (bnCfg.frobLoop k 0 [o0, o1, o2, o3, o4, o5]) (fun r s' => ∃ r0 r1 r2 r3 r4 r5,
      r = [r0, r1, r2, r3, r4, r5] ∧ HN2 ext s' r0 (X0 ^ bn254Q ^ k * frobC k ^ 0) ∧ HN2 ext s' r1 (X1 ^ bn254Q ^ k * frobC k ^ 1) ∧
      HN2 ext s' r2 (X2 ^ bn254Q ^ k * frobC k ^ 2) ∧ HN2 ext s' r3 (X3 ^ bn254Q ^ k * frobC k ^ 3) ∧
      HN2 ext s' r4 (X4 ^ bn254Q ^ k * frobC k ^ 4) ∧ HN2 ext s' r5 (X5 ^ bn254Q ^ k * frobC k ^ 5)) := by
    simp only [frobLoop, bind_assoc, pure_bind]
    cb (frobCoeff_cmp k 0 h0) r0 q0
    cb (frobCoeff_cmp k (0 + 1) h1) r1 q1
    cb (frobCoeff_cmp k (0 + 1 + 1) h2) r2 q2
    cb (frobCoeff_cmp k (0 + 1 + 1 + 1) h3) r3 q3
    cb (frobCoeff_cmp k (0 + 1 + 1 + 1 + 1) h4) r4 q4
    cb (frobCoeff_cmp k (0 + 1 + 1 + 1 + 1 + 1) h5) r5 q5
    exact Cmp.pure ⟨r0, r1, r2, r3, r4, r5, rfl, q0, q1, q2, q3, q4, q5⟩
  refine Cmp.bind hl fun out s1 _ ho => ?_
  obtain ⟨r0, r1, r2, r3, r4, r5, rfl, q0, q1, q2, q3, q4, q5⟩ := ho
  rw [pow_zero, mul_one] at q0
  rw [pow_one] at q1
  exact join_cmp q0 q1 q2 q3 q4 q5

end H2
