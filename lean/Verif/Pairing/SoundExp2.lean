import Verif.Pairing.SoundExp

/-!
# Soundness of `final_exp.rs`: the Frobenius map, powers, the hard and the easy part
-/

set_option autoImplicit false
set_option linter.unusedSectionVars false
namespace H2
open PairCfg

/-- A conditional statement in the middle of a `do` block. -/
theorem Snd.jp {p : ℕ} [Fact p.Prime] {α β : Type} {tbl : ZMod p → Prop} {s : Ctx p} {c : Prop} [Decidable c] {m1 m2 : M p α} {f : α → M p β}
    {Q : (Cell → ZMod p) → α → Ctx p → Prop} {R : (Cell → ZMod p) → β → Ctx p → Prop} (h : Snd tbl s (if c then m1 else m2) Q)
    (k : ∀ a s1, Ext s s1 → Snd tbl s1 (f a) (fun w r s2 => Q w a s1 → R w r s2)) :
    Snd tbl s (if c then m1 >>= f else m2 >>= f) R := by
  split
  · rename_i hc
    rw [if_pos hc] at h
    exact Snd.bind h k
  · rename_i hc
    rw [if_neg hc] at h
    exact Snd.bind h k

/-! ### The Frobenius map -/

theorem bnE2_coeffs (v : Fq2) : ∃ c0 c1 : ZMod bn254Q, bnE2.coeffs v = [c0, c1] ∧
    v = algebraMap (ZMod bn254Q) Fq2 c0 + algebraMap (ZMod bn254Q) Fq2 c1 * Fq2.u := by
  obtain ⟨h1, h2⟩ := Classical.choose_spec (Fq2.span v)
  obtain ⟨c0, c1, h⟩ := list2 h1
  refine ⟨c0, c1, h, ?_⟩
  rw [h] at h2
  have h3 : v = lin [1, Fq2.u] [c0, c1] := h2
  simp only [lin, List.zipWith_cons_cons, List.zipWith_nil_left, List.sum_cons, List.sum_nil, mul_one, add_zero] at h3
  exact h3

theorem load1 (v : ZMod bn254Q) : Sound bnTbl (bnCfg.F.loadConstant v) (fun w r => R1 w r v) :=
  fun s => (bnLaws.loadConstant v s).weaken fun w r _ h => bnLaws.r_p w r v h

theorem load2 (v : Fq2) : Sound bnTbl (bnCfg.F2.loadConstant v) (fun w r => R2 w r v) := by
  intro s
  refine (bnLaws2.loadConstant v s).weaken fun w r _ h => ?_
  have h' := bnLaws2.r_p _ _ _ h
  obtain ⟨h1, h2⟩ := Classical.choose_spec (Fq2.span v)
  have e : bnLaws2.val v = v := by
    show lin Fq2.basis.e ((Classical.choose (Fq2.span v)).map fun x => x) = v
    rw [List.map_id']
    exact h2.symm
  rwa [e] at h'

theorem frobCoeff_sound (k i : ℕ) (a : List (CrtInt bn254R)) : Sound bnTbl (bnCfg.frobCoeff k i a) (fun w r => ∀ X, R2 w a X →
    R2 w r (X ^ bn254Q ^ k * frobC k ^ i)) := by
  intro s
  unfold frobCoeff
  have hconj : Sound bnTbl (if k % 2 ≠ 0 then fp2Conjugate bnCfg.F a else pure a) (fun w r => ∀ X, R2 w a X →
      R2 w r (X ^ bn254Q ^ k)) := by
    intro s
    refine Snd.ite (fun h => ?_) (fun h => ?_)
    · refine (f2_conj a s).weaken fun w r _ h1 X hX => ?_
      have e : k = 2 * (k / 2) + 1 := by omega
      rw [e, Fq2.pow_q_odd]
      exact h1 X hX
    · refine Snd.pure fun w _ X hX => ?_
      have e : k = 2 * (k / 2) := by omega
      rw [e, Fq2.pow_q_even]
      exact hX
  refine Snd.jp (hconj s) fun a' s1 _ => ?_
  obtain ⟨c0, c1, hc, hv⟩ := bnE2_coeffs (frobC k ^ i)
  have hc' : bnCfg.E2.coeffs (bnCfg.frob k i) = [c0, c1] := hc
  beta_reduce
  rw [hc']
  dsimp only
  refine Snd.ite (fun h => ?_) (fun h => Snd.ite (fun h' => ?_) (fun h' => ?_))
  · refine Snd.pure fun w _ h1 X hX => ?_
    rw [Bool.and_eq_true] at h
    have e0 : c0 = 1 := of_decide_eq_true h.1
    have e1 : c1 = 0 := of_decide_eq_true h.2
    rw [hv, e0, e1, map_one, map_zero, zero_mul, add_zero, mul_one]
    exact h1 X hX
  · refine Snd.bind (load1 c0 s1) fun f s2 _ => Snd.bind (f2_fpMul a' f s2) fun nc s3 _ => (f2_carry nc s3).weaken ?_
    rintro w r _ h3 h2 h1 h0 X hX
    have e1 : c1 = 0 := of_decide_eq_true h'
    rw [hv, e1, map_zero, zero_mul, add_zero]
    exact h3 _ _ (by decide +kernel) (h2 _ _ _ (h0 X hX).u h1)
  · refine Snd.bind (load2 (frobC k ^ i) s1) fun f s2 _ => (f2_mul a' f s2).weaken ?_
    rintro w r _ h2 h1 h0 X hX
    exact h2 _ _ (h0 X hX) h1

theorem slices_ret {α : Type} (a : List α) : Ret (p := bn254R) (slices a) (fun r => a.length = 12 ∧
    r = List.zipWith (fun x y => [x, y]) (a.take 6) (a.drop 6)) := by
  intro s r s' h
  unfold slices at h
  obtain ⟨u, s1, h1, h2⟩ := bind_some.1 h
  simp only [assertM] at h1
  split at h1
  · rename_i hl
    refine ⟨by simpa using hl, ?_⟩
    have := Option.some.inj h2
    exact (congrArg Prod.fst this).symm
  · simp at h1

theorem frobeniusMap_sound (a : List (CrtInt bn254R)) (n : ℕ) : Sound bnTbl (bnCfg.frobeniusMap a n) (fun w r => ∀ X, R12 w a X →
    R12 w r (X ^ bn254Q ^ (n % 12))) := by
  intro s
  have h0 : Snd bnTbl s (slices a) (fun _ _ _ => True) := by
    refine Snd.assert fun h => Snd.pure fun _ _ => trivial
  refine Snd.bindR h0 (slices_ret a) fun sl s1 _ hsl => ?_
  obtain ⟨h1, rfl⟩ := hsl
  obtain ⟨a0, a1, a2, a3, a4, a5, b0, b1, b2, b3, b4, b5, rfl⟩ := list12 h1
  generalize n % 12 = k
  have hl : Sound bnTbl (bnCfg.frobLoop k 0 [[a0, b0], [a1, b1], [a2, b2], [a3, b3], [a4, b4], [a5, b5]]) (fun w r =>
      ∃ r0 r1 r2 r3 r4 r5, r = [r0, r1, r2, r3, r4, r5] ∧ (∀ X, R2 w [a0, b0] X → R2 w r0 (X ^ bn254Q ^ k * frobC k ^ 0)) ∧
      (∀ X, R2 w [a1, b1] X → R2 w r1 (X ^ bn254Q ^ k * frobC k ^ 1)) ∧ (∀ X, R2 w [a2, b2] X → R2 w r2 (X ^ bn254Q ^ k * frobC k ^ 2)) ∧
      (∀ X, R2 w [a3, b3] X → R2 w r3 (X ^ bn254Q ^ k * frobC k ^ 3)) ∧ (∀ X, R2 w [a4, b4] X → R2 w r4 (X ^ bn254Q ^ k * frobC k ^ 4)) ∧
      (∀ X, R2 w [a5, b5] X → R2 w r5 (X ^ bn254Q ^ k * frobC k ^ 5))) := by
    intro s
    refine Snd.bind (frobCoeff_sound k 0 _ s) fun r0 s1 _ => ?_
    refine Snd.bind (Q := fun w r _ => ∃ r1 r2 r3 r4 r5, r = [r1, r2, r3, r4, r5] ∧
      (∀ X, R2 w [a1, b1] X → R2 w r1 (X ^ bn254Q ^ k * frobC k ^ 1)) ∧ (∀ X, R2 w [a2, b2] X → R2 w r2 (X ^ bn254Q ^ k * frobC k ^ 2)) ∧
      (∀ X, R2 w [a3, b3] X → R2 w r3 (X ^ bn254Q ^ k * frobC k ^ 3)) ∧ (∀ X, R2 w [a4, b4] X → R2 w r4 (X ^ bn254Q ^ k * frobC k ^ 4)) ∧
      (∀ X, R2 w [a5, b5] X → R2 w r5 (X ^ bn254Q ^ k * frobC k ^ 5))) ?_ fun rs s2 _ => Snd.pure ?_
    swap
    · rintro w - ⟨r1, r2, r3, r4, r5, rfl, h⟩ h0
      exact ⟨r0, r1, r2, r3, r4, r5, rfl, h0, h⟩
    refine Snd.bind (frobCoeff_sound k 1 _ s1) fun r1 s2 _ => ?_
    refine Snd.bind (Q := fun w r _ => ∃ r2 r3 r4 r5, r = [r2, r3, r4, r5] ∧
      (∀ X, R2 w [a2, b2] X → R2 w r2 (X ^ bn254Q ^ k * frobC k ^ 2)) ∧
      (∀ X, R2 w [a3, b3] X → R2 w r3 (X ^ bn254Q ^ k * frobC k ^ 3)) ∧ (∀ X, R2 w [a4, b4] X → R2 w r4 (X ^ bn254Q ^ k * frobC k ^ 4)) ∧
      (∀ X, R2 w [a5, b5] X → R2 w r5 (X ^ bn254Q ^ k * frobC k ^ 5))) ?_ fun rs s2 _ => Snd.pure ?_
    swap
    · rintro w - ⟨r2, r3, r4, r5, rfl, h⟩ h0
      exact ⟨r1, r2, r3, r4, r5, rfl, h0, h⟩
    refine Snd.bind (frobCoeff_sound k 2 _ s2) fun r2 s3 _ => ?_
    refine Snd.bind (Q := fun w r _ => ∃ r3 r4 r5, r = [r3, r4, r5] ∧
      (∀ X, R2 w [a3, b3] X → R2 w r3 (X ^ bn254Q ^ k * frobC k ^ 3)) ∧ (∀ X, R2 w [a4, b4] X → R2 w r4 (X ^ bn254Q ^ k * frobC k ^ 4)) ∧
      (∀ X, R2 w [a5, b5] X → R2 w r5 (X ^ bn254Q ^ k * frobC k ^ 5))) ?_ fun rs s2 _ => Snd.pure ?_
    swap
    · rintro w - ⟨r3, r4, r5, rfl, h⟩ h0
      exact ⟨r2, r3, r4, r5, rfl, h0, h⟩
    refine Snd.bind (frobCoeff_sound k 3 _ s3) fun r3 s4 _ => ?_
    refine Snd.bind (Q := fun w r _ => ∃ r4 r5, r = [r4, r5] ∧
      (∀ X, R2 w [a4, b4] X → R2 w r4 (X ^ bn254Q ^ k * frobC k ^ 4)) ∧
      (∀ X, R2 w [a5, b5] X → R2 w r5 (X ^ bn254Q ^ k * frobC k ^ 5))) ?_ fun rs s2 _ => Snd.pure ?_
    swap
    · rintro w - ⟨r4, r5, rfl, h⟩ h0
      exact ⟨r3, r4, r5, rfl, h0, h⟩
    refine Snd.bind (frobCoeff_sound k 4 _ s4) fun r4 s5 _ => ?_
    refine Snd.bind (Q := fun w r _ => ∃ r5, r = [r5] ∧
      (∀ X, R2 w [a5, b5] X → R2 w r5 (X ^ bn254Q ^ k * frobC k ^ 5))) ?_ fun rs s2 _ => Snd.pure ?_
    swap
    · rintro w - ⟨r5, rfl, h⟩ h0
      exact ⟨r4, r5, rfl, h0, h⟩
    refine Snd.bind (frobCoeff_sound k 5 _ s5) fun r5 s6 _ => ?_
    refine Snd.bind (Q := fun w r _ => r = []) (Snd.pure fun _ _ => rfl) fun rs s2 _ => Snd.pure ?_
    rintro w - rfl h0
    exact ⟨r5, rfl, h0⟩
  refine Snd.bind (hl s1) fun out s2 _ => (join_sound' out s2).weaken ?_
  rintro w r _ hj ⟨r0, r1, r2, r3, r4, r5, rfl, k0, k1, k2, k3, k4, k5⟩ - X hX
  obtain ⟨a0', a1', a2', a3', a4', a5', b0', b1', b2', b3', b4', b5', e, X0, X1, X2, X3, X4, X5, rfl, q0, q1, q2, q3, q4, q5⟩ := hX.elim
  simp only [List.cons.injEq, and_true] at e
  obtain ⟨rfl, rfl, rfl, rfl, rfl, rfl, rfl, rfl, rfl, rfl, rfl, rfl⟩ := e
  rw [e6_pow_q]
  have h0 := k0 _ q0
  have h1 := k1 _ q1
  rw [pow_zero, mul_one] at h0
  rw [pow_one] at h1
  exact hj _ _ _ _ _ _ rfl _ _ _ _ _ _ h0 h1 (k2 _ q2) (k3 _ q3) (k4 _ q4) (k5 _ q5)

end H2
