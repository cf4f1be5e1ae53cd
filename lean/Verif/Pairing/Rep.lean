import Verif.Pairing.Math
import Verif.Pairing.Model

/-!
# Representation of points of `Fq2` and `Fq12`, and the size conditions of the pairing chip over BN254 with 88-bit limbs
-/

set_option autoImplicit false
set_option linter.unusedSectionVars false
namespace H2

/-- The chips of `bn254` with the native constants of the curve. -/
noncomputable abbrev bnCfg : PairCfg bn254R := ⟨bnChip, bnE2, bnE12, fun k i => frobC k ^ i, (1 : Fq12)⟩

/-- The range table of the chips. -/
abbrev bnTbl : ZMod bn254R → Prop := RangeTable bn254R 16

/-- In the assignment `w`, `a` represents the element `X` of `Fq`. -/
abbrev R1 (w : Cell → ZMod bn254R) (a : CrtInt bn254R) (X : ZMod bn254Q) : Prop := bnLaws.PRep w a X
/-- In the assignment `w`, `a` represents the element `X` of `Fq2`. -/
abbrev R2 (w : Cell → ZMod bn254R) (a : List (CrtInt bn254R)) (X : Fq2) : Prop := bnLaws2.PRep w a X
/-- In the assignment `w`, `a` represents the element `X` of `Fq12`. -/
abbrev R12 (w : Cell → ZMod bn254R) (a : List (CrtInt bn254R)) (X : Fq12) : Prop := bnLaws12.PRep w a X
/-- In the assignment `w`, the unreduced `a` represents the element `X` of `Fq2`, with sizes `s`. -/
abbrev U2 (w : Cell → ZMod bn254R) (a : List (CrtInt bn254R)) (X : Fq2) (s : List (ℕ × ℕ)) : Prop := bnLaws2.URep w a X s
abbrev U12 (w : Cell → ZMod bn254R) (a : List (CrtInt bn254R)) (X : Fq12) (s : List (ℕ × ℕ)) : Prop := bnLaws12.URep w a X s

/-- The sizes of points. -/
abbrev pS : List (ℕ × ℕ) := [(88, 2 ^ 254), (88, 2 ^ 254)]
abbrev pS12 : List (ℕ × ℕ) := List.replicate 12 (88, 2 ^ 254)

theorem R2.u {w : Cell → ZMod bn254R} {a : List (CrtInt bn254R)} {X : Fq2} (h : R2 w a X) : U2 w a X pS := by
  have := bnLaws2.p_u w a X h
  rw [bnLaws2_pSz] at this
  have e : (fp2Ops bnChip.ops bnE2).ofP a = a := List.map_id' a
  rwa [e] at this

theorem R12.u {w : Cell → ZMod bn254R} {a : List (CrtInt bn254R)} {X : Fq12} (h : R12 w a X) : U12 w a X pS12 := by
  have := bnLaws12.p_u w a X h
  rw [bnLaws12_pSz] at this
  have e : (fp12Ops bnChip.ops bnE12 9).ofP a = a := List.map_id' a
  rwa [e] at this

theorem R1.u {w : Cell → ZMod bn254R} {a : CrtInt bn254R} {X : ZMod bn254Q} (h : R1 w a X) : bnLaws.URep w a X (88, 2 ^ 254) := by
  have := bnLaws.p_u w a X h
  rw [bnLaws_pSz] at this
  exact this

/-! ### Sizes, on literals -/

/-- `x` can be carried. -/
def Fits (x : List (ℕ × ℕ)) : Bool := x.all fun y => decide (y.1 ≤ 240 ∧ y.2 ≤ 2 ^ 516)
/-- `x` can be checked to be zero. -/
def ZFits (x : List (ℕ × ℕ)) : Bool := x.all fun y => decide (y.1 ≤ 240 ∧ y.2 ≤ 2 ^ 515)

theorem bn_crtMax : 2 ^ 516 ≤ crtMax bnChip := by
  have hn : bnChip.n = 88 := rfl
  have hk : bnChip.k = 3 := rfl
  unfold crtMax
  rw [hn, hk, numBits, size_bn254R]
  decide +kernel

theorem bnLaws_carryFits' {x : ℕ × ℕ} (h : x.1 ≤ 240 ∧ x.2 ≤ 2 ^ 516) : bnLaws.carryFits x :=
  ⟨carryFits_88_3 _ _ h.1, h.2.trans bn_crtMax⟩

theorem Fits.c2 {x : List (ℕ × ℕ)} (h : Fits x = true) : bnLaws2.carryFits x :=
  fun y hy => bnLaws_carryFits' (of_decide_eq_true (List.all_eq_true.1 h y hy))
theorem Fits.c12 {x : List (ℕ × ℕ)} (h : Fits x = true) : bnLaws12.carryFits x :=
  fun y hy => bnLaws_carryFits' (of_decide_eq_true (List.all_eq_true.1 h y hy))
theorem ZFits.z2 {x : List (ℕ × ℕ)} (h : ZFits x = true) : bnLaws2.zeroFits x :=
  fun y hy => bnLaws_zeroFits (of_decide_eq_true (List.all_eq_true.1 h y hy))
theorem ZFits.z12 {x : List (ℕ × ℕ)} (h : ZFits x = true) : bnLaws12.zeroFits x :=
  fun y hy => bnLaws_zeroFits (of_decide_eq_true (List.all_eq_true.1 h y hy))

abbrev addS (x y : List (ℕ × ℕ)) : List (ℕ × ℕ) := List.zipWith (bnSz 0).add x y
abbrev mulS (x y : List (ℕ × ℕ)) : List (ℕ × ℕ) := fp2S (bnSz 0) x y
abbrev smulS (z : ℤ) (x : List (ℕ × ℕ)) : List (ℕ × ℕ) := x.map fun y : ℕ × ℕ => (y.1 + FpChip.mulBits z, y.2 * z.natAbs)
abbrev smulAddS (z : ℤ) (x y : List (ℕ × ℕ)) : List (ℕ × ℕ) :=
  List.zipWith (fun x y : ℕ × ℕ => (max (x.1 + FpChip.mulBits z) y.1 + 1, x.2 * z.natAbs + y.2)) x y
abbrev fpMulS (x : List (ℕ × ℕ)) : List (ℕ × ℕ) := x.map fun y : ℕ × ℕ => (2 + y.1 + 88, y.2 * 2 ^ 254)
/-- The sizes of `mul_no_carry_w6`. -/
def w6S (z : ℤ) : List (ℕ × ℕ) → List (ℕ × ℕ)
  | [x, y] => [(max (x.1 + FpChip.mulBits z) y.1 + 1, x.2 * z.natAbs + y.2), (max (y.1 + FpChip.mulBits z) x.1 + 1, y.2 * z.natAbs + x.2)]
  | _ => []

/-! ### The operations of `Fp2Chip` -/

section
variable (a b : List (CrtInt bn254R))

theorem f2_mulNC : Sound bnTbl (bnCfg.F2.mulNoCarry a b) (fun w r => ∀ X Y sx sy, U2 w a X sx → U2 w b Y sy →
    U2 w r (X * Y) (mulS sx sy)) := bnLaws2.mulNoCarry a b
theorem f2_add : Sound bnTbl (bnCfg.F2.addNoCarry a b) (fun w r => ∀ X Y sx sy, U2 w a X sx → U2 w b Y sy →
    U2 w r (X + Y) (addS sx sy)) := bnLaws2.addNoCarry a b
theorem f2_sub : Sound bnTbl (bnCfg.F2.subNoCarry a b) (fun w r => ∀ X Y sx sy, U2 w a X sx → U2 w b Y sy →
    U2 w r (X - Y) (addS sx sy)) := bnLaws2.subNoCarry a b
theorem f2_smul (z : ℤ) : Sound bnTbl (bnCfg.F2.scalarMulNoCarry a z) (fun w r => ∀ X sx, U2 w a X sx →
    U2 w r (X * (z : Fq2)) (smulS z sx)) := bnLaws2.scalarMulNoCarry a z
theorem f2_smulAdd (z : ℤ) : Sound bnTbl (bnCfg.F2.scalarMulAddNoCarry a b z) (fun w r => ∀ X Y sx sy, U2 w a X sx →
    U2 w b Y sy → U2 w r (X * (z : Fq2) + Y) (smulAddS z sx sy)) := bnLaws2.scalarMulAddNoCarry a b z
theorem f2_carry : Sound bnTbl (bnCfg.F2.carryMod a) (fun w r => ∀ X sx, Fits sx = true → U2 w a X sx → R2 w r X) :=
  fun s => (bnLaws2.carryMod a s).weaken fun _ _ _ h X sx hf hX => h X sx (Fits.c2 hf) hX
theorem f2_mul : Sound bnTbl (bnCfg.F2.mul a b) (fun w r => ∀ X Y, R2 w a X → R2 w b Y → R2 w r (X * Y)) :=
  fun s => (bnLaws2.mul a b s).weaken fun _ _ _ h X Y hX hY => by
    refine h X Y _ _ ?_ hX.u hY.u
    rw [bnLaws2_mulSz]
    exact Fits.c2 (by decide +kernel)
theorem f2_div : Sound bnTbl (bnCfg.F2.divideUnsafe a b) (fun w r => ∃ Q, R2 w r Q ∧ ∀ X Y sx sy,
    ZFits (addS (mulS pS sy) sx) = true → U2 w a X sx → U2 w b Y sy → Q * Y = X) := by
  intro s
  refine (bnLaws2.divideUnsafe a b s).weaken ?_
  rintro w r _ ⟨Q, hQ, h⟩
  refine ⟨Q, hQ, fun X Y sx sy hz hX hY => h X Y sx sy ?_ hX hY⟩
  rw [bnLaws2_pSz]
  exact ZFits.z2 hz
theorem f2_w6 (z : ℤ) : Sound bnTbl (mulNoCarryW6 bnCfg.F z a) (fun w r => ∀ X sx, U2 w a X sx →
    U2 w r (X * ((z : Fq2) + Fq2.u)) (w6S z sx)) := by
  intro s
  refine (mulNoCarryW6_sound (K2 := Fq2) bnLaws z a s).weaken ?_
  intro w r _ h X sx hX
  obtain ⟨qs, q1, q2, q3, q4⟩ := id hX
  obtain ⟨s0, s1, rfl⟩ := list2 (q := sx) (by rw [q4]; exact (List.length_map _).trans q1)
  exact h Fq2.u X s0 s1 Fq2.u_sq hX
theorem f2_fpMul (x : CrtInt bn254R) : Sound bnTbl (fpMulNoCarry bnCfg.F a x) (fun w r => ∀ X sx c, U2 w a X sx → R1 w x c →
    U2 w r (X * algebraMap (ZMod bn254Q) Fq2 c) (fpMulS sx)) := by
  intro s
  refine (fpMulNoCarry_sound (K2 := Fq2) bnLaws a x s).weaken ?_
  intro w r _ h X sx c hX hc
  exact h _ X c sx (88, 2 ^ 254) hX hc.u
theorem f2_conj : Sound bnTbl (fp2Conjugate bnCfg.F a) (fun w r => ∀ X, R2 w a X → R2 w r (Fq2.conj X)) :=
  fun s => (fp2Conjugate_sound (K2 := Fq2) bnLaws a s).weaken fun _ _ _ h X hX => (h Fq2.u X Fq2.σ Fq2.σ_u).1 hX
theorem f2_negConj : Sound bnTbl (fp2NegConjugate bnCfg.F a) (fun w r => ∀ X, R2 w a X → R2 w r (-Fq2.conj X)) :=
  fun s => (fp2NegConjugate_sound (K2 := Fq2) bnLaws a s).weaken fun _ _ _ h X hX => (h Fq2.u X Fq2.σ Fq2.σ_u).1 hX

/-! ### The operations of `Fp12Chip` -/

theorem f12_mul : Sound bnTbl (bnCfg.F12.mul a b) (fun w r => ∀ X Y, R12 w a X → R12 w b Y → R12 w r (X * Y)) :=
  fun s => (bnLaws12.mul a b s).weaken fun _ _ _ h X Y hX hY => by
    refine h X Y _ _ ?_ hX.u hY.u
    rw [bnLaws12_mulSz]
    exact Fits.c12 (by decide +kernel)
theorem f12_div : Sound bnTbl (bnCfg.F12.divideUnsafe a b) (fun w r => ∃ Q, R12 w r Q ∧ ∀ X Y, R12 w a X → R12 w b Y → Q * Y = X) := by
  intro s
  refine (bnLaws12.divideUnsafe a b s).weaken ?_
  rintro w r _ ⟨Q, hQ, h⟩
  refine ⟨Q, hQ, fun X Y hX hY => h X Y _ _ ?_ hX.u hY.u⟩
  have := bnLaws12_div
  rwa [bnLaws12_pSz] at this ⊢

/-- `Fq12 → Fq12`, `w ↦ -w`: the sixth power of Frobenius. -/
noncomputable def Fq12.σ6 : Fq12 →ₐ[ZMod bn254Q] Fq12 where
  toFun := fun x => x ^ bn254Q ^ 6
  map_one' := one_pow _
  map_mul' := fun x y => mul_pow x y _
  map_zero' := zero_pow (Nat.pos_iff_ne_zero.1 (Nat.pow_pos (by decide +kernel)))
  map_add' := fun x y => add_pow_char_pow x y bn254Q 6
  commutes' := fun r => by
    have : ∀ k : ℕ, r ^ bn254Q ^ k = r := by
      intro k
      induction k with
      | zero => simp
      | succ k ih => rw [pow_succ, pow_mul, ih, ZMod.pow_card]
    rw [← map_pow, this 6]

theorem f12_conj : Sound bnTbl (fp12Conjugate bnCfg.F a) (fun w r => ∀ X, R12 w a X → R12 w r (X ^ bn254Q ^ 6)) := by
  have hu : Fq12.σ6 Fq12.u = Fq12.u := by
    show (Fq12.ι Fq2.u) ^ bn254Q ^ 6 = Fq12.ι Fq2.u
    rw [← map_pow, show (6 : ℕ) = 2 * 3 by norm_num, Fq2.pow_q_even 3]
  have hw : Fq12.σ6 Fq12.w = -Fq12.w := by
    show Fq12.w ^ bn254Q ^ 6 = -Fq12.w
    have e : Fq12.w = e6 0 1 0 0 0 0 := by simp [e6]
    rw [e, e6_pow_q6]
    simp [e6]
  exact fun s => (fp12Conjugate_sound (K2 := Fq12) bnLaws a s).weaken fun _ _ _ h X hX => (h Fq12.u Fq12.w X Fq12.σ6 hu hw).1 hX

end

/-! ### Coordinates -/

theorem R2.mk {w : Cell → ZMod bn254R} {a b : CrtInt bn254R} {x y : ZMod bn254Q} (h1 : R1 w a x) (h2 : R1 w b y) :
    R2 w [a, b] ⟨x, y⟩ := by
  refine ⟨[x, y], rfl, .cons h1 (.cons h2 .nil), ?_⟩
  simp only [Fq2.basis, lin, List.zipWith_cons_cons, List.zipWith_nil_left, List.sum_cons, List.sum_nil, Fq2.alg]
  ext <;> simp

theorem R2.elim {w : Cell → ZMod bn254R} {a : List (CrtInt bn254R)} {X : Fq2} (h : R2 w a X) :
    ∃ a0 a1, a = [a0, a1] ∧ R1 w a0 X.re ∧ R1 w a1 X.im := by
  obtain ⟨xs, x1, x2, rfl⟩ := h
  obtain ⟨x, y, rfl⟩ := list2 x1
  cases x2 with
  | cons h1 h2 =>
    cases h2 with
    | cons h2 h3 =>
      cases h3
      refine ⟨_, _, rfl, ?_, ?_⟩
      · simpa [Fq2.basis, lin, Fq2.alg] using h1
      · simpa [Fq2.basis, lin, Fq2.alg] using h2

theorem R2.unique {w : Cell → ZMod bn254R} {a : List (CrtInt bn254R)} {X Y : Fq2} (h1 : R2 w a X) (h2 : R2 w a Y) : X = Y :=
  bnLaws2.p_unique _ _ _ _ h1 h2

theorem R12.unique {w : Cell → ZMod bn254R} {a : List (CrtInt bn254R)} {X Y : Fq12} (h1 : R12 w a X) (h2 : R12 w a Y) : X = Y :=
  bnLaws12.p_unique _ _ _ _ h1 h2

/-- The coordinates of a point of `Fq12` represent the coordinates of the element. -/
theorem R12.elim {w : Cell → ZMod bn254R} {a : List (CrtInt bn254R)} {X : Fq12} (h : R12 w a X) :
    ∃ a0 a1 a2 a3 a4 a5 b0 b1 b2 b3 b4 b5, a = [a0, a1, a2, a3, a4, a5, b0, b1, b2, b3, b4, b5] ∧ ∃ X0 X1 X2 X3 X4 X5,
      X = e6 X0 X1 X2 X3 X4 X5 ∧ R2 w [a0, b0] X0 ∧ R2 w [a1, b1] X1 ∧ R2 w [a2, b2] X2 ∧ R2 w [a3, b3] X3 ∧ R2 w [a4, b4] X4 ∧
      R2 w [a5, b5] X5 := by
  obtain ⟨xs, hl, hx, rfl⟩ := h
  obtain ⟨x0, x1, x2, x3, x4, x5, x6, x7, x8, x9, x10, x11, rfl⟩ := list12 hl
  obtain ⟨a0, a1, a2, a3, a4, a5, b0, b1, b2, b3, b4, b5, rfl⟩ := list12 (q := a) hx.length_eq
  change List.Forall₂ (fun a q => bnLaws.PRep w a q) _ _ at hx
  rcases hx with _ | ⟨h0, _ | ⟨h1, _ | ⟨h2, _ | ⟨h3, _ | ⟨h4, _ | ⟨h5, _ | ⟨k0, _ | ⟨k1, _ | ⟨k2, _ | ⟨k3, _ | ⟨k4, _ | ⟨k5, -⟩⟩⟩⟩⟩⟩⟩⟩⟩⟩⟩⟩
  refine ⟨a0, a1, a2, a3, a4, a5, b0, b1, b2, b3, b4, b5, rfl, _, _, _, _, _, _,
    (Fq12.lin_eq _ _ _ _ _ _ _ _ _ _ _ _).trans (e6_mk _ _ _ _ _ _).symm, R2.mk h0 k0, R2.mk h1 k1, R2.mk h2 k2, R2.mk h3 k3,
    R2.mk h4 k4, R2.mk h5 k5⟩

theorem R12.mk {w : Cell → ZMod bn254R} {a0 a1 a2 a3 a4 a5 b0 b1 b2 b3 b4 b5 : CrtInt bn254R} {X0 X1 X2 X3 X4 X5 : Fq2}
    (h0 : R2 w [a0, b0] X0) (h1 : R2 w [a1, b1] X1) (h2 : R2 w [a2, b2] X2) (h3 : R2 w [a3, b3] X3) (h4 : R2 w [a4, b4] X4)
    (h5 : R2 w [a5, b5] X5) : R12 w [a0, a1, a2, a3, a4, a5, b0, b1, b2, b3, b4, b5] (e6 X0 X1 X2 X3 X4 X5) := by
  have key : ∀ {a b : CrtInt bn254R} {X : Fq2}, R2 w [a, b] X → R1 w a X.re ∧ R1 w b X.im := by
    intro a b X h
    obtain ⟨a0, a1, e, h1, h2⟩ := h.elim
    simp only [List.cons.injEq, and_true] at e
    obtain ⟨rfl, rfl⟩ := e
    exact ⟨h1, h2⟩
  refine ⟨[X0.re, X1.re, X2.re, X3.re, X4.re, X5.re, X0.im, X1.im, X2.im, X3.im, X4.im, X5.im], rfl,
    .cons (key h0).1 (.cons (key h1).1 (.cons (key h2).1 (.cons (key h3).1 (.cons (key h4).1 (.cons (key h5).1
    (.cons (key h0).2 (.cons (key h1).2 (.cons (key h2).2 (.cons (key h3).2 (.cons (key h4).2 (.cons (key h5).2 .nil))))))))))), ?_⟩
  exact ((Fq12.lin_eq _ _ _ _ _ _ _ _ _ _ _ _).trans (e6_mk _ _ _ _ _ _).symm).symm

theorem mapList_pure {p : ℕ} [Fact p.Prime] {α β : Type} (f : α → β) (l : List α) : mapList (p := p) (fun x => pure (f x)) l =
    pure (l.map f) := by
  induction l with
  | nil => rfl
  | cons a l ih => rw [mapList, ih]; rfl

/-- `join` of six points of `Fq2`. -/
theorem join_sound' (o : List (List (CrtInt bn254R))) : Sound bnTbl (PairCfg.join o) (fun w r => ∀ o0 o1 o2 o3 o4 o5,
    o = [o0, o1, o2, o3, o4, o5] → ∀ X0 X1 X2 X3 X4 X5, R2 w o0 X0 → R2 w o1 X1 → R2 w o2 X2 → R2 w o3 X3 → R2 w o4 X4 → R2 w o5 X5 →
      R12 w r (e6 X0 X1 X2 X3 X4 X5)) := by
  intro s
  refine Snd.bind (mapList_sound (Q := fun _ (x : List (CrtInt bn254R)) y => x[0]? = some y)
    (fun x s => Snd.weaken (unwrap_rd _).snd fun _ _ _ h => h.2) _ s) fun xs s1 _ => ?_
  refine Snd.bind (mapList_sound (Q := fun _ (x : List (CrtInt bn254R)) y => x[1]? = some y)
    (fun x s => Snd.weaken (unwrap_rd _).snd fun _ _ _ h => h.2) _ s1) fun ys s2 _ => Snd.pure ?_
  rintro w _ hy hx o0 o1 o2 o3 o4 o5 rfl X0 X1 X2 X3 X4 X5 h0 h1 h2 h3 h4 h5
  obtain ⟨a0, b0, rfl, -⟩ := h0.elim
  obtain ⟨a1, b1, rfl, -⟩ := h1.elim
  obtain ⟨a2, b2, rfl, -⟩ := h2.elim
  obtain ⟨a3, b3, rfl, -⟩ := h3.elim
  obtain ⟨a4, b4, rfl, -⟩ := h4.elim
  obtain ⟨a5, b5, rfl, -⟩ := h5.elim
  simp only [List.forall₂_cons_left_iff, List.forall₂_nil_left_iff, List.getElem?_cons_zero, List.getElem?_cons_succ,
    Option.some.injEq] at hx hy
  obtain ⟨_, _, rfl, ⟨_, _, rfl, ⟨_, _, rfl, ⟨_, _, rfl, ⟨_, _, rfl, ⟨_, _, rfl, rfl, rfl⟩, rfl⟩, rfl⟩, rfl⟩, rfl⟩, rfl⟩ := hx
  obtain ⟨_, _, rfl, ⟨_, _, rfl, ⟨_, _, rfl, ⟨_, _, rfl, ⟨_, _, rfl, ⟨_, _, rfl, rfl, rfl⟩, rfl⟩, rfl⟩, rfl⟩, rfl⟩, rfl⟩ := hy
  exact R12.mk h0 h1 h2 h3 h4 h5

theorem join_sound (o0 o1 o2 o3 o4 o5 : List (CrtInt bn254R)) : Sound bnTbl (PairCfg.join [o0, o1, o2, o3, o4, o5]) (fun w r =>
    ∀ X0 X1 X2 X3 X4 X5, R2 w o0 X0 → R2 w o1 X1 → R2 w o2 X2 → R2 w o3 X3 → R2 w o4 X4 → R2 w o5 X5 →
      R12 w r (e6 X0 X1 X2 X3 X4 X5)) :=
  fun s => (join_sound' _ s).weaken fun _ _ _ h => h _ _ _ _ _ _ rfl

end H2
