import Verif.Props.CompleteExt
import Verif.Pairing.Rep

/-!
# Property C94: the predicates of the vector chip on representatives

`FieldVectorChip` (`fields/vector.rs`) derives the predicates of every extension chip from those of the base field, coordinate by
coordinate.  C48 says what they mean for elements of the extension; here: what they say about the integers in the cells, which may be
unreduced.
-/

set_option autoImplicit false
namespace H2
variable {p : ℕ} [Fact p.Prime] {s s' : Ctx p} {w : Cell → ZMod p} {ext : Cell → ZMod p} {c : FpChip p}

/-- The coordinates of the vector `as` are proper CRT integers of the integers `As`. -/
def VecInts (c : FpChip p) (w : Cell → ZMod p) (as : List (CrtInt p)) (As : List ℕ) : Prop := as.Forall₂ (ProperOk c.n c.k w) As

section
variable {E : ExtField c.ops} {gav : List c.ops.U → M p E.V} {mul : List c.ops.U → List c.ops.U → M p (List c.ops.U)}
variable {as bs : List (CrtInt p)} {As Bs : List ℕ} {z : AV p}

theorem softVec_prod {P : ℕ → Prop} [DecidablePred P] {as : List (CrtInt p)} {cs : List (ZMod p)} {As : List ℕ} {Q : CrtInt p → ZMod p → Prop}
    {R : CrtInt p → ℕ → Prop} (hq : ∀ a A c, R a A → Q a c → c = if P A then 1 else 0) (h : as.Forall₂ Q cs) (h' : as.Forall₂ R As) :
    cs.prod = if ∀ A ∈ As, P A then 1 else 0 := by
  induction h generalizing As with
  | nil => cases h'; simp
  | cons h _ ih =>
    cases h' with
    | cons h1 h2 =>
      rw [List.prod_cons, ih h2, hq _ _ _ h1 h]
      split_ifs <;> simp_all

theorem softVec_coprod {P : ℕ → Prop} [DecidablePred P] {as : List (CrtInt p)} {cs : List (ZMod p)} {As : List ℕ} {Q : CrtInt p → ZMod p → Prop}
    {R : CrtInt p → ℕ → Prop} (hq : ∀ a A c, R a A → Q a c → c = if P A then 1 else 0) (h : as.Forall₂ Q cs) (h' : as.Forall₂ R As) :
    1 - (cs.map (fun c => 1 - c)).prod = if ∃ A ∈ As, P A then 1 else 0 := by
  have h2 : (cs.map (fun c => 1 - c)).prod = if ∀ A ∈ As, ¬ P A then 1 else 0 := by
    induction h generalizing As with
    | nil => cases h'; simp
    | cons h _ ih =>
      cases h' with
      | @cons _ A _ _ h1 h2 =>
        rw [List.map_cons, List.prod_cons, ih h2, hq _ _ _ h1 h]
        by_cases e : P A <;> simp [e]
  rw [h2]
  by_cases e : ∃ A ∈ As, P A
  · rw [if_pos e, if_neg (by obtain ⟨A, h1, h2⟩ := e; exact fun h => h A h1 h2), sub_zero]
  · rw [if_neg e, if_pos (fun A hA hP => e ⟨A, hA, hP⟩), sub_self]

/-- C94 (`is_soft_zero`): 1 if every coordinate is the integer 0, otherwise 0 - also for other multiples of the modulus. -/
theorem C94_is_soft_zero (hi : Inv s) (hrun : (vecOps c.ops E gav mul).isSoftZero as s = some (z, s'))
    (hw : Sat (RangeTable p c.L) s' w) (ha : VecInts c w as As) : at' w z = if ∀ A ∈ As, A = 0 then 1 else 0 := by
  obtain ⟨cs, h1, h2⟩ := (foldGate1_and_sound (tbl := RangeTable p c.L) (f := c.ops.isSoftZero)
    (Q := fun w a r => ∀ A, ProperOk c.n c.k w a A → r = if A = 0 then 1 else 0) (fun a => bigIsZeroPositive_proper (n := c.n) (k := c.k) a) as).run hi hrun hw
  rw [h2]
  exact softVec_prod (P := fun A => A = 0) (fun a A c h1 h2 => h2 A h1) h1 ha

/-- C94 (`is_soft_nonzero`): 1 if some coordinate is a reduced nonzero integer, otherwise 0.  Nothing is said of the others. -/
theorem C94_is_soft_nonzero (h : FpOk c) (hi : Inv s) (hrun : (vecOps c.ops E gav mul).isSoftNonzero as s = some (z, s'))
    (hw : Sat (RangeTable p c.L) s' w) (ha : VecInts c w as As) : at' w z = if ∃ A ∈ As, A ≠ 0 ∧ A < c.modulus then 1 else 0 := by
  obtain ⟨cs, h1, h2⟩ := (foldGate1_or_sound (f := c.ops.isSoftNonzero)
    (Q := fun w a r => ∀ A, ProperOk c.n c.k w a A → r = if A ≠ 0 ∧ A < c.modulus then 1 else 0) (fun a => FpChip.isSoftNonzero_sound h a) as).run hi hrun hw
  rw [show at' w z = 1 - (1 - at' w z) by ring, h2]
  exact softVec_coprod (P := fun A => A ≠ 0 ∧ A < c.modulus) (fun a A c h1 h2 => h2 A h1) h1 ha

/-- C94 (`is_zero`): every coordinate is reduced, and the answer is whether all are 0. -/
theorem C94_is_zero (h : FpOk c) (hi : Inv s) (hrun : (vecOps c.ops E gav mul).isZero as s = some (z, s'))
    (hw : Sat (RangeTable p c.L) s' w) (ha : VecInts c w as As) :
    (∀ A ∈ As, A < c.modulus) ∧ at' w z = if ∀ A ∈ As, A = 0 then 1 else 0 := by
  obtain ⟨cs, h1, h2⟩ := (foldGate1_and_sound (f := c.ops.isZero)
    (Q := fun w a r => ∀ A, ProperOk c.n c.k w a A → A < c.modulus ∧ r = if A = 0 then 1 else 0)
    (fun a => FpChip.isZero_sound h a) as).run hi hrun hw
  rw [h2]
  refine ⟨?_, softVec_prod (P := fun A => A = 0) (fun a A c h1 h2 => (h2 A h1).2) h1 ha⟩
  clear h2 hrun
  unfold VecInts at ha
  induction h1 generalizing As with
  | nil => cases ha; simp
  | cons h _ ih =>
    cases ha with
    | cons h1 h2 =>
      intro A hA
      rcases List.mem_cons.1 hA with rfl | hA
      · exact (h _ h1).1
      · exact ih h2 A hA

/-- C94 (`assert_equal`): on vectors of one length, equal integers in every coordinate, all reduced. -/
theorem C94_assert_equal (h : FpOk c) {u : Unit} (hi : Inv s) (hrun : (vecOps c.ops E gav mul).assertEqual as bs s = some (u, s'))
    (hw : Sat (RangeTable p c.L) s' w) (ha : VecInts c w as As) (hb : VecInts c w bs Bs) (hl : as.length = bs.length) :
    As = Bs ∧ ∀ A ∈ As, A < c.modulus := by
  have h1 := (forZip_sound (f := c.ops.assertEqual) (Q := fun w a b => ∀ A B, ProperOk c.n c.k w a A → ProperOk c.n c.k w b B →
    A = B ∧ A < c.modulus) (fun a b => FpChip.assertEqual_sound h a b) as bs).run hi hrun hw hl
  clear hrun hl
  unfold VecInts at ha hb
  induction h1 generalizing As Bs with
  | nil => cases ha; cases hb; simp
  | cons h _ ih =>
    cases ha with
    | cons a1 a2 =>
      cases hb with
      | cons b1 b2 =>
        obtain ⟨rfl, e⟩ := ih a2 b2
        obtain ⟨rfl, e'⟩ := h _ _ a1 b1
        exact ⟨rfl, fun A hA => by rcases List.mem_cons.1 hA with rfl | hA; exacts [e', e A hA]⟩

/-- C94 (`assert_equal` on unequal lengths): it is `assert_equal` of the common part; what is beyond is not compared, whereas ... -/
theorem C94_assert_equal_zip (as bs : List (CrtInt p)) : (vecOps c.ops E gav mul).assertEqual as bs =
    (vecOps c.ops E gav mul).assertEqual (as.take bs.length) (bs.take as.length) := by
  change forZip c.ops.assertEqual as bs = forZip c.ops.assertEqual (as.take bs.length) (bs.take as.length)
  induction as generalizing bs with
  | nil => cases bs <;> rfl
  | cons a as ih =>
    cases bs with
    | nil => rfl
    | cons b bs =>
      change (do c.ops.assertEqual a b; forZip c.ops.assertEqual as bs) =
        (do c.ops.assertEqual a b; forZip c.ops.assertEqual (as.take bs.length) (bs.take as.length))
      rw [ih bs]

/-- ... `is_equal_unenforced`, additions, subtractions and `select` panic on unequal lengths. -/
theorem C94_zip_eq_panics (hl : as.length ≠ bs.length) (sel : AV p) :
    (vecOps c.ops E gav mul).isEqualUnenforced as bs s = none ∧ (vecOps c.ops E gav mul).addNoCarry as bs s = none ∧
      (vecOps c.ops E gav mul).subNoCarry as bs s = none ∧ vecSelect c.ops as bs sel s = none := by
  have hz : ∀ {α β γ : Type} (f : α → β → M p γ) (as : List α) (bs : List β) (s : Ctx p), as.length ≠ bs.length →
      zipEqList f as bs s = none := by
    intro α β γ f as
    induction as with
    | nil => intro bs s hl; cases bs; exacts [absurd rfl hl, rfl]
    | cons a as ih =>
      intro bs s hl
      cases bs with
      | nil => rfl
      | cons b bs =>
        change (f a b s).bind _ = none
        cases f a b s with
        | none => rfl
        | some x =>
          change (zipEqList f as bs x.2).bind _ = none
          rw [ih bs x.2 (by simpa using hl)]
          rfl
  have he : ∀ {α : Type} (f : α → α → M p (AV p)) (as bs : List α) (q : AV p) (s : Ctx p), as.length ≠ bs.length →
      foldEq f q as bs s = none := by
    intro α f as
    induction as with
    | nil => intro bs q s hl; cases bs; exacts [absurd rfl hl, rfl]
    | cons a as ih =>
      intro bs q s hl
      cases bs with
      | nil => rfl
      | cons b bs =>
        change (f a b s).bind _ = none
        cases f a b s with
        | none => rfl
        | some x =>
          change (and (.existing x.1) (.existing q) x.2).bind _ = none
          cases and (.existing x.1) (.existing q) x.2 with
          | none => rfl
          | some y => exact ih bs y.1 y.2 (by simpa using hl)
  refine ⟨?_, hz _ as bs s hl, hz _ as bs s hl, hz _ as bs s hl⟩
  change foldEq1 c.ops.isEqualUnenforced as bs s = none
  cases as with
  | nil => cases bs; exacts [absurd rfl hl, rfl]
  | cons a as =>
    cases bs with
    | nil => rfl
    | cons b bs =>
      change (c.ops.isEqualUnenforced a b s).bind _ = none
      cases c.ops.isEqualUnenforced a b s with
      | none => rfl
      | some x => exact he _ as bs x.1 x.2 (by simpa using hl)

/-- C94 (the empty vector): the predicates panic, `assert_equal` accepts. -/
theorem C94_empty (s : Ctx p) : (vecOps c.ops E gav mul).isSoftZero [] s = none ∧ (vecOps c.ops E gav mul).isSoftNonzero [] s = none ∧
    (vecOps c.ops E gav mul).isZero [] s = none ∧ (vecOps c.ops E gav mul).isEqualUnenforced [] [] s = none ∧
    ∀ bs, (vecOps c.ops E gav mul).assertEqual [] bs s = some ((), s) :=
  ⟨rfl, rfl, rfl, rfl, fun _ => rfl⟩

/-- C94 (completeness): `is_soft_zero` and `is_soft_nonzero` never fail on a nonempty vector of proper integers, reduced or not: they
constrain nothing (the comment above `is_soft_nonzero` in `fields/mod.rs` says that it constrains the integer to be reduced). -/
theorem C94_soft_completes (h : FpCmp c) (hg : Good (RangeTable p c.L) ext s) (ha : as.Forall₂ (ProperW c.n c.k ext s) As) (hne : As ≠ []) :
    Completes (RangeTable p c.L) ext s ((vecOps c.ops E gav mul).isSoftZero as)
        (fun r s' => Con ext s' r (if ∀ A ∈ As, A = 0 then 1 else 0)) ∧
      Completes (RangeTable p c.L) ext s ((vecOps c.ops E gav mul).isSoftNonzero as)
        (fun r s' => Con ext s' r (if ∃ A ∈ As, A ≠ 0 ∧ A < c.modulus then 1 else 0)) := by
  refine ⟨Cmp.run ?_ hg, Cmp.run ?_ hg⟩
  · refine (foldGate1_and_cmp (f := c.ops.isSoftZero) (S := ProperW c.n c.k ext) (P := fun A => A = 0) (fun _ _ _ _ h e => h.mono e)
      (fun s a A ha => ?_) ha hne).weaken fun r s' hr => ?_
    · exact (bigIsZeroPositive_cmp h.ok.ok.k1 h.cap ha)
    · exact hr
  · refine (foldGate1_or_cmp (f := c.ops.isSoftNonzero) (S := ProperW c.n c.k ext) (P := fun A => A ≠ 0 ∧ A < c.modulus)
      (fun _ _ _ _ h e => h.mono e) (fun s a A ha => ?_) ha hne).weaken fun r s' hr => ?_
    · exact FpChip.isSoftNonzero_cmp h ha
    · exact hr

end

/-- Load the integers `As` by `load_constant_uint` and ask `is_soft_nonzero` of the vector. -/
def loadSoftNonzero (c : FpChip p) (E : ExtField c.ops) (gav : List c.ops.U → M p E.V) (mul : List c.ops.U → List c.ops.U → M p (List c.ops.U))
    (As : List ℕ) : M p (AV p) := do
  let as ← mapList c.loadConstantUint As
  (vecOps c.ops E gav mul).isSoftNonzero as

/-- Non-vacuity and the finding, in `Fp2` of BN254: for the vector `(1, q)`, whose second coordinate is not reduced, the answer is 1; for
`(q, q)` it is 0, without failing. -/
theorem C94_instance (ext : Cell → ZMod bn254R) (As : List ℕ) (hA : ∀ A ∈ As, A < 2 ^ 264) (hne : As ≠ []) :
    Completes bnTbl ext (Ctx.new false 0 "" 0 [] [])
      (loadSoftNonzero bnChip bnE2 (extGetAssignedValue bnChip.ops bnE2 2) (fp2MulNoCarry bnChip.ops) As)
      (fun r s' => Con ext s' r (if ∃ A ∈ As, A ≠ 0 ∧ A < bn254Q then 1 else 0)) := by
  refine Cmp.run ?_ (good_new 0 "" 0)
  have hl : ∀ {s : Ctx bn254R} {As : List ℕ}, (∀ A ∈ As, A < 2 ^ 264) →
      Cmp bnTbl ext s (mapList bnChip.loadConstantUint As) (fun r s' => r.Forall₂ (ProperW bnChip.n bnChip.k ext s') As) := by
    intro s As
    induction As generalizing s with
    | nil => intro _; exact Cmp.pure .nil
    | cons A As ih =>
      intro h
      refine Cmp.bind (FpChip.loadConstantUint_cmp bnCmpOk (h A (by simp))) fun a s1 e1 ha => ?_
      refine Cmp.bind (ih fun A hA => h A (by simp [hA])) fun as s2 e2 has => Cmp.pure ?_
      exact .cons (ha.mono e2) has
  refine Cmp.bind (hl hA) fun as s1 e1 has => ?_
  refine (foldGate1_or_cmp (f := bnChip.ops.isSoftNonzero) (S := ProperW bnChip.n bnChip.k ext) (P := fun A => A ≠ 0 ∧ A < bn254Q)
      (fun _ _ _ _ h e => h.mono e) (fun s a A ha => ?_) has hne).weaken fun r s' hr => ?_
  · exact FpChip.isSoftNonzero_cmp bnCmpOk ha
  · exact hr

end H2
