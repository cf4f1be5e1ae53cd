import Verif.Fields.LawsExt
import Mathlib.Tactic.LinearCombination

/-!
# The multiplications of `Fp2Chip` and `Fp12Chip`

The multiplication of the model is followed on pairs (represented element, size) by the same arithmetic on plain values.
-/

set_option autoImplicit false
set_option linter.unusedSectionVars false
namespace H2
variable {p : ℕ} [Fact p.Prime] {tbl : ZMod p → Prop}

/-- Plain arithmetic. -/
structure Arith (α : Type) where
  add : α → α → α
  sub : α → α → α
  mul : α → α → α
  smulAdd : α → α → α

section
variable {α : Type} (A : Arith α)

def accS (v : List α) (k : ℕ) (c : α) : List α :=
  match v[k]? with
  | some x => v.set k (A.add x c)
  | none => v ++ [c]

def fp12StepS (acc : Acc4 α) (a0 a1 b0 b1 : α) (k : ℕ) : Acc4 α :=
  ⟨accS A acc.c00 k (A.mul a0 b0), accS A acc.c01 k (A.mul a0 b1), accS A acc.c10 k (A.mul a1 b0), accS A acc.c11 k (A.mul a1 b1)⟩

def fp12InnerS (a0 a1 : α) (k : ℕ) (acc : Acc4 α) : List α → List α → Acc4 α
  | b0 :: bs0, b1 :: bs1 => fp12InnerS a0 a1 (k + 1) (fp12StepS A acc a0 a1 b0 b1 k) bs0 bs1
  | _, _ => acc

def fp12OuterS (bs0 bs1 : List α) (k : ℕ) (acc : Acc4 α) : List α → List α → Acc4 α
  | a0 :: as0, a1 :: as1 => fp12OuterS bs0 bs1 (k + 1) (fp12InnerS A a0 a1 k acc bs0 bs1) as0 as1
  | _, _ => acc

def fp12CombineS : List α → List α → List α → List α → List α × List α
  | x00 :: c00, x01 :: c01, x10 :: c10, x11 :: c11 =>
    (A.sub x00 x11 :: (fp12CombineS c00 c01 c10 c11).1, A.add x01 x10 :: (fp12CombineS c00 c01 c10 c11).2)
  | _, _, _, _ => ([], [])

def fp12Out0S : List α → List α → List α → List α
  | lo :: los, hi :: his, ei :: eis => A.sub (A.smulAdd hi lo) ei :: fp12Out0S los his eis
  | los, _, _ => los

def fp12Out1S : List α → List α → List α → List α
  | lo :: los, hi :: his, ei :: eis => A.smulAdd ei (A.add lo hi) :: fp12Out1S los his eis
  | los, _, _ => los

/-- The plain arithmetic of `Fp12Chip::mul_no_carry`. -/
def fp12S (a b : List α) : List α :=
  let acc := fp12OuterS A (b.take 6) (b.drop 6) 0 ⟨[], [], [], []⟩ (a.take 6) (a.drop 6)
  let de := fp12CombineS A acc.c00 acc.c01 acc.c10 acc.c11
  fp12Out0S A (de.1.take 6) (de.1.drop 6) (de.2.drop 6) ++ fp12Out1S A (de.2.take 6) (de.1.drop 6) (de.2.drop 6)

/-- The plain arithmetic of `Fp2Chip::mul_no_carry`. -/
def fp2S : List α → List α → List α
  | [a0, a1], [b0, b1] => [A.sub (A.mul a0 b0) (A.mul a1 b1), A.add (A.mul a0 b1) (A.mul a1 b0)]
  | _, _ => []

end

section
variable {K : Type} [Field K] [DecidableEq K] {K2 : Type} [Field K2] [DecidableEq K2] [Algebra K K2]
variable {F : FieldOps p} (l : FieldLaws F K tbl) (B : ExtBasis K K2)

/-- Arithmetic on (element, size). -/
def FieldLaws.arith (xi : ℤ) : Arith (K × l.Sz) where
  add := fun x y => (x.1 + y.1, l.addSz x.2 y.2)
  sub := fun x y => (x.1 - y.1, l.subSz x.2 y.2)
  mul := fun x y => (x.1 * y.1, l.mulSz x.2 y.2)
  smulAdd := fun x y => (x.1 * (xi : K) + y.1, l.smulAddSz xi x.2 y.2)

/-- Arithmetic on sizes. -/
def FieldLaws.szArith (xi : ℤ) : Arith l.Sz where
  add := l.addSz
  sub := l.subSz
  mul := l.mulSz
  smulAdd := l.smulAddSz xi

/-- The pair `q` describes the unreduced point `a`. -/
def FieldLaws.Desc (w : Cell → ZMod p) (a : F.U) (q : K × l.Sz) : Prop := l.URep w a q.1 q.2

/-- The accumulators are described. -/
def FieldLaws.Desc4 (w : Cell → ZMod p) (a : Acc4 F.U) (q : Acc4 (K × l.Sz)) : Prop :=
  List.Forall₂ (l.Desc w) a.c00 q.c00 ∧ List.Forall₂ (l.Desc w) a.c01 q.c01 ∧ List.Forall₂ (l.Desc w) a.c10 q.c10 ∧
    List.Forall₂ (l.Desc w) a.c11 q.c11

theorem forall₂_get {α β : Type} {R : α → β → Prop} {as : List α} {bs : List β} (h : List.Forall₂ R as bs) (k : ℕ) :
    (as[k]? = none ∧ bs[k]? = none) ∨ ∃ a b, as[k]? = some a ∧ bs[k]? = some b ∧ R a b := by
  induction h generalizing k with
  | nil => left; simp
  | cons h _ ih =>
    cases k with
    | zero => right; exact ⟨_, _, rfl, rfl, h⟩
    | succ k => simpa using ih k

theorem forall₂_set {α β : Type} {R : α → β → Prop} {as : List α} {bs : List β} (h : List.Forall₂ R as bs) (k : ℕ) {a : α} {b : β}
    (hab : R a b) : List.Forall₂ R (as.set k a) (bs.set k b) := by
  induction h generalizing k with
  | nil => exact .nil
  | cons h h' ih =>
    cases k with
    | zero => exact .cons hab h'
    | succ k => exact .cons h (ih k)

theorem accAdd_sound (xi : ℤ) (v : List F.U) (k : ℕ) (c : F.U) : Sound tbl (accAdd F v k c) (fun w r => ∀ qs qc,
    List.Forall₂ (l.Desc w) v qs → l.Desc w c qc → List.Forall₂ (l.Desc w) r (accS (l.arith xi) qs k qc)) := by
  intro s
  unfold accAdd
  cases hv : v[k]? with
  | none =>
    refine Snd.pure fun w _ qs qc hq hc => ?_
    rcases forall₂_get hq k with ⟨-, h⟩ | ⟨a, b, h, -⟩
    · simp only [accS, h]
      exact List.rel_append hq (.cons hc .nil)
    · rw [hv] at h; simp at h
  | some x =>
    refine Snd.bind (l.addNoCarry x c s) fun y s1 _ => Snd.pure fun w _ hy qs qc hq hc => ?_
    rcases forall₂_get hq k with ⟨h, -⟩ | ⟨a, b, h, hb, hab⟩
    · rw [hv] at h; simp at h
    · rw [hv] at h
      obtain rfl := Option.some.inj h
      simp only [accS, hb]
      exact forall₂_set hq k (hy _ _ _ _ hab hc)

theorem fp12Step_sound (xi : ℤ) (acc : Acc4 F.U) (a0 a1 b0 b1 : F.U) (k : ℕ) :
    Sound tbl (fp12Step F acc a0 a1 b0 b1 k) (fun w r => ∀ q x0 x1 y0 y1, l.Desc4 w acc q → l.Desc w a0 x0 → l.Desc w a1 x1 →
      l.Desc w b0 y0 → l.Desc w b1 y1 → l.Desc4 w r (fp12StepS (l.arith xi) q x0 x1 y0 y1 k)) := by
  intro s
  refine Snd.bind (l.mulNoCarry a0 b0 s) fun m00 s1 _ => Snd.bind (l.mulNoCarry a0 b1 s1) fun m01 s2 _ => ?_
  refine Snd.bind (l.mulNoCarry a1 b0 s2) fun m10 s3 _ => Snd.bind (l.mulNoCarry a1 b1 s3) fun m11 s4 _ => ?_
  refine Snd.bind (accAdd_sound l xi _ _ _ s4) fun c00 s5 _ => Snd.bind (accAdd_sound l xi _ _ _ s5) fun c01 s6 _ => ?_
  refine Snd.bind (accAdd_sound l xi _ _ _ s6) fun c10 s7 _ => Snd.bind (accAdd_sound l xi _ _ _ s7) fun c11 s8 _ => Snd.pure ?_
  intro w _ h11 h10 h01 h00 k11 k10 k01 k00 q x0 x1 y0 y1 hq hx0 hx1 hy0 hy1
  exact ⟨h00 _ _ hq.1 (k00 _ _ _ _ hx0 hy0), h01 _ _ hq.2.1 (k01 _ _ _ _ hx0 hy1), h10 _ _ hq.2.2.1 (k10 _ _ _ _ hx1 hy0),
    h11 _ _ hq.2.2.2 (k11 _ _ _ _ hx1 hy1)⟩

theorem fp12Inner_sound (xi : ℤ) (a0 a1 : F.U) : ∀ (bs0 bs1 : List F.U) (k : ℕ) (acc : Acc4 F.U),
    Sound tbl (fp12Inner F a0 a1 k acc bs0 bs1) (fun w r => ∀ q x0 x1 ys0 ys1, l.Desc4 w acc q → l.Desc w a0 x0 → l.Desc w a1 x1 →
      List.Forall₂ (l.Desc w) bs0 ys0 → List.Forall₂ (l.Desc w) bs1 ys1 →
      l.Desc4 w r (fp12InnerS (l.arith xi) x0 x1 k q ys0 ys1))
  | b0 :: bs0, b1 :: bs1, k, acc => fun s => by
    refine Snd.bind (fp12Step_sound l xi acc a0 a1 b0 b1 k s) fun acc' s1 _ =>
      (fp12Inner_sound xi a0 a1 bs0 bs1 (k + 1) acc' s1).weaken ?_
    intro w r _ h2 h1 q x0 x1 ys0 ys1 hq hx0 hx1 hy0 hy1
    cases hy0 with
    | cons u0 v0 =>
      cases hy1 with
      | cons u1 v1 => exact h2 _ _ _ _ _ (h1 _ _ _ _ _ hq hx0 hx1 u0 u1) hx0 hx1 v0 v1
  | [], bs1, k, acc => fun s => by
    unfold fp12Inner
    refine Snd.pure ?_
    intro w _ q x0 x1 ys0 ys1 hq _ _ hy0 hy1
    cases hy0
    exact hq
  | b0 :: bs0, [], k, acc => fun s => by
    unfold fp12Inner
    refine Snd.pure ?_
    intro w _ q x0 x1 ys0 ys1 hq _ _ hy0 hy1
    cases hy1; cases hy0
    exact hq

theorem fp12Outer_sound (xi : ℤ) (bs0 bs1 : List F.U) : ∀ (as0 as1 : List F.U) (k : ℕ) (acc : Acc4 F.U),
    Sound tbl (fp12Outer F bs0 bs1 k acc as0 as1) (fun w r => ∀ q xs0 xs1 ys0 ys1, l.Desc4 w acc q →
      List.Forall₂ (l.Desc w) as0 xs0 → List.Forall₂ (l.Desc w) as1 xs1 →
      List.Forall₂ (l.Desc w) bs0 ys0 → List.Forall₂ (l.Desc w) bs1 ys1 →
      l.Desc4 w r (fp12OuterS (l.arith xi) ys0 ys1 k q xs0 xs1))
  | a0 :: as0, a1 :: as1, k, acc => fun s => by
    refine Snd.bind (fp12Inner_sound l xi a0 a1 bs0 bs1 k acc s) fun acc' s1 _ =>
      (fp12Outer_sound xi bs0 bs1 as0 as1 (k + 1) acc' s1).weaken ?_
    intro w r _ h2 h1 q xs0 xs1 ys0 ys1 hq hx0 hx1 hy0 hy1
    cases hx0 with
    | cons u0 v0 =>
      cases hx1 with
      | cons u1 v1 => exact h2 _ _ _ _ _ (h1 _ _ _ _ _ hq u0 u1 hy0 hy1) v0 v1 hy0 hy1
  | [], as1, k, acc => fun s => by
    unfold fp12Outer
    refine Snd.pure ?_
    intro w _ q xs0 xs1 ys0 ys1 hq hx0 hx1 _ _
    cases hx0
    exact hq
  | a0 :: as0, [], k, acc => fun s => by
    unfold fp12Outer
    refine Snd.pure ?_
    intro w _ q xs0 xs1 ys0 ys1 hq hx0 hx1 _ _
    cases hx1; cases hx0
    exact hq

theorem fp12Combine_sound (xi : ℤ) : ∀ c00 c01 c10 c11 : List F.U,
    Sound tbl (fp12Combine F c00 c01 c10 c11) (fun w r => ∀ q00 q01 q10 q11, List.Forall₂ (l.Desc w) c00 q00 →
      List.Forall₂ (l.Desc w) c01 q01 → List.Forall₂ (l.Desc w) c10 q10 → List.Forall₂ (l.Desc w) c11 q11 →
      List.Forall₂ (l.Desc w) r.1 (fp12CombineS (l.arith xi) q00 q01 q10 q11).1 ∧
      List.Forall₂ (l.Desc w) r.2 (fp12CombineS (l.arith xi) q00 q01 q10 q11).2)
  | x00 :: c00, x01 :: c01, x10 :: c10, x11 :: c11 => fun s => by
    refine Snd.bind (l.subNoCarry x00 x11 s) fun d s1 _ => Snd.bind (l.addNoCarry x01 x10 s1) fun e s2 _ =>
      Snd.bind (fp12Combine_sound xi c00 c01 c10 c11 s2) fun de s3 _ => Snd.pure ?_
    intro w _ h3 h2 h1 q00 q01 q10 q11 k00 k01 k10 k11
    cases k00 with
    | cons a00 b00 =>
    cases k01 with
    | cons a01 b01 =>
    cases k10 with
    | cons a10 b10 =>
    cases k11 with
    | cons a11 b11 =>
      have := h3 _ _ _ _ b00 b01 b10 b11
      exact ⟨.cons (h1 _ _ _ _ a00 a11) this.1, .cons (h2 _ _ _ _ a01 a10) this.2⟩
  | [], c01, c10, c11 => fun s => by
    unfold fp12Combine
    refine Snd.pure ?_
    intro w _ q00 q01 q10 q11 k00 k01 k10 k11
    cases k00
    exact ⟨.nil, .nil⟩
  | x00 :: c00, [], c10, c11 => fun s => by
    unfold fp12Combine
    refine Snd.pure ?_
    intro w _ q00 q01 q10 q11 k00 k01 k10 k11
    cases k00; cases k01
    exact ⟨.nil, .nil⟩
  | x00 :: c00, x01 :: c01, [], c11 => fun s => by
    unfold fp12Combine
    refine Snd.pure ?_
    intro w _ q00 q01 q10 q11 k00 k01 k10 k11
    cases k00; cases k01; cases k10
    exact ⟨.nil, .nil⟩
  | x00 :: c00, x01 :: c01, x10 :: c10, [] => fun s => by
    unfold fp12Combine
    refine Snd.pure ?_
    intro w _ q00 q01 q10 q11 k00 k01 k10 k11
    cases k00; cases k01; cases k10; cases k11
    exact ⟨.nil, .nil⟩

theorem fp12Out0_sound (xi : ℤ) : ∀ lo hi ei : List F.U,
    Sound tbl (fp12Out0 F xi lo hi ei) (fun w r => ∀ ql qh qe, List.Forall₂ (l.Desc w) lo ql →
      List.Forall₂ (l.Desc w) hi qh → List.Forall₂ (l.Desc w) ei qe → List.Forall₂ (l.Desc w) r (fp12Out0S (l.arith xi) ql qh qe))
  | lo :: los, hi :: his, ei :: eis => fun s => by
    refine Snd.bind (l.scalarMulAddNoCarry hi lo xi s) fun d s1 _ => Snd.bind (l.subNoCarry d ei s1) fun e s2 _ =>
      Snd.bind (fp12Out0_sound xi los his eis s2) fun de s3 _ => Snd.pure ?_
    intro w _ h3 h2 h1 ql qh qe k1 k2 k3
    cases k1 with
    | cons a1 b1 =>
    cases k2 with
    | cons a2 b2 =>
    cases k3 with
    | cons a3 b3 => exact .cons (h2 _ _ _ _ (h1 _ _ _ _ a2 a1) a3) (h3 _ _ _ b1 b2 b3)
  | [], hi, ei => fun s => by
    unfold fp12Out0
    refine Snd.pure ?_
    intro w _ ql qh qe k1 k2 k3
    cases k1
    exact .nil
  | lo :: los, [], ei => fun s => by
    unfold fp12Out0
    refine Snd.pure ?_
    intro w _ ql qh qe k1 k2 k3
    cases k2
    cases k1 with
    | cons a1 b1 => exact .cons a1 b1
  | lo :: los, hi :: his, [] => fun s => by
    unfold fp12Out0
    refine Snd.pure ?_
    intro w _ ql qh qe k1 k2 k3
    cases k3; cases k2
    cases k1 with
    | cons a1 b1 => exact .cons a1 b1

theorem fp12Out1_sound (xi : ℤ) : ∀ lo hi ei : List F.U,
    Sound tbl (fp12Out1 F xi lo hi ei) (fun w r => ∀ ql qh qe, List.Forall₂ (l.Desc w) lo ql →
      List.Forall₂ (l.Desc w) hi qh → List.Forall₂ (l.Desc w) ei qe → List.Forall₂ (l.Desc w) r (fp12Out1S (l.arith xi) ql qh qe))
  | lo :: los, hi :: his, ei :: eis => fun s => by
    refine Snd.bind (l.addNoCarry lo hi s) fun d s1 _ => Snd.bind (l.scalarMulAddNoCarry ei d xi s1) fun e s2 _ =>
      Snd.bind (fp12Out1_sound xi los his eis s2) fun de s3 _ => Snd.pure ?_
    intro w _ h3 h2 h1 ql qh qe k1 k2 k3
    cases k1 with
    | cons a1 b1 =>
    cases k2 with
    | cons a2 b2 =>
    cases k3 with
    | cons a3 b3 => exact .cons (h2 _ _ _ _ a3 (h1 _ _ _ _ a1 a2)) (h3 _ _ _ b1 b2 b3)
  | [], hi, ei => fun s => by
    unfold fp12Out1
    refine Snd.pure ?_
    intro w _ ql qh qe k1 k2 k3
    cases k1
    exact .nil
  | lo :: los, [], ei => fun s => by
    unfold fp12Out1
    refine Snd.pure ?_
    intro w _ ql qh qe k1 k2 k3
    cases k2
    cases k1 with
    | cons a1 b1 => exact .cons a1 b1
  | lo :: los, hi :: his, [] => fun s => by
    unfold fp12Out1
    refine Snd.pure ?_
    intro w _ ql qh qe k1 k2 k3
    cases k3; cases k2
    cases k1 with
    | cons a1 b1 => exact .cons a1 b1

theorem forall₂_take {α β : Type} {R : α → β → Prop} {as : List α} {bs : List β} (h : List.Forall₂ R as bs) (k : ℕ) :
    List.Forall₂ R (as.take k) (bs.take k) := List.forall₂_take k h

theorem forall₂_drop {α β : Type} {R : α → β → Prop} {as : List α} {bs : List β} (h : List.Forall₂ R as bs) (k : ℕ) :
    List.Forall₂ R (as.drop k) (bs.drop k) := List.forall₂_drop k h

theorem fp12MulNoCarry_desc (xi : ℤ) (a b : List F.U) : Sound tbl (fp12MulNoCarry F xi a b) (fun w r => ∀ qa qb,
    List.Forall₂ (l.Desc w) a qa → List.Forall₂ (l.Desc w) b qb → List.Forall₂ (l.Desc w) r (fp12S (l.arith xi) qa qb)) := by
  intro s
  refine Snd.assert fun _ => Snd.assert fun _ => Snd.bind (fp12Outer_sound l xi _ _ _ _ _ _ s) fun acc s1 _ => ?_
  refine Snd.bind (fp12Combine_sound l xi _ _ _ _ s1) fun de s2 _ => Snd.bind (fp12Out0_sound l xi _ _ _ s2) fun r0 s3 _ => ?_
  refine Snd.bind (fp12Out1_sound l xi _ _ _ s3) fun r1 s4 _ => Snd.pure ?_
  intro w _ h4 h3 h2 h1 qa qb ha hb
  have k1 := h1 ⟨[], [], [], []⟩ _ _ _ _ ⟨.nil, .nil, .nil, .nil⟩ (forall₂_take ha 6) (forall₂_drop ha 6) (forall₂_take hb 6)
    (forall₂_drop hb 6)
  have k2 := h2 _ _ _ _ k1.1 k1.2.1 k1.2.2.1 k1.2.2.2
  exact List.rel_append (h3 _ _ _ (forall₂_take k2.1 6) (forall₂_drop k2.1 6) (forall₂_drop k2.2 6))
    (h4 _ _ _ (forall₂_take k2.2 6) (forall₂_drop k2.1 6) (forall₂_drop k2.2 6))

theorem list12 {α : Type} {q : List α} (h : q.length = 12) : ∃ a0 a1 a2 a3 a4 a5 a6 a7 a8 a9 a10 a11,
    q = [a0, a1, a2, a3, a4, a5, a6, a7, a8, a9, a10, a11] := by
  match q, h with
  | [a0, a1, a2, a3, a4, a5, a6, a7, a8, a9, a10, a11], _ => exact ⟨_, _, _, _, _, _, _, _, _, _, _, _, rfl⟩

/-- The basis `1, w, …, w⁵, u, uw, …, uw⁵`. -/
def basis12 (u w : K2) : List K2 := [1, w, w ^ 2, w ^ 3, w ^ 4, w ^ 5, u, u * w, u * w ^ 2, u * w ^ 3, u * w ^ 4, u * w ^ 5]

/-- Field arithmetic. -/
def fieldArith (R : Type) [CommRing R] (xi : R) : Arith R where
  add := (· + ·)
  sub := (· - ·)
  mul := (· * ·)
  smulAdd := fun x y => x * xi + y

set_option maxHeartbeats 4000000 in
theorem fp12_identity {R : Type} [CommRing R] {u w xi : R} (hu : u * u = -1) (hw : w ^ 6 = u + xi) (a0 a1 a2 a3 a4 a5 a6 a7 a8 a9 a10 a11 b0 b1 b2 b3 b4 b5 b6 b7 b8 b9 b10 b11 : R) :
    (List.zipWith (fun x b => x * b) (fp12S (fieldArith R xi) [a0, a1, a2, a3, a4, a5, a6, a7, a8, a9, a10, a11] [b0, b1, b2, b3, b4, b5, b6, b7, b8, b9, b10, b11])
      [1, w, w ^ 2, w ^ 3, w ^ 4, w ^ 5, u, u * w, u * w ^ 2, u * w ^ 3, u * w ^ 4, u * w ^ 5]).sum =
    (List.zipWith (fun x b => x * b) [a0, a1, a2, a3, a4, a5, a6, a7, a8, a9, a10, a11]
      [1, w, w ^ 2, w ^ 3, w ^ 4, w ^ 5, u, u * w, u * w ^ 2, u * w ^ 3, u * w ^ 4, u * w ^ 5]).sum *
    (List.zipWith (fun x b => x * b) [b0, b1, b2, b3, b4, b5, b6, b7, b8, b9, b10, b11]
      [1, w, w ^ 2, w ^ 3, w ^ 4, w ^ 5, u, u * w, u * w ^ 2, u * w ^ 3, u * w ^ 4, u * w ^ 5]).sum := by
  simp only [fp12S, fp12OuterS, fp12InnerS, fp12StepS, accS, fp12CombineS, fp12Out0S, fp12Out1S, fieldArith, List.take, List.drop,
    List.getElem?_nil, List.getElem?_cons_zero, List.getElem?_cons_succ, List.nil_append, List.cons_append, List.set, Nat.reduceAdd,
    zero_add, List.zipWith_cons_cons, List.zipWith_nil_left, List.sum_cons, List.sum_nil, add_zero]
  linear_combination (-((a6 * w ^ 0 + a7 * w ^ 1 + a8 * w ^ 2 + a9 * w ^ 3 + a10 * w ^ 4 + a11 * w ^ 5) * (b6 * w ^ 0 + b7 * w ^ 1 + b8 * w ^ 2 + b9 * w ^ 3 + b10 * w ^ 4 + b11 * w ^ 5) + (((a1 * b11 + a7 * b5) + (a2 * b10 + a8 * b4) + (a3 * b9 + a9 * b3) + (a4 * b8 + a10 * b2) + (a5 * b7 + a11 * b1)) * w ^ 0 + ((a2 * b11 + a8 * b5) + (a3 * b10 + a9 * b4) + (a4 * b9 + a10 * b3) + (a5 * b8 + a11 * b2)) * w ^ 1 + ((a3 * b11 + a9 * b5) + (a4 * b10 + a10 * b4) + (a5 * b9 + a11 * b3)) * w ^ 2 + ((a4 * b11 + a10 * b5) + (a5 * b10 + a11 * b4)) * w ^ 3 + ((a5 * b11 + a11 * b5)) * w ^ 4))) * hu - ((((a1 * b5 - a7 * b11) + (a2 * b4 - a8 * b10) + (a3 * b3 - a9 * b9) + (a4 * b2 - a10 * b8) + (a5 * b1 - a11 * b7)) + ((a1 * b11 + a7 * b5) + (a2 * b10 + a8 * b4) + (a3 * b9 + a9 * b3) + (a4 * b8 + a10 * b2) + (a5 * b7 + a11 * b1)) * u) * w ^ 0 + (((a2 * b5 - a8 * b11) + (a3 * b4 - a9 * b10) + (a4 * b3 - a10 * b9) + (a5 * b2 - a11 * b8)) + ((a2 * b11 + a8 * b5) + (a3 * b10 + a9 * b4) + (a4 * b9 + a10 * b3) + (a5 * b8 + a11 * b2)) * u) * w ^ 1 + (((a3 * b5 - a9 * b11) + (a4 * b4 - a10 * b10) + (a5 * b3 - a11 * b9)) + ((a3 * b11 + a9 * b5) + (a4 * b10 + a10 * b4) + (a5 * b9 + a11 * b3)) * u) * w ^ 2 + (((a4 * b5 - a10 * b11) + (a5 * b4 - a11 * b10)) + ((a4 * b11 + a10 * b5) + (a5 * b10 + a11 * b4)) * u) * w ^ 3 + (((a5 * b5 - a11 * b11)) + ((a5 * b11 + a11 * b5)) * u) * w ^ 4) * hw

theorem lin_eq (e : List K2) (xs : List K) : lin e xs = (List.zipWith (fun x b => x * b) (xs.map (algebraMap K K2)) e).sum := by
  rw [lin, List.zipWith_map_left]

set_option maxHeartbeats 2000000 in
/-- A structure-preserving map commutes with the multiplication of `Fp12Chip`. -/
theorem fp12S_map {α β : Type} {A : Arith α} {A' : Arith β} (f : α → β) (ha : ∀ x y, f (A.add x y) = A'.add (f x) (f y))
    (hs : ∀ x y, f (A.sub x y) = A'.sub (f x) (f y)) (hm : ∀ x y, f (A.mul x y) = A'.mul (f x) (f y))
    (hc : ∀ x y, f (A.smulAdd x y) = A'.smulAdd (f x) (f y)) {qa qb : List α} (h1 : qa.length = 12) (h2 : qb.length = 12) :
    (fp12S A qa qb).map f = fp12S A' (qa.map f) (qb.map f) := by
  obtain ⟨a0, a1, a2, a3, a4, a5, a6, a7, a8, a9, a10, a11, rfl⟩ := list12 h1
  obtain ⟨b0, b1, b2, b3, b4, b5, b6, b7, b8, b9, b10, b11, rfl⟩ := list12 h2
  simp only [fp12S, fp12OuterS, fp12InnerS, fp12StepS, accS, fp12CombineS, fp12Out0S, fp12Out1S, List.take, List.drop,
    List.getElem?_nil, List.getElem?_cons_zero, List.getElem?_cons_succ, List.nil_append, List.cons_append, List.set, Nat.reduceAdd,
    zero_add, List.map_cons, List.map_nil, ha, hs, hm, hc]

theorem fp12S_length {α : Type} (A : Arith α) {qa qb : List α} (h1 : qa.length = 12) (h2 : qb.length = 12) :
    (fp12S A qa qb).length = 12 := by
  obtain ⟨a0, a1, a2, a3, a4, a5, a6, a7, a8, a9, a10, a11, rfl⟩ := list12 h1
  obtain ⟨b0, b1, b2, b3, b4, b5, b6, b7, b8, b9, b10, b11, rfl⟩ := list12 h2
  simp only [fp12S, fp12OuterS, fp12InnerS, fp12StepS, accS, fp12CombineS, fp12Out0S, fp12Out1S, List.take, List.drop,
    List.getElem?_nil, List.getElem?_cons_zero, List.getElem?_cons_succ, List.nil_append, List.cons_append, List.set, Nat.reduceAdd,
    zero_add, List.length_cons, List.length_nil]

set_option maxHeartbeats 2000000 in
theorem fp12_lin {u w : K2} {xi : ℤ} (hu : u * u = -1) (hw : w ^ 6 = u + (xi : K2)) {xs ys : List K} (h1 : xs.length = 12)
    (h2 : ys.length = 12) :
    lin (basis12 u w) (fp12S (fieldArith K (xi : K)) xs ys) = lin (basis12 u w) xs * lin (basis12 u w) ys := by
  rw [lin_eq, lin_eq, lin_eq, fp12S_map (A' := fieldArith K2 (xi : K2)) (algebraMap K K2) (fun x y => map_add _ x y)
    (fun x y => map_sub _ x y) (fun x y => map_mul _ x y) (fun x y => by
      simp only [fieldArith]
      rw [map_add, map_mul, map_intCast]) h1 h2]
  obtain ⟨a0, a1, a2, a3, a4, a5, a6, a7, a8, a9, a10, a11, rfl⟩ := list12 h1
  obtain ⟨b0, b1, b2, b3, b4, b5, b6, b7, b8, b9, b10, b11, rfl⟩ := list12 h2
  exact fp12_identity hu hw _ _ _ _ _ _ _ _ _ _ _ _ _ _ _ _ _ _ _ _ _ _ _ _

/-- `Fp12Chip::mul_no_carry` multiplies. -/
theorem fp12_extMul {u w : K2} {xi : ℤ} (hu : u * u = -1) (hw : w ^ 6 = u + (xi : K2)) (B : ExtBasis K K2)
    (hB : B.e = basis12 u w) : ExtMul l B (fp12MulNoCarry F xi) (fp12S (l.szArith xi)) := by
  intro a b s
  refine (fp12MulNoCarry_desc l xi a b s).weaken ?_
  rintro v r _ h X Y sx sy ⟨qa, qa1, qa2, rfl, rfl⟩ ⟨qb, qb1, qb2, rfl, rfl⟩
  have hl : (basis12 u w).length = 12 := rfl
  rw [hB] at *
  rw [hl] at qa1 qb1
  refine ⟨fp12S (l.arith xi) qa qb, by rw [fp12S_length _ qa1 qb1, hl], h _ _ qa2 qb2, ?_, ?_⟩
  · rw [fp12S_map (A' := fieldArith K (xi : K)) Prod.fst (fun _ _ => rfl) (fun _ _ => rfl) (fun _ _ => rfl) (fun _ _ => rfl) qa1 qb1]
    exact (fp12_lin hu hw (by simpa using qa1) (by simpa using qb1)).symm
  · exact (fp12S_map (A' := l.szArith xi) Prod.snd (fun _ _ => rfl) (fun _ _ => rfl) (fun _ _ => rfl) (fun _ _ => rfl) qa1 qb1).symm

theorem list2 {α : Type} {q : List α} (h : q.length = 2) : ∃ a0 a1, q = [a0, a1] := by
  match q, h with
  | [a0, a1], _ => exact ⟨_, _, rfl⟩

theorem fp2MulNoCarry_desc (a b : List F.U) : Sound tbl (fp2MulNoCarry F a b) (fun w r => ∀ qa qb,
    List.Forall₂ (l.Desc w) a qa → List.Forall₂ (l.Desc w) b qb → List.Forall₂ (l.Desc w) r (fp2S (l.arith 0) qa qb)) := by
  intro s
  unfold fp2MulNoCarry
  split
  · next a0 a1 b0 b1 =>
    refine Snd.bind (l.mulNoCarry a0 b0 s) fun m00 s1 _ => Snd.bind (l.mulNoCarry a0 b1 s1) fun m01 s2 _ => ?_
    refine Snd.bind (l.mulNoCarry a1 b0 s2) fun m10 s3 _ => Snd.bind (l.mulNoCarry a1 b1 s3) fun m11 s4 _ => ?_
    refine Snd.bind (l.subNoCarry _ _ s4) fun c00 s5 _ => Snd.bind (l.addNoCarry _ _ s5) fun c01 s6 _ => Snd.pure ?_
    intro w _ h6 h5 h4 h3 h2 h1 qa qb ha hb
    obtain ⟨x0, x1, rfl⟩ := list2 ha.length_eq.symm
    obtain ⟨y0, y1, rfl⟩ := list2 hb.length_eq.symm
    simp only [List.forall₂_cons, List.forall₂_nil_left_iff, and_true] at ha hb
    exact .cons (h5 _ _ _ _ (h1 _ _ _ _ ha.1 hb.1) (h4 _ _ _ _ ha.2 hb.2)) (.cons (h6 _ _ _ _ (h2 _ _ _ _ ha.1 hb.2)
      (h3 _ _ _ _ ha.2 hb.1)) .nil)
  · exact Snd.panic

/-- `Fp2Chip::mul_no_carry` multiplies. -/
theorem fp2_extMul {u : K2} (hu : u * u = -1) (B : ExtBasis K K2)
    (hB : B.e = [1, u]) : ExtMul l B (fp2MulNoCarry F) (fp2S (l.szArith 0)) := by
  intro a b s
  refine (fp2MulNoCarry_desc l a b s).weaken ?_
  rintro v r _ h X Y sx sy ⟨qa, qa1, qa2, rfl, rfl⟩ ⟨qb, qb1, qb2, rfl, rfl⟩
  rw [hB] at *
  obtain ⟨x0, x1, rfl⟩ := list2 qa1
  obtain ⟨y0, y1, rfl⟩ := list2 qb1
  refine ⟨_, ?_, h _ _ qa2 qb2, ?_, rfl⟩
  · rfl
  · simp only [lin, fp2S, FieldLaws.arith, List.map_cons, List.map_nil, List.zipWith_cons_cons, List.zipWith_nil_left, List.sum_cons,
      List.sum_nil, map_add, map_sub, map_mul]
    linear_combination (algebraMap K K2 x1.1 * algebraMap K K2 y1.1) * hu

/-- `Fp2Chip` implements the extension. -/
def fp2Laws {u : K2} (hu : u * u = -1) (B : ExtBasis K K2) (hB : B.e = [1, u]) (E : ExtField F)
    (hE : ∀ v, (E.coeffs v).length = 2) (hz : ∀ v ∈ E.coeffs E.vzero, l.val v = 0) : FieldLaws (fp2Ops F E) K2 tbl :=
  vecLaws l B E 2 (by rw [hB]; rfl) hE hz (fp2MulNoCarry F) _ (fp2_extMul l hu B hB)

/-- `Fp12Chip` implements the extension. -/
def fp12Laws {u w : K2} {xi : ℤ} (hu : u * u = -1) (hw : w ^ 6 = u + (xi : K2)) (B : ExtBasis K K2)
    (hB : B.e = basis12 u w) (E : ExtField F) (hE : ∀ v, (E.coeffs v).length = 12) (hz : ∀ v ∈ E.coeffs E.vzero, l.val v = 0) :
    FieldLaws (fp12Ops F E xi) K2 tbl :=
  vecLaws l B E 12 (by rw [hB]; rfl) hE hz (fp12MulNoCarry F xi) _ (fp12_extMul l hu hw B hB)

end
end H2
