import Verif.Fields.LawsFp12

/-!
# The remaining operations of the extension chips, and the native chip
-/

set_option autoImplicit false
set_option linter.unusedSectionVars false
namespace H2
variable {p : ℕ} [Fact p.Prime] {tbl : ZMod p → Prop}

section
variable {K : Type} [Field K] [DecidableEq K] {K2 : Type} [Field K2] [DecidableEq K2] [Algebra K K2]
variable {F : FieldOps p} (l : FieldLaws F K tbl) (B : ExtBasis K K2)

/-- `is_soft_nonzero` of the extension chips. -/
theorem vec_softNonzero (hs : l.SoftNonzero) (E : ExtField F) (d : ℕ) (hd : B.e.length = d) (hE : ∀ v, (E.coeffs v).length = d)
    (hz : ∀ v ∈ E.coeffs E.vzero, l.val v = 0) (mulNC : List F.U → List F.U → M p (List F.U))
    (mulSz : List l.Sz → List l.Sz → List l.Sz) (hmul : ExtMul l B mulNC mulSz) :
    (vecLaws l B E d hd hE hz mulNC mulSz hmul).SoftNonzero := by
  intro a s
  refine (foldGate1_or_sound (Q := fun w a c => ∀ X, l.PRep w a X → (c = 0 ∨ c = 1) ∧ (c = 1 → X ≠ 0) ∧
      (l.RRep w a X → c = if X ≠ 0 then 1 else 0)) hs a s).weaken ?_
  rintro w r _ ⟨cs, h1, h2⟩ X ⟨xs, x1, x2, rfl⟩
  have hb : ∀ {as : List F.P} {cs : List (ZMod p)} {xs : List K}, List.Forall₂ (fun a c => ∀ X, l.PRep w a X → (c = 0 ∨ c = 1) ∧
      (c = 1 → X ≠ 0) ∧ (l.RRep w a X → c = if X ≠ 0 then 1 else 0)) as cs → List.Forall₂ (l.PRep w) as xs →
      (cs.map (fun c => 1 - c)).prod = 1 ∨ ((cs.map (fun c => 1 - c)).prod = 0 ∧ ¬ ∀ x ∈ xs, x = 0) := by
    clear * -
    intro as cs xs h
    induction h generalizing xs with
    | nil => intro h; cases h; left; simp
    | cons h _ ih =>
      intro hx
      cases hx with
      | cons b1 b2 =>
        rcases (h _ b1).1 with h0 | h0
        · rcases ih b2 with i | ⟨i, i'⟩
          · left; simp [h0, i]
          · right
            exact ⟨by simp [i], fun hh => i' fun x hx => hh x (by simp [hx])⟩
        · right
          exact ⟨by simp [h0], fun hh => (h _ b1).2.1 h0 (hh _ (by simp))⟩
  have hr : ∀ {as : List F.P} {cs : List (ZMod p)} {xs : List K}, List.Forall₂ (fun a c => ∀ X, l.PRep w a X → (c = 0 ∨ c = 1) ∧
      (c = 1 → X ≠ 0) ∧ (l.RRep w a X → c = if X ≠ 0 then 1 else 0)) as cs → List.Forall₂ (l.RRep w) as xs →
      (∃ x ∈ xs, x ≠ 0) → (cs.map (fun c => 1 - c)).prod = 0 := by
    clear * -
    intro as cs xs h
    induction h generalizing xs with
    | nil => intro h; cases h; simp
    | cons h _ ih =>
      intro hx
      cases hx with
      | cons b1 b2 =>
        rintro ⟨x, hx, hx0⟩
        rcases List.mem_cons.1 hx with rfl | hx
        · have := (h _ (l.r_p _ _ _ b1)).2.2 b1
          rw [if_pos hx0] at this
          simp [this]
        · simp [ih b2 ⟨x, hx, hx0⟩]
  have hn : lin B.e xs ≠ 0 ↔ ¬ ∀ x ∈ xs, x = 0 := not_congr (B.lin_eq_zero x1)
  refine ⟨?_, ?_, ?_⟩
  · rcases hb h1 x2 with h | ⟨h, -⟩
    · left; rw [h] at h2; linear_combination -h2
    · right; rw [h] at h2; linear_combination -h2
  · intro hr1
    rw [hn]
    rcases hb h1 x2 with h | ⟨h, h'⟩
    · rw [h, hr1] at h2
      simp at h2
    · exact h'
  · rintro ⟨ys, y1, y2, y3⟩
    obtain rfl := B.indep _ _ x1 y1 y3
    simp only [hn]
    rcases hb h1 x2 with h | ⟨h, h'⟩
    · rw [if_neg]
      · rw [h] at h2; linear_combination -h2
      · intro hh
        push Not at hh
        have := hr h1 y2 hh
        rw [h] at this
        exact one_ne_zero this
    · rw [if_pos h']
      rw [h] at h2; linear_combination -h2

/-! ### `Fp2Chip` -/

/-- `Fp2Chip::conjugate`. -/
theorem fp2Conjugate_sound (a : List F.P) : Sound tbl (fp2Conjugate F a) (fun w r => ∀ (u X : K2) (σ : K2 →ₐ[K] K2), σ u = -u →
    (vecRep [1, u] (l.PRep w) a X → vecRep [1, u] (l.PRep w) r (σ X)) ∧
    (vecRep [1, u] (l.RRep w) a X → vecRep [1, u] (l.RRep w) r (σ X))) := by
  intro s
  unfold fp2Conjugate
  split
  · next a0 a1 =>
    refine Snd.bind (l.negate a1 s) fun n s1 _ => Snd.pure fun w _ hn u X σ hσ => ⟨?_, ?_⟩
    all_goals
      rintro ⟨xs, x1, x2, rfl⟩
      obtain ⟨x, y, rfl⟩ := list2 x1
      simp only [List.forall₂_cons, List.forall₂_nil_left_iff, and_true] at x2
      refine ⟨[x, -y], rfl, ?_, ?_⟩
      · first
          | exact .cons x2.1 (.cons (l.r_p _ _ _ (hn _ x2.2)) .nil)
          | exact .cons x2.1 (.cons (hn _ (l.r_p _ _ _ x2.2)) .nil)
      · simp [lin, hσ]
  · exact Snd.panic

/-- `Fp2Chip::neg_conjugate`. -/
theorem fp2NegConjugate_sound (a : List F.P) : Sound tbl (fp2NegConjugate F a) (fun w r => ∀ (u X : K2) (σ : K2 →ₐ[K] K2), σ u = -u →
    (vecRep [1, u] (l.PRep w) a X → vecRep [1, u] (l.PRep w) r (-σ X)) ∧
    (vecRep [1, u] (l.RRep w) a X → vecRep [1, u] (l.RRep w) r (-σ X))) := by
  intro s
  unfold fp2NegConjugate
  split
  · next a0 a1 =>
    refine Snd.bind (l.negate a0 s) fun n s1 _ => Snd.pure fun w _ hn u X σ hσ => ⟨?_, ?_⟩
    all_goals
      rintro ⟨xs, x1, x2, rfl⟩
      obtain ⟨x, y, rfl⟩ := list2 x1
      simp only [List.forall₂_cons, List.forall₂_nil_left_iff, and_true] at x2
      refine ⟨[-x, y], rfl, ?_, ?_⟩
      · first
          | exact .cons (l.r_p _ _ _ (hn _ x2.1)) (.cons x2.2 .nil)
          | exact .cons (hn _ (l.r_p _ _ _ x2.1)) (.cons x2.2 .nil)
      · simp [lin, hσ]
        ring
  · exact Snd.panic

/-- `mul_no_carry_w6` multiplies by `XI_0 + u`. -/
theorem mulNoCarryW6_sound (xi : ℤ) (a : List F.U) : Sound tbl (mulNoCarryW6 F xi a) (fun w r => ∀ (u X : K2) (s0 s1 : l.Sz),
    u * u = -1 → vecURep l [1, u] w a X [s0, s1] →
    vecURep l [1, u] w r (X * ((xi : K2) + u)) [l.subSz (l.smulSz xi s0) s1, l.smulAddSz xi s1 s0]) := by
  intro s
  unfold mulNoCarryW6
  split
  · next a0 a1 =>
    refine Snd.bind (l.scalarMulNoCarry a0 xi s) fun x s1 _ => Snd.bind (l.subNoCarry x a1 s1) fun r0 s2 _ =>
      Snd.bind (l.scalarMulAddNoCarry a1 a0 xi s2) fun r1 s3 _ => Snd.pure ?_
    rintro w _ h3 h2 h1 u X z0 z1 hu ⟨qs, q1, q2, rfl, q3⟩
    obtain ⟨⟨x, _⟩, ⟨y, _⟩, rfl⟩ := list2 q1
    simp only [List.map_cons, List.map_nil, List.cons.injEq, and_true] at q3
    obtain ⟨rfl, rfl⟩ := q3
    simp only [List.forall₂_cons, List.forall₂_nil_left_iff, and_true] at q2
    refine ⟨[(_, _), (_, _)], rfl, .cons (h2 _ _ _ _ (h1 _ _ q2.1) q2.2) (.cons (h3 _ _ _ _ q2.2 q2.1) .nil), ?_, rfl⟩
    simp only [lin, List.map_cons, List.map_nil, List.zipWith_cons_cons, List.zipWith_nil_left, List.sum_cons, List.sum_nil, map_add,
      map_sub, map_mul, map_intCast]
    linear_combination (algebraMap K K2 y) * hu
  · exact Snd.panic

/-- `FieldVectorChip::fp_mul_no_carry`: multiplication by a scalar of the base field. -/
theorem fpMulNoCarry_sound (a : List F.U) (x : F.U) : Sound tbl (fpMulNoCarry F a x) (fun w r => ∀ (e : List K2) (X : K2) (c : K)
    (ss : List l.Sz) (sc : l.Sz), vecURep l e w a X ss → l.URep w x c sc →
    vecURep l e w r (X * algebraMap K K2 c) (ss.map fun s => l.mulSz s sc)) := by
  intro s
  refine (mapList_sound (fun a => l.mulNoCarry a x) a s).weaken ?_
  intro w r _ h e X c ss sc hX hc
  refine vecURep.map l (f := fun x => x * c) (g := fun x => x * algebraMap K K2 c) (by simp)
    (by intro x b u; rw [map_mul]; ring) ?_ hX
  refine List.Forall₂.imp ?_ h
  intro a r hh X sx hX
  exact hh _ _ _ _ hX hc

/-! ### `Fp12Chip` -/

/-- The sizes of `Fp12Chip::fp2_mul_no_carry`. -/
def fp12Fp2Sz (s0 s1 : l.Sz) (ss : List l.Sz) : List l.Sz :=
  List.zipWith (fun a b => l.subSz (l.mulSz a s0) (l.mulSz b s1)) (ss.take 6) (ss.drop 6) ++
  List.zipWith (fun a b => l.addSz (l.mulSz b s0) (l.mulSz a s1)) (ss.take 6) (ss.drop 6)

theorem fp2MulLoop0_sound (x y : F.U) : ∀ as bs : List F.U, Sound tbl (fp2MulLoop0 F x y as bs) (fun w r => ∀ qx qy qa qb,
    l.Desc w x qx → l.Desc w y qy → List.Forall₂ (l.Desc w) as qa → List.Forall₂ (l.Desc w) bs qb →
    List.Forall₂ (l.Desc w) r (List.zipWith (fun a b => (l.arith 0).sub ((l.arith 0).mul a qx) ((l.arith 0).mul b qy)) qa qb))
  | a :: as, b :: bs => fun s => by
    refine Snd.bind (l.mulNoCarry a x s) fun c1 s1 _ => Snd.bind (l.mulNoCarry b y s1) fun c2 s2 _ =>
      Snd.bind (l.subNoCarry c1 c2 s2) fun c s3 _ => Snd.bind (fp2MulLoop0_sound x y as bs s3) fun cs s4 _ => Snd.pure ?_
    intro w _ h4 h3 h2 h1 qx qy qa qb hx hy ha hb
    cases ha with
    | cons u0 v0 =>
      cases hb with
      | cons u1 v1 => exact .cons (h3 _ _ _ _ (h1 _ _ _ _ u0 hx) (h2 _ _ _ _ u1 hy)) (h4 _ _ _ _ hx hy v0 v1)
  | [], bs => fun s => by
    unfold fp2MulLoop0
    refine Snd.pure ?_
    intro w _ qx qy qa qb hx hy ha hb
    cases ha
    exact .nil
  | a :: as, [] => fun s => by
    unfold fp2MulLoop0
    refine Snd.pure ?_
    intro w _ qx qy qa qb hx hy ha hb
    cases hb; cases ha
    exact .nil

theorem fp2MulLoop1_sound (x y : F.U) : ∀ as bs : List F.U, Sound tbl (fp2MulLoop1 F x y as bs) (fun w r => ∀ qx qy qa qb,
    l.Desc w x qx → l.Desc w y qy → List.Forall₂ (l.Desc w) as qa → List.Forall₂ (l.Desc w) bs qb →
    List.Forall₂ (l.Desc w) r (List.zipWith (fun a b => (l.arith 0).add ((l.arith 0).mul b qx) ((l.arith 0).mul a qy)) qa qb))
  | a :: as, b :: bs => fun s => by
    refine Snd.bind (l.mulNoCarry b x s) fun c1 s1 _ => Snd.bind (l.mulNoCarry a y s1) fun c2 s2 _ =>
      Snd.bind (l.addNoCarry c1 c2 s2) fun c s3 _ => Snd.bind (fp2MulLoop1_sound x y as bs s3) fun cs s4 _ => Snd.pure ?_
    intro w _ h4 h3 h2 h1 qx qy qa qb hx hy ha hb
    cases ha with
    | cons u0 v0 =>
      cases hb with
      | cons u1 v1 => exact .cons (h3 _ _ _ _ (h1 _ _ _ _ u1 hx) (h2 _ _ _ _ u0 hy)) (h4 _ _ _ _ hx hy v0 v1)
  | [], bs => fun s => by
    unfold fp2MulLoop1
    refine Snd.pure ?_
    intro w _ qx qy qa qb hx hy ha hb
    cases ha
    exact .nil
  | a :: as, [] => fun s => by
    unfold fp2MulLoop1
    refine Snd.pure ?_
    intro w _ qx qy qa qb hx hy ha hb
    cases hb; cases ha
    exact .nil

/-- `Fp12Chip::fp2_mul_no_carry` multiplies by an element of `Fp2`. -/
theorem fp12Fp2MulNoCarry_sound (a b : List F.U) : Sound tbl (fp12Fp2MulNoCarry F a b) (fun v r => ∀ (u w X Y : K2)
    (ss : List l.Sz) (s0 s1 : l.Sz), u * u = -1 → vecURep l (basis12 u w) v a X ss → vecURep l [1, u] v b Y [s0, s1] →
    vecURep l (basis12 u w) v r (X * Y) (fp12Fp2Sz l s0 s1 ss)) := by
  intro s
  unfold fp12Fp2MulNoCarry
  split
  · next x y =>
    refine Snd.assert fun _ => Snd.bind (fp2MulLoop0_sound l x y _ _ s) fun r0 s1 _ =>
      Snd.bind (fp2MulLoop1_sound l x y _ _ s1) fun r1 s2 _ => Snd.pure ?_
    rintro v _ h2 h1 u w X Y ss z0 z1 hu ⟨qs, q1, q2, rfl, rfl⟩ ⟨ts, t1, t2, rfl, t3⟩
    obtain ⟨⟨x, _⟩, ⟨y, _⟩, rfl⟩ := list2 t1
    simp only [List.map_cons, List.map_nil, List.cons.injEq, and_true] at t3
    obtain ⟨rfl, rfl⟩ := t3
    simp only [List.forall₂_cons, List.forall₂_nil_left_iff, and_true] at t2
    have k1 := h1 (x, _) (y, _) _ _ t2.1 t2.2 (forall₂_take q2 6) (forall₂_drop q2 6)
    have k2 := h2 (x, _) (y, _) _ _ t2.1 t2.2 (forall₂_take q2 6) (forall₂_drop q2 6)
    refine ⟨_, ?_, List.rel_append k1 k2, ?_, ?_⟩
    all_goals
      obtain ⟨a0, a1, a2, a3, a4, a5, a6, a7, a8, a9, a10, a11, rfl⟩ := list12 q1
    · rfl
    · simp only [lin, basis12, FieldLaws.arith, List.take, List.drop, List.map_cons, List.map_nil, List.zipWith_cons_cons,
        List.zipWith_nil_left, List.sum_cons, List.sum_nil, List.cons_append, List.nil_append, map_add, map_sub, map_mul]
      linear_combination ((algebraMap K K2 a6.1 + algebraMap K K2 a7.1 * w + algebraMap K K2 a8.1 * w ^ 2 + algebraMap K K2 a9.1 * w ^ 3 +
        algebraMap K K2 a10.1 * w ^ 4 + algebraMap K K2 a11.1 * w ^ 5) * algebraMap K K2 y) * hu
    · rfl
  · exact Snd.panic

theorem conjLoop_sound : ∀ (b : Bool) (as : List F.P), Sound tbl (conjLoop F b as) (fun w r => ∀ xs,
    (List.Forall₂ (l.PRep w) as xs → List.Forall₂ (l.PRep w) r (xs.mapIdx fun i x => if (i % 2 == 0) = b then x else -x)) ∧
    (List.Forall₂ (l.RRep w) as xs → List.Forall₂ (l.RRep w) r (xs.mapIdx fun i x => if (i % 2 == 0) = b then x else -x)))
  | b, [] => fun s => by
    unfold conjLoop
    refine Snd.pure ?_
    intro w _ xs
    constructor <;> intro h <;> cases h <;> exact .nil
  | true, a :: as => fun s => by
    refine Snd.bind (conjLoop_sound false as s) fun rs s1 _ => Snd.pure ?_
    intro w _ h xs
    constructor
    · intro hx
      cases hx with
      | cons b1 b2 =>
        rw [List.mapIdx_cons]
        refine .cons (by simpa using b1) ?_
        convert (h _).1 b2 using 3
        rename_i i
        funext x
        rcases Nat.mod_two_eq_zero_or_one i with hi | hi <;> simp [hi, Nat.add_mod]
    · intro hx
      cases hx with
      | cons b1 b2 =>
        rw [List.mapIdx_cons]
        refine .cons (by simpa using b1) ?_
        convert (h _).2 b2 using 3
        rename_i i
        funext x
        rcases Nat.mod_two_eq_zero_or_one i with hi | hi <;> simp [hi, Nat.add_mod]
  | false, a :: as => fun s => by
    refine Snd.bind (l.negate a s) fun n s1 _ => Snd.bind (conjLoop_sound true as s1) fun rs s2 _ => Snd.pure ?_
    intro w _ h hn xs
    constructor
    · intro hx
      cases hx with
      | cons b1 b2 =>
        rw [List.mapIdx_cons]
        refine .cons (by simpa using l.r_p _ _ _ (hn _ b1)) ?_
        convert (h _).1 b2 using 3
        rename_i i
        funext x
        rcases Nat.mod_two_eq_zero_or_one i with hi | hi <;> simp [hi, Nat.add_mod]
    · intro hx
      cases hx with
      | cons b1 b2 =>
        rw [List.mapIdx_cons]
        refine .cons (by simpa using (hn _ (l.r_p _ _ _ b1))) ?_
        convert (h _).2 b2 using 3
        rename_i i
        funext x
        rcases Nat.mod_two_eq_zero_or_one i with hi | hi <;> simp [hi, Nat.add_mod]

/-- `Fp12Chip::conjugate`. -/
theorem fp12Conjugate_sound (a : List F.P) : Sound tbl (fp12Conjugate F a) (fun v r => ∀ (u w X : K2) (σ : K2 →ₐ[K] K2), σ u = u →
    σ w = -w → (vecRep (basis12 u w) (l.PRep v) a X → vecRep (basis12 u w) (l.PRep v) r (σ X)) ∧
    (vecRep (basis12 u w) (l.RRep v) a X → vecRep (basis12 u w) (l.RRep v) r (σ X))) := by
  intro s
  refine Snd.assert fun _ => (conjLoop_sound l true a s).weaken ?_
  intro v r _ h u w X σ hu hw
  have key : ∀ xs : List K, xs.length = (basis12 u w).length →
      σ (lin (basis12 u w) xs) = lin (basis12 u w) (xs.mapIdx fun i x => if (i % 2 == 0) = true then x else -x) := by
    intro xs hx
    obtain ⟨a0, a1, a2, a3, a4, a5, a6, a7, a8, a9, a10, a11, rfl⟩ := list12 hx
    simp [lin, basis12, hu, hw]
    ring
  constructor
  · rintro ⟨xs, x1, x2, rfl⟩
    exact ⟨_, by simpa using x1, (h xs).1 x2, key xs x1⟩
  · rintro ⟨xs, x1, x2, rfl⟩
    exact ⟨_, by simpa using x1, (h xs).2 x2, key xs x1⟩

end
end H2
