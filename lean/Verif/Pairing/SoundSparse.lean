import Verif.Pairing.SoundFinal

/-!
# Soundness of `sparse_fp12_multiply`
-/

set_option autoImplicit false
set_option linter.unusedSectionVars false
namespace H2
open PairCfg

abbrev OSz := Option (List (ℕ × ℕ))

/-- An optional unreduced point represents an element, `None` standing for zero. -/
def Desc (w : Cell → ZMod bn254R) : Option (List (CrtInt bn254R)) → Fq2 × OSz → Prop
  | none, (v, none) => v = 0
  | some x, (v, some s) => U2 w x v s
  | _, _ => False

abbrev Descs (w : Cell → ZMod bn254R) (o : List (Option (List (CrtInt bn254R)))) (q : List (Fq2 × OSz)) : Prop :=
  List.Forall₂ (Desc w) o q

def cellS (A : Fq2) (x y : Fq2 × OSz) : Fq2 × OSz :=
  (x.1 + A * y.1, match x.2, y.2 with
    | s, none => s
    | none, some t => some (mulS pS t)
    | some s, some t => some (addS s (mulS pS t)))

theorem sparseCell_sound (acc : Option (List (CrtInt bn254R))) (a : List (CrtInt bn254R)) (b : Option (List (CrtInt bn254R))) :
    Sound bnTbl (bnCfg.sparseCell acc a b) (fun w r => ∀ x A y, Desc w acc x → R2 w a A → Desc w b y → Desc w r (cellS A x y)) := by
  intro s
  unfold sparseCell
  cases b with
  | none =>
    refine Snd.pure ?_
    rintro w - ⟨v, sx⟩ A ⟨u, su⟩ hx hA hy
    cases su with
    | some _ => exact hy.elim
    | none =>
      have : u = 0 := hy
      subst this
      simp only [cellS, mul_zero, add_zero]
      exact hx
  | some b =>
    cases acc with
    | none =>
      refine Snd.bind (f2_mulNC a b s) fun ab s1 _ => Snd.pure ?_
      rintro w - h ⟨v, sx⟩ A ⟨u, su⟩ hx hA hy
      cases su with
      | none => exact hy.elim
      | some t =>
        cases sx with
        | some _ => exact hx.elim
        | none =>
          have : v = 0 := hx
          subst this
          simp only [cellS, zero_add]
          exact h _ _ _ _ hA.u hy
    | some acc =>
      refine Snd.bind (f2_mulNC a b s) fun ab s1 _ => Snd.bind (f2_add acc ab s1) fun out s2 _ => Snd.pure ?_
      rintro w - h2 h1 ⟨v, sx⟩ A ⟨u, su⟩ hx hA hy
      cases su with
      | none => exact hy.elim
      | some t =>
        cases sx with
        | none => exact hx.elim
        | some sx => exact h2 _ _ _ _ hx (h1 _ _ _ _ hA.u hy)

def innerS (A : Fq2) : ℕ → List (Fq2 × OSz) → List (Fq2 × OSz) → List (Fq2 × OSz)
  | _, q, [] => q
  | k, q, b :: bs => match q[k]? with
    | some x => innerS A (k + 1) (q.set k (cellS A x b)) bs
    | none => q

def outerS (bs : List (Fq2 × OSz)) : ℕ → List (Fq2 × OSz) → List Fq2 → List (Fq2 × OSz)
  | _, q, [] => q
  | i, q, A :: As => outerS bs (i + 1) (innerS A i q bs) As

theorem forall₂_get' {α β : Type} {R : α → β → Prop} {as : List α} {bs : List β} (h : List.Forall₂ R as bs) (k : ℕ) (a : α)
    (ha : as[k]? = some a) : ∃ b, bs[k]? = some b ∧ R a b := by
  rcases forall₂_get h k with ⟨h1, -⟩ | ⟨a', b, h1, h2, h3⟩
  · rw [h1] at ha
    cases ha
  · rw [h1] at ha
    cases ha
    exact ⟨b, h2, h3⟩

theorem Snd.pure_bind {p : ℕ} [Fact p.Prime] {α β : Type} {tbl : ZMod p → Prop} {s : Ctx p} {a : α} {f : α → M p β}
    {R : (Cell → ZMod p) → β → Ctx p → Prop} (h : Snd tbl s (f a) R) : Snd tbl s (Pure.pure a >>= f) R := h

theorem sparseInner_sound (a : List (CrtInt bn254R)) : ∀ (bs : List (Option (List (CrtInt bn254R)))) (k : ℕ)
    (prod : List (Option (List (CrtInt bn254R)))), Sound bnTbl (bnCfg.sparseInner a k prod bs) (fun w r => ∀ A q ys, R2 w a A →
      Descs w prod q → Descs w bs ys → Descs w r (innerS A k q ys))
  | [], k, prod => fun s => Snd.pure fun w _ A q ys _ hq hy => by
    cases hy
    exact hq
  | b :: bs, k, prod => by
    intro s
    refine Snd.unwrap fun x hx => Snd.bind (sparseCell_sound x a b s) fun y s1 _ =>
      (sparseInner_sound a bs (k + 1) (prod.set k y) s1).weaken ?_
    intro w r _ h2 h1 A q ys hA hq hy
    cases hy with
    | cons hy0 hys =>
      obtain ⟨z, hz, hzx⟩ := forall₂_get' hq k x hx
      simp only [innerS, hz]
      exact h2 A _ _ hA (forall₂_set hq _ (h1 _ _ _ hzx hA hy0)) hys

theorem sparseOuter_sound (bs : List (Option (List (CrtInt bn254R)))) : ∀ (as : List (List (CrtInt bn254R))) (i : ℕ)
    (prod : List (Option (List (CrtInt bn254R)))), Sound bnTbl (bnCfg.sparseOuter bs i prod as) (fun w r => ∀ As q ys,
      List.Forall₂ (R2 w) as As → Descs w prod q → Descs w bs ys → Descs w r (outerS ys i q As))
  | [], i, prod => fun s => Snd.pure fun w _ As q ys hA hq hy => by
    cases hA
    exact hq
  | a :: as, i, prod => by
    intro s
    refine Snd.bind (sparseInner_sound a bs i prod s) fun p s1 _ => (sparseOuter_sound bs as (i + 1) p s1).weaken ?_
    intro w r _ h2 h1 As q ys hA hq hy
    cases hA with
    | cons hA0 hAs => exact h2 _ _ _ hAs (h1 _ _ _ hA0 hq hy) hy

/-- The value and size of an output coefficient. -/
def foldS (q : List (Fq2 × OSz)) (i : ℕ) : Option (Fq2 × List (ℕ × ℕ)) :=
  if i ≠ 5 then
    match q[i]?, q[i + 6]? with
    | some (_, none), some (v, some s) => some (v * Fq2.xi, w6S 9 s)
    | some (u, some t), some (_, none) => some (u, t)
    | some (u, some t), some (v, some s) => some (u + v * Fq2.xi, addS t (w6S 9 s))
    | _, _ => none
  else
    match q[i]? with
    | some (u, some t) => some (u, t)
    | _ => none

theorem sparseFold_sound (prod : List (Option (List (CrtInt bn254R)))) (i : ℕ) : Sound bnTbl (bnCfg.sparseFold prod i) (fun w r =>
    ∀ q, Descs w prod q → ∃ v, foldS q i = some v ∧ U2 w r v.1 v.2) := by
  intro s
  unfold sparseFold foldS
  by_cases h5 : i ≠ 5
  · rw [if_pos h5]
    simp only [if_pos h5]
    refine Snd.unwrap fun hi hhi => ?_
    cases hi with
    | none =>
      refine Snd.pure_bind (Snd.unwrap fun lo hlo => ?_)
      cases lo with
      | none => exact Snd.weaken (unwrap_rd _).snd fun w r _ h => by simp at h
      | some a =>
        refine Snd.pure ?_
        intro w _ q hq
        obtain ⟨⟨v, sv⟩, e1, d1⟩ := forall₂_get' hq _ _ hhi
        obtain ⟨⟨u, su⟩, e2, d2⟩ := forall₂_get' hq _ _ hlo
        cases sv with
        | some _ => exact d1.elim
        | none =>
          cases su with
          | none => exact d2.elim
          | some t =>
            rw [e1, e2]
            exact ⟨_, rfl, d2⟩
    | some hi =>
      refine Snd.bind (f2_w6 hi 9 s) fun h6 s1 _ => Snd.pure_bind (Snd.unwrap fun lo hlo => ?_)
      cases lo with
      | none =>
        refine Snd.weaken (unwrap_rd _).snd fun w r _ h h1 q hq => ?_
        have e : h6 = r := Option.some.inj h.2
        subst e
        obtain ⟨⟨v, sv⟩, e1, d1⟩ := forall₂_get' hq _ _ hhi
        obtain ⟨⟨u, su⟩, e2, d2⟩ := forall₂_get' hq _ _ hlo
        cases sv with
        | none => exact d1.elim
        | some t =>
          cases su with
          | some _ => exact d2.elim
          | none =>
            rw [e1, e2]
            have := h1 _ _ d1
            rw [xi_eq] at this
            exact ⟨_, rfl, this⟩
      | some lo =>
        refine (f2_add lo h6 s1).weaken fun w r _ h2 h1 q hq => ?_
        obtain ⟨⟨v, sv⟩, e1, d1⟩ := forall₂_get' hq _ _ hhi
        obtain ⟨⟨u, su⟩, e2, d2⟩ := forall₂_get' hq _ _ hlo
        cases sv with
        | none => exact d1.elim
        | some t =>
          cases su with
          | none => exact d2.elim
          | some t' =>
            rw [e1, e2]
            have := h1 _ _ d1
            rw [xi_eq] at this
            exact ⟨_, rfl, h2 _ _ _ _ d2 this⟩
  · rw [if_neg h5]
    simp only [if_neg h5]
    refine Snd.unwrap fun x hx => Snd.weaken (unwrap_rd _).snd fun w r _ h q hq => ?_
    obtain ⟨-, rfl⟩ := h
    obtain ⟨⟨v, sv⟩, e1, d1⟩ := forall₂_get' hq _ _ hx
    cases sv with
    | none => exact d1.elim
    | some t =>
      rw [e1]
      exact ⟨_, rfl, d1⟩

theorem sparseOut_sound (prod : List (Option (List (CrtInt bn254R)))) : ∀ is : List ℕ, Sound bnTbl (bnCfg.sparseOut prod is) (fun w r =>
    ∀ q, Descs w prod q → List.Forall₂ (fun i o => ∃ v, foldS q i = some v ∧ (Fits v.2 = true → R2 w o v.1)) is r)
  | [] => fun s => Snd.pure fun w _ q hq => .nil
  | i :: is => by
    intro s
    refine Snd.bind (sparseFold_sound prod i s) fun nc s1 _ => Snd.bind (f2_carry nc s1) fun r s2 _ =>
      Snd.bind (sparseOut_sound prod is s2) fun rs s3 _ => Snd.pure ?_
    intro w _ h3 h2 h1 q hq
    refine .cons ?_ (h3 q hq)
    obtain ⟨v, hv, hu⟩ := h1 q hq
    exact ⟨v, hv, fun hf => h2 _ _ hf hu⟩

/-- The product of `a` with the sparse element with the given coordinates. -/
theorem sparseMultiply_sound (a : List (CrtInt bn254R)) (b : List (Option (List (CrtInt bn254R)))) :
    Sound bnTbl (bnCfg.sparseMultiply a b) (fun w r => ∀ X0 X1 X2 X3 X4 X5, R12 w a (e6 X0 X1 X2 X3 X4 X5) → ∀ ys, Descs w b ys →
      ∀ v0 v1 v2 v3 v4 v5 : Fq2 × List (ℕ × ℕ),
      foldS (outerS ys 0 (List.replicate 11 (0, none)) [X0, X1, X2, X3, X4, X5]) 0 = some v0 →
      foldS (outerS ys 0 (List.replicate 11 (0, none)) [X0, X1, X2, X3, X4, X5]) 1 = some v1 →
      foldS (outerS ys 0 (List.replicate 11 (0, none)) [X0, X1, X2, X3, X4, X5]) 2 = some v2 →
      foldS (outerS ys 0 (List.replicate 11 (0, none)) [X0, X1, X2, X3, X4, X5]) 3 = some v3 →
      foldS (outerS ys 0 (List.replicate 11 (0, none)) [X0, X1, X2, X3, X4, X5]) 4 = some v4 →
      foldS (outerS ys 0 (List.replicate 11 (0, none)) [X0, X1, X2, X3, X4, X5]) 5 = some v5 →
      Fits v0.2 = true → Fits v1.2 = true → Fits v2.2 = true → Fits v3.2 = true → Fits v4.2 = true → Fits v5.2 = true →
      R12 w r (e6 v0.1 v1.1 v2.1 v3.1 v4.1 v5.1)) := by
  intro s
  refine Snd.assert fun ha => Snd.assert fun hb => ?_
  have h0 : Snd bnTbl s (slices a) (fun _ _ _ => True) := by
    refine Snd.assert fun h => Snd.pure fun _ _ => trivial
  refine Snd.bindR h0 (slices_ret a) fun sl s1 _ hsl => ?_
  refine Snd.bind (sparseOuter_sound b sl 0 _ s1) fun prod s2 _ => Snd.bind (sparseOut_sound prod _ s2) fun out s3 _ =>
    (join_sound' out s3).weaken ?_
  intro w r _ h3 h2 h1 _ X0 X1 X2 X3 X4 X5 hX ys hy v0 v1 v2 v3 v4 v5 e0 e1 e2 e3 e4 e5 f0 f1 f2 f3 f4 f5
  obtain ⟨hl, rfl⟩ := hsl
  obtain ⟨a0, a1, a2, a3, a4, a5, b0, b1, b2, b3, b4, b5, rfl, Y0, Y1, Y2, Y3, Y4, Y5, e, q0, q1, q2, q3, q4, q5⟩ := hX.elim
  obtain ⟨rfl, rfl, rfl, rfl, rfl, rfl⟩ := e6_inj e
  have hq := h1 [X0, X1, X2, X3, X4, X5] (List.replicate 11 (0, none)) ys
    (.cons q0 (.cons q1 (.cons q2 (.cons q3 (.cons q4 (.cons q5 .nil))))))
    (by
      have : ∀ n, Descs w (List.replicate n none) (List.replicate n (0, none)) := by
        intro n
        induction n with
        | zero => exact .nil
        | succ n ih => exact .cons rfl ih
      exact this 11) hy
  have ho := h2 _ hq
  rcases ho with _ | ⟨⟨u0, g0, k0⟩, _ | ⟨⟨u1, g1, k1⟩, _ | ⟨⟨u2, g2, k2⟩, _ | ⟨⟨u3, g3, k3⟩, _ | ⟨⟨u4, g4, k4⟩, _ | ⟨⟨u5, g5, k5⟩, _ | -⟩⟩⟩⟩⟩⟩
  rw [e0] at g0
  rw [e1] at g1
  rw [e2] at g2
  rw [e3] at g3
  rw [e4] at g4
  rw [e5] at g5
  cases g0
  cases g1
  cases g2
  cases g3
  cases g4
  cases g5
  exact h3 _ _ _ _ _ _ rfl _ _ _ _ _ _ (k0 f0) (k1 f1) (k2 f2) (k3 f3) (k4 f4) (k5 f5)

abbrev zz : Fq2 × OSz := (0, none)

/-- Multiplication with a `034`-sparse element. -/
theorem sparse034_sound (a : List (CrtInt bn254R)) (b0 b3 b4 : List (CrtInt bn254R)) :
    Sound bnTbl (bnCfg.sparseMultiply a [some b0, none, none, some b3, some b4, none]) (fun w r => ∀ X B0 B3 B4, R12 w a X →
      R2 w b0 B0 → R2 w b3 B3 → R2 w b4 B4 → R12 w r (X * e6 B0 0 0 B3 B4 0)) := by
  intro s
  refine (sparseMultiply_sound a _ s).weaken ?_
  intro w r _ h X B0 B3 B4 hX h0 h3 h4
  obtain ⟨X0, X1, X2, X3, X4, X5, rfl⟩ := e6_surj X
  have := h X0 X1 X2 X3 X4 X5 hX [(B0, some pS), zz, zz, (B3, some pS), (B4, some pS), zz]
    (.cons h0.u (.cons rfl (.cons rfl (.cons h3.u (.cons h4.u (.cons rfl .nil))))))
  simp only [outerS, innerS, cellS, List.replicate, List.getElem?_cons_zero, List.getElem?_cons_succ, List.set_cons_zero,
    List.set_cons_succ, foldS, ne_eq, Nat.reduceAdd, Nat.reduceEqDiff, not_false_eq_true, not_true_eq_false, if_true, if_false,
    mul_zero, add_zero, zero_add] at this
  have := this _ _ _ _ _ _ rfl rfl rfl rfl rfl rfl
    (by dsimp only; decide +kernel) (by dsimp only; decide +kernel) (by dsimp only; decide +kernel) (by dsimp only; decide +kernel) (by dsimp only; decide +kernel) (by dsimp only; decide +kernel)
  rw [e6_mul]
  convert this using 1
  refine e6_congr ?_ ?_ ?_ ?_ ?_ ?_ <;> ring

/-- Multiplication with a `235`-sparse element. -/
theorem sparse235_sound (a : List (CrtInt bn254R)) (b2 b3 b5 : List (CrtInt bn254R)) :
    Sound bnTbl (bnCfg.sparseMultiply a [none, none, some b2, some b3, none, some b5]) (fun w r => ∀ X B2 B3 B5, R12 w a X →
      R2 w b2 B2 → R2 w b3 B3 → R2 w b5 B5 → R12 w r (X * e6 0 0 B2 B3 0 B5)) := by
  intro s
  refine (sparseMultiply_sound a _ s).weaken ?_
  intro w r _ h X B2 B3 B5 hX h2 h3 h5
  obtain ⟨X0, X1, X2, X3, X4, X5, rfl⟩ := e6_surj X
  have := h X0 X1 X2 X3 X4 X5 hX [zz, zz, (B2, some pS), (B3, some pS), zz, (B5, some pS)]
    (.cons rfl (.cons rfl (.cons h2.u (.cons h3.u (.cons rfl (.cons h5.u .nil))))))
  simp only [outerS, innerS, cellS, List.replicate, List.getElem?_cons_zero, List.getElem?_cons_succ, List.set_cons_zero,
    List.set_cons_succ, foldS, ne_eq, Nat.reduceAdd, Nat.reduceEqDiff, not_false_eq_true, not_true_eq_false, if_true, if_false,
    mul_zero, add_zero, zero_add] at this
  have := this _ _ _ _ _ _ rfl rfl rfl rfl rfl rfl
    (by dsimp only; decide +kernel) (by dsimp only; decide +kernel) (by dsimp only; decide +kernel) (by dsimp only; decide +kernel) (by dsimp only; decide +kernel) (by dsimp only; decide +kernel)
  rw [e6_mul]
  convert this using 1
  refine e6_congr ?_ ?_ ?_ ?_ ?_ ?_ <;> ring

end H2
