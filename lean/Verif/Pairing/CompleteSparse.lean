import Verif.Pairing.SoundSparse
import Verif.Pairing.CompleteExp2

/-!
# Completeness of `sparse_fp12_multiply`
-/

set_option autoImplicit false
set_option linter.unusedSectionVars false
namespace H2
open PairCfg

variable {ext : Cell → ZMod bn254R} {s s' : Ctx bn254R} {a b : List (CrtInt bn254R)}

theorem HN2.u {X : Fq2} (h : HN2 ext s a X) : HU2 ext s a X pS := by
  have := bnCmp2.p_u h
  rw [bnLaws2_pSz] at this
  have e : (fp2Ops bnChip.ops bnE2).ofP a = a := List.map_id' a
  rwa [e] at this

/-- In the honest assignment an optional unreduced point represents an element, `None` standing for zero. -/
def HDesc (ext : Cell → ZMod bn254R) (s : Ctx bn254R) : Option (List (CrtInt bn254R)) → Fq2 × OSz → Prop
  | none, (v, none) => v = 0
  | some x, (v, some sz) => HU2 ext s x v sz
  | _, _ => False

abbrev HDescs (ext : Cell → ZMod bn254R) (s : Ctx bn254R) (o : List (Option (List (CrtInt bn254R)))) (q : List (Fq2 × OSz)) : Prop :=
  List.Forall₂ (HDesc ext s) o q

theorem HDesc.mono {o : Option (List (CrtInt bn254R))} {q : Fq2 × OSz} (h : HDesc ext s o q) (e : Ext s s') : HDesc ext s' o q := by
  obtain ⟨v, sz⟩ := q
  cases o <;> cases sz
  · exact h
  · exact h
  · exact h
  · exact HU2.mono h e

theorem HDescs.mono {o : List (Option (List (CrtInt bn254R)))} {q : List (Fq2 × OSz)} (h : HDescs ext s o q) (e : Ext s s') :
    HDescs ext s' o q := h.imp fun _ _ h => h.mono e

theorem sparseCell_cmp {acc : Option (List (CrtInt bn254R))} {b : Option (List (CrtInt bn254R))} {x y : Fq2 × OSz} {A : Fq2}
    (hx : HDesc ext s acc x) (hA : HN2 ext s a A) (hy : HDesc ext s b y) :
    Cmp bnTbl ext s (bnCfg.sparseCell acc a b) (fun r s' => HDesc ext s' r (cellS A x y)) := by
  unfold sparseCell
  obtain ⟨v, sx⟩ := x
  obtain ⟨u, su⟩ := y
  cases b with
  | none =>
    cases su with
    | some _ => exact hy.elim
    | none =>
      have : u = 0 := hy
      subst this
      refine Cmp.pure ?_
      simp only [cellS, mul_zero, add_zero]
      exact hx
  | some b =>
    cases su with
    | none => exact hy.elim
    | some t =>
      have hy : HU2 ext s b u t := hy
      cases acc with
      | none =>
        cases sx with
        | some _ => exact hx.elim
        | none =>
          have : v = 0 := hx
          subst this
          cb (g2_mulNC hA.u hy) ab h
          refine Cmp.pure ?_
          simp only [cellS, zero_add]
          exact h
      | some acc =>
        cases sx with
        | none => exact hx.elim
        | some sx =>
          have hx : HU2 ext s acc v sx := hx
          cb (g2_mulNC hA.u hy) bc h
          cb (g2_add hx h) out h'
          exact Cmp.pure h'

theorem forall₂_get'' {α β : Type} {R : α → β → Prop} {as : List α} {bs : List β} (h : List.Forall₂ R as bs) (k : ℕ) (b : β)
    (hb : bs[k]? = some b) : ∃ a, as[k]? = some a ∧ R a b := by
  rcases forall₂_get h k with ⟨-, h1⟩ | ⟨a', b', h1, h2, h3⟩
  · rw [h1] at hb
    cases hb
  · rw [h2] at hb
    cases hb
    exact ⟨a', h1, h3⟩

theorem sparseInner_cmp {A : Fq2} : ∀ (bs : List (Option (List (CrtInt bn254R)))) (k : ℕ) (prod : List (Option (List (CrtInt bn254R))))
    (q ys : List (Fq2 × OSz)) (s : Ctx bn254R), HN2 ext s a A → HDescs ext s prod q → HDescs ext s bs ys → k + bs.length ≤ q.length →
      Cmp bnTbl ext s (bnCfg.sparseInner a k prod bs) (fun r s' => HDescs ext s' r (innerS A k q ys))
  | [], k, prod, q, ys, s, _, hq, hy, _ => by
    cases hy
    exact Cmp.pure hq
  | b :: bs, k, prod, q, ys, s, hA, hq, hy, hl => by
    cases hy with
    | cons hy0 hys =>
      simp only [List.length_cons] at hl
      have hk : k < q.length := by omega
      have hz : q[k]? = some q[k] := List.getElem?_eq_getElem hk
      obtain ⟨x, hx, hxz⟩ := forall₂_get'' hq k _ hz
      simp only [innerS, hz]
      unfold sparseInner
      refine Cmp.unwrap hx ?_
      refine Cmp.bind (sparseCell_cmp hxz hA hy0) fun y s1 e hy1 => ?_
      refine sparseInner_cmp bs (k + 1) _ _ _ s1 (hA.mono e) (forall₂_set (hq.imp fun _ _ h => h.mono e) _ hy1) (HDescs.mono hys e) ?_
      rw [List.length_set]
      omega

theorem innerS_len (A : Fq2) : ∀ (ys : List (Fq2 × OSz)) (k : ℕ) (q : List (Fq2 × OSz)), (innerS A k q ys).length = q.length
  | [], k, q => rfl
  | y :: ys, k, q => by
    unfold innerS
    split
    · rw [innerS_len A ys, List.length_set]
    · rfl

theorem sparseOuter_cmp {bs : List (Option (List (CrtInt bn254R)))} {ys : List (Fq2 × OSz)} : ∀ (as : List (List (CrtInt bn254R)))
    (As : List Fq2) (i : ℕ) (prod : List (Option (List (CrtInt bn254R)))) (q : List (Fq2 × OSz)) (s : Ctx bn254R),
    List.Forall₂ (HN2 ext s) as As → HDescs ext s prod q → HDescs ext s bs ys → i + as.length + bs.length ≤ q.length + 1 →
      Cmp bnTbl ext s (bnCfg.sparseOuter bs i prod as) (fun r s' => HDescs ext s' r (outerS ys i q As))
  | [], As, i, prod, q, s, hA, hq, hy, _ => by
    cases hA
    exact Cmp.pure hq
  | a :: as, As, i, prod, q, s, hA, hq, hy, hl => by
    cases hA with
    | cons hA0 hAs =>
      simp only [List.length_cons] at hl
      unfold sparseOuter
      refine Cmp.bind (sparseInner_cmp bs i prod q ys s hA0 hq hy (by omega)) fun p s1 e hp => ?_
      exact sparseOuter_cmp as _ (i + 1) p _ s1 (hAs.imp fun _ _ h => h.mono e) hp (HDescs.mono hy e) (by rw [innerS_len]; omega)

theorem sparseFold_cmp {prod : List (Option (List (CrtInt bn254R)))} {q : List (Fq2 × OSz)} {i : ℕ} {v : Fq2 × List (ℕ × ℕ)}
    (hq : HDescs ext s prod q) (hv : foldS q i = some v) :
    Cmp bnTbl ext s (bnCfg.sparseFold prod i) (fun r s' => HU2 ext s' r v.1 v.2) := by
  unfold sparseFold
  unfold foldS at hv
  by_cases h5 : i ≠ 5
  · rw [if_pos h5]
    rw [if_pos h5] at hv
    split at hv
    · rename_i u v' t e1 e2
      obtain ⟨x, hx, dx⟩ := forall₂_get'' hq _ _ e1
      obtain ⟨y, hy, dy⟩ := forall₂_get'' hq _ _ e2
      cases x with
      | some x => exact dx.elim
      | none =>
      cases y with
      | none => exact dy.elim
      | some y =>
      have dy : HU2 ext s y v' t := dy
      cases hv
      refine Cmp.unwrap hy ?_
      have h6 := g2_w6 9 (by norm_num) dy
      rw [xi_eq] at h6
      simp only [bind_assoc, pure_bind]
      refine Cmp.bind h6 fun r s1 e hr => ?_
      refine Cmp.unwrap hx ?_
      exact Cmp.pure hr
    · rename_i u t v' e1 e2
      obtain ⟨x, hx, dx⟩ := forall₂_get'' hq _ _ e1
      obtain ⟨y, hy, dy⟩ := forall₂_get'' hq _ _ e2
      cases x with
      | none => exact dx.elim
      | some x =>
      cases y with
      | some y => exact dy.elim
      | none =>
      have dx : HU2 ext s x u t := dx
      cases hv
      refine Cmp.unwrap hy ?_
      simp only [pure_bind]
      refine Cmp.unwrap hx ?_
      exact Cmp.pure dx
    · rename_i u t v' t' e1 e2
      obtain ⟨x, hx, dx⟩ := forall₂_get'' hq _ _ e1
      obtain ⟨y, hy, dy⟩ := forall₂_get'' hq _ _ e2
      cases x with
      | none => exact dx.elim
      | some x =>
      cases y with
      | none => exact dy.elim
      | some y =>
      have dx : HU2 ext s x u t := dx
      have dy : HU2 ext s y v' t' := dy
      cases hv
      refine Cmp.unwrap hy ?_
      have h6 := g2_w6 9 (by norm_num) dy
      rw [xi_eq] at h6
      simp only [bind_assoc, pure_bind]
      refine Cmp.bind h6 fun r s1 e hr => ?_
      refine Cmp.unwrap hx ?_
      exact g2_add (dx.mono e) hr
    · cases hv
  · rw [if_neg h5]
    rw [if_neg h5] at hv
    split at hv
    · rename_i u t e1
      obtain ⟨x, hx, dx⟩ := forall₂_get'' hq _ _ e1
      cases x with
      | none => exact dx.elim
      | some x =>
      cases hv
      refine Cmp.unwrap hx ?_
      exact Cmp.pure dx
    · cases hv

theorem sparseOut_cmp {prod : List (Option (List (CrtInt bn254R)))} {q : List (Fq2 × OSz)} : ∀ (is : List ℕ)
    (vs : List (Fq2 × List (ℕ × ℕ))) (s : Ctx bn254R), HDescs ext s prod q →
      List.Forall₂ (fun i v => foldS q i = some v ∧ szOk v.2 = true) is vs →
      Cmp bnTbl ext s (bnCfg.sparseOut prod is) (fun r s' => List.Forall₂ (fun o v => HN2 ext s' o v.1) r vs)
  | [], vs, s, hq, hv => by
    cases hv
    exact Cmp.pure .nil
  | i :: is, vs, s, hq, hv => by
    cases hv with
    | cons h0 hs =>
      unfold sparseOut
      refine Cmp.bind (sparseFold_cmp hq h0.1) fun nc s1 e1 hnc => ?_
      refine Cmp.bind (g2_carry h0.2 hnc) fun r s2 e2 hr => ?_
      refine Cmp.bind (sparseOut_cmp is _ s2 (hq.imp fun _ _ h => (h.mono e1).mono e2) hs) fun rs s3 e3 hrs => ?_
      exact Cmp.pure (.cons (hr.mono e3) hrs)

/-- The product of `a` with the sparse element with the given coordinates. -/
theorem sparseMultiply_cmp {b : List (Option (List (CrtInt bn254R)))} {X0 X1 X2 X3 X4 X5 : Fq2} {ys : List (Fq2 × OSz)}
    {v0 v1 v2 v3 v4 v5 : Fq2 × List (ℕ × ℕ)} (hX : HN12 ext s a (e6 X0 X1 X2 X3 X4 X5)) (hy : HDescs ext s b ys) (hl : b.length = 6)
    (e0 : foldS (outerS ys 0 (List.replicate 11 (0, none)) [X0, X1, X2, X3, X4, X5]) 0 = some v0)
    (e1 : foldS (outerS ys 0 (List.replicate 11 (0, none)) [X0, X1, X2, X3, X4, X5]) 1 = some v1)
    (e2 : foldS (outerS ys 0 (List.replicate 11 (0, none)) [X0, X1, X2, X3, X4, X5]) 2 = some v2)
    (e3 : foldS (outerS ys 0 (List.replicate 11 (0, none)) [X0, X1, X2, X3, X4, X5]) 3 = some v3)
    (e4 : foldS (outerS ys 0 (List.replicate 11 (0, none)) [X0, X1, X2, X3, X4, X5]) 4 = some v4)
    (e5 : foldS (outerS ys 0 (List.replicate 11 (0, none)) [X0, X1, X2, X3, X4, X5]) 5 = some v5)
    (f0 : szOk v0.2 = true) (f1 : szOk v1.2 = true) (f2 : szOk v2.2 = true) (f3 : szOk v3.2 = true) (f4 : szOk v4.2 = true)
    (f5 : szOk v5.2 = true) :
    Cmp bnTbl ext s (bnCfg.sparseMultiply a b) (fun r s' => HN12 ext s' r (e6 v0.1 v1.1 v2.1 v3.1 v4.1 v5.1)) := by
  have ha : a.length = 12 := by
    obtain ⟨a0, a1, a2, a3, a4, a5, b0, b1, b2, b3, b4, b5, rfl, -⟩ := hX.elim
    rfl
  obtain ⟨o0, o1, o2, o3, o4, o5, Y0, Y1, Y2, Y3, Y4, Y5, e, hs, h0, h1, h2, h3, h4, h5⟩ := slices_cmp hX
  obtain ⟨rfl, rfl, rfl, rfl, rfl, rfl⟩ := e6_inj e
  unfold sparseMultiply
  refine Cmp.assert (by rw [ha]; rfl) (Cmp.assert (by rw [hl]; rfl) ?_)
  rw [hs, pure_bind]
  have hr : ∀ n, HDescs ext s (List.replicate n none) (List.replicate n (0, none)) := by
    intro n
    induction n with
    | zero => exact .nil
    | succ n ih => exact .cons rfl ih
  refine Cmp.bind (sparseOuter_cmp _ [X0, X1, X2, X3, X4, X5] 0 _ _ s
    (.cons h0 (.cons h1 (.cons h2 (.cons h3 (.cons h4 (.cons h5 .nil)))))) (hr 11) hy (by rw [hl, List.length_replicate]; exact le_rfl)) fun prod s1 _ hp => ?_
  refine Cmp.bind (sparseOut_cmp [0, 1, 2, 3, 4, 5] [v0, v1, v2, v3, v4, v5] s1 hp
    (.cons ⟨e0, f0⟩ (.cons ⟨e1, f1⟩ (.cons ⟨e2, f2⟩ (.cons ⟨e3, f3⟩ (.cons ⟨e4, f4⟩ (.cons ⟨e5, f5⟩ .nil))))))) fun out s2 _ ho => ?_
  rcases ho with _ | ⟨k0, _ | ⟨k1, _ | ⟨k2, _ | ⟨k3, _ | ⟨k4, _ | ⟨k5, _ | -⟩⟩⟩⟩⟩⟩
  exact join_cmp k0 k1 k2 k3 k4 k5

/-- Multiplication with a `034`-sparse element. -/
theorem sparse034_cmp {b0 b3 b4 : List (CrtInt bn254R)} {X : Fq12} {B0 B3 B4 : Fq2} (hX : HN12 ext s a X) (h0 : HN2 ext s b0 B0)
    (h3 : HN2 ext s b3 B3) (h4 : HN2 ext s b4 B4) :
    Cmp bnTbl ext s (bnCfg.sparseMultiply a [some b0, none, none, some b3, some b4, none]) (fun r s' =>
      HN12 ext s' r (X * e6 B0 0 0 B3 B4 0)) := by
  obtain ⟨X0, X1, X2, X3, X4, X5, rfl⟩ := e6_surj X
  have h := fun v0 v1 v2 v3 v4 v5 => sparseMultiply_cmp (v0 := v0) (v1 := v1) (v2 := v2) (v3 := v3) (v4 := v4) (v5 := v5) hX
    (b := [some b0, none, none, some b3, some b4, none]) (ys := [(B0, some pS), zz, zz, (B3, some pS), (B4, some pS), zz])
    (.cons h0.u (.cons rfl (.cons rfl (.cons h3.u (.cons h4.u (.cons rfl .nil)))))) rfl
  simp only [outerS, innerS, cellS, List.replicate, List.getElem?_cons_zero, List.getElem?_cons_succ, List.set_cons_zero,
    List.set_cons_succ, foldS, ne_eq, Nat.reduceAdd, Nat.reduceEqDiff, not_false_eq_true, not_true_eq_false, if_true, if_false,
    mul_zero, add_zero, zero_add] at h
  have h := h _ _ _ _ _ _ rfl rfl rfl rfl rfl rfl
    (by dsimp only; decide +kernel) (by dsimp only; decide +kernel) (by dsimp only; decide +kernel) (by dsimp only; decide +kernel) (by dsimp only; decide +kernel) (by dsimp only; decide +kernel)
  refine h.weaken fun r s' hr => ?_
  rw [e6_mul]
  convert hr using 1
  refine e6_congr ?_ ?_ ?_ ?_ ?_ ?_ <;> ring

/-- Multiplication with a `235`-sparse element. -/
theorem sparse235_cmp {b2 b3 b5 : List (CrtInt bn254R)} {X : Fq12} {B2 B3 B5 : Fq2} (hX : HN12 ext s a X) (h2 : HN2 ext s b2 B2)
    (h3 : HN2 ext s b3 B3) (h5 : HN2 ext s b5 B5) :
    Cmp bnTbl ext s (bnCfg.sparseMultiply a [none, none, some b2, some b3, none, some b5]) (fun r s' =>
      HN12 ext s' r (X * e6 0 0 B2 B3 0 B5)) := by
  obtain ⟨X0, X1, X2, X3, X4, X5, rfl⟩ := e6_surj X
  have h := fun v0 v1 v2 v3 v4 v5 => sparseMultiply_cmp (v0 := v0) (v1 := v1) (v2 := v2) (v3 := v3) (v4 := v4) (v5 := v5) hX
    (b := [none, none, some b2, some b3, none, some b5]) (ys := [zz, zz, (B2, some pS), (B3, some pS), zz, (B5, some pS)])
    (.cons rfl (.cons rfl (.cons h2.u (.cons h3.u (.cons rfl (.cons h5.u .nil)))))) rfl
  simp only [outerS, innerS, cellS, List.replicate, List.getElem?_cons_zero, List.getElem?_cons_succ, List.set_cons_zero,
    List.set_cons_succ, foldS, ne_eq, Nat.reduceAdd, Nat.reduceEqDiff, not_false_eq_true, not_true_eq_false, if_true, if_false,
    mul_zero, add_zero, zero_add] at h
  have h := h _ _ _ _ _ _ rfl rfl rfl rfl rfl rfl
    (by dsimp only; decide +kernel) (by dsimp only; decide +kernel) (by dsimp only; decide +kernel) (by dsimp only; decide +kernel) (by dsimp only; decide +kernel) (by dsimp only; decide +kernel)
  refine h.weaken fun r s' hr => ?_
  rw [e6_mul]
  convert hr using 1
  refine e6_congr ?_ ?_ ?_ ?_ ?_ ?_ <;> ring

end H2
