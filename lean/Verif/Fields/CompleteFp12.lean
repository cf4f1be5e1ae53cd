import Verif.Fields.CompleteExt

/-!
# The multiplications and the special operations of `Fp2Chip` and `Fp12Chip` are complete
-/

set_option autoImplicit false
set_option linter.unusedSectionVars false
namespace H2
variable {p : ℕ} [Fact p.Prime] {tbl : ZMod p → Prop} {ext : Cell → ZMod p} {s : Ctx p}
variable {K : Type} [Field K] [DecidableEq K] {K2 : Type} [Field K2] [DecidableEq K2] [Algebra K K2]
variable {F : FieldOps p} {l : FieldLaws F K tbl} {k : FieldCmp l}

/-! ### Multiplication in `Fp2` -/

theorem fp2MulNoCarry_cmp {a b : List F.U} {qa qb : List (K × l.Sz)} (la : qa.length = 2) (lb : qb.length = 2)
    (ha : List.Forall₂ (k.D ext s) a qa) (hb : List.Forall₂ (k.D ext s) b qb) :
    Cmp tbl ext s (fp2MulNoCarry F a b) (fun r s' => List.Forall₂ (k.D ext s') r (fp2S (l.arith 0) qa qb)) := by
  obtain ⟨x0, x1, rfl⟩ := list2 la
  obtain ⟨y0, y1, rfl⟩ := list2 lb
  obtain ⟨a0, a1, rfl⟩ := list2 ha.length_eq
  obtain ⟨b0, b1, rfl⟩ := list2 hb.length_eq
  simp only [List.forall₂_cons, List.forall₂_nil_left_iff, and_true] at ha hb
  refine Cmp.bind (k.mulNoCarry ha.1 hb.1) fun m00 s1 e1 h1 => ?_
  refine Cmp.bind (k.mulNoCarry (ha.1.mono e1) (hb.2.mono e1)) fun m01 s2 e2 h2 => ?_
  have e12 := e1.trans e2
  refine Cmp.bind (k.mulNoCarry (ha.2.mono e12) (hb.1.mono e12)) fun m10 s3 e3 h3 => ?_
  have e13 := e12.trans e3
  refine Cmp.bind (k.mulNoCarry (ha.2.mono e13) (hb.2.mono e13)) fun m11 s4 e4 h4 => ?_
  refine Cmp.bind (k.subNoCarry (k.u_mono h1 ((e2.trans e3).trans e4)) h4) fun r0 s5 e5 h5 => ?_
  refine Cmp.bind (k.addNoCarry (k.u_mono h2 ((e3.trans e4).trans e5)) (k.u_mono h3 (e4.trans e5))) fun r1 s6 e6 h6 => Cmp.pure ?_
  exact .cons (k.u_mono h5 e6) (.cons h6 .nil)

/-- `Fp2Chip::mul_no_carry` is complete. -/
theorem fp2_extMulC (k : FieldCmp l) {u : K2} (hu : u * u = -1) (B : ExtBasis K K2) (hB : B.e = [1, u]) :
    ExtMulC k B (fp2MulNoCarry F) (fp2S (l.szArith 0)) := by
  rintro ext s a b X Y sx sy ⟨qa, qa1, qa2, rfl, rfl⟩ ⟨qb, qb1, qb2, rfl, rfl⟩
  rw [hB] at *
  refine (fp2MulNoCarry_cmp qa1 qb1 qa2 qb2).weaken fun r s' hr => ?_
  obtain ⟨x0, x1, rfl⟩ := list2 qa1
  obtain ⟨y0, y1, rfl⟩ := list2 qb1
  refine ⟨_, ?_, hr, ?_, rfl⟩
  · rfl
  · simp only [lin, fp2S, FieldLaws.arith, List.map_cons, List.map_nil, List.zipWith_cons_cons, List.zipWith_nil_left, List.sum_cons,
      List.sum_nil, map_add, map_sub, map_mul]
    linear_combination (algebraMap K K2 x1.1 * algebraMap K K2 y1.1) * hu

/-- `Fp2Chip` is complete. -/
def fp2Cmp (k : FieldCmp l) {u : K2} (hu : u * u = -1) (B : ExtBasis K K2) (hB : B.e = [1, u]) (E : ExtField F)
    (hE : ∀ v, (E.coeffs v).length = 2) (hz : ∀ v ∈ E.coeffs E.vzero, l.val v = 0)
    (hnew : ∀ vs, vs.length = 2 → lin B.e ((E.coeffs (E.new vs)).map l.val) = lin B.e (vs.map l.val))
    (hdiv : ∀ u v, lin B.e ((E.coeffs (E.vdiv u v)).map l.val) = lin B.e ((E.coeffs u).map l.val) / lin B.e ((E.coeffs v).map l.val))
    (hneg : ∀ u, lin B.e ((E.coeffs (E.vneg u)).map l.val) = -lin B.e ((E.coeffs u).map l.val)) :
    FieldCmp (fp2Laws l hu B hB E hE hz) :=
  vecCmp k B E 2 (by rw [hB]; rfl) hE hz (fp2MulNoCarry F) _ (fp2_extMul l hu B hB) (fp2_extMulC k hu B hB) hnew hdiv hneg

/-! ### Multiplication in `Fp12` -/

/-- The accumulators are described. -/
def FieldCmp.D4 (k : FieldCmp l) (ext : Cell → ZMod p) (s : Ctx p) (a : Acc4 F.U) (q : Acc4 (K × l.Sz)) : Prop :=
  List.Forall₂ (k.D ext s) a.c00 q.c00 ∧ List.Forall₂ (k.D ext s) a.c01 q.c01 ∧ List.Forall₂ (k.D ext s) a.c10 q.c10 ∧
    List.Forall₂ (k.D ext s) a.c11 q.c11

theorem FieldCmp.D4.mono {s s' : Ctx p} {a : Acc4 F.U} {q : Acc4 (K × l.Sz)} (h : k.D4 ext s a q) (e : Ext s s') : k.D4 ext s' a q :=
  ⟨forallD_mono h.1 e, forallD_mono h.2.1 e, forallD_mono h.2.2.1 e, forallD_mono h.2.2.2 e⟩

theorem accAdd_cmp (xi : ℤ) {v : List F.U} (j : ℕ) {c : F.U} {qs : List (K × l.Sz)} {qc : K × l.Sz}
    (hv : List.Forall₂ (k.D ext s) v qs) (hc : k.D ext s c qc) :
    Cmp tbl ext s (accAdd F v j c) (fun r s' => List.Forall₂ (k.D ext s') r (accS (l.arith xi) qs j qc)) := by
  unfold accAdd accS
  rcases forall₂_get hv j with ⟨h1, h2⟩ | ⟨a, b, h1, h2, h3⟩
  · rw [h1, h2]
    exact Cmp.pure (List.rel_append hv (.cons hc .nil))
  · rw [h1, h2]
    exact Cmp.bind (k.addNoCarry h3 hc) fun y s1 e1 hy => Cmp.pure (forall₂_set (forallD_mono hv e1) j hy)

theorem fp12Step_cmp (xi : ℤ) {acc : Acc4 F.U} {a0 a1 b0 b1 : F.U} (j : ℕ) {q : Acc4 (K × l.Sz)} {x0 x1 y0 y1 : K × l.Sz}
    (hq : k.D4 ext s acc q) (ha0 : k.D ext s a0 x0) (ha1 : k.D ext s a1 x1) (hb0 : k.D ext s b0 y0) (hb1 : k.D ext s b1 y1) :
    Cmp tbl ext s (fp12Step F acc a0 a1 b0 b1 j) (fun r s' => k.D4 ext s' r (fp12StepS (l.arith xi) q x0 x1 y0 y1 j)) := by
  refine Cmp.bind (k.mulNoCarry ha0 hb0) fun m00 s1 e1 h1 => ?_
  refine Cmp.bind (k.mulNoCarry (ha0.mono e1) (hb1.mono e1)) fun m01 s2 e2 h2 => ?_
  have e12 := e1.trans e2
  refine Cmp.bind (k.mulNoCarry (ha1.mono e12) (hb0.mono e12)) fun m10 s3 e3 h3 => ?_
  have e13 := e12.trans e3
  refine Cmp.bind (k.mulNoCarry (ha1.mono e13) (hb1.mono e13)) fun m11 s4 e4 h4 => ?_
  have e14 := e13.trans e4
  refine Cmp.bind (accAdd_cmp xi (k := k) (qc := (l.arith xi).mul x0 y0) j (forallD_mono hq.1 e14)
    (k.u_mono h1 ((e2.trans e3).trans e4))) fun c00 s5 e5 k1 => ?_
  refine Cmp.bind (accAdd_cmp xi (k := k) (qc := (l.arith xi).mul x0 y1) j (forallD_mono hq.2.1 (e14.trans e5))
    (k.u_mono h2 ((e3.trans e4).trans e5))) fun c01 s6 e6 k2 => ?_
  have e56 := e5.trans e6
  refine Cmp.bind (accAdd_cmp xi (k := k) (qc := (l.arith xi).mul x1 y0) j (forallD_mono hq.2.2.1 (e14.trans e56))
    (k.u_mono h3 (e4.trans e56))) fun c10 s7 e7 k3 => ?_
  refine Cmp.bind (accAdd_cmp xi (k := k) (qc := (l.arith xi).mul x1 y1) j (forallD_mono hq.2.2.2 (e14.trans (e56.trans e7)))
    (k.u_mono h4 (e56.trans e7))) fun c11 s8 e8 k4 => Cmp.pure ?_
  exact ⟨forallD_mono k1 ((e6.trans e7).trans e8), forallD_mono k2 (e7.trans e8), forallD_mono k3 e8, k4⟩

theorem fp12Inner_cmp (xi : ℤ) {a0 a1 : F.U} {x0 x1 : K × l.Sz} : ∀ {s : Ctx p} {bs0 bs1 : List F.U} (j : ℕ) {acc : Acc4 F.U}
    {q : Acc4 (K × l.Sz)} {ys0 ys1 : List (K × l.Sz)}, k.D4 ext s acc q → k.D ext s a0 x0 → k.D ext s a1 x1 →
    List.Forall₂ (k.D ext s) bs0 ys0 → List.Forall₂ (k.D ext s) bs1 ys1 →
    Cmp tbl ext s (fp12Inner F a0 a1 j acc bs0 bs1) (fun r s' => k.D4 ext s' r (fp12InnerS (l.arith xi) x0 x1 j q ys0 ys1)) := by
  intro s bs0
  induction bs0 generalizing s with
  | nil =>
    intro bs1 j acc q ys0 ys1 hq _ _ h0 _
    cases h0
    unfold fp12Inner fp12InnerS
    exact Cmp.pure hq
  | cons b0 bs0 ih =>
    intro bs1 j acc q ys0 ys1 hq ha0 ha1 h0 h1
    cases h0 with
    | cons u0 v0 =>
    cases h1 with
    | nil =>
      unfold fp12Inner fp12InnerS
      exact Cmp.pure hq
    | cons u1 v1 =>
      exact Cmp.bind (fp12Step_cmp xi j hq ha0 ha1 u0 u1) fun acc' s1 e1 h =>
        ih (j + 1) h (ha0.mono e1) (ha1.mono e1) (forallD_mono v0 e1) (forallD_mono v1 e1)

theorem fp12Outer_cmp (xi : ℤ) {bs0 bs1 : List F.U} {ys0 ys1 : List (K × l.Sz)} : ∀ {s : Ctx p} {as0 as1 : List F.U} (j : ℕ)
    {acc : Acc4 F.U} {q : Acc4 (K × l.Sz)} {xs0 xs1 : List (K × l.Sz)}, k.D4 ext s acc q →
    List.Forall₂ (k.D ext s) as0 xs0 → List.Forall₂ (k.D ext s) as1 xs1 →
    List.Forall₂ (k.D ext s) bs0 ys0 → List.Forall₂ (k.D ext s) bs1 ys1 →
    Cmp tbl ext s (fp12Outer F bs0 bs1 j acc as0 as1) (fun r s' => k.D4 ext s' r (fp12OuterS (l.arith xi) ys0 ys1 j q xs0 xs1)) := by
  intro s as0
  induction as0 generalizing s with
  | nil =>
    intro as1 j acc q xs0 xs1 hq h0 _ _ _
    cases h0
    unfold fp12Outer fp12OuterS
    exact Cmp.pure hq
  | cons a0 as0 ih =>
    intro as1 j acc q xs0 xs1 hq h0 h1 k0 k1
    cases h0 with
    | cons u0 v0 =>
    cases h1 with
    | nil =>
      unfold fp12Outer fp12OuterS
      exact Cmp.pure hq
    | cons u1 v1 =>
      exact Cmp.bind (fp12Inner_cmp xi j hq u0 u1 k0 k1) fun acc' s1 e1 h =>
        ih (j + 1) h (forallD_mono v0 e1) (forallD_mono v1 e1) (forallD_mono k0 e1) (forallD_mono k1 e1)

theorem fp12Combine_cmp (xi : ℤ) : ∀ {s : Ctx p} {c00 c01 c10 c11 : List F.U} {q00 q01 q10 q11 : List (K × l.Sz)},
    List.Forall₂ (k.D ext s) c00 q00 → List.Forall₂ (k.D ext s) c01 q01 → List.Forall₂ (k.D ext s) c10 q10 →
    List.Forall₂ (k.D ext s) c11 q11 →
    Cmp tbl ext s (fp12Combine F c00 c01 c10 c11) (fun r s' =>
      List.Forall₂ (k.D ext s') r.1 (fp12CombineS (l.arith xi) q00 q01 q10 q11).1 ∧
      List.Forall₂ (k.D ext s') r.2 (fp12CombineS (l.arith xi) q00 q01 q10 q11).2) := by
  intro s c00
  induction c00 generalizing s with
  | nil =>
    intro c01 c10 c11 q00 q01 q10 q11 h0 h1 h2 h3
    cases h0
    unfold fp12Combine fp12CombineS
    exact Cmp.pure ⟨.nil, .nil⟩
  | cons x00 c00 ih =>
    intro c01 c10 c11 q00 q01 q10 q11 h0 h1 h2 h3
    cases h0 with
    | cons u0 v0 =>
    cases h1 with
    | nil => unfold fp12Combine fp12CombineS; exact Cmp.pure ⟨.nil, .nil⟩
    | cons u1 v1 =>
    cases h2 with
    | nil => unfold fp12Combine fp12CombineS; exact Cmp.pure ⟨.nil, .nil⟩
    | cons u2 v2 =>
    cases h3 with
    | nil => unfold fp12Combine fp12CombineS; exact Cmp.pure ⟨.nil, .nil⟩
    | cons u3 v3 =>
      refine Cmp.bind (k.subNoCarry u0 u3) fun d s1 e1 hd => ?_
      refine Cmp.bind (k.addNoCarry (u1.mono e1) (u2.mono e1)) fun e s2 e2 he => ?_
      have e12 := e1.trans e2
      refine Cmp.bind (ih (forallD_mono v0 e12) (forallD_mono v1 e12) (forallD_mono v2 e12) (forallD_mono v3 e12))
        fun de s3 e3 h => Cmp.pure ⟨.cons (k.u_mono hd (e2.trans e3)) h.1, .cons (k.u_mono he e3) h.2⟩

theorem fp12Out0_cmp (xi : ℤ) (hxi : |xi| < 2 ^ 63) : ∀ {s : Ctx p} {lo hi ei : List F.U} {ql qh qe : List (K × l.Sz)},
    List.Forall₂ (k.D ext s) lo ql → List.Forall₂ (k.D ext s) hi qh → List.Forall₂ (k.D ext s) ei qe →
    Cmp tbl ext s (fp12Out0 F xi lo hi ei) (fun r s' => List.Forall₂ (k.D ext s') r (fp12Out0S (l.arith xi) ql qh qe)) := by
  intro s lo
  induction lo generalizing s with
  | nil =>
    intro hi ei ql qh qe h0 h1 h2
    cases h0
    unfold fp12Out0 fp12Out0S
    exact Cmp.pure .nil
  | cons lo los ih =>
    intro hi ei ql qh qe h0 h1 h2
    cases h0 with
    | cons u0 v0 =>
    cases h1 with
    | nil => unfold fp12Out0 fp12Out0S; exact Cmp.pure (.cons u0 v0)
    | cons u1 v1 =>
    cases h2 with
    | nil => unfold fp12Out0 fp12Out0S; exact Cmp.pure (.cons u0 v0)
    | cons u2 v2 =>
      refine Cmp.bind (k.scalarMulAddNoCarry xi hxi u1 u0) fun c s1 e1 hc => ?_
      refine Cmp.bind (k.subNoCarry hc (u2.mono e1)) fun d s2 e2 hd => ?_
      have e12 := e1.trans e2
      exact Cmp.bind (ih (forallD_mono v0 e12) (forallD_mono v1 e12) (forallD_mono v2 e12)) fun r s3 e3 h =>
        Cmp.pure (.cons (k.u_mono hd e3) h)

theorem fp12Out1_cmp (xi : ℤ) (hxi : |xi| < 2 ^ 63) : ∀ {s : Ctx p} {lo hi ei : List F.U} {ql qh qe : List (K × l.Sz)},
    List.Forall₂ (k.D ext s) lo ql → List.Forall₂ (k.D ext s) hi qh → List.Forall₂ (k.D ext s) ei qe →
    Cmp tbl ext s (fp12Out1 F xi lo hi ei) (fun r s' => List.Forall₂ (k.D ext s') r (fp12Out1S (l.arith xi) ql qh qe)) := by
  intro s lo
  induction lo generalizing s with
  | nil =>
    intro hi ei ql qh qe h0 h1 h2
    cases h0
    unfold fp12Out1 fp12Out1S
    exact Cmp.pure .nil
  | cons lo los ih =>
    intro hi ei ql qh qe h0 h1 h2
    cases h0 with
    | cons u0 v0 =>
    cases h1 with
    | nil => unfold fp12Out1 fp12Out1S; exact Cmp.pure (.cons u0 v0)
    | cons u1 v1 =>
    cases h2 with
    | nil => unfold fp12Out1 fp12Out1S; exact Cmp.pure (.cons u0 v0)
    | cons u2 v2 =>
      refine Cmp.bind (k.addNoCarry u0 u1) fun c s1 e1 hc => ?_
      refine Cmp.bind (k.scalarMulAddNoCarry xi hxi (u2.mono e1) hc) fun d s2 e2 hd => ?_
      have e12 := e1.trans e2
      exact Cmp.bind (ih (forallD_mono v0 e12) (forallD_mono v1 e12) (forallD_mono v2 e12)) fun r s3 e3 h =>
        Cmp.pure (.cons (k.u_mono hd e3) h)

theorem fp12MulNoCarry_cmp (xi : ℤ) (hxi : |xi| < 2 ^ 63) {a b : List F.U} {qa qb : List (K × l.Sz)} (la : qa.length = 12)
    (lb : qb.length = 12) (ha : List.Forall₂ (k.D ext s) a qa) (hb : List.Forall₂ (k.D ext s) b qb) :
    Cmp tbl ext s (fp12MulNoCarry F xi a b) (fun r s' => List.Forall₂ (k.D ext s') r (fp12S (l.arith xi) qa qb)) := by
  refine Cmp.assert (by simp [ha.length_eq, la]) (Cmp.assert (by simp [hb.length_eq, lb]) ?_)
  refine Cmp.bind (fp12Outer_cmp xi (k := k) (q := ⟨[], [], [], []⟩) 0 ⟨.nil, .nil, .nil, .nil⟩ (forall₂_take ha 6) (forall₂_drop ha 6)
    (forall₂_take hb 6) (forall₂_drop hb 6)) fun acc s1 e1 h1 => ?_
  refine Cmp.bind (fp12Combine_cmp xi h1.1 h1.2.1 h1.2.2.1 h1.2.2.2) fun de s2 e2 h2 => ?_
  refine Cmp.bind (fp12Out0_cmp xi hxi (forall₂_take h2.1 6) (forall₂_drop h2.1 6) (forall₂_drop h2.2 6)) fun r0 s3 e3 h3 => ?_
  refine Cmp.bind (fp12Out1_cmp xi hxi (forallD_mono (forall₂_take h2.2 6) e3) (forallD_mono (forall₂_drop h2.1 6) e3)
    (forallD_mono (forall₂_drop h2.2 6) e3)) fun r1 s4 e4 h4 => Cmp.pure ?_
  exact List.rel_append (forallD_mono h3 e4) h4

/-- `Fp12Chip::mul_no_carry` is complete. -/
theorem fp12_extMulC (k : FieldCmp l) {u w : K2} {xi : ℤ} (hxi : |xi| < 2 ^ 63) (hu : u * u = -1) (hw : w ^ 6 = u + (xi : K2))
    (B : ExtBasis K K2) (hB : B.e = basis12 u w) : ExtMulC k B (fp12MulNoCarry F xi) (fp12S (l.szArith xi)) := by
  rintro ext s a b X Y sx sy ⟨qa, qa1, qa2, rfl, rfl⟩ ⟨qb, qb1, qb2, rfl, rfl⟩
  have hl : (basis12 u w).length = 12 := rfl
  rw [hB] at *
  rw [hl] at qa1 qb1
  refine (fp12MulNoCarry_cmp xi hxi qa1 qb1 qa2 qb2).weaken fun r s' hr => ?_
  refine ⟨fp12S (l.arith xi) qa qb, by rw [fp12S_length _ qa1 qb1, hl], hr, ?_, ?_⟩
  · rw [fp12S_map (A' := fieldArith K (xi : K)) Prod.fst (fun _ _ => rfl) (fun _ _ => rfl) (fun _ _ => rfl) (fun _ _ => rfl) qa1 qb1]
    exact (fp12_lin hu hw (by simpa using qa1) (by simpa using qb1)).symm
  · exact (fp12S_map (A' := l.szArith xi) Prod.snd (fun _ _ => rfl) (fun _ _ => rfl) (fun _ _ => rfl) (fun _ _ => rfl) qa1 qb1).symm

/-- `Fp12Chip` is complete. -/
def fp12Cmp (k : FieldCmp l) {u w : K2} {xi : ℤ} (hxi : |xi| < 2 ^ 63) (hu : u * u = -1) (hw : w ^ 6 = u + (xi : K2))
    (B : ExtBasis K K2) (hB : B.e = basis12 u w) (E : ExtField F) (hE : ∀ v, (E.coeffs v).length = 12)
    (hz : ∀ v ∈ E.coeffs E.vzero, l.val v = 0)
    (hnew : ∀ vs, vs.length = 12 → lin B.e ((E.coeffs (E.new vs)).map l.val) = lin B.e (vs.map l.val))
    (hdiv : ∀ u v, lin B.e ((E.coeffs (E.vdiv u v)).map l.val) = lin B.e ((E.coeffs u).map l.val) / lin B.e ((E.coeffs v).map l.val))
    (hneg : ∀ u, lin B.e ((E.coeffs (E.vneg u)).map l.val) = -lin B.e ((E.coeffs u).map l.val)) :
    FieldCmp (fp12Laws l hu hw B hB E hE hz) :=
  vecCmp k B E 12 (by rw [hB]; rfl) hE hz (fp12MulNoCarry F xi) _ (fp12_extMul l hu hw B hB) (fp12_extMulC k hxi hu hw B hB) hnew hdiv
    hneg

/-! ### The other operations -/

/-- `Fp2Chip::conjugate` is complete. -/
theorem fp2Conjugate_cmp {a : List F.P} {u X : K2} (σ : K2 →ₐ[K] K2) (hσ : σ u = -u) (ha : vecRep [1, u] (k.PW ext s) a X) :
    Cmp tbl ext s (fp2Conjugate F a) (fun r s' => vecRep [1, u] (k.PW ext s') r (σ X)) := by
  obtain ⟨xs, x1, x2, rfl⟩ := ha
  obtain ⟨x, y, rfl⟩ := list2 x1
  obtain ⟨a0, a1, rfl⟩ := list2 x2.length_eq
  simp only [List.forall₂_cons, List.forall₂_nil_left_iff, and_true] at x2
  refine Cmp.bind (k.negate x2.2) fun n s1 e1 hn => Cmp.pure ⟨[x, -y], rfl, .cons (k.p_mono x2.1 e1) (.cons hn .nil), ?_⟩
  simp [lin, hσ]

/-- `Fp2Chip::neg_conjugate` is complete. -/
theorem fp2NegConjugate_cmp {a : List F.P} {u X : K2} (σ : K2 →ₐ[K] K2) (hσ : σ u = -u) (ha : vecRep [1, u] (k.PW ext s) a X) :
    Cmp tbl ext s (fp2NegConjugate F a) (fun r s' => vecRep [1, u] (k.PW ext s') r (-σ X)) := by
  obtain ⟨xs, x1, x2, rfl⟩ := ha
  obtain ⟨x, y, rfl⟩ := list2 x1
  obtain ⟨a0, a1, rfl⟩ := list2 x2.length_eq
  simp only [List.forall₂_cons, List.forall₂_nil_left_iff, and_true] at x2
  refine Cmp.bind (k.negate x2.1) fun n s1 e1 hn => Cmp.pure ⟨[-x, y], rfl, .cons hn (.cons (k.p_mono x2.2 e1) .nil), ?_⟩
  simp [lin, hσ]
  ring

/-- `mul_no_carry_w6` is complete. -/
theorem mulNoCarryW6_cmp (xi : ℤ) (hxi : |xi| < 2 ^ 63) {a : List F.U} {u X : K2} {z0 z1 : l.Sz} (hu : u * u = -1)
    (ha : vecUW k [1, u] ext s a X [z0, z1]) :
    Cmp tbl ext s (mulNoCarryW6 F xi a) (fun r s' =>
      vecUW k [1, u] ext s' r (X * ((xi : K2) + u)) [l.subSz (l.smulSz xi z0) z1, l.smulAddSz xi z1 z0]) := by
  obtain ⟨qs, q1, q2, rfl, q3⟩ := ha
  obtain ⟨⟨x, _⟩, ⟨y, _⟩, rfl⟩ := list2 q1
  simp only [List.map_cons, List.map_nil, List.cons.injEq, and_true] at q3
  obtain ⟨rfl, rfl⟩ := q3
  obtain ⟨a0, a1, rfl⟩ := list2 q2.length_eq
  simp only [List.forall₂_cons, List.forall₂_nil_left_iff, and_true] at q2
  refine Cmp.bind (k.scalarMulNoCarry xi hxi q2.1) fun x' s1 e1 hx => ?_
  refine Cmp.bind (k.subNoCarry hx (q2.2.mono e1)) fun r0 s2 e2 h0 => ?_
  refine Cmp.bind (k.scalarMulAddNoCarry xi hxi (q2.2.mono (e1.trans e2)) (q2.1.mono (e1.trans e2))) fun r1 s3 e3 h1 => Cmp.pure ?_
  refine ⟨[(_, _), (_, _)], rfl, .cons (k.u_mono h0 e3) (.cons h1 .nil), ?_, rfl⟩
  simp only [lin, List.map_cons, List.map_nil, List.zipWith_cons_cons, List.zipWith_nil_left, List.sum_cons, List.sum_nil, map_add,
    map_sub, map_mul, map_intCast]
  linear_combination (algebraMap K K2 y) * hu

/-- `FieldVectorChip::fp_mul_no_carry` is complete. -/
theorem fpMulNoCarry_cmp {a : List F.U} {x : F.U} {e : List K2} {X : K2} {c : K} {ss : List l.Sz} {sc : l.Sz}
    (ha : vecUW k e ext s a X ss) (hx : k.UW ext s x c sc) :
    Cmp tbl ext s (fpMulNoCarry F a x) (fun r s' =>
      vecUW k e ext s' r (X * algebraMap K K2 c) (ss.map fun s => l.mulSz s sc)) :=
  vecUW.map (f := fun x => x * c) (g := fun x => x * algebraMap K K2 c) (by simp)
    (by intro x b u; rw [map_mul]; ring) (I := fun s => k.UW ext s x c sc) (fun h e => k.u_mono h e) hx
    (fun h1 h2 => k.mulNoCarry h2 h1) ha

theorem fp2MulLoop0_cmp {x y : F.U} {qx qy : K × l.Sz} : ∀ {s : Ctx p} {as bs : List F.U} {qa qb : List (K × l.Sz)},
    k.D ext s x qx → k.D ext s y qy → List.Forall₂ (k.D ext s) as qa → List.Forall₂ (k.D ext s) bs qb →
    Cmp tbl ext s (fp2MulLoop0 F x y as bs) (fun r s' => List.Forall₂ (k.D ext s') r
      (List.zipWith (fun a b => (l.arith 0).sub ((l.arith 0).mul a qx) ((l.arith 0).mul b qy)) qa qb)) := by
  intro s as
  induction as generalizing s with
  | nil =>
    intro bs qa qb _ _ ha _
    cases ha
    unfold fp2MulLoop0
    exact Cmp.pure .nil
  | cons a as ih =>
    intro bs qa qb hx hy ha hb
    cases ha with
    | cons u0 v0 =>
    cases hb with
    | nil => unfold fp2MulLoop0; exact Cmp.pure .nil
    | cons u1 v1 =>
      refine Cmp.bind (k.mulNoCarry u0 hx) fun c1 s1 e1 h1 => ?_
      refine Cmp.bind (k.mulNoCarry (u1.mono e1) (hy.mono e1)) fun c2 s2 e2 h2 => ?_
      refine Cmp.bind (k.subNoCarry (k.u_mono h1 e2) h2) fun c s3 e3 h3 => ?_
      have e := (e1.trans e2).trans e3
      exact Cmp.bind (ih (hx.mono e) (hy.mono e) (forallD_mono v0 e) (forallD_mono v1 e)) fun r s4 e4 h4 =>
        Cmp.pure (.cons (k.u_mono h3 e4) h4)

theorem fp2MulLoop1_cmp {x y : F.U} {qx qy : K × l.Sz} : ∀ {s : Ctx p} {as bs : List F.U} {qa qb : List (K × l.Sz)},
    k.D ext s x qx → k.D ext s y qy → List.Forall₂ (k.D ext s) as qa → List.Forall₂ (k.D ext s) bs qb →
    Cmp tbl ext s (fp2MulLoop1 F x y as bs) (fun r s' => List.Forall₂ (k.D ext s') r
      (List.zipWith (fun a b => (l.arith 0).add ((l.arith 0).mul b qx) ((l.arith 0).mul a qy)) qa qb)) := by
  intro s as
  induction as generalizing s with
  | nil =>
    intro bs qa qb _ _ ha _
    cases ha
    unfold fp2MulLoop1
    exact Cmp.pure .nil
  | cons a as ih =>
    intro bs qa qb hx hy ha hb
    cases ha with
    | cons u0 v0 =>
    cases hb with
    | nil => unfold fp2MulLoop1; exact Cmp.pure .nil
    | cons u1 v1 =>
      refine Cmp.bind (k.mulNoCarry u1 hx) fun c1 s1 e1 h1 => ?_
      refine Cmp.bind (k.mulNoCarry (u0.mono e1) (hy.mono e1)) fun c2 s2 e2 h2 => ?_
      refine Cmp.bind (k.addNoCarry (k.u_mono h1 e2) h2) fun c s3 e3 h3 => ?_
      have e := (e1.trans e2).trans e3
      exact Cmp.bind (ih (hx.mono e) (hy.mono e) (forallD_mono v0 e) (forallD_mono v1 e)) fun r s4 e4 h4 =>
        Cmp.pure (.cons (k.u_mono h3 e4) h4)

/-- `Fp12Chip::fp2_mul_no_carry` is complete. -/
theorem fp12Fp2MulNoCarry_cmp {a b : List F.U} {u w X Y : K2} {ss : List l.Sz} {z0 z1 : l.Sz} (hu : u * u = -1)
    (ha : vecUW k (basis12 u w) ext s a X ss) (hb : vecUW k [1, u] ext s b Y [z0, z1]) :
    Cmp tbl ext s (fp12Fp2MulNoCarry F a b) (fun r s' =>
      vecUW k (basis12 u w) ext s' r (X * Y) (fp12Fp2Sz l z0 z1 ss)) := by
  obtain ⟨qs, q1, q2, rfl, rfl⟩ := ha
  obtain ⟨ts, t1, t2, rfl, t3⟩ := hb
  obtain ⟨⟨x, _⟩, ⟨y, _⟩, rfl⟩ := list2 t1
  simp only [List.map_cons, List.map_nil, List.cons.injEq, and_true] at t3
  obtain ⟨rfl, rfl⟩ := t3
  obtain ⟨b0, b1, rfl⟩ := list2 t2.length_eq
  simp only [List.forall₂_cons, List.forall₂_nil_left_iff, and_true] at t2
  have q1' : qs.length = 12 := q1
  refine Cmp.assert (by simp [q2.length_eq, q1']) ?_
  refine Cmp.bind (fp2MulLoop0_cmp t2.1 t2.2 (forall₂_take q2 6) (forall₂_drop q2 6)) fun r0 s1 e1 k1 => ?_
  refine Cmp.bind (fp2MulLoop1_cmp (t2.1.mono e1) (t2.2.mono e1) (forallD_mono (forall₂_take q2 6) e1)
    (forallD_mono (forall₂_drop q2 6) e1)) fun r1 s2 e2 k2 => Cmp.pure ?_
  refine ⟨_, ?_, List.rel_append (forallD_mono k1 e2) k2, ?_, ?_⟩
  all_goals
    obtain ⟨a0, a1, a2, a3, a4, a5, a6, a7, a8, a9, a10, a11, rfl⟩ := list12 q1
  · rfl
  · simp only [lin, basis12, FieldLaws.arith, List.take, List.drop, List.map_cons, List.map_nil, List.zipWith_cons_cons,
      List.zipWith_nil_left, List.sum_cons, List.sum_nil, List.cons_append, List.nil_append, map_add, map_sub, map_mul]
    linear_combination ((algebraMap K K2 a6.1 + algebraMap K K2 a7.1 * w + algebraMap K K2 a8.1 * w ^ 2 + algebraMap K K2 a9.1 * w ^ 3 +
      algebraMap K K2 a10.1 * w ^ 4 + algebraMap K K2 a11.1 * w ^ 5) * algebraMap K K2 y) * hu
  · rfl

theorem conjLoop_cmp : ∀ {as : List F.P} {s : Ctx p} (b : Bool) {xs : List K}, List.Forall₂ (k.PW ext s) as xs →
    Cmp tbl ext s (conjLoop F b as) (fun r s' => List.Forall₂ (k.PW ext s') r
      (xs.mapIdx fun i x => if (i % 2 == 0) = b then x else -x)) := by
  intro as
  induction as with
  | nil =>
    intro s b xs h
    cases h
    unfold conjLoop
    exact Cmp.pure .nil
  | cons a as ih =>
    intro s b xs h
    cases h with
    | cons b1 b2 =>
    cases b with
    | true =>
      refine Cmp.bind (ih false b2) fun rs s1 e1 h1 => Cmp.pure ?_
      rw [List.mapIdx_cons]
      refine .cons (by simpa using k.p_mono b1 e1) ?_
      convert h1 using 3
      rename_i i
      funext x
      rcases Nat.mod_two_eq_zero_or_one i with hi | hi <;> simp [hi, Nat.add_mod]
    | false =>
      refine Cmp.bind (k.negate b1) fun n s1 e1 hn => ?_
      refine Cmp.bind (ih true (b2.imp fun _ _ h => k.p_mono h e1)) fun rs s2 e2 h1 => Cmp.pure ?_
      rw [List.mapIdx_cons]
      refine .cons (by simpa using k.p_mono hn e2) ?_
      convert h1 using 3
      rename_i i
      funext x
      rcases Nat.mod_two_eq_zero_or_one i with hi | hi <;> simp [hi, Nat.add_mod]

/-- `Fp12Chip::conjugate` is complete. -/
theorem fp12Conjugate_cmp {a : List F.P} {u w X : K2} (σ : K2 →ₐ[K] K2) (hu : σ u = u) (hw : σ w = -w)
    (ha : vecRep (basis12 u w) (k.PW ext s) a X) :
    Cmp tbl ext s (fp12Conjugate F a) (fun r s' => vecRep (basis12 u w) (k.PW ext s') r (σ X)) := by
  obtain ⟨xs, x1, x2, rfl⟩ := ha
  have x1' : xs.length = 12 := x1
  refine Cmp.assert (by simp [x2.length_eq, x1']) ((conjLoop_cmp true x2).weaken fun r s' hr => ?_)
  refine ⟨_, by simpa using x1, hr, ?_⟩
  obtain ⟨a0, a1, a2, a3, a4, a5, a6, a7, a8, a9, a10, a11, rfl⟩ := list12 x1
  simp [lin, basis12, hu, hw]
  ring

end H2
