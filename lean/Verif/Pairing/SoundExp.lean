import Verif.Pairing.Rep
import Verif.Props.Ecc

/-!
# Soundness of `final_exp.rs`
-/

set_option autoImplicit false
set_option linter.unusedSectionVars false
namespace H2
open PairCfg

theorem xi_eq : ((9 : ℤ) : Fq2) + Fq2.u = Fq2.xi := by
  ext
  · simp
    rfl
  · simp
    rfl

abbrev maxS (x y : List (ℕ × ℕ)) : List (ℕ × ℕ) := List.zipWith (fun x y : ℕ × ℕ => (max x.1 y.1, max x.2 y.2)) x y

theorem uRep_widen {w : Cell → ZMod bn254R} {a r : CrtInt bn254R} {X : ZMod bn254Q} {s t : ℕ × ℕ} (h : bnLaws.URep w a X s)
    (hl : r.trunc.limbs.map (at' w) = a.trunc.limbs.map (at' w)) (hm : a.trunc.maxBits ≤ r.trunc.maxBits)
    (hn : at' w r.native = at' w a.native) (ht : r.trunc.maxBits ≤ t.1) (ht2 : s.2 ≤ t.2) : bnLaws.URep w r X t := by
  obtain ⟨A, a1, a2, a3, a4⟩ := h
  exact ⟨A, a1.widen hl hm hn, ht, a3.trans (by exact_mod_cast ht2), a4⟩

theorem selU (a b : CrtInt bn254R) (sel : AV bn254R) : Sound bnTbl (bnCfg.F.select a b sel) (fun w r => ∀ X Y sx sy,
    bnLaws.URep w a X sx → bnLaws.URep w b Y sy →
    (at' w sel = 1 → bnLaws.URep w r X (max sx.1 sy.1, max sx.2 sy.2)) ∧
    (at' w sel = 0 → bnLaws.URep w r Y (max sx.1 sy.1, max sx.2 sy.2))) := by
  intro s
  refine (selectCrt_sound a b sel s).weaken ?_
  rintro w r _ ⟨h1, -, h2, h3⟩ X Y sx sy hX hY
  have kX : a.trunc.maxBits ≤ sx.1 := by obtain ⟨A, -, h, -⟩ := id hX; exact h
  have kY : b.trunc.maxBits ≤ sy.1 := by obtain ⟨A, -, h, -⟩ := id hY; exact h
  have hr : r.trunc.maxBits ≤ max sx.1 sy.1 := by rw [h1]; omega
  refine ⟨fun h => ?_, fun h => ?_⟩
  · exact uRep_widen hX (h2 h).1 (by rw [h1]; exact le_max_left _ _) (h2 h).2 hr (le_max_left _ _)
  · exact uRep_widen hY (h3 h).1 (by rw [h1]; exact le_max_right _ _) (h3 h).2 hr (le_max_right _ _)

theorem f2_selU (a b : List (CrtInt bn254R)) (sel : AV bn254R) : Sound bnTbl (vecSelect bnCfg.F a b sel) (fun w r => ∀ X Y sx sy,
    U2 w a X sx → U2 w b Y sy → (at' w sel = 1 → U2 w r X (maxS sx sy)) ∧ (at' w sel = 0 → U2 w r Y (maxS sx sy))) := by
  intro s
  refine (zipEqList_sound (fun a b => selU a b sel) a b s).weaken ?_
  intro w r _ h X Y sx sy hX hY
  refine ⟨fun h1 => ?_, fun h1 => ?_⟩
  · exact vecURep.zip (l := bnLaws) (K2 := Fq2) (g := fun x _ => x) (f := fun x _ => x)
      (h := fun x y : ℕ × ℕ => (max x.1 y.1, max x.2 y.2)) rfl (fun _ _ _ _ _ => rfl)
      (h.imp fun a b r hh X Y sx sy hx hy => (hh X Y sx sy hx hy).1 h1) hX hY
  · exact vecURep.zip (l := bnLaws) (K2 := Fq2) (g := fun _ y => y) (f := fun _ y => y)
      (h := fun x y : ℕ × ℕ => (max x.1 y.1, max x.2 y.2)) rfl (fun _ _ _ _ _ => rfl)
      (h.imp fun a b r hh X Y sx sy hx hy => (hh X Y sx sy hx hy).2 h1) hX hY

/-- `select` on points. -/
theorem f2_sel (a b : List (CrtInt bn254R)) (sel : AV bn254R) : Sound bnTbl (vecSelect bnCfg.F a b sel) (fun w r => ∀ X Y,
    R2 w a X → R2 w b Y → (at' w sel = 1 → R2 w r X) ∧ (at' w sel = 0 → R2 w r Y)) :=
  fun s => (bnLaws2.select a b sel s).weaken fun _ _ _ h => h.1

theorem add_ec (a : AV bn254R) (c : ZMod bn254R) : Sound bnTbl (add (.existing a) (.constant c)) (fun w r => at' w r = at' w a + c) := by
  refine fun s => (add_sound _ _ s).weaken ?_
  rintro w r _ ⟨x, y, hx, hy, h⟩
  rw [h, show x = _ from hx, show y = _ from hy]

theorem crtAddOne_sound (a : CrtInt bn254R) : Sound bnTbl (crtAddOne a) (fun w r => ∀ X sx, bnLaws.URep w a X sx →
    bnLaws.URep w r (X + 1) (sx.1 + 1, sx.2 + 1)) := by
  intro s
  unfold crtAddOne
  obtain ⟨⟨ls, mb⟩, nat, val⟩ := a
  cases ls with
  | nil => exact Snd.panic
  | cons l0 ls =>
    refine Snd.bind (add_ec l0 1 s) fun l s1 _ => Snd.bind (add_ec nat 1 s1) fun nt s2 _ => Snd.pure ?_
    rintro w - hn hl X sx ⟨A, ⟨xs, x1, x2, x3, x4⟩, a2, a3, rfl⟩
    change mb ≤ sx.1 at a2
    have hlim : (l0 :: ls).map (at' w) = xs.map (fun x : ℤ => (x : ZMod bn254R)) := x2.limbs
    cases xs with
    | nil => simp at hlim
    | cons x xs =>
      simp only [List.map_cons, List.cons.injEq] at hlim
      refine ⟨A + 1, ⟨(x + 1) :: xs, x1, ⟨?_, ?_⟩, ?_, ?_⟩, by show mb + 1 ≤ sx.1 + 1; omega, ?_, by push_cast; rfl⟩
      · simp only [List.map_cons, List.cons.injEq, hl, hlim.1]
        exact ⟨by push_cast; rfl, hlim.2⟩
      · intro y hy
        have hb : ∀ z ∈ x :: xs, |z| < 2 ^ mb := x2.bound
        show |y| < 2 ^ (mb + 1)
        have h1 : (1 : ℤ) ≤ 2 ^ mb := one_le_pow₀ (by norm_num)
        rw [pow_succ]
        rcases List.mem_cons.1 hy with rfl | hy
        · have := hb x (List.mem_cons_self ..)
          have := abs_add_le x 1
          rw [abs_one] at this
          linarith
        · have := hb y (List.mem_cons_of_mem _ hy)
          linarith
      · have e : limbVal bnChip.n ((x + 1) :: xs) = limbVal bnChip.n (x :: xs) + 1 := by
          simp only [limbVal]
          ring
        rw [e]
        exact x3.add_right 1
      · show at' w nt = _
        rw [hn]
        have : at' w nat = (A : ZMod bn254R) := x4
        rw [this]
        push_cast
        rfl
      · have := abs_add_le A 1
        rw [abs_one] at this
        push_cast
        linarith

/-- The sizes after `g0 + 1`. -/
def addOneS : List (ℕ × ℕ) → List (ℕ × ℕ)
  | x :: l => (x.1 + 1, x.2 + 1) :: l
  | [] => []

theorem addOne_sound (a : List (CrtInt bn254R)) : Sound bnTbl (addOne a) (fun w r => ∀ X sx, U2 w a X sx →
    U2 w r (X + 1) (addOneS sx)) := by
  intro s
  unfold addOne
  cases a with
  | nil => exact Snd.panic
  | cons a0 as =>
    refine Snd.bind (crtAddOne_sound a0 s) fun r s1 _ => Snd.pure ?_
    rintro w - h X sx ⟨qs, q1, q2, rfl, rfl⟩
    cases q2 with
    | cons h1 h2 =>
      rename_i q qs
      refine ⟨(q.1 + 1, (q.2.1 + 1, q.2.2 + 1)) :: qs, q1, .cons (h _ _ h1) h2, ?_, rfl⟩
      show lin ((1 : Fq2) :: [Fq2.u]) _ + 1 = lin ((1 : Fq2) :: [Fq2.u]) _
      simp only [lin, List.map_cons, List.zipWith_cons_cons, List.sum_cons, map_add, map_one]
      ring

/-! ### Compressed elements -/

/-- `g` is the compression of `X`. -/
def CompRep (w : Cell → ZMod bn254R) (g : Comp (CrtInt bn254R)) (X : Fq12) : Prop :=
  ∃ a0 a1 a2 a3 a4 a5, X = e6 a0 a1 a2 a3 a4 a5 ∧ R2 w g.g2 a1 ∧ R2 w g.g3 a4 ∧ R2 w g.g4 a2 ∧ R2 w g.g5 a5

theorem slice_sound (a : List (CrtInt bn254R)) (i : ℕ) : Sound bnTbl (slice a i) (fun _ r => ∃ x y, a[i]? = some x ∧
    a[i + 6]? = some y ∧ r = [x, y]) := by
  intro s
  refine Snd.unwrap fun x hx => Snd.unwrap fun y hy => Snd.pure ?_
  exact fun _ _ => ⟨x, y, hx, hy, rfl⟩

theorem cycCompress_sound (a : List (CrtInt bn254R)) : Sound bnTbl (cycCompress a) (fun w r => ∀ X, R12 w a X → CompRep w r X) := by
  intro s
  refine Snd.bind (slice_sound a 1 s) fun _ s1 _ => Snd.bind (slice_sound a 4 s1) fun _ s2 _ => Snd.bind (slice_sound a 2 s2) fun _ s3 _ =>
    Snd.bind (slice_sound a 5 s3) fun _ s4 _ => Snd.pure ?_
  rintro w - ⟨x5, y5, h5, k5, rfl⟩ ⟨x2, y2, h2, k2, rfl⟩ ⟨x4, y4, h4, k4, rfl⟩ ⟨x1, y1, h1, k1, rfl⟩ X hX
  obtain ⟨a0, a1, a2, a3, a4, a5, b0, b1, b2, b3, b4, b5, rfl, X0, X1, X2, X3, X4, X5, rfl, r0, r1, r2, r3, r4, r5⟩ := hX.elim
  simp only [List.getElem?_cons_succ, List.getElem?_cons_zero, Option.some.injEq, Nat.reduceAdd] at h1 k1 h2 k2 h4 k4 h5 k5
  subst h1 k1 h2 k2 h4 k4 h5 k5
  exact ⟨X0, X1, X2, X3, X4, X5, rfl, r1, r4, r2, r5⟩

theorem isZero2 (a : List (CrtInt bn254R)) : Sound bnTbl (bnCfg.F2.isZero a) (fun w r => ∀ X, R2 w a X → at' w r = if X = 0 then 1 else 0) :=
  bnLaws2.isZero a

theorem cycDecompress_sound (g : Comp (CrtInt bn254R)) : Sound bnTbl (bnCfg.cycDecompress g) (fun w r => ∀ X, CompRep w g X →
    InCyc X → X ≠ 1 → R12 w r X) := by
  intro s
  refine Snd.bind (f2_mulNC g.g5 g.g5 s) fun g5sq s1 _ => Snd.bind (f2_w6 g5sq 9 s1) fun g5sqc s2 _ =>
    Snd.bind (f2_mulNC g.g4 g.g4 s2) fun g4sq s3 _ => Snd.bind (f2_smul g4sq 3 s3) fun g4sq3 s4 _ =>
    Snd.bind (f2_smul g.g3 2 s4) fun g32 s5 _ => Snd.bind (f2_add g5sqc g4sq3 s5) fun num s6 _ =>
    Snd.bind (f2_sub num g32 s6) fun num' s7 _ => Snd.bind (f2_smul g.g2 4 s7) fun g24 s8 _ =>
    Snd.bind (f2_div num' g24 s8) fun g11 s9 _ => Snd.bind (f2_mulNC g.g4 g.g5 s9) fun g4g5 s10 _ =>
    Snd.bind (f2_smul g4g5 2 s10) fun num2 s11 _ => Snd.bind (f2_div num2 g.g3 s11) fun g10 s12 _ =>
    Snd.bind (isZero2 g.g2 s12) fun z s13 _ => Snd.bind (f2_sel g10 g11 z s13) fun g1 s14 _ =>
    Snd.bind (f2_mulNC g1 g1 s14) fun g1sq s15 _ => Snd.bind (f2_smul g1sq 2 s15) fun g1sq2 s16 _ =>
    Snd.bind (f2_mulNC g.g2 g.g5 s16) fun g2g5 s17 _ => Snd.bind (f2_mulNC g.g3 g.g4 s17) fun g3g4 s18 _ =>
    Snd.bind (f2_smul g3g4 3 s18) fun g3g43 s19 _ => Snd.bind (f2_add g1sq2 g2g5 s19) fun temp s20 _ =>
    Snd.bind (f2_selU g1sq2 temp z s20) fun temp' s21 _ => Snd.bind (f2_sub temp' g3g43 s21) fun temp'' s22 _ =>
    Snd.bind (f2_w6 temp'' 9 s22) fun g0 s23 _ => Snd.bind (addOne_sound g0 s23) fun g0' s24 _ =>
    Snd.bind (f2_carry g0' s24) fun g0'' s25 _ => (join_sound g0'' g.g2 g.g4 g1 g.g3 g.g5 s25).weaken ?_
  rintro w r _ hj h25 h24 h23 h22 h21 h20 h19 h18 h17 h16 h15 h14 h13 ⟨Q0, hQ0, h12⟩ h11 h10 ⟨Q1, hQ1, h9⟩ h8 h7 h6 h5 h4 h3 h2 h1
    X ⟨a0, a1, a2, a3, a4, a5, rfl, r1, r4, r2, r5⟩ hc hne
  have rel := hc.rel
  obtain ⟨d1, d0, d2⟩ := rel.decompress
  have u1 := r1.u
  have u2 := r2.u
  have u4 := r4.u
  have u5 := r5.u
  have e11 := h9 _ _ _ _ (by decide +kernel) (h7 _ _ _ _ (h6 _ _ _ _ (h2 _ _ (h1 _ _ _ _ u5 u5)) (h4 _ _ (h3 _ _ _ _ u2 u2)))
    (h5 _ _ u4)) (h8 _ _ u1)
  have e10 := h12 _ _ _ _ (by decide +kernel) (h11 _ _ (h10 _ _ _ _ u2 u5)) u4
  rw [xi_eq] at e11
  push_cast at e11 e10
  have hz := h13 _ r1
  have hsel := h14 _ _ hQ0 hQ1
  have hg1 : R2 w g1 a3 := by
    by_cases ha : a1 = 0
    · have h4 : a4 ≠ 0 := fun h4 => hne (rel.eq_one ha h4)
      rw [if_pos ha] at hz
      have : Q0 = a3 := by
        have := e10.trans (d2 ha).symm
        exact mul_right_cancel₀ h4 this
      exact this ▸ hsel.1 hz
    · rw [if_neg ha] at hz
      have h4 : (4 : Fq2) ≠ 0 := by
        have := Fq2.natCast_ne (c := 4) (by decide +kernel)
        exact_mod_cast this
      have : Q1 = a3 := mul_right_cancel₀ (mul_ne_zero ha h4) (e11.trans d1.symm)
      exact this ▸ hsel.2 hz
  have u3 := hg1.u
  have hA := h16 _ _ (h15 _ _ _ _ u3 u3)
  have hB := h20 _ _ _ _ hA (h17 _ _ _ _ u1 u5)
  have hS := h21 _ _ _ _ hA hB
  have hT : U2 w temp' (a3 * a3 * 2 + a1 * a5) (maxS (smulS 2 (mulS pS pS)) (addS (smulS 2 (mulS pS pS)) (mulS pS pS))) := by
    by_cases ha : a1 = 0
    · rw [if_pos ha] at hz
      have := hS.1 hz
      rw [ha, zero_mul, add_zero]
      push_cast at this
      exact this
    · rw [if_neg ha] at hz
      have := hS.2 hz
      push_cast at this
      exact this
  have h0 := h25 _ _ (by decide +kernel) (h24 _ _ (h23 _ _ (h22 _ _ _ _ hT (h19 _ _ (h18 _ _ _ _ u4 u2)))))
  rw [xi_eq] at h0
  push_cast at h0
  rw [← d0] at h0
  exact hj _ _ _ _ _ _ h0 r1 r2 hg1 r4 r5

theorem cycSquare_sound (g : Comp (CrtInt bn254R)) : Sound bnTbl (bnCfg.cycSquare g) (fun w r => ∀ X, CompRep w g X →
    InCyc X → CompRep w r (X ^ 2)) := by
  intro s
  refine Snd.bind (f2_add g.g2 g.g3 s) fun g2g3 s1 _ => Snd.bind (f2_w6 g.g3 9 s1) fun cg3 s2 _ =>
    Snd.bind (f2_add g.g2 cg3 s2) fun g2cg3 s3 _ => Snd.bind (f2_mulNC g2g3 g2cg3 s3) fun a23 s4 _ =>
    Snd.bind (f2_add g.g4 g.g5 s4) fun g4g5 s5 _ => Snd.bind (f2_w6 g.g5 9 s5) fun cg5 s6 _ =>
    Snd.bind (f2_add g.g4 cg5 s6) fun g4cg5 s7 _ => Snd.bind (f2_mulNC g4g5 g4cg5 s7) fun a45 s8 _ =>
    Snd.bind (f2_mulNC g.g2 g.g3 s8) fun b23 s9 _ => Snd.bind (f2_mulNC g.g4 g.g5 s9) fun b45 s10 _ =>
    Snd.bind (f2_w6 b45 9 s10) fun b45c s11 _ => Snd.bind (f2_smulAdd b45c g.g2 3 s11) fun t1 s12 _ =>
    Snd.bind (f2_smul t1 2 s12) fun k2 s13 _ => Snd.bind (f2_add b45c b45 s13) fun t2 s14 _ =>
    Snd.bind (f2_sub a45 t2 s14) fun t3 s15 _ => Snd.bind (f2_smul t3 3 s15) fun t4 s16 _ =>
    Snd.bind (f2_smulAdd g.g3 t4 (-2) s16) fun k3 s17 _ => Snd.bind (f2_w6 b23 10 s17) fun t5 s18 _ =>
    Snd.bind (f2_sub a23 t5 s18) fun t6 s19 _ => Snd.bind (f2_smul t6 3 s19) fun t7 s20 _ =>
    Snd.bind (f2_smulAdd g.g4 t7 (-2) s20) fun k4 s21 _ => Snd.bind (f2_smulAdd b23 g.g5 3 s21) fun t8 s22 _ =>
    Snd.bind (f2_smul t8 2 s22) fun k5 s23 _ => Snd.bind (f2_carry k2 s23) fun o2 s24 _ => Snd.bind (f2_carry k3 s24) fun o3 s25 _ =>
    Snd.bind (f2_carry k4 s25) fun o4 s26 _ => Snd.bind (f2_carry k5 s26) fun o5 s27 _ => Snd.pure ?_
  rintro w - c5 c4 c3 c2 h23 h22 h21 h20 h19 h18 h17 h16 h15 h14 h13 h12 h11 h10 h9 h8 h7 h6 h5 h4 h3 h2 h1
    X ⟨a0, a1, a2, a3, a4, a5, rfl, r1, r4, r2, r5⟩ hc
  obtain ⟨y0, y3, e⟩ := hc.rel.square
  have u1 := r1.u
  have u2 := r2.u
  have u4 := r4.u
  have u5 := r5.u
  have v23 := h4 _ _ _ _ (h1 _ _ _ _ u1 u4) (h3 _ _ _ _ u1 (h2 _ _ u4))
  have v45 := h8 _ _ _ _ (h5 _ _ _ _ u2 u5) (h7 _ _ _ _ u2 (h6 _ _ u5))
  have w23 := h9 _ _ _ _ u1 u4
  have w45 := h10 _ _ _ _ u2 u5
  have w45c := h11 _ _ w45
  have q2 := c2 _ _ (by decide +kernel) (h13 _ _ (h12 _ _ _ _ w45c u1))
  have q3 := c3 _ _ (by decide +kernel) (h17 _ _ _ _ u4 (h16 _ _ (h15 _ _ _ _ v45 (h14 _ _ _ _ w45c w45))))
  have q4 := c4 _ _ (by decide +kernel) (h21 _ _ _ _ u2 (h20 _ _ (h19 _ _ _ _ v23 (h18 _ _ w23))))
  have q5 := c5 _ _ (by decide +kernel) (h23 _ _ (h22 _ _ _ _ w23 u5))
  have e10 : ((10 : ℤ) : Fq2) + Fq2.u = Fq2.xi + 1 := by
    rw [← xi_eq]
    push_cast
    ring
  rw [e]
  refine ⟨_, _, _, _, _, _, rfl, ?_, ?_, ?_, ?_⟩
  · rw [xi_eq] at q2
    push_cast at q2
    convert q2 using 1
    ring
  · rw [xi_eq] at q3
    push_cast at q3
    convert q3 using 1
    ring
  · rw [xi_eq, e10] at q4
    push_cast at q4
    convert q4 using 1
    ring
  · push_cast at q5
    convert q5 using 1
    ring

end H2
