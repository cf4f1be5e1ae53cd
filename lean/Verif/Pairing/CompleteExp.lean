import Verif.Pairing.CompleteRep
import Verif.Pairing.SoundExp

/-!
# Completeness of the compressed arithmetic of `final_exp.rs`
-/

set_option autoImplicit false
set_option linter.unusedSectionVars false
namespace H2
open PairCfg
variable {ext : Cell → ZMod bn254R} {s s' : Ctx bn254R} {a b : List (CrtInt bn254R)}

theorem selU_cmp {a b : CrtInt bn254R} {sel : AV bn254R} {X Y : ZMod bn254Q} {sx sy : ℕ × ℕ} {t : Bool} (ha : bnCmp.UW ext s a X sx)
    (hb : bnCmp.UW ext s b Y sy) (hs : Con ext s sel (if t then 1 else 0)) :
    Cmp bnTbl ext s (bnCfg.F.select a b sel) (fun r s' =>
      bnCmp.UW ext s' r (if t then X else Y) (max sx.1 sy.1, max sx.2 sy.2)) := by
  obtain ⟨A, a1, a2, a3, rfl⟩ := ha
  obtain ⟨B, b1, b2, b3, rfl⟩ := hb
  refine (selectCrt_cmp a1 b1 hs).weaken ?_
  rintro r s' ⟨h1, h2⟩
  refine ⟨_, h2, ?_, ?_, ?_⟩
  · rw [h1]
    exact max_le_max a2 b2
  · cases t
    · exact b3.trans (by exact_mod_cast le_max_right _ _)
    · exact a3.trans (by exact_mod_cast le_max_left _ _)
  · cases t <;> rfl

theorem g2_selU {sel : AV bn254R} {X Y : Fq2} {sx sy : List (ℕ × ℕ)} {t : Bool} (ha : HU2 ext s a X sx) (hb : HU2 ext s b Y sy)
    (hs : Con ext s sel (if t then 1 else 0)) :
    Cmp bnTbl ext s (vecSelect bnCfg.F a b sel) (fun r s' => HU2 ext s' r (if t then X else Y) (maxS sx sy)) := by
  obtain ⟨qs, q1, q2, rfl, rfl⟩ := ha
  obtain ⟨ts, t1, t2, rfl, rfl⟩ := hb
  refine (zipEqList_cmp (S := fun s a q => Con ext s sel (if t then 1 else 0) ∧ bnCmp.D ext s a q) (T := bnCmp.D ext) (W := bnCmp.D ext)
    (g := fun q r => (if t then q.1 else r.1, (max q.2.1 r.2.1, max q.2.2 r.2.2)))
    (fun _ _ _ _ h e => ⟨h.1.mono e, FieldCmp.D.mono h.2 e⟩) (fun _ _ _ _ => FieldCmp.D.mono) (fun _ _ _ _ => FieldCmp.D.mono)
    (fun _ _ _ _ _ h1 h2 => selU_cmp h1.2 h2 h1.1) (q2.imp fun _ _ h => ⟨hs, h⟩) t2 (q1.trans t1.symm)).weaken fun r s' hr => ?_
  refine ⟨_, ?_, hr, ?_, ?_⟩
  · rw [List.length_zipWith, q1, t1]
    exact min_self _
  · cases t
    · show lin _ _ = lin _ ((List.zipWith _ qs ts).map Prod.fst)
      congr 1
      rw [List.map_zipWith]
      exact (List.ext_getElem (by simp [q1, t1]) fun i h1 h2 => by simp)
    · show lin _ _ = lin _ ((List.zipWith _ qs ts).map Prod.fst)
      congr 1
      rw [List.map_zipWith]
      exact (List.ext_getElem (by simp [q1, t1]) fun i h1 h2 => by simp)
  · simp only [maxS]
    rw [List.map_zipWith]
    exact List.zipWith_map

theorem g2_sel {sel : AV bn254R} {X Y : Fq2} {t : Bool} (ha : HN2 ext s a X) (hb : HN2 ext s b Y)
    (hs : Con ext s sel (if t then 1 else 0)) :
    Cmp bnTbl ext s (vecSelect bnCfg.F a b sel) (fun r s' => HN2 ext s' r (if t then X else Y)) :=
  bnCmp2.select (t := t = true) ha hb (by simpa [bit] using hs)

theorem g2_isZero {X : Fq2} (ha : HN2 ext s a X) :
    Cmp bnTbl ext s (bnCfg.F2.isZero a) (fun r s' => Con ext s' r (if decide (X = 0) then 1 else 0)) :=
  (bnCmp2.isZero ha).weaken fun _ _ h => by simpa [bit] using h

theorem crtAddOne_ok (a : CrtInt bn254R) : Sound bnTbl (crtAddOne a) (fun w r => ∀ A, CrtOk bnChip.n bnChip.k w a A →
    CrtOk bnChip.n bnChip.k w r (A + 1)) := by
  intro s
  unfold crtAddOne
  obtain ⟨⟨ls, mb⟩, nat, val⟩ := a
  cases ls with
  | nil => exact Snd.panic
  | cons l0 ls =>
    refine Snd.bind (add_ec l0 1 s) fun l s1 _ => Snd.bind (add_ec nat 1 s1) fun nt s2 _ => Snd.pure ?_
    rintro w - hn hl A ⟨xs, x1, x2, x3, x4⟩
    have hlim : (l0 :: ls).map (at' w) = xs.map (fun x : ℤ => (x : ZMod bn254R)) := x2.limbs
    cases xs with
    | nil => simp at hlim
    | cons x xs =>
      simp only [List.map_cons, List.cons.injEq] at hlim
      refine ⟨(x + 1) :: xs, x1, ⟨?_, ?_⟩, ?_, ?_⟩
      · simp only [List.map_cons, List.cons.injEq, hl, hlim.1]
        exact ⟨by push_cast; rfl, hlim.2⟩
      · intro y hy
        have hb : ∀ z ∈ x :: xs, |z| < 2 ^ mb := x2.bound
        show |y| < 2 ^ (mb + 1)
        have h1 : (1 : ℤ) ≤ 2 ^ mb := one_le_pow₀ (by norm_num)
        rw [pow_succ]
        rcases List.mem_cons.1 hy with rfl | hy
        · have := hb x (List.mem_cons_self ..)
          have := abs_add_le x 1
          rw [abs_one] at this
          linarith
        · have := hb y (List.mem_cons_of_mem _ hy)
          linarith
      · have e : limbVal bnChip.n ((x + 1) :: xs) = limbVal bnChip.n (x :: xs) + 1 := by
          simp only [limbVal]
          ring
        rw [e]
        exact x3.add_right 1
      · show at' w nt = _
        rw [hn]
        have : at' w nat = (A : ZMod bn254R) := x4
        rw [this]
        push_cast
        rfl

theorem crtAddOne_cmp {a : CrtInt bn254R} {X : ZMod bn254Q} {sx : ℕ × ℕ} (ha : bnCmp.UW ext s a X sx) :
    Cmp bnTbl ext s (crtAddOne a) (fun r s' => bnCmp.UW ext s' r (X + 1) (sx.1 + 1, sx.2 + 1)) := by
  obtain ⟨A, a1, a2, a3, rfl⟩ := ha
  have h : Cmp bnTbl ext s (crtAddOne a) (fun r s' => AvsW ext s' r.trunc.limbs ∧ AvW ext s' r.native ∧ r.value = A + 1 ∧
      r.trunc.maxBits = a.trunc.maxBits + 1) := by
    have hv := a1.value
    have hl := a1.limbs
    have hn := a1.native
    have hlen := a1.ok.length
    obtain ⟨⟨ls, mb⟩, nat, val⟩ := a
    cases ls with
    | nil => simp at hlen; exact absurd hlen (by decide)
    | cons l0 ls =>
      have hl0 : AvW ext s l0 := hl l0 (List.mem_cons_self ..)
      refine Cmp.bind (add_cmp hl0.q (show QCon ext s (.constant 1) 1 from rfl)) fun l s1 e1 h1 => ?_
      refine Cmp.bind (add_cmp (AvW.mono hn e1).q (show QCon ext s1 (.constant 1) 1 from rfl)) fun nt s2 e2 h2 => ?_
      refine Cmp.pure ⟨?_, h2.w, ?_, rfl⟩
      · intro c hc
        rcases List.mem_cons.1 hc with rfl | hc
        · exact (h1.mono e2).w
        · exact AvW.mono (AvW.mono (hl c (List.mem_cons_of_mem _ hc)) e1) e2
      · show val + 1 = A + 1
        rw [← hv]
  refine (h.withSnd (crtAddOne_ok a)).weakenE ?_
  rintro r s' e ⟨⟨h1, h2, h3, h4⟩, h5⟩
  refine ⟨A + 1, ⟨h5 A (a1.mono e).ok, h1, h2, h3⟩, ?_, ?_, by push_cast; rfl⟩
  · rw [h4]
    exact Nat.add_le_add_right a2 1
  · have := abs_add_le A 1
    rw [abs_one] at this
    push_cast
    linarith

theorem addOne_cmp {X : Fq2} {sx : List (ℕ × ℕ)} (ha : HU2 ext s a X sx) :
    Cmp bnTbl ext s (addOne a) (fun r s' => HU2 ext s' r (X + 1) (addOneS sx)) := by
  obtain ⟨qs, q1, q2, rfl, rfl⟩ := ha
  cases q2 with
  | nil => cases q1
  | cons h1 h2 =>
    rename_i a0 q as qs
    refine Cmp.bind (crtAddOne_cmp h1) fun r s1 e1 hr => Cmp.pure ?_
    refine ⟨(q.1 + 1, (q.2.1 + 1, q.2.2 + 1)) :: qs, q1, .cons hr (h2.imp fun _ _ h => FieldCmp.D.mono h e1), ?_, rfl⟩
    show lin ((1 : Fq2) :: [Fq2.u]) _ + 1 = lin ((1 : Fq2) :: [Fq2.u]) _
    simp only [lin, List.map_cons, List.zipWith_cons_cons, List.sum_cons, map_add, map_one]
    ring

/-! ### Compressed elements -/

/-- In the honest assignment, `g` is the compression of `X`. -/
def CompW (ext : Cell → ZMod bn254R) (s : Ctx bn254R) (g : Comp (CrtInt bn254R)) (X : Fq12) : Prop :=
  ∃ a0 a1 a2 a3 a4 a5, X = e6 a0 a1 a2 a3 a4 a5 ∧ HN2 ext s g.g2 a1 ∧ HN2 ext s g.g3 a4 ∧ HN2 ext s g.g4 a2 ∧ HN2 ext s g.g5 a5

theorem CompW.mono {g : Comp (CrtInt bn254R)} {X : Fq12} (h : CompW ext s g X) (e : Ext s s') : CompW ext s' g X := by
  obtain ⟨a0, a1, a2, a3, a4, a5, rfl, h1, h4, h2, h5⟩ := h
  exact ⟨a0, a1, a2, a3, a4, a5, rfl, h1.mono e, h4.mono e, h2.mono e, h5.mono e⟩

theorem cycCompress_cmp {X : Fq12} (h : HN12 ext s a X) : Cmp bnTbl ext s (cycCompress a) (fun r s' => CompW ext s' r X) := by
  obtain ⟨a0, a1, a2, a3, a4, a5, b0, b1, b2, b3, b4, b5, rfl, X0, X1, X2, X3, X4, X5, rfl, h0, h1, h2, h3, h4, h5⟩ := h.elim
  exact Cmp.pure ⟨X0, X1, X2, X3, X4, X5, rfl, h1, h4, h2, h5⟩

/-- The compression of `X` can be decompressed by the circuit: the coefficient of `w⁴` is nonzero, or that of `w` is zero, or one of
those of `w²` and `w⁵` is. -/
def DecOk (X : Fq12) : Prop := ∀ a0 a1 a2 a3 a4 a5, X = e6 a0 a1 a2 a3 a4 a5 → a4 = 0 → a1 = 0 ∨ a2 * a5 = 0

theorem cycDecompress_cmp {g : Comp (CrtInt bn254R)} {X : Fq12} (hg : CompW ext s g X) (hc : InCyc X) (hd : DecOk X) :
    Cmp bnTbl ext s (bnCfg.cycDecompress g) (fun r s' => HN12 ext s' r X) := by
  obtain ⟨a0, a1, a2, a3, a4, a5, rfl, r1, r4, r2, r5⟩ := hg
  have rel := hc.rel
  obtain ⟨d1, d0, d2⟩ := rel.decompress
  have hd := hd a0 a1 a2 a3 a4 a5 rfl
  have h4 : (4 : Fq2) ≠ 0 := by
    have := Fq2.natCast_ne (c := 4) (by decide +kernel)
    exact_mod_cast this
  cb (g2_mulNC r5.v r5.v) g5sq v1
  cb (g2_w6 9 (by norm_num) v1) g5sqc v2
  cb (g2_mulNC r2.v r2.v) g4sq v3
  cb (g2_smul 3 (by norm_num) v3) g4sq3 v4
  cb (g2_smul 2 (by norm_num) r4.v) g32 v5
  cb (g2_add v2 v4) num v6
  cb (g2_sub v6 v5) num' v7
  cb (g2_smul 4 (by norm_num) r1.v) g24 v8
  rw [xi_eq] at v7
  push_cast at v7 v8
  rw [← d1] at v7
  cb (g2_div (by decide +kernel) v7 v8 (fun h => by rw [h, mul_zero])) g11 w1
  cb (g2_mulNC r2.v r5.v) g4g5 v9
  cb (g2_smul 2 (by norm_num) v9) num2 v10
  push_cast at v10
  cb (g2_div (by decide +kernel) v10 r4.v (fun h => by
    rcases hd h with h1 | h1
    · rw [← d2 h1, h, mul_zero]
    · rw [h1, zero_mul])) g10 w2
  cb (g2_isZero r1) z hz
  cb (g2_sel w2 w1 hz) g1 w3
  have e3 : (if decide (a1 = 0) = true then a2 * a5 * 2 / a4 else a3 * (a1 * 4) / (a1 * 4)) = a3 := by
    by_cases ha : a1 = 0
    · simp only [ha, decide_true, if_true]
      rw [← d2 ha]
      by_cases ha4 : a4 = 0
      · have h1 := rel.eq_one ha ha4
        have : a3 = 0 := (e6_inj (h1.trans e6_one)).2.2.2.1
        rw [this, ha4]; simp
      · exact mul_div_cancel_right₀ _ ha4
    · simp only [ha, decide_false]
      exact mul_div_cancel_right₀ _ (mul_ne_zero ha h4)
  rw [e3] at w3
  cb (g2_mulNC w3.v w3.v) g1sq v11
  cb (g2_smul 2 (by norm_num) v11) g1sq2 v12
  cb (g2_mulNC r1.v r5.v) g2g5 v13
  cb (g2_mulNC r4.v r2.v) g3g4 v14
  cb (g2_smul 3 (by norm_num) v14) g3g43 v15
  cb (g2_add v12 v13) temp v16
  cb (g2_selU v12 v16 hz) temp' v17
  push_cast at v17
  have e17 : (if decide (a1 = 0) = true then a3 * a3 * 2 else a3 * a3 * 2 + a1 * a5) = a3 * a3 * 2 + a1 * a5 := by
    by_cases ha : a1 = 0
    · simp [ha]
    · simp [ha]
  rw [e17] at v17
  cb (g2_sub v17 v15) temp'' v18
  cb (g2_w6 9 (by norm_num) v18) g0 v19
  cb (addOne_cmp v19) g0' v20
  rw [xi_eq] at v20
  push_cast at v20
  rw [← d0] at v20
  cb (g2_carry (by decide +kernel) v20) g0'' w0
  exact join_cmp w0 r1 r2 w3 r4 r5

theorem cycSquare_cmp {g : Comp (CrtInt bn254R)} {X : Fq12} (hg : CompW ext s g X) (hc : InCyc X) :
    Cmp bnTbl ext s (bnCfg.cycSquare g) (fun r s' => CompW ext s' r (X ^ 2)) := by
  obtain ⟨a0, a1, a2, a3, a4, a5, rfl, r1, r4, r2, r5⟩ := hg
  obtain ⟨y0, y3, e⟩ := hc.rel.square
  cb (g2_add r1.v r4.v) g2g3 v1
  cb (g2_w6 9 (by norm_num) r4.v) cg3 v2
  cb (g2_add r1.v v2) g2cg3 v3
  cb (g2_mulNC v1 v3) a23 v4
  cb (g2_add r2.v r5.v) g4g5 v5
  cb (g2_w6 9 (by norm_num) r5.v) cg5 v6
  cb (g2_add r2.v v6) g4cg5 v7
  cb (g2_mulNC v5 v7) a45 v8
  cb (g2_mulNC r1.v r4.v) b23 v9
  cb (g2_mulNC r2.v r5.v) b45 v10
  cb (g2_w6 9 (by norm_num) v10) b45c v11
  cb (g2_smulAdd 3 (by norm_num) v11 r1.v) t1 v12
  cb (g2_smul 2 (by norm_num) v12) k2 q2
  cb (g2_add v11 v10) t2 v13
  cb (g2_sub v8 v13) t3 v14
  cb (g2_smul 3 (by norm_num) v14) t4 v15
  cb (g2_smulAdd (-2) (by norm_num) r4.v v15) k3 q3
  cb (g2_w6 10 (by norm_num) v9) t5 v16
  cb (g2_sub v4 v16) t6 v17
  cb (g2_smul 3 (by norm_num) v17) t7 v18
  cb (g2_smulAdd (-2) (by norm_num) r2.v v18) k4 q4
  cb (g2_smulAdd 3 (by norm_num) v9 r5.v) t8 v19
  cb (g2_smul 2 (by norm_num) v19) k5 q5
  clear v1 v2 v3 v4 v5 v6 v7 v8 v9 v10 v11 v12 v13 v14 v15 v16 v17 v18 v19
  cb (g2_carry (by decide +kernel) q2) o2 w2
  cb (g2_carry (by decide +kernel) q3) o3 w3
  cb (g2_carry (by decide +kernel) q4) o4 w4
  cb (g2_carry (by decide +kernel) q5) o5 w5
  have e10 : ((10 : ℤ) : Fq2) + Fq2.u = Fq2.xi + 1 := by
    rw [← xi_eq]
    push_cast
    ring
  rw [e]
  refine Cmp.pure ⟨_, _, _, _, _, _, rfl, ?_, ?_, ?_, ?_⟩
  · rw [xi_eq] at w2
    push_cast at w2
    convert w2 using 1
    ring
  · rw [xi_eq] at w3
    push_cast at w3
    convert w3 using 1
    ring
  · rw [xi_eq, e10] at w4
    push_cast at w4
    convert w4 using 1
    ring
  · push_cast at w5
    convert w5 using 1
    ring

end H2
