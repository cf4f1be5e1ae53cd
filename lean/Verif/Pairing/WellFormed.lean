import Verif.Pairing.SoundFinal

/-!
# The outputs of `final_exp.rs` always represent some element of `Fq12`

Without any condition on the input: in particular where the decompression leaves a choice to the prover.
-/

set_option autoImplicit false
set_option linter.unusedSectionVars false
set_option linter.unusedVariables false
namespace H2
open PairCfg

/-- `a` represents some element of `Fq12`. -/
def W12 (w : Cell → ZMod bn254R) (a : List (CrtInt bn254R)) : Prop := ∃ X, R12 w a X
/-- `a` represents some element of `Fq2`. -/
def W2 (w : Cell → ZMod bn254R) (a : List (CrtInt bn254R)) : Prop := ∃ X, R2 w a X
/-- The entries represent some elements. -/
def WC (w : Cell → ZMod bn254R) (g : Comp (CrtInt bn254R)) : Prop := W2 w g.g2 ∧ W2 w g.g3 ∧ W2 w g.g4 ∧ W2 w g.g5

theorem w12_mul (a b : List (CrtInt bn254R)) : Sound bnTbl (bnCfg.F12.mul a b) (fun w r => W12 w a → W12 w b → W12 w r) :=
  fun s => (f12_mul a b s).weaken fun w r _ h ⟨X, hX⟩ ⟨Y, hY⟩ => ⟨_, h X Y hX hY⟩
theorem w12_div (a b : List (CrtInt bn254R)) : Sound bnTbl (bnCfg.F12.divideUnsafe a b) (fun w r => W12 w r) :=
  fun s => (f12_div a b s).weaken fun w r _ ⟨Q, hQ, _⟩ => ⟨Q, hQ⟩
theorem w12_conj (a : List (CrtInt bn254R)) : Sound bnTbl (fp12Conjugate bnCfg.F a) (fun w r => W12 w a → W12 w r) :=
  fun s => (f12_conj a s).weaken fun w r _ h ⟨X, hX⟩ => ⟨_, h X hX⟩
theorem w12_frob (a : List (CrtInt bn254R)) (n : ℕ) : Sound bnTbl (bnCfg.frobeniusMap a n) (fun w r => W12 w a → W12 w r) :=
  fun s => (frobeniusMap_sound a n s).weaken fun w r _ h ⟨X, hX⟩ => ⟨_, h X hX⟩

theorem cycCompress_wf (a : List (CrtInt bn254R)) : Sound bnTbl (cycCompress a) (fun w r => W12 w a → WC w r) :=
  fun s => (cycCompress_sound a s).weaken fun w r _ h ⟨X, hX⟩ => by
    obtain ⟨a0, a1, a2, a3, a4, a5, -, r1, r4, r2, r5⟩ := h X hX
    exact ⟨⟨_, r1⟩, ⟨_, r4⟩, ⟨_, r2⟩, ⟨_, r5⟩⟩

theorem cycDecompress_wf (g : Comp (CrtInt bn254R)) : Sound bnTbl (bnCfg.cycDecompress g) (fun w r => WC w g → W12 w r) := by
  intro s
  refine Snd.bind (f2_mulNC g.g5 g.g5 s) fun g5sq s1 _ => Snd.bind (f2_w6 g5sq 9 s1) fun g5sqc s2 _ =>
    Snd.bind (f2_mulNC g.g4 g.g4 s2) fun g4sq s3 _ => Snd.bind (f2_smul g4sq 3 s3) fun g4sq3 s4 _ =>
    Snd.bind (f2_smul g.g3 2 s4) fun g32 s5 _ => Snd.bind (f2_add g5sqc g4sq3 s5) fun num s6 _ =>
    Snd.bind (f2_sub num g32 s6) fun num' s7 _ => Snd.bind (f2_smul g.g2 4 s7) fun g24 s8 _ =>
    Snd.bind (f2_div num' g24 s8) fun g11 s9 _ => Snd.bind (f2_mulNC g.g4 g.g5 s9) fun g4g5 s10 _ =>
    Snd.bind (f2_smul g4g5 2 s10) fun num2 s11 _ => Snd.bind (f2_div num2 g.g3 s11) fun g10 s12 _ =>
    Snd.bind (isZero2 g.g2 s12) fun z s13 _ => Snd.bind (f2_sel g10 g11 z s13) fun g1 s14 _ =>
    Snd.bind (f2_mulNC g1 g1 s14) fun g1sq s15 _ => Snd.bind (f2_smul g1sq 2 s15) fun g1sq2 s16 _ =>
    Snd.bind (f2_mulNC g.g2 g.g5 s16) fun g2g5 s17 _ => Snd.bind (f2_mulNC g.g3 g.g4 s17) fun g3g4 s18 _ =>
    Snd.bind (f2_smul g3g4 3 s18) fun g3g43 s19 _ => Snd.bind (f2_add g1sq2 g2g5 s19) fun temp s20 _ =>
    Snd.bind (f2_selU g1sq2 temp z s20) fun temp' s21 _ => Snd.bind (f2_sub temp' g3g43 s21) fun temp'' s22 _ =>
    Snd.bind (f2_w6 temp'' 9 s22) fun g0 s23 _ => Snd.bind (addOne_sound g0 s23) fun g0' s24 _ =>
    Snd.bind (f2_carry g0' s24) fun g0'' s25 _ => (join_sound g0'' g.g2 g.g4 g1 g.g3 g.g5 s25).weaken ?_
  rintro w r _ hj h25 h24 h23 h22 h21 h20 h19 h18 h17 h16 h15 h14 h13 ⟨Q0, hQ0, h12⟩ h11 h10 ⟨Q1, hQ1, h9⟩ h8 h7 h6 h5 h4 h3 h2 h1
    ⟨⟨a1, r1⟩, ⟨a4, r4⟩, ⟨a2, r2⟩, ⟨a5, r5⟩⟩
  have u1 := r1.u
  have u2 := r2.u
  have u4 := r4.u
  have u5 := r5.u
  have hz := h13 _ r1
  have hsel := h14 _ _ hQ0 hQ1
  have hg1 : ∃ a3, R2 w g1 a3 := by
    by_cases ha : a1 = 0
    · rw [if_pos ha] at hz
      exact ⟨_, hsel.1 hz⟩
    · rw [if_neg ha] at hz
      exact ⟨_, hsel.2 hz⟩
  obtain ⟨a3, hg1⟩ := hg1
  have u3 := hg1.u
  have hA := h16 _ _ (h15 _ _ _ _ u3 u3)
  have hB := h20 _ _ _ _ hA (h17 _ _ _ _ u1 u5)
  have hS := h21 _ _ _ _ hA hB
  have hT : ∃ t, U2 w temp' t (maxS (smulS 2 (mulS pS pS)) (addS (smulS 2 (mulS pS pS)) (mulS pS pS))) := by
    by_cases ha : a1 = 0
    · rw [if_pos ha] at hz
      exact ⟨_, hS.1 hz⟩
    · rw [if_neg ha] at hz
      exact ⟨_, hS.2 hz⟩
  obtain ⟨t, hT⟩ := hT
  have h0 := h25 _ _ (by decide +kernel) (h24 _ _ (h23 _ _ (h22 _ _ _ _ hT (h19 _ _ (h18 _ _ _ _ u4 u2)))))
  exact ⟨_, hj _ _ _ _ _ _ h0 r1 r2 hg1 r4 r5⟩

theorem cycSquare_wf (g : Comp (CrtInt bn254R)) : Sound bnTbl (bnCfg.cycSquare g) (fun w r => WC w g → WC w r) := by
  intro s
  refine Snd.bind (f2_add g.g2 g.g3 s) fun g2g3 s1 _ => Snd.bind (f2_w6 g.g3 9 s1) fun cg3 s2 _ =>
    Snd.bind (f2_add g.g2 cg3 s2) fun g2cg3 s3 _ => Snd.bind (f2_mulNC g2g3 g2cg3 s3) fun a23 s4 _ =>
    Snd.bind (f2_add g.g4 g.g5 s4) fun g4g5 s5 _ => Snd.bind (f2_w6 g.g5 9 s5) fun cg5 s6 _ =>
    Snd.bind (f2_add g.g4 cg5 s6) fun g4cg5 s7 _ => Snd.bind (f2_mulNC g4g5 g4cg5 s7) fun a45 s8 _ =>
    Snd.bind (f2_mulNC g.g2 g.g3 s8) fun b23 s9 _ => Snd.bind (f2_mulNC g.g4 g.g5 s9) fun b45 s10 _ =>
    Snd.bind (f2_w6 b45 9 s10) fun b45c s11 _ => Snd.bind (f2_smulAdd b45c g.g2 3 s11) fun t1 s12 _ =>
    Snd.bind (f2_smul t1 2 s12) fun k2 s13 _ => Snd.bind (f2_add b45c b45 s13) fun t2 s14 _ =>
    Snd.bind (f2_sub a45 t2 s14) fun t3 s15 _ => Snd.bind (f2_smul t3 3 s15) fun t4 s16 _ =>
    Snd.bind (f2_smulAdd g.g3 t4 (-2) s16) fun k3 s17 _ => Snd.bind (f2_w6 b23 10 s17) fun t5 s18 _ =>
    Snd.bind (f2_sub a23 t5 s18) fun t6 s19 _ => Snd.bind (f2_smul t6 3 s19) fun t7 s20 _ =>
    Snd.bind (f2_smulAdd g.g4 t7 (-2) s20) fun k4 s21 _ => Snd.bind (f2_smulAdd b23 g.g5 3 s21) fun t8 s22 _ =>
    Snd.bind (f2_smul t8 2 s22) fun k5 s23 _ => Snd.bind (f2_carry k2 s23) fun o2 s24 _ => Snd.bind (f2_carry k3 s24) fun o3 s25 _ =>
    Snd.bind (f2_carry k4 s25) fun o4 s26 _ => Snd.bind (f2_carry k5 s26) fun o5 s27 _ => Snd.pure ?_
  rintro w - c5 c4 c3 c2 h23 h22 h21 h20 h19 h18 h17 h16 h15 h14 h13 h12 h11 h10 h9 h8 h7 h6 h5 h4 h3 h2 h1
    ⟨⟨a1, r1⟩, ⟨a4, r4⟩, ⟨a2, r2⟩, ⟨a5, r5⟩⟩
  have u1 := r1.u
  have u2 := r2.u
  have u4 := r4.u
  have u5 := r5.u
  have v23 := h4 _ _ _ _ (h1 _ _ _ _ u1 u4) (h3 _ _ _ _ u1 (h2 _ _ u4))
  have v45 := h8 _ _ _ _ (h5 _ _ _ _ u2 u5) (h7 _ _ _ _ u2 (h6 _ _ u5))
  have w23 := h9 _ _ _ _ u1 u4
  have w45 := h10 _ _ _ _ u2 u5
  have w45c := h11 _ _ w45
  exact ⟨⟨_, c2 _ _ (by decide +kernel) (h13 _ _ (h12 _ _ _ _ w45c u1))⟩,
    ⟨_, c3 _ _ (by decide +kernel) (h17 _ _ _ _ u4 (h16 _ _ (h15 _ _ _ _ v45 (h14 _ _ _ _ w45c w45))))⟩,
    ⟨_, c4 _ _ (by decide +kernel) (h21 _ _ _ _ u2 (h20 _ _ (h19 _ _ _ _ v23 (h18 _ _ w23))))⟩,
    ⟨_, c5 _ _ (by decide +kernel) (h23 _ _ (h22 _ _ _ _ w23 u5))⟩⟩

theorem cycPowLoop_wf (a : List (CrtInt bn254R)) : ∀ (zs : List ℤ) (st : Bool) (comp : Comp (CrtInt bn254R))
    (out : Option (List (CrtInt bn254R))), Sound bnTbl (bnCfg.cycPowLoop a zs st comp out) (fun w r => W12 w a → WC w comp →
      (∀ o ∈ out, W12 w o) → WC w r.1 ∧ ∀ o ∈ r.2, W12 w o) := by
  intro zs
  induction zs with
  | nil => exact fun st comp out s => Snd.pure fun w _ _ h1 h2 => ⟨h1, h2⟩
  | cons z zs ih =>
    intro st comp out s
    unfold cycPowLoop
    have hsq : Snd bnTbl s (if st = true then bnCfg.cycSquare comp else pure comp) (fun w r _ => WC w comp → WC w r) :=
      Snd.ite (fun h => cycSquare_wf comp s) (fun h => Snd.pure fun w _ h => h)
    refine Snd.jp hsq fun comp1 s1 _ => ?_
    refine Snd.ite (fun hz => Snd.assert fun hz1 => Snd.ite (fun hs => ?_) (fun hs => Snd.assert fun hz2 => ?_)) (fun hz => ?_)
    · refine Snd.bind (cycDecompress_wf comp1 s1) fun res0 s2 _ => ?_
      have hm : Snd bnTbl s2 (if z = 1 then bnCfg.F12.mul res0 a else bnCfg.F12.divideUnsafe res0 a) (fun w r _ =>
          W12 w res0 → W12 w a → W12 w r) :=
        Snd.ite (fun h => w12_mul res0 a s2) (fun h => (w12_div res0 a s2).weaken fun w r _ h _ _ => h)
      refine Snd.jp hm fun res s3 _ => Snd.bind (cycCompress_wf res s3) fun comp2 s4 _ => (ih true comp2 (some res) s4).weaken ?_
      intro w r _ h5 h4 h3 h2 h1 ha hc _
      have hres := h3 (h2 (h1 hc)) ha
      refine h5 ha (h4 hres) ?_
      rintro o ⟨⟩
      exact hres
    · exact (ih true comp1 out s1).weaken fun w r _ h5 h1 ha hc ho => h5 ha (h1 hc) ho
    · exact (ih st comp1 out s1).weaken fun w r _ h5 h1 ha hc ho => h5 ha (h1 hc) ho

theorem cycPow_wf (a : List (CrtInt bn254R)) (exp : List ℕ) : Sound bnTbl (bnCfg.cycPow a exp) (fun w r => W12 w a → W12 w r) := by
  intro s
  refine Snd.bind (cycCompress_wf a s) fun comp s1 _ => Snd.unwrap fun naf hn =>
    Snd.bind (cycPowLoop_wf a naf.reverse false comp none s1) fun co s2 _ => ?_
  obtain ⟨comp2, out⟩ := co
  refine Snd.unwrap fun d0 hd => ?_
  refine Snd.ite (fun h => ?_) (fun h => ?_)
  · refine Snd.bind (cycDecompress_wf comp2 s2) fun r s3 _ => Snd.pure ?_
    intro w _ h3 h2 h1 ha
    exact h3 (h2 ha (h1 ha) (by simp)).1
  · refine Snd.pure ?_
    intro w _ h2 h1 ha
    have := (h2 ha (h1 ha) (by simp)).2
    cases out with
    | none => exact ha
    | some o => exact this o rfl

theorem hardPart_wf (m : List (CrtInt bn254R)) : Sound bnTbl (bnCfg.hardPart m) (fun w r => W12 w m → W12 w r) := by
  intro s
  refine Snd.bind (w12_frob m 1 s) fun mp s1 _ => Snd.bind (w12_frob m 2 s1) fun mp2 s2 _ =>
    Snd.bind (w12_frob m 3 s2) fun mp3 s3 _ => Snd.bind (w12_mul mp2 mp3 s3) fun mp2mp3 s4 _ =>
    Snd.bind (w12_mul mp mp2mp3 s4) fun y0 s5 _ => Snd.bind (w12_conj m s5) fun y1 s6 _ => Snd.bind (cycPow_wf m _ s6) fun mx s7 _ =>
    Snd.bind (w12_frob mx 1 s7) fun mxp s8 _ => Snd.bind (cycPow_wf mx _ s8) fun mx2 s9 _ =>
    Snd.bind (w12_frob mx2 1 s9) fun mx2p s10 _ => Snd.bind (w12_frob mx2 2 s10) fun y2 s11 _ =>
    Snd.bind (w12_conj mx2 s11) fun y5 s12 _ => Snd.bind (cycPow_wf mx2 _ s12) fun mx3 s13 _ =>
    Snd.bind (w12_frob mx3 1 s13) fun mx3p s14 _ => Snd.bind (w12_conj mxp s14) fun y3 s15 _ =>
    Snd.bind (w12_mul mx mx2p s15) fun mxmx2p s16 _ => Snd.bind (w12_conj mxmx2p s16) fun y4 s17 _ =>
    Snd.bind (w12_mul mx3 mx3p s17) fun mx3mx3p s18 _ => Snd.bind (w12_conj mx3mx3p s18) fun y6 s19 _ =>
    Snd.bind (w12_mul y6 y6 s19) fun t0 s20 _ => Snd.bind (w12_mul t0 y4 s20) fun t1 s21 _ =>
    Snd.bind (w12_mul t1 y5 s21) fun t2 s22 _ => Snd.bind (w12_mul y3 y5 s22) fun t3 s23 _ =>
    Snd.bind (w12_mul t3 t2 s23) fun t4 s24 _ => Snd.bind (w12_mul t2 y2 s24) fun t5 s25 _ =>
    Snd.bind (w12_mul t4 t4 s25) fun t6 s26 _ => Snd.bind (w12_mul t6 t5 s26) fun t7 s27 _ =>
    Snd.bind (w12_mul t7 t7 s27) fun t8 s28 _ => Snd.bind (w12_mul t8 y1 s28) fun t9 s29 _ =>
    Snd.bind (w12_mul t8 y0 s29) fun t10 s30 _ => Snd.bind (w12_mul t9 t9 s30) fun t11 s31 _ =>
    (w12_mul t11 t10 s31).weaken ?_
  intro w r _ h32 h31 h30 h29 h28 h27 h26 h25 h24 h23 h22 h21 h20 h19 h18 h17 h16 h15 h14 h13 h12 h11 h10 h9 h8 h7 h6 h5 h4 h3 h2 h1 hX
  have vy0 := h5 (h1 hX) (h4 (h2 hX) (h3 hX))
  have vy1 := h6 hX
  have vx := h7 hX
  have vxp := h8 vx
  have vx2 := h9 vx
  have vx2p := h10 vx2
  have vy2 := h11 vx2
  have vy5 := h12 vx2
  have vx3 := h13 vx2
  have vx3p := h14 vx3
  have vy3 := h15 vxp
  have vy4 := h17 (h16 vx vx2p)
  have vy6 := h19 (h18 vx3 vx3p)
  have v2 := h22 (h21 (h20 vy6 vy6) vy4) vy5
  have v4 := h24 (h23 vy3 vy5) v2
  have v5 := h25 v2 vy2
  have v7 := h27 (h26 v4 v4) v5
  have v8 := h28 v7 v7
  have v9 := h29 v8 vy1
  have v10 := h30 v8 vy0
  exact h32 (h31 v9 v9) v10

theorem finalExp_wf (a : List (CrtInt bn254R)) : Sound bnTbl (bnCfg.finalExp a) (fun w r => W12 w r) := by
  intro s
  have he : Sound bnTbl (bnCfg.easyPart a) (fun w r => W12 w r) := by
    intro s
    refine Snd.bind (f12_conj a s) fun f1 s1 _ => Snd.bind (w12_div f1 a s1) fun f2 s2 _ =>
      Snd.bind (w12_frob f2 2 s2) fun f3 s3 _ => (w12_mul f3 f2 s3).weaken ?_
    intro w r _ h4 h3 h2 _
    exact h4 (h3 h2) h2
  exact Snd.bind (he s) fun f0 s1 _ => (hardPart_wf f0 s1).weaken fun w r _ h1 h0 => h1 h0

end H2
