import Verif.Pairing.SoundPow

/-!
# Soundness of `hard_part_BN`, `easy_part` and `final_exp`
-/

set_option autoImplicit false
set_option linter.unusedSectionVars false
namespace H2
open PairCfg

/-- No power of `X` which the hard part decompresses is `1`. -/
def HardOk (X : Fq12) : Prop := ∀ e j : ℕ, e ≤ 2 → 0 < j → j ≤ 2 ^ 64 → X ^ (bnX ^ e * j) ≠ 1

theorem hardOk_of {X : Fq12} (hc : InCyc X) (hX : X ^ hardE ≠ 1) : HardOk X := by
  intro e j he h0 hj
  refine hc.pow_ne_one hX ?_
  have hp : Nat.Prime bn254R := fact_bn254R.out
  have h1 : bnX.Coprime bn254R := by
    rw [Nat.coprime_comm, hp.coprime_iff_not_dvd]
    decide +kernel
  have h2 : j.Coprime bn254R := by
    rw [Nat.coprime_comm, hp.coprime_iff_not_dvd]
    intro hd
    have := Nat.le_of_dvd h0 hd
    have h3 : (2 : ℕ) ^ 64 < bn254R := by decide +kernel
    omega
  exact Nat.Coprime.mul_left (h1.pow_left e) h2

theorem cycX_sound (a : List (CrtInt bn254R)) : Sound bnTbl (bnCfg.cycPow a [bnXWord]) (fun w r => ∀ X, InCyc X → R12 w a X →
    (∀ j, 0 < j → j ≤ 2 ^ 64 → X ^ j ≠ 1) → R12 w r (X ^ bnX)) := by
  have hb : bnXWord = bnX := rfl
  intro s
  refine (cycPow_sound a [bnXWord] (by
    intro x hx
    rw [List.mem_singleton.1 hx]
    decide +kernel) s).weaken ?_
  intro w r _ h X hc ha hj
  have h1 := h X hc ha hj
  rw [Nat.ofDigits_singleton, hb] at h1
  rwa [if_neg (by decide +kernel)] at h1

theorem frob_sound (a : List (CrtInt bn254R)) (n : ℕ) (hn : n < 12) : Sound bnTbl (bnCfg.frobeniusMap a n) (fun w r => ∀ X, R12 w a X →
    R12 w r (X ^ bn254Q ^ n)) := by
  have := frobeniusMap_sound a n
  rwa [Nat.mod_eq_of_lt hn] at this

theorem hardPart_sound (m : List (CrtInt bn254R)) : Sound bnTbl (bnCfg.hardPart m) (fun w r => ∀ X, R12 w m X → InCyc X → HardOk X →
    R12 w r (X ^ hardE)) := by
  intro s
  refine Snd.bind (frob_sound m 1 (by norm_num) s) fun mp s1 _ => Snd.bind (frob_sound m 2 (by norm_num) s1) fun mp2 s2 _ =>
    Snd.bind (frob_sound m 3 (by norm_num) s2) fun mp3 s3 _ => Snd.bind (f12_mul mp2 mp3 s3) fun mp2mp3 s4 _ =>
    Snd.bind (f12_mul mp mp2mp3 s4) fun y0 s5 _ => Snd.bind (f12_conj m s5) fun y1 s6 _ => Snd.bind (cycX_sound m s6) fun mx s7 _ =>
    Snd.bind (frob_sound mx 1 (by norm_num) s7) fun mxp s8 _ => Snd.bind (cycX_sound mx s8) fun mx2 s9 _ =>
    Snd.bind (frob_sound mx2 1 (by norm_num) s9) fun mx2p s10 _ => Snd.bind (frob_sound mx2 2 (by norm_num) s10) fun y2 s11 _ =>
    Snd.bind (f12_conj mx2 s11) fun y5 s12 _ => Snd.bind (cycX_sound mx2 s12) fun mx3 s13 _ =>
    Snd.bind (frob_sound mx3 1 (by norm_num) s13) fun mx3p s14 _ => Snd.bind (f12_conj mxp s14) fun y3 s15 _ =>
    Snd.bind (f12_mul mx mx2p s15) fun mxmx2p s16 _ => Snd.bind (f12_conj mxmx2p s16) fun y4 s17 _ =>
    Snd.bind (f12_mul mx3 mx3p s17) fun mx3mx3p s18 _ => Snd.bind (f12_conj mx3mx3p s18) fun y6 s19 _ =>
    Snd.bind (f12_mul y6 y6 s19) fun t0 s20 _ => Snd.bind (f12_mul t0 y4 s20) fun t1 s21 _ =>
    Snd.bind (f12_mul t1 y5 s21) fun t2 s22 _ => Snd.bind (f12_mul y3 y5 s22) fun t3 s23 _ =>
    Snd.bind (f12_mul t3 t2 s23) fun t4 s24 _ => Snd.bind (f12_mul t2 y2 s24) fun t5 s25 _ =>
    Snd.bind (f12_mul t4 t4 s25) fun t6 s26 _ => Snd.bind (f12_mul t6 t5 s26) fun t7 s27 _ =>
    Snd.bind (f12_mul t7 t7 s27) fun t8 s28 _ => Snd.bind (f12_mul t8 y1 s28) fun t9 s29 _ =>
    Snd.bind (f12_mul t8 y0 s29) fun t10 s30 _ => Snd.bind (f12_mul t9 t9 s30) fun t11 s31 _ =>
    (f12_mul t11 t10 s31).weaken ?_
  intro w r _ h32 h31 h30 h29 h28 h27 h26 h25 h24 h23 h22 h21 h20 h19 h18 h17 h16 h15 h14 h13 h12 h11 h10 h9 h8 h7 h6 h5 h4 h3 h2 h1
    X hX hc hk
  have p1 := h1 _ hX
  have p2 := h2 _ hX
  have p3 := h3 _ hX
  have vy0 := h5 _ _ p1 (h4 _ _ p2 p3)
  have vy1 := h6 _ hX
  have vx := h7 _ hc hX (fun j a b => by have := hk 0 j (by norm_num) a b; rwa [pow_zero, one_mul] at this)
  have vxp := h8 _ vx
  have vx2 := h9 _ (hc.pow _) vx (fun j a b => by have := hk 1 j (by norm_num) a b; rwa [pow_one, pow_mul] at this)
  have vx2p := h10 _ vx2
  have vy2 := h11 _ vx2
  have vy5 := h12 _ vx2
  have vx3 := h13 _ ((hc.pow _).pow _) vx2 (fun j a b => by have := hk 2 j le_rfl a b; rwa [sq, pow_mul, pow_mul] at this)
  have vx3p := h14 _ vx3
  have vy3 := h15 _ vxp
  have vy4 := h17 _ (h16 _ _ vx vx2p)
  have vy6 := h19 _ (h18 _ _ vx3 vx3p)
  have vt2 := h22 _ _ (h21 _ _ (h20 _ _ vy6 vy6) vy4) vy5
  have vt4 := h24 _ _ (h23 _ _ vy3 vy5) vt2
  have vt5 := h25 _ _ vt2 vy2
  have vt8 := h28 _ _ (h27 _ _ (h26 _ _ vt4 vt4) vt5) (h27 _ _ (h26 _ _ vt4 vt4) vt5)
  have vt9 := h29 _ _ vt8 vy1
  have vt10 := h30 _ _ vt8 vy0
  have v := h32 _ _ (h31 _ _ vt9 vt9) vt10
  rw [← hc.hard]
  convert v using 1
  simp only [← pow_mul, ← pow_add]
  unfold chainE
  generalize bnX = x
  refine congrArg (X ^ ·) ?_
  generalize bn254Q = q
  ring

theorem easyPart_sound (a : List (CrtInt bn254R)) : Sound bnTbl (bnCfg.easyPart a) (fun w r => ∀ X, R12 w a X → X ≠ 0 →
    R12 w r (X ^ ((bn254Q ^ 6 - 1) * (bn254Q ^ 2 + 1)))) := by
  intro s
  refine Snd.bind (f12_conj a s) fun f1 s1 _ => Snd.bind (f12_div f1 a s1) fun f2 s2 _ =>
    Snd.bind (frob_sound f2 2 (by norm_num) s2) fun f3 s3 _ => (f12_mul f3 f2 s3).weaken ?_
  rintro w r _ h4 h3 ⟨Q, hQ, h2⟩ h1 X hX h0
  have e : Q = X ^ (bn254Q ^ 6 - 1) := by
    have := h2 _ _ (h1 _ hX) hX
    have hpos : 1 ≤ bn254Q ^ 6 := Nat.one_le_pow _ _ (by decide +kernel)
    obtain ⟨n, hn⟩ : ∃ n, bn254Q ^ 6 = n + 1 := ⟨bn254Q ^ 6 - 1, by omega⟩
    rw [hn, pow_succ] at this
    rw [hn, Nat.add_sub_cancel]
    exact mul_right_cancel₀ h0 this
  have := h4 _ _ (h3 _ hQ) hQ
  rw [← pow_succ, e, ← pow_mul] at this
  exact this

/-- The final exponentiation. -/
theorem finalExp_sound (a : List (CrtInt bn254R)) : Sound bnTbl (bnCfg.finalExp a) (fun w r => ∀ X, R12 w a X → X ≠ 0 →
    (HardOk (X ^ ((bn254Q ^ 6 - 1) * (bn254Q ^ 2 + 1))) → R12 w r (X ^ finalE)) ∧ (X ^ finalE ≠ 1 → R12 w r (X ^ finalE))) := by
  intro s
  refine Snd.bind (easyPart_sound a s) fun f0 s1 _ => (hardPart_sound f0 s1).weaken ?_
  intro w r _ h2 h1 X hX h0
  have hc := InCyc.easy h0
  have hk : HardOk (X ^ ((bn254Q ^ 6 - 1) * (bn254Q ^ 2 + 1))) → R12 w r (X ^ finalE) := by
    intro hk
    rw [finalE_eq, pow_mul]
    exact h2 _ (h1 X hX h0) hc hk
  refine ⟨hk, fun h => hk (hardOk_of hc ?_)⟩
  rwa [← pow_mul, ← finalE_eq]

end H2
