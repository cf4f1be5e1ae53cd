import Verif.Kec.Quiet

/-!
# Assignments with forged `bytes_left` cells
-/

set_option autoImplicit false
set_option linter.unusedSectionVars false
namespace H2.Kec
open H2.Sha (Z Z_append Z_gate Z_cond Z_gate1 Z_reqEq Z_reqZero Z_reqBool Z_flatMap ind_eq_zero ind b2f bool_cases b2f_inj notE selE sumE andE
  fromBytes reqEq reqZero reqBool gate cond)

theorem bs_le {h R R' : ℕ} (hh : 1 ≤ h) : bs h R ≤ bs h R' ↔ R ≤ R' := by
  unfold bs
  rw [Nat.cast_le]
  exact ⟨fun e => Nat.le_of_mul_le_mul_right e hh, fun e => Nat.mul_le_mul_right _ e⟩

theorem bs_eq {h R R' : ℕ} (hh : 1 ≤ h) : bs h R = bs h R' ↔ R = R' := by
  rw [le_antisymm_iff, bs_le hh, bs_le hh, ← le_antisymm_iff]

theorem bs_off {h R R' i : ℕ} (hi : i < h) (h0 : i ≠ 0) : ((R * h + i : ℕ) : ℤ) ≠ bs h R' := by
  intro e
  have e : R * h + i = R' * h := by unfold bs at e; exact_mod_cast e
  have := congrArg (· % h) e
  simp only [Nat.mul_add_mod_self_right, Nat.mul_mod_left] at this
  rw [Nat.mod_eq_of_lt hi] at this
  exact h0 this

theorem bs_next {h R : ℕ} : bs h R + h = bs h (R + 1) := by unfold bs; push_cast; ring

section
variable {F : Type} [Field F] {k h n : ℕ}

/-- `is_final` is set in round 17 of keccak_f `i`, and `bytes_left` is shifted from the first round of keccak_f `s` to there. -/
def forgeBL (h s i : ℕ) (a : Adv F) : Adv F :=
  { a with
    isFinal := fun r => if r = bs h (25 * i + 18) then 1 else a.isFinal r
    bytesLeft := fun r => if bs h (25 * s + 1) ≤ r ∧ r ≤ bs h (25 * i + 18) then a.bytesLeft r - a.bytesLeft (bs h (25 * i + 18)) else a.bytesLeft r }

theorem gBytesLeft_iff (hh : 1 ≤ h) (L : Layout) (a : Adv F) {R : ℕ} (hR : R < 1 + n * 25) : Z (gBytesLeft h L (fixedCols h n) a (bs h R)) ↔
    ((fixedCols h n (bs h R) : Fix F).qFirst = 0 ∨ a.bytesLeft (bs h R) = 0) ∧ (a.isFinal (bs h R) = 0 ∨ a.bytesLeft (bs h R) = 0) ∧
    ((fixedCols h n (bs h R) : Fix F).qInput = 0 ∨ a.bytesLeft (bs h R) = a.bytesLeft (bs h (R + 1)) + (8 - sumE ((List.range 8).map (padAt L a (bs h R))))) ∧
    (notE ((fixedCols h n (bs h R) : Fix F).qInput + startNew (fixedCols h n) a (bs h R)) = 0 ∨ a.bytesLeft (bs h R) = a.bytesLeft (bs h (R + 1))) := by
  simp only [gBytesLeft, Z_gate, Z_append, Z_cond, Z_reqEq, Z_reqZero, qEnable_one hh hR, one_ne_zero, false_or, bs_next, and_assoc]

theorem forge_sat {p : ℕ} [Fact p.Prime] {a : Adv (ZMod p)} (hs : KecSat k h n a) (hh : 1 ≤ h) {s i : ℕ} (hsi : s ≤ i) (hi : i < n)
    (hst : s = 0 ∨ a.isFinal (bs h (25 * s)) = 1) (hc : ∀ R, 25 * s < R → R < 25 * i + 18 → a.isFinal (bs h R) = 0) :
    KecSat k h n (forgeBL h s i a) := by
  intro r hr
  obtain ⟨hg, hl⟩ := hs r hr
  have hg : Z (gates k h (layout k h) (fixedCols h n) a r) := hg
  refine ⟨?_, fun l hm => by have := hl l hm; cases l <;> exact this⟩
  show Z (gates k h (layout k h) (fixedCols h n) (forgeBL h s i a) r)
  obtain ⟨R, j, hR, hj, rfl⟩ := row_cases hr
  by_cases h0 : j = 0
  · subst h0
    have e : ((R * h + 0 : ℕ) : ℤ) = bs h R := by simp [bs]
    rw [e, gates_first hh] at hg ⊢
    obtain ⟨g1, g2, g3, g4, g5, g6, g7, g8, g9⟩ := hg
    have hcell : (forgeBL h s i a).cell = a.cell := rfl
    have hsame : R ≠ 25 * i + 18 → (forgeBL h s i a).isFinal (bs h R) = a.isFinal (bs h R) := by
      intro hne
      simp only [forgeBL, bs_eq hh, if_neg hne]
    have hset : R = 25 * i + 18 → (forgeBL h s i a).isFinal (bs h R) = 1 := by
      rintro rfl
      simp only [forgeBL, if_pos]
    have hfx : R = 25 * i + 18 → fixedCols h n (bs h R) = (fixRound 17 0 : Fix (ZMod p)) := by
      rintro rfl
      exact fix_in (b := i) (q := 17) hh hi (by norm_num)
    refine ⟨by rw [gRound_cell hcell]; exact g1, ?_, ?_, ?_, ?_, by rw [gWord_cell hcell rfl]; exact g6, ?_, ?_, by rw [gPadding_cell hcell]; exact g9⟩
    · by_cases hx : R = 25 * i + 18
      · unfold gAbsorb; rw [Z_gate, hfx hx]; left; simp [fr_absorb, ind]
      · rw [gAbsorb_cell hcell (hsame hx)]; exact g2
    · by_cases hx : R = 25 * i + 18
      · unfold gSqueeze; rw [Z_gate, hfx hx]; left; simp [fr_last, ind]
      · rw [gSqueeze_cell hcell (hsame hx) rfl rfl]; exact g3
    · by_cases hx : R = 25 * i + 18
      · unfold gInput; rw [Z_gate, Z_reqBool, hset hx]; right; ring
      · unfold gInput; rw [hsame hx]; exact g4
    · by_cases hx : R = 25 * i + 18
      · unfold gFirst; rw [Z_gate, hfx hx]; left; exact fr_first _ _
      · unfold gFirst; rw [hsame hx]; exact g5
    · rw [gBytesLeft_iff hh _ _ hR] at g7 ⊢
      have hbl : ∀ R', (forgeBL h s i a).bytesLeft (bs h R') =
          if 25 * s + 1 ≤ R' ∧ R' ≤ 25 * i + 18 then a.bytesLeft (bs h R') - a.bytesLeft (bs h (25 * i + 18)) else a.bytesLeft (bs h R') := by
        intro R'
        simp only [forgeBL, bs_le hh]
      have hpad : padAt (layout k h) (forgeBL h s i a) = padAt (layout k h) a := rfl
      have hsn : R ≠ 25 * i + 18 → startNew (fixedCols h n) (forgeBL h s i a) (bs h R) = startNew (fixedCols h n) a (bs h R) := by
        intro hx
        unfold startNew; rw [hsame hx]
      rw [hbl R, hbl (R + 1), hpad]
      by_cases hx : R = 25 * i + 18
      · have hb0 : 25 * s + 1 ≤ R ∧ R ≤ 25 * i + 18 := by omega
        rw [if_pos hb0]
        have e0 : a.bytesLeft (bs h R) - a.bytesLeft (bs h (25 * i + 18)) = 0 := by rw [hx, sub_self]
        refine ⟨.inr e0, .inr e0, .inl ?_, .inl ?_⟩
        · rw [hfx hx]; simp [fr_input, ind]
        · unfold startNew; rw [hset hx, hfx hx]; simp [fr_input, fr_first, ind, notE]
      · rw [hsn hx, hsame hx]
        by_cases h1 : 25 * s + 1 ≤ R ∧ R ≤ 25 * i + 18
        · have h2 : 25 * s + 1 ≤ R + 1 ∧ R + 1 ≤ 25 * i + 18 := by omega
          rw [if_pos h1, if_pos h2]
          obtain ⟨f1, f2, f3, f4⟩ := g7
          refine ⟨.inl ?_, .inl (hc R (by omega) (by omega)), f3.imp id (fun e => by rw [e]; ring), f4.imp id (fun e => by rw [e])⟩
          rw [fix_bs hh (by omega) hR]; exact fr_first _ _
        · rw [if_neg h1]
          by_cases h2 : 25 * s + 1 ≤ R + 1 ∧ R + 1 ≤ 25 * i + 18
          · have hR0 : R = 25 * s := by omega
            rw [if_pos h2]
            obtain ⟨f1, f2, f3, f4⟩ := g7
            have hq : (fixedCols h n (bs h R) : Fix (ZMod p)).qInput = 0 ∧ notE ((fixedCols h n (bs h R) : Fix (ZMod p)).qInput + startNew (fixedCols h n) a (bs h R)) = 0 := by
              rw [startNew]
              by_cases hs0 : s = 0
              · subst hs0
                have hfz := final_zero hs hh
                subst hR0
                rw [Nat.mul_zero]
                rw [hfz, fix_zero hh]; simp [fixDummy, ind, notE]
              · rw [hR0, fix_last hh (by omega) (by omega), hst.resolve_left hs0]
                simp [fr_input, fr_first, ind, notE]
            exact ⟨f1, f2, .inl hq.1, .inl hq.2⟩
          · rw [if_neg h2]
            exact g7
    · by_cases hx : R = 25 * i + 18
      · left; rw [hfx hx]; simp [fr_absorb, fr_first, ind]
      · rw [hsame hx]; exact g8
  · rw [gates_quiet_iff _ _ _ _ (off_row hR hj h0)] at hg ⊢
    have : (forgeBL h s i a).isFinal ((R * h + j : ℕ) : ℤ) = a.isFinal ((R * h + j : ℕ) : ℤ) := by
      simp only [forgeBL, if_neg (bs_off hj h0)]
    rw [this]; exact hg

end

end H2.Kec
