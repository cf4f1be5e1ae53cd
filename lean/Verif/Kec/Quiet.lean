import Verif.Kec.SoundOut

/-!
# Rows without selectors, and assignments that differ in a few cells
-/

set_option autoImplicit false
set_option linter.unusedSectionVars false
namespace H2.Kec
open H2.Sha (Z Z_append Z_gate Z_cond Z_gate1 Z_reqEq Z_reqZero Z_reqBool Z_flatMap ind_eq_zero ind b2f bool_cases b2f_inj notE selE sumE andE
  fromBytes reqEq reqZero reqBool gate cond)

section
variable {F : Type} [Field F] {k h n : ℕ}

/-- All selectors are off. -/
structure Off (x : Fix F) : Prop where
  e : x.qEnable = 0
  f : x.qFirst = 0
  r : x.qRound = 0
  a : x.qAbsorb = 0
  l : x.qRoundLast = 0
  i : x.qInput = 0
  il : x.qInputLast = 0

theorem andE_cons0 {x : F} : andE [0, x] = 0 := by simp [andE]

theorem gates_quiet_iff (L : Layout) (fx : ℤ → Fix F) (a : Adv F) (r : ℤ) (ho : Off (fx r)) : Z (gates k h L fx a r) ↔
    (((List.range (h - 1)).map fun (i : ℕ) => (fx (r - ((i : ℕ) + 1))).qEnable).foldl (fun acc e => acc + e) 0 = 0 ∨ a.isFinal r = 0) := by
  simp only [gates, Z_append, gRound, gAbsorb, gSqueeze, gInput, gFirst, gWordValue, gBytesLeft, gFinal, gPadding, Z_gate, ho.e, ho.f, ho.r, ho.a, ho.l, ho.i, true_or,
    true_and, and_true, Z_cond, sub_self, one_ne_zero, false_or, Z_flatMap, List.mem_range, Z_reqZero]
  refine ⟨fun hx => hx.1, fun hx => ⟨hx, by simp, fun i hi => ?_⟩⟩
  unfold gPaddingAt
  simp only [ho.i, ho.il, Z_append, Z_cond, true_or, true_and]
  split
  · simp [Z_append, Z_cond, andE_cons0]
  · simp [Z_cond, andE_cons0]

theorem back_zero (fx : ℤ → Fix F) (r : ℤ) (hf : ∀ i : ℕ, i < h - 1 → (fx (r - ((i : ℕ) + 1))).qEnable = 0) :
    ((List.range (h - 1)).map fun (i : ℕ) => (fx (r - ((i : ℕ) + 1))).qEnable).foldl (fun acc e => acc + e) 0 = 0 := by
  have : ∀ (m : ℕ) (x : F), m ≤ h - 1 → ((List.range m).map fun (i : ℕ) => (fx (r - ((i : ℕ) + 1))).qEnable).foldl (fun acc e => acc + e) x = x := by
    intro m
    induction m with
    | zero => intro x _; rfl
    | succ m ih =>
      intro x hm
      rw [List.range_succ, List.map_append, List.foldl_append, ih x (by omega)]
      simp [hf m (by omega)]
  exact this _ _ (le_refl _)

theorem off_round {t i : ℕ} (hi : i ≠ 0) : Off (fixRound t i : Fix F) :=
  ⟨by simp [fixRound, ind, hi], rfl, by simp [fr_round, ind, hi], by simp [fr_absorb, ind, hi], by simp [fr_last, ind, hi], by simp [fr_input, ind, hi],
    by simp [fr_inputLast, ind, hi]⟩

theorem off_dummy {i : ℕ} (hi : i ≠ 0) : Off (fixDummy i : Fix F) :=
  ⟨by simp [fixDummy, ind, hi], by simp [fixDummy, ind, hi], rfl, by simp [fixDummy, ind, hi], rfl, rfl, rfl⟩

theorem off_out {r : ℤ} (hr : r < 0 ∨ (numRows h n : ℤ) ≤ r) : Off (fixedCols h n r : Fix F) := by
  unfold fixedCols
  rw [if_neg (by omega)]
  exact ⟨rfl, rfl, rfl, rfl, rfl, rfl, rfl⟩

theorem enable_only {r : ℤ} (he : (fixedCols h n r : Fix F).qEnable ≠ 0) : ∃ R, R < 1 + n * 25 ∧ r = bs h R := by
  by_cases hr : 0 ≤ r ∧ r < numRows h n
  · have hh : 0 < h := by
      rcases Nat.eq_zero_or_pos h with h0 | h0
      · subst h0; simp [numRows] at hr; omega
      · exact h0
    obtain ⟨q, rfl⟩ : ∃ q : ℕ, r = q := ⟨r.toNat, by omega⟩
    have hq : q < (1 + n * 25) * h := by have := hr.2; unfold numRows at this; exact_mod_cast this
    have hdm := Nat.div_add_mod q h
    have hd : q / h < 1 + n * 25 := by rw [Nat.div_lt_iff_lt_mul hh]; exact hq
    have hm := Nat.mod_lt q hh
    have e : q = q / h * h + q % h := by rw [mul_comm]; exact hdm.symm
    by_cases h0 : q % h = 0
    · exact ⟨q / h, hd, by unfold bs; rw [h0] at e; exact_mod_cast e⟩
    · exfalso
      apply he
      by_cases hz : q / h = 0
      · rw [e, hz, Nat.zero_mul, Nat.zero_add, fix_dummy hm]
        exact (off_dummy h0).e
      · rw [e, fix_round hh (Nat.one_le_iff_ne_zero.mpr hz) hd _ hm]
        exact (off_round h0).e
  · exact absurd (off_out (n := n) (h := h) (F := F) (r := r) (by omega)).e he

/-- The other rows of a round. -/
theorem row_cases {r : ℕ} (hr : r < numRows h n) :
    ∃ R i, R < 1 + n * 25 ∧ i < h ∧ r = R * h + i := by
  have hh : 0 < h := by
    rcases Nat.eq_zero_or_pos h with h0 | h0
    · subst h0; simp [numRows] at hr
    · exact h0
  refine ⟨r / h, r % h, ?_, Nat.mod_lt _ hh, by rw [mul_comm]; exact (Nat.div_add_mod r h).symm⟩
  rw [Nat.div_lt_iff_lt_mul hh]; exact hr

theorem off_row {R i : ℕ} (hR : R < 1 + n * 25) (hi : i < h) (h0 : i ≠ 0) : Off (fixedCols h n ((R * h + i : ℕ) : ℤ) : Fix F) := by
  by_cases hz : R = 0
  · subst hz; rw [Nat.zero_mul, Nat.zero_add, fix_dummy hi]; exact off_dummy h0
  · rw [fix_round (by omega) (by omega) hR _ hi]; exact off_round h0

/-- In the first row of a round the rows before it, up to the previous round, have no selector. -/
theorem back_first {R : ℕ} (hh : 1 ≤ h) : ((List.range (h - 1)).map fun (i : ℕ) => (fixedCols h n (bs h R - ((i : ℕ) + 1)) : Fix F).qEnable).foldl
    (fun acc e => acc + e) 0 = 0 := by
  apply back_zero
  intro i hi
  by_contra he
  obtain ⟨R', _, e⟩ := enable_only he
  unfold bs at e
  have e' : ((R * h : ℕ) : ℤ) = ((R' * h : ℕ) : ℤ) + (i + 1) := by rw [← e]; ring
  have e2 : R * h = R' * h + (i + 1) := by exact_mod_cast e'
  have e3 := congrArg (· % h) e2
  simp only [Nat.mul_mod_left, Nat.mul_add_mod_self_right] at e3
  rw [Nat.mod_eq_of_lt (by omega)] at e3
  omega

/-- Outside the assigned rows no gate constrains anything. -/
theorem gates_out (L : Layout) (a : Adv F) {r : ℤ} (hr : r < 0 ∨ (numRows h n : ℤ) ≤ r) : Z (gates k h L (fixedCols h n) a r) := by
  rw [gates_quiet_iff _ _ _ _ (off_out hr)]
  left
  apply back_zero
  intro i hi
  by_contra he
  obtain ⟨R, hR, e⟩ := enable_only he
  have h2 : (bs h R : ℤ) + h ≤ numRows h n := by
    unfold bs numRows
    have : R * h + h ≤ (1 + n * 25) * h := by
      calc R * h + h = (R + 1) * h := by ring
        _ ≤ _ := Nat.mul_le_mul_right _ hR
    exact_mod_cast this
  have h3 : 0 ≤ bs h R := by unfold bs; exact Int.natCast_nonneg _
  omega

/-- The gates of the first row of a round. -/
theorem gates_first (hh : 1 ≤ h) (L : Layout) (a : Adv F) (R : ℕ) : Z (gates k h L (fixedCols h n) a (bs h R)) ↔
    Z (gRound k h L (fixedCols h n) a (bs h R)) ∧ Z (gAbsorb h L (fixedCols h n) a (bs h R)) ∧ Z (gSqueeze h L (fixedCols h n) a (bs h R)) ∧
    Z (gInput (fixedCols h n) a (bs h R)) ∧ Z (gFirst (fixedCols h n) a (bs h R)) ∧ Z (gWordValue L (fixedCols h n) a (bs h R)) ∧
    Z (gBytesLeft h L (fixedCols h n) a (bs h R)) ∧
    ((fixedCols h n (bs h R) : Fix F).qAbsorb - (fixedCols h n (bs h R)).qFirst = 0 ∨ a.isFinal (bs h R) = padAt L a (bs h R - 8 * h) 7) ∧
    Z (gPadding h L (fixedCols h n) a (bs h R)) := by
  have hfin : Z (gFinal h L (fixedCols h n) a (bs h R)) ↔
      ((fixedCols h n (bs h R) : Fix F).qAbsorb - (fixedCols h n (bs h R)).qFirst = 0 ∨ a.isFinal (bs h R) = padAt L a (bs h R - 8 * h) 7) := by
    unfold gFinal
    rw [back_first hh]
    simp [Z_append, Z_gate1, Z_cond, Z_reqEq]
  simp only [gates, Z_append, hfin]
  tauto

end

/-! ### Assignments with the same cells -/

section
variable {F : Type} [Field F] {k h : ℕ} {L : Layout} {fx : ℤ → Fix F} {a a' : Adv F} {r : ℤ}

theorem gRound_cell (hc : a'.cell = a.cell) : gRound k h L fx a' r = gRound k h L fx a r := by
  have hv : a'.val = a.val := by unfold Adv.val; rw [hc]
  simp only [gRound, roundOut, chiOut, thetaT, sAt, partsOf, hv]

theorem gWord_cell (hc : a'.cell = a.cell) (hw : a'.wordValue r = a.wordValue r) : gWordValue L fx a' r = gWordValue L fx a r := by
  have hv : a'.val = a.val := by unfold Adv.val; rw [hc]
  simp only [gWordValue, byteAt, padAt, hv, hw]

theorem gPadding_cell (hc : a'.cell = a.cell) : gPadding h L fx a' r = gPadding h L fx a r := by
  have hv : a'.val = a.val := by unfold Adv.val; rw [hc]
  have hp : gPaddingAt h L fx a' r = gPaddingAt h L fx a r := by
    funext idx; simp only [gPaddingAt, byteAt, padAt, hv]
  simp only [gPadding, padAt, hv, hp]

theorem gAbsorb_cell (hc : a'.cell = a.cell) (hf : a'.isFinal r = a.isFinal r) : gAbsorb h L fx a' r = gAbsorb h L fx a r := by
  have hv : a'.val = a.val := by unfold Adv.val; rw [hc]
  simp only [gAbsorb, gAbsorbAt, sAt, startNew, hv, hf]

theorem gSqueeze_cell (hc : a'.cell = a.cell) (hf : a'.isFinal r = a.isFinal r) (h1 : a'.hashLo r = a.hashLo r) (h2 : a'.hashHi r = a.hashHi r) :
    gSqueeze h L fx a' r = gSqueeze h L fx a r := by
  have hv : a'.val = a.val := by unfold Adv.val; rw [hc]
  simp only [gSqueeze, hashBytes, sAt, startNew, hv, hf, h1, h2]

end

end H2.Kec
