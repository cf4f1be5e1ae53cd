import Verif.Kec.WitAdv

/-!
# The advice assigned by the witness generation satisfies the circuit
-/

set_option autoImplicit false
set_option linter.unusedSectionVars false
namespace H2.Kec
open H2.Sha (Z Z_append Z_gate Z_cond Z_gate1 Z_reqEq Z_reqZero Z_reqBool Z_flatMap ind_eq_zero ind notE selE sumE andE
  fromBytes reqEq reqZero reqBool gate cond)

attribute [local irreducible] layout numBits wordParts

section
variable {F : Type} [Field F] {k h : ℕ} (hw : WitL k h) {ms : List (List Byte)}


/-! ### Values where nothing is assigned -/

include hw

theorem s_lt {q : ℕ} (hq : q < 25) : ((layout k h).s.getD q (0, 0)).2 < h :=
  cells_lt hw (by
    rw [List.getD_eq_getElem _ _ (by rw [hw.ls]; exact hq)]
    simp only [allCells, preCells, List.mem_append]
    left; left; left; left; left; left; left; left; exact List.getElem_mem _)

theorem pad_lt {i : ℕ} (hi : i < 8) : ((layout k h).paddings.getD i (0, 0)).2 < h :=
  cells_lt hw (by
    rw [List.getD_eq_getElem _ _ (by rw [hw.lpad]; exact hi)]
    simp only [allCells, preCells, List.mem_append]
    left; left; right; exact List.getElem_mem _)

theorem pad_dummy {i : ℕ} (hi : i < 8) : padAt (layout k h) (advOf (rowsOf k h ms) : Adv F) (bs h 0) i = 0 := val_dummy _ (pad_lt hw hi)

theorem final_first {b t : ℕ} {m : List Byte} {idx : ℕ} (hB : (blocks ms)[b]? = some (m, idx)) (ht : t < 25) :
    (advOf (rowsOf k h ms) : Adv F).isFinal (bs h (25 * b + 1 + t)) = if finalBlock m idx = true ∧ t = 24 then 1 else 0 := by
  have := final_at (F := F) (k := k) (o := 0) hB ht hw.hh
  rw [Nat.cast_zero, add_zero] at this
  rw [this]
  simp

theorem final_zero' : (advOf (rowsOf k h ms) : Adv F).isFinal (bs h 0) = 0 := by
  have := final_dummy (F := F) (k := k) (ms := ms) (o := 0) hw.hh
  rwa [Nat.cast_zero, add_zero] at this

omit hw in
theorem blt {b : ℕ} {m : List Byte} {idx : ℕ} (hB : (blocks ms)[b]? = some (m, idx)) : b < (blocks ms).length := (List.getElem?_eq_some_iff.mp hB).1

theorem fix_at {b t : ℕ} {m : List Byte} {idx : ℕ} (hB : (blocks ms)[b]? = some (m, idx)) (ht : t < 25) : (fixedCols h (blocks ms).length : ℤ → Fix F) (bs h (25 * b + 1 + t)) = fixRound t 0 :=
  fix_in hw.hh (blt hB) ht

/-! ### Gates -/

theorem round_ok {b t : ℕ} {m : List Byte} {idx : ℕ} (hB : (blocks ms)[b]? = some (m, idx)) (ht : t < 25) :
    Z (gRound k h (layout k h) (fixedCols h (blocks ms).length : ℤ → Fix F) (advOf (rowsOf k h ms) : Adv F) (bs h (25 * b + 1 + t))) := by
  by_cases h24 : t < 24
  · have hidx := idx_lt hw hB ht
    refine gRound_ok (t := t) (s := stV k (layout k h) m idx t) (w := sget (stV k (layout k h) m idx 24) (23 - t) 0) hw (val_block hB ht) (round_pre hw hB ht)
      (absorbAt_AbOk hw hidx t) (stV_SOk hw hidx t) ?_ ?_ ?_ ?_
    · rw [roundReg_eq]; exact reg_body hw (stV_SOk hw hidx t) _ _ _ _ h24
    · rw [roundReg_eq]
      by_cases h20 : 20 ≤ t
      · exact .inl ⟨reg_sq hw (stV_SOk hw hidx t) _ _ _ _ h20 h24, (stV_SOk hw hidx 24).dw _ _⟩
      · exact .inr (reg_sq_zero hw (stV_SOk hw hidx t) _ _ _ _ (by omega))
    · rw [fix_at hw hB ht]; rfl
    · intro i hi j hj
      rw [bs_next, show 25 * b + 1 + t + 1 = 25 * b + 1 + (t + 1) by omega]
      exact state_at hw hB (by omega) hi hj
  · unfold gRound
    rw [Z_gate]
    left
    rw [fix_at hw hB ht, fr_round]
    simp [ind, h24]

theorem start_at {b : ℕ} {m : List Byte} {idx : ℕ} (hB : (blocks ms)[b]? = some (m, idx)) :
    startNew (fixedCols h (blocks ms).length : ℤ → Fix F) (advOf (rowsOf k h ms) : Adv F) (bs h (25 * b + 1 + 24)) = if finalBlock m idx = true then 1 else 0 := by
  unfold startNew
  rw [fix_at hw hB (by omega), fr_first, final_first hw hB (by omega), zero_add]
  simp

/-- The gate "absorb" before a new message, or at the end. -/
theorem absorb_new {b : ℕ} {r : ℤ} (hr : r + h = bs h (25 * b + 1)) (hs : startNew (fixedCols h (blocks ms).length : ℤ → Fix F) (advOf (rowsOf k h ms) : Adv F) r = 1)
    (h0 : ∀ (m : List Byte) (idx : ℕ), (blocks ms)[b]? = some (m, idx) → idx = 0) : Z (gAbsorb h (layout k h) (fixedCols h (blocks ms).length : ℤ → Fix F) (advOf (rowsOf k h ms) : Adv F) r) := by
  unfold gAbsorb
  rw [Z_gate]
  right
  simp only [Z_flatMap, List.mem_range]
  intro j hj i hi
  have hrow : ∀ q : ℕ, r + ((q : ℕ) + 1 : ℤ) * h = bs h (25 * b + 1 + q) := by
    intro q
    rw [← bs_add, ← hr]; ring
  have hst : sAt (layout k h) (advOf (rowsOf k h ms) : Adv F) (r + h) i j = if i + j * 5 < 17 then (advOf (rowsOf k h ms) : Adv F).val (bs h (25 * b + 1 + (i + j * 5))) (layout k h).absorbData else 0 := by
    rw [hr]
    cases hB : (blocks ms)[b]? with
    | none =>
      have e1 : sAt (layout k h) (advOf (rowsOf k h ms) : Adv F) (bs h (25 * b + 1)) i j = 0 := val_none (t := 0) hB (by omega) _ (s_lt hw (by omega))
      rw [e1]
      split
      · rw [val_none hB (by omega) _ (cells_lt hw (by simp [allCells, preCells]))]
      · rfl
    | some B =>
      obtain ⟨m, idx⟩ := B
      obtain rfl := h0 m idx hB
      have e1 := state_at (F := F) (t := 0) hw hB (by omega) hi hj
      rw [Nat.add_zero] at e1
      rw [e1]
      have e2 : sget (stV k (layout k h) m 0 0) i j = if i + j * 5 < 17 then wordV m 0 (i + j * 5) else 0 := by
        show sget (absorbV m 0 (List.replicate 25 0)) i j = _
        unfold absorbV
        rw [sget_map hi hj, show (5 * i + j) / 5 = i by omega, show (5 * i + j) % 5 = j by omega, Nat.mul_comm 5 j]
        have hz : sget (List.replicate 25 0) i j = 0 := by
          unfold sget
          rw [List.getD_eq_getElem _ _ (by rw [List.length_replicate]; omega), List.getElem_replicate]
        rw [hz, Nat.zero_xor]
      rw [e2]
      by_cases h17 : i + j * 5 < 17
      · rw [if_pos h17, if_pos h17, (absorb_at (F := F) hw hB (by omega)).2.1]
        congr 1
        unfold absorbAt
        rw [if_pos h17]
      · rw [if_neg h17, if_neg h17, Nat.cast_zero]
  unfold gAbsorbAt
  simp only [hs]
  by_cases h17 : i + j * 5 < 17
  · rw [if_pos h17, Z_append, Z_cond, Z_reqEq, Z_reqEq]
    refine ⟨.inl (by simp [notE]), ?_⟩
    rw [hst, if_pos h17, hrow]
    simp [selE, notE]
  · rw [if_neg h17, Z_reqEq, hst, if_neg h17]
    simp [notE]

/-- The gate "absorb" between two blocks of a message. -/
theorem absorb_mid {b : ℕ} {m : List Byte} {idx : ℕ} (hB : (blocks ms)[b]? = some (m, idx)) (hf : finalBlock m idx = false) :
    Z (gAbsorb h (layout k h) (fixedCols h (blocks ms).length : ℤ → Fix F) (advOf (rowsOf k h ms) : Adv F) (bs h (25 * b + 1 + 24))) := by
  have hB' := (blocks_chain ms).mid b m idx hB hf
  unfold gAbsorb
  rw [Z_gate]
  right
  simp only [Z_flatMap, List.mem_range]
  intro j hj i hi
  have hs : startNew (fixedCols h (blocks ms).length : ℤ → Fix F) (advOf (rowsOf k h ms) : Adv F) (bs h (25 * b + 1 + 24)) = 0 := by rw [start_at hw hB, hf]; simp
  have hr : bs h (25 * b + 1 + 24) + h = bs h (25 * (b + 1) + 1) := by rw [bs_next]; congr 1
  have hrow : ∀ q : ℕ, bs h (25 * b + 1 + 24) + ((q : ℕ) + 1 : ℤ) * h = bs h (25 * (b + 1) + 1 + q) := by
    intro q
    rw [← bs_add h (25 * (b + 1) + 1) q, ← hr]; ring
  have e0 := state_at (F := F) (t := 24) hw hB (by omega) hi hj
  have e1 := state_at (F := F) (t := 0) hw hB' (by omega) hi hj
  rw [Nat.add_zero] at e1
  have hbl : blockSt k (layout k h) m (idx + 1) = stV k (layout k h) m idx 24 := rfl
  have e2 : sget (stV k (layout k h) m (idx + 1) 0) i j =
      if i + j * 5 < 17 then sget (stV k (layout k h) m idx 24) i j ^^^ wordV m (idx + 1) (i + j * 5) else sget (stV k (layout k h) m idx 24) i j := by
    show sget (absorbV m (idx + 1) (blockSt k (layout k h) m (idx + 1))) i j = _
    unfold absorbV
    rw [sget_map hi hj, show (5 * i + j) / 5 = i by omega, show (5 * i + j) % 5 = j by omega, Nat.mul_comm 5 j, hbl]
  unfold gAbsorbAt
  simp only [hs]
  by_cases h17 : i + j * 5 < 17
  · rw [if_pos h17, Z_append, Z_cond, Z_reqEq, Z_reqEq, hrow, hr, e0, e1, e2, if_pos h17]
    obtain ⟨a1, a2, a3⟩ := absorb_at (F := F) (t := i + j * 5) hw hB' (by omega)
    rw [a1, a2, a3]
    have ha : absorbAt k (layout k h) m (idx + 1) (i + j * 5) = ⟨sget (stV k (layout k h) m idx 24) i j, wordV m (idx + 1) (i + j * 5),
        sget (stV k (layout k h) m idx 24) i j ^^^ wordV m (idx + 1) (i + j * 5)⟩ := by
      unfold absorbAt
      rw [if_pos h17, hbl]
      simp only [show (i + j * 5) % 5 = i by omega, show (i + j * 5) / 5 = j by omega]
    rw [ha]
    exact ⟨.inr rfl, by simp [selE, notE]⟩
  · rw [if_neg h17, Z_reqEq, hr, e0, e1, e2, if_neg h17]
    simp [notE]

theorem absorb_ok {b t : ℕ} {m : List Byte} {idx : ℕ} (hB : (blocks ms)[b]? = some (m, idx)) (ht : t < 25) :
    Z (gAbsorb h (layout k h) (fixedCols h (blocks ms).length : ℤ → Fix F) (advOf (rowsOf k h ms) : Adv F) (bs h (25 * b + 1 + t))) := by
  by_cases h24 : t = 24
  · subst h24
    by_cases hf : finalBlock m idx = true
    · refine absorb_new (b := b + 1) hw ?_ ?_ fun m' idx' hB' => (blocks_chain ms).fin b m idx hB hf m' idx' hB'
      · rw [bs_next]; congr 1
      · rw [start_at hw hB, if_pos hf]
    · exact absorb_mid hw hB (by simpa using hf)
  · unfold gAbsorb
    rw [Z_gate]
    left
    rw [fix_at hw hB ht, fr_absorb]
    simp [ind, h24]

/-- The bytes of the squeezed words are the bytes of the hash. -/
theorem hash_bytes {b : ℕ} {m : List Byte} {idx : ℕ} (hB : (blocks ms)[b]? = some (m, idx)) :
    (hashBytes h (layout k h) (advOf (rowsOf k h ms) : Adv F) (bs h (25 * b + 1 + 24))).reverse = (hashLe k (layout k h) m idx).map fun x => ((x : ℕ) : F) := by
  have hlist : hashBytes h (layout k h) (advOf (rowsOf k h ms) : Adv F) (bs h (25 * b + 1 + 24)) =
      ((List.range 4).flatMap fun i => (List.range 8).map fun q =>
        toByteV (((unpackN (sget (stV k (layout k h) m idx 24) i 0)).drop (8 * q)).take 8)).map fun x => ((x : ℕ) : F) := by
    unfold hashBytes
    rw [List.map_flatMap]
    refine List.flatMap_congr fun i hi => ?_
    have hi4 := List.mem_range.mp hi
    have hrow : bs h (25 * b + 1 + 24) - ((i : ℕ) + 1 : ℤ) * h = bs h (25 * b + 1 + (23 - i)) := by
      have := bs_sub h (25 * b + 1 + 24) (i + 1) (by omega)
      rw [show 25 * b + 1 + 24 - (i + 1) = 25 * b + 1 + (23 - i) by omega] at this
      rw [← this]; push_cast; rfl
    rw [hrow, (squeeze_at (F := F) (t := 23 - i) hw hB (by omega) (by omega) (by omega)).2, show 23 - (23 - i) = i by omega]
    generalize sget (stV k (layout k h) m idx 24) i 0 = x
    have e : ∀ q ∈ List.range 8, toByteV ((List.range 8).map fun j => dig x (8 * q + j)) = toByteV (((unpackN x).drop (8 * q)).take 8) := by
      intro q hq
      have hq8 := List.mem_range.mp hq
      have : (List.range 8).map (fun j => dig x (8 * q + j)) = ((unpackN x).drop (8 * q)).take 8 := by
        refine List.ext_getElem (by simp [unpackN]; omega) fun j h1 h2 => ?_
        simp only [List.length_map, List.length_range] at h1
        simp [unpackN]
      rw [this]
    rw [List.map_congr_left e]
  rw [hlist, ← List.map_reverse, hashLe]

theorem squeeze_ok {b t : ℕ} {m : List Byte} {idx : ℕ} (hB : (blocks ms)[b]? = some (m, idx)) (ht : t < 25) :
    Z (gSqueeze h (layout k h) (fixedCols h (blocks ms).length : ℤ → Fix F) (advOf (rowsOf k h ms) : Adv F) (bs h (25 * b + 1 + t))) := by
  unfold gSqueeze
  rw [Z_gate]
  by_cases h24 : t = 24
  · subst h24
    right
    simp only [Z_append, Z_flatMap, Z_cond, Z_reqEq, List.mem_range]
    by_cases hf : finalBlock m idx = true
    · obtain ⟨l1, l2⟩ := hash_at (F := F) (k := k) hw.hh hB (t := 24) (by omega) hf
      refine ⟨fun i hi => .inr ?_, .inr ⟨?_, ?_⟩⟩
      · have hrow : bs h (25 * b + 1 + 24) - ((i : ℕ) + 1 : ℤ) * h = bs h (25 * b + 1 + (23 - i)) := by
          have := bs_sub h (25 * b + 1 + 24) (i + 1) (by omega)
          rw [show 25 * b + 1 + 24 - (i + 1) = 25 * b + 1 + (23 - i) by omega] at this
          rw [← this]; push_cast; rfl
        rw [hrow, (squeeze_at (F := F) (t := 23 - i) hw hB (by omega) (by omega) (by omega)).1, show 23 - (23 - i) = i by omega,
          state_at (F := F) (t := 24) hw hB (by omega) (by omega) (by omega)]
      · rw [hash_bytes hw hB, ← List.map_take, fromBytes_leNum, l1]
      · rw [hash_bytes hw hB, ← List.map_drop, fromBytes_leNum, l2]
    · rw [start_at hw hB, if_neg hf]
      exact ⟨fun i hi => .inl rfl, .inl rfl⟩
  · left
    rw [fix_at hw hB ht, fr_last]
    simp [ind, h24]

theorem word_ok {b t : ℕ} {m : List Byte} {idx : ℕ} (hB : (blocks ms)[b]? = some (m, idx)) (ht : t < 25) :
    Z (gWordValue (layout k h) (fixedCols h (blocks ms).length : ℤ → Fix F) (advOf (rowsOf k h ms) : Adv F) (bs h (25 * b + 1 + t))) := by
  unfold gWordValue
  rw [Z_gate]
  by_cases h17 : t < 17
  · right
    rw [Z_reqEq, word_at hw.hh hB h17, ← word_leNum, ← fromBytes_leNum, List.map_map]
    congr 1
    refine List.map_congr_left fun i hi => ?_
    have hi8 := List.mem_range.mp hi
    simp only [Function.comp]
    rw [byte_at hw hB ht h17 hi8, pad_at hw hB ht hi8]
    unfold padByte notE
    by_cases hc : m.length ≤ 136 * idx + 8 * t + i
    · have hcc : t < 17 ∧ m.length ≤ 136 * idx + 8 * t + i := ⟨h17, hc⟩
      simp only [hc, hcc, and_self, if_true]; simp
    · have hcc : ¬ (t < 17 ∧ m.length ≤ 136 * idx + 8 * t + i) := fun hh => hc hh.2
      have hl : 136 * idx + 8 * t + i < m.length := by omega
      simp only [hc, hl, and_false, if_true, if_false]; simp
  · left
    rw [fix_at hw hB ht, fr_input]
    simp [ind, h17]

theorem left_ok {b t : ℕ} {m : List Byte} {idx : ℕ} (hB : (blocks ms)[b]? = some (m, idx)) (ht : t < 25) :
    Z (gBytesLeft h (layout k h) (fixedCols h (blocks ms).length : ℤ → Fix F) (advOf (rowsOf k h ms) : Adv F) (bs h (25 * b + 1 + t))) := by
  have hb := blt hB
  have hidx := idx_lt hw hB ht
  rw [numBlocks_eq] at hidx
  rw [gBytesLeft_iff hw.hh _ _ (by omega)]
  rw [fix_at hw hB ht, left_at hw.hh hB ht, final_first hw hB ht]
  refine ⟨.inl rfl, ?_, ?_, ?_⟩
  · by_cases hc : finalBlock m idx = true ∧ t = 24
    · right
      obtain ⟨h1, h2⟩ := hc
      rw [finalBlock_iff] at h1
      rw [show m.length - (136 * idx + 8 * min t 17) = 0 by omega, Nat.cast_zero]
    · left; rw [if_neg hc]
  · by_cases h17 : t < 17
    · right
      rw [show 25 * b + 1 + t + 1 = 25 * b + 1 + (t + 1) by omega, left_at hw.hh hB (by omega)]
      have hp : (List.range 8).map (padAt (layout k h) (advOf (rowsOf k h ms) : Adv F) (bs h (25 * b + 1 + t))) =
          (List.range 8).map fun c => (if m.length ≤ (136 * idx + 8 * t) + c then 1 else 0 : F) := by
        refine List.map_congr_left fun i hi => ?_
        rw [pad_at hw hB ht (List.mem_range.mp hi)]
        simp [h17]
      rw [hp, count8, ← Nat.cast_add]
      congr 1
      omega
    · left; rw [fr_input]; simp [ind, h17]
  · unfold startNew
    rw [fix_at hw hB ht, final_first hw hB ht, fr_input, fr_first]
    by_cases h17 : t < 17
    · left
      have : ¬ (finalBlock m idx = true ∧ t = 24) := by omega
      rw [if_neg this]
      simp [ind, h17, notE]
    · by_cases h24 : t = 24
      · subst h24
        by_cases hf : finalBlock m idx = true
        · left
          rw [if_pos ⟨hf, rfl⟩]
          simp [ind, notE]
        · right
          have hB' := (blocks_chain ms).mid b m idx hB (by simpa using hf)
          have := left_at (F := F) (k := k) (t := 0) hw.hh hB' (by omega)
          rw [Nat.add_zero] at this
          rw [show 25 * b + 1 + 24 + 1 = 25 * (b + 1) + 1 by omega, this]
          congr 1
      · right
        rw [show 25 * b + 1 + t + 1 = 25 * b + 1 + (t + 1) by omega, left_at hw.hh hB (by omega)]
        congr 1
        omega

/-- The padding selector before selector `i` of round `t`. -/
theorem prev_pad {b t : ℕ} {m : List Byte} {idx : ℕ} (hB : (blocks ms)[b]? = some (m, idx)) (h17 : t < 17) {i : ℕ} (hi : i < 8) :
    (if i = 0 then padAt (layout k h) (advOf (rowsOf k h ms) : Adv F) (bs h (25 * b + 1 + t) - h) 7 else padAt (layout k h) (advOf (rowsOf k h ms) : Adv F) (bs h (25 * b + 1 + t)) (i - 1)) =
      if m.length < 136 * idx + 8 * t + i then 1 else 0 := by
  have hidx := idx_lt hw hB (t := t) (by omega)
  rw [numBlocks_eq] at hidx
  by_cases h0 : i = 0
  · subst h0
    rw [if_pos rfl]
    have hrow : bs h (25 * b + 1 + t) - h = bs h (25 * b + t) := by
      have := bs_sub h (25 * b + 1 + t) 1 (by omega)
      rw [show 25 * b + 1 + t - 1 = 25 * b + t by omega] at this
      rw [← this]; push_cast; ring
    rw [hrow]
    by_cases ht0 : t = 0
    · subst ht0
      rw [if_neg (by omega)]
      by_cases hb0 : b = 0
      · subst hb0; exact pad_dummy hw (by omega)
      · obtain ⟨b', rfl⟩ := Nat.exists_eq_succ_of_ne_zero hb0
        have hlt : b' < (blocks ms).length := by have := blt hB; omega
        have hB' : (blocks ms)[b']? = some ((blocks ms)[b'].1, (blocks ms)[b'].2) := List.getElem?_eq_getElem hlt
        rw [show 25 * b'.succ + 0 = 25 * b' + 1 + 24 by omega, pad_at hw hB' (by omega) (by omega), if_neg (by omega)]
    · obtain ⟨t', rfl⟩ := Nat.exists_eq_succ_of_ne_zero ht0
      rw [show 25 * b + t'.succ = 25 * b + 1 + t' by omega, pad_at hw hB (by omega) (by omega)]
      congr 1
      simp only [eq_iff_iff]
      omega
  · rw [if_neg h0, pad_at hw hB (by omega) (by omega)]
    congr 1
    simp only [eq_iff_iff]
    omega

theorem padding_ok {b t : ℕ} {m : List Byte} {idx : ℕ} (hB : (blocks ms)[b]? = some (m, idx)) (ht : t < 25) :
    Z (gPadding h (layout k h) (fixedCols h (blocks ms).length : ℤ → Fix F) (advOf (rowsOf k h ms) : Adv F) (bs h (25 * b + 1 + t))) := by
  have hidx := idx_lt hw hB ht
  rw [numBlocks_eq] at hidx
  unfold gPadding
  rw [Z_gate1, Z_append, Z_append, Z_flatMap, Z_flatMap, Z_cond, Z_reqZero]
  refine ⟨⟨fun i hi => ?_, ?_⟩, fun i hi => ?_⟩
  · rw [Z_cond, Z_reqBool, pad_at hw hB ht (List.mem_range.mp hi)]
    right
    split <;> simp
  · by_cases h24 : t = 24
    · right; rw [pad_at hw hB ht (by omega), if_neg (by omega)]
    · left; rw [fix_at hw hB ht, fr_absorb]; simp [ind, h24]
  · have hi8 := List.mem_range.mp hi
    unfold gPaddingAt
    rw [fix_at hw hB ht, fr_input, fr_inputLast]
    by_cases h17 : t < 17
    · simp only [prev_pad hw hB h17 hi8, pad_at hw hB ht hi8, byte_at hw hB ht h17 hi8]
      rw [Z_append]
      constructor
      · rw [Z_cond, Z_reqBool]
        right
        by_cases c1 : m.length ≤ 136 * idx + 8 * t + i
        · rw [if_pos ⟨h17, c1⟩]; split <;> ring
        · rw [if_neg (fun hh => c1 hh.2), if_neg (by omega)]; ring
      · by_cases c1 : m.length ≤ 136 * idx + 8 * t + i
        · have hb : ((padByte m (136 * idx + 8 * t + i) : ℕ) : F) =
              (1 - if m.length < 136 * idx + 8 * t + i then 1 else 0 : F) + if t = 16 ∧ i = 7 then 128 else 0 := by
            unfold padByte
            rw [if_neg (by omega)]
            have e1 : (136 * idx + 8 * t + i = m.length) ↔ ¬ m.length < 136 * idx + 8 * t + i := by omega
            have e2 : (136 * idx + 8 * t + i + 1 = 136 * (m.length / 136 + 1)) ↔ (t = 16 ∧ i = 7) := by omega
            simp only [e1, e2]
            rw [Nat.cast_add]
            congr 1
            · by_cases d1 : m.length < 136 * idx + 8 * t + i
              · rw [if_neg (not_not.mpr d1), if_pos d1]; simp
              · rw [if_pos d1, if_neg d1]; simp
            · split <;> simp
          have hcc : (if t < 17 ∧ m.length ≤ 136 * idx + 8 * t + i then 1 else 0 : F) = 1 := if_pos ⟨h17, c1⟩
          rw [hcc, hb]
          by_cases h7 : i = 7
          · rw [if_pos h7, Z_append, Z_cond, Z_cond, Z_reqEq, Z_reqEq]
            by_cases h16 : t = 16
            · constructor
              · left; simp [ind, h16, andE]
              · right
                have e3 : (if t = 16 ∧ i = 7 then 128 else 0 : F) = 128 := if_pos ⟨h16, h7⟩
                rw [e3]
            · constructor
              · right
                have e3 : (if t = 16 ∧ i = 7 then 128 else 0 : F) = 0 := if_neg (by omega)
                rw [e3, add_zero]
              · left; simp [ind, h16, andE]
          · rw [if_neg h7, Z_cond, Z_reqEq]
            right
            have e3 : (if t = 16 ∧ i = 7 then 128 else 0 : F) = 0 := if_neg (by omega)
            rw [e3, add_zero]
        · have hcc : (if t < 17 ∧ m.length ≤ 136 * idx + 8 * t + i then 1 else 0 : F) = 0 := if_neg (fun hh => c1 hh.2)
          rw [hcc]
          have hz : ∀ x : F, andE [x, 0] = 0 := fun x => by simp [andE]
          split
          · rw [Z_append, Z_cond, Z_cond]
            exact ⟨.inl (hz _), .inl (hz _)⟩
          · rw [Z_cond]
            exact .inl (hz _)
    · have e1 : (ind (0 = 0 ∧ t < 17) : F) = 0 := by simp [ind, h17]
      have e2 : (ind (0 = 0 ∧ t = 16) : F) = 0 := by
        have : ¬ t = 16 := by omega
        simp [ind, this]
      rw [e1, e2]
      have hz : ∀ x : F, andE [0, x] = 0 := fun x => andE_cons0
      rw [Z_append, Z_cond]
      refine ⟨.inl rfl, ?_⟩
      split
      · rw [Z_append, Z_cond, Z_cond]
        exact ⟨.inl (by rw [sub_zero]; exact hz _), .inl (hz _)⟩
      · rw [Z_cond]
        exact .inl (hz _)

theorem final_ok {b t : ℕ} {m : List Byte} {idx : ℕ} (hB : (blocks ms)[b]? = some (m, idx)) (ht : t < 25) :
    ((fixedCols h (blocks ms).length : ℤ → Fix F) (bs h (25 * b + 1 + t))).qAbsorb - ((fixedCols h (blocks ms).length : ℤ → Fix F) (bs h (25 * b + 1 + t))).qFirst = 0 ∨
      (advOf (rowsOf k h ms) : Adv F).isFinal (bs h (25 * b + 1 + t)) = padAt (layout k h) (advOf (rowsOf k h ms) : Adv F) (bs h (25 * b + 1 + t) - 8 * h) 7 := by
  have hidx := idx_lt hw hB ht
  rw [numBlocks_eq] at hidx
  rw [fix_at hw hB ht, fr_absorb, fr_first]
  by_cases h24 : t = 24
  · right
    subst h24
    have hrow : bs h (25 * b + 1 + 24) - 8 * h = bs h (25 * b + 1 + 16) := by
      have := bs_sub h (25 * b + 1 + 24) 8 (by omega)
      rw [show 25 * b + 1 + 24 - 8 = 25 * b + 1 + 16 by omega] at this
      rw [← this]; push_cast; ring
    rw [hrow, pad_at hw hB (by omega) (by omega), final_first hw hB (by omega)]
    refine if_congr ?_ rfl rfl
    rw [finalBlock_iff]
    omega
  · left
    simp [ind, h24]

/-- The first row of the dummy round. -/
theorem dummy_ok : Z (gates k h (layout k h) (fixedCols h (blocks ms).length : ℤ → Fix F) (advOf (rowsOf k h ms) : Adv F) (bs h 0)) := by
  have hfx : (fixedCols h (blocks ms).length : ℤ → Fix F) (bs h 0) = fixDummy 0 := fix_zero hw.hh
  have hf := final_zero' (F := F) (ms := ms) hw
  rw [gates_first hw.hh]
  refine ⟨?_, ?_, ?_, ?_, ?_, ?_, ?_, ?_, ?_⟩
  · unfold gRound; rw [Z_gate, hfx]; exact .inl rfl
  · refine absorb_new (b := 0) hw (by rw [bs_next]) ?_ (blocks_chain ms).head
    unfold startNew
    rw [hfx, hf]; simp [fixDummy, ind]
  · unfold gSqueeze; rw [Z_gate, hfx]; exact .inl rfl
  · unfold gInput; rw [Z_gate, Z_reqBool, hf]; right; simp
  · unfold gFirst; rw [Z_gate, Z_reqZero]; exact .inr hf
  · unfold gWordValue; rw [Z_gate, hfx]; exact .inl rfl
  · rw [gBytesLeft_iff hw.hh _ _ (by omega)]
    unfold startNew
    rw [hfx, hf, left_dummy hw.hh]
    refine ⟨.inr rfl, .inr rfl, .inl rfl, .inl ?_⟩
    simp [fixDummy, ind, notE]
  · left; rw [hfx]; simp [fixDummy]
  · unfold gPadding
    rw [Z_gate1, Z_append, Z_append, Z_flatMap, Z_flatMap, Z_cond, Z_reqZero]
    refine ⟨⟨fun i hi => ?_, .inr (pad_dummy hw (by omega))⟩, fun i hi => ?_⟩
    · rw [Z_cond, Z_reqBool, pad_dummy hw (List.mem_range.mp hi)]; right; simp
    · unfold gPaddingAt
      have e1 : ((fixedCols h (blocks ms).length : ℤ → Fix F) (bs h 0)).qInput = 0 := by rw [hfx]; rfl
      have e2 : ((fixedCols h (blocks ms).length : ℤ → Fix F) (bs h 0)).qInputLast = 0 := by rw [hfx]; rfl
      rw [e1, e2]
      have hz : ∀ x : F, andE [0, x] = 0 := fun x => andE_cons0
      rw [Z_append, Z_cond]
      refine ⟨.inl rfl, ?_⟩
      split
      · rw [Z_append, Z_cond, Z_cond]
        exact ⟨.inl (by rw [sub_zero]; exact hz _), .inl (hz _)⟩
      · rw [Z_cond]
        exact .inl (hz _)

/-- The first row of round `t` of block `b`. -/
theorem first_ok {b t : ℕ} {m : List Byte} {idx : ℕ} (hB : (blocks ms)[b]? = some (m, idx)) (ht : t < 25) :
    Z (gates k h (layout k h) (fixedCols h (blocks ms).length : ℤ → Fix F) (advOf (rowsOf k h ms) : Adv F) (bs h (25 * b + 1 + t))) := by
  rw [gates_first hw.hh]
  refine ⟨round_ok hw hB ht, absorb_ok hw hB ht, squeeze_ok hw hB ht, ?_, ?_, word_ok hw hB ht, left_ok hw hB ht, final_ok hw hB ht, padding_ok hw hB ht⟩
  · unfold gInput
    rw [Z_gate, Z_reqBool, final_first hw hB ht]
    right
    split <;> simp
  · unfold gFirst
    rw [Z_gate, fix_at hw hB ht]
    exact .inl rfl

/-- Lookups in a row without assignments. -/
theorem look_zero {a : Adv F} {r : ℤ} (hz : ∀ c, a.cell c r = 0) (l : Look) : lookOk k a r l := by
  refine lookOk_of (W := fun _ => 0) (o := 0) (fun c => by rw [hz c, Nat.cast_zero]) ?_
  cases l with
  | trans T x y => exact table_zero hw T
  | range4 x => exact ⟨_, table_zero hw .norm4, rfl⟩
  | chi x y z w => exact ⟨_, chi_zero k, rfl, rfl⟩

/-- The rounds: the dummy round and the rounds of the blocks. -/
theorem round_cases {R : ℕ} (hR : R < 1 + (blocks ms).length * 25) :
    R = 0 ∨ ∃ (b t : ℕ) (m : List Byte) (idx : ℕ), (blocks ms)[b]? = some (m, idx) ∧ t < 25 ∧ R = 25 * b + 1 + t := by
  by_cases h0 : R = 0
  · exact .inl h0
  · right
    have hb : (R - 1) / 25 < (blocks ms).length := by omega
    exact ⟨(R - 1) / 25, (R - 1) % 25, (blocks ms)[(R - 1) / 25].1, (blocks ms)[(R - 1) / 25].2, by rw [List.getElem?_eq_getElem hb], by omega, by omega⟩

/-- All gates in the assigned rows, all lookups in all rows. -/
theorem wit_sat : KecSat k h (blocks ms).length (advOf (rowsOf k h ms) : Adv F) := by
  intro r hr
  obtain ⟨R, o, hR, ho, rfl⟩ := row_cases hr
  rw [← bs_cast]
  rcases round_cases hw hR with rfl | ⟨b, t, m, idx, hB, ht, rfl⟩
  · refine ⟨?_, fun l _ => look_zero hw (cell_dummy ho) l⟩
    show Z _
    by_cases h0 : o = 0
    · subst h0; rw [Nat.cast_zero, add_zero]; exact dummy_ok hw
    · rw [gates_quiet_iff _ _ _ _ (by rw [bs_cast]; exact off_row hR ho h0)]
      exact .inr (final_dummy ho)
  · constructor
    · show Z _
      by_cases h0 : o = 0
      · subst h0; rw [Nat.cast_zero, add_zero]; exact first_ok hw hB ht
      · rw [gates_quiet_iff _ _ _ _ (by rw [bs_cast]; exact off_row hR ho h0)]
        right
        rw [final_at hB ht ho, if_neg (by omega)]
    · intro l hl
      have hidx := idx_lt hw hB ht
      refine lookOk_of (W := rget (roundReg k (layout k h) m idx t)) (o := o) (cell_block hB ht ho) ?_
      refine looks_ok (t := t) (w := sget (stV k (layout k h) m idx 24) (23 - t) 0) hw (round_pre hw hB ht) (absorbAt_AbOk hw hidx t)
        (stV_SOk hw hidx t) ?_ ?_ ?_ hl ho
      · rw [roundReg_eq]
        by_cases h24 : t < 24
        · exact .inl (reg_body hw (stV_SOk hw hidx t) _ _ _ _ h24)
        · exact .inr (reg_body_zero hw (stV_SOk hw hidx t) _ _ _ _ h24)
      · rw [roundReg_eq]
        by_cases h20 : 20 ≤ t ∧ t < 24
        · exact .inl ⟨reg_sq hw (stV_SOk hw hidx t) _ _ _ _ h20.1 h20.2, (stV_SOk hw hidx 24).dw _ _⟩
        · exact .inr (reg_sq_zero hw (stV_SOk hw hidx t) _ _ _ _ h20)
      · intro c hc
        rw [roundReg_eq]
        exact reg_out hw (stV_SOk hw hidx t) _ _ _ _ hc

end
end H2.Kec
