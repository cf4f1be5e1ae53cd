import Verif.Kec.WitHash
import Verif.Kec.WitSat

/-!
# The rows of the witness generation: capacity, fixed columns and the cells handed to the caller
-/

set_option autoImplicit false
set_option linter.unusedSectionVars false
namespace H2.Kec

attribute [local irreducible] layout numBits wordParts

/-! ### Capacity -/

/-- The number of keccak_f's of the messages. -/
def totalF (ms : List (List Byte)) : ℕ := (ms.map fun m => m.length / 136 + 1).sum

theorem totalF_blocks (ms : List (List Byte)) : (ms.map numBlocks).sum = totalF ms := by
  unfold totalF
  congr 1
  exact List.map_congr_left fun m _ => numBlocks_eq m

theorem rowsOf_len (k h : ℕ) (ms : List (List Byte)) : (rowsOf k h ms).length = (1 + totalF ms * 25) * h := by
  rw [rowsOf_length, totalF_blocks]; rfl

theorem totalF_append (ms : List (List Byte)) (n : ℕ) : totalF (ms ++ List.replicate n []) = totalF ms + n := by
  unfold totalF; simp

theorem rowsOf_snoc (k h : ℕ) (ms : List (List Byte)) (n : ℕ) :
    rowsOf k h (ms ++ List.replicate n []) ++ keccakRows k h [] = rowsOf k h (ms ++ List.replicate (n + 1) []) := by
  unfold rowsOf
  rw [List.replicate_succ', ← List.append_assoc ms, List.flatMap_append (xs := ms ++ List.replicate n []), List.flatMap_singleton, List.append_assoc]

theorem padTo_eq {k h : ℕ} (hh : 1 ≤ h) (ms : List (List Byte)) (c : ℕ) (fuel n : ℕ) (hn : totalF ms + n ≤ c) (hf : c ≤ totalF ms + n + fuel) :
    padTo k h ((1 + c * 25) * h) fuel (rowsOf k h (ms ++ List.replicate n [])) = rowsOf k h (ms ++ List.replicate (c - totalF ms) []) := by
  induction fuel generalizing n with
  | zero => rw [padTo, show c - totalF ms = n by omega]
  | succ fuel ih =>
    rw [padTo]
    by_cases hlt : totalF ms + n < c
    · rw [if_pos, rowsOf_snoc]
      · exact ih (n + 1) (by omega) (by omega)
      · rw [rowsOf_len, totalF_append]
        exact (Nat.mul_lt_mul_right (by omega)).mpr (by omega)
    · rw [if_neg, show c - totalF ms = n by omega]
      rw [rowsOf_len, totalF_append, show totalF ms + n = c by omega]
      exact lt_irrefl _

theorem padTo_over {k h target fuel : ℕ} {rows : List KRow} (hr : target ≤ rows.length) : padTo k h target fuel rows = rows := by
  cases fuel with
  | zero => rfl
  | succ fuel => rw [padTo, if_neg (by omega)]

theorem multiKeccak_none (k h : ℕ) (ms : List (List Byte)) : multiKeccak k h ms none = some (rowsOf k h ms) := rfl

theorem multiKeccak_some {k h : ℕ} (hh : 1 ≤ h) (ms : List (List Byte)) (c : ℕ) :
    multiKeccak k h ms (some c) = if totalF ms ≤ c then some (rowsOf k h (ms ++ List.replicate (c - totalF ms) [])) else none := by
  show (if (1 + c * 25) * h < (padTo k h ((1 + c * 25) * h) c (rowsOf k h ms)).length then none else
    some (padTo k h ((1 + c * 25) * h) c (rowsOf k h ms))) = _
  by_cases hc : totalF ms ≤ c
  · have := padTo_eq (k := k) hh ms c c 0 (by omega) (by omega)
    rw [List.replicate_zero, List.append_nil] at this
    rw [if_pos hc, this, if_neg]
    rw [rowsOf_len, totalF_append, show totalF ms + (c - totalF ms) = c by omega]
    exact lt_irrefl _
  · have hlt : (1 + c * 25) * h < (rowsOf k h ms).length := by
      rw [rowsOf_len]
      exact (Nat.mul_lt_mul_right (by omega)).mpr (by omega)
    rw [if_neg hc, padTo_over (le_of_lt hlt), if_pos hlt]

/-! ### Fixed columns -/

/-- mod.rs:838-849, 867 `set_row`: the fixed cells assigned for a row at `offset`. -/
def fixOf {F : Type} [Field F] (offset : ℕ) (r : KRow) : Fix F :=
  let b := fun x : Bool => if x then (1 : F) else 0
  { qEnable := b r.qEnable
    qFirst := b (offset == 0)
    qRound := b r.qRound
    qAbsorb := b r.qAbsorb
    qRoundLast := b r.qRoundLast
    qInput := b r.qInput
    qInputLast := b r.qInputLast
    roundCst := ((r.roundCst : ℕ) : F) }

section
variable {F : Type} [Field F]

theorem fixOf_dummy (o : ℕ) : fixOf o (dummyRow o) = (fixDummy o : Fix F) := by
  unfold fixOf fixDummy dummyRow
  by_cases h : o = 0 <;> simp [h, H2.Sha.ind]

theorem fixOf_row (k h : ℕ) (m : List Byte) (idx t o r : ℕ) (hr : r ≠ 0) : fixOf r (keccakRow k h m idx t o) = (fixRound t o : Fix F) := by
  have e : ∀ (b : Bool) (P : Prop) [Decidable P], (b = true ↔ P) → (if b then (1 : F) else 0) = H2.Sha.ind P := by
    intro b P _ hb
    unfold H2.Sha.ind
    by_cases hP : P
    · rw [if_pos hP, if_pos (hb.mpr hP)]
    · rw [if_neg hP, if_neg (fun hc => hP (hb.mp hc))]
  unfold fixOf fixRound keccakRow
  simp only
  congr 1
  · exact e _ _ (by simp)
  · rw [if_neg (by simpa using hr)]
  · exact e _ _ (by simp)
  · exact e _ _ (by simp)
  · exact e _ _ (by simp)
  · exact e _ _ (by simp)
  · exact e _ _ (by simp)

theorem fix_rows {k h : ℕ} (hh : 1 ≤ h) (ms : List (List Byte)) (r : ℕ) (row : KRow) (hr : (rowsOf k h ms)[r]? = some row) :
    fixOf r row = (fixAt h r : Fix F) := by
  unfold fixAt
  by_cases h0 : r < h
  · rw [if_pos h0]
    rw [rows_dummy h0] at hr
    rw [← Option.some_inj.mp hr, fixOf_dummy]
  · rw [if_neg h0]
    have ho : r % h < h := Nat.mod_lt _ hh
    have hq : 1 ≤ r / h := (Nat.le_div_iff_mul_le hh).mpr (by omega)
    have hd := Nat.div_add_mod r h
    have e : r = (25 * ((r / h - 1) / 25) + 1 + (r / h - 1) % 25) * h + r % h := by
      rw [show 25 * ((r / h - 1) / 25) + 1 + (r / h - 1) % 25 = r / h by omega, Nat.mul_comm]
      exact hd.symm
    have hlt := (List.getElem?_eq_some_iff.mp hr).1
    have hB := rows_at (k := k) (ms := ms) (b := (r / h - 1) / 25) (t := (r / h - 1) % 25) (o := r % h) (Nat.mod_lt _ (by norm_num)) ho
    rw [← e, hr] at hB
    cases hb : (blocks ms)[(r / h - 1) / 25]? with
    | none => rw [hb] at hB; exact absurd hB (by simp)
    | some B =>
      rw [hb] at hB
      have : row = keccakRow k h B.1 B.2 ((r / h - 1) % 25) (r % h) := by simpa using hB
      rw [this]
      exact fixOf_row _ _ _ _ _ _ _ (by omega)

/-! ### The cells handed to the caller -/

/-- The values of the cells of keccak_f number `i` of a message: the words of the message, the number of bytes of the message from there on,
the flag and the hash in the last one. -/
def honestF (m : List Byte) (i : ℕ) : LoadedF F :=
  { bytesLeft := ((m.length - 136 * i : ℕ) : F)
    words := (List.range 17).map fun t => (((leLane m (17 * i + t)).toNat : ℕ) : F)
    isFinal := if i = m.length / 136 then 1 else 0
    hashLo := if i = m.length / 136 then ((beNat ((keccak256 m).drop 16) : ℕ) : F) else 0
    hashHi := if i = m.length / 136 then ((beNat ((keccak256 m).take 16) : ℕ) : F) else 0 }

variable {k h : ℕ} (hw : WitL k h) (hr : RotL k) {ms : List (List Byte)}

theorem word_lane (m : List Byte) (i : ℕ) : ((leNum (((m.drop (8 * i)).take 8).map BitVec.toNat) : ℕ) : F) = (((leLane m i).toNat : ℕ) : F) := by
  rw [← word_leNum, ← fromBytes_leNum, leLane_eq (f := fun c => m.getD (8 * i + c) 0) (fun c _ => rfl), ← fromBytes_lane, List.map_map]
  congr 1
  refine List.map_congr_left fun c _ => ?_
  rw [Function.comp]
  split
  · rw [List.getD_eq_default _ _ (by assumption)]; rfl
  · rfl

theorem hash_zero (hh : 1 ≤ h) {b t : ℕ} {m : List Byte} {idx : ℕ} (hB : (blocks ms)[b]? = some (m, idx)) (ht : t < 25) (hf : ¬ finalBlock m idx = true) :
    (advOf (rowsOf k h ms) : Adv F).hashLo (bs h (25 * b + 1 + t)) = 0 ∧ (advOf (rowsOf k h ms) : Adv F).hashHi (bs h (25 * b + 1 + t)) = 0 := by
  rw [bs_nat]
  constructor
  · rw [adv_lo, col_block hB ht (by omega)]
    show ((if finalBlock m idx then _ else 0 : ℕ) : F) = _
    rw [if_neg hf, Nat.cast_zero]
  · rw [adv_hi, col_block hB ht (by omega)]
    show ((if finalBlock m idx then _ else 0 : ℕ) : F) = _
    rw [if_neg hf, Nat.cast_zero]

include hw hr

theorem load_at {b : ℕ} {m : List Byte} {idx : ℕ} (hB : (blocks ms)[b]? = some (m, idx)) : loadF h (advOf (rowsOf k h ms) : Adv F) b = honestF m idx := by
  have hh := hw.hh
  have hfin : finalBlock m idx = true ↔ idx = m.length / 136 := finalBlock_iff m idx
  unfold loadF honestF
  have e1 : (advOf (rowsOf k h ms) : Adv F).bytesLeft (bs h (1 + 25 * b)) = ((m.length - 136 * idx : ℕ) : F) := by
    have := left_at (F := F) (k := k) hh hB (t := 0) (by norm_num)
    rw [show 25 * b + 1 + 0 = 1 + 25 * b by ring] at this
    rw [this]
    rfl
  have e2 : ((List.range 17).map fun i => (advOf (rowsOf k h ms) : Adv F).wordValue (bs h (1 + 25 * b + i))) =
      (List.range 17).map fun t => (((leLane m (17 * idx + t)).toNat : ℕ) : F) := by
    refine List.map_congr_left fun t ht => ?_
    rw [show 1 + 25 * b + t = 25 * b + 1 + t by ring, word_at hh hB (List.mem_range.mp ht), ← word_lane, show 136 * idx + 8 * t = 8 * (17 * idx + t) by ring]
  have e3 : (advOf (rowsOf k h ms) : Adv F).isFinal (bs h (1 + 25 * b + 24)) = if idx = m.length / 136 then 1 else 0 := by
    rw [show 1 + 25 * b + 24 = 25 * b + 1 + 24 by ring, final_first hw hB (by norm_num)]
    exact if_congr (by rw [hfin]; simp) rfl rfl
  rw [e1, e2, e3, show 1 + 25 * b + 24 = 25 * b + 1 + 24 by ring]
  by_cases hf : finalBlock m idx = true
  · obtain ⟨h1, h2⟩ := hash_at (F := F) (k := k) hh hB (t := 24) (by norm_num) hf
    obtain ⟨v1, v2⟩ := hash_val hw hr hf
    rw [h1, h2, v1, v2]
    have hi := hfin.mp hf
    rw [if_pos hi, if_pos hi, if_pos hi]
  · obtain ⟨h1, h2⟩ := hash_zero (F := F) (k := k) hh hB (t := 24) (by norm_num) hf
    have hi : ¬ idx = m.length / 136 := fun hc => hf (hfin.mpr hc)
    rw [h1, h2, if_neg hi, if_neg hi, if_neg hi]

theorem load_all : (List.range (totalF ms)).map (loadF h (advOf (rowsOf k h ms) : Adv F)) =
    ms.flatMap fun m => (List.range (m.length / 136 + 1)).map (honestF m) := by
  have e : (ms.flatMap fun m => (List.range (m.length / 136 + 1)).map (honestF m)) = (blocks ms).map fun B => (honestF B.1 B.2 : LoadedF F) := by
    unfold blocks
    rw [List.map_flatMap]
    refine List.flatMap_congr fun m _ => ?_
    rw [List.map_map, numBlocks_eq]
    rfl
  rw [e, ← totalF_blocks, ← blocks_length]
  refine List.ext_getElem (by simp) fun b h1 h2 => ?_
  simp only [List.length_map] at h2
  rw [List.getElem_map, List.getElem_range, List.getElem_map]
  exact load_at hw hr (List.getElem?_eq_getElem h2)

/-- `is_final` is 0 in all other rounds. -/
theorem load_clean (r : ℕ) (hr' : (advOf (rowsOf k h ms) : Adv F).isFinal (r : ℤ) ≠ 0) :
    ∃ b, b < totalF ms ∧ (r : ℤ) = bs h (1 + 25 * b + 24) := by
  have hh := hw.hh
  by_cases hlt : r < numRows h (blocks ms).length
  · obtain ⟨R, o, hR, ho, rfl⟩ := row_cases hlt
    rw [← bs_cast] at hr' ⊢
    rcases round_cases hw hR with rfl | ⟨b, t, m, idx, hB, ht, rfl⟩
    · exact absurd (final_dummy ho) hr'
    · rw [final_at hB ht ho] at hr'
      by_cases hc : finalBlock m idx = true ∧ t = 24 ∧ o = 0
      · obtain ⟨_, rfl, rfl⟩ := hc
        refine ⟨b, ?_, by rw [Nat.cast_zero, add_zero, show 25 * b + 1 + 24 = 1 + 25 * b + 24 by ring]⟩
        rw [← totalF_blocks, ← blocks_length]
        exact blt hB
      · rw [if_neg hc] at hr'; exact absurd rfl hr'
  · exfalso
    apply hr'
    rw [adv_final, List.getElem?_eq_none]
    · simp
    · rw [rowsOf_length, ← blocks_length]; omega

end
end H2.Kec
