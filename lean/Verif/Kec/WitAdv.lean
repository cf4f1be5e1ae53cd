import Verif.Kec.WitMsg
import Verif.Kec.Forge
import Verif.Kec.SoundOut

/-!
# The advice columns assigned by the witness generation
-/

set_option autoImplicit false
set_option linter.unusedSectionVars false
namespace H2.Kec
open H2.Sha (Z Z_append Z_gate Z_cond Z_gate1 Z_reqEq Z_reqZero Z_reqBool Z_flatMap ind_eq_zero ind notE selE sumE andE
  fromBytes reqEq reqZero reqBool gate cond)

attribute [local irreducible] layout numBits wordParts

/-! ### States -/

section
variable {k h : ℕ} (hw : WitL k h) {m : List Byte}
include hw

theorem absorbV_SOk {idx : ℕ} (hi : idx < numBlocks m) {s : List ℕ} (hs : SOk s) : SOk (absorbV m idx s) := by
  unfold absorbV
  refine SOk_map fun q hq => ?_
  split
  · exact (hs.dw _ _).xor (wordV_DW hi (by omega))
  · exact hs.dw _ _

theorem zero_SOk : SOk (List.replicate 25 0) := by
  refine ⟨by simp, fun i j => ?_⟩
  rw [show sget (List.replicate 25 0) i j = 0 by
    unfold sget
    by_cases hq : 5 * i + j < 25
    · rw [List.getD_eq_getElem _ _ (by rw [List.length_replicate]; exact hq), List.getElem_replicate]
    · rw [getD_ge (by rw [List.length_replicate]; omega)]]
  exact DW_zero 1

theorem blockSt_SOk {idx : ℕ} (hi : idx ≤ numBlocks m) : SOk (blockSt k (layout k h) m idx) := by
  induction idx with
  | zero => exact zero_SOk hw
  | succ idx ih => exact roundsV_SOk hw (absorbV_SOk hw (by omega) (ih (by omega))) 24

theorem stV_SOk {idx : ℕ} (hi : idx < numBlocks m) (t : ℕ) : SOk (stV k (layout k h) m idx t) :=
  roundsV_SOk hw (absorbV_SOk hw hi (blockSt_SOk hw (by omega))) t

theorem absorbAt_AbOk {idx : ℕ} (hi : idx < numBlocks m) (t : ℕ) : AbOk (absorbAt k (layout k h) m idx t) := by
  unfold absorbAt
  split
  · rename_i ht
    exact ⟨(blockSt_SOk hw (by omega)).dw _ _, wordV_DW hi ht, rfl⟩
  · exact ⟨DW_zero 1, DW_zero 1, rfl⟩

end

/-! ### Blocks -/

/-- The blocks of a list of messages: (message, number of the block). -/
def blocks (ms : List (List Byte)) : List (List Byte × ℕ) := ms.flatMap fun m => (List.range (numBlocks m)).map fun i => (m, i)

theorem blocks_length (ms : List (List Byte)) : (blocks ms).length = (ms.map numBlocks).sum := by
  induction ms with
  | nil => rfl
  | cons m ms ih =>
    have : blocks (m :: ms) = (List.range (numBlocks m)).map (fun i => (m, i)) ++ blocks ms := by unfold blocks; rw [List.flatMap_cons]
    rw [this, List.length_append, ih]
    simp

/-- The blocks of every message are in order, one message after the other. -/
structure Chain (B : List (List Byte × ℕ)) : Prop where
  head : ∀ (m : List Byte) (idx : ℕ), B[0]? = some (m, idx) → idx = 0
  lt : ∀ (b : ℕ) (m : List Byte) (idx : ℕ), B[b]? = some (m, idx) → idx < numBlocks m
  fin : ∀ (b : ℕ) (m : List Byte) (idx : ℕ), B[b]? = some (m, idx) → finalBlock m idx = true → ∀ m' idx', B[b + 1]? = some (m', idx') → idx' = 0
  mid : ∀ (b : ℕ) (m : List Byte) (idx : ℕ), B[b]? = some (m, idx) → finalBlock m idx = false → B[b + 1]? = some (m, idx + 1)

theorem numBlocks_pos (m : List Byte) : 1 ≤ numBlocks m := by rw [numBlocks_eq]; omega

theorem blocks_chain (ms : List (List Byte)) : Chain (blocks ms) := by
  induction ms with
  | nil => constructor <;> simp [blocks]
  | cons m ms ih =>
    have e : blocks (m :: ms) = (List.range (numBlocks m)).map (fun i => (m, i)) ++ blocks ms := by unfold blocks; rw [List.flatMap_cons]
    have hN := numBlocks_pos m
    have lo : ∀ b, b < numBlocks m → (blocks (m :: ms))[b]? = some (m, b) := by
      intro b hb
      rw [e, List.getElem?_append_left (by simpa using hb)]
      simp [hb]
    have hi : ∀ b, (blocks (m :: ms))[numBlocks m + b]? = (blocks ms)[b]? := by
      intro b
      rw [e, List.getElem?_append_right (by simp)]
      simp
    have hf : ∀ b, finalBlock m b = true ↔ b + 1 = numBlocks m := by
      intro b
      rw [finalBlock_iff, numBlocks_eq]
      omega
    refine ⟨fun m' idx hm => ?_, fun b m' idx hm => ?_, fun b m' idx hm hfin m'' idx'' hm' => ?_, fun b m' idx hm hfin => ?_⟩
    · rw [lo 0 (by omega)] at hm
      simp only [Option.some.injEq, Prod.mk.injEq] at hm
      exact hm.2.symm
    · by_cases hb : b < numBlocks m
      · rw [lo b hb] at hm
        simp only [Option.some.injEq, Prod.mk.injEq] at hm
        rw [← hm.1, ← hm.2]; exact hb
      · obtain ⟨d, rfl⟩ := Nat.exists_eq_add_of_le (not_lt.mp hb)
        rw [hi] at hm
        exact ih.lt d m' idx hm
    · by_cases hb : b < numBlocks m
      · rw [lo b hb] at hm
        simp only [Option.some.injEq, Prod.mk.injEq] at hm
        rw [← hm.1, ← hm.2, hf] at hfin
        rw [hfin, show numBlocks m = numBlocks m + 0 by rfl, hi] at hm'
        exact ih.head _ _ hm'
      · obtain ⟨d, rfl⟩ := Nat.exists_eq_add_of_le (not_lt.mp hb)
        rw [hi] at hm
        rw [show numBlocks m + d + 1 = numBlocks m + (d + 1) by omega, hi] at hm'
        exact ih.fin d m' idx hm hfin _ _ hm'
    · by_cases hb : b < numBlocks m
      · rw [lo b hb] at hm
        simp only [Option.some.injEq, Prod.mk.injEq] at hm
        obtain ⟨rfl, rfl⟩ := hm
        have : ¬ b + 1 = numBlocks m := fun hc => by rw [(hf b).mpr hc] at hfin; exact absurd hfin (by simp)
        exact lo (b + 1) (by omega)
      · obtain ⟨d, rfl⟩ := Nat.exists_eq_add_of_le (not_lt.mp hb)
        rw [hi] at hm
        rw [show numBlocks m + d + 1 = numBlocks m + (d + 1) by omega, hi]
        exact ih.mid d m' idx hm hfin

/-! ### Rows -/

/-- The rows of the messages (without padding to the capacity). -/
def rowsOf (k h : ℕ) (ms : List (List Byte)) : List KRow := (List.range h).map dummyRow ++ ms.flatMap (keccakRows k h)

/-- The rows of one block. -/
def blockRows (k h : ℕ) (B : List Byte × ℕ) : List KRow := (List.range 25).flatMap fun t => (List.range h).map fun o => keccakRow k h B.1 B.2 t o

theorem rows_blocks (k h : ℕ) (ms : List (List Byte)) : ms.flatMap (keccakRows k h) = (blocks ms).flatMap (blockRows k h) := by
  unfold blocks keccakRows blockRows
  rw [List.flatMap_assoc]
  refine List.flatMap_congr fun m _ => ?_
  rw [List.flatMap_map]

theorem blockRows_length (k h : ℕ) (B : List Byte × ℕ) : (blockRows k h B).length = 25 * h := by
  unfold blockRows
  rw [length_flatMap_const _ _ (c := h) (by simp), List.length_range]

theorem rowsOf_length (k h : ℕ) (ms : List (List Byte)) : (rowsOf k h ms).length = numRows h (ms.map numBlocks).sum := by
  unfold rowsOf numRows
  rw [List.length_append, rows_blocks, length_flatMap_const _ _ (c := 25 * h) (fun B _ => blockRows_length k h B), blocks_length]
  simp only [List.length_map, List.length_range]
  ring

theorem rows_dummy {k h : ℕ} {ms : List (List Byte)} {o : ℕ} (ho : o < h) : (rowsOf k h ms)[o]? = some (dummyRow o) := by
  unfold rowsOf
  rw [List.getElem?_append_left (by simpa using ho)]
  simp [ho]

theorem rows_at {k h : ℕ} {ms : List (List Byte)} {b t o : ℕ} (ht : t < 25) (ho : o < h) :
    (rowsOf k h ms)[(25 * b + 1 + t) * h + o]? = ((blocks ms)[b]?).map fun B => keccakRow k h B.1 B.2 t o := by
  unfold rowsOf
  have e : (25 * b + 1 + t) * h + o = h + (b * (25 * h) + (t * h + o)) := by ring
  rw [e, List.getElem?_append_right (by simp), rows_blocks]
  simp only [List.length_map, List.length_range, Nat.add_sub_cancel_left]
  have hlt : t * h + o < 25 * h := by
    have : t * h ≤ 24 * h := Nat.mul_le_mul_right _ (by omega)
    omega
  rw [getElem?_flatMap_const _ _ (fun B _ => blockRows_length k h B) _ _ hlt]
  cases (blocks ms)[b]? with
  | none => rfl
  | some B =>
    simp only [Option.bind_some, Option.map_some]
    unfold blockRows
    rw [getElem?_flatMap_const _ _ (by simp) _ _ ho]
    simp [ht, ho]

/-! ### Advice -/

section
variable {F : Type} [Field F] {k h : ℕ} {ms : List (List Byte)}

/-- A column of the advice. -/
theorem adv_col (rows : List KRow) (f : KRow → ℕ) (r : ℕ) :
    (if (0 : ℤ) ≤ (r : ℤ) then ((((rows[((r : ℤ)).toNat]?).map f).getD 0 : ℕ) : F) else 0) = ((((rows[r]?).map f).getD 0 : ℕ) : F) := by
  rw [if_pos (by omega), Int.toNat_natCast]

theorem adv_cell (rows : List KRow) (c r : ℕ) : (advOf rows : Adv F).cell c (r : ℤ) = ((((rows[r]?).map fun x => x.cell c).getD 0 : ℕ) : F) :=
  adv_col rows _ r
theorem adv_final (rows : List KRow) (r : ℕ) : (advOf rows : Adv F).isFinal (r : ℤ) = ((((rows[r]?).map fun x => x.isFinal.toNat).getD 0 : ℕ) : F) :=
  adv_col rows _ r
theorem adv_left (rows : List KRow) (r : ℕ) : (advOf rows : Adv F).bytesLeft (r : ℤ) = ((((rows[r]?).map KRow.bytesLeft).getD 0 : ℕ) : F) :=
  adv_col rows _ r
theorem adv_word (rows : List KRow) (r : ℕ) : (advOf rows : Adv F).wordValue (r : ℤ) = ((((rows[r]?).map KRow.wordValue).getD 0 : ℕ) : F) :=
  adv_col rows _ r
theorem adv_lo (rows : List KRow) (r : ℕ) : (advOf rows : Adv F).hashLo (r : ℤ) = ((((rows[r]?).map KRow.hashLo).getD 0 : ℕ) : F) :=
  adv_col rows _ r
theorem adv_hi (rows : List KRow) (r : ℕ) : (advOf rows : Adv F).hashHi (r : ℤ) = ((((rows[r]?).map KRow.hashHi).getD 0 : ℕ) : F) :=
  adv_col rows _ r

theorem bs_cast (R o : ℕ) : bs h R + (o : ℤ) = ((R * h + o : ℕ) : ℤ) := by unfold bs; push_cast; ring

/-- The value of a column in row `o` of round `t` of block `b`. -/
theorem col_block {b t o : ℕ} {m : List Byte} {idx : ℕ} (hB : (blocks ms)[b]? = some (m, idx)) (ht : t < 25) (ho : o < h) (f : KRow → ℕ) :
    ((((rowsOf k h ms)[(25 * b + 1 + t) * h + o]?).map f).getD 0) = f (keccakRow k h m idx t o) := by
  rw [rows_at ht ho, hB]; rfl

theorem col_none {b t o : ℕ} (hB : (blocks ms)[b]? = none) (ht : t < 25) (ho : o < h) (f : KRow → ℕ) :
    ((((rowsOf k h ms)[(25 * b + 1 + t) * h + o]?).map f).getD 0) = 0 := by
  rw [rows_at ht ho, hB]; rfl

theorem cell_block {b t o : ℕ} {m : List Byte} {idx : ℕ} (hB : (blocks ms)[b]? = some (m, idx)) (ht : t < 25) (ho : o < h) (c : ℕ) :
    (advOf (rowsOf k h ms) : Adv F).cell c (bs h (25 * b + 1 + t) + o) = ((rget (roundReg k (layout k h) m idx t) (c, o) : ℕ) : F) := by
  rw [bs_cast]
  rw [adv_cell, col_block hB ht ho]
  rfl

theorem cell_none {b t o : ℕ} (hB : (blocks ms)[b]? = none) (ht : t < 25) (ho : o < h) (c : ℕ) :
    (advOf (rowsOf k h ms) : Adv F).cell c (bs h (25 * b + 1 + t) + o) = 0 := by
  rw [bs_cast]
  rw [adv_cell, col_none hB ht ho]
  simp

theorem cell_dummy {o : ℕ} (ho : o < h) (c : ℕ) : (advOf (rowsOf k h ms) : Adv F).cell c (bs h 0 + o) = 0 := by
  rw [bs_cast, Nat.zero_mul, Nat.zero_add]
  rw [adv_cell, rows_dummy ho]
  simp [dummyRow]

theorem val_block {b t : ℕ} {m : List Byte} {idx : ℕ} (hB : (blocks ms)[b]? = some (m, idx)) (ht : t < 25) (c : Cell) (hc : c.2 < h) :
    (advOf (rowsOf k h ms) : Adv F).val (bs h (25 * b + 1 + t)) c = ((rget (roundReg k (layout k h) m idx t) c : ℕ) : F) :=
  cell_block hB ht hc c.1

theorem val_none {b t : ℕ} (hB : (blocks ms)[b]? = none) (ht : t < 25) (c : Cell) (hc : c.2 < h) :
    (advOf (rowsOf k h ms) : Adv F).val (bs h (25 * b + 1 + t)) c = 0 := cell_none hB ht hc c.1

theorem val_dummy (c : Cell) (hc : c.2 < h) : (advOf (rowsOf k h ms) : Adv F).val (bs h 0) c = 0 := cell_dummy hc c.1

theorem final_at {b t o : ℕ} {m : List Byte} {idx : ℕ} (hB : (blocks ms)[b]? = some (m, idx)) (ht : t < 25) (ho : o < h) :
    (advOf (rowsOf k h ms) : Adv F).isFinal (bs h (25 * b + 1 + t) + o) = if finalBlock m idx = true ∧ t = 24 ∧ o = 0 then 1 else 0 := by
  rw [bs_cast]
  rw [adv_final, col_block hB ht ho]
  show ((Bool.toNat (finalBlock m idx && t == 24 && o == 0) : ℕ) : F) = _
  have e : (finalBlock m idx && t == 24 && o == 0) = decide (finalBlock m idx = true ∧ t = 24 ∧ o = 0) := by
    rw [Bool.eq_iff_iff]
    simp [and_assoc]
  rw [e]
  split <;> rename_i hc <;> simp [hc]

theorem final_dummy {o : ℕ} (ho : o < h) : (advOf (rowsOf k h ms) : Adv F).isFinal (bs h 0 + o) = 0 := by
  rw [bs_cast, Nat.zero_mul, Nat.zero_add]
  rw [adv_final, rows_dummy ho]
  simp [dummyRow]

theorem left_dummy (hh : 1 ≤ h) : (advOf (rowsOf k h ms) : Adv F).bytesLeft (bs h 0) = 0 := by
  rw [show bs h 0 = ((0 : ℕ) : ℤ) by simp [bs]]
  rw [adv_left, rows_dummy (by omega)]
  simp [dummyRow]

theorem bs_nat (R : ℕ) : bs h R = ((R * h + 0 : ℕ) : ℤ) := by simp [bs]

theorem left_at (hh : 1 ≤ h) {b t : ℕ} {m : List Byte} {idx : ℕ} (hB : (blocks ms)[b]? = some (m, idx)) (ht : t < 25) :
    (advOf (rowsOf k h ms) : Adv F).bytesLeft (bs h (25 * b + 1 + t)) = ((m.length - (136 * idx + 8 * min t 17) : ℕ) : F) := by
  rw [bs_nat]
  rw [adv_left, col_block hB ht (by omega)]
  show ((m.length - ((if t < 17 then t * 8 + min 0 7 else 136) + idx * 136) : ℕ) : F) = _
  congr 2
  split <;> omega

theorem word_at (hh : 1 ≤ h) {b t : ℕ} {m : List Byte} {idx : ℕ} (hB : (blocks ms)[b]? = some (m, idx)) (ht : t < 17) :
    (advOf (rowsOf k h ms) : Adv F).wordValue (bs h (25 * b + 1 + t)) = ((leNum (((m.drop (136 * idx + 8 * t)).take 8).map BitVec.toNat) : ℕ) : F) := by
  rw [bs_nat]
  rw [adv_word, col_block hB (by omega) (by omega)]
  show ((if t < 17 ∧ 0 = 0 then leNum (((m.drop ((idx * 17 + t) * 8)).take 8).map BitVec.toNat) else 0 : ℕ) : F) = _
  rw [if_pos ⟨ht, rfl⟩, show (idx * 17 + t) * 8 = 136 * idx + 8 * t by ring]

theorem hash_at (hh : 1 ≤ h) {b t : ℕ} {m : List Byte} {idx : ℕ} (hB : (blocks ms)[b]? = some (m, idx)) (ht : t < 25) (hf : finalBlock m idx = true) :
    (advOf (rowsOf k h ms) : Adv F).hashLo (bs h (25 * b + 1 + t)) = ((leNum ((hashLe k (layout k h) m idx).take 16) : ℕ) : F) ∧
    (advOf (rowsOf k h ms) : Adv F).hashHi (bs h (25 * b + 1 + t)) = ((leNum ((hashLe k (layout k h) m idx).drop 16) : ℕ) : F) := by
  rw [bs_nat]
  constructor
  · rw [adv_lo, col_block hB ht (by omega)]
    show ((if finalBlock m idx then _ else 0 : ℕ) : F) = _
    rw [if_pos hf]
  · rw [adv_hi, col_block hB ht (by omega)]
    show ((if finalBlock m idx then _ else 0 : ℕ) : F) = _
    rw [if_pos hf]

end

/-! ### What the cells contain -/

section
variable {F : Type} [Field F] {k h : ℕ} (hw : WitL k h) {ms : List (List Byte)}
  {b : ℕ} {m : List Byte} {idx : ℕ} (hB : (blocks ms)[b]? = some (m, idx)) {t : ℕ} (ht : t < 25)
include hw hB ht

theorem idx_lt : idx < numBlocks m := (blocks_chain ms).lt b m idx hB

theorem round_pre : PreV k (layout k h) (rget (roundReg k (layout k h) m idx t)) (stV k (layout k h) m idx t) (absorbAt k (layout k h) m idx t) := by
  rw [roundReg_eq]
  exact reg_pre hw (stV_SOk hw (idx_lt hw hB ht) t) _ _ _ _

theorem state_at {i j : ℕ} (hi : i < 5) (hj : j < 5) :
    sAt (layout k h) (advOf (rowsOf k h ms) : Adv F) (bs h (25 * b + 1 + t)) i j = ((sget (stV k (layout k h) m idx t) i j : ℕ) : F) :=
  sAt_cast hw (val_block hB ht) (round_pre hw hB ht).st hi hj

theorem absorb_at : (advOf (rowsOf k h ms) : Adv F).val (bs h (25 * b + 1 + t)) (layout k h).absorbFrom = (((absorbAt k (layout k h) m idx t).frm : ℕ) : F) ∧
    (advOf (rowsOf k h ms) : Adv F).val (bs h (25 * b + 1 + t)) (layout k h).absorbData = (((absorbAt k (layout k h) m idx t).data : ℕ) : F) ∧
    (advOf (rowsOf k h ms) : Adv F).val (bs h (25 * b + 1 + t)) (layout k h).absorbResult = (((absorbAt k (layout k h) m idx t).result : ℕ) : F) := by
  have hp := round_pre hw hB ht
  rw [val_block hB ht _ (cells_lt hw (by simp [allCells, preCells])), val_block hB ht _ (cells_lt hw (by simp [allCells, preCells])),
    val_block hB ht _ (cells_lt hw (by simp [allCells, preCells])), hp.frm, hp.data, hp.result]
  exact ⟨rfl, rfl, rfl⟩

theorem pad_mem {i : ℕ} (hi : i < 8) : (layout k h).paddings.getD i (0, 0) ∈ (layout k h).paddings := by
  rw [List.getD_eq_getElem _ _ (by rw [hw.lpad]; exact hi)]; exact List.getElem_mem _

theorem pad_at {i : ℕ} (hi : i < 8) : padAt (layout k h) (advOf (rowsOf k h ms) : Adv F) (bs h (25 * b + 1 + t)) i =
    if t < 17 ∧ m.length ≤ 136 * idx + 8 * t + i then 1 else 0 := by
  have hidx := idx_lt hw hB ht
  have hm := pad_mem hw hB ht hi
  unfold padAt
  rw [val_block hB ht _ (cells_lt hw (by simp only [allCells, preCells, List.mem_append]; left; left; right; exact hm)), roundReg_eq]
  by_cases h17 : t < 17
  · have hpads : (padsAt m idx t).length = 8 := by simp [padsAt, h17]
    have := reg_pads hw (stV_SOk hw hidx t) (absorbAt k (layout k h) m idx t) (padsAt m idx t) t (sget (stV k (layout k h) m idx 24) (23 - t) 0) hpads
    have := congrArg (fun l : List ℕ => l.getD i 0) this
    beta_reduce at this
    rw [List.getD_eq_getElem _ _ (by rw [List.length_map, hw.lpad]; exact hi), List.getElem_map] at this
    rw [List.getD_eq_getElem _ _ (by rw [hw.lpad]; exact hi), this]
    have e : (padsAt m idx t).getD i 0 = if finalBlock m idx = true ∧ m.length % 136 ≤ t * 8 + i then 1 else 0 := by
      unfold padsAt
      rw [if_pos h17]
      simp [List.getD_eq_getElem?_getD, hi]
    rw [e]
    rw [numBlocks_eq] at hidx
    have : (finalBlock m idx = true ∧ m.length % 136 ≤ t * 8 + i) ↔ (t < 17 ∧ m.length ≤ 136 * idx + 8 * t + i) := by
      rw [finalBlock_iff]; omega
    simp only [this]
    split <;> simp
  · have e : padsAt m idx t = [] := by simp [padsAt, h17]
    rw [e, reg_pads_nil hw (stV_SOk hw hidx t) _ _ _ hm, if_neg (by omega)]
    simp

theorem byte_at (h17 : t < 17) {i : ℕ} (hi : i < 8) :
    byteAt (layout k h) (advOf (rowsOf k h ms) : Adv F) (bs h (25 * b + 1 + t)) i = ((padByte m (136 * idx + 8 * t + i) : ℕ) : F) := by
  have hidx := idx_lt hw hB ht
  have hp := (round_pre hw hB ht).bytes
  have hd : (absorbAt k (layout k h) m idx t).data = wordV m idx t := by unfold absorbAt; rw [if_pos h17]
  rw [hd, word_bytes hidx h17] at hp
  unfold byteAt
  have hl : i < (layout k h).inputBytes.length := by rw [hw.lib]; exact hi
  rw [val_block hB ht _ (cells_lt hw (by
    rw [List.getD_eq_getElem _ _ hl]
    simp only [allCells, preCells, List.mem_append]
    left; left; left; right; exact List.getElem_mem _))]
  congr 1
  have := congrArg (fun l : List ℕ => l[i]?) hp
  simp only [List.getElem?_map, List.getElem?_range hi, Option.map_some] at this
  rw [List.getElem?_eq_getElem hl, Option.map_some, Option.some.injEq] at this
  rw [List.getD_eq_getElem _ _ hl, this]

theorem squeeze_at (h20 : 20 ≤ t) (h24 : t < 24) :
    (advOf (rowsOf k h ms) : Adv F).val (bs h (25 * b + 1 + t)) (layout k h).squeezeFrom = ((sget (stV k (layout k h) m idx 24) (23 - t) 0 : ℕ) : F) ∧
    (layout k h).squeezeBytes.map (fun c => (advOf (rowsOf k h ms) : Adv F).val (bs h (25 * b + 1 + t)) c) =
      ((List.range 8).map fun i => toByteV ((List.range 8).map fun j => dig (sget (stV k (layout k h) m idx 24) (23 - t) 0) (8 * i + j))).map
        fun x => ((x : ℕ) : F) := by
  have hidx := idx_lt hw hB ht
  have hq := reg_sq hw (stV_SOk hw hidx t) (absorbAt k (layout k h) m idx t) (padsAt m idx t) t (sget (stV k (layout k h) m idx 24) (23 - t) 0) h20 h24
  rw [← roundReg_eq] at hq
  constructor
  · rw [val_block hB ht _ (cells_lt hw (by simp [allCells, sqCells])), hq.frm]
  · rw [List.map_congr_left fun c hc => val_block hB ht c (cells_lt hw (by simp [allCells, sqCells, hc])), ← split8_bytes ((stV_SOk hw hidx 24).dw _ _),
      ← hq.bytes, List.map_map]
    rfl

end
end H2.Kec
