import Verif.Kec.Good
import Verif.Sha.Rows

/-!
# What the lookups and splits say
-/

set_option autoImplicit false
set_option linter.unusedSectionVars false
namespace H2.Kec
open H2.Sha (Z Z_append Z_gate Z_cond Z_gate1 Z_reqEq Z_reqZero Z_reqBool Z_flatMap ind_eq_zero)
variable {p : ℕ} [Fact p.Prime]

/-- The first row of round `R` (round 0 is the dummy round). -/
def bs (h R : ℕ) : ℤ := ((R * h : ℕ) : ℤ)

theorem bs_add (h R d : ℕ) : bs h R + (d : ℤ) * h = bs h (R + d) := by unfold bs; push_cast; ring
theorem bs_succ (h R : ℕ) : bs h R + h = bs h (R + 1) := by unfold bs; push_cast; ring
theorem bs_sub (h R d : ℕ) (hd : d ≤ R) : bs h R - (d : ℤ) * h = bs h (R - d) := by
  unfold bs
  have : (R : ℤ) = ((R - d : ℕ) : ℤ) + d := by omega
  push_cast
  rw [this]; ring

/-- The value of a cell as a natural number. -/
def nv (a : Adv (ZMod p)) (r : ℤ) (c : Cell) : ℕ := (a.val r c).val

theorem cast_nv (a : Adv (ZMod p)) (r : ℤ) (c : Cell) : ((nv a r c : ℕ) : ZMod p) = a.val r c := ZMod.natCast_zmod_val _

theorem decode_partsOf (a : Adv (ZMod p)) (r : ℤ) (sz : List ℕ) (cells : List Cell) :
    decode (partsOf a r sz cells) = ((decN (sz.zip (cells.map (nv a r))) : ℕ) : ZMod p) := by
  rw [← decode_cast]
  congr 1
  unfold partsOf
  rw [show cells.map (a.val r) = (cells.map (nv a r)).map (fun x => ((x : ℕ) : ZMod p)) by
    rw [List.map_map]; exact List.map_congr_left fun c _ => (cast_nv a r c).symm]
  rw [List.zip_map_right]
  rfl

theorem val_of_cast {x : ZMod p} {v : ℕ} (hv : v < p) (h : x = (v : ZMod p)) : x.val = v := by
  rw [h, ZMod.val_natCast, Nat.mod_eq_of_lt hv]

/-- Equal casts of small numbers. -/
theorem nat_eq {x y : ℕ} (hx : x < p) (hy : y < p) (h : (x : ZMod p) = (y : ZMod p)) : x = y := by
  have := congrArg ZMod.val h
  rwa [ZMod.val_natCast, ZMod.val_natCast, Nat.mod_eq_of_lt hx, Nat.mod_eq_of_lt hy] at this

/-! ### Entries of the tables -/

theorem norm_entry {range k : ℕ} (hr : range ≤ 8) {e : ℕ × ℕ} (he : e ∈ normTable range k) :
    e.1 < 8 ^ numBits range k ∧ e.2 < 8 ^ numBits range k ∧ (∀ j, dig e.1 j < range ∨ dig e.1 j = 0) ∧ ∀ j, dig e.2 j = dig e.1 j % 2 := by
  obtain ⟨h1, h2, h3, h4⟩ := mem_tblRows hr (fun d hd => by have := Nat.mod_lt d (show 0 < 2 by norm_num); omega) he
  refine ⟨h1, h2, fun j => ?_, fun j => ?_⟩
  · by_cases hj : j < numBits range k
    · exact .inl (h3 j hj)
    · exact .inr (dig_of_lt h1 (by omega))
  · by_cases hj : j < numBits range k
    · exact h4 j hj
    · rw [dig_of_lt h1 (by omega), dig_of_lt h2 (by omega)]

theorem unpack_entry {e : ℕ × ℕ} (he : e ∈ unpackTable) : e.2 < 256 ∧ e.1 < 8 ^ 8 ∧ ∀ j, dig e.1 j = if j < 8 then e.2 / 2 ^ j % 2 else 0 := by
  obtain ⟨x, hx, rfl⟩ := List.mem_map.mp he
  rw [List.mem_range] at hx
  have hd : ∀ j, dig (packL (byteBits x)) j = if j < 8 then x / 2 ^ j % 2 else 0 := by
    intro j
    rw [dig_packL _ (by
      intro d hd
      obtain ⟨b, _, rfl⟩ := List.mem_map.mp hd
      have := Nat.mod_lt (x / 2 ^ b) (show 0 < 2 by norm_num)
      omega)]
    unfold byteBits
    split
    · rename_i hj
      simp [List.getD_eq_getElem?_getD, hj]
    · rename_i hj
      exact getD_ge (by simp; omega)
  exact ⟨hx, lt_of_dig fun j hj => by rw [hd, if_neg (by omega)], hd⟩

/-- Bits of a byte. -/
theorem byte_bit (x j : ℕ) : x / 2 ^ j % 2 = (x.testBit j).toNat := by
  rw [Nat.testBit_eq_decide_div_mod_eq]
  have := Nat.mod_lt (x / 2 ^ j) (show 0 < 2 by norm_num)
  generalize x / 2 ^ j % 2 = y at *
  rcases (by omega : y = 0 ∨ y = 1) with rfl | rfl <;> rfl

/-- The sizes of the tables. -/
structure Sizes (k : ℕ) : Prop where
  h5 : 1 ≤ ps5 k ∧ ps5 k ≤ 16
  h3 : 1 ≤ ps3 k ∧ ps3 k ≤ 16
  h6 : 1 ≤ ps6 k ∧ ps6 k ≤ 16
  div : 64 % ps5 k = 0
  h4 : ps5 k ≤ numBits 4 k ∧ numBits 4 k ≤ ps5 k + 1
  s3 : (∀ s ∈ (partSizes (ps3 k) 0 false).dropLast, s = ps3 k) ∧ ∀ s ∈ partSizes (ps3 k) 0 false, 1 ≤ s
  sum3 : (partSizes (ps3 k) 0 false).sum = 64
  s6 : partSizes (ps6 k) 1 false = List.replicate (63 / ps6 k) (ps6 k) ++ [1]
  div6 : 63 % ps6 k = 0
  s8 : partSizes 8 0 false = List.replicate 8 8
  s5 : targetPartSizes (ps5 k) = List.replicate (64 / ps5 k) (ps5 k)

theorem Sizes.of {k : ℕ} (h : sizesGood k = true) : Sizes k := by
  simp only [sizesGood, sizesOk, Bool.and_eq_true, decide_eq_true_eq, beq_iff_eq, List.all_eq_true] at h
  obtain ⟨⟨⟨⟨⟨⟨⟨⟨⟨⟨⟨⟨⟨⟨h1, h2⟩, h3⟩, h4⟩, h5⟩, h6⟩, h7⟩, h8⟩, h9⟩, h10⟩, h11⟩, h12⟩, h13⟩, h14⟩, h15⟩ := h
  exact ⟨⟨h1, h2⟩, ⟨h4, h3⟩, ⟨h5, h6⟩, h7, ⟨h9, h8⟩, h10, h11, h12, h13, h14, h15⟩

theorem table_lt {k : ℕ} (hk : Sizes k) {t : Tbl} {e : ℕ × ℕ} (he : e ∈ table k t) : e.1 < 8 ^ 17 ∧ e.2 < 8 ^ 17 := by
  have mono : ∀ {x m : ℕ}, m ≤ 17 → x < 8 ^ m → x < 8 ^ 17 := fun hm hx => lt_of_lt_of_le hx (Nat.pow_le_pow_right (by norm_num) hm)
  cases t with
  | norm3 => obtain ⟨h1, h2, _⟩ := norm_entry (by norm_num) he; have := hk.h3.2; exact ⟨mono (by unfold ps3 at this; omega) h1, mono (by unfold ps3 at this; omega) h2⟩
  | norm4 => obtain ⟨h1, h2, _⟩ := norm_entry (by norm_num) he; have := hk.h4.2; have := hk.h5.2; exact ⟨mono (by omega) h1, mono (by omega) h2⟩
  | norm6 => obtain ⟨h1, h2, _⟩ := norm_entry (by norm_num) he; have := hk.h6.2; exact ⟨mono (by unfold ps6 at this; omega) h1, mono (by unfold ps6 at this; omega) h2⟩
  | unpack => obtain ⟨h1, h2, _⟩ := unpack_entry he; exact ⟨mono (by norm_num) h2, lt_of_lt_of_le h1 (by norm_num)⟩

/-! ### Lookups of a satisfied circuit -/

variable {k h n : ℕ} {a : Adv (ZMod p)}

theorem row_lt {h n R rot : ℕ} (hR : R < 1 + n * 25) (hrot : rot < h) : R * h + rot < numRows h n := by
  unfold numRows
  calc R * h + rot < R * h + h := by omega
    _ = (R + 1) * h := by ring
    _ ≤ _ := Nat.mul_le_mul_right _ hR

theorem val_row (a : Adv (ZMod p)) (h R : ℕ) (c : Cell) : a.val (bs h R) c = a.cell c.1 ((R * h + c.2 : ℕ) : ℤ) := by
  unfold Adv.val bs; push_cast; rfl

theorem trans_mem (hs : KecSat k h n a) (hk : Sizes k) (hp : 8 ^ 82 ≤ p) {t : Tbl} {inp out : List Cell}
    (ho : transOk (layout k h).looks h t inp out = true) {R : ℕ} (hR : R < 1 + n * 25) :
    inp.length = out.length ∧ ∀ i, i < inp.length →
      ((inp.map (nv a (bs h R))).getD i 0, (out.map (nv a (bs h R))).getD i 0) ∈ table k t := by
  unfold transOk at ho
  rw [Bool.and_eq_true, beq_iff_eq, List.all_eq_true] at ho
  refine ⟨ho.1, fun i hi => ?_⟩
  have hi' : i < out.length := by omega
  have hmem : (inp[i], out[i]) ∈ inp.zip out := by
    rw [List.mem_iff_getElem]
    exact ⟨i, by simp; omega, by simp⟩
  have h1 := ho.2 _ hmem
  simp only [Bool.and_eq_true, beq_iff_eq, decide_eq_true_eq, List.contains_iff_mem] at h1
  obtain ⟨⟨hrot, hlt⟩, hlk⟩ := h1
  obtain ⟨e, he, e1, e2⟩ := (hs _ (row_lt hR hlt)).2 _ hlk
  have hb := table_lt hk he
  have h17 : (8 : ℕ) ^ 17 ≤ p := le_trans (Nat.pow_le_pow_right (by norm_num) (by norm_num)) hp
  rw [List.getD_eq_getElem?_getD, List.getD_eq_getElem?_getD, List.getElem?_map, List.getElem?_map, List.getElem?_eq_getElem hi, List.getElem?_eq_getElem hi']
  simp only [Option.map_some, Option.getD_some]
  have v1 : nv a (bs h R) inp[i] = e.1 := by
    unfold nv
    exact val_of_cast (by omega) (by rw [val_row]; exact e1)
  have v2 : nv a (bs h R) out[i] = e.2 := by
    unfold nv
    exact val_of_cast (by omega) (by rw [val_row, ← hrot]; exact e2)
  rw [v1, v2]
  exact he

theorem getD_lt {α : Type} {l : List α} {i : ℕ} {d : α} (h : i < l.length) : l.getD i d = l[i] := by simp [h]
theorem getD_map {α β : Type} {l : List α} (f : α → β) {i : ℕ} (hi : i < l.length) (d : β) (d' : α) : (l.map f).getD i d = f (l.getD i d') := by
  simp [hi]

theorem mem_of_getD {l : List ℕ} {v : ℕ} (h : v ∈ l) : ∃ i, i < l.length ∧ l.getD i 0 = v := by
  obtain ⟨i, hi, rfl⟩ := List.mem_iff_getElem.mp h
  exact ⟨i, hi, by simp [hi]⟩

/-- A split followed by a normalisation: the digits of the output are the parities of the digits of the input. -/
theorem norm_step (hs : KecSat k h n a) (hk : Sizes k) (hp : 8 ^ 82 ≤ p) {t : Tbl} {range ps : ℕ} (ht : table k t = normTable range k) (hr : range ≤ 8)
    (hps : numBits range k = ps) (hps1 : 1 ≤ ps) {sz : List ℕ} (hsz : ∀ s ∈ sz.dropLast, s = ps) (hsz1 : ∀ s ∈ sz, 1 ≤ s) (hsum : sz.sum = 64)
    {inp out : List Cell} (hl : inp.length = sz.length)
    (ho : transOk (layout k h).looks h t inp out = true) {R : ℕ} (hR : R < 1 + n * 25) {X : ℕ} (hX : X < 8 ^ 64)
    (heq : decode (partsOf a (bs h R) sz inp) = ((X : ℕ) : ZMod p)) :
    decN (sz.zip (inp.map (nv a (bs h R)))) = X ∧ (∀ j, dig (decN (sz.zip (out.map (nv a (bs h R))))) j = dig X j % 2) ∧
      out.length = sz.length ∧ ∀ w ∈ out.map (nv a (bs h R)), w < 8 ^ ps := by
  obtain ⟨hlen, hmem⟩ := trans_mem hs hk hp ho hR
  set vs := inp.map (nv a (bs h R)) with hvs
  set ws := out.map (nv a (bs h R)) with hws
  have lv : vs.length = inp.length := by simp [vs]
  have lw : ws.length = out.length := by simp [ws]
  have hent : ∀ i, i < inp.length → _ := fun i hi => norm_entry hr (ht ▸ hmem i hi)
  have hv : ∀ v ∈ vs, v < 8 ^ ps := by
    intro v hv
    obtain ⟨i, hi, rfl⟩ := mem_of_getD hv
    have := (hent i (by omega)).1
    rwa [hps] at this
  have hw : ∀ w ∈ ws, w < 8 ^ ps := by
    intro w hw
    obtain ⟨i, hi, rfl⟩ := mem_of_getD hw
    have := (hent i (by omega)).2.1
    rwa [hps] at this
  have h17 : ∀ v ∈ vs, v < 8 ^ 17 := by
    intro v hv
    obtain ⟨i, hi, rfl⟩ := mem_of_getD hv
    exact (table_lt hk (hmem i (by omega))).1
  have hbound := decN_le (parts := sz.zip vs) (M := 17) (fun q hq => h17 _ (List.of_mem_zip hq).2) (fun q hq => hsz1 _ (List.of_mem_zip hq).1)
  have hfst : (sz.zip vs).map (·.1) = sz := List.map_fst_zip (by omega)
  rw [show (sz.zip vs).map (fun x => x.1) = sz from hfst, hsum] at hbound
  have h81 : (8 : ℕ) ^ (64 + 17) < p := lt_of_lt_of_le (Nat.pow_lt_pow_right (by norm_num) (by norm_num)) hp
  have h64 : (8 : ℕ) ^ 64 ≤ 8 ^ (64 + 17) := Nat.pow_le_pow_right (by norm_num) (by norm_num)
  have hXe : decN (sz.zip vs) = X := by
    refine nat_eq (p := p) ?_ ?_ ?_
    · omega
    · omega
    · rw [← heq, decode_partsOf]
  refine ⟨hXe, fun j => ?_, by omega, hw⟩
  rw [← hXe]
  refine dig_decZ_map hps1 (· % 2) rfl (by omega) (by omega) hsz hv hw (fun i hi j _ => (hent i (by omega)).2.2.2 j) j

/-! ### Bytes of a lane -/

theorem leLane_bit (l : List Byte) (i b : ℕ) (hb : b < 64) : (leLane l i).getLsbD b = (l.getD (8 * i + b / 8) 0).getLsbD (b % 8) := by
  obtain ⟨q, j, hq, hj, rfl⟩ : ∃ q j, q < 8 ∧ j < 8 ∧ b = 8 * q + j := ⟨b / 8, b % 8, by omega, by omega, by omega⟩
  rw [show (8 * q + j) / 8 = q by omega, show (8 * q + j) % 8 = j by omega]
  unfold leLane
  simp only [BitVec.getLsbD_append]
  rcases (by omega : q = 0 ∨ q = 1 ∨ q = 2 ∨ q = 3 ∨ q = 4 ∨ q = 5 ∨ q = 6 ∨ q = 7) with rfl | rfl | rfl | rfl | rfl | rfl | rfl | rfl <;>
    simp (disch := omega) only [ite_true, ite_false, if_neg, if_pos, Nat.add_sub_cancel_left] <;>
    congr 1 <;> first | rfl | omega

/-- The byte of the table. -/
def toByte (x : ℕ) : Byte := BitVec.ofNat 8 x

/-- A split into bytes. -/
theorem unpack_step (hs : KecSat k h n a) (hk : Sizes k) (hp : 8 ^ 82 ≤ p) {inp out : List Cell} (hl : inp.length = 8)
    (ho : transOk (layout k h).looks h .unpack inp out = true) {R : ℕ} (hR : R < 1 + n * 25) {x : ZMod p}
    (heq : decode (partsOf a (bs h R) (partSizes 8 0 false) inp) = x) :
    out.length = 8 ∧ ∃ bytes : List Byte, bytes.length = 8 ∧ out.map (a.val (bs h R)) = bytes.map (fun b => ((b.toNat : ℕ) : ZMod p)) ∧
      x = ((spread (leLane bytes 0) : ℕ) : ZMod p) := by
  obtain ⟨hlen, hmem⟩ := trans_mem hs hk hp ho hR
  set vs := inp.map (nv a (bs h R)) with hvs
  set ws := out.map (nv a (bs h R)) with hws
  have lv : vs.length = inp.length := by simp [vs]
  have lw : ws.length = out.length := by simp [ws]
  have hent : ∀ i, i < inp.length → _ := fun i hi => unpack_entry (hmem i hi)
  refine ⟨by omega, ws.map toByte, by simp; omega, ?_, ?_⟩
  · rw [List.map_map]
    refine List.ext_getElem (by simp; omega) fun i h1 h2 => ?_
    simp only [List.length_map] at h1
    have hi : i < ws.length := by omega
    have : ws.getD i 0 < 256 := (hent i (by omega)).1
    rw [getD_lt hi] at this
    rw [List.getElem_map, List.getElem_map, Function.comp_apply, toByte, BitVec.toNat_ofNat, Nat.mod_eq_of_lt this]
    simp only [ws, List.getElem_map, cast_nv]
  · rw [← heq, decode_partsOf]
    congr 1
    refine eq_spread fun b => ?_
    rw [hk.s8, dig_decZ (ps := 8) (by norm_num) (by simp; omega) (by simp) (by
      intro v hv
      obtain ⟨i, hi, rfl⟩ := mem_of_getD hv
      exact (hent i (by rw [List.length_map] at hi; omega)).2.1)]
    by_cases hb : b < 64
    · rw [leLane_bit _ _ _ hb, (hent (b / 8) (by omega)).2.2, if_pos (Nat.mod_lt _ (by norm_num)), mul_zero, zero_add, byte_bit]
      have hi : b / 8 < ws.length := by omega
      rw [getD_map toByte hi 0 0, toByte, BitVec.getLsbD_ofNat]
      simp [Nat.mod_lt]
    · rw [getD_ge (by rw [List.length_map]; omega), dig_zero_left, BitVec.getLsbD_of_ge _ _ (by omega)]; rfl

end H2.Kec
