import Verif.Sha.Witness

/-!
# Bit-level facts about the witness generation
-/

set_option autoImplicit false
namespace H2.Sha

/-- The bits of a word, most significant first. -/
def bl {n : ℕ} (x : BitVec n) : List Bool := (List.range n).map x.getMsbD

@[simp] theorem bl_length {n : ℕ} (x : BitVec n) : (bl x).length = n := by simp [bl]

theorem bl_getElem? {n : ℕ} (x : BitVec n) (i : ℕ) : (bl x)[i]? = if i < n then some (x.getMsbD i) else none := by
  simp only [bl, List.getElem?_map, List.getElem?_range]
  split <;> simp_all

theorem bl_getD {n : ℕ} (x : BitVec n) (i : ℕ) : (bl x).getD i false = x.getMsbD i := by
  simp only [List.getD, bl_getElem?]
  split
  · rfl
  · simp only [Option.getD_none, BitVec.getMsbD]; simp_all

theorem bl_append {n m : ℕ} (x : BitVec n) (y : BitVec m) : bl (x ++ y) = bl x ++ bl y := by
  refine List.ext_getElem? fun i => ?_
  rw [List.getElem?_append, bl_getElem?, bl_getElem?, bl_getElem?, bl_length, BitVec.getMsbD_append]
  by_cases h : i < n
  · simp [h, show i < n + m by omega]
  · simp only [h, if_false]
    by_cases h2 : i < n + m
    · simp [h, h2, show i - n < m by omega, show ¬ n > i by omega]
    · simp [h2, show ¬ i - n < m by omega]

theorem bl_cons {n : ℕ} (b : Bool) (x : BitVec n) : bl (BitVec.cons b x) = b :: bl x := by
  refine List.ext_getElem? fun i => ?_
  cases i with
  | zero => rw [bl_getElem?]; simp
  | succ i => simp [bl_getElem?]

theorem bl_drop {n : ℕ} (m : ℕ) (x : BitVec (m + n)) : (bl x).drop m = bl (x.setWidth n) := by
  refine List.ext_getElem? fun i => ?_
  rw [List.getElem?_drop, bl_getElem?, bl_getElem?]
  by_cases h : i < n
  · rw [if_pos (by omega), if_pos h]
    congr 1
    simp only [BitVec.getMsbD, BitVec.getLsbD_setWidth]
    rw [show m + n - 1 - (m + i) = n - 1 - i by omega]
    simp [h, show n - 1 - i < n by omega]
  · rw [if_neg (by omega), if_neg h]

theorem intoBeBits_nil : intoBeBits [] = [] := rfl
theorem intoBeBits_cons (b : Byte) (l : List Byte) : intoBeBits (b :: l) = bl b ++ intoBeBits l := by
  unfold intoBeBits
  rw [List.flatMap_cons]
  congr 1
theorem intoBeBits_append (l l' : List Byte) : intoBeBits (l ++ l') = intoBeBits l ++ intoBeBits l' := by
  unfold intoBeBits; rw [List.flatMap_append]
theorem intoBeBits_length (l : List Byte) : (intoBeBits l).length = 8 * l.length := by
  induction l with
  | nil => rfl
  | cons b l ih => rw [intoBeBits_cons, List.length_append, ih, bl_length, List.length_cons]; ring
theorem intoBeBits_drop (l : List Byte) (k : ℕ) : (intoBeBits l).drop (8 * k) = intoBeBits (l.drop k) := by
  induction k generalizing l with
  | zero => rfl
  | succ k ih =>
    cases l with
    | nil => simp [intoBeBits_nil]
    | cons b l =>
      rw [intoBeBits_cons, List.drop_succ_cons, ← ih, show 8 * (k + 1) = 8 + 8 * k by ring, ← List.drop_drop]
      congr 1
theorem intoBeBits_take (l : List Byte) (k : ℕ) : (intoBeBits l).take (8 * k) = intoBeBits (l.take k) := by
  induction k generalizing l with
  | zero => rfl
  | succ k ih =>
    cases l with
    | nil => simp [intoBeBits_nil]
    | cons b l =>
      rw [intoBeBits_cons, List.take_succ_cons, intoBeBits_cons, ← ih, List.take_append, bl_length, List.take_of_length_le (by simp)]
      congr 2

theorem toBe64_bits (x : U64) : intoBeBits (toBe64 x) = bl x := by
  have h : ∀ i < 8, bl ((x >>> (8 * (7 - i))).setWidth 8 : Byte) = ((bl x).drop (8 * i)).take 8 := by
    intro i hi
    refine List.ext_getElem? fun j => ?_
    rw [List.getElem?_take, List.getElem?_drop, bl_getElem?, bl_getElem?]
    by_cases hj : j < 8
    · rw [if_pos hj, if_pos hj, if_pos (by omega)]
      congr 1
      simp only [BitVec.getMsbD, BitVec.getLsbD_setWidth, BitVec.getLsbD_ushiftRight]
      rw [show 8 * (7 - i) + (8 - 1 - j) = 64 - 1 - (8 * i + j) by omega]
      simp [hj, show 8 * i + j < 64 by omega, show 8 - 1 - j < 8 by omega]
    · rw [if_neg hj, if_neg hj]
  unfold toBe64
  simp only [List.range_succ, List.range_zero, List.nil_append, List.map_cons, List.map_nil, List.cons_append, intoBeBits_cons, intoBeBits_nil,
    List.append_nil]
  rw [h 0 (by omega), h (0 + 1) (by omega), h (0 + 1 + 1) (by omega), h (0 + 1 + 1 + 1) (by omega), h (0 + 1 + 1 + 1 + 1) (by omega),
    h (0 + 1 + 1 + 1 + 1 + 1) (by omega), h (0 + 1 + 1 + 1 + 1 + 1 + 1) (by omega), h (0 + 1 + 1 + 1 + 1 + 1 + 1 + 1) (by omega)]
  generalize hl : bl x = l
  have : l.length = 64 := by rw [← hl]; simp
  clear hl
  have e : ∀ k, l.drop (8 * k) = (l.drop (8 * k)).take 8 ++ l.drop (8 * (k + 1)) := by
    intro k
    conv_lhs => rw [← List.take_append_drop 8 (l.drop (8 * k)), List.drop_drop]
    rfl
  conv_rhs => rw [show l = l.drop (8 * 0) from rfl, e 0, e (0 + 1), e (0 + 1 + 1), e (0 + 1 + 1 + 1), e (0 + 1 + 1 + 1 + 1), e (0 + 1 + 1 + 1 + 1 + 1),
    e (0 + 1 + 1 + 1 + 1 + 1 + 1), e (0 + 1 + 1 + 1 + 1 + 1 + 1 + 1), List.drop_of_length_le (show l.length ≤ 8 * (0 + 1 + 1 + 1 + 1 + 1 + 1 + 1 + 1) by omega)]
  simp only [List.append_nil]

theorem wordToBits_34 (x : U64) : wordToBits x 34 = bl (x.setWidth 34) := by
  rw [wordToBits, toBe64_bits]; exact bl_drop (n := 34) 30 x
theorem wordToBits_35 (x : U64) : wordToBits x 35 = bl (x.setWidth 35) := by
  rw [wordToBits, toBe64_bits]; exact bl_drop (n := 35) 29 x

/-! ### decode -/

theorem decode_aux (l : List (Bool × ℕ)) (acc : U64) :
    l.foldl (fun acc bi => acc + ((BitVec.ofBool bi.1).setWidth 64 <<< bi.2)) acc =
      acc + l.foldl (fun acc bi => acc + ((BitVec.ofBool bi.1).setWidth 64 <<< bi.2)) 0 := by
  induction l generalizing acc with
  | nil => simp
  | cons a l ih => rw [List.foldl_cons, List.foldl_cons, ih, ih (0 + _)]; simp [BitVec.add_assoc]

theorem decodeV_cons (b : Bool) (l : List Bool) : decodeV (b :: l) = ((BitVec.ofBool b).setWidth 64 <<< l.length) + decodeV l := by
  unfold decodeV
  rw [List.reverse_cons, List.zipIdx_append, List.foldl_append, List.zipIdx_singleton, List.foldl_cons, List.foldl_nil]
  simp [BitVec.add_comm]

theorem decodeV_bl {n : ℕ} (hn : n ≤ 64) (x : BitVec n) : decodeV (bl x) = x.setWidth 64 := by
  induction n with
  | zero => rw [BitVec.of_length_zero (x := x)]; rfl
  | succ n ih =>
    have hx : x = BitVec.cons x.msb (x.setWidth n) := (BitVec.cons_msb_setWidth x).symm
    rw [hx, bl_cons, decodeV_cons, ih (by omega), bl_length]
    apply BitVec.eq_of_toNat_eq
    have hlt := (x.setWidth n).isLt
    generalize x.setWidth n = y at *
    have h1 : (2 : ℕ) ^ (n + 1) ≤ 2 ^ 64 := Nat.pow_le_pow_right (by norm_num) hn
    have h2 : (2 : ℕ) ^ (n + 1) = 2 * 2 ^ n := by ring
    rw [BitVec.toNat_add, BitVec.toNat_shiftLeft, BitVec.toNat_setWidth, BitVec.toNat_setWidth, BitVec.toNat_setWidth, BitVec.toNat_cons', Nat.shiftLeft_eq]
    generalize (2 : ℕ) ^ n = q at *
    cases x.msb <;> simp only [BitVec.toNat_ofBool, Bool.toNat_false, Bool.toNat_true, Nat.shiftLeft_eq] <;> norm_num at * <;> omega

/-! ### Words of 32 bits in `u64` -/

/-- `u32` as `u64`. -/
def z (x : W) : U64 := x.setWidth 64

theorem z_trunc (x : W) : (z x).setWidth 32 = x := by
  apply BitVec.eq_of_toNat_eq
  have := x.isLt
  simp only [z, BitVec.toNat_setWidth]
  norm_num at *; omega
theorem z_toNat (x : W) : (z x).toNat = x.toNat := by
  have := x.isLt
  simp only [z, BitVec.toNat_setWidth]
  norm_num at *; omega
theorem mask32_eq (x : U64) : mask32 x = z (x.setWidth 32) := by
  apply BitVec.eq_of_getLsbD_eq
  intro i hi
  unfold mask32 z
  rw [BitVec.getLsbD_and, BitVec.getLsbD_setWidth, BitVec.getLsbD_setWidth]
  have h : (0xFFFFFFFF : U64).getLsbD i = decide (i < 32) := by
    revert i; decide
  rw [h]
  cases x.getLsbD i <;> simp [hi]
theorem trunc_add (x y : U64) : (x + y).setWidth 32 = x.setWidth 32 + y.setWidth 32 := by
  apply BitVec.eq_of_toNat_eq
  simp only [BitVec.toNat_setWidth, BitVec.toNat_add]
  norm_num
theorem mask32_z (x : W) : mask32 (z x) = z x := by rw [mask32_eq, z_trunc]
theorem rotV_z (x : W) (c : ℕ) : rotV (z x) c = z (x.rotateRight c) := by rw [rotV, z_trunc]; rfl
theorem shrV_z (x : W) (c : ℕ) : shrV (z x) c = z (x >>> c) := by rw [shrV, z_trunc]; rfl
theorem z_xor (x y : W) : z x ^^^ z y = z (x ^^^ y) := by unfold z; rw [BitVec.setWidth_xor]
theorem z_and (x y : W) : z x &&& z y = z (x &&& y) := by unfold z; rw [BitVec.setWidth_and]
theorem z_not_and (x y : W) : ~~~z x &&& z y = z (~~~x &&& y) := by
  apply BitVec.eq_of_getLsbD_eq
  intro i hi
  simp only [z, BitVec.getLsbD_and, BitVec.getLsbD_not, BitVec.getLsbD_setWidth]
  by_cases h : i < 32
  · simp [h, hi]
  · simp [BitVec.getLsbD_of_ge y i (by omega), hi]
theorem z_ofNat (k : ℕ) (h : k < 2 ^ 32) : BitVec.ofNat 64 k = z (BitVec.ofNat 32 k) := by
  apply BitVec.eq_of_toNat_eq
  rw [z_toNat, BitVec.toNat_ofNat, BitVec.toNat_ofNat]
  norm_num at *; omega

/-! ### Padding -/

theorem padLoop_eq (fuel : ℕ) (bits : List Bool) (k : ℕ) (hk : k ≤ fuel) (h : (bits.length + k + 64) % 512 = 0)
    (hmin : ∀ j < k, (bits.length + j + 64) % 512 ≠ 0) : padLoop fuel bits = bits ++ List.replicate k false := by
  induction fuel generalizing bits k with
  | zero => rw [show k = 0 by omega]; simp [padLoop]
  | succ fuel ih =>
    rw [padLoop]
    cases k with
    | zero => rw [if_neg (by simpa using h)]; simp
    | succ k =>
      rw [if_pos (by have := hmin 0 (by omega); simpa using this), ih _ k (by omega) (by simp; omega) (by
        intro j hj
        have := hmin (j + 1) (by omega)
        simp only [List.length_append, List.length_cons, List.length_nil]
        rw [show bits.length + (0 + 1) + j + 64 = bits.length + (j + 1) + 64 by omega]; exact this)]
      rw [List.append_assoc]; rfl

theorem intoBeBits_replicate (k : ℕ) : intoBeBits (List.replicate k 0) = List.replicate (8 * k) false := by
  induction k with
  | zero => rfl
  | succ k ih =>
    rw [List.replicate_succ, intoBeBits_cons, ih, show 8 * (k + 1) = 8 + 8 * k by ring, List.replicate_add]
    rfl

theorem toBe64_ofNat (n : ℕ) : toBe64 (BitVec.ofNat 64 n) = be64 n := by
  unfold toBe64 be64
  refine List.map_congr_left fun i hi => ?_
  have hi : i < 8 := List.mem_range.mp hi
  apply BitVec.eq_of_toNat_eq
  rw [BitVec.toNat_setWidth, BitVec.toNat_ushiftRight, BitVec.toNat_ofNat, BitVec.toNat_ofNat, Nat.shiftRight_eq_div_pow]
  have e : (256 : ℕ) ^ (7 - i) = 2 ^ (8 * (7 - i)) := by rw [show (256 : ℕ) = 2 ^ 8 from rfl, ← pow_mul]
  rw [e]
  have e2 : (2 : ℕ) ^ 64 = 2 ^ (8 * (7 - i)) * 2 ^ (64 - 8 * (7 - i)) := by rw [← pow_add]; congr 1; omega
  rw [e2, Nat.mod_mul_right_div_self, Nat.mod_mod_of_dvd]
  exact pow_dvd_pow 2 (by omega)

/-- The witness generation pads as the standard says. -/
theorem paddedBits_eq (m : List Byte) : paddedBits m = intoBeBits (pad m) := by
  unfold paddedBits pad
  simp only [intoBeBits_append, toBe64_ofNat, intoBeBits_length, intoBeBits_replicate]
  congr 1
  rw [padLoop_eq 512 _ (7 + 8 * zeros m.length) (by unfold zeros; omega)
    (by simp only [List.length_append, intoBeBits_length, List.length_cons, List.length_nil]; unfold zeros; omega)
    (by intro j hj; simp only [List.length_append, intoBeBits_length, List.length_cons, List.length_nil]; unfold zeros at hj; omega)]
  rw [List.append_assoc, List.append_assoc]
  congr 1
  rw [List.replicate_add]
  rfl

theorem chunksOf_get {α : Type} (k : ℕ) (m : ℕ) (l : List α) (i : ℕ) (hi : i < m) : (chunksOf k m l)[i]? = some ((l.drop (k * i)).take k) := by
  induction m generalizing l i with
  | zero => omega
  | succ m ih =>
    cases i with
    | zero => rw [chunksOf]; simp
    | succ i =>
      rw [chunksOf, List.getElem?_cons_succ, ih _ i (by omega), List.drop_drop]
      congr 3; ring

theorem chunksOf_length {α : Type} (k : ℕ) (m : ℕ) (l : List α) : (chunksOf k m l).length = m := by
  induction m generalizing l with
  | zero => rfl
  | succ m ih => rw [chunksOf, List.length_cons, ih]

/-- The word of a chunk. -/
theorem chunk_word (l : List Byte) (i t : ℕ) (ht : t < 16) (hl : 64 * (i + 1) ≤ l.length) :
    decodeV ((((intoBeBits l).drop (512 * i)).take 512).drop (t * 32) |>.take 32) = z (beWord l (16 * i + t)) := by
  rw [List.drop_take, List.take_take, List.drop_drop, show min 32 (512 - t * 32) = 8 * 4 by omega,
    show 512 * i + t * 32 = 8 * (64 * i + 4 * t) by ring, intoBeBits_drop, intoBeBits_take]
  have hg : ∀ k < 4, l.getD (64 * i + 4 * t + k) 0 = l[64 * i + 4 * t + k]! := by
    intro k hk; simp [List.getD, List.getElem!_eq_getElem?_getD]; rfl
  have e : (l.drop (64 * i + 4 * t)).take 4 = [l.getD (64 * i + 4 * t) 0, l.getD (64 * i + 4 * t + 1) 0, l.getD (64 * i + 4 * t + 2) 0,
      l.getD (64 * i + 4 * t + 3) 0] := by
    refine List.ext_getElem (by simp; omega) fun j h1 h2 => ?_
    have hj : j < 4 := by simpa using h2
    rw [List.getElem_take, List.getElem_drop]
    have : ∀ k (hk : k < l.length), l[k] = l.getD k 0 := by intro k hk; simp [List.getD, hk]
    rw [this]
    match j, hj with
    | 0, _ => rfl
    | 1, _ => rfl
    | 2, _ => rfl
    | 3, _ => rfl
  rw [e]
  simp only [intoBeBits_cons, intoBeBits_nil, List.append_nil]
  rw [← List.append_assoc, ← List.append_assoc, ← bl_append, ← bl_append, ← bl_append, decodeV_bl (by norm_num)]
  unfold z beWord
  rw [show 4 * (16 * i + t) = 64 * i + 4 * t by ring]

end H2.Sha
