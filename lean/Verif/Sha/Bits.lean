import Verif.Sha.Model
import Verif.Sha.Spec
import Mathlib.Tactic.Ring
import Mathlib.Tactic.LinearCombination

/-!
# Bit lists of field elements and `BitVec`
-/

set_option autoImplicit false
namespace H2.Sha
variable {F : Type} [Field F]

/-- 0/1 in the field. -/
def b2f (b : Bool) : F := if b then 1 else 0

/-- The bits of a word, most significant first, as field elements. -/
def bitsOf {n : ℕ} (x : BitVec n) : List F := (List.range n).map fun i => b2f (x.getMsbD i)

@[simp] theorem bitsOf_length {n : ℕ} (x : BitVec n) : (bitsOf x : List F).length = n := by simp [bitsOf]

theorem bitsOf_getElem? {n : ℕ} (x : BitVec n) (i : ℕ) : (bitsOf x : List F)[i]? = if i < n then some (b2f (x.getMsbD i)) else none := by
  simp only [bitsOf, List.getElem?_map, List.getElem?_range]
  split <;> simp_all

theorem bitsOf_cons {n : ℕ} (b : Bool) (x : BitVec n) : (bitsOf (BitVec.cons b x) : List F) = b2f b :: bitsOf x := by
  refine List.ext_getElem? fun i => ?_
  cases i with
  | zero => rw [bitsOf_getElem?]; simp
  | succ i => simp [bitsOf_getElem?]

theorem bool_cases {x : F} (h : x * (1 - x) = 0) : ∃ b, x = b2f b := by
  rcases mul_eq_zero.mp h with h | h
  · exact ⟨false, by simp [b2f, h]⟩
  · exact ⟨true, by simp only [b2f, if_true]; linear_combination -h⟩

theorem exists_bits (l : List F) (h : ∀ x ∈ l, x * (1 - x) = 0) {n : ℕ} (hn : l.length = n) : ∃ x : BitVec n, l = bitsOf x := by
  induction l generalizing n with
  | nil => subst hn; exact ⟨0, by simp [bitsOf]⟩
  | cons a l ih =>
    obtain ⟨x, hx⟩ := ih (fun y hy => h y (List.mem_cons_of_mem _ hy)) rfl
    obtain ⟨b, hb⟩ := bool_cases (h a (by simp))
    subst hn
    exact ⟨BitVec.cons b x, by rw [bitsOf_cons, ← hx, ← hb]⟩

/-! ### decode -/

theorem foldl_snd (c : F) (l : List F) (acc : F × F) :
    (l.foldl (fun (acc : F × F) b => (acc.1 + b * acc.2, acc.2 * c)) acc).2 = acc.2 * c ^ l.length := by
  induction l generalizing acc with
  | nil => simp
  | cons a l ih => simp only [List.foldl_cons, ih, List.length_cons]; ring

theorem foldl_fst (c : F) (l : List F) (acc : F × F) :
    (l.foldl (fun (acc : F × F) b => (acc.1 + b * acc.2, acc.2 * c)) acc).1 =
      acc.1 + acc.2 * (l.foldl (fun (acc : F × F) b => (acc.1 + b * acc.2, acc.2 * c)) (0, 1)).1 := by
  induction l generalizing acc with
  | nil => simp
  | cons a l ih =>
    simp only [List.foldl_cons]
    rw [ih, ih (0 + a * 1, 1 * c)]
    ring

theorem decode_nil : decode ([] : List F) = 0 := rfl

theorem decode_cons (b : F) (l : List F) : decode (b :: l) = b * 2 ^ l.length + decode l := by
  unfold decode
  rw [List.reverse_cons, List.foldl_append, foldl_fst, List.foldl_cons, List.foldl_nil, foldl_snd]
  simp; ring

theorem fromBytes_nil : fromBytes ([] : List F) = 0 := rfl

theorem fromBytes_cons (b : F) (l : List F) : fromBytes (b :: l) = b + 256 * fromBytes l := by
  unfold fromBytes
  rw [List.foldl_cons, foldl_fst]; ring

theorem fromBytes_append (l l' : List F) : fromBytes (l ++ l') = fromBytes l + 256 ^ l.length * fromBytes l' := by
  induction l with
  | nil => simp [fromBytes_nil]
  | cons a l ih => rw [List.cons_append, fromBytes_cons, fromBytes_cons, ih, List.length_cons]; ring

theorem byteOf_reverse (l : List F) : byteOf l.reverse = decode l := by
  unfold byteOf decode
  simp only [mul_comm (2 : F)]

theorem decode_bitsOf {n : ℕ} (x : BitVec n) : decode (bitsOf x : List F) = ((x.toNat : ℕ) : F) := by
  induction n with
  | zero => simp [bitsOf, decode_nil, BitVec.of_length_zero]
  | succ n ih =>
    have hx : x = BitVec.cons x.msb (x.setWidth n) := (BitVec.cons_msb_setWidth x).symm
    rw [hx, bitsOf_cons, decode_cons, ih, BitVec.toNat_cons', bitsOf_length, Nat.shiftLeft_eq]
    cases x.msb <;> simp [b2f]

/-! ### Operations -/

theorem take_bitsOf {n m : ℕ} (x : BitVec n) (h : m ≤ n) : (bitsOf x : List F).take m = bitsOf (x.extractLsb' (n - m) m) := by
  refine List.ext_getElem? fun i => ?_
  rw [List.getElem?_take, bitsOf_getElem?, bitsOf_getElem?]
  split <;> rename_i h1
  · rw [if_pos (by omega)]
    congr 2
    simp only [BitVec.getMsbD, BitVec.getLsbD_extractLsb']
    have : n - m + (m - 1 - i) = n - 1 - i := by omega
    rw [this]
    simp [h1, show i < n by omega, show m - 1 - i < m by omega]
  · rfl

theorem drop_bitsOf {n : ℕ} (m : ℕ) (x : BitVec (m + n)) : (bitsOf x : List F).drop m = bitsOf (x.setWidth n) := by
  refine List.ext_getElem? fun i => ?_
  rw [List.getElem?_drop, bitsOf_getElem?, bitsOf_getElem?]
  by_cases h : i < n
  · rw [if_pos (by omega), if_pos h]
    congr 2
    simp only [BitVec.getMsbD, BitVec.getLsbD_setWidth]
    have : m + n - 1 - (m + i) = n - 1 - i := by omega
    rw [this]
    simp [h, show n - 1 - i < n by omega]
  · rw [if_neg (by omega), if_neg h]

theorem xorE_b2f (a b : Bool) : xorE (b2f a) (b2f b) = (b2f (a ^^ b) : F) := by
  cases a <;> cases b <;> simp [xorE, b2f] <;> ring

theorem selE_b2f (c a b : Bool) : selE (b2f c) (b2f a) (b2f b) = (b2f (if c then a else b) : F) := by
  cases c <;> simp [selE, b2f]

theorem xorL_bitsOf {n : ℕ} (x y : BitVec n) : xorL (bitsOf x) (bitsOf y : List F) = bitsOf (x ^^^ y) := by
  refine List.ext_getElem? fun i => ?_
  simp only [xorL, List.getElem?_zipWith, bitsOf_getElem?]
  by_cases h : i < n <;> simp [xorE_b2f, h]

theorem selL_bitsOf {n : ℕ} (c x y : BitVec n) : selL (bitsOf c) (bitsOf x) (bitsOf y : List F) = bitsOf ((c &&& x) ^^^ (~~~c &&& y)) := by
  refine List.ext_getElem? fun i => ?_
  simp only [selL, List.getElem?_zipWith, List.zip, bitsOf_getElem?]
  by_cases h : i < n
  · simp only [if_pos h, selE_b2f, BitVec.getMsbD_xor, BitVec.getMsbD_and, BitVec.getMsbD_not]
    cases c.getMsbD i <;> simp [h]
  · simp [h]

theorem rotE_bitsOf {n : ℕ} (x : BitVec n) (c : ℕ) (hc : c < n) : rotE (bitsOf x : List F) c = bitsOf (x.rotateRight c) := by
  refine List.ext_getElem? fun i => ?_
  simp only [rotE, bitsOf_length, List.getElem?_append, List.length_drop, List.getElem?_drop, List.getElem?_take, bitsOf_getElem?]
  rw [BitVec.getMsbD_rotateRight_of_lt hc, Nat.mod_eq_of_lt hc]
  by_cases h1 : i < n - (n - c)
  · rw [if_pos h1, if_pos (by omega), if_pos (by omega), if_pos (by omega)]
    rw [show n - c + i = n + i - c by omega, Nat.mod_eq_of_lt (show n + i - c < n by omega)]
    simp [show i < n by omega]
  · rw [if_neg h1]
    by_cases h2 : i < n
    · rw [if_pos (by omega), if_pos (by omega), if_pos h2, if_neg (by omega), show i - (n - (n - c)) = i - c by omega]
      simp [h2]
    · rw [if_neg (by omega), if_neg h2]

theorem shrE_bitsOf (x : W) (c : ℕ) (hc : c ≤ 32) : shrE (bitsOf x : List F) c = bitsOf (x >>> c) := by
  refine List.ext_getElem? fun i => ?_
  simp only [shrE, List.getElem?_append, List.length_replicate, List.getElem?_replicate, List.getElem?_take, bitsOf_getElem?]
  rw [BitVec.getMsbD_ushiftRight]
  by_cases h1 : i < c
  · rw [if_pos h1, if_pos h1, if_pos (by omega)]
    simp [b2f, h1]
  · rw [if_neg h1]
    by_cases h2 : i < 32
    · rw [if_pos (by omega), if_pos (by omega), if_pos h2]
      simp [h1, h2]
    · rw [if_neg (by omega), if_neg h2]

/-- `select(b ^ c, a, b)` is the majority. -/
theorem maj_eq (a b c : W) : ((b ^^^ c) &&& a) ^^^ (~~~(b ^^^ c) &&& b) = Maj a b c := by
  unfold Maj
  refine BitVec.eq_of_getMsbD_eq fun i hi => ?_
  simp only [BitVec.getMsbD_xor, BitVec.getMsbD_and, BitVec.getMsbD_not]
  cases a.getMsbD i <;> cases b.getMsbD i <;> cases c.getMsbD i <;> simp [hi]

/-! ### Bytes -/

/-- The `k`-th byte (big-endian) of a word. -/
def byteW (x : W) (k : ℕ) : Byte := x.extractLsb' (24 - 8 * k) 8

theorem toBeBytes_32 (l : List F) (h : l.length = 32) :
    toBeBytes l = [decode (l.take 8), decode ((l.drop 8).take 8), decode ((l.drop 16).take 8), decode ((l.drop 24).take 8)] := by
  match l, h with
  | [b0, b1, b2, b3, b4, b5, b6, b7, b8, b9, b10, b11, b12, b13, b14, b15, b16, b17, b18, b19, b20, b21, b22, b23, b24, b25, b26, b27,
      b28, b29, b30, b31], _ =>
    simp only [← byteOf_reverse]
    rfl

theorem drop_take_bitsOf (x : W) (k : ℕ) (hk : k < 4) : ((bitsOf x : List F).drop (8 * k)).take 8 = bitsOf (byteW x k) := by
  refine List.ext_getElem? fun i => ?_
  simp only [List.getElem?_take, List.getElem?_drop, bitsOf_getElem?]
  by_cases h : i < 8
  · rw [if_pos h, if_pos (by omega), if_pos h]
    congr 2
    simp only [byteW, BitVec.getMsbD, BitVec.getLsbD_extractLsb']
    rw [show 24 - 8 * k + (8 - 1 - i) = 32 - 1 - (8 * k + i) by omega]
    simp [h, show 8 * k + i < 32 by omega, show 8 - 1 - i < 8 by omega]
  · rw [if_neg h, if_neg h]

theorem toBeBytes_bitsOf (x : W) : toBeBytes (bitsOf x : List F) = (List.range 4).map fun k => (((byteW x k).toNat : ℕ) : F) := by
  rw [toBeBytes_32 _ (bitsOf_length x)]
  have h0 := drop_take_bitsOf (F := F) x 0 (by omega)
  have h1 := drop_take_bitsOf (F := F) x 1 (by omega)
  have h2 := drop_take_bitsOf (F := F) x 2 (by omega)
  have h3 := drop_take_bitsOf (F := F) x 3 (by omega)
  simp only [Nat.mul_zero, List.drop_zero] at h0
  rw [h0, h1, h2, h3]
  simp only [decode_bitsOf]
  rfl

theorem byteW_append (x : W) : byteW x 0 ++ byteW x 1 ++ byteW x 2 ++ byteW x 3 = x := by
  refine BitVec.eq_of_getLsbD_eq fun i hi => ?_
  simp only [byteW, BitVec.getLsbD_append, BitVec.getLsbD_extractLsb']
  grind

theorem append_byteW (a b c d : Byte) : byteW (a ++ b ++ c ++ d) 0 = a ∧ byteW (a ++ b ++ c ++ d) 1 = b ∧
    byteW (a ++ b ++ c ++ d) 2 = c ∧ byteW (a ++ b ++ c ++ d) 3 = d := by
  refine ⟨?_, ?_, ?_, ?_⟩ <;> refine BitVec.eq_of_getLsbD_eq fun i hi => ?_ <;>
    simp only [byteW, BitVec.getLsbD_extractLsb', BitVec.getLsbD_append] <;> grind

theorem toNat_app {n m : ℕ} (x : BitVec n) (y : BitVec m) : (x ++ y).toNat = x.toNat * 2 ^ m + y.toNat := by
  rw [BitVec.toNat_append, ← Nat.shiftLeft_add_eq_or_of_lt y.isLt, Nat.shiftLeft_eq]

theorem word_toNat (x : W) : x.toNat = (byteW x 0).toNat * 2 ^ 24 + (byteW x 1).toNat * 2 ^ 16 + (byteW x 2).toNat * 2 ^ 8 + (byteW x 3).toNat := by
  conv_lhs => rw [← byteW_append x]
  simp only [toNat_app]
  ring

theorem fromBytes_word (x : W) : fromBytes (toBeBytes (bitsOf x : List F)).reverse = ((x.toNat : ℕ) : F) := by
  rw [toBeBytes_bitsOf, word_toNat]
  simp [List.range_succ, fromBytes_cons, fromBytes_nil]
  ring

end H2.Sha
