import Verif.Zk.Model
import Verif.Poseidon.Sponge
import Verif.KecComp.Pure
import Mathlib.Algebra.BigOperators.Group.List.Basic
import Mathlib.Data.Nat.Digits.Lemmas

/-!
# C85: expressions, words and Ethereum types of the zkevm crate; C86: its constraint builder

Specifications: `Nat.ofDigits 256` (Mathlib) for little-endian bytes, `Op.Holds` for what a use of the constraint builder requires.
-/

set_option autoImplicit false
set_option linter.unusedSectionVars false
namespace H2.Zk
open H2.Kec (Byte)
open H2.Utils (fromBytesLe)

/-! ## Specifications -/

/-- The number with the given little-endian bytes. -/
def leVal (bs : List Byte) : ℕ := Nat.ofDigits 256 (bs.map BitVec.toNat)

/-- The number with the given big-endian bytes. -/
def beVal (bs : List Byte) : ℕ := leVal bs.reverse

/-- A word of the field that is the number `n`: its low 128 bits and the rest. -/
def Wd.Is {F : Type} [Field F] (w : Wd F) (n : ℕ) : Prop := w.lo = ((n % 2 ^ 128 : ℕ) : F) ∧ w.hi = ((n / 2 ^ 128 : ℕ) : F)

/-- A word of expressions evaluated. -/
def Wd.eval {F : Type} [Field F] (v ch : ℕ → F) (w : Wd (Ex F)) : Wd F := ⟨w.lo.eval v ch, w.hi.eval v ch⟩

mutual
/-- What a call on the constraint builder requires of the values. -/
def Op.Holds {F : Type} [Field F] (v ch : ℕ → F) : Op F → Prop
  | .zero e => e.eval v ch = 0
  | .equal a b => a.eval v ch = b.eval v ch
  | .equalWord a b => a.eval v ch = b.eval v ch
  | .boolean e => e.eval v ch = 0 ∨ e.eval v ch = 1
  | .cond c body => c.eval v ch ≠ 0 → Op.Hold v ch body
/-- All the calls of a list. -/
def Op.Hold {F : Type} [Field F] (v ch : ℕ → F) : List (Op F) → Prop
  | [] => True
  | o :: os => Op.Holds v ch o ∧ Op.Hold v ch os
end

/-- No condition inside a condition. -/
def Op.flat {F : Type} : Op F → Bool
  | .cond _ body => body.all fun o => match o with
    | .cond _ _ => false
    | _ => true
  | _ => true

/-! ## Proofs: bytes -/

theorem leBytes_eq (bs : List Byte) : KC.leBytes bs = leVal bs := by
  induction bs with
  | nil => rfl
  | cons b bs ih =>
    simp only [leVal, List.map_cons, Nat.ofDigits_cons] at ih ⊢
    rw [← ih]; rfl

theorem leVal_append (a b : List Byte) : leVal (a ++ b) = leVal a + 256 ^ a.length * leVal b := by
  simp [leVal, Nat.ofDigits_append]

theorem leVal_lt (a : List Byte) : leVal a < 256 ^ a.length := by
  have := Nat.ofDigits_lt_base_pow_length (b := 256) (l := a.map BitVec.toNat) (by norm_num) (fun x hx => by
    obtain ⟨b, -, rfl⟩ := List.mem_map.1 hx; exact b.isLt)
  simpa [leVal] using this

theorem leVal_inj {a b : List Byte} (hl : a.length = b.length) (h : leVal a = leVal b) : a = b := by
  have := Nat.ofDigits_inj_of_len_eq (b := 256) (by norm_num) (L1 := a.map BitVec.toNat) (L2 := b.map BitVec.toNat) (by simpa using hl)
    (fun x hx => by obtain ⟨b, -, rfl⟩ := List.mem_map.1 hx; exact b.isLt) (fun x hx => by obtain ⟨b, -, rfl⟩ := List.mem_map.1 hx; exact b.isLt) h
  exact List.map_injective_iff.2 (fun x y h => BitVec.eq_of_toNat_eq h) this

theorem leVal_take (l : List Byte) (n : ℕ) (hn : n ≤ l.length) : leVal (l.take n) = leVal l % 256 ^ n := by
  conv_rhs => rw [← List.take_append_drop n l, leVal_append]
  have h : (l.take n).length = n := by simpa using hn
  rw [h, Nat.add_mul_mod_self_left, Nat.mod_eq_of_lt]
  have := leVal_lt (l.take n)
  rwa [h] at this

theorem leVal_drop (l : List Byte) (n : ℕ) (hn : n ≤ l.length) : leVal (l.drop n) = leVal l / 256 ^ n := by
  conv_rhs => rw [← List.take_append_drop n l, leVal_append]
  have h : (l.take n).length = n := by simpa using hn
  have h2 := leVal_lt (l.take n)
  rw [h] at h2 ⊢
  rw [Nat.add_mul_div_left _ _ (by positivity), Nat.div_eq_of_lt h2, Nat.zero_add]

theorem leVal_range (N n : ℕ) : leVal ((List.range n).map fun i => BitVec.ofNat 8 (N / 256 ^ i)) = N % 256 ^ n := by
  induction n with
  | zero => simp [leVal, Nat.mod_one]
  | succ n ih =>
    rw [List.range_succ, List.map_append, leVal_append, ih, List.length_map, List.length_range, Nat.mod_pow_succ]
    simp [leVal]

theorem leVal_32 (x : BitVec 256) : leVal (leBytes32 x) = x.toNat := by
  unfold leBytes32
  rw [leVal_range, Nat.mod_eq_of_lt]
  have := x.isLt
  norm_num at this ⊢
  exact this

variable {F : Type} [Field F] {v ch : ℕ → F}

theorem fromBytesVLoop_eq (bs : List Byte) : ∀ acc m : F, fromBytesVLoop (chunksOf 16 bs) acc m = acc + m * (leVal bs : F) := by
  induction hn : bs.length using Nat.strong_induction_on generalizing bs with
  | _ n ih =>
    intro acc m
    by_cases hb : bs = []
    · subst hb; simp [chunksOf_nil, fromBytesVLoop, leVal]
    · rw [chunksOf_cons (by norm_num) hb, fromBytesVLoop]
      have hpos : 0 < bs.length := List.length_pos_iff.2 hb
      rw [ih (bs.drop 16).length (by rw [List.length_drop]; omega) _ rfl, leBytes_eq]
      have hv : leVal bs = leVal (bs.take 16) + 2 ^ 128 * leVal (bs.drop 16) := by
        conv_lhs => rw [← List.take_append_drop 16 bs, leVal_append]
        by_cases h : 16 ≤ bs.length
        · rw [List.length_take, Nat.min_eq_left h]; norm_num
        · rw [List.drop_eq_nil_of_le (by omega)]; simp [leVal]
      rw [hv]
      push_cast
      ring

/-- C85: `from_bytes::value` is the little-endian number in the field, for any number of bytes. -/
theorem C85_from_bytes_value (bs : List Byte) : (fromBytesV bs : F) = (leVal bs : F) := by
  unfold fromBytesV
  rw [fromBytesVLoop_eq]; simp

@[simp] theorem eval_exprI (i : ℤ) : (exprI i : Ex F).eval v ch = (i : F) := by
  unfold exprI Ex.eval
  rcases Int.natAbs_eq i with h | h
  · rw [if_neg (by omega), mul_one]
    conv_rhs => rw [h]
    rw [Int.cast_natCast]
  · by_cases h0 : i < 0
    · rw [if_pos h0]
      conv_rhs => rw [h]
      rw [Int.cast_neg, Int.cast_natCast]; ring
    · have : i = 0 := by omega
      subst this; simp

@[simp] theorem eval_sub (a b : Ex F) : (Ex.sub a b).eval v ch = a.eval v ch - b.eval v ch := by simp [Ex.sub, Ex.eval, sub_eq_add_neg]

theorem fromBytesLoop_eval (bs : List (Ex F)) : ∀ (acc : Ex F) (m : F), (fromBytesLoop bs acc m).eval v ch =
    acc.eval v ch + m * (bs.map (Ex.eval v ch)).foldr (fun b a => b + 256 * a) 0 := by
  induction bs with
  | nil => intro acc m; simp [fromBytesLoop]
  | cons b bs ih =>
    intro acc m
    rw [fromBytesLoop, ih]
    simp only [Ex.eval, List.map_cons, List.foldr_cons]
    ring

theorem fromBytesE_eval (bs : List (Ex F)) : (fromBytesE bs).eval v ch = (bs.map (Ex.eval v ch)).foldr (fun b a => b + 256 * a) 0 := by
  unfold fromBytesE
  rw [fromBytesLoop_eval]; simp

theorem foldr_bytes (bs : List Byte) : (bs.map fun b => (b.toNat : F)).foldr (fun b a => b + 256 * a) 0 = (leVal bs : F) := by
  induction bs with
  | nil => simp [leVal]
  | cons b bs ih =>
    rw [List.map_cons, List.foldr_cons, ih]
    simp [leVal, Nat.ofDigits_cons]

/-- C85: `from_bytes::expr` of expressions with the values of bytes is the little-endian number: the gates and the witness (`from_bytes::value`) agree. -/
theorem C85_from_bytes_expr {es : List (Ex F)} {bs : List Byte} (h : es.map (Ex.eval v ch) = bs.map fun b => (b.toNat : F)) :
    (fromBytesE es).eval v ch = (leVal bs : F) ∧ (fromBytesE es).eval v ch = fromBytesV bs := by
  rw [C85_from_bytes_value, fromBytesE_eval, h, foldr_bytes]
  exact ⟨rfl, rfl⟩

/-! ## Logic -/

theorem sumE_eval (es : List (Ex F)) : (sumE es).eval v ch = (es.map (Ex.eval v ch)).sum := by
  unfold sumE
  have : ∀ (es : List (Ex F)) (a : Ex F), (es.foldl (fun acc e => Ex.sum acc e) a).eval v ch = a.eval v ch + (es.map (Ex.eval v ch)).sum := by
    intro es
    induction es with
    | nil => intro a; simp
    | cons e es ih => intro a; rw [List.foldl_cons, ih]; simp [Ex.eval, add_assoc]
  rw [this]; simp

theorem andE_eval (es : List (Ex F)) : (andE es).eval v ch = (es.map (Ex.eval v ch)).prod := by
  unfold andE
  have : ∀ (es : List (Ex F)) (a : Ex F), (es.foldl (fun acc e => Ex.prod acc e) a).eval v ch = a.eval v ch * (es.map (Ex.eval v ch)).prod := by
    intro es
    induction es with
    | nil => intro a; simp
    | cons e es ih => intro a; rw [List.foldl_cons, ih]; simp [Ex.eval, mul_assoc]
  rw [this]; simp

theorem andV_eq (xs : List F) : andV xs = xs.prod := by
  unfold andV
  rw [List.prod_eq_foldl]

theorem notE_eval (e : Ex F) : (notE e).eval v ch = 1 - e.eval v ch := by simp [notE]

theorem orE_eval (es : List (Ex F)) : (orE es).eval v ch = 1 - ((es.map (Ex.eval v ch)).map fun x => 1 - x).prod := by
  unfold orE
  rw [notE_eval, andE_eval, List.map_map, List.map_map]
  congr 3
  funext e
  exact notE_eval (v := v) (ch := ch) e

theorem orV_eq (xs : List F) : orV xs = 1 - (xs.map fun x => 1 - x).prod := by
  unfold orV notV
  rw [andV_eq]

/-- C85: on any values, the expression and the value versions of `and`, `or`, `not`, `xor`, `select` agree. -/
theorem C85_expr_value (es : List (Ex F)) (a b s : Ex F) :
    (andE es).eval v ch = andV (es.map (Ex.eval v ch)) ∧ (orE es).eval v ch = orV (es.map (Ex.eval v ch)) ∧ (notE a).eval v ch = notV (a.eval v ch) ∧
    (xorE a b).eval v ch = xorV (a.eval v ch) (b.eval v ch) ∧ (selectE s a b).eval v ch = selectV (s.eval v ch) (a.eval v ch) (b.eval v ch) := by
  refine ⟨by rw [andE_eval, andV_eq], by rw [orE_eval, orV_eq], notE_eval a, ?_, ?_⟩
  · simp [xorE, xorV, Ex.eval]
  · simp [selectE, selectV, Ex.eval]

/-- The field element of a bit. -/
def bit {F : Type} [Field F] (b : Bool) : F := if b then 1 else 0

theorem prod_bits (bs : List Bool) : (bs.map (bit (F := F))).prod = (bit (bs.all id) : F) := by
  induction bs with
  | nil => simp [bit]
  | cons b bs ih => rw [List.map_cons, List.prod_cons, ih]; cases b <;> simp [bit]

/-- C85: on bits the expressions are the Boolean operations, and `sum` counts. -/
theorem C85_logic {es : List (Ex F)} {bs : List Bool} (h : es.map (Ex.eval v ch) = bs.map (bit (F := F))) {a b s : Ex F} {x y z : Bool} (ha : a.eval v ch = bit x)
    (hb : b.eval v ch = bit y) (hs : s.eval v ch = bit z) (t f : Ex F) :
    (andE es).eval v ch = bit (bs.all id) ∧ (orE es).eval v ch = bit (bs.any id) ∧ (notE a).eval v ch = bit (!x) ∧ (xorE a b).eval v ch = bit (x ^^ y) ∧
    (selectE s t f).eval v ch = (if z then t.eval v ch else f.eval v ch) ∧ (sumE es).eval v ch = (bs.count true : F) := by
  refine ⟨by rw [andE_eval, h, prod_bits], ?_, ?_, ?_, ?_, ?_⟩
  · rw [orE_eval, h, List.map_map]
    have : ((fun x : F => 1 - x) ∘ bit (F := F)) = fun b : Bool => bit (!b) := by funext b; cases b <;> simp [bit]
    rw [this, show (bs.map fun b : Bool => (bit (!b) : F)) = (bs.map (!·)).map (bit (F := F)) by rw [List.map_map]; rfl, prod_bits, List.all_map]
    have h2 : (bs.all (id ∘ fun b => !b)) = !(bs.any id) := by rw [List.not_any_eq_all_not]; rfl
    rw [h2]
    cases bs.any id <;> simp [bit]
  · rw [notE_eval, ha]; cases x <;> simp [bit]
  · rw [(C85_expr_value [] a b s).2.2.2.1, ha, hb, xorV]; cases x <;> cases y <;> simp [bit]; ring
  · rw [(C85_expr_value [] t f s).2.2.2.2, hs, selectV]; cases z <;> simp [bit]
  · rw [sumE_eval, h]
    clear h
    induction bs with
    | nil => simp
    | cons b bs ih => rw [List.map_cons, List.sum_cons, ih]; cases b <;> simp [bit, add_comm]

/-! ## Words -/

theorem leVal_zero (n : ℕ) : leVal (List.replicate n 0) = 0 := by
  induction n with
  | zero => rfl
  | succ n ih => rw [List.replicate_succ]; simp only [leVal, List.map_cons, Nat.ofDigits_cons] at ih ⊢; rw [ih]; rfl

/-- Splitting bytes after the 16th. -/
theorem halves {l : List Byte} (h : 16 ≤ l.length) : (⟨fromBytesV (l.take 16), fromBytesV (l.drop 16)⟩ : Wd F).Is (leVal l) := by
  constructor
  · show fromBytesV _ = _
    rw [C85_from_bytes_value, leVal_take _ _ h]
    norm_num
  · show fromBytesV _ = _
    rw [C85_from_bytes_value, leVal_drop _ _ h]
    norm_num

theorem leBytes32_length (x : BitVec 256) : (leBytes32 x).length = 32 := by simp [leBytes32]

/-- A short number: the low half is the number, the high half is zero. -/
theorem is_small {w : Wd F} {n : ℕ} (h : n < 2 ^ 128) (h1 : w.lo = (n : F)) (h2 : w.hi = 0) : w.Is n := by
  refine ⟨by rw [h1, Nat.mod_eq_of_lt h], by rw [h2, Nat.div_eq_of_lt h]; simp⟩

/-- C85: every conversion to a word gives the low 128 bits and the rest of the number converted: for all 256-bit numbers, hashes (big-endian bytes), addresses, `u64`, `u8`, `bool`. -/
theorem C85_word_conversions (x : BitVec 256) (h a : List Byte) (hh : h.length = 32) (ha : a.length = 20) (y : BitVec 64) (z : Byte) (b : Bool) :
    (Wd.ofU256 x : Wd F).Is x.toNat ∧ (Wd.ofH256 h : Wd F).Is (beVal h) ∧ (Wd.ofH160 a : Wd F).Is (beVal a) ∧ (Wd.ofU64 y : Wd F).Is y.toNat ∧
    (Wd.ofU8 z : Wd F).Is z.toNat ∧ (Wd.ofBool b : Wd F).Is b.toNat := by
  refine ⟨?_, halves (by simp [hh]), halves (by simp [ha]), is_small ?_ ?_ rfl, is_small ?_ rfl rfl, is_small ?_ rfl rfl⟩
  · have := halves (F := F) (l := leBytes32 x) (by rw [leBytes32_length]; omega)
    rwa [leVal_32] at this
  · have := y.isLt; omega
  · show fromBytesV _ = _
    rw [C85_from_bytes_value, leVal_range, Nat.mod_eq_of_lt]
    have := y.isLt; norm_num at this ⊢; exact this
  · have := z.isLt; omega
  · have := b.toNat_le; omega

/-- C85: different 256-bit numbers are different words, in a field of more than `2^128` elements. -/
theorem C85_word_injective {p : ℕ} [Fact p.Prime] (hp : 2 ^ 128 ≤ p) {n m : ℕ} (hn : n < 2 ^ 256) (hm : m < 2 ^ 256) {w : Wd (ZMod p)} (h1 : w.Is n)
    (h2 : w.Is m) : n = m := by
  have key : ∀ a b : ℕ, a < 2 ^ 128 → b < 2 ^ 128 → ((a : ℕ) : ZMod p) = ((b : ℕ) : ZMod p) → a = b := by
    intro a b ha hb h
    have := congrArg ZMod.val h
    rwa [ZMod.val_natCast_of_lt (lt_of_lt_of_le ha hp), ZMod.val_natCast_of_lt (lt_of_lt_of_le hb hp)] at this
  have a1 := key _ _ (Nat.mod_lt _ (by positivity)) (Nat.mod_lt _ (by positivity)) (h1.1.symm.trans h2.1)
  have a2 := key _ _ (by omega) (by omega) (h1.2.symm.trans h2.2)
  rw [← Nat.div_add_mod n (2 ^ 128), ← Nat.div_add_mod m (2 ^ 128), a1, a2]

/-- C85: the bytes of a number, its 256-bit number, the address and back. -/
theorem C85_eth_types (x : BitVec 256) {h a : List Byte} (hh : h.length = 32) (ha : a.length = 20) (b : Bool) :
    leVal (toLe x) = x.toNat ∧ beVal (toBe x) = x.toNat ∧ (toLe x).length = 32 ∧ (toBe x).length = 32 ∧
    (∃ w, hashWord h = some w ∧ w.toNat = beVal h) ∧ hashWord (toBe x) = some x ∧
    (∃ w, addressWord a = some w ∧ w.toNat = beVal a ∧ toAddress w = a) ∧ beVal (toAddress x) = x.toNat % 2 ^ 160 ∧ (toAddress x).length = 20 ∧
    (boolWord b).toNat = b.toNat := by
  have hb : ∀ l : List Byte, l.length ≤ 32 → u256FromBe l = some (BitVec.ofNat 256 (beVal l)) ∧ (BitVec.ofNat 256 (beVal l)).toNat = beVal l := by
    intro l hl
    refine ⟨by rw [u256FromBe, if_pos hl, leBytes_eq]; rfl, ?_⟩
    rw [BitVec.toNat_ofNat, Nat.mod_eq_of_lt]
    have h1 : beVal l < 256 ^ l.length := by have := leVal_lt l.reverse; rwa [List.length_reverse] at this
    exact lt_of_lt_of_le h1 (le_trans (Nat.pow_le_pow_right (by norm_num) hl) (by norm_num))
  have hbe : beVal (toBe x) = x.toNat := by unfold beVal toBe; rw [List.reverse_reverse, leVal_32]
  have hlen : (toBe x).length = 32 := by unfold toBe; rw [List.length_reverse, leBytes32_length]
  have hdrop : ∀ x : BitVec 256, beVal (toAddress x) = x.toNat % 2 ^ 160 := by
    intro x
    unfold beVal toAddress toBe
    rw [List.drop_reverse, List.reverse_reverse, leBytes32_length, leVal_take _ _ (by rw [leBytes32_length]; omega), leVal_32]
    norm_num
  have hal : ∀ x : BitVec 256, (toAddress x).length = 20 := fun x => by unfold toAddress toBe; rw [List.length_drop, List.length_reverse, leBytes32_length]
  refine ⟨leVal_32 x, hbe, leBytes32_length x, hlen, ⟨_, (hb h (by omega)).1, (hb h (by omega)).2⟩, ?_, ?_, hdrop x, hal x, by cases b <;> rfl⟩
  · unfold hashWord
    rw [(hb _ (by omega)).1, hbe, BitVec.ofNat_toNat, BitVec.setWidth_eq]
  · have hz : beVal (List.replicate (32 - a.length) 0 ++ a) = beVal a := by
      unfold beVal
      rw [List.reverse_append, leVal_append, List.reverse_replicate, leVal_zero]; simp
    have h2 := hb (List.replicate (32 - a.length) 0 ++ a) (by simp; omega)
    rw [hz] at h2
    refine ⟨_, h2.1, h2.2, ?_⟩
    have h3 := hdrop (BitVec.ofNat 256 (beVal a))
    rw [h2.2, Nat.mod_eq_of_lt (by have := leVal_lt a.reverse; rw [List.length_reverse, ha] at this; norm_num at this ⊢; exact this)] at h3
    have h4 := leVal_inj (by rw [List.length_reverse, List.length_reverse, hal, ha]) h3
    exact List.reverse_injective h4

/-- C85 (finding): converting a 256-bit number to the field panics for every number that is not below the modulus, it never returns `None`; addresses and bits never panic in a field of
more than `2^160` elements. -/
theorem C85_to_scalar {p : ℕ} [Fact p.Prime] (x : BitVec 256) {a : List Byte} (ha : a.length = 20) (b : Bool) :
    u256Scalar p x = (if x.toNat < p then some (some (x.toNat : ZMod p)) else none) ∧
    (2 ^ 160 ≤ p → addressScalar p a = some (some (beVal a : ZMod p))) ∧ boolScalar p b = some (some (b.toNat : ZMod p)) := by
  have key : ∀ x : BitVec 256, u256Scalar p x = (if x.toNat < p then some (some (x.toNat : ZMod p)) else none) := by
    intro x
    unfold u256Scalar fromBytesLe
    rw [if_neg (by rw [List.length_map, leBytes32_length]; omega)]
    have := leVal_32 x
    unfold leVal at this
    rw [this]
    split <;> rfl
  refine ⟨key x, fun hp => ?_, ?_⟩
  · have hz : leVal (List.replicate (32 - a.length) 0 ++ a).reverse = beVal a := by
      unfold beVal
      rw [List.reverse_append, leVal_append, List.reverse_replicate, leVal_zero]; simp
    unfold addressScalar fromBytesLe
    rw [if_neg (by simp; omega)]
    unfold leVal at hz
    rw [hz, if_pos]
    · rfl
    · have := leVal_lt a.reverse
      rw [List.length_reverse, ha] at this
      refine lt_of_lt_of_le this (le_trans (by norm_num) hp)
  · unfold boolScalar
    have hp := (Fact.out : p.Prime).two_le
    rw [key, if_pos]
    · cases b <;> rfl
    · cases b
      · show 0 < p; omega
      · show 1 < p; omega

/-- The limbs of a chunked list. -/
theorem chunks_two {α : Type} {l : List α} (h : l.length = 32) : chunksOf 16 l = [l.take 16, l.drop 16] := by
  have h1 : l ≠ [] := by intro h0; rw [h0] at h; simp at h
  rw [chunksOf_cons (by norm_num) h1, chunksOf_single (by norm_num) (by rw [List.length_drop, h])]

/-- C85: `to_word` of 32 limbs with the values of bytes is the word of the number. -/
theorem C85_to_word {es : List (Ex F)} {bs : List Byte} (hl : bs.length = 32) (h : es.map (Ex.eval v ch) = bs.map fun b => (b.toNat : F)) :
    ∃ w, toWord es = some w ∧ (w.eval v ch).Is (leVal bs) := by
  have hel : es.length = 32 := by have := congrArg List.length h; simpa [hl] using this
  refine ⟨⟨fromBytesE (es.take 16), fromBytesE (es.drop 16)⟩, ?_, ?_⟩
  · unfold toWord toWordN
    rw [hel, if_neg (by norm_num)]
    simp [chunks_two hel]
  · have h1 : (es.take 16).map (Ex.eval v ch) = (bs.take 16).map fun b => (b.toNat : F) := by rw [List.map_take, h, List.map_take]
    have h2 : (es.drop 16).map (Ex.eval v ch) = (bs.drop 16).map fun b => (b.toNat : F) := by rw [List.map_drop, h, List.map_drop]
    have := halves (F := F) (l := bs) (by omega)
    unfold Wd.eval
    simp only [(C85_from_bytes_expr h1).2, (C85_from_bytes_expr h2).2]
    exact this

/-- C85 (finding): `to_word` of four limbs weighs the limbs with powers of 256, whatever their size: a word of four 64-bit limbs becomes the wrong word unless its limbs 1 and 3 are
zero (in characteristic not dividing `2^64 - 2^8`). -/
theorem C85_to_word_four (a b c d : Ex F) : ∃ w, toWord [a, b, c, d] = some w ∧ (w.eval v ch).lo = a.eval v ch + 256 * b.eval v ch ∧
    (w.eval v ch).hi = c.eval v ch + 256 * d.eval v ch ∧
    (((2 : F) ^ 64 - 2 ^ 8 ≠ 0) → ((w.eval v ch).lo = a.eval v ch + 2 ^ 64 * b.eval v ch ↔ b.eval v ch = 0)) := by
  have hc : chunksOf 2 [a, b, c, d] = [[a, b], [c, d]] := by
    rw [chunksOf_cons (by norm_num) (by simp)]
    show _ :: chunksOf 2 [c, d] = _
    rw [chunksOf_single (n := 2) (a := [c, d]) (by norm_num) rfl]; rfl
  have h1 : (fromBytesE [a, b]).eval v ch = a.eval v ch + 256 * b.eval v ch := by rw [fromBytesE_eval]; simp
  refine ⟨⟨fromBytesE [a, b], fromBytesE [c, d]⟩, ?_, h1, ?_, ?_⟩
  · unfold toWord toWordN
    rw [if_neg (by norm_num)]
    have h4 : [a, b, c, d].length / 2 = 2 := by simp
    rw [h4, hc]
    rfl
  · show (fromBytesE [c, d]).eval v ch = _
    rw [fromBytesE_eval]; simp
  · intro hne
    show (fromBytesE [a, b]).eval v ch = _ ↔ _
    rw [h1]
    constructor
    · intro h
      have h2 : ((2 : F) ^ 64 - 2 ^ 8) * b.eval v ch = 0 := by linear_combination -h
      exact (mul_eq_zero.1 h2).resolve_left hne
    · intro h; rw [h]; ring

/-- C85: the arithmetic of words is by halves, `select` on a bit picks a word, `mul_selector` scales both halves. (Finding: `mul_unchecked` multiplies the halves, see
`C85_mul_unchecked`.) -/
theorem C85_word_ops (a b : Wd (Ex F)) (s : Ex F) (z : Bool) (hs : s.eval v ch = bit z) :
    (Wd.addUnchecked a b).eval v ch = ⟨(a.eval v ch).lo + (b.eval v ch).lo, (a.eval v ch).hi + (b.eval v ch).hi⟩ ∧
    (Wd.subUnchecked a b).eval v ch = ⟨(a.eval v ch).lo - (b.eval v ch).lo, (a.eval v ch).hi - (b.eval v ch).hi⟩ ∧
    (Wd.select s a b).eval v ch = (if z then a.eval v ch else b.eval v ch) ∧
    (Wd.mulSelector a s).eval v ch = (if z then a.eval v ch else ⟨0, 0⟩) ∧ (Wd.fromLo s).eval v ch = ⟨s.eval v ch, 0⟩ := by
  refine ⟨rfl, ?_, ?_, ?_, ?_⟩
  · simp [Wd.eval, Wd.subUnchecked]
  · have h1 := (C85_expr_value (v := v) (ch := ch) [] a.lo b.lo s).2.2.2.2
    have h2 := (C85_expr_value (v := v) (ch := ch) [] a.hi b.hi s).2.2.2.2
    unfold Wd.eval Wd.select
    simp only [h1, h2, hs, selectV]
    cases z <;> simp [bit]
  · unfold Wd.eval Wd.mulSelector
    simp only [Ex.eval, hs]
    cases z <;> simp [bit]
  · simp [Wd.eval, Wd.fromLo]

/-- C85 (finding): `mul_unchecked` is not a product of words: the low halves and the high halves are multiplied separately. For numbers `n`, `m` below `2^128` it is right only
when `n * m` is below `2^128`; for `2^128` and `1` it gives `0`. -/
theorem C85_mul_unchecked (a b : Wd (Ex F)) : (Wd.mulUnchecked a b).eval v ch = ⟨(a.eval v ch).lo * (b.eval v ch).lo, (a.eval v ch).hi * (b.eval v ch).hi⟩ ∧
    ((a.eval v ch).Is (2 ^ 128) → (b.eval v ch).Is 1 → ((Wd.mulUnchecked a b).eval v ch).Is 0) := by
  refine ⟨rfl, fun ha hb => ⟨?_, ?_⟩⟩
  · show (a.eval v ch).lo * (b.eval v ch).lo = _
    rw [ha.1]; norm_num
  · show (a.eval v ch).hi * (b.eval v ch).hi = _
    rw [hb.2]; norm_num

/-- C85 (finding): `eq` of two words is `(1 - dlo) (1 - dhi)` for the differences of the halves: `1` for equal words; but `1` also for words whose halves both differ by 2, and neither `0`
nor `1` in general: it cannot be used as an equality test. -/
theorem C85_word_eq (a b c d : Ex F) : ∃ e, eqE [a, b] [c, d] = some e ∧
    e.eval v ch = (1 - (a.eval v ch - c.eval v ch)) * (1 - (b.eval v ch - d.eval v ch)) ∧
    (a.eval v ch = c.eval v ch → b.eval v ch = d.eval v ch → e.eval v ch = 1) ∧
    (a.eval v ch = c.eval v ch + 2 → b.eval v ch = d.eval v ch + 2 → e.eval v ch = 1) ∧
    (a.eval v ch = c.eval v ch + 3 → b.eval v ch = d.eval v ch → e.eval v ch = -2) := by
  have hc : chunksOf 1 [a, b] = [[a], [b]] := by
    rw [chunksOf_cons (by norm_num) (by simp)]
    show _ :: chunksOf 1 [b] = _
    rw [chunksOf_single (n := 1) (a := [b]) (by norm_num) rfl]; rfl
  have h0 : eqE [a, b] [c, d] = some (notE (orE (((chunksOf 1 [a, b]).map fromBytesE).zipWith (fun a b => .sub a b) [c, d]))) := by
    unfold eqE
    have h4 : [a, b].length / [c, d].length = 1 := by simp
    rw [if_neg (by norm_num), h4]
  have he : (notE (orE (((chunksOf 1 [a, b]).map fromBytesE).zipWith (fun a b => .sub a b) [c, d]))).eval v ch =
      (1 - (a.eval v ch - c.eval v ch)) * (1 - (b.eval v ch - d.eval v ch)) := by
    rw [hc, notE_eval, orE_eval]
    simp [fromBytesE_eval]
  refine ⟨_, h0, he, fun h1 h2 => ?_, fun h1 h2 => ?_, fun h1 h2 => ?_⟩ <;> rw [he, h1, h2] <;> ring

/-! ## C86: the constraint builder -/

/-- All constraints of the builder vanish. -/
def CB.Zero (v ch : ℕ → F) (cb : CB F) : Prop := ∀ c ∈ cb.constraints, c.eval v ch = 0

/-- The value of the current condition, `1` without one. -/
def CB.cval (v ch : ℕ → F) (cb : CB F) : F := match cb.condition with
  | some c => c.eval v ch
  | none => 1

/-- The degree of the current condition. -/
def CB.cdeg (cb : CB F) : ℕ := match cb.condition with
  | some c => c.degree
  | none => 0

theorem add_iff (cb : CB F) (e : Ex F) : (∀ cb', cb.add e = some cb' → cb'.condition = cb.condition ∧ cb'.maxDegree = cb.maxDegree ∧
    (cb'.Zero v ch ↔ cb.Zero v ch ∧ (cb.cval v ch ≠ 0 → e.eval v ch = 0)) ∧ ∃ c : Ex F, cb'.constraints = cb.constraints ++ [c] ∧ c.degree = cb.cdeg + e.degree) ∧
    ((cb.add e).isSome ↔ (cb.maxDegree = 0 ∨ cb.cdeg + e.degree ≤ cb.maxDegree)) := by
  obtain ⟨cs, d, cond⟩ := cb
  cases cond with
  | none =>
    have hadd : (CB.mk cs d none).add e = if d = 0 ∨ e.degree ≤ d then some (CB.mk (cs ++ [e]) d none) else none := by
      simp [CB.add, CB.okDegree]
    rw [hadd]
    by_cases hk : d = 0 ∨ e.degree ≤ d
    · rw [if_pos hk]
      refine ⟨fun cb' h => ?_, by simpa [CB.cdeg] using hk⟩
      cases h
      refine ⟨rfl, rfl, ?_, e, rfl, by simp [CB.cdeg]⟩
      simp [CB.Zero, CB.cval, or_imp, forall_and]
    · rw [if_neg hk]
      refine ⟨fun cb' h => (Option.some_ne_none _ h.symm).elim, ?_⟩
      simpa [CB.cdeg] using hk
  | some c =>
    have hadd : (CB.mk cs d (some c)).add e = if d = 0 ∨ c.degree + e.degree ≤ d then some (CB.mk (cs ++ [.prod c e]) d (some c)) else none := by
      simp only [CB.add, CB.okDegree, Bool.or_eq_true, decide_eq_true_eq]
      rfl
    rw [hadd]
    by_cases hk : d = 0 ∨ c.degree + e.degree ≤ d
    · rw [if_pos hk]
      refine ⟨fun cb' h => ?_, by simpa [CB.cdeg] using hk⟩
      cases h
      refine ⟨rfl, rfl, ?_, _, rfl, rfl⟩
      simp only [CB.Zero, CB.cval, List.mem_append, List.mem_singleton, or_imp, forall_and, forall_eq, Ex.eval, mul_eq_zero]
      tauto
    · rw [if_neg hk]
      refine ⟨fun cb' h => (Option.some_ne_none _ h.symm).elim, ?_⟩
      simpa [CB.cdeg] using hk

/-- A call that is not `condition`. -/
def Op.simple : Op F → Bool
  | .cond _ _ => false
  | _ => true

theorem flat_cond {c : Ex F} {body : List (Op F)} (h : (Op.cond c body).flat = true) : ∀ o ∈ body, Op.simple o = true := by
  intro o ho
  have := List.all_eq_true.1 h o ho
  cases o <;> simp_all [Op.simple]

/-- Specification: the degrees of the polynomials a call without `condition` inside adds, `k` the degree of the condition around it. -/
def Op.degs1 (k : ℕ) : Op F → List ℕ
  | .zero e => [k + e.degree]
  | .equal a b => [k + max a.degree b.degree]
  | .equalWord a b => [k + max a.lo.degree b.lo.degree, k + max a.hi.degree b.hi.degree]
  | .boolean e => [k + 2 * e.degree]
  | .cond _ _ => []

/-- Specification: the degrees of the polynomials added by calls without nested conditions. -/
def Op.degs : Op F → List ℕ
  | .cond c body => body.flatMap (Op.degs1 c.degree)
  | o => Op.degs1 0 o

theorem hold_iff (os : List (Op F)) : Op.Hold v ch os ↔ ∀ o ∈ os, Op.Holds v ch o := by
  induction os with
  | nil => simp [Op.Hold]
  | cons o os ih => simp [Op.Hold, ih]

/-- What a step does to a builder. -/
def Step (v ch : ℕ → F) (cb : CB F) (r : Option (CB F)) (P : Prop) (ds : List ℕ) : Prop :=
  (∀ cb', r = some cb' → cb'.condition = cb.condition ∧ cb'.maxDegree = cb.maxDegree ∧ (cb'.Zero v ch ↔ cb.Zero v ch ∧ P) ∧
    ∃ cs : List (Ex F), cb'.constraints = cb.constraints ++ cs ∧ cs.map Ex.degree = ds) ∧
  (r.isSome ↔ (cb.maxDegree = 0 ∨ ∀ d ∈ ds, d ≤ cb.maxDegree))

theorem step_add (cb : CB F) (e : Ex F) {P : Prop} (hP : P ↔ e.eval v ch = 0) {d : ℕ} (hd : d = cb.cdeg + e.degree) :
    Step v ch cb (cb.add e) (cb.cval v ch ≠ 0 → P) [d] := by
  obtain ⟨h1, h2⟩ := add_iff (v := v) (ch := ch) cb e
  refine ⟨fun cb' h => ?_, by rw [h2, hd]; simp⟩
  obtain ⟨a, b, c, x, hx, hy⟩ := h1 cb' h
  refine ⟨a, b, by rw [c, hP], [x], hx, by simp [hy, hd]⟩

theorem step_bind {cb : CB F} {r : Option (CB F)} {f : CB F → Option (CB F)} {P Q : Prop} {ds es : List ℕ} (h1 : Step v ch cb r P ds)
    (h2 : ∀ cb', cb'.condition = cb.condition → cb'.maxDegree = cb.maxDegree → Step v ch cb' (f cb') Q es) : Step v ch cb (r.bind f) (P ∧ Q) (ds ++ es) := by
  refine ⟨fun cb2 h => ?_, ?_⟩
  · obtain ⟨cb1, e1, e2⟩ := Option.bind_eq_some_iff.1 h
    obtain ⟨a, b, c, xs, hx, hy⟩ := h1.1 cb1 e1
    obtain ⟨a', b', c', xs', hx', hy'⟩ := (h2 cb1 a b).1 cb2 e2
    refine ⟨a'.trans a, b'.trans b, by rw [c', c, and_assoc], xs ++ xs', by rw [hx', hx, List.append_assoc], by rw [List.map_append, hy, hy']⟩
  · cases hr : r with
    | none =>
      have := h1.2
      rw [hr] at this
      simp only [Option.isSome_none, Bool.false_eq_true, false_iff] at this
      simp only [Option.bind_none, Option.isSome_none, Bool.false_eq_true, false_iff]
      push Not at this ⊢
      obtain ⟨h0, d, hd, hd2⟩ := this
      exact ⟨h0, d, List.mem_append_left _ hd, hd2⟩
    | some cb1 =>
      obtain ⟨a, b, -⟩ := h1.1 cb1 hr
      have hh := h1.2
      rw [hr] at hh
      simp only [Option.isSome_some, true_iff] at hh
      rw [Option.bind_some, (h2 cb1 a b).2, b]
      simp only [List.mem_append, or_imp, forall_and]
      tauto

theorem step_nil (cb : CB F) : Step v ch cb (some cb) True [] := ⟨fun cb' h => by cases h; exact ⟨rfl, rfl, by simp, [], by simp, rfl⟩, by simp⟩

theorem Step.congr {cb : CB F} {r : Option (CB F)} {P Q : Prop} {ds es : List ℕ} (h : Step v ch cb r P ds) (hpq : P ↔ Q) (hde : ds = es) : Step v ch cb r Q es := by
  subst hde
  exact ⟨fun cb' h' => by obtain ⟨a, b, c, d⟩ := h.1 cb' h'; exact ⟨a, b, by rw [c, hpq], d⟩, h.2⟩

theorem degree_exprI (i : ℤ) : (exprI i : Ex F).degree = 0 := rfl

theorem step_simple (debug : Bool) (cb : CB F) (o : Op F) (ho : o.simple = true) : Step v ch cb (Op.run debug o cb) (cb.cval v ch ≠ 0 → Op.Holds v ch o) (Op.degs1 cb.cdeg o) := by
  cases o with
  | zero e => rw [Op.run]; exact step_add _ _ (by rw [Op.Holds]) rfl
  | equal a b => rw [Op.run]; exact step_add _ _ (by rw [Op.Holds, eval_sub, sub_eq_zero]) rfl
  | equalWord a b =>
    rw [Op.run]
    refine Step.congr (step_bind (step_add (P := a.lo.eval v ch = b.lo.eval v ch) cb _ (by rw [eval_sub, sub_eq_zero]) rfl) (Q := cb.cval v ch ≠ 0 → a.hi.eval v ch = b.hi.eval v ch)
      (es := [cb.cdeg + max a.hi.degree b.hi.degree]) ?_) ?_ rfl
    · intro cb' h1 _
      have e1 : cb'.cval v ch = cb.cval v ch := by unfold CB.cval; rw [h1]
      have e2 : cb'.cdeg = cb.cdeg := by unfold CB.cdeg; rw [h1]
      rw [← e1, ← e2]
      exact step_add _ _ (by rw [eval_sub, sub_eq_zero]) rfl
    · rw [Op.Holds]
      unfold Wd.eval
      rw [Wd.mk.injEq]
      tauto
  | boolean e =>
    rw [Op.run]
    refine step_add _ _ ?_ ?_
    · rw [Op.Holds]
      simp only [Ex.eval, eval_sub, eval_exprI, Int.cast_one, mul_eq_zero, sub_eq_zero]
      rw [eq_comm (a := (1 : F))]
    · simp only [Ex.degree, Ex.sub, degree_exprI]
      omega
  | cond c body => simp [Op.simple] at ho

theorem step_body (debug : Bool) (os : List (Op F)) (h : ∀ o ∈ os, Op.simple o = true) :
    ∀ cb : CB F, Step v ch cb (Op.runs debug os cb) (cb.cval v ch ≠ 0 → Op.Hold v ch os) (os.flatMap (Op.degs1 cb.cdeg)) := by
  induction os with
  | nil => intro cb; rw [Op.runs]; exact Step.congr (step_nil cb) (by simp [Op.Hold]) rfl
  | cons o os ih =>
    intro cb
    rw [Op.runs]
    refine Step.congr (step_bind (step_simple debug cb o (h o (by simp))) (Q := cb.cval v ch ≠ 0 → Op.Hold v ch os) (es := os.flatMap (Op.degs1 cb.cdeg)) ?_) ?_ ?_
    · intro cb' h1 _
      have e1 : cb'.cval v ch = cb.cval v ch := by unfold CB.cval; rw [h1]
      have e2 : cb'.cdeg = cb.cdeg := by unfold CB.cdeg; rw [h1]
      rw [← e1, ← e2]
      exact ih (fun o ho => h o (List.mem_cons_of_mem _ ho)) cb'
    · rw [Op.Hold]; tauto
    · rfl

theorem step_flat (debug : Bool) (cb : CB F) (hc : cb.condition = none) (o : Op F) (ho : o.flat = true) : Step v ch cb (Op.run debug o cb) (Op.Holds v ch o) o.degs := by
  have e1 : cb.cval v ch = 1 := by unfold CB.cval; rw [hc]
  have e2 : cb.cdeg = 0 := by unfold CB.cdeg; rw [hc]
  cases o with
  | cond c body =>
    rw [Op.run, if_neg (by simp [hc])]
    have h := step_body (v := v) (ch := ch) debug body (flat_cond ho) { cb with condition := some c }
    refine ⟨fun cb' h' => ?_, by rw [Option.isSome_map]; exact h.2⟩
    obtain ⟨cb1, h1, rfl⟩ := Option.map_eq_some_iff.1 h'
    obtain ⟨-, b, c', d⟩ := h.1 cb1 h1
    refine ⟨hc.symm, b, ?_, d⟩
    rw [Op.Holds]
    exact c'
  | zero e =>
    have := step_simple (v := v) (ch := ch) debug cb (.zero e) rfl
    rw [e1, e2] at this
    exact Step.congr this (by simp) rfl
  | equal a b =>
    have := step_simple (v := v) (ch := ch) debug cb (.equal a b) rfl
    rw [e1, e2] at this
    exact Step.congr this (by simp) rfl
  | equalWord a b =>
    have := step_simple (v := v) (ch := ch) debug cb (.equalWord a b) rfl
    rw [e1, e2] at this
    exact Step.congr this (by simp) rfl
  | boolean e =>
    have := step_simple (v := v) (ch := ch) debug cb (.boolean e) rfl
    rw [e1, e2] at this
    exact Step.congr this (by simp) rfl

theorem step_flats (debug : Bool) (os : List (Op F)) (h : ∀ o ∈ os, o.flat = true) : ∀ cb : CB F, cb.condition = none →
    Step v ch cb (Op.runs debug os cb) (Op.Hold v ch os) (os.flatMap Op.degs) := by
  induction os with
  | nil => intro cb _; rw [Op.runs]; exact Step.congr (step_nil cb) (by simp [Op.Hold]) rfl
  | cons o os ih =>
    intro cb hc
    rw [Op.runs]
    exact Step.congr (step_bind (step_flat debug cb hc o (h o (by simp))) fun cb' h1 _ => ih (fun o ho => h o (List.mem_cons_of_mem _ ho)) cb' (h1.trans hc)) (by rw [Op.Hold]) rfl

/-- C86: for every sequence of calls without nested conditions, in debug and in release builds: the polynomials of the gate all vanish exactly when the selector is zero or everything the
calls require holds (conditional calls where the condition is non-zero), and none of them has a degree above the maximum. -/
theorem C86_gate_iff (debug : Bool) {os : List (Op F)} (hf : ∀ o ∈ os, o.flat = true) (d : ℕ) (sel : Ex F) {gs : List (Ex F)}
    (h : ((Op.runs debug os (CB.new d)).bind fun cb => cb.gate sel) = some gs) :
    ((∀ g ∈ gs, g.eval v ch = 0) ↔ (sel.eval v ch = 0 ∨ Op.Hold v ch os)) ∧ (0 < d → ∀ g ∈ gs, g.degree ≤ d) := by
  obtain ⟨cb, h1, h2⟩ := Option.bind_eq_some_iff.1 h
  obtain ⟨-, hm, hz, cs, hcs, -⟩ := (step_flats (v := v) (ch := ch) debug os hf (CB.new d) rfl).1 cb h1
  unfold CB.gate at h2
  dsimp only at h2
  split at h2
  · next hall =>
    cases h2
    constructor
    · have hz' : cb.Zero v ch ↔ Op.Hold v ch os := by rw [hz]; simp [CB.Zero, CB.new]
      rw [← hz']
      by_cases hs : sel.eval v ch = 0
      · simp [hs, Ex.eval]
      · simp [hs, Ex.eval, CB.Zero]
    · intro hd g hg
      have := List.all_eq_true.1 hall g hg
      unfold CB.okDegree at this
      rw [show cb.maxDegree = d from hm] at this
      simp only [Bool.or_eq_true, decide_eq_true_eq] at this
      omega
  · cases h2

/-- C86: building the gate panics exactly when one of its polynomials would have a degree above the (non-zero) maximum. -/
theorem C86_gate_total (debug : Bool) {os : List (Op F)} (hf : ∀ o ∈ os, o.flat = true) (d : ℕ) (sel : Ex F) :
    ((Op.runs debug os (CB.new d)).bind fun cb => cb.gate sel).isSome ↔ (d = 0 ∨ ∀ k ∈ os.flatMap Op.degs, sel.degree + k ≤ d) := by
  have h := step_flats (v := fun _ => (0 : F)) (ch := fun _ => 0) debug os hf (CB.new d) rfl
  cases hr : Op.runs debug os (CB.new d) with
  | none =>
    have := h.2
    rw [hr] at this
    simp only [Option.isSome_none, Bool.false_eq_true, false_iff, CB.new] at this
    simp only [Option.bind_none, Option.isSome_none, Bool.false_eq_true, false_iff]
    push Not at this ⊢
    obtain ⟨h0, k, hk, hk2⟩ := this
    exact ⟨h0, k, hk, by omega⟩
  | some cb =>
    obtain ⟨-, hm, -, cs, hcs, hds⟩ := h.1 cb hr
    have hcs' : cb.constraints = cs := by rw [hcs]; simp [CB.new]
    rw [Option.bind_some, ← hds]
    unfold CB.gate CB.okDegree
    rw [show cb.maxDegree = d from hm, hcs']
    dsimp only
    have hiff : ((cs.map fun c => Ex.prod sel c).all fun c => decide (d = 0) || decide (c.degree ≤ d)) = true ↔ (d = 0 ∨ ∀ k ∈ cs.map Ex.degree, sel.degree + k ≤ d) := by
      by_cases h0 : d = 0
      · simp [h0]
      · simp only [h0, Ex.degree, List.all_eq_true, List.mem_map, forall_exists_index, and_imp, forall_apply_eq_imp_iff₂, decide_false, Bool.false_or, decide_eq_true_eq, false_or]
    rw [← hiff]
    by_cases hh : ((cs.map fun c => Ex.prod sel c).all fun c => decide (d = 0) || decide (c.degree ≤ d)) = true
    · rw [if_pos hh]; simp [hh]
    · rw [if_neg hh]; simp [hh]

/-- C86 (finding): a `condition` inside a `condition` panics in debug builds only. In release builds the inner condition replaces the outer one, and what follows it in the outer
block is required unconditionally: the gate fails on values that satisfy everything asked for, and accepts values that do not. -/
theorem C86_nested (c1 c2 x y sel : Ex F) :
    Op.runs true [.cond c1 [.cond c2 [.zero x], .zero y]] (CB.new (F := F) 0) = none ∧
    (∃ gs, ((Op.runs false [.cond c1 [.cond c2 [.zero x], .zero y]] (CB.new (F := F) 0)).bind fun cb => cb.gate sel) = some gs ∧
      ((∀ g ∈ gs, g.eval v ch = 0) ↔ (sel.eval v ch = 0 ∨ ((c2.eval v ch ≠ 0 → x.eval v ch = 0) ∧ y.eval v ch = 0))) ∧
      (c1.eval v ch = 0 → sel.eval v ch ≠ 0 → y.eval v ch ≠ 0 →
        Op.Hold v ch [.cond c1 [.cond c2 [.zero x], .zero y]] ∧ ¬ ∀ g ∈ gs, g.eval v ch = 0)) := by
  refine ⟨rfl, [.prod sel (.prod c2 x), .prod sel y], rfl, ?_, fun h1 h2 h3 => ⟨?_, ?_⟩⟩
  · simp only [List.mem_cons, List.not_mem_nil, or_false, forall_eq_or_imp, forall_eq, Ex.eval, mul_eq_zero]
    tauto
  · simp [Op.Hold, Op.Holds, h1]
  · simp [Ex.eval, h2, h3]

/-! ## Non-vacuity -/

/-- The bytes of `0x0102`. -/
example : leVal [2, 1] = 258 ∧ beVal [1, 2] = 258 ∧ (fromBytesV [2, 1] : ℚ) = 258 :=
  ⟨by decide +kernel, by decide +kernel, by rw [C85_from_bytes_value, show leVal [2, 1] = 258 by decide +kernel]; norm_num⟩

/-- The hypotheses of `C85_to_word`: constant limbs. -/
example (bs : List Byte) (h : bs.length = 32) : ∃ w : Wd (Ex ℚ), toWord (bs.map fun b => .const (b.toNat : ℚ)) = some w ∧
    (w.eval (fun _ => 0) (fun _ => 0)).Is (leVal bs) :=
  C85_to_word h (by rw [List.map_map]; rfl)

/-- A gate with a bit, a conditional equality and the degree limit 3: it is built; by `C86_gate_iff` it holds of `q0 = 1, q1 = q2 = 7` but not of `q0 = 1, q1 = 7, q2 = 8`. The limit 2 is
too low. -/
example : ∃ gs : List (Ex ℚ),
    ((Op.runs true [.boolean (.q 0), .cond (.q 0) [.equal (.q 1) (.q 2)]] (CB.new 3)).bind fun cb => cb.gate (.q 3)) = some gs ∧ (∀ g ∈ gs, g.degree ≤ 3) ∧
    (∀ g ∈ gs, g.eval (fun i => if i = 1 ∨ i = 2 then 7 else 1) (fun _ => 0) = 0) ∧ ¬ ∀ g ∈ gs, g.eval (fun i => if i = 1 then 7 else if i = 2 then 8 else 1) (fun _ => 0) = 0 := by
  have hf : ∀ o ∈ ([.boolean (.q 0), .cond (.q 0) [.equal (.q 1) (.q 2)]] : List (Op ℚ)), o.flat = true := by simp [Op.flat]
  obtain ⟨gs, hgs⟩ := Option.isSome_iff_exists.1 ((C86_gate_total true hf 3 (.q 3)).2 (by simp [Op.degs, Op.degs1, Ex.degree]))
  refine ⟨gs, hgs, (C86_gate_iff (v := fun _ => 0) (ch := fun _ => 0) true hf 3 _ hgs).2 (by omega), ?_, ?_⟩
  · rw [(C86_gate_iff true hf 3 _ hgs).1]; simp [Op.Hold, Op.Holds, Ex.eval]
  · rw [(C86_gate_iff true hf 3 _ hgs).1]; simp [Op.Hold, Op.Holds, Ex.eval]

example : ((Op.runs true [.boolean (.q 0), .cond (.q 0) [.equal (.q 1) (.q 2)]] (CB.new (F := ℚ) 2)).bind fun cb => cb.gate (.q 3)) = none := by
  have hf : ∀ o ∈ ([.boolean (.q 0), .cond (.q 0) [.equal (.q 1) (.q 2)]] : List (Op ℚ)), o.flat = true := by simp [Op.flat]
  have := (C86_gate_total true hf 2 (.q 3)).not.2 (by simp [Op.degs, Op.degs1, Ex.degree])
  simpa using this

end H2.Zk
