import Verif.Sha.Sound

/-!
# Padding, lengths and the chaining of blocks
-/

set_option autoImplicit false
namespace H2.Sha
variable {p : ℕ} [Fact p.Prime]

/-- Four bytes as a little-endian number. -/
def pack4 (x0 x1 x2 x3 : ℕ) : ℕ := x0 + x1 * 2 ^ 8 + x2 * 2 ^ 16 + x3 * 2 ^ 24

/-- The word of four message bytes, little-endian (`word_values`); bytes after the end of the message are 0. -/
def leWord (m : List Byte) (i : ℕ) : ℕ :=
  pack4 (m.getD (4 * i) 0).toNat (m.getD (4 * i + 1) 0).toNat (m.getD (4 * i + 2) 0).toNat (m.getD (4 * i + 3) 0).toNat

/-- util.rs:9-12 `get_num_sha2_blocks` -/
def numSha2Blocks (l : ℕ) : ℕ := (l + 8) / 64 + 1

theorem b2f_inj {F : Type} [Field F] {a b : Bool} (h : (b2f a : F) = b2f b) : a = b := by
  cases a <;> cases b <;> simp_all [b2f]

theorem b2f_eq_zero {F : Type} [Field F] {a : Bool} : (b2f a : F) = 0 ↔ a = false := by cases a <;> simp [b2f]
theorem b2f_eq_one {F : Type} [Field F] {a : Bool} : (b2f a : F) = 1 ↔ a = true := by cases a <;> simp [b2f]

theorem le_sum {F : Type} [Field F] (x0 x1 x2 x3 : ℕ) :
    (x0 : F) + 256 * ((x1 : F) + 256 * ((x2 : F) + 256 * ((x3 : F) + 256 * 0))) = ((pack4 x0 x1 x2 x3 : ℕ) : F) := by
  unfold pack4
  push_cast
  ring

section
variable {n : ℕ} {adv : ℤ → Row (ZMod p)} (hs : ShaSat n adv)
include hs

theorem exists_pads : ∃ P : ℕ → ℕ → Bool, ∀ r < 72 * n, ∀ i < 4, (adv r).pad i = b2f (P r i) := by
  have h : ∀ (r i : ℕ), ∃ b : Bool, r < 72 * n → i < 4 → (adv r).pad i = b2f b := by
    intro r i
    by_cases h : r < 72 * n ∧ i < 4
    · obtain ⟨b, hb⟩ := bool_cases ((sat_padding hs h.1).1 i h.2)
      exact ⟨b, fun _ _ => hb⟩
    · exact ⟨false, fun h1 h2 => (h ⟨h1, h2⟩).elim⟩
  choose P hP using h
  exact ⟨P, fun r hr i hi => hP r i hr hi⟩

variable {P : ℕ → ℕ → Bool} (hP : ∀ r < 72 * n, ∀ i < 4, (adv r).pad i = b2f (P r i))
include hP

theorem final_eq {b : ℕ} (hb : b < n) : (adv (72 * b + 71 : ℕ)).isFinal = b2f (P (72 * b + 17) 3) := by
  have h := (sat_final hs (r := 72 * b + 71) (by omega)).2.1 (by omega)
  rw [h, ← hP (72 * b + 17) (by omega) 3 (by omega)]
  congr 2; push_cast; ring

/-- Does a new hash start in block `b`? -/
def startB (P : ℕ → ℕ → Bool) (b : ℕ) : Bool := if b = 0 then true else P (72 * (b - 1) + 17) 3

theorem start_eq {b k : ℕ} (hb : b < n) (hk : k < 4) : (adv (72 * b + k : ℕ)).isFinal = b2f (startB P b) := by
  induction k with
  | zero =>
    by_cases h0 : b = 0
    · subst h0
      rw [(sat_final hs (r := 72 * 0 + 0) (by omega)).1 rfl]; simp [startB, b2f]
    · rw [(sat_final hs (r := 72 * b + 0) (by omega)).2.2 (by omega) (by omega)]
      have h := final_eq hs hP (b := b - 1) (by omega)
      rw [startB, if_neg h0, ← h]
      congr 2; push_cast; omega
  | succ k ih =>
    rw [(sat_final hs (r := 72 * b + (k + 1)) (by omega)).2.2 (by omega) (by omega), ← ih (by omega)]
    congr 2; push_cast; ring

theorem cross_eq {b k : ℕ} (hb : b < n) (hk : k < 4) (col : Row (ZMod p) → ZMod p) (hc : col = (·.length) ∨ col = fun x => x.pad 3) :
    col (adv (72 * b + k : ℕ)) = if startB P b then 0 else col (adv (72 * (b - 1) + 19 : ℕ)) := by
  induction k with
  | zero =>
    by_cases h0 : b = 0
    · subst h0
      rw [(sat_cross hs (r := 72 * 0 + 0) (by omega) col hc).2.2 rfl]; simp [startB]
    · rw [(sat_cross hs (r := 72 * b + 0) (by omega) col hc).2.1 (by omega) (by omega), start_eq hs hP hb (by omega)]
      have h := (sat_cross hs (r := 72 * (b - 1) + 71) (by omega) col hc).1 (by omega)
      have e1 : (((72 * b + 0 : ℕ) : ℤ) - 1) = ((72 * (b - 1) + 71 : ℕ) : ℤ) := by omega
      have e2 : (((72 * (b - 1) + 71 : ℕ) : ℤ) - 52) = ((72 * (b - 1) + 19 : ℕ) : ℤ) := by omega
      rw [e1, h, e2]
      cases startB P b <;> simp [b2f]
  | succ k ih =>
    have e1 : (((72 * b + (k + 1) : ℕ) : ℤ) - 1) = ((72 * b + k : ℕ) : ℤ) := by omega
    rw [(sat_cross hs (r := 72 * b + (k + 1)) (by omega) col hc).2.1 (by omega) (by omega), start_eq hs hP hb (by omega), e1, ih (by omega)]
    cases startB P b <;> simp [b2f]

theorem carry_eq {b : ℕ} (hb : b < n) : P (72 * b + 3) 3 = (!startB P b && P (72 * (b - 1) + 19) 3) := by
  have h := cross_eq hs hP (k := 3) hb (by omega) (fun x => x.pad 3) (.inr rfl)
  rw [hP _ (by omega) 3 (by omega)] at h
  by_cases h0 : startB P b
  · rw [if_pos h0] at h
    simp [h0, b2f_eq_zero.mp h]
  · rw [if_neg h0, hP _ (by omega) 3 (by omega)] at h
    simp [h0, b2f_inj h]

/-- The previous padding selector. -/
def prevPad (P : ℕ → ℕ → Bool) (b k : ℕ) : Bool :=
  if k = 0 then P (72 * b + 3) 3 else P (72 * b + 4 + (k - 1) / 4) ((k - 1) % 4)

theorem byte_rule (D : Words n adv) (hp : 2 ^ 35 ≤ p) {b k : ℕ} (hb : b < n) (hk : k < 64) :
    (prevPad P b k = true → P (72 * b + 4 + k / 4) (k % 4) = true) ∧
    (P (72 * b + 4 + k / 4) (k % 4) = true → (k < 60 ∨ P (72 * b + 17) 3 = false) →
      byteW (D.w (72 * b + 4 + k / 4)) (k % 4) = if prevPad P b k then 0 else 128) := by
  have hr : 72 * b + 4 + k / 4 < 72 * n := by omega
  obtain ⟨h1, h2⟩ := (sat_padding hs hr).2.1 (k % 4) (by omega) (by omega) (by omega)
  have hprev : (if k % 4 = 0 then (adv (((72 * b + 4 + k / 4 : ℕ) : ℤ) - 1)).pad 3 else (adv ((72 * b + 4 + k / 4 : ℕ) : ℤ)).pad (k % 4 - 1)) =
      b2f (prevPad P b k) := by
    by_cases h0 : k % 4 = 0
    · rw [if_pos h0]
      have e1 : (((72 * b + 4 + k / 4 : ℕ) : ℤ) - 1) = ((72 * b + 3 + k / 4 : ℕ) : ℤ) := by omega
      rw [e1, hP _ (by omega) 3 (by omega), prevPad]
      congr 1
      split
      · rw [show k / 4 = 0 by omega]
      · rw [show 72 * b + 3 + k / 4 = 72 * b + 4 + (k - 1) / 4 by omega, show (k - 1) % 4 = 3 by omega]
    · rw [if_neg h0, hP _ (by omega) _ (by omega), prevPad, if_neg (by omega)]
      congr 1
      rw [show (k - 1) / 4 = k / 4 by omega, show (k - 1) % 4 = k % 4 - 1 by omega]
  rw [hprev, hP _ hr _ (by omega)] at h1 h2
  have h2p : (2 : ZMod p) ≠ 0 := by
    intro h
    have := cast_inj (p := p) (a := 2) (b := 0) (by omega) (by omega) (by push_cast; exact h)
    omega
  generalize P (72 * b + 4 + k / 4) (k % 4) = x at *
  generalize prevPad P b k = y at *
  constructor
  · intro hy
    subst hy
    cases x
    · exfalso
      simp only [b2f] at h1
      have : (2 : ZMod p) = 0 := by
        simp only [if_true, Bool.false_eq_true, if_false] at h1
        linear_combination -h1
      exact h2p this
    · rfl
  · intro hx hk60
    subst hx
    have e3 : (((72 * b + 4 + k / 4 : ℕ) : ℤ) - 2) = ((72 * b + 2 + k / 4 : ℕ) : ℤ) := by omega
    have h3 := h2 ⟨by simp [b2f], by
      by_cases h19 : (72 * b + 4 + k / 4) % 72 = 19
      · right
        rw [e3, hP _ (by omega) 3 (by omega), show 72 * b + 2 + k / 4 = 72 * b + 17 by omega]
        rw [hk60.resolve_left (by omega)]
        simp [b2f]
      · exact .inl h19⟩
    rw [inputBytes, D.wCur hr rfl, toBeBytes_bitsOf] at h3
    simp only [List.getD, List.getElem?_map, List.getElem?_range (show k % 4 < 4 by omega), Option.map_some, Option.getD_some] at h3
    have hlt := (byteW (D.w (72 * b + 4 + k / 4)) (k % 4)).isLt
    norm_num at hlt hp
    generalize byteW (D.w (72 * b + 4 + k / 4)) (k % 4) = B at *
    apply BitVec.eq_of_toNat_eq
    cases y
    · simp only [b2f, if_true, Bool.false_eq_true, if_false] at h3 ⊢
      exact cast_inj (p := p) (by omega) (b := 128) (by omega) (by rw [h3]; push_cast; ring)
    · simp only [b2f, if_true] at h3 ⊢
      exact cast_inj (p := p) (by omega) (b := 0) (by omega) (by rw [h3]; push_cast; ring)

theorem length_word (D : Words n adv) {b : ℕ} (hb : b < n) (hf : P (72 * b + 17) 3 = true) :
    (((D.w (72 * b + 19)).toNat : ℕ) : ZMod p) = (adv (72 * b + 19 : ℕ)).length * 8 := by
  have h := (sat_padding hs (r := 72 * b + 19) (by omega)).2.2 (by omega)
  have e3 : (((72 * b + 19 : ℕ) : ℤ) - 2) = ((72 * b + 17 : ℕ) : ℤ) := by omega
  rw [e3, hP _ (by omega) 3 (by omega), hf, D.wCur (r := 72 * b + 19) (by omega) rfl, decode_bitsOf] at h
  exact h (by simp [b2f])

theorem io_word (D : Words n adv) {b t : ℕ} (hb : b < n) (ht : t < 16) :
    (adv (72 * b + 4 + t : ℕ)).io = ((pack4 (if P (72 * b + 4 + t) 0 then (0 : Byte) else byteW (D.w (72 * b + 4 + t)) 0).toNat
      (if P (72 * b + 4 + t) 1 then (0 : Byte) else byteW (D.w (72 * b + 4 + t)) 1).toNat
      (if P (72 * b + 4 + t) 2 then (0 : Byte) else byteW (D.w (72 * b + 4 + t)) 2).toNat
      (if P (72 * b + 4 + t) 3 then (0 : Byte) else byteW (D.w (72 * b + 4 + t)) 3).toNat : ℕ) : ZMod p) := by
  have hr : 72 * b + 4 + t < 72 * n := by omega
  rw [sat_word hs hr (by omega) (by omega), inputBytes, D.wCur hr rfl, toBeBytes_bitsOf]
  have h0 := hP _ hr 0 (by omega)
  have h1 := hP _ hr 1 (by omega)
  have h2 := hP _ hr 2 (by omega)
  have h3 := hP _ hr 3 (by omega)
  have key : ∀ (x : Byte) (b : Bool), ((x.toNat : ℕ) : ZMod p) * notE (b2f b) = (((if b then (0 : Byte) else x).toNat : ℕ) : ZMod p) := by
    intro x b; cases b <;> simp [b2f, notE]
  simp only [List.range_succ, List.range_zero, List.nil_append, List.map_cons, List.map_nil, List.cons_append,
    List.zipWith_cons_cons, List.zipWith_nil_left, fromBytes_cons, fromBytes_nil, h0, h1, h2, h3, List.sum_cons, List.sum_nil, key]
  exact le_sum _ _ _ _

theorem length_row {b t : ℕ} (hb : b < n) (ht : t < 16) :
    (adv (72 * b + 4 + t : ℕ)).length = (adv (72 * b + 3 + t : ℕ)).length +
      (((List.range 4).map fun k => if P (72 * b + 4 + t) k then 0 else 1).sum : ℕ) := by
  have hr : 72 * b + 4 + t < 72 * n := by omega
  have e3 : (((72 * b + 4 + t : ℕ) : ℤ) - 1) = ((72 * b + 3 + t : ℕ) : ℤ) := by omega
  rw [sat_length hs hr (by omega) (by omega), e3]
  have h0 := hP _ hr 0 (by omega)
  have h1 := hP _ hr 1 (by omega)
  have h2 := hP _ hr 2 (by omega)
  have h3 := hP _ hr 3 (by omega)
  simp only [List.range_succ, List.range_zero, List.nil_append, List.map_append, List.map_cons, List.map_nil, List.cons_append,
    sumE, List.foldl_cons, List.foldl_nil, h0, h1, h2, h3, List.sum_cons, List.sum_nil]
  cases P (72 * b + 4 + t) 0 <;> cases P (72 * b + 4 + t) 1 <;> cases P (72 * b + 4 + t) 2 <;> cases P (72 * b + 4 + t) 3 <;>
    simp [b2f, notE] <;> ring

end
end H2.Sha
