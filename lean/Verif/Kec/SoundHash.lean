import Verif.Kec.Sound

/-!
# A run of blocks ending in a final block computes Keccak-256
-/

set_option autoImplicit false
set_option linter.unusedSectionVars false
namespace H2.Kec
open H2.Sha (Z Z_append Z_gate Z_cond Z_gate1 Z_reqEq Z_reqZero Z_reqBool Z_flatMap ind_eq_zero ind b2f bool_cases b2f_inj notE selE sumE andE
  fromBytes fromBytes_nil fromBytes_cons fromBytes_append reqEq reqZero reqBool gate cond)

variable {p : ℕ} [Fact p.Prime] {k h n : ℕ} {a : Adv (ZMod p)}

/-- The state with the lanes of a block xored in. -/
def xorBlock (A : St) (w : ℕ → Lane) : St := fun x y => if x + 5 * y < 17 then A x y ^^^ w (x + 5 * y) else A x y

theorem spread_zero : spread 0#64 = 0 := by decide +kernel

/-- The padding and byte cells. -/
structure Cells (k h n : ℕ) (a : Adv (ZMod p)) (P : ℕ → ℕ → Bool) (D : ℕ → ℕ → Byte) : Prop where
  sat : KecSat k h n a
  good : GoodL k h
  hp : 8 ^ 82 ≤ p
  pads : ∀ R, R < 1 + n * 25 → ∀ i, i < 8 → padAt (layout k h) a (bs h R) i = b2f (P R i)
  bytes : ∀ R, 1 ≤ R → R < 1 + n * 25 → (R - 1) % 25 < 24 →
    (∀ i, i < 8 → byteAt (layout k h) a (bs h R) i = (((D R i).toNat : ℕ) : ZMod p)) ∧
      a.val (bs h R) (layout k h).absorbData = ((spread (lane8 (D R)) : ℕ) : ZMod p)

section
variable {P : ℕ → ℕ → Bool} {D : ℕ → ℕ → Byte} (C : Cells k h n a P D)
include C

/-- The state at the start of a block. -/
theorem block_start {b : ℕ} (hb : b < n) {A : St} (hA : startB P b = false → StIs k h a (25 * b) A) :
    StIs k h a (25 * b + 1) (xorBlock (if startB P b then fun _ _ => 0#64 else A) fun q => lane8 (D (25 * b + 1 + q))) := by
  intro i hi j hj
  have hh := C.good.hh
  obtain ⟨h1, h2⟩ := sat_absorb C.sat hh C.pads hb hi hj
  unfold xorBlock
  have hcomm : i + j * 5 = i + 5 * j := by ring
  rw [hcomm] at h1 h2
  cases hst : startB P b
  · obtain ⟨g1, g2⟩ := h2 hst
    have hA := hA hst i hi j hj
    rw [g2]
    by_cases hc : i + 5 * j < 17
    · rw [if_pos hc, if_pos hc]
      exact absorb_xor C.sat C.good C.hp (by omega) (by omega) (by omega) (by rw [g1 hc]; exact hA) (C.bytes _ (by omega) (by omega) (by omega)).2
    · rw [if_neg hc, if_neg hc]; exact hA
  · rw [h1 hst]
    by_cases hc : i + 5 * j < 17
    · rw [if_pos hc, if_pos hc, if_pos rfl, (C.bytes _ (by omega) (by omega) (by omega)).2, BitVec.zero_xor]
    · rw [if_neg hc, if_neg hc, if_pos rfl, spread_zero, Nat.cast_zero]

theorem block_rounds {b : ℕ} (hb : b < n) {A : St} (hA : StIs k h a (25 * b + 1) A) (t : ℕ) (ht : t ≤ 24) :
    StIs k h a (25 * b + 1 + t) (rnds A t) := by
  induction t with
  | zero => exact hA
  | succ t ih =>
    have := round_step C.sat C.good C.hp (R := 25 * b + 1 + t) (by omega) (by omega) (by omega) (ih (by omega))
    rw [show (25 * b + 1 + t - 1) % 25 = t by omega] at this
    exact this

theorem block_step {b : ℕ} (hb : b < n) {A : St} (hA : startB P b = false → StIs k h a (25 * b) A) :
    StIs k h a (25 * (b + 1)) (keccakF (xorBlock (if startB P b then fun _ _ => 0#64 else A) fun q => lane8 (D (25 * b + 1 + q)))) := by
  have := block_rounds C hb (block_start C hb hA) 24 (le_refl _)
  rw [show 25 * b + 1 + 24 = 25 * (b + 1) by ring] at this
  exact this

end

/-! ### Runs -/

/-- The blocks `s, …, s + N - 1` form one hash. -/
structure Run (P : ℕ → ℕ → Bool) (n s N : ℕ) : Prop where
  pos : 0 < N
  le : s + N ≤ n
  start : startB P s = true
  mid : ∀ i, i + 1 < N → P (25 * (s + i) + 17) 7 = false
  fin : P (25 * (s + (N - 1)) + 17) 7 = true

/-- The padding selector and the byte number `j` of the run. -/
def PD (P : ℕ → ℕ → Bool) (s j : ℕ) : Bool := P (25 * (s + j / 136) + 1 + j % 136 / 8) (j % 8)
def BY (D : ℕ → ℕ → Byte) (s j : ℕ) : Byte := D (25 * (s + j / 136) + 1 + j % 136 / 8) (j % 8)

theorem lane8_append (f : ℕ → Byte) : lane8 f = f 7 ++ f 6 ++ f 5 ++ f 4 ++ f 3 ++ f 2 ++ f 1 ++ f 0 := rfl

theorem leLane_eq {l : List Byte} {i : ℕ} {f : ℕ → Byte} (hf : ∀ c, c < 8 → l.getD (8 * i + c) 0 = f c) : leLane l i = lane8 f := by
  rw [lane8_append, leLane, hf 7 (by norm_num), hf 6 (by norm_num), hf 5 (by norm_num), hf 4 (by norm_num), hf 3 (by norm_num), hf 2 (by norm_num),
    hf 1 (by norm_num), ← hf 0 (by norm_num)]
  rfl

theorem range_getD {f : ℕ → Byte} {m j : ℕ} : ((List.range m).map f).getD j 0 = if j < m then f j else 0 := by
  split
  · rename_i hj; simp [List.getD_eq_getElem?_getD, hj]
  · rename_i hj; exact getD_ge (by simp; omega)

section
variable {P : ℕ → ℕ → Bool} {D : ℕ → ℕ → Byte} (C : Cells k h n a P D) {s N : ℕ} (R : Run P n s N)
include R

theorem run_start {i : ℕ} (hi : i < N) : startB P (s + i) = decide (i = 0) := by
  by_cases h0 : i = 0
  · subst h0; simp [R.start]
  · have := R.mid (i - 1) (by omega)
    simp only [startB, h0, decide_false]
    rw [if_neg (by omega), show s + i - 1 = s + (i - 1) by omega]
    exact this

include C

/-- The state after `i` blocks. -/
theorem run_chain (i : ℕ) (hi : i < N) : StIs k h a (25 * (s + i + 1)) (absorbed ((List.range (136 * N)).map (BY D s)) (i + 1)) := by
  have hle := R.le
  have hstep : ∀ i, i < N → ∀ A : St,
      keccakF (xorBlock A fun q => lane8 (D (25 * (s + i) + 1 + q))) = absorbBlock ((List.range (136 * N)).map (BY D s)) i A := by
    intro i hi A
    unfold absorbBlock xorBlock
    congr 1
    funext x y
    by_cases hc : x + 5 * y < 17
    · rw [if_pos hc, if_pos hc]
      congr 1
      symm
      apply leLane_eq
      intro c hc8
      rw [range_getD, if_pos (by omega), BY, show (8 * (17 * i + (x + 5 * y)) + c) / 136 = i by omega,
        show (8 * (17 * i + (x + 5 * y)) + c) % 136 / 8 = x + 5 * y by omega, show (8 * (17 * i + (x + 5 * y)) + c) % 8 = c by omega]
    · rw [if_neg hc, if_neg hc]
  induction i with
  | zero =>
    have := block_step C (b := s + 0) (by omega) (A := fun _ _ => 0#64) (by rw [run_start R hi]; simp)
    rw [run_start R hi, hstep 0 hi] at this
    simpa [absorbed] using this
  | succ i ih =>
    have := block_step C (b := s + (i + 1)) (by omega) (A := absorbed ((List.range (136 * N)).map (BY D s)) (i + 1)) (fun _ => ih (by omega))
    rw [run_start R hi, hstep (i + 1) hi] at this
    simpa [absorbed] using this

/-! ### Padding -/

/-- The previous padding selector. -/
def prevPad (P : ℕ → ℕ → Bool) (R i : ℕ) : Bool := if i = 0 then P (R - 1) 7 else P R (i - 1)

omit R in
theorem byte_rule {b q i : ℕ} (hb : b < n) (hq : q < 17) (hi : i < 8) :
    (prevPad P (25 * b + 1 + q) i = true → P (25 * b + 1 + q) i = true) ∧
    (P (25 * b + 1 + q) i = true → (D (25 * b + 1 + q) i).toNat = (if prevPad P (25 * b + 1 + q) i then 0 else 1) + if q = 16 ∧ i = 7 then 128 else 0) := by
  have hh := C.good.hh
  have hz := sat_gates C.sat hh (R := 25 * b + 1 + q) (by omega)
  simp only [gates, gPadding, Z_append, Z_gate1, Z_flatMap, List.mem_range] at hz
  have h1 := hz.2.2 i hi
  unfold gPaddingAt at h1
  simp only at h1
  have hprev : (if i = 0 then padAt (layout k h) a (bs h (25 * b + 1 + q) - h) 7 else padAt (layout k h) a (bs h (25 * b + 1 + q)) (i - 1)) =
      b2f (prevPad P (25 * b + 1 + q) i) := by
    unfold prevPad
    split
    · have := bs_sub h (25 * b + 1 + q) 1 (by omega)
      rw [Nat.cast_one, one_mul] at this
      rw [this, C.pads _ (by omega) 7 (by norm_num)]
    · exact C.pads _ (by omega) _ (by omega)
  rw [hprev, C.pads _ (by omega) i hi, (C.bytes _ (by omega) (by omega) (by omega)).1 i hi, fix_in hh hb (by omega)] at h1
  have h8 : (8 : ℕ) ^ 3 ≤ p := le_trans (Nat.pow_le_pow_right (by norm_num) (by norm_num)) C.hp
  norm_num at h8
  have h2p : (2 : ZMod p) ≠ 0 := by
    intro h
    have := nat_eq (p := p) (x := 2) (y := 0) (by omega) (by omega) (by push_cast; exact h)
    omega
  rw [Z_append, Z_cond, Z_reqBool] at h1
  simp only [fr_input, fr_inputLast, true_and] at h1
  generalize P (25 * b + 1 + q) i = x at *
  generalize prevPad P (25 * b + 1 + q) i = y at *
  have hlt := (D (25 * b + 1 + q) i).isLt
  norm_num at hlt
  generalize (D (25 * b + 1 + q) i).toNat = B at *
  clear hprev hz
  constructor
  · intro hy
    subst hy
    cases x
    · exfalso
      have := h1.1.resolve_left (by simp [ind, hq])
      simp only [b2f, if_true, Bool.false_eq_true, if_false] at this
      exact h2p (by linear_combination -this)
    · rfl
  · intro hx
    subst hx
    have h2 := h1.2
    have key : (B : ZMod p) = (((if y then 0 else 1) + if q = 16 ∧ i = 7 then 128 else 0 : ℕ) : ZMod p) := by
      by_cases h7 : i = 7
      · rw [if_pos h7, Z_append, Z_cond, Z_cond, Z_reqEq, Z_reqEq] at h2
        by_cases h16 : q = 16
        · have := h2.2.resolve_left (by simp [ind, h16, andE, b2f])
          rw [this]
          cases y <;> simp [b2f, h7, h16]; norm_num
        · have := h2.1.resolve_left (by simp [ind, hq, h16, andE, b2f])
          rw [this]
          cases y <;> simp [b2f, h16]
      · rw [if_neg h7, Z_cond, Z_reqEq] at h2
        have := h2.resolve_left (by simp [ind, hq, andE, b2f])
        rw [this]
        cases y <;> simp [b2f, h7]
    refine nat_eq (by omega) ?_ key
    split <;> split <;> omega

theorem run_prev {j : ℕ} (hj : j < 136 * N) :
    prevPad P (25 * (s + j / 136) + 1 + j % 136 / 8) (j % 8) = if j = 0 then false else PD P s (j - 1) := by
  have hle := R.le
  unfold prevPad
  by_cases h8 : j % 8 = 0
  · rw [if_pos h8]
    by_cases hb : j % 136 = 0
    · have h0 := pad_abs C.sat C.good.hh (b := s + j / 136) (by omega)
      rw [C.pads _ (by omega) 7 (by norm_num)] at h0
      have h0 := H2.Sha.b2f_eq_zero.mp h0
      rw [show 25 * (s + j / 136) + 1 + j % 136 / 8 - 1 = 25 * (s + j / 136) by omega, h0]
      split
      · rfl
      · rename_i hj0
        have := R.mid ((j - 1) / 136) (by omega)
        rw [PD, show (j - 1) % 136 / 8 = 16 by omega, show (j - 1) % 8 = 7 by omega]
        exact this.symm
    · rw [if_neg (by omega), PD, show (j - 1) / 136 = j / 136 by omega, show (j - 1) % 8 = 7 by omega,
        show 25 * (s + j / 136) + 1 + j % 136 / 8 - 1 = 25 * (s + j / 136) + 1 + (j - 1) % 136 / 8 by omega]
  · rw [if_neg h8, if_neg (by omega), PD, show (j - 1) / 136 = j / 136 by omega, show (j - 1) % 8 = j % 8 - 1 by omega,
      show (j - 1) % 136 / 8 = j % 136 / 8 by omega]

theorem run_mono {j : ℕ} (hj : j + 1 < 136 * N) (h : PD P s j = true) : PD P s (j + 1) = true := by
  have hle := R.le
  have h1 := (byte_rule C (b := s + (j + 1) / 136) (q := (j + 1) % 136 / 8) (i := (j + 1) % 8) (by omega) (by omega) (by omega)).1
  rw [run_prev C R hj] at h1
  exact h1 (by simp [h])

theorem run_byte {j : ℕ} (hj : j < 136 * N) (h : PD P s j = true) :
    (BY D s j).toNat = (if j = 0 ∨ PD P s (j - 1) = false then 1 else 0) + if j % 136 = 135 then 128 else 0 := by
  have hle := R.le
  have h1 := (byte_rule C (b := s + j / 136) (q := j % 136 / 8) (i := j % 8) (by omega) (by omega) (by omega)).2 h
  rw [run_prev C R hj] at h1
  rw [BY, h1]
  have e1 : (j % 136 / 8 = 16 ∧ j % 8 = 7) ↔ j % 136 = 135 := by omega
  simp only [e1]
  congr 1
  by_cases hj0 : j = 0
  · simp [hj0]
  · cases PD P s (j - 1) <;> simp [hj0]

/-- The number of message bytes. -/
theorem run_len : ∃ L, (∀ j, j < 136 * N → (PD P s j = true ↔ L ≤ j)) ∧ L / 136 + 1 = N := by
  have hpos := R.pos
  have hex : ∃ j, PD P s j = true := ⟨136 * (N - 1) + 135, by
    have := R.fin
    rw [PD, show (136 * (N - 1) + 135) / 136 = N - 1 by omega, show (136 * (N - 1) + 135) % 136 / 8 = 16 by omega,
      show (136 * (N - 1) + 135) % 8 = 7 by omega]
    exact this⟩
  classical
  have hL := Nat.find_spec hex
  have hmin : ∀ j, j < Nat.find hex → PD P s j ≠ true := fun j hj => Nat.find_min hex hj
  have hle : Nat.find hex ≤ 136 * (N - 1) + 135 := Nat.find_min' hex (by
    have := R.fin
    rw [PD, show (136 * (N - 1) + 135) / 136 = N - 1 by omega, show (136 * (N - 1) + 135) % 136 / 8 = 16 by omega,
      show (136 * (N - 1) + 135) % 8 = 7 by omega]
    exact this)
  generalize Nat.find hex = L at *
  have hup : ∀ j, L ≤ j → j < 136 * N → PD P s j = true := by
    intro j
    induction j with
    | zero => intro h1 _; obtain rfl : L = 0 := by omega
              exact hL
    | succ j ih =>
      intro h1 h2
      by_cases h3 : L = j + 1
      · rw [← h3]; exact hL
      · exact run_mono C R h2 (ih (by omega) (by omega))
  refine ⟨L, fun j hj => ⟨fun hx => ?_, fun hx => hup j hx hj⟩, ?_⟩
  · by_contra hc; exact hmin j (by omega) hx
  · by_contra hc
    have h2 : L / 136 + 1 < N := by omega
    have h3 := R.mid (L / 136) h2
    have h4 := hup (136 * (L / 136) + 135) (by omega) (by omega)
    rw [PD, show (136 * (L / 136) + 135) / 136 = L / 136 by omega, show (136 * (L / 136) + 135) % 136 / 8 = 16 by omega,
      show (136 * (L / 136) + 135) % 8 = 7 by omega] at h4
    have h3' : P (25 * (s + L / 136) + 1 + 16) 7 = false := h3
    rw [h3'] at h4
    exact Bool.false_ne_true h4

variable {L : ℕ} (hL : ∀ j, j < 136 * N → (PD P s j = true ↔ L ≤ j)) (hN : L / 136 + 1 = N)
include hL hN

/-- The bytes of the run are the padded message. -/
theorem run_pad : pad ((List.range L).map (BY D s)) = (List.range (136 * N)).map (BY D s) := by
  have hby : ∀ j, L ≤ j → j < 136 * N → (BY D s j).toNat = (if j = L then 1 else 0) + if j = 136 * N - 1 then 128 else 0 := by
    intro j h1 h2
    rw [run_byte C R h2 ((hL j h2).mpr h1)]
    congr 1
    · by_cases hj : j = L
      · rw [if_pos hj, if_pos]
        by_cases h0 : j = 0
        · exact .inl h0
        · right
          have := hL (j - 1) (by omega)
          by_contra hc
          have := this.mp (by simpa using hc)
          omega
      · rw [if_neg hj, if_neg]
        rintro (h0 | h0)
        · omega
        · have := (hL (j - 1) (by omega)).mpr (by omega)
          rw [h0] at this
          exact Bool.false_ne_true this
    · have e : j % 136 = 135 ↔ j = 136 * N - 1 := by omega
      simp only [e]
  have hlen : 136 - L % 136 = 136 * N - L := by omega
  have split : (List.range (136 * N)).map (BY D s) = (List.range L).map (BY D s) ++ (List.range (136 * N - L)).map (fun i => BY D s (L + i)) := by
    rw [show 136 * N = L + (136 * N - L) by omega, List.range_add, List.map_append, List.map_map, show L + (136 * N - L) - L = 136 * N - L by omega]
    rfl
  rw [split, pad]
  simp only [List.length_map, List.length_range, rate]
  congr 1
  rw [hlen]
  have hw : ∀ i, i < 136 * N - L → (BY D s (L + i)).toNat = (if i = 0 then 1 else 0) + if i = 136 * N - L - 1 then 128 else 0 := by
    intro i hi
    rw [hby _ (by omega) (by omega)]
    have e1 : L + i = L ↔ i = 0 := by omega
    have e2 : L + i = 136 * N - 1 ↔ i = 136 * N - L - 1 := by omega
    simp only [e1, e2]
  have hq1 : 1 ≤ 136 * N - L := by omega
  generalize 136 * N - L = Q at *
  refine List.ext_getElem ?_ fun i i1 i2 => ?_
  · split <;> simp <;> omega
  · apply BitVec.eq_of_toNat_eq
    simp only [List.length_map, List.length_range] at i2
    rw [List.getElem_map, List.getElem_range, hw i i2]
    clear hw hby hlen split hL
    by_cases h1 : Q = 1
    · subst h1
      obtain rfl : i = 0 := by omega
      simp
    · simp only [if_neg h1]
      by_cases hi0 : i = 0
      · subst hi0
        simp only [List.cons_append, List.nil_append, List.getElem_cons_zero, if_true]
        rw [if_neg (by omega)]
        rfl
      · simp only [List.cons_append, List.nil_append]
        rw [List.getElem_cons, dif_neg hi0, List.getElem_append]
        split
        · rename_i hc
          simp only [List.length_replicate] at hc
          have : i ≠ Q - 1 := by omega
          simp [this]
        · rename_i hc
          simp only [List.length_replicate] at hc
          have : i = Q - 1 := by omega
          simp [this]

end

end H2.Kec
