import Verif.Sha.SoundPad

/-!
# A run of blocks ending in a final block computes SHA-256
-/

set_option autoImplicit false
namespace H2.Sha
variable {p : ℕ} [Fact p.Prime]

/-- The blocks `s, …, s + N - 1` form one hash. -/
structure Run (P : ℕ → ℕ → Bool) (n s N : ℕ) : Prop where
  pos : 0 < N
  le : s + N ≤ n
  start : startB P s = true
  mid : ∀ i, i + 1 < N → P (72 * (s + i) + 17) 3 = false
  fin : P (72 * (s + (N - 1)) + 17) 3 = true

/-- The padding selector and the byte number `j` of the run. -/
def PD (P : ℕ → ℕ → Bool) (s j : ℕ) : Bool := P (72 * (s + j / 64) + 4 + j % 64 / 4) (j % 64 % 4)
def BY {n : ℕ} {adv : ℤ → Row (ZMod p)} (D : Words n adv) (s j : ℕ) : Byte := byteW (D.w (72 * (s + j / 64) + 4 + j % 64 / 4)) (j % 64 % 4)

section
variable {n : ℕ} {adv : ℤ → Row (ZMod p)} (hs : ShaSat n adv)
  {P : ℕ → ℕ → Bool} (hP : ∀ r < 72 * n, ∀ i < 4, (adv r).pad i = b2f (P r i))
  {s N : ℕ} (R : Run P n s N)
include hs hP R

theorem run_prev {j : ℕ} (hj : j < 64 * N) :
    prevPad P (s + j / 64) (j % 64) = if j = 0 then false else PD P s (j - 1) := by
  have hle := R.le
  have hd : j / 64 < N := by omega
  unfold prevPad
  by_cases h0 : j % 64 = 0
  · rw [if_pos h0, carry_eq hs hP (by omega)]
    by_cases hj0 : j = 0
    · subst hj0
      simp [R.start]
    · rw [if_neg hj0, PD]
      have hm := R.mid (j / 64 - 1) (by omega)
      have : startB P (s + j / 64) = false := by
        rw [startB, if_neg (by omega), show s + j / 64 - 1 = s + (j / 64 - 1) by omega]; exact hm
      rw [this]
      rw [show (j - 1) / 64 = j / 64 - 1 by omega, show (j - 1) % 64 = 63 by omega, show s + j / 64 - 1 = s + (j / 64 - 1) by omega]
      simp [show 63 / 4 = 15 by norm_num, Nat.add_assoc]
  · rw [if_neg h0, if_neg (by omega), PD]
    rw [show (j - 1) / 64 = j / 64 by omega, show (j - 1) % 64 = j % 64 - 1 by omega]

variable (D : Words n adv) (hp : 2 ^ 35 ≤ p)
include hp

theorem run_mono {j : ℕ} (hj : j + 1 < 64 * N) (h : PD P s j = true) : PD P s (j + 1) = true := by
  obtain ⟨D⟩ := exists_words hs
  have hle := R.le
  have h1 := (byte_rule hs hP D hp (b := s + (j + 1) / 64) (k := (j + 1) % 64) (by omega) (by omega)).1
  rw [run_prev hs hP R hj] at h1
  exact h1 (by simp [h])

theorem run_byte {j : ℕ} (hj : j < 64 * N) (h : PD P s j = true) (hb : j + 4 < 64 * N ∨ j / 64 + 1 < N) :
    BY D s j = if j = 0 ∨ PD P s (j - 1) = false then 128 else 0 := by
  have hle := R.le
  have h1 := (byte_rule hs hP D hp (b := s + j / 64) (k := j % 64) (by omega) (by omega)).2 h (by
    by_cases h2 : j / 64 + 1 < N
    · exact .inr (R.mid _ h2)
    · left; omega)
  rw [run_prev hs hP R hj] at h1
  rw [BY, h1]
  by_cases hj0 : j = 0
  · simp [hj0]
  · cases PD P s (j - 1) <;> simp [hj0]

/-- The number of message bytes. -/
theorem run_len : ∃ L, (∀ j < 64 * N, PD P s j = true ↔ L ≤ j) ∧ L ≤ 64 * (N - 1) + 55 ∧ (1 < N → 64 * (N - 2) + 56 ≤ L) := by
  have hpos := R.pos
  have hex : ∃ j, PD P s j = true := ⟨64 * (N - 1) + 55, by
    have := R.fin
    rw [PD, show (64 * (N - 1) + 55) / 64 = N - 1 by omega, show (64 * (N - 1) + 55) % 64 = 55 by omega]
    exact this⟩
  have hL := Nat.find_spec hex
  have hmin : ∀ j, j < Nat.find hex → PD P s j ≠ true := fun j hj => Nat.find_min hex hj
  have hLe : Nat.find hex ≤ 64 * (N - 1) + 55 := by
    refine Nat.find_min' hex ?_
    have := R.fin
    rw [PD, show (64 * (N - 1) + 55) / 64 = N - 1 by omega, show (64 * (N - 1) + 55) % 64 = 55 by omega]
    exact this
  generalize Nat.find hex = L at *
  have hup : ∀ d, L + d < 64 * N → PD P s (L + d) = true := by
    intro d
    induction d with
    | zero => intro _; exact hL
    | succ d ih => intro h; exact run_mono hs hP R hp h (ih (by omega))
  have hiff : ∀ j < 64 * N, PD P s j = true ↔ L ≤ j := by
    intro j hj
    constructor
    · intro h
      by_contra hlt
      exact hmin j (by omega) h
    · intro h
      obtain ⟨d, rfl⟩ := Nat.exists_eq_add_of_le h
      exact hup d hj
  refine ⟨L, hiff, hLe, fun hN => ?_⟩
  have hm := R.mid (N - 2) (by omega)
  by_contra hlt
  have h1 := (hiff (64 * (N - 2) + 55) (by omega)).mpr (by omega)
  rw [PD, show (64 * (N - 2) + 55) / 64 = N - 2 by omega, show (64 * (N - 2) + 55) % 64 = 55 by omega] at h1
  change P (72 * (s + (N - 2)) + 17) 3 = true at h1
  rw [hm] at h1
  exact Bool.noConfusion h1

/-- The length column counts the message bytes. -/
theorem run_length {L : ℕ} (hL : ∀ j < 64 * N, PD P s j = true ↔ L ≤ j) {i : ℕ} (hi : i < N) :
    ∀ t ≤ 16, (adv (72 * (s + i) + 3 + t : ℕ)).length = ((min L (64 * i + 4 * t) : ℕ) : ZMod p) := by
  have hle := R.le
  induction i with
  | zero =>
    intro t
    induction t with
    | zero =>
      intro _
      have := cross_eq hs hP (b := s + 0) (k := 3) (by omega) (by omega) (·.length) (.inl rfl)
      have hst := R.start
      rw [show s + 0 = s by omega, hst, if_pos rfl] at this
      simpa using this
    | succ t ih =>
      intro ht
      have h1 := length_row hs hP (b := s + 0) (t := t) (by omega) (by omega)
      rw [ih (by omega)] at h1
      rw [show 72 * (s + 0) + 3 + (t + 1) = 72 * (s + 0) + 4 + t by omega, h1, ← Nat.cast_add]
      congr 1
      have hk : ∀ k < 4, (P (72 * (s + 0) + 4 + t) k = true ↔ L ≤ 64 * 0 + 4 * t + k) := by
        intro k hk
        rw [← hL (64 * 0 + 4 * t + k) (by omega), PD, show (64 * 0 + 4 * t + k) / 64 = 0 by omega,
          show (64 * 0 + 4 * t + k) % 64 / 4 = t by omega, show (64 * 0 + 4 * t + k) % 64 % 4 = k by omega]
      simp only [List.range_succ, List.range_zero, List.nil_append, List.map_cons, List.map_nil, List.cons_append,
        List.sum_cons, List.sum_nil, hk 0 (by omega), hk 1 (by omega), hk 2 (by omega), hk 3 (by omega), Nat.zero_add, hk (0 + 1) (by omega),
        hk (0 + 1 + 1) (by omega), hk (0 + 1 + 1 + 1) (by omega)]
      split <;> split <;> split <;> split <;> omega
  | succ i ihi =>
    intro t
    induction t with
    | zero =>
      intro _
      have := cross_eq hs hP (b := s + (i + 1)) (k := 3) (by omega) (by omega) (·.length) (.inl rfl)
      have hst : startB P (s + (i + 1)) = false := by
        rw [startB, if_neg (by omega)]; exact R.mid i (by omega)
      rw [hst] at this
      simp only [Bool.false_eq_true, if_false] at this
      have h2 := ihi (by omega) 16 (le_refl _)
      rw [show 72 * (s + (i + 1)) + 3 + 0 = 72 * (s + (i + 1)) + 3 by omega, this,
        show 72 * (s + (i + 1) - 1) + 19 = 72 * (s + i) + 3 + 16 by omega, h2]
      rfl
    | succ t ih =>
      intro ht
      have h1 := length_row hs hP (b := s + (i + 1)) (t := t) (by omega) (by omega)
      rw [ih (by omega)] at h1
      rw [show 72 * (s + (i + 1)) + 3 + (t + 1) = 72 * (s + (i + 1)) + 4 + t by omega, h1, ← Nat.cast_add]
      congr 1
      have hk : ∀ k < 4, (P (72 * (s + (i + 1)) + 4 + t) k = true ↔ L ≤ 64 * (i + 1) + 4 * t + k) := by
        intro k hk
        rw [← hL (64 * (i + 1) + 4 * t + k) (by omega), PD, show (64 * (i + 1) + 4 * t + k) / 64 = i + 1 by omega,
          show (64 * (i + 1) + 4 * t + k) % 64 / 4 = t by omega, show (64 * (i + 1) + 4 * t + k) % 64 % 4 = k by omega]
      simp only [List.range_succ, List.range_zero, List.nil_append, List.map_cons, List.map_nil, List.cons_append,
        List.sum_cons, List.sum_nil, hk 0 (by omega), hk 1 (by omega), hk 2 (by omega), hk 3 (by omega), Nat.zero_add, hk (0 + 1) (by omega),
        hk (0 + 1 + 1) (by omega), hk (0 + 1 + 1 + 1) (by omega)]
      split <;> split <;> split <;> split <;> omega

/-- The last word of the run is the length in bits. -/
theorem run_bitlen (hn : 512 * n ≤ p) {L : ℕ} (hL : ∀ j < 64 * N, PD P s j = true ↔ L ≤ j) (hL1 : L ≤ 64 * (N - 1) + 55) :
    (D.w (72 * (s + (N - 1)) + 19)).toNat = 8 * L := by
  have hle := R.le
  have hpos := R.pos
  have h1 := length_word hs hP D (b := s + (N - 1)) (by omega) R.fin
  have h2 := run_length hs hP R hp hL (i := N - 1) (by omega) 16 (le_refl _)
  rw [show 72 * (s + (N - 1)) + 3 + 16 = 72 * (s + (N - 1)) + 19 by omega, show min L (64 * (N - 1) + 4 * 16) = L by omega] at h2
  rw [h2] at h1
  have h3 := (D.w (72 * (s + (N - 1)) + 19)).isLt
  norm_num at h3 hp
  exact cast_inj (p := p) (by omega) (by omega) (by rw [h1]; push_cast; ring)

/-- The bytes of the run are the padded message. -/
theorem run_pad (hn : 512 * n ≤ p) {L : ℕ} (hL : ∀ j < 64 * N, PD P s j = true ↔ L ≤ j) (hL1 : L ≤ 64 * (N - 1) + 55)
    (hL2 : 1 < N → 64 * (N - 2) + 56 ≤ L) : 8 * L < 2 ^ 32 ∧ pad ((List.range L).map (BY D s)) = (List.range (64 * N)).map (BY D s) := by
  have hbl := run_bitlen hs hP R D hp hn hL hL1
  have hpos := R.pos
  have hlt := (D.w (72 * (s + (N - 1)) + 19)).isLt
  rw [hbl] at hlt
  refine ⟨hlt, ?_⟩
  have hz : zeros L = 64 * N - 9 - L := by unfold zeros; omega
  have hlen : (pad ((List.range L).map (BY D s))).length = 64 * N := by
    rw [pad_length]; simp only [List.length_map, List.length_range, hz]; omega
  refine List.ext_getElem (by rw [hlen]; simp) fun j h1 h2 => ?_
  have hj : j < 64 * N := by simpa using h2
  rw [List.getElem_map, List.getElem_range]
  by_cases c1 : j < L
  · simp only [pad, List.append_assoc]
    rw [List.getElem_append_left (by simpa using c1)]
    simp
  by_cases c2 : j < 64 * N - 8
  · have hb := run_byte hs hP R D hp hj ((hL j hj).mpr (by omega)) (by omega)
    rw [hb]
    have hprev : (j = 0 ∨ PD P s (j - 1) = false) ↔ j = L := by
      by_cases j0 : j = 0
      · simp [j0]; omega
      · have := hL (j - 1) (by omega)
        simp only [j0, false_or]
        rw [← Bool.not_eq_true, this]; omega
    rw [if_congr hprev rfl rfl]
    simp only [pad]
    rw [List.getElem_append_left (by simp [hz]; omega)]
    by_cases c3 : j = L
    · rw [if_pos c3, List.getElem_append_left (by simp; omega), List.getElem_append_right (by simp; omega)]
      simp only [List.length_map, List.length_range, c3, Nat.sub_self]; rfl
    · rw [if_neg c3, List.getElem_append_right (by simp; omega)]
      simp
  · simp only [pad]
    rw [List.getElem_append_right (by simp [hz]; omega)]
    simp only [List.length_append, List.length_map, List.length_range, List.length_cons, List.length_nil, List.length_replicate, hz,
      be64, List.getElem_map, List.getElem_range]
    have hd : j / 64 = N - 1 := by omega
    by_cases c3 : j < 64 * N - 4
    · have hb := run_byte hs hP R D hp hj ((hL j hj).mpr (by omega)) (by omega)
      rw [hb, if_neg (by
        rintro (h | h)
        · omega
        · rw [← Bool.not_eq_true, hL (j - 1) (by omega)] at h; omega)]
      apply BitVec.eq_of_toNat_eq
      have h256 : 256 ^ 4 ≤ 256 ^ (7 - (j - (L + (0 + 1) + (64 * N - 9 - L)))) := Nat.pow_le_pow_right (by norm_num) (by omega)
      rw [Nat.div_eq_of_lt (by norm_num at hlt h256 ⊢; omega)]
      simp
    · rw [BY, hd]
      have hrow : j % 64 / 4 = 15 := by omega
      rw [hrow, show 72 * (s + (N - 1)) + 4 + 15 = 72 * (s + (N - 1)) + 19 by omega]
      rw [show j - (L + (0 + 1) + (64 * N - 9 - L)) = 4 + j % 64 % 4 by omega]
      have hk : j % 64 % 4 < 4 := Nat.mod_lt _ (by norm_num)
      generalize j % 64 % 4 = k at hk
      rw [← hbl]
      unfold byteW
      apply BitVec.eq_of_toNat_eq
      rw [BitVec.extractLsb'_toNat, BitVec.toNat_ofNat, Nat.shiftRight_eq_div_pow]
      have : (256 : ℕ) ^ (7 - (4 + k)) = 2 ^ (24 - 8 * k) := by
        rw [show (256 : ℕ) = 2 ^ 8 from rfl, ← pow_mul]; congr 1; omega
      rw [this]

theorem run_beWord (hn : 512 * n ≤ p) {i t : ℕ} (hi : i < N) (ht : t < 16) :
    beWord ((List.range (64 * N)).map (BY D s)) (16 * i + t) = D.w (72 * (s + i) + 4 + t) := by
  have hg : ∀ j < 64 * N, ((List.range (64 * N)).map (BY D s)).getD j 0 = BY D s j := by
    intro j hj
    simp [List.getD, hj]
  unfold beWord
  have hk : ∀ k < 4, BY D s (4 * (16 * i + t) + k) = byteW (D.w (72 * (s + i) + 4 + t)) k := by
    intro k hk
    rw [BY, show (4 * (16 * i + t) + k) / 64 = i by omega, show (4 * (16 * i + t) + k) % 64 / 4 = t by omega,
      show (4 * (16 * i + t) + k) % 64 % 4 = k by omega]
  rw [hg _ (by omega), hg _ (by omega), hg _ (by omega), hg _ (by omega)]
  have h0 := hk 0 (by omega)
  rw [Nat.add_zero] at h0
  rw [h0, hk 1 (by omega), hk 2 (by omega), hk 3 (by omega)]
  exact byteW_append _

theorem run_chain (hn : 512 * n ≤ p) {i : ℕ} (hi : i < N) :
    stAt D (72 * (s + i) + 4) = chain ((List.range (64 * N)).map (BY D s)) i ∧
    stAt D (72 * (s + i) + 72) = chain ((List.range (64 * N)).map (BY D s)) (i + 1) := by
  have hle := R.le
  have step : ∀ i < N, stAt D (72 * (s + i) + 4) = chain ((List.range (64 * N)).map (BY D s)) i →
      stAt D (72 * (s + i) + 72) = chain ((List.range (64 * N)).map (BY D s)) (i + 1) := by
    intro i hi h
    rw [compress_word hs hp D (by omega), chain, h]
    have hsch : ∀ (f g : ℕ → W), (∀ t < 16, f t = g t) → ∀ t, schedule f t = schedule g t := by
      intro f g hfg t
      induction t using Nat.strongRecOn with
      | _ t ih =>
        conv_lhs => rw [schedule]
        conv_rhs => rw [schedule]
        split
        · exact hfg t (by assumption)
        · rw [ih (t - 2) (by omega), ih (t - 7) (by omega), ih (t - 15) (by omega), ih (t - 16) (by omega)]
    unfold compress
    rw [rounds_congr _ _ _ 64 fun t _ => hsch _ _ (fun t ht => (run_beWord hs hP R D hp hn hi ht).symm) t]
  induction i with
  | zero =>
    refine ⟨?_, step 0 hi ?_⟩ <;>
    · rw [chain, stAt]
      have h := fun k (hk : k < 4) => (start_word hs hp D (b := s + 0) (k := k) (by omega) hk).1 (by
        rw [start_eq hs hP (by omega) hk]
        rw [show s + 0 = s by omega, R.start]; rfl)
      have h0 := h 0 (by omega)
      have h1 := h 1 (by omega)
      have h2 := h 2 (by omega)
      have h3 := h 3 (by omega)
      simp only [show 72 * (s + 0) + 4 - 1 = 72 * (s + 0) + 3 by omega, show 72 * (s + 0) + 4 - 2 = 72 * (s + 0) + 2 by omega,
        show 72 * (s + 0) + 4 - 3 = 72 * (s + 0) + 1 by omega, show 72 * (s + 0) + 4 - 4 = 72 * (s + 0) + 0 by omega,
        h0.1, h1.1, h2.1, h3.1, h0.2, h1.2, h2.2, h3.2]
      rfl
  | succ i ih =>
    have ih := (ih (by omega)).2
    have hst : stAt D (72 * (s + (i + 1)) + 4) = chain ((List.range (64 * N)).map (BY D s)) (i + 1) := by
      rw [← ih]
      have h := fun k (hk : k < 4) => (start_word hs hp D (b := s + (i + 1)) (k := k) (by omega) hk).2 (by omega) (by
        rw [start_eq hs hP (by omega) hk]
        rw [startB, if_neg (by omega)]
        have := R.mid i (by omega)
        rw [show s + (i + 1) - 1 = s + i by omega, this]; rfl)
      have h0 := h 0 (by omega)
      have h1 := h 1 (by omega)
      have h2 := h 2 (by omega)
      have h3 := h 3 (by omega)
      unfold stAt
      rw [show 72 * (s + i) + 72 = 72 * (s + (i + 1)) by omega]
      have hr : 4 ≤ 72 * (s + (i + 1)) := by omega
      generalize 72 * (s + (i + 1)) = r at *
      simp only [show r + 4 - 1 = r + 3 by omega, show r + 4 - 2 = r + 2 by omega,
        show r + 4 - 3 = r + 1 by omega, show r + 4 - 4 = r + 0 by omega, h0.1, h1.1, h2.1, h3.1, h0.2, h1.2, h2.2, h3.2]
      rw [show r - 4 + 3 = r - 1 by omega, show r - 4 + 2 = r - 2 by omega, show r - 4 + 1 = r - 3 by omega]
      rfl
    exact ⟨hst, step _ hi hst⟩

/-- The words handed out are the message's. -/
theorem run_io {L : ℕ} (hL : ∀ j < 64 * N, PD P s j = true ↔ L ≤ j) {i t : ℕ} (hi : i < N) (ht : t < 16) :
    (adv (72 * (s + i) + 4 + t : ℕ)).io = ((leWord ((List.range L).map (BY D s)) (16 * i + t) : ℕ) : ZMod p) := by
  have hle := R.le
  rw [io_word hs hP D (b := s + i) (t := t) (by omega) ht, leWord]
  have hk : ∀ k < 4, (if P (72 * (s + i) + 4 + t) k then (0 : Byte) else byteW (D.w (72 * (s + i) + 4 + t)) k) =
      ((List.range L).map (BY D s)).getD (4 * (16 * i + t) + k) 0 := by
    intro k hk
    have h1 := hL (4 * (16 * i + t) + k) (by omega)
    rw [PD, show (4 * (16 * i + t) + k) / 64 = i by omega, show (4 * (16 * i + t) + k) % 64 / 4 = t by omega,
      show (4 * (16 * i + t) + k) % 64 % 4 = k by omega] at h1
    by_cases c : L ≤ 4 * (16 * i + t) + k
    · rw [if_pos (h1.mpr c)]
      simp only [List.getD]
      rw [List.getElem?_eq_none (by simpa using c)]; rfl
    · rw [if_neg (fun h => c (h1.mp h))]
      simp only [List.getD, List.getElem?_map, List.getElem?_range (show 4 * (16 * i + t) + k < L by omega), Option.map_some,
        Option.getD_some, BY]
      rw [show (4 * (16 * i + t) + k) / 64 = i by omega, show (4 * (16 * i + t) + k) % 64 / 4 = t by omega,
        show (4 * (16 * i + t) + k) % 64 % 4 = k by omega]
  rw [hk 0 (by omega), hk 1 (by omega), hk 2 (by omega), hk 3 (by omega)]
  rfl

end

theorem fromBytes_words {F : Type} [Field F] (a b c d : W) :
    fromBytes ((toBeBytes (bitsOf d : List F)).reverse ++ ((toBeBytes (bitsOf c)).reverse ++ ((toBeBytes (bitsOf b)).reverse ++
      (toBeBytes (bitsOf a)).reverse))) = (((a ++ b ++ c ++ d).toNat : ℕ) : F) := by
  have hl : ∀ x : W, (toBeBytes (bitsOf x : List F)).reverse.length = 4 := by intro x; simp [toBeBytes_bitsOf]
  rw [fromBytes_append, fromBytes_append, fromBytes_append, hl, hl, hl]
  simp only [fromBytes_word, toNat_app]
  push_cast
  ring

theorem div_128 (A B : ℕ) (h : B < 2 ^ 128) : (A * 2 ^ 128 + B) / 2 ^ 128 = A := by
  norm_num at h ⊢; omega

theorem split_digest {F : Type} [Field F] (a b c d e f g h : W) (le : List F)
    (hle : le = ([bitsOf a, bitsOf b, bitsOf c, bitsOf d, bitsOf e, bitsOf f, bitsOf g, bitsOf h].flatMap toBeBytes).reverse) :
    fromBytes (le.take 16) = (((a ++ b ++ c ++ d ++ e ++ f ++ g ++ h).toNat % 2 ^ 128 : ℕ) : F) ∧
    fromBytes (le.drop 16) = (((a ++ b ++ c ++ d ++ e ++ f ++ g ++ h).toNat / 2 ^ 128 : ℕ) : F) := by
  have hl : ∀ x : W, (toBeBytes (bitsOf x : List F)).reverse.length = 4 := by intro x; simp [toBeBytes_bitsOf]
  have hsplit : le = ((toBeBytes (bitsOf h : List F)).reverse ++ ((toBeBytes (bitsOf g)).reverse ++ ((toBeBytes (bitsOf f)).reverse ++
      (toBeBytes (bitsOf e)).reverse))) ++ ((toBeBytes (bitsOf d : List F)).reverse ++ ((toBeBytes (bitsOf c)).reverse ++
      ((toBeBytes (bitsOf b)).reverse ++ (toBeBytes (bitsOf a)).reverse))) := by
    rw [hle]; simp [List.append_assoc]
  have hlen : ((toBeBytes (bitsOf h : List F)).reverse ++ ((toBeBytes (bitsOf g)).reverse ++ ((toBeBytes (bitsOf f)).reverse ++
      (toBeBytes (bitsOf e)).reverse))).length = 16 := by
    rw [List.length_append, List.length_append, List.length_append, hl, hl, hl, hl]
  have hn : (a ++ b ++ c ++ d ++ e ++ f ++ g ++ h).toNat = (a ++ b ++ c ++ d).toNat * 2 ^ 128 + (e ++ f ++ g ++ h).toNat := by
    simp only [toNat_app]
    ring
  have hlt := (e ++ f ++ g ++ h).isLt
  rw [hn]
  constructor
  · rw [hsplit, List.take_left' hlen, fromBytes_words, Nat.mul_add_mod_self_right, Nat.mod_eq_of_lt hlt]
  · rw [hsplit, List.drop_left' hlen, fromBytes_words]
    exact congrArg _ (div_128 _ _ hlt).symm

end H2.Sha
