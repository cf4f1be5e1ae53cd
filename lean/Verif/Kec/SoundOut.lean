import Verif.Kec.SoundHash

/-!
# Outputs of the Keccak circuit: hash, words, remaining bytes
-/

set_option autoImplicit false
set_option linter.unusedSectionVars false
namespace H2.Kec
open H2.Sha (Z Z_append Z_gate Z_cond Z_gate1 Z_reqEq Z_reqZero Z_reqBool Z_flatMap ind_eq_zero ind b2f bool_cases b2f_inj notE selE sumE andE
  fromBytes fromBytes_nil fromBytes_cons fromBytes_append reqEq reqZero reqBool gate cond)

variable {p : ℕ} [Fact p.Prime] {k h n : ℕ} {a : Adv (ZMod p)}

theorem fromBytes_reverse {F : Type} [Field F] (l : List Byte) :
    fromBytes (l.reverse.map fun b => ((b.toNat : ℕ) : F)) = ((beNat l : ℕ) : F) := by
  induction l using List.reverseRecOn with
  | nil => simp [fromBytes_nil, beNat]
  | append_singleton l b ih =>
    rw [List.reverse_append, List.reverse_singleton, List.singleton_append, List.map_cons, fromBytes_cons, ih]
    unfold beNat
    rw [List.foldl_append]
    simp only [List.foldl_cons, List.foldl_nil]
    push_cast
    ring

theorem fromBytes_lane {F : Type} [Field F] (f : ℕ → Byte) :
    fromBytes ((List.range 8).map fun i => (((f i).toNat : ℕ) : F)) = (((lane8 f).toNat : ℕ) : F) := by
  rw [lane8_append]
  simp only [List.range_succ, List.range_zero, List.nil_append, List.map_append, List.map_cons, List.map_nil, List.cons_append,
    fromBytes_cons, fromBytes_nil]
  simp only [H2.Sha.toNat_app]
  push_cast
  ring

theorem count8 {F : Type} [Field F] (L M : ℕ) :
    (8 - sumE ((List.range 8).map fun c => (if L ≤ M + c then 1 else 0 : F))) = ((min L (M + 8) - min L M : ℕ) : F) := by
  simp only [List.range_succ, List.range_zero, List.nil_append, List.map_append, List.map_cons, List.map_nil, List.cons_append, sumE,
    List.foldl_cons, List.foldl_nil, Nat.add_zero]
  by_cases h1 : L ≤ M
  · rw [show min L (M + 8) - min L M = 0 by omega]
    have : ∀ c, L ≤ M + c := fun c => by omega
    simp only [this, h1, if_true]
    norm_num
  · by_cases h2 : M + 8 ≤ L
    · rw [show min L (M + 8) - min L M = 8 by omega]
      rw [if_neg h1, if_neg (by omega), if_neg (by omega), if_neg (by omega), if_neg (by omega), if_neg (by omega), if_neg (by omega), if_neg (by omega)]
      norm_num
    · obtain ⟨d, rfl⟩ : ∃ d, L = M + d := ⟨L - M, by omega⟩
      rw [show min (M + d) (M + 8) - min (M + d) M = d by omega]
      have hd : d < 8 := by omega
      have hd0 : 0 < d := by omega
      clear h1 h2
      have hM : ¬ M + d ≤ M := by omega
      simp only [Nat.add_le_add_iff_left, hM, if_false]
      interval_cases d <;> norm_num

section
variable (hs : KecSat k h n a) (hh : 1 ≤ h)
include hs hh

theorem sat_squeeze {b : ℕ} (hb : b < n) (hf : a.isFinal (bs h (25 * (b + 1))) ≠ 0) :
    (∀ x, x < 4 → sAt (layout k h) a (bs h (25 * (b + 1))) x 0 = a.val (bs h (25 * (b + 1) - (x + 1))) (layout k h).squeezeFrom) ∧
    fromBytes ((hashBytes h (layout k h) a (bs h (25 * (b + 1)))).reverse.take 16) = a.hashLo (bs h (25 * (b + 1))) ∧
    fromBytes ((hashBytes h (layout k h) a (bs h (25 * (b + 1)))).reverse.drop 16) = a.hashHi (bs h (25 * (b + 1))) := by
  have hz := sat_gates hs hh (R := 25 * (b + 1)) (by omega)
  simp only [gates, gSqueeze, Z_append, Z_gate] at hz
  have h1 := hz.1.1.1.1.1.1.2
  rw [fix_last hh (by omega) (by omega)] at h1
  have h2 := h1.resolve_left (by simp [fr_last, ind])
  have hst : startNew (fixedCols h n) a (bs h (25 * (b + 1))) = a.isFinal (bs h (25 * (b + 1))) := by
    unfold startNew
    rw [fix_last hh (by omega) (by omega), fr_first, zero_add]
  simp only [Z_flatMap, Z_cond, Z_append, Z_reqEq, List.mem_range, hst] at h2
  obtain ⟨g1, g2⟩ := h2
  have g2 := g2.resolve_left hf
  refine ⟨fun x hx => ?_, g2⟩
  rw [(g1 x hx).resolve_left hf]
  have := bs_sub h (25 * (b + 1)) (x + 1) (by omega)
  rw [← this]; push_cast; rfl

theorem hashBytes_eq {b : ℕ} :
    hashBytes h (layout k h) a (bs h (25 * (b + 1))) =
      (List.range 4).flatMap fun x => (layout k h).squeezeBytes.map fun c => a.val (bs h (25 * (b + 1) - (x + 1))) c := by
  unfold hashBytes
  rw [List.flatMap_congr]
  intro x hx
  have := List.mem_range.mp hx
  have e := bs_sub h (25 * (b + 1)) (x + 1) (by omega)
  rw [← e]; push_cast; rfl

theorem sat_word {b q : ℕ} (hb : b < n) (hq : q < 17) :
    a.wordValue (bs h (25 * b + 1 + q)) =
      fromBytes ((List.range 8).map fun i => byteAt (layout k h) a (bs h (25 * b + 1 + q)) i * notE (padAt (layout k h) a (bs h (25 * b + 1 + q)) i)) := by
  have hz := sat_gates hs hh (R := 25 * b + 1 + q) (by omega)
  simp only [gates, gWordValue, Z_append, Z_gate, Z_reqEq] at hz
  have h1 := hz.1.1.1.2
  rw [fix_in hh hb (by omega)] at h1
  exact (h1.resolve_left (by simp [fr_input, ind, hq])).symm

theorem bl_final {R : ℕ} (hR : R < 1 + n * 25) (hf : a.isFinal (bs h R) ≠ 0) : a.bytesLeft (bs h R) = 0 := by
  have hz := sat_gates hs hh hR
  simp only [gates, gBytesLeft, Z_append, Z_gate] at hz
  have h1 := hz.1.1.2
  rw [qEnable_one hh hR] at h1
  have h2 := h1.resolve_left one_ne_zero
  simp only [Z_cond, Z_reqZero] at h2
  exact h2.1.1.2.resolve_left hf

theorem bl_input {b q : ℕ} (hb : b < n) (hq : q < 17) :
    a.bytesLeft (bs h (25 * b + 1 + q)) = a.bytesLeft (bs h (25 * b + 1 + (q + 1))) +
      (8 - sumE ((List.range 8).map (padAt (layout k h) a (bs h (25 * b + 1 + q))))) := by
  have hz := sat_gates hs hh (R := 25 * b + 1 + q) (by omega)
  simp only [gates, gBytesLeft, Z_append, Z_gate] at hz
  have h1 := hz.1.1.2
  rw [qEnable_one hh (by omega)] at h1
  have h2 := h1.resolve_left one_ne_zero
  simp only [Z_cond, Z_reqEq] at h2
  have h3 := h2.1.2
  rw [fix_in hh hb (by omega), bs_succ] at h3
  exact h3.resolve_left (by simp [fr_input, ind, hq])

theorem bl_carry {b q : ℕ} (hb : b < n) (hq : 17 ≤ q) (hq' : q < 25) (hf : a.isFinal (bs h (25 * b + 1 + q)) = 0) :
    a.bytesLeft (bs h (25 * b + 1 + q)) = a.bytesLeft (bs h (25 * b + 1 + (q + 1))) := by
  have hz := sat_gates hs hh (R := 25 * b + 1 + q) (by omega)
  simp only [gates, gBytesLeft, Z_append, Z_gate] at hz
  have h1 := hz.1.1.2
  rw [qEnable_one hh (by omega)] at h1
  have h2 := h1.resolve_left one_ne_zero
  simp only [Z_cond, Z_reqEq, startNew] at h2
  have h3 := h2.2
  rw [fix_in hh hb (by omega), bs_succ, hf] at h3
  have hn : ¬ q < 17 := by omega
  exact h3.resolve_left (by simp [fr_input, fr_first, ind, notE, hn])

end

section
variable {P : ℕ → ℕ → Bool} {D : ℕ → ℕ → Byte} (C : Cells k h n a P D) {s N : ℕ} (R : Run P n s N)
  {L : ℕ} (hL : ∀ j, j < 136 * N → (PD P s j = true ↔ L ≤ j)) (hN : L / 136 + 1 = N)
include C R hL hN

/-- The hash cells of the final row. -/
theorem run_hash : a.hashHi (bs h (25 * (s + N))) = ((beNat ((keccak256 ((List.range L).map (BY D s))).take 16) : ℕ) : ZMod p) ∧
    a.hashLo (bs h (25 * (s + N))) = ((beNat ((keccak256 ((List.range L).map (BY D s))).drop 16) : ℕ) : ZMod p) := by
  have hle := R.le
  have hpos := R.pos
  have hh := C.good.hh
  obtain ⟨b, hb⟩ : ∃ b, s + N = b + 1 := ⟨s + N - 1, by omega⟩
  have hfin : P (25 * b + 17) 7 = true := by
    have := R.fin
    rwa [show s + (N - 1) = b by omega] at this
  have hf : a.isFinal (bs h (25 * (b + 1))) ≠ 0 := by
    rw [final_eq C.sat hh C.pads (by omega), hfin]; simp [b2f]
  obtain ⟨g1, g2, g3⟩ := sat_squeeze C.sat hh (by omega) hf
  have hst := run_chain C R (N - 1) (by omega)
  have hfs : finalSt ((List.range L).map (BY D s)) = absorbed ((List.range (136 * N)).map (BY D s)) (N - 1 + 1) := by
    have hl : ((List.range (136 * N)).map (BY D s)).length / rate = N - 1 + 1 := by
      simp only [List.length_map, List.length_range, rate]; omega
    unfold finalSt
    rw [run_pad C R hL hN, hl]
  rw [← hfs, show s + (N - 1) + 1 = b + 1 by omega] at hst
  have hhash : hashBytes h (layout k h) a (bs h (25 * (b + 1))) = (keccak256 ((List.range L).map (BY D s))).map fun b => ((b.toNat : ℕ) : ZMod p) := by
    rw [hashBytes_eq C.sat hh, keccak256, List.map_flatMap]
    refine List.flatMap_congr fun x hx => ?_
    have hx := List.mem_range.mp hx
    refine squeeze_bytes C.sat C.good C.hp (by omega) (by omega) (by omega) ?_
    rw [← g1 x hx]
    exact hst x (by omega) 0 (by norm_num)
  have hlen : (keccak256 ((List.range L).map (BY D s))).length = 32 := by
    simp [keccak256, laneBytes, List.length_flatMap]
  rw [hhash, ← List.map_reverse] at g2 g3
  rw [← List.map_take, List.take_reverse, fromBytes_reverse, hlen] at g2
  rw [← List.map_drop, List.drop_reverse, fromBytes_reverse, hlen] at g3
  rw [hb]
  exact ⟨g3.symm, g2.symm⟩

/-- The words of the run. -/
theorem run_words {i q : ℕ} (hi : i < N) (hq : q < 17) :
    a.wordValue (bs h (25 * (s + i) + 1 + q)) = (((leLane ((List.range L).map (BY D s)) (17 * i + q)).toNat : ℕ) : ZMod p) := by
  have hle := R.le
  rw [sat_word C.sat C.good.hh (by omega) hq]
  rw [leLane_eq (f := fun c => if P (25 * (s + i) + 1 + q) c then 0 else D (25 * (s + i) + 1 + q) c), ← fromBytes_lane]
  · congr 1
    refine List.map_congr_left fun c hc => ?_
    have hc := List.mem_range.mp hc
    rw [C.pads _ (by omega) c hc, (C.bytes _ (by omega) (by omega) (by omega)).1 c hc]
    cases P (25 * (s + i) + 1 + q) c <;> simp [b2f, notE]
  · intro c hc
    have hPD := hL (8 * (17 * i + q) + c) (by omega)
    have e1 : (8 * (17 * i + q) + c) / 136 = i := by omega
    have e2 : (8 * (17 * i + q) + c) % 136 / 8 = q := by omega
    have e3 : (8 * (17 * i + q) + c) % 8 = c := by omega
    rw [range_getD]
    rw [PD, e1, e2, e3] at hPD
    by_cases hc : 8 * (17 * i + q) + c < L
    · rw [if_pos hc, BY, e1, e2, e3, if_neg (by rw [hPD]; omega)]
    · rw [if_neg hc, if_pos (hPD.mpr (by omega))]

/-- The message bytes of one round. -/
theorem run_count {i q : ℕ} (hi : i < N) (hq : q < 17) :
    (8 - sumE ((List.range 8).map (padAt (layout k h) a (bs h (25 * (s + i) + 1 + q))))) =
      ((min L (136 * i + 8 * (q + 1)) - min L (136 * i + 8 * q) : ℕ) : ZMod p) := by
  have hle := R.le
  have hval : ∀ c, c < 8 → padAt (layout k h) a (bs h (25 * (s + i) + 1 + q)) c = if L ≤ 136 * i + 8 * q + c then 1 else 0 := by
    intro c hc
    rw [C.pads _ (by omega) c hc]
    have hPD := hL (136 * i + 8 * q + c) (by omega)
    rw [PD, show (136 * i + 8 * q + c) / 136 = i by omega, show (136 * i + 8 * q + c) % 136 / 8 = q by omega, show (136 * i + 8 * q + c) % 8 = c by omega] at hPD
    unfold b2f
    simp only [hPD]
  have : (List.range 8).map (padAt (layout k h) a (bs h (25 * (s + i) + 1 + q))) =
      (List.range 8).map (fun c => (if L ≤ 136 * i + 8 * q + c then 1 else 0 : ZMod p)) := List.map_congr_left fun c hc => by
    rw [hval c (List.mem_range.mp hc)]
  rw [this, count8, show 136 * i + 8 * (q + 1) = 136 * i + 8 * q + 8 by ring]

/-- No `is_final` flag is set in the rounds 17 to 23 of a block. -/
def CleanB (h : ℕ) (a : Adv (ZMod p)) (b : ℕ) : Prop := ∀ q, 17 ≤ q → q < 24 → a.isFinal (bs h (25 * b + 1 + q)) = 0

omit R hL hN in
theorem bl_tail {b : ℕ} (hb : b < n) (q : ℕ) (hq : 17 ≤ q) (hq' : q ≤ 24) :
    (a.bytesLeft (bs h (25 * b + 1 + 17)) = a.bytesLeft (bs h (25 * b + 1 + q)) ∨ a.bytesLeft (bs h (25 * b + 1 + 17)) = 0) ∧
    (CleanB h a b → a.bytesLeft (bs h (25 * b + 1 + 17)) = a.bytesLeft (bs h (25 * b + 1 + q))) := by
  induction q, hq using Nat.le_induction with
  | base => exact ⟨.inl rfl, fun _ => rfl⟩
  | succ q hq ih =>
    obtain ⟨i1, i2⟩ := ih (by omega)
    constructor
    · rcases i1 with i1 | i1
      · by_cases hf : a.isFinal (bs h (25 * b + 1 + q)) = 0
        · left; rw [i1]; exact bl_carry C.sat C.good.hh hb hq (by omega) hf
        · right; rw [i1]; exact bl_final C.sat C.good.hh (by omega) hf
      · exact .inr i1
    · intro hc
      rw [i2 hc]
      exact bl_carry C.sat C.good.hh hb hq (by omega) (hc q hq (by omega))

theorem bl_head {i : ℕ} (hi : i < N) (q : ℕ) (hq : q ≤ 17) :
    a.bytesLeft (bs h (25 * (s + i) + 1)) = ((min L (136 * i + 8 * q) - min L (136 * i) : ℕ) : ZMod p) + a.bytesLeft (bs h (25 * (s + i) + 1 + q)) := by
  have hle := R.le
  induction q with
  | zero => simp
  | succ q ih =>
    rw [ih (by omega), bl_input C.sat C.good.hh (by omega) (by omega), run_count C R hL hN hi (by omega), add_comm (a.bytesLeft _), ← add_assoc,
      ← Nat.cast_add]
    congr 2
    omega

theorem run_bl_aux (d i : ℕ) (hi : i + d + 1 = N) :
    ∃ m, i < m ∧ m ≤ N ∧ a.bytesLeft (bs h (25 * (s + i) + 1)) = ((min L (136 * m) - 136 * i : ℕ) : ZMod p) ∧
      ((∀ j, i ≤ j → j < N → CleanB h a (s + j)) → m = N) := by
  have hle := R.le
  have hpos := R.pos
  have hhd := bl_head C R hL hN (i := i) (by omega) 17 (le_refl _)
  obtain ⟨t1, t2⟩ := bl_tail C (b := s + i) (by omega) 24 (by norm_num) (le_refl _)
  rw [show 25 * (s + i) + 1 + 24 = 25 * (s + i + 1) by ring] at t1 t2
  have hmid : ∀ m, i < m → min L (136 * i + 8 * 17) - min L (136 * i) + (min L (136 * m) - 136 * (i + 1)) = min L (136 * m) - 136 * i := by
    intro m hm; omega
  induction d generalizing i with
  | zero =>
    have hf : a.isFinal (bs h (25 * (s + i + 1))) ≠ 0 := by
      rw [final_eq C.sat C.good.hh C.pads (by omega)]
      have := R.fin
      rw [show s + (N - 1) = s + i by omega] at this
      rw [this]; simp [b2f]
    have h0 := bl_final C.sat C.good.hh (by omega) hf
    have h18 : a.bytesLeft (bs h (25 * (s + i) + 1 + 17)) = 0 := by rcases t1 with t1 | t1 <;> simp [t1, h0]
    rw [h18, add_zero] at hhd
    refine ⟨N, by omega, le_refl _, ?_, fun _ => rfl⟩
    rw [hhd]
    congr 1
    omega
  | succ d ih =>
    have hnf : a.isFinal (bs h (25 * (s + i) + 1 + 24)) = 0 := by
      rw [show 25 * (s + i) + 1 + 24 = 25 * (s + i + 1) by ring, final_eq C.sat C.good.hh C.pads (by omega), R.mid i (by omega)]
      rfl
    have hc := bl_carry C.sat C.good.hh (b := s + i) (by omega) (by norm_num) (by norm_num) hnf
    rw [show 25 * (s + i) + 1 + 24 = 25 * (s + i + 1) by ring, show 25 * (s + i) + 1 + (24 + 1) = 25 * (s + (i + 1)) + 1 by ring] at hc
    obtain ⟨u1, u2⟩ := bl_tail C (b := s + (i + 1)) (by omega) 24 (by norm_num) (le_refl _)
    rw [show 25 * (s + (i + 1)) + 1 + 24 = 25 * (s + (i + 1) + 1) by ring] at u1 u2
    obtain ⟨m, m1, m2, m3, m4⟩ := ih (i + 1) (by omega) (bl_head C R hL hN (i := i + 1) (by omega) 17 (le_refl _)) u1 u2
      (by intro m hm; omega)
    rcases t1 with t1 | t1
    · refine ⟨m, by omega, m2, ?_, fun hcl => m4 fun j h1 h2 => hcl j (by omega) h2⟩
      rw [hhd, t1, hc, m3, ← Nat.cast_add, hmid m (by omega)]
    · by_cases hcl : ∀ j, i ≤ j → j < N → CleanB h a (s + j)
      · refine ⟨m, by omega, m2, ?_, fun hcl => m4 fun j h1 h2 => hcl j (by omega) h2⟩
        rw [hhd, t2 (hcl i (le_refl _) (by omega)), hc, m3, ← Nat.cast_add, hmid m (by omega)]
      · refine ⟨i + 1, by omega, by omega, ?_, fun hx => (hcl hx).elim⟩
        rw [hhd, t1, add_zero]
        congr 1
        omega

end

/-! ### What the caller gets -/

/-- component/circuit/shard.rs:193-211 `LoadedKeccakF` -/
structure LoadedF (F : Type) where
  bytesLeft : F
  words : List F
  isFinal : F
  hashLo : F
  hashHi : F

/-- component/circuit/shard.rs:480-519 `transmute_keccak_assigned_to_virtual`: the cells of keccak_f number `b`: the first rows of its
25 rounds, after the dummy round. -/
def loadF {F : Type} (h : ℕ) (a : Adv F) (b : ℕ) : LoadedF F :=
  { bytesLeft := a.bytesLeft (bs h (1 + 25 * b))
    words := (List.range 17).map fun i => a.wordValue (bs h (1 + 25 * b + i))
    isFinal := a.isFinal (bs h (1 + 25 * b + 24))
    hashLo := a.hashLo (bs h (1 + 25 * b + 24))
    hashHi := a.hashHi (bs h (1 + 25 * b + 24)) }

end H2.Kec
