import Verif.Kec.Quiet
import Verif.Kec.GoodPar

/-!
# Property C61: the Keccak circuit

`KecSat k h n a`: the advice cells `a` (arbitrary field elements: the malicious prover's choice) satisfy every gate and every lookup of the
circuit with parameters `k`, `rows_per_round = h` and `n` keccak_f's.  `loadF h a b` are the cells handed to the caller for keccak_f
number `b`.  `keccak256` is the specification (`Kec/Spec.lean`).
-/

set_option autoImplicit false
namespace H2.Kec
open H2.Sha (b2f)
variable {p : ℕ} [Fact p.Prime]

/-- keccak_packed_multi.rs:111-115 `get_num_keccak_f` -/
def numKeccakF (l : ℕ) : ℕ := l / 136 + 1

theorem exists_run {P : ℕ → ℕ → Bool} {n b : ℕ} (hb : b < n) (hf : P (25 * b + 17) 7 = true) :
    ∃ s ≤ b, Run P n s (b + 1 - s) := by
  have key : ∀ b, ∃ s ≤ b, startB P s = true ∧ ∀ i, s ≤ i → i < b → P (25 * i + 17) 7 = false := by
    intro b
    induction b with
    | zero => exact ⟨0, le_refl _, rfl, fun i h1 h2 => by omega⟩
    | succ b ih =>
      by_cases h : P (25 * b + 17) 7 = true
      · exact ⟨b + 1, le_refl _, by simp [startB, h], fun i h1 h2 => by omega⟩
      · obtain ⟨s, h1, h2, h3⟩ := ih
        refine ⟨s, by omega, h2, fun i h4 h5 => ?_⟩
        by_cases h6 : i = b
        · subst h6; simpa using h
        · exact h3 i h4 (by omega)
  obtain ⟨s, h1, h2, h3⟩ := key b
  refine ⟨s, h1, by omega, by omega, h2, fun i hi => h3 _ (by omega) (by omega), ?_⟩
  rw [show s + (b + 1 - s - 1) = b by omega]; exact hf

/-- C61: `is_final` is a bit in every keccak_f. -/
theorem C61_keccak_is_final {k h n : ℕ} {a : Adv (ZMod p)} (hh : 1 ≤ h) (hs : KecSat k h n a) {b : ℕ} (hb : b < n) :
    (loadF h a b).isFinal = 0 ∨ (loadF h a b).isFinal = 1 := by
  obtain ⟨x, hx⟩ := final_bool hs hh (R := 1 + 25 * b + 24) (by omega)
  have : (loadF h a b).isFinal = b2f x := hx
  rw [this]
  cases x <;> simp [b2f]

/-- C61 (soundness of the Keccak circuit, for the parameters that have all their lookups): in every satisfying assignment, every final
keccak_f `b` ends a run `s, …, b` (the keccak_f's since the previous final one) which hashes a message `m`: the number of keccak_f's is
the one of the padded message, the word cells are its bytes (zero after its end), and the hash cells are the two halves of Keccak-256 of
`m`.  The `bytes_left` cell of the first keccak_f is the length of `m` if no `is_final` flag is set in the rounds 17 to 23 of the run;
in general it is the length of `m` or a positive multiple of 136 not above it. -/
theorem C61_keccak_sound {k h n : ℕ} {a : Adv (ZMod p)} (hg : Good k h) (hp : 8 ^ 82 ≤ p) (hs : KecSat k h n a)
    {b : ℕ} (hb : b < n) (hf : (loadF h a b).isFinal ≠ 0) :
    (loadF h a b).isFinal = 1 ∧ ∃ s ≤ b, (s = 0 ∨ (loadF h a (s - 1)).isFinal = 1) ∧
      (∀ i, s ≤ i → i < b → (loadF h a i).isFinal = 0) ∧
      ∃ m : List Byte, b + 1 - s = numKeccakF m.length ∧
        (∀ i, s ≤ i → i ≤ b → (loadF h a i).words = (List.range 17).map fun t => (((leLane m (17 * (i - s) + t)).toNat : ℕ) : ZMod p)) ∧
        (loadF h a b).hashHi = ((beNat ((keccak256 m).take 16) : ℕ) : ZMod p) ∧
        (loadF h a b).hashLo = ((beNat ((keccak256 m).drop 16) : ℕ) : ZMod p) ∧
        ((loadF h a s).bytesLeft = (m.length : ZMod p) ∨
          ∃ j, 1 ≤ j ∧ 136 * j ≤ m.length ∧ (loadF h a s).bytesLeft = ((136 * j : ℕ) : ZMod p)) ∧
        ((∀ i, s ≤ i → i ≤ b → ∀ q, 17 ≤ q → q < 24 → a.isFinal (bs h (1 + 25 * i + q)) = 0) → (loadF h a s).bytesLeft = (m.length : ZMod p)) := by
  have hG := GoodL.of hg
  have hh := hG.hh
  obtain ⟨P, hP⟩ := exists_pads hs hh
  obtain ⟨D, hD⟩ := exists_bytes hs hG hp
  have C : Cells k h n a P D := ⟨hs, hG, hp, hP, hD⟩
  have hfin : ∀ b, b < n → (loadF h a b).isFinal = b2f (P (25 * b + 17) 7) := by
    intro b hb
    rw [← final_eq hs hh hP hb]
    simp only [loadF]
    rw [show 1 + 25 * b + 24 = 25 * (b + 1) by ring]
  have hfb : P (25 * b + 17) 7 = true := by
    rw [hfin b hb] at hf
    by_contra h
    exact hf (by simp [b2f, h])
  refine ⟨by rw [hfin b hb, hfb]; rfl, ?_⟩
  obtain ⟨s, hsb, R⟩ := exists_run hb hfb
  obtain ⟨L, hL, hN⟩ := run_len C R
  have hN' : s + (b + 1 - s) = b + 1 := by omega
  obtain ⟨hhi, hlo⟩ := run_hash C R hL hN
  rw [hN', show 25 * (b + 1) = 1 + 25 * b + 24 by ring] at hhi hlo
  obtain ⟨m, m1, m2, m3, m4⟩ := run_bl_aux C R hL hN (b + 1 - s - 1) 0 (by omega)
  rw [Nat.mul_zero, Nat.sub_zero, show 25 * (s + 0) + 1 = 1 + 25 * s by ring] at m3
  refine ⟨s, hsb, ?_, fun i h1 h2 => ?_, (List.range L).map (BY D s), ?_, fun i h1 h2 => ?_, hhi, hlo, ?_, fun hcl => ?_⟩
  · by_cases h0 : s = 0
    · exact .inl h0
    · right
      have := R.start
      rw [startB, if_neg h0] at this
      rw [hfin _ (by omega), this]; rfl
  · have := R.mid (i - s) (by omega)
    rw [show s + (i - s) = i by omega] at this
    rw [hfin _ (by omega), this]; rfl
  · rw [List.length_map, List.length_range, numKeccakF, hN]
  · simp only [loadF]
    refine List.map_congr_left fun t ht => ?_
    have := run_words C R hL hN (i := i - s) (q := t) (by omega) (List.mem_range.mp ht)
    rw [show s + (i - s) = i by omega, show 25 * i + 1 + t = 1 + 25 * i + t by ring] at this
    exact this
  · rw [List.length_map, List.length_range]
    show a.bytesLeft (bs h (1 + 25 * s)) = _ ∨ ∃ j, _ ∧ _ ∧ a.bytesLeft (bs h (1 + 25 * s)) = _
    by_cases hc : L ≤ 136 * m
    · left; rw [m3, min_eq_left hc]
    · right; exact ⟨m, by omega, by omega, by rw [m3, min_eq_right (by omega)]⟩
  · rw [List.length_map, List.length_range]
    show a.bytesLeft (bs h (1 + 25 * s)) = _
    have := m4 (fun j _ hj q hq hq' => by
      have := hcl (s + j) (by omega) (by omega) q hq hq'
      rwa [show 25 * (s + j) + 1 + q = 1 + 25 * (s + j) + q by ring])
    rw [m3, min_eq_left (by omega)]

/-- C61: outside the assigned rows the selectors are off and no gate constrains any cell, so satisfying the assigned rows is satisfying
all rows. -/
theorem C61_keccak_unassigned {k h n : ℕ} (a : Adv (ZMod p)) {r : ℤ} (hr : r < 0 ∨ (numRows h n : ℤ) ≤ r) :
    ∀ c ∈ gates k h (layout k h) (fixedCols h n) a r, c = 0 := gates_out _ a hr

/-- C61: `get_keccak_capacity` for the parameters of the circuit: the assigned rows, and the 17 rounds after the last absorb row that its
gate refers to, fit in the given number of rows. -/
theorem C61_keccak_capacity {h numRws : ℕ} (hh : 1 ≤ h) (h1 : 18 ≤ numRws / h) :
    numRows h ((numRws / h - 1 - 17) / 25) + 17 * h ≤ numRws := by
  unfold numRows
  have h2 : (numRws / h - 1 - 17) / 25 * 25 ≤ numRws / h - 1 - 17 := Nat.div_mul_le_self _ _
  have h3 : (1 + (numRws / h - 1 - 17) / 25 * 25) + 17 ≤ numRws / h := by omega
  calc (1 + (numRws / h - 1 - 17) / 25 * 25) * h + 17 * h = ((1 + (numRws / h - 1 - 17) / 25 * 25) + 17) * h := by ring
    _ ≤ numRws / h * h := Nat.mul_le_mul_right _ h3
    _ ≤ numRws := Nat.div_mul_le_self _ _

/-- The condition of `C61_keccak_sound` holds for some parameters. -/
example : Good 19 1 ∧ Good 19 2 ∧ Good 20 1 ∧ Good 20 2 ∧ Good 10 4 := ⟨good_19_1, good_19_2, good_20_1, good_20_2, good_10_4⟩

end H2.Kec
