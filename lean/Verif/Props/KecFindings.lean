import Verif.Props.Kec
import Verif.Kec.ForgeHash

/-!
# C61: findings about the Keccak circuit
-/

set_option autoImplicit false
namespace H2.Kec
open H2.Sha (b2f)
variable {p : ℕ} [Fact p.Prime]

/-- C61 (finding): the `bytes_left` cell that the caller uses as the length of the input is not determined by the circuit: from a
satisfying assignment in which no `is_final` flag is set inside the run `s, …, b` of a message (as in the honest one), another satisfying
assignment is obtained in which the length of the message is `136 * j` for any `j` between 1 and the number of full blocks, and all other
cells handed to the caller (words, `is_final`, hash) are the same in all keccak_f's.  The flag `is_final` is not constrained to be zero in
rounds 17 to 23 of a keccak_f; setting it there resets `bytes_left`. -/
theorem C61_keccak_bytes_left_forged {k h n : ℕ} {a : Adv (ZMod p)} (hg : Good k h) (hp : 8 ^ 82 ≤ p) (hs : KecSat k h n a)
    {s b j : ℕ} (hb : b < n) (hst : s = 0 ∨ (loadF h a (s - 1)).isFinal = 1) (hf : (loadF h a b).isFinal = 1)
    (hc : ∀ R, 25 * s < R → R < 25 * (b + 1) → a.isFinal (bs h R) = 0) (hj : 1 ≤ j) (hjb : s + j ≤ b) :
    ∃ a' : Adv (ZMod p), KecSat k h n a' ∧ (loadF h a' s).bytesLeft = ((136 * j : ℕ) : ZMod p) ∧
      ∀ c, (loadF h a' c).words = (loadF h a c).words ∧ (loadF h a' c).isFinal = (loadF h a c).isFinal ∧
        (loadF h a' c).hashLo = (loadF h a c).hashLo ∧ (loadF h a' c).hashHi = (loadF h a c).hashHi ∧
        (c < s ∨ s + j ≤ c → (loadF h a' c).bytesLeft = (loadF h a c).bytesLeft) := by
  have hG := GoodL.of hg
  have hh := hG.hh
  obtain ⟨P, hP⟩ := exists_pads hs hh
  obtain ⟨D, hD⟩ := exists_bytes hs hG hp
  have C : Cells k h n a P D := ⟨hs, hG, hp, hP, hD⟩
  have hfin : ∀ b, b < n → (loadF h a b).isFinal = b2f (P (25 * b + 17) 7) := by
    intro b hb
    rw [← final_eq hs hh hP hb]
    simp only [loadF]
    rw [show 1 + 25 * b + 24 = 25 * (b + 1) by ring]
  have hst' : s = 0 ∨ a.isFinal (bs h (25 * s)) = 1 := by
    rcases hst with h0 | h0
    · exact .inl h0
    · by_cases hz : s = 0
      · exact .inl hz
      · right
        simp only [loadF] at h0
        rwa [show 1 + 25 * (s - 1) + 24 = 25 * s by omega] at h0
  have hR : Run P n s (b + 1 - s) := by
    refine ⟨by omega, by omega, ?_, fun i hi => ?_, ?_⟩
    · unfold startB
      by_cases hz : s = 0
      · simp [hz]
      · rw [if_neg hz]
        have := hst.resolve_left hz
        rw [hfin _ (by omega)] at this
        by_contra hx
        rw [Bool.not_eq_true] at hx
        rw [hx] at this; simp [b2f] at this
    · have := hc (25 * (s + i + 1)) (by omega) (by omega)
      rw [final_eq hs hh hP (by omega)] at this
      by_contra hx
      rw [Bool.not_eq_false] at hx
      rw [hx] at this; simp [b2f] at this
    · rw [show s + (b + 1 - s - 1) = b by omega]
      rw [hfin _ hb] at hf
      by_contra hx
      rw [Bool.not_eq_true] at hx
      rw [hx] at hf; simp [b2f] at hf
  obtain ⟨L, hL, hN⟩ := run_len C hR
  have hclean : ∀ i, s + i ≤ b → CleanB h a (s + i) := fun i hi q h1 h2 => hc _ (by omega) (by omega)
  have hbl : ∀ i, s + i ≤ b → a.bytesLeft (bs h (25 * (s + i) + 1)) = ((L - 136 * i : ℕ) : ZMod p) := by
    intro i hi
    obtain ⟨m, m1, m2, m3, m4⟩ := run_bl_aux C hR hL hN (b - s - i) i (by omega)
    have := m4 fun j h1 h2 => hclean j (by omega)
    rw [m3, min_eq_left (by omega)]
  have h18 : a.bytesLeft (bs h (25 * (s + j - 1) + 18)) = ((L - 136 * j : ℕ) : ZMod p) := by
    have h1 := (bl_tail C (b := s + j - 1) (by omega) 24 (by norm_num) (le_refl _)).2 (by
      have := hclean (j - 1) (by omega); rwa [show s + (j - 1) = s + j - 1 by omega] at this)
    rw [h1, bl_carry hs hh (b := s + j - 1) (by omega) (by norm_num) (by norm_num) (hc _ (by omega) (by omega)), ← hbl j hjb]
    congr 2
    omega
  refine ⟨forgeBL h s (s + j - 1) a, forge_sat hs hh (by omega) (by omega) hst' fun R h1 h2 => hc R h1 (by omega), ?_, fun c => ⟨rfl, ?_, rfl, rfl, fun hcc => ?_⟩⟩
  · show (if bs h (25 * s + 1) ≤ bs h (1 + 25 * s) ∧ bs h (1 + 25 * s) ≤ bs h (25 * (s + j - 1) + 18) then
      a.bytesLeft (bs h (1 + 25 * s)) - a.bytesLeft (bs h (25 * (s + j - 1) + 18)) else a.bytesLeft (bs h (1 + 25 * s))) = _
    rw [if_pos (by rw [bs_le hh, bs_le hh]; omega), h18]
    have := hbl 0 (by omega)
    rw [show 25 * (s + 0) + 1 = 1 + 25 * s by ring, Nat.mul_zero, Nat.sub_zero] at this
    rw [this, ← Nat.cast_sub (by omega)]
    congr 1
    omega
  · show (if bs h (1 + 25 * c + 24) = bs h (25 * (s + j - 1) + 18) then (1 : ZMod p) else a.isFinal (bs h (1 + 25 * c + 24))) = _
    rw [if_neg (by rw [bs_eq hh]; omega)]
    rfl
  · show (if bs h (25 * s + 1) ≤ bs h (1 + 25 * c) ∧ bs h (1 + 25 * c) ≤ bs h (25 * (s + j - 1) + 18) then
      a.bytesLeft (bs h (1 + 25 * c)) - a.bytesLeft (bs h (25 * (s + j - 1) + 18)) else a.bytesLeft (bs h (1 + 25 * c))) = a.bytesLeft (bs h (1 + 25 * c))
    rw [if_neg (by rw [bs_le hh, bs_le hh]; omega)]

/-- C61 (finding): for some parameters, among them the ones of the repository's tests, the lookup that ties a byte of the squeezed words to
the state is missing (`sqFree`: the byte's cell occurs in no gate but the squeeze gate and its column in no lookup).  Then from any
satisfying assignment another one is obtained in which the hash cells of an arbitrary keccak_f are arbitrary, and all other cells handed
to the caller are the same: any value passes as the Keccak-256 hash of any message. -/
theorem C61_keccak_hash_forged {k h n x : ℕ} {a : Adv (ZMod p)} (hp : p ≠ 2) (hf : sqFree h (layout k h) x = true) (hs : KecSat k h n a)
    (b : ℕ) (lo hi : ZMod p) :
    ∃ a' : Adv (ZMod p), KecSat k h n a' ∧ (loadF h a' b).hashLo = lo ∧ (loadF h a' b).hashHi = hi ∧
      ∀ c, (loadF h a' c).words = (loadF h a c).words ∧ (loadF h a' c).isFinal = (loadF h a c).isFinal ∧
        (loadF h a' c).bytesLeft = (loadF h a c).bytesLeft ∧
        (c ≠ b → (loadF h a' c).hashLo = (loadF h a c).hashLo ∧ (loadF h a' c).hashHi = (loadF h a c).hashHi) := by
  have h2 : (2 : ZMod p) ≠ 0 := by
    intro e
    have : ((2 : ℕ) : ZMod p) = 0 := by exact_mod_cast e
    rw [ZMod.natCast_eq_zero_iff] at this
    exact hp ((Nat.prime_dvd_prime_iff_eq (Fact.out (p := p.Prime)) Nat.prime_two).mp this)
  have hh := (sqFree_cases hf).1
  obtain ⟨v1, v2, hk⟩ := forgeH_exists h2 hs hf b lo hi
  refine ⟨_, hk, ?_, ?_, fun c => ⟨rfl, rfl, rfl, fun hc => ⟨?_, ?_⟩⟩⟩
  · show (if bs h (1 + 25 * b + 24) = bs h (25 * (b + 1)) then lo else a.hashLo (bs h (1 + 25 * b + 24))) = lo
    rw [if_pos (by rw [bs_eq hh]; omega)]
  · show (if bs h (1 + 25 * b + 24) = bs h (25 * (b + 1)) then hi else a.hashHi (bs h (1 + 25 * b + 24))) = hi
    rw [if_pos (by rw [bs_eq hh]; omega)]
  · show (if bs h (1 + 25 * c + 24) = bs h (25 * (b + 1)) then lo else a.hashLo (bs h (1 + 25 * c + 24))) = a.hashLo (bs h (1 + 25 * c + 24))
    rw [if_neg (by rw [bs_eq hh]; omega)]
  · show (if bs h (1 + 25 * c + 24) = bs h (25 * (b + 1)) then hi else a.hashHi (bs h (1 + 25 * c + 24))) = a.hashHi (bs h (1 + 25 * c + 24))
    rw [if_neg (by rw [bs_eq hh]; omega)]

/-- C61 (finding): the parameters of the repository's tests (vanilla/tests.rs:216, 243, 323: `k = 12`, 5 rows per round and `k = 14`, 25 rows per
round; component/circuit/tests/shard.rs:24-38: `k = 18` and capacity 10, hence 977 rows per round) lack the lookup. -/
theorem C61_keccak_hash_forged_params :
    sqFree 25 (layout 14 25) 7 = true ∧ sqFree 5 (layout 12 5) 7 = true ∧ sqFree 977 (layout 18 977) 7 = true ∧ sqFree 50 (layout 20 50) 7 = true :=
  ⟨sqFree_14_25, sqFree_12_5, sqFree_18_977, sqFree_20_50⟩

deriving instance DecidableEq for UPart

theorem parts_18_9 : (layout 18 9).uparts.getD 1 [] = [.two 1 (113, 5) 6 (113, 6) (33, 2), .same 7 (33, 3), .same 7 (33, 4), .same 7 (33, 5),
    .same 7 (33, 6), .same 7 (33, 7), .same 7 (33, 8), .same 7 (38, 0), .same 7 (38, 1), .same 1 (38, 2)] := by decide +kernel

theorem norm4_small {v : ℕ} (hv : v = 0 ∨ v = 1 ∨ v = 8) : (v, v) ∈ table 18 .norm4 := by
  show (v, v) ∈ tblRows (· % 2) 4 (numBits 4 18)
  have hn : numBits 4 18 = 8 := by decide +kernel
  rw [hn]
  refine tblRows_mem (by norm_num) (fun d _ => by show d % 2 < 8; omega) ?_ ?_ ?_ <;> rcases hv with rfl | rfl | rfl <;> decide

/-- C61 (finding): when the size of the parts does not divide 64 (here `k = 18`, 9 rows per round, tests.rs:244, parts of 7 bits) the split of a
word for the rotation of rho is not unique: the last part has one bit, but its values are only checked against the table for 7 bits, so a
bit can be moved into it from the part above.  Both assignments of the parts of `s[1][0]` (rotation 1) satisfy the constraints of the
split for the same word `8 ^ 63` (only bit 63 is set), all parts are in the lookup table, and the rotated words differ. -/
theorem C61_keccak_split_ambiguous : ∃ v v' : Cell → ZMod p,
    (∀ c ∈ splitUniGates v ((layout 18 9).uparts.getD 1 []) (rhoAt 1 0) (ps5 18) (8 ^ 63), c = 0) ∧
    (∀ c ∈ splitUniGates v' ((layout 18 9).uparts.getD 1 []) (rhoAt 1 0) (ps5 18) (8 ^ 63), c = 0) ∧
    (∀ u ∈ (layout 18 9).uparts.getD 1 [], ∀ c ∈ upartCells u, (∃ e ∈ table 18 .norm4, v c = (e.1 : ZMod p)) ∧ ∃ e ∈ table 18 .norm4, v' c = (e.1 : ZMod p)) ∧
    ((layout 18 9).uparts.getD 1 []).map (fun u => v u.out) ≠ ((layout 18 9).uparts.getD 1 []).map (fun u => v' u.out) := by
  have hp5 : ps5 18 = 7 := by decide +kernel
  have hrho : rhoAt 1 0 = 1 := rfl
  rw [parts_18_9, hp5, hrho]
  refine ⟨fun c => if c = (33, 2) ∨ c = (113, 5) then 1 else 0, fun c => if c = (38, 2) then 8 else 0, ?_, ?_, ?_, ?_⟩
  · intro c hc
    simp [splitUniGates, upartGate, UPart.inputs, H2.Sha.reqEq, rotPartsRev, rotL, rotateCount, decode] at hc
    rcases hc with rfl | rfl <;> ring
  · intro c hc
    simp [splitUniGates, upartGate, UPart.inputs, H2.Sha.reqEq, rotPartsRev, rotL, rotateCount, decode] at hc
    rcases hc with rfl | rfl <;> ring
  · intro u _ c _
    constructor
    · by_cases h : c = (33, 2) ∨ c = (113, 5)
      · exact ⟨(1, 1), norm4_small (by simp), by simp [h]⟩
      · exact ⟨(0, 0), norm4_small (by simp), by simp [h]⟩
    · by_cases h : c = (38, 2)
      · exact ⟨(8, 8), norm4_small (by simp), by simp [h]⟩
      · exact ⟨(0, 0), norm4_small (by simp), by simp [h]⟩
  · simp [UPart.out]

end H2.Kec
