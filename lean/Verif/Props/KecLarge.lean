import Verif.Kec.LargePar
import Verif.Props.KecMsgForge

/-!
# Property C95, C61: every sufficiently large number of rows per round

`keccak/component/circuit/shard.rs:90-101` computes the rows per round from the capacity: the smaller the capacity, the more rows per round.
The cell manager (`vanilla/cell_manager.rs`) goes to the next column only when the rows of a round are used up, so from some number of rows on
all cells are in the columns they start in and the layout stops changing.  The findings C95 (words) and C61 (hash) then hold for all larger
numbers of rows at once, that is for all small capacities.
-/

set_option autoImplicit false
set_option linter.unusedSectionVars false
namespace H2.Kec
variable {p : ℕ} [Fact p.Prime]

/-- The number of rows per round from which the findings hold, for the `k` treated here. -/
def manyRows : ℕ → Option ℕ
  | 14 => some 123
  | 18 => some 111
  | 20 => some 101
  | _ => none

/-- C95: from that number on, the rows per round do not change the layout of the circuit. -/
theorem C95_layout_large {k N h : ℕ} (hk : manyRows k = some N) (hh : N ≤ h) : layout k h = layout k N := by
  unfold manyRows at hk
  split at hk <;> simp only [Option.some.injEq, reduceCtorEq] at hk <;> subst hk
  · exact layout_eq noWrap_14 hh
  · exact layout_eq noWrap_18 hh
  · exact layout_eq noWrap_20 hh

/-- C95: no lookup on input byte 0 and none on byte 7 of the squeezed state, for every larger number of rows per round. -/
theorem C95_free_large {k N h : ℕ} (hk : manyRows k = some N) (hh : N ≤ h) :
    inFree h (layout k h) 0 = true ∧ sqFree h (layout k h) 7 = true := by
  rw [C95_layout_large hk hh]
  unfold manyRows at hk
  split at hk <;> simp only [Option.some.injEq, reduceCtorEq] at hk <;> subst hk
  · exact ⟨inFree_mono hh inFree0_14_123, sqFree_mono hh sqFree_14_123⟩
  · exact ⟨inFree_mono hh inFree0_18_111, sqFree_mono hh sqFree_18_111⟩
  · exact ⟨inFree_mono hh inFree0_20_101, sqFree_mono hh sqFree_20_101⟩

/-- C95 (finding): for `k` = 14, 18, 20 and every larger number of rows per round, from any satisfying assignment another one is obtained in
which every word of the message whose first byte is not padding is arbitrary, with the same lengths, flags and hashes. -/
theorem C95_words_forged_large {k N h n : ℕ} (hk : manyRows k = some N) (hh : N ≤ h) (hp : p ≠ 2) {a : Adv (ZMod p)} (hs : KecSat k h n a)
    (W : ℕ → ℕ → ZMod p) :
    ∃ a' : Adv (ZMod p), KecSat k h n a' ∧ ∀ b < n, (loadF h a' b).bytesLeft = (loadF h a b).bytesLeft ∧ (loadF h a' b).isFinal = (loadF h a b).isFinal ∧
      (loadF h a' b).hashLo = (loadF h a b).hashLo ∧ (loadF h a' b).hashHi = (loadF h a b).hashHi ∧
      ∀ i < 17, (padAt (layout k h) a (bs h (1 + 25 * b + i)) 0 = 0 → (loadF h a' b).words.getD i 0 = W b i) ∧
        (padAt (layout k h) a (bs h (1 + 25 * b + i)) 0 ≠ 0 → (loadF h a' b).words.getD i 0 = (loadF h a b).words.getD i 0) :=
  C95_words_forged hp (C95_free_large hk hh).1 hs W

/-- C61 (finding): for `k` = 14, 18, 20 and every larger number of rows per round, from any satisfying assignment another one is obtained in
which the hash of one block is arbitrary, with the same words, lengths and flags. -/
theorem C61_hash_forged_large {k N h n : ℕ} (hk : manyRows k = some N) (hh : N ≤ h) (hp : p ≠ 2) {a : Adv (ZMod p)} (hs : KecSat k h n a)
    (b : ℕ) (lo hi : ZMod p) :
    ∃ a' : Adv (ZMod p), KecSat k h n a' ∧ (loadF h a' b).hashLo = lo ∧ (loadF h a' b).hashHi = hi ∧
      ∀ c, (loadF h a' c).words = (loadF h a c).words ∧ (loadF h a' c).isFinal = (loadF h a c).isFinal ∧
        (loadF h a' c).bytesLeft = (loadF h a c).bytesLeft ∧
        (c ≠ b → (loadF h a' c).hashLo = (loadF h a c).hashLo ∧ (loadF h a' c).hashHi = (loadF h a c).hashHi) :=
  C61_keccak_hash_forged hp (C95_free_large hk hh).2 hs b lo hi

/-- `k = 18` with the rows per round of a capacity of 50 blocks (shard.rs:94-98: `(2^18 - 109) / (50 · 25 + 1 + 17) = 206`) is such a circuit. -/
example : layout 18 206 = layout 18 111 := C95_layout_large rfl (by norm_num)

end H2.Kec
