import Verif.Sha.Bits

/-!
# What the gates say about a row
-/

set_option autoImplicit false
namespace H2.Sha
variable {F : Type} [Field F]

/-- Every polynomial vanishes. -/
def Z (l : List F) : Prop := ∀ c ∈ l, c = 0

@[simp] theorem Z_nil : Z ([] : List F) := by simp [Z]
theorem Z_append (a b : List F) : Z (a ++ b) ↔ Z a ∧ Z b := by simp only [Z, List.forall_mem_append]
theorem Z_gate (s : F) (l : List F) : Z (gate s l) ↔ s = 0 ∨ Z l := by
  unfold Z gate
  constructor
  · intro h
    by_cases hs : s = 0
    · exact .inl hs
    · exact .inr fun c hc => (mul_eq_zero.mp (h _ (List.mem_map_of_mem hc))).resolve_left hs
  · rintro h c hc
    obtain ⟨d, hd, rfl⟩ := List.mem_map.mp hc
    rcases h with h | h
    · rw [h, zero_mul]
    · rw [h d hd, mul_zero]
theorem Z_cond (s : F) (l : List F) : Z (cond s l) ↔ s = 0 ∨ Z l := Z_gate s l
theorem Z_gate1 (l : List F) : Z (gate 1 l) ↔ Z l := by rw [Z_gate]; simp
theorem Z_reqEq (a b : F) : Z (reqEq a b) ↔ a = b := by simp [Z, reqEq, sub_eq_zero]
theorem Z_reqZero (a : F) : Z (reqZero a) ↔ a = 0 := by simp [Z, reqZero]
theorem Z_reqBool (a : F) : Z (reqBool a) ↔ a * (1 - a) = 0 := by simp [Z, reqBool]
theorem Z_flatMap {α : Type} (l : List α) (f : α → List F) : Z (l.flatMap f) ↔ ∀ x ∈ l, Z (f x) := by
  simp only [Z, List.mem_flatMap]
  exact ⟨fun h x hx c hc => h c ⟨x, hx, hc⟩, fun h c ⟨x, hx, hc⟩ => h x hx c hc⟩

theorem Z_flatMap_bool (l : List F) : Z (l.flatMap reqBool) ↔ ∀ x ∈ l, x * (1 - x) = 0 := by
  rw [Z_flatMap]; simp only [Z_reqBool]

theorem ind_eq_zero (P : Prop) [Decidable P] : (ind P : F) = 0 ↔ ¬P := by
  unfold ind; split <;> simp_all

theorem bits_drop (f : ℕ → F) (m n : ℕ) : ((List.range (m + n)).map f).drop m = (List.range n).map fun i => f (i + m) := by
  refine List.ext_getElem (by simp) fun i h1 h2 => ?_
  simp [Nat.add_comm]

section
variable {n : ℕ} {adv : ℤ → Row F}

theorem fixedCols_eq {r : ℕ} (hr : r < 72 * n) : fixedCols n (r : ℤ) = (fixedAt r : Fix F) := by
  unfold fixedCols
  rw [if_pos (by constructor <;> omega)]
  simp

theorem w32_eq (adv : ℤ → Row F) (r : ℤ) : w32 adv r = wCur adv r := by
  unfold w32 wCur wExt
  rw [show 34 = 2 + 32 from rfl, bits_drop]

theorem a32_eq (adv : ℤ → Row F) (r : ℤ) : a32 adv r = newA adv r := by
  unfold a32 newA aExt
  rw [show 35 = 3 + 32 from rfl, bits_drop]

theorem e32_eq (adv : ℤ → Row F) (r : ℤ) : e32 adv r = newE adv r := by
  unfold e32 newE eExt
  rw [show 35 = 3 + 32 from rfl, bits_drop]

variable (hs : ShaSat n adv)
include hs

theorem sat_all {r : ℕ} (hr : r < 72 * n) : Z (gates (fixedCols n) adv r) := hs r hr

theorem sat_input {r : ℕ} (hr : r < 72 * n) :
    (∃ x : BitVec 34, wExt adv r = bitsOf x) ∧ (∃ x : BitVec 35, aExt adv r = bitsOf x) ∧ ∃ x : BitVec 35, eExt adv r = bitsOf x := by
  have h := sat_all hs hr
  simp only [gates, Z_append] at h
  have h := h.1.1.1.1.1.1.1.1.1.1.1
  rw [gInput, Z_gate, fixedCols_eq hr, Z_append, Z_append] at h
  simp only [Z_flatMap_bool] at h
  obtain ⟨⟨h1, h2⟩, h3⟩ := h.resolve_left (by simp [fixedAt])
  exact ⟨exists_bits _ h1 (by simp [wExt]), exists_bits _ h2 (by simp [aExt]), exists_bits _ h3 (by simp [eExt])⟩

theorem sat_extend {r : ℕ} (hr : r < 72 * n) (h1 : 20 ≤ r % 72) (h2 : r % 72 < 68) :
    decode (wCur adv (r - 16)) + decode (xorL (rotE (wCur adv (r - 15)) 7) (xorL (rotE (wCur adv (r - 15)) 18) (shrE (wCur adv (r - 15)) 3))) +
      decode (wCur adv (r - 7)) +
      decode (xorL (rotE (wCur adv (r - 2)) 17) (xorL (rotE (wCur adv (r - 2)) 19) (shrE (wCur adv (r - 2)) 10))) = decode (wExt adv r) := by
  have h := sat_all hs hr
  simp only [gates, Z_append] at h
  have h := h.1.1.1.1.1.1.1.1.1.1.2
  simp only [gExtend, Z_gate, fixedCols_eq hr, w32_eq, Z_reqEq] at h
  exact h.resolve_left (by simp [fixedAt, ind_eq_zero, h1, h2])

theorem sat_compress {r : ℕ} (hr : r < 72 * n) (h1 : 4 ≤ r % 72) (h2 : r % 72 < 68) :
    let a := newA adv (r - 1)
    let b := newA adv (r - 2)
    let c := newA adv (r - 3)
    let d := newA adv (r - 4)
    let e := newE adv (r - 1)
    let f := newE adv (r - 2)
    let g := newE adv (r - 3)
    let h := newE adv (r - 4)
    let temp1 := decode h + decode (xorL (rotE e 6) (xorL (rotE e 11) (rotE e 25))) + decode (selL e f g) +
      ((ROUND_CST.getD (r % 72 - 4) 0 : ℕ) : F) + decode (wCur adv r)
    let temp2 := decode (xorL (rotE a 2) (xorL (rotE a 13) (rotE a 22))) + decode (selL (xorL b c) a b)
    decode (aExt adv r) = temp1 + temp2 ∧ decode (eExt adv r) = decode d + temp1 := by
  have h := sat_all hs hr
  simp only [gates, Z_append] at h
  have h := h.1.1.1.1.1.1.1.1.1.2
  simp only [gCompress, Z_gate, fixedCols_eq hr, a32_eq, e32_eq, Z_append, Z_reqEq] at h
  have h := h.resolve_left (by simp [fixedAt, ind_eq_zero, h1, h2])
  simp only [fixedAt, h1, h2, and_self, if_true] at h
  exact h

theorem sat_start {r : ℕ} (hr : r < 72 * n) (h1 : r % 72 < 4) :
    decode (aExt adv r) = selE (adv r).isFinal ((HINIT.getD (3 - r % 72) 0 : ℕ) : F) (decode (newA adv (r - 4))) ∧
    decode (eExt adv r) = selE (adv r).isFinal ((HINIT.getD (7 - r % 72) 0 : ℕ) : F) (decode (newE adv (r - 4))) := by
  have h := sat_all hs hr
  simp only [gates, Z_append] at h
  have h := h.1.1.1.1.1.1.1.1.2
  simp only [gStart, Z_gate, fixedCols_eq hr, a32_eq, e32_eq, Z_append, Z_reqEq] at h
  have h := h.resolve_left (by simp [fixedAt, ind_eq_zero, h1])
  simp only [fixedAt, h1, if_true] at h
  exact h

theorem sat_end {r : ℕ} (hr : r < 72 * n) (h1 : 68 ≤ r % 72) :
    decode (aExt adv r) = decode (newA adv (r - 4)) + decode (newA adv (r - 68)) ∧
    decode (eExt adv r) = decode (newE adv (r - 4)) + decode (newE adv (r - 68)) := by
  have h := sat_all hs hr
  simp only [gates, Z_append] at h
  have h := h.1.1.1.1.1.1.1.2
  simp only [gEnd, Z_gate, fixedCols_eq hr, a32_eq, e32_eq, Z_append, Z_reqEq] at h
  exact h.resolve_left (by simp [fixedAt, ind_eq_zero, h1])

theorem sat_final {r : ℕ} (hr : r < 72 * n) :
    (r = 0 → (adv r).isFinal = 1) ∧ (r % 72 = 71 → (adv r).isFinal = (adv (r - 54)).pad 3) ∧
    (r ≠ 0 → r % 72 < 4 → (adv r).isFinal = (adv (r - 1)).isFinal) := by
  have h := sat_all hs hr
  simp only [gates, Z_append] at h
  have h := h.1.1.1.1.1.1.2
  simp only [gFinal, Z_gate1, Z_cond, fixedCols_eq hr, Z_append, Z_reqEq, sub_sub] at h
  obtain ⟨⟨h1, h2⟩, h3⟩ := h
  refine ⟨fun h => h1.resolve_left ?_, fun h => h2.resolve_left ?_, fun h h' => h3.resolve_left ?_⟩
  · simp [fixedAt, ind_eq_zero, h]
  · simp [fixedAt, ind_eq_zero, h]
  · simp [fixedAt, ind, h, h']

theorem sat_padding {r : ℕ} (hr : r < 72 * n) :
    (∀ i < 4, (adv r).pad i * (1 - (adv r).pad i) = 0) ∧
    (∀ i < 4, 4 ≤ r % 72 → r % 72 < 20 →
      let prev := if i = 0 then (adv (r - 1)).pad 3 else (adv r).pad (i - 1)
      let first := (adv r).pad i - prev
      first * (1 - first) = 0 ∧
      (((adv r).pad i ≠ 0 ∧ (r % 72 ≠ 19 ∨ (adv (r - 2)).pad 3 ≠ 1)) → (inputBytes adv r).getD i 0 = first * 128)) ∧
    (r % 72 = 19 → (adv (r - 2)).pad 3 ≠ 0 → decode (wCur adv r) = (adv r).length * 8) := by
  have h := sat_all hs hr
  simp only [gates, Z_append] at h
  have h := h.1.1.1.1.1.2
  simp only [gPadding, Z_gate1, fixedCols_eq hr, Z_append, Z_flatMap, List.mem_range] at h
  obtain ⟨⟨h1, h2⟩, h3⟩ := h
  refine ⟨fun i hi => ?_, fun i hi h4 h5 => ?_, fun h4 h5 => ?_⟩
  · have := h1 i hi
    rw [Z_cond, Z_reqBool] at this
    exact this.resolve_left (by simp [fixedAt])
  · have := h2 i hi
    simp only [gPaddingAt, fixedCols_eq hr, Z_append, Z_cond, Z_reqBool, Z_reqEq] at this
    obtain ⟨⟨g1, g2⟩, g3⟩ := this
    refine ⟨g1.resolve_left (by simp [fixedAt, ind_eq_zero, h4, h5]), fun ⟨g4, g5⟩ => ?_⟩
    by_cases g6 : r % 72 = 19
    · refine g3.resolve_left ?_
      have := g5.resolve_left (fun h => h g6)
      simp only [andE, fixedAt, ind, g6, List.foldl, notE]
      simp [g4, sub_eq_zero, Ne.symm this]
    · refine g2.resolve_left ?_
      simp [andE, fixedAt, ind, g6, h4, h5, g4]
  · rw [Z_cond, Z_reqEq] at h3
    refine h3.resolve_left ?_
    simp [andE, fixedAt, ind, h4, h5]

theorem sat_word {r : ℕ} (hr : r < 72 * n) (h1 : 4 ≤ r % 72) (h2 : r % 72 < 20) :
    (adv r).io = fromBytes (List.zipWith (fun b pd => b * notE pd) (inputBytes adv r) ((List.range 4).map (adv r).pad)) := by
  have h := sat_all hs hr
  simp only [gates, Z_append] at h
  have h := h.1.1.1.1.2
  simp only [gWordValue, Z_gate, fixedCols_eq hr, Z_reqEq] at h
  exact (h.resolve_left (by simp [fixedAt, ind_eq_zero, h1, h2])).symm

theorem sat_length {r : ℕ} (hr : r < 72 * n) (h1 : 4 ≤ r % 72) (h2 : r % 72 < 20) :
    (adv r).length = (adv (r - 1)).length + sumE ((List.range 4).map fun i => notE ((adv r).pad i)) := by
  have h := sat_all hs hr
  simp only [gates, Z_append] at h
  have h := h.1.1.1.2
  simp only [gLength, Z_gate, fixedCols_eq hr, Z_reqEq] at h
  exact (h.resolve_left (by simp [fixedAt, ind_eq_zero, h1, h2]))

theorem sat_cross {r : ℕ} (hr : r < 72 * n) (col : Row F → F) (hc : col = (·.length) ∨ col = fun x => x.pad 3) :
    (r % 72 = 71 → col (adv r) = col (adv (r - 52))) ∧
    (r ≠ 0 → r % 72 < 4 → col (adv r) = col (adv (r - 1)) * (1 - (adv r).isFinal)) ∧
    (r = 0 → col (adv r) = 0) := by
  have h := sat_all hs hr
  simp only [gates, Z_append] at h
  have h := h.1.1.2
  simp only [gCross, Z_gate1, fixedCols_eq hr, Z_append] at h
  have h : Z (crossAdd (fixedCols n) adv r col) := by rcases hc with rfl | rfl; exacts [h.1, h.2]
  simp only [crossAdd, Z_append, Z_cond, fixedCols_eq hr, Z_reqEq, notE] at h
  obtain ⟨⟨h1, h2⟩, h3⟩ := h
  refine ⟨fun h => h1.resolve_left ?_, fun h h' => h2.resolve_left ?_, fun h => h3.resolve_left ?_⟩
  · simp [fixedAt, ind_eq_zero, h]
  · simp [fixedAt, ind, h, h']
  · simp [fixedAt, ind_eq_zero, h]

theorem sat_squeeze {r : ℕ} (hr : r < 72 * n) (h1 : r % 72 = 71) (h2 : (adv r).isFinal ≠ 0) :
    let le := ([newA adv r, newA adv (r - 1), newA adv (r - 2), newA adv (r - 3), newE adv r, newE adv (r - 1), newE adv (r - 2),
      newE adv (r - 3)].flatMap toBeBytes).reverse
    fromBytes (le.take 16) = (adv r).io ∧ fromBytes (le.drop 16) = (adv (r - 1)).io := by
  have h := sat_all hs hr
  simp only [gates, Z_append] at h
  have h := h.1.2
  simp only [gSqueeze, Z_gate, fixedCols_eq hr, Z_cond, Z_append, Z_reqEq, a32_eq, e32_eq] at h
  exact (h.resolve_left (by simp [fixedAt, ind_eq_zero, h1])).resolve_left h2

end
end H2.Sha
