import Verif.Props.Sha

/-!
# Several SHA-256 assignments in one region (`multi_sha256_shifted`)

`multi_sha256_shifted(region, bytes, capacity, start_offset)` writes the rows of the witness generation at the offsets
`start_offset, start_offset + 1, …`; the fixed values depend on the absolute offset (`set_row`: `round = offset % 72`,
`q_first = (offset == 0)`).  A region may hold any number of such calls.
-/

set_option autoImplicit false
namespace H2.Sha
variable {F : Type} [Field F]

/-- A fixed column of a row which is not assigned holds 0. -/
def noFix : Fix F := ⟨0, 0, 0, 0, 0, 0, 0, 0, 0, 0, 0, 0⟩

/-- witness.rs:94-107, 134-190: the fixed columns after calls which assigned the rows `[s, s + len)` for each `(s, len)` of `segs`. -/
def fixedSegs (segs : List (ℕ × ℕ)) (r : ℤ) : Fix F :=
  if segs.any (fun s => decide ((s.1 : ℤ) ≤ r ∧ r < s.1 + s.2)) then fixedAt r.toNat else noFix

/-- witness.rs:94-107 `multi_sha256_shifted`: the rows of one call and the offset of the first; `none` is the panic "Over Capacity". -/
def shaCall (inputs : List (List Byte)) (capacity : Option ℕ) (startOffset : ℕ) : Option (ℕ × List VRow) :=
  (genMulti inputs capacity).map fun rows => (startOffset, rows)

/-- witness.rs:192-213 `set_row` for every row of a call: the advice columns after it (an assigned cell is overwritten). -/
def writeCall (c : ℕ × List VRow) (adv : ℤ → Row F) (r : ℤ) : Row F :=
  if (c.1 : ℤ) ≤ r then (match c.2[(r - c.1).toNat]? with
    | some v => setRow r.toNat v
    | none => adv r) else adv r

/-- The advice columns after the calls, in order. -/
def advCalls (calls : List (ℕ × List VRow)) (blind : ℤ → Row F) : ℤ → Row F := calls.foldl (fun adv c => writeCall c adv) blind

/-- The rows assigned by the calls. -/
def segsOf (calls : List (ℕ × List VRow)) : List (ℕ × ℕ) := calls.map fun c => (c.1, c.2.length)

/-- Every gate vanishes in every row. -/
def SegSat (segs : List (ℕ × ℕ)) (adv : ℤ → Row F) : Prop := ∀ r : ℤ, ∀ c ∈ gates (fixedSegs segs) adv r, c = 0

/-- witness.rs:104-128: the cells handed to the caller for block `b` of a call at `startOffset` (the chunks of 72 are those of the rows of
the call). -/
def blockFrom (adv : ℤ → Row F) (startOffset b : ℕ) : Block F :=
  { isFinal := (adv (startOffset + (72 * b + 71))).isFinal
    outputLo := (adv (startOffset + (72 * b + 71))).io
    outputHi := (adv (startOffset + (72 * b + 70))).io
    wordValues := (List.range 16).map fun (i : ℕ) => (adv (startOffset + (72 * b + 4 + (i : ℤ)))).io
    length := (adv (startOffset + (72 * b + 19))).length }

/-- A client which lays its calls out one after the other from offset 0: each call starts where the previous one ended. -/
def chainCalls : ℕ → List (List (List Byte) × Option ℕ) → Option (List (ℕ × List VRow))
  | _, [] => some []
  | s, (inputs, cap) :: t => do
    let c ← shaCall inputs cap s
    let rest ← chainCalls (s + c.2.length) t
    pure (c :: rest)

/-- The same layout, as the numbers of blocks. -/
def chainSegs : ℕ → List ℕ → List (ℕ × ℕ)
  | _, [] => []
  | s, n :: t => (s, 72 * n) :: chainSegs (s + 72 * n) t

/-! ### The gates of a row depend on the fixed values in it and on `q_squeeze` in the next -/

theorem gates_congr {fx fx' : ℤ → Fix F} (adv : ℤ → Row F) {r : ℤ} (h : fx r = fx' r) (hn : (fx (r + 1)).qSqueeze = (fx' (r + 1)).qSqueeze) :
    gates fx adv r = gates fx' adv r := by
  have hp : gPaddingAt fx adv r = gPaddingAt fx' adv r := by funext i; simp only [gPaddingAt, h]
  simp only [gates, gInput, gExtend, gCompress, gStart, gEnd, gFinal, gPadding, gWordValue, gLength, gCross, crossAdd, gSqueeze, gUnused,
    hp, h, hn]

theorem gates_none {fx : ℤ → Fix F} (adv : ℤ → Row F) {r : ℤ} (h : fx r = noFix) : Z (gates fx adv r) := by
  have e : fx r = ⟨0, 0, 0, 0, 0, 0, 0, 0, 0, 0, 0, 0⟩ := h
  simp only [gates, Z_append, gInput, gExtend, gCompress, gStart, gEnd, gFinal, gPadding, gWordValue, gLength, gCross, crossAdd, gSqueeze, gUnused,
    gPaddingAt, Z_gate, Z_cond, e, Z_flatMap, true_or, and_true, true_and, sub_zero, or_true, andE, List.foldl_cons, List.foldl_nil, mul_zero,
    zero_mul, implies_true, and_self]

theorem gates_shift (fx : ℤ → Fix F) (adv : ℤ → Row F) (d r : ℤ) :
    gates (fun r => fx (r + d)) (fun r => adv (r + d)) r = gates fx adv (r + d) := by
  have e1 : r + 1 + d = r + d + 1 := by ring
  have hp : gPaddingAt (fun r => fx (r + d)) (fun r => adv (r + d)) r = gPaddingAt fx adv (r + d) := by
    funext i
    simp only [gPaddingAt, inputBytes, wCur, wExt, sub_add_eq_add_sub]
  simp only [gates, gInput, gExtend, gCompress, gStart, gEnd, gFinal, gPadding, gWordValue, gLength, gCross, crossAdd, gSqueeze, gUnused,
    hp, w32, a32, e32, aExt, eExt, wExt, newA, newE, wCur, inputBytes, sub_add_eq_add_sub, e1]

theorem fixedSegs_one (s n : ℕ) (r : ℤ) : (fixedSegs [(s, n)] r : Fix F) = if (s : ℤ) ≤ r ∧ r < s + n then fixedAt r.toNat else noFix := by
  simp [fixedSegs]

theorem chainSegs_any (ns : List ℕ) : ∀ (s : ℕ) (r : ℤ),
    (chainSegs s ns).any (fun s => decide ((s.1 : ℤ) ≤ r ∧ r < s.1 + s.2)) = decide ((s : ℤ) ≤ r ∧ r < s + 72 * ns.sum) := by
  induction ns with
  | nil => intro s r; simp [chainSegs]
  | cons n t ih =>
    intro s r
    simp only [chainSegs, List.any_cons, ih, List.sum_cons]
    rw [← Bool.decide_or]
    apply Bool.decide_congr
    push_cast
    constructor
    · rintro (h | h) <;> constructor <;> omega
    · intro h; omega

theorem fixedSegs_chain (ns : List ℕ) (r : ℤ) : (fixedSegs (chainSegs 0 ns) r : Fix F) = fixedCols ns.sum r := by
  unfold fixedSegs fixedCols
  rw [chainSegs_any]
  simp only [Nat.cast_zero, zero_add, decide_eq_true_eq]
  rfl

theorem chain_sat (ns : List ℕ) (adv : ℤ → Row F) : SegSat (chainSegs 0 ns) adv ↔ ShaSat ns.sum adv := by
  have hf : (fixedSegs (chainSegs 0 ns) : ℤ → Fix F) = fixedCols ns.sum := funext fun r => fixedSegs_chain ns r
  unfold SegSat ShaSat
  rw [hf]
  constructor
  · intro h r _; exact h r
  · intro h r
    by_cases hr : 0 ≤ r ∧ r < 72 * ns.sum
    · obtain ⟨k, rfl⟩ := Int.eq_ofNat_of_zero_le hr.1
      exact h k (by omega)
    · exact unassigned_rows hr

theorem blockFrom_eq (adv : ℤ → Row F) (q b : ℕ) : blockFrom adv (72 * q) b = blockAt adv (q + b) := by
  have e : ∀ c : ℤ, ((72 * q : ℕ) : ℤ) + (72 * (b : ℤ) + c) = 72 * ((q + b : ℕ) : ℤ) + c := by intro c; push_cast; ring
  have e2 : ∀ i : ℤ, ((72 * q : ℕ) : ℤ) + (72 * (b : ℤ) + 4 + i) = 72 * ((q + b : ℕ) : ℤ) + 4 + i := by intro c; push_cast; ring
  simp only [blockFrom, blockAt, e, e2]

/-! ### A call at `72 * k`, alone -/

theorem window_sat {N k n : ℕ} {adv : ℤ → Row F} (hN : k + n ≤ N) (hs : ShaSat N adv) : SegSat [(72 * k, 72 * n)] adv := by
  intro r
  by_cases hr : ((72 * k : ℕ) : ℤ) ≤ r ∧ r < (72 * k : ℕ) + (72 * n : ℕ)
  · obtain ⟨q, rfl⟩ := Int.eq_ofNat_of_zero_le (a := r) (by omega)
    have hq : q < 72 * N := by omega
    rw [gates_congr (fx' := fixedCols N)]
    · exact hs q hq
    · rw [fixedSegs_one, if_pos hr, fixedCols_eq hq]; rfl
    · have e : ((q : ℤ) + 1) = ((q + 1 : ℕ) : ℤ) := by push_cast; rfl
      rw [fixedSegs_one, e]
      by_cases h1 : q + 1 < 72 * (k + n)
      · rw [if_pos (by omega), fixedCols_eq (by omega)]; rfl
      · have h2 : q + 1 = 72 * (k + n) := by omega
        rw [if_neg (by omega)]
        by_cases h3 : q + 1 < 72 * N
        · rw [fixedCols_eq h3]
          simp only [fixedAt, noFix]
          exact (if_neg (by omega)).symm
        · unfold fixedCols
          rw [if_neg (by omega)]; rfl
  · exact gates_none adv (by rw [fixedSegs_one, if_neg hr])

theorem fixedAt_shift (k r : ℕ) (h : r ≠ 0) : (fixedAt (r + 72 * k) : Fix F) = fixedAt r := by
  unfold fixedAt
  simp only [show (r + 72 * k) % 72 = r % 72 by omega]
  have : (ind (r + 72 * k = 0) : F) = ind (r = 0) := by
    unfold ind; rw [if_neg (by omega), if_neg h]
  rw [this]

theorem fixedAt_zero (k : ℕ) (h : k ≠ 0) : (fixedAt (72 * k) : Fix F) = { fixedAt 0 with qFirst := 0 } := by
  unfold fixedAt
  simp only [show (72 * k) % 72 = 0 by omega, Nat.zero_mod]
  have : (ind (72 * k = 0) : F) = 0 := by unfold ind; rw [if_neg (by omega)]
  rw [this]

/-- The gates at offset 0 against the gates at a later multiple of 72: `q_first`. -/
theorem first_iff {fx fx' : ℤ → Fix F} (adv : ℤ → Row F) {r : ℤ} (h0 : fx r = fixedAt 0) (h : fx' r = { fixedAt 0 with qFirst := 0 })
    (hn : (fx (r + 1)).qSqueeze = (fx' (r + 1)).qSqueeze) (hp : (adv (r - 1)).isFinal = 1) :
    Z (gates fx adv r) ↔ Z (gates fx' adv r) := by
  have q0 : (fixedAt 0 : Fix F).qFirst = 1 := by simp [fixedAt, ind]
  have q1 : (fixedAt 0 : Fix F).qStart = 1 := by simp [fixedAt, ind]
  have q2 : (fixedAt 0 : Fix F).qSqueeze = 0 := by simp [fixedAt, ind]
  have hpd : gPaddingAt fx adv r = gPaddingAt fx' adv r := by funext i; simp only [gPaddingAt, h0, h]
  simp only [gates, Z_append, gInput, gExtend, gCompress, gStart, gEnd, gPadding, gWordValue, gLength, gSqueeze, gUnused,
    hpd, h0, h, hn]
  have hF : Z (gFinal fx adv r) ↔ (adv r).isFinal = 1 := by
    simp [gFinal, Z_gate, Z_cond, Z_append, Z_reqEq, h0, q0, q1, q2]
  have hF' : Z (gFinal fx' adv r) ↔ (adv r).isFinal = 1 := by
    simp [gFinal, Z_gate, Z_cond, Z_append, Z_reqEq, h, q1, q2, hp]
  have hC : Z (gCross fx adv r) ↔ (adv r).length = 0 ∧ (adv r).pad 3 = 0 := by
    simp [gCross, crossAdd, Z_gate, Z_cond, Z_append, Z_reqEq, h0, q0, q1, q2]
  have hC' : (adv r).isFinal = 1 → (Z (gCross fx' adv r) ↔ (adv r).length = 0 ∧ (adv r).pad 3 = 0) := by
    intro hf
    simp [gCross, crossAdd, Z_gate, Z_cond, Z_append, Z_reqEq, h, q1, q2, hf, notE]
  rw [hF, hF', hC]
  by_cases hf : (adv r).isFinal = 1
  · rw [hC' hf]
  · simp [hf]

/-- A call alone at `72 * k` with the cell `is_final` of the row before it equal to 1 is the circuit from offset 0, moved. -/
theorem alone_iff {k n : ℕ} {adv : ℤ → Row F} (hp : (adv ((72 * k : ℕ) - 1)).isFinal = 1) :
    SegSat [(72 * k, 72 * n)] adv ↔ ShaSat n fun r => adv (r + (72 * k : ℕ)) := by
  have key : ∀ r : ℕ, r < 72 * n → (Z (gates (fixedSegs [(72 * k, 72 * n)]) adv ((r : ℤ) + (72 * k : ℕ))) ↔
      Z (gates (fixedCols n) (fun r => adv (r + (72 * k : ℕ))) r)) := by
    intro r hr
    rw [← gates_shift]
    have hnext : ((fixedSegs [(72 * k, 72 * n)] ((r : ℤ) + 1 + (72 * k : ℕ)) : Fix F)).qSqueeze = (fixedCols n ((r : ℤ) + 1) : Fix F).qSqueeze := by
      have e : ((r : ℤ) + 1) = ((r + 1 : ℕ) : ℤ) := by push_cast; rfl
      rw [fixedSegs_one, e]
      by_cases h : r + 1 < 72 * n
      · rw [if_pos (by omega), fixedCols_eq h, show (((r + 1 : ℕ) : ℤ) + (72 * k : ℕ)).toNat = r + 1 + 72 * k by omega,
          fixedAt_shift _ _ (by omega)]
      · rw [if_neg (by omega)]
        unfold fixedCols
        rw [if_neg (by omega)]; rfl
    have hcur : (fixedSegs [(72 * k, 72 * n)] ((r : ℤ) + (72 * k : ℕ)) : Fix F) = fixedAt (r + 72 * k) := by
      rw [fixedSegs_one, if_pos (by omega), show ((r : ℤ) + (72 * k : ℕ)).toNat = r + 72 * k by omega]
    by_cases h0 : r ≠ 0 ∨ k = 0
    · rw [gates_congr (fx' := fixedCols n)]
      · rw [hcur, fixedCols_eq hr]
        rcases h0 with h0 | h0
        · exact fixedAt_shift _ _ h0
        · rw [h0]; rfl
      · exact hnext
    · obtain ⟨hr0, hk⟩ := not_or.mp h0
      obtain rfl : r = 0 := by simpa using hr0
      refine (first_iff _ ?_ ?_ hnext.symm ?_).symm
      · rw [fixedCols_eq hr]
      · rw [hcur, Nat.zero_add]; exact fixedAt_zero k hk
      · rw [← hp]; congr 2
  constructor
  · intro h r hr
    exact (key r hr).mp (h _)
  · intro h r
    by_cases hr : ((72 * k : ℕ) : ℤ) ≤ r ∧ r < (72 * k : ℕ) + (72 * n : ℕ)
    · obtain ⟨q, hq⟩ := Int.eq_ofNat_of_zero_le (a := r - (72 * k : ℕ)) (by omega)
      obtain rfl : r = (q : ℤ) + (72 * k : ℕ) := by omega
      exact (key q (by omega)).mpr (h q (by omega))
    · exact gates_none adv (by rw [fixedSegs_one, if_neg hr])

/-! ### The calls of a chain -/

theorem genMulti_len {inputs : List (List Byte)} {cap : Option ℕ} {rows : List VRow} (h : genMulti inputs cap = some rows) :
    ∃ k, rows = (inputs ++ List.replicate k []).flatMap genSha256 ∧ rows.length = 72 * totalBlocks (inputs ++ List.replicate k []) := by
  obtain ⟨k, hk, _⟩ := genMulti_msgs h
  exact ⟨k, hk, by rw [hk, rows_len, blks_length]⟩

theorem writeCall_append (s : ℕ) (r1 r2 : List VRow) (adv : ℤ → Row F) :
    writeCall (s + r1.length, r2) (writeCall (s, r1) adv) = writeCall (s, r1 ++ r2) adv := by
  funext r
  unfold writeCall
  simp only
  push_cast
  by_cases h1 : (s : ℤ) ≤ r
  · rw [if_pos h1, if_pos h1]
    by_cases h2 : (s : ℤ) + r1.length ≤ r
    · rw [if_pos h2, List.getElem?_append_right (by omega), List.getElem?_eq_none (l := r1) (by omega),
        show (r - s).toNat - r1.length = (r - (s + r1.length)).toNat by omega]
    · rw [if_neg h2, List.getElem?_append_left (by omega)]
  · rw [if_neg h1, if_neg h1, if_neg (by omega)]

theorem writeCall_nil (s : ℕ) (adv : ℤ → Row F) : writeCall (s, []) adv = adv := by
  funext r; simp [writeCall]

theorem advOf_eq (rows : List VRow) (blind : ℤ → Row F) : advOf rows blind = writeCall (0, rows) blind := by
  funext r
  unfold advOf writeCall
  simp only [Nat.cast_zero, sub_zero]
  rfl

/-- The calls of a chain are one call with all the rows. -/
theorem chain_adv : ∀ (l : List (List (List Byte) × Option ℕ)) (s : ℕ) (calls : List (ℕ × List VRow)), chainCalls s l = some calls →
    ∀ adv : ℤ → Row F, advCalls calls adv = writeCall (s, calls.flatMap (·.2)) adv := by
  intro l
  induction l with
  | nil =>
    intro s calls h adv
    simp only [chainCalls, Option.some.injEq] at h
    subst h
    simp [advCalls, writeCall_nil]
  | cons x t ih =>
    intro s calls h adv
    obtain ⟨inputs, cap⟩ := x
    simp only [chainCalls, shaCall, Option.bind_eq_bind, Option.bind_eq_some_iff, Option.map_eq_some_iff, Option.pure_def, Option.some.injEq] at h
    obtain ⟨c, ⟨rows, hr, rfl⟩, rest, h2, rfl⟩ := h
    have := ih _ _ h2 (writeCall (s, rows) adv)
    simp only [List.flatMap_cons]
    rw [← writeCall_append]
    exact this

theorem chain_segs : ∀ (l : List (List (List Byte) × Option ℕ)) (s : ℕ) (calls : List (ℕ × List VRow)), chainCalls s l = some calls →
    ∃ ns : List ℕ, segsOf calls = chainSegs s ns ∧ (calls.flatMap (·.2)).length = 72 * ns.sum := by
  intro l
  induction l with
  | nil =>
    intro s calls h
    simp only [chainCalls, Option.some.injEq] at h
    subst h
    exact ⟨[], rfl, rfl⟩
  | cons x t ih =>
    intro s calls h
    obtain ⟨inputs, cap⟩ := x
    simp only [chainCalls, shaCall, Option.bind_eq_bind, Option.bind_eq_some_iff, Option.map_eq_some_iff, Option.pure_def, Option.some.injEq] at h
    obtain ⟨c, ⟨rows, hr, rfl⟩, rest, h2, rfl⟩ := h
    obtain ⟨ns, h3, h4⟩ := ih _ _ h2
    obtain ⟨k, _, hl⟩ := genMulti_len hr
    simp only [hl] at h3
    refine ⟨totalBlocks (inputs ++ List.replicate k []) :: ns, ?_, ?_⟩
    · simp only [segsOf, List.map_cons, chainSegs, hl]
      rw [← h3]; rfl
    · simp only [List.flatMap_cons, List.length_append, hl, h4, List.sum_cons]
      ring

/-- The messages of a chain: those of the calls, each followed by the empty messages filling its capacity. -/
theorem chain_msgs : ∀ (l : List (List (List Byte) × Option ℕ)) (s : ℕ) (calls : List (ℕ × List VRow)), chainCalls s l = some calls →
    ∃ ms : List (List (List Byte)), calls.flatMap (·.2) = (ms.flatten).flatMap genSha256 ∧
      (∀ m ∈ ms.flatten, m = [] ∨ ∃ x ∈ l, m ∈ x.1) ∧
      ∀ j x, l[j]? = some x → ∃ c, calls[j]? = some c ∧ (∃ k, ms[j]? = some (x.1 ++ List.replicate k []) ∧ c.2.length = 72 * totalBlocks (x.1 ++ List.replicate k [])) ∧
        c.1 = s + 72 * totalBlocks (ms.take j).flatten := by
  intro l
  induction l with
  | nil =>
    intro s calls h
    simp only [chainCalls, Option.some.injEq] at h
    subst h
    exact ⟨[], rfl, by simp, by simp⟩
  | cons x t ih =>
    intro s calls h
    obtain ⟨inputs, cap⟩ := x
    simp only [chainCalls, shaCall, Option.bind_eq_bind, Option.bind_eq_some_iff, Option.map_eq_some_iff, Option.pure_def, Option.some.injEq] at h
    obtain ⟨c, ⟨rows, hr, rfl⟩, rest, h2, rfl⟩ := h
    obtain ⟨ms, h3, h4, h5⟩ := ih _ _ h2
    obtain ⟨k, hk, hl⟩ := genMulti_len hr
    refine ⟨(inputs ++ List.replicate k []) :: ms, ?_, ?_, ?_⟩
    · simp only [List.flatMap_cons, List.flatten_cons, List.flatMap_append] at h3 ⊢
      rw [h3, hk, List.flatMap_append]
    · intro m hm
      rw [List.flatten_cons, List.mem_append, List.mem_append] at hm
      rcases hm with (hm | hm) | hm
      · exact .inr ⟨_, List.mem_cons_self, hm⟩
      · exact .inl (List.eq_of_mem_replicate hm)
      · rcases h4 m hm with h | ⟨x, hx, hm⟩
        · exact .inl h
        · exact .inr ⟨x, List.mem_cons_of_mem _ hx, hm⟩
    · intro j x hx
      cases j with
      | zero =>
        simp only [List.getElem?_cons_zero, Option.some.injEq] at hx
        subst hx
        exact ⟨_, rfl, ⟨k, rfl, hl⟩, by simp [totalBlocks]⟩
      | succ j =>
        rw [List.getElem?_cons_succ] at hx
        obtain ⟨c, hc, ⟨k', hk', hl'⟩, hs⟩ := h5 j x hx
        refine ⟨c, by rw [List.getElem?_cons_succ]; exact hc, ⟨k', by rw [List.getElem?_cons_succ]; exact hk', hl'⟩, ?_⟩
        simp only at hl hs
        rw [hs, List.take_succ_cons, List.flatten_cons, totalBlocks_append, hl]
        ring

end H2.Sha
