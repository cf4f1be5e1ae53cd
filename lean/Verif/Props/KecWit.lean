import Verif.Kec.WitOut
import Verif.Kec.WitPar
import Verif.Props.KecComp

/-!
# Property C62: the witness generation of the Keccak circuit

`multiKeccak k h ms capacity` models `multi_keccak` (its rows; `none` if it panics) and `advOf rows` the advice columns after `assign`.  The
theorems hold for all parameters `k`, `rows_per_round = h` with the decidable conditions `Wit k h` (the cells are distinct, the lookups
apply to the right cells) and `witRot k` (the parts of rotated words are in the right order), and all messages.
`KecSat`, `loadF`: see `Verif/Props/Kec.lean`; `honestF m i`: the values of the cells of keccak_f `i` of the message `m`.
-/

set_option autoImplicit false
set_option linter.unusedSectionVars false
namespace H2.Kec

/-- C62: with a capacity of `c` keccak_f's `multi_keccak` panics exactly when the messages need more (`len / 136 + 1` for each); otherwise it
is `multi_keccak` without capacity of the messages followed by empty messages. -/
theorem C62_capacity {k h : ℕ} (hh : 1 ≤ h) (ms : List (List Byte)) (c : ℕ) :
    multiKeccak k h ms (some c) =
      if (ms.map fun m => m.length / 136 + 1).sum ≤ c then
        multiKeccak k h (ms ++ List.replicate (c - (ms.map fun m => m.length / 136 + 1).sum) []) none
      else none := multiKeccak_some hh ms c

/-- C62 (completeness of the Keccak circuit): the rows of the witness generation fill the rows of the circuit exactly, and the assignment
satisfies all its gates and lookups, over every field, in every row (assigned or not). -/
theorem C62_complete {F : Type} [Field F] {k h : ℕ} (hw : Wit k h) {ms : List (List Byte)} {c : ℕ} {rows : List KRow}
    (hrun : multiKeccak k h ms (some c) = some rows) :
    rows.length = numRows h c ∧ KecSat k h c (advOf rows : Adv F) ∧
      ∀ r : ℤ, (∀ x ∈ gates k h (layout k h) (fixedCols h c) (advOf rows : Adv F) r, x = 0) ∧ ∀ l ∈ (layout k h).looks, lookOk k (advOf rows : Adv F) r l := by
  have hL := WitL.of hw
  rw [multiKeccak_some hL.hh] at hrun
  by_cases hc : totalF ms ≤ c
  · rw [if_pos hc] at hrun
    have hr := (Option.some_inj.mp hrun).symm
    have hn : (blocks (ms ++ List.replicate (c - totalF ms) [])).length = c := by
      rw [blocks_length, totalF_blocks, totalF_append]; omega
    have hsat : KecSat k h c (advOf rows : Adv F) := by
      have := wit_sat (F := F) hL (ms := ms ++ List.replicate (c - totalF ms) [])
      rwa [hn, ← hr] at this
    have hlen : rows.length = numRows h c := by
      rw [hr, rowsOf_length, ← blocks_length, hn]
    refine ⟨hlen, hsat, fun r => ?_⟩
    by_cases hin : 0 ≤ r ∧ r < numRows h c
    · obtain ⟨n, rfl⟩ := Int.eq_ofNat_of_zero_le hin.1
      exact hsat n (by exact_mod_cast hin.2)
    · refine ⟨gates_out _ _ (by omega), fun l _ => look_zero hL (fun x => ?_) l⟩
      by_cases h0 : 0 ≤ r
      · obtain ⟨n, rfl⟩ := Int.eq_ofNat_of_zero_le h0
        have e := adv_cell (F := F) rows x n
        rw [List.getElem?_eq_none (by rw [hlen]; omega)] at e
        refine e.trans ?_
        simp
      · show (if 0 ≤ r then _ else (0 : F)) = 0
        rw [if_neg h0]
  · rw [if_neg hc] at hrun; exact absurd hrun (by simp)

/-- C62: the fixed cells assigned with the rows do not depend on the messages: they are the fixed columns of the circuit. -/
theorem C62_fixed {F : Type} [Field F] {k h : ℕ} (hh : 1 ≤ h) {ms : List (List Byte)} {c : ℕ} {rows : List KRow}
    (hrun : multiKeccak k h ms (some c) = some rows) (r : ℕ) :
    ((rows[r]?).map (fixOf r)).getD ⟨0, 0, 0, 0, 0, 0, 0, 0⟩ = (fixedCols h c (r : ℤ) : Fix F) := by
  rw [multiKeccak_some hh] at hrun
  by_cases hc : totalF ms ≤ c
  · rw [if_pos hc] at hrun
    have hr := (Option.some_inj.mp hrun).symm
    have hlen : rows.length = numRows h c := by
      rw [hr, rowsOf_len, totalF_append, show totalF ms + (c - totalF ms) = c by omega]; rfl
    unfold fixedCols
    by_cases hlt : r < rows.length
    · rw [if_pos ⟨by omega, by rw [← hlen]; exact_mod_cast hlt⟩, List.getElem?_eq_getElem hlt]
      have := fix_rows (F := F) (k := k) hh (ms ++ List.replicate (c - totalF ms) []) r rows[r] (by rw [← hr]; exact List.getElem?_eq_getElem hlt)
      simpa using this
    · rw [if_neg (by rw [← hlen]; omega), List.getElem?_eq_none (by omega)]
      rfl
  · rw [if_neg hc] at hrun; exact absurd hrun (by simp)

/-- C62: the cells handed to the caller: for every message, in order, and then for empty messages up to the capacity, its keccak_f's with the
words of the message, the number of bytes left, the flag in the last one, and there the halves of Keccak-256 of the message. -/
theorem C62_cells {F : Type} [Field F] {k h : ℕ} (hw : Wit k h) (hr : witRot k = true) {ms : List (List Byte)} {c : ℕ} {rows : List KRow}
    (hrun : multiKeccak k h ms (some c) = some rows) :
    (List.range c).map (loadF h (advOf rows : Adv F)) =
      (ms ++ List.replicate (c - (ms.map fun (m : List Byte) => m.length / 136 + 1).sum) []).flatMap fun (m : List Byte) =>
        (List.range (m.length / 136 + 1)).map fun (i : ℕ) =>
         ({ bytesLeft := ((m.length - 136 * i : ℕ) : F)
            words := (List.range 17).map fun t => (((leLane m (17 * i + t)).toNat : ℕ) : F)
            isFinal := if i = m.length / 136 then 1 else 0
            hashLo := if i = m.length / 136 then ((beNat ((keccak256 m).drop 16) : ℕ) : F) else 0
            hashHi := if i = m.length / 136 then ((beNat ((keccak256 m).take 16) : ℕ) : F) else 0 } : LoadedF F) := by
  have hL := WitL.of hw
  rw [multiKeccak_some hL.hh] at hrun
  by_cases hc : totalF ms ≤ c
  · rw [if_pos hc] at hrun
    rw [(Option.some_inj.mp hrun).symm]
    have := load_all (F := F) hL (RotL.of hr) (ms := ms ++ List.replicate (c - totalF ms) [])
    rw [totalF_append, show totalF ms + (c - totalF ms) = c by omega] at this
    exact this
  · rw [if_neg hc] at hrun; exact absurd hrun (by simp)

/-- C62: the flag `is_final` is set in no other row. -/
theorem C62_clean {F : Type} [Field F] {k h : ℕ} (hw : Wit k h) (hr : witRot k = true) {ms : List (List Byte)} {c : ℕ} {rows : List KRow}
    (hrun : multiKeccak k h ms (some c) = some rows) (r : ℕ) (hf : (advOf rows : Adv F).isFinal (r : ℤ) ≠ 0) :
    ∃ b, b < c ∧ (r : ℤ) = bs h (1 + 25 * b + 24) := by
  have hL := WitL.of hw
  rw [multiKeccak_some hL.hh] at hrun
  by_cases hc : totalF ms ≤ c
  · rw [if_pos hc] at hrun
    rw [← Option.some_inj.mp hrun] at hf
    obtain ⟨b, h1, h2⟩ := load_clean (F := F) hL (RotL.of hr) r hf
    rw [totalF_append] at h1
    exact ⟨b, by omega, h2⟩
  · rw [if_neg hc] at hrun; exact absurd hrun (by simp)

/-! ## Findings made concrete -/

section
variable {p : ℕ} [Fact p.Prime]

theorem loads_get {k h : ℕ} (hw : Wit k h) (hr : witRot k = true) {m : List Byte} {c : ℕ} {rows : List KRow}
    (hrun : multiKeccak k h [m] (some c) = some rows) {i : ℕ} (hi : i ≤ m.length / 136) :
    i < c ∧ loadF h (advOf rows : Adv (ZMod p)) i = honestF m i := by
  have hL := WitL.of hw
  rw [multiKeccak_some hL.hh] at hrun
  have ht : totalF [m] = m.length / 136 + 1 := by simp [totalF]
  by_cases hc : totalF [m] ≤ c
  · rw [if_pos hc] at hrun
    rw [(Option.some_inj.mp hrun).symm]
    refine ⟨by omega, load_at hL (RotL.of hr) ?_⟩
    unfold blocks
    rw [List.flatMap_append, List.flatMap_singleton, List.getElem?_append_left (by simp [numBlocks_eq]; omega), List.getElem?_map,
      List.getElem?_range (by rw [numBlocks_eq]; omega)]
    rfl
  · rw [if_neg hc] at hrun; exact absurd hrun (by simp)

/-- The rounds before the last round of a message. -/
theorem clean_rounds {k h : ℕ} (hw : Wit k h) (hr : witRot k = true) {m : List Byte} {c : ℕ} {rows : List KRow}
    (hrun : multiKeccak k h [m] (some c) = some rows) (R : ℕ) (hR : R < 25 * (m.length / 136 + 1)) :
    (advOf rows : Adv (ZMod p)).isFinal (bs h R) = 0 := by
  have hh := (WitL.of hw).hh
  by_contra hne
  have e : bs h R = ((R * h : ℕ) : ℤ) := by unfold bs; push_cast; ring
  rw [e] at hne
  obtain ⟨b, hb, he⟩ := C62_clean hw hr hrun (R * h) hne
  rw [← e, bs_eq hh] at he
  have hbm : b < m.length / 136 := by omega
  have := (loads_get (p := p) hw hr hrun (i := b) (by omega)).2
  have h2 : (advOf rows : Adv (ZMod p)).isFinal (bs h (1 + 25 * b + 24)) = if b = m.length / 136 then 1 else 0 := congrArg LoadedF.isFinal this
  rw [if_neg (by omega), ← he, e] at h2
  exact hne h2

/-- C62 (finding): with the parameters of the repository's tests the circuit accepts any value as the hash of any message: for every
message and all values `lo`, `hi` some assignment satisfies the circuit and hands to the caller the words, length and flags of the message with
the hash `(lo, hi)`. -/
theorem C62_hash_forged {k h x : ℕ} (hp : p ≠ 2) (hw : Wit k h) (hr : witRot k = true) (hf : sqFree h (layout k h) x = true) (m : List Byte)
    (lo hi : ZMod p) {c : ℕ} (hc : m.length / 136 + 1 ≤ c) :
    ∃ a : Adv (ZMod p), KecSat k h c a ∧ (∀ i, i ≤ m.length / 136 → (loadF h a i).words = (honestF m i).words ∧
        (loadF h a i).bytesLeft = ((m.length - 136 * i : ℕ) : ZMod p) ∧ (loadF h a i).isFinal = if i = m.length / 136 then 1 else 0) ∧
      (loadF h a (m.length / 136)).hashLo = lo ∧ (loadF h a (m.length / 136)).hashHi = hi := by
  obtain ⟨rows, hrun⟩ : ∃ rows, multiKeccak k h [m] (some c) = some rows := by
    rw [C62_capacity (WitL.of hw).hh, if_pos (by simpa using hc)]
    exact ⟨_, multiKeccak_none _ _ _⟩
  obtain ⟨_, hs, _⟩ := C62_complete (F := ZMod p) hw hrun
  obtain ⟨a', h1, h2, h3, h4⟩ := C61_keccak_hash_forged hp hf hs (m.length / 136) lo hi
  refine ⟨a', h1, fun i hi' => ?_, h2, h3⟩
  obtain ⟨e1, e2, e3, _⟩ := h4 i
  have hl := (loads_get (p := p) hw hr hrun hi').2
  rw [e1, e2, e3, hl]
  exact ⟨rfl, rfl, rfl⟩

/-- C62 (finding): the parameters `k = 12`, 5 rows and `k = 14`, 25 rows per round (vanilla/tests.rs:216, 243, 323) satisfy the conditions. -/
theorem C62_hash_forged_params : (Wit 12 5 ∧ witRot 12 = true ∧ sqFree 5 (layout 12 5) 7 = true) ∧
    (Wit 14 25 ∧ witRot 14 = true ∧ sqFree 25 (layout 14 25) 7 = true) :=
  ⟨⟨wit_12_5, rot_12, sqFree_12_5⟩, wit_14_25, rot_14, sqFree_14_25⟩

/-- C62 (finding): also for parameters with all their lookups, the length handed to the caller can be wrong: for every message and every `j`
between 1 and its number of full blocks some satisfying assignment has the words, flags and the hash of the message, and the length `136 j`. -/
theorem C62_length_forged {k h : ℕ} (hg : Good k h) (hp : 8 ^ 82 ≤ p) (hw : Wit k h) (hr : witRot k = true) (m : List Byte) {j : ℕ} (hj : 1 ≤ j)
    (hjm : j ≤ m.length / 136) {c : ℕ} (hc : m.length / 136 + 1 ≤ c) :
    ∃ a : Adv (ZMod p), KecSat k h c a ∧ (loadF h a 0).bytesLeft = ((136 * j : ℕ) : ZMod p) ∧
      ∀ i, i ≤ m.length / 136 → (loadF h a i).words = (honestF m i).words ∧ (loadF h a i).isFinal = (honestF m i).isFinal ∧
        (loadF h a i).hashLo = (honestF m i).hashLo ∧ (loadF h a i).hashHi = (honestF m i).hashHi := by
  obtain ⟨rows, hrun⟩ : ∃ rows, multiKeccak k h [m] (some c) = some rows := by
    rw [C62_capacity (WitL.of hw).hh, if_pos (by simpa using hc)]
    exact ⟨_, multiKeccak_none _ _ _⟩
  obtain ⟨_, hs, _⟩ := C62_complete (F := ZMod p) hw hrun
  have hl := fun i hi => loads_get (p := p) hw hr hrun (i := i) hi
  obtain ⟨a', h1, h2, h3⟩ := C61_keccak_bytes_left_forged hg hp hs (s := 0) (b := m.length / 136) (j := j) (by omega) (.inl rfl)
    (by rw [(hl _ le_rfl).2]; exact if_pos rfl) (fun R _ hR => clean_rounds hw hr hrun R hR) hj (by omega)
  refine ⟨a', h1, h2, fun i hi => ?_⟩
  obtain ⟨e1, e2, e3, e4, _⟩ := h3 i
  rw [e1, e2, e3, e4, (hl i hi).2]
  exact ⟨rfl, rfl, rfl, rfl⟩

end

/-- The conditions hold for parameters with all their lookups too. -/
example : (Wit 19 1 ∧ witRot 19 = true ∧ Good 19 1) ∧ (Wit 10 4 ∧ witRot 10 = true ∧ Good 10 4) :=
  ⟨⟨wit_19_1, rot_19, good_19_1⟩, wit_10_4, rot_10, good_10_4⟩

/-- A run that succeeds, and one that panics. -/
example : (multiKeccak 19 1 [[1, 2, 3], List.replicate 200 0] (some 5)).isSome = true ∧ multiKeccak 19 1 [[1, 2, 3], List.replicate 200 0] (some 2) = none := by
  rw [C62_capacity (by norm_num), C62_capacity (by norm_num), if_pos (by decide +kernel), if_neg (by decide +kernel)]
  exact ⟨by rw [multiKeccak_none]; rfl, rfl⟩

end H2.Kec

namespace H2.KC
open H2.Kec
variable {p : ℕ} [Fact p.Prime] {tbl : ZMod p → Prop} {ext : Cell → ZMod p} {s s' : Ctx p} {w : Cell → ZMod p} {rF rP : ℕ}
  {cs : List (Fin 3 → ZMod p)} {mds inv : Mat p 3} {sp : PSpec p}

theorem honest_isRun (m : List Byte) : IsRun (p := p) m ((List.range (m.length / 136 + 1)).map (honestF m)) := by
  have hget : ∀ (i : ℕ) v, ((List.range (m.length / 136 + 1)).map (honestF m : ℕ → LoadedF (ZMod p)))[i]? = some v → v = honestF m i := by
    intro i v hv
    obtain ⟨h1, h2⟩ := List.getElem?_eq_some_iff.mp hv
    rw [← h2, List.getElem_map, List.getElem_range]
  refine ⟨by simp, fun v hv => ?_, fun i v hv => ?_, fun i v hv => ?_, fun v hv => ?_⟩ <;> rw [hget _ _ hv]
  · rfl
  · rfl
  · rfl
  · exact ⟨if_pos rfl, if_pos rfl⟩

theorem rows_empty (f : List (ZMod p) → List (ZMod p)) (W : ℕ) (ms : List (List Byte)) (r : ℕ) :
    ms.flatMap (rows f W) ++ List.replicate r (row f W []) = (ms ++ List.replicate r []).flatMap (rows f W) := by
  rw [List.flatMap_append]
  congr 1
  induction r with
  | zero => rfl
  | succ r ih => rw [List.replicate_succ, List.replicate_succ, List.flatMap_cons, ← ih]; rfl

/-- C62 (with C54): the whole component is complete and agrees with the native computation: for the cells of the honest Keccak circuit, honest
witness generation of the base circuit succeeds and its table is the native one (`multi_inputs_to_circuit_outputs`). -/
theorem C62_component (h : IsSpec (R := 2) rF rP cs mds inv sp) {hs : Hasher p} (hsp : hs.spec = sp)
    (h1 : AvsCon ext s hs.initState (spongeInit 2)) (h2 : Con ext s hs.emptyHash (spongeHash (textPerm rF rP mds cs) 2 []))
    (hg : H2.Good tbl ext s) {d : Row (ZMod p)} (hd : dummyOutput (textPerm rF rP mds cs) = some d)
    {k hh : ℕ} (hwit : Wit k hh) (hrot : witRot k = true) {ms : List (List Byte)} {c : ℕ} {rows : List KRow} {table : List (Row (ZMod p))}
    (hrun : multiKeccak k hh ms (some c) = some rows) (hnat : multiOutputs (textPerm rF rP mds cs) ms c = some table)
    {fs : List (LoadedF (AV p))} (hf : List.Forall₂ (FCon ext s) fs ((List.range c).map (loadF hh (advOf rows)))) :
    Completes tbl ext s (baseOutputs d hs fs) (fun rs s' => List.Forall₂ (fun (r : Row (AV p)) (v : Row (ZMod p)) =>
      Con ext s' r.key v.key ∧ Con ext s' r.lo v.lo ∧ Con ext s' r.hi v.hi) rs table) := by
  have hc : 128 ≤ capacity p := by
    by_contra hc
    unfold dummyOutput at hd
    rw [if_neg hc] at hd; simp at hd
  rw [C62_cells hwit hrot hrun] at hf
  rw [C54_native hc] at hnat
  by_cases hle : (ms.map fun m => m.length / 136 + 1).sum ≤ c
  · rw [if_pos hle] at hnat
    rw [← Option.some_inj.mp hnat]
    set r := c - (ms.map fun m => m.length / 136 + 1).sum
    have hrows : ms.flatMap (KC.rows (textPerm rF rP mds cs) (capacity p / 64)) ++ List.replicate r (row (textPerm rF rP mds cs) (capacity p / 64) []) =
        (ms ++ List.replicate r []).flatMap (KC.rows (textPerm rF rP mds cs) (capacity p / 64)) := by
      exact rows_empty _ _ ms r
    rw [hrows]
    refine C54_complete h hc hsp h1 h2 hg hd (vss := (ms ++ List.replicate r []).map fun (m : List Byte) => (List.range (m.length / 136 + 1)).map (honestF m)) ?_ ?_
    · rw [List.forall₂_map_right_iff]
      exact List.forall₂_same.mpr fun m _ => honest_isRun m
    · rw [← List.flatMap_def]; exact hf
  · rw [if_neg hle] at hnat; exact absurd hnat (by simp)

theorem vTable_honest (f : List (ZMod p) → List (ZMod p)) {W : ℕ} (hW : 1 ≤ W) (ms : List (List Byte)) :
    vTable f W (row f W []) 1 [] (ms.flatMap fun (m : List Byte) => (List.range (m.length / 136 + 1)).map (honestF m)) = ms.flatMap (rows f W) := by
  induction ms with
  | nil => rfl
  | cons m ms ih =>
    rw [List.flatMap_cons, (honest_isRun m).table f hW, ih, List.flatMap_cons, rows]
    simp

/-- C62 (with C54): when the Keccak circuit has the honest assignment, every satisfying assignment of the base circuit has the native table. -/
theorem C62_table (h : IsSpec (R := 2) rF rP cs mds inv sp) {k hh : ℕ} (hwit : Wit k hh) (hrot : witRot k = true) {ms : List (List Byte)} {c : ℕ}
    {krows : List KRow} (hkrun : multiKeccak k hh ms (some c) = some krows) {hs : Hasher p} (hinit : Initialised sp 2 hs s) (hi : Inv s)
    {d : Row (ZMod p)} (hd : dummyOutput (textPerm rF rP mds cs) = some d)
    {fs : List (LoadedF (AV p))} {rs : List (Row (AV p))} (hrun : baseOutputs d hs fs s = some (rs, s')) (hw : Sat tbl s' w)
    (hl : Loaded w hh c (advOf krows) fs) :
    multiOutputs (textPerm rF rP mds cs) ms c = some (rs.map (valR w)) := by
  have hc : 128 ≤ capacity p := by
    by_contra hc
    unfold dummyOutput at hd
    rw [if_neg hc] at hd; simp at hd
  obtain ⟨_, hsat, _⟩ := C62_complete (F := ZMod p) hwit hkrun
  obtain ⟨hW, ht⟩ := base_table h (WitL.of hwit).hh hsat hinit hi hrun hw hl
  have hle : (ms.map fun m => m.length / 136 + 1).sum ≤ c := by
    by_contra hn
    rw [C62_capacity (WitL.of hwit).hh, if_neg hn] at hkrun
    exact absurd hkrun (by simp)
  rw [C54_native hc, if_pos hle, rows_empty, ht, ← vTable_honest _ (show 1 ≤ capacity p / 64 from hW)]
  rw [show (fun b => loadF hh (advOf krows : Adv (ZMod p)) b) = loadF hh (advOf krows : Adv (ZMod p)) from rfl, C62_cells hwit hrot hkrun]
  rw [dummyOutput_eq _ hc] at hd
  rw [← Option.some_inj.mp hd]
  rfl

/-- C62 (finding, with C54): a false row of the component's table, from scratch: for every message `m` whose length is a positive multiple of 136 and
every `1 ≤ t < 136` there is a satisfying assignment of the Keccak circuit for which every satisfying base circuit has a row with the lookup key
of `m` and the hash of `m ++ 0^t`. -/
theorem C62_table_forged (hspec : IsSpec (R := 2) rF rP cs mds inv sp) {k h : ℕ} (hg : Kec.Good k h) (hp : 8 ^ 82 ≤ p) (hwit : Wit k h) (hrot : witRot k = true)
    {m : List Byte} {t c : ℕ} (hm0 : m ≠ []) (hm : m.length % 136 = 0) (ht1 : 1 ≤ t) (ht : t < 136) (hc : m.length / 136 + 1 ≤ c) :
    ∃ a : Adv (ZMod p), KecSat k h c a ∧
      ∀ {s s' : Ctx p} {w : Cell → ZMod p} {hs : Hasher p} {d : Row (ZMod p)} {fs : List (LoadedF (AV p))} {rs : List (Row (AV p))},
        Initialised sp 2 hs s → Inv s → baseOutputs d hs fs s = some (rs, s') → Sat tbl s' w → Loaded w h c a fs →
        (rs.map (valR w))[m.length / 136]? = some ⟨key (textPerm rF rP mds cs) (capacity p / 64) m,
          ((beNat ((keccak256 (m ++ List.replicate t 0)).drop 16) : ℕ) : ZMod p), ((beNat ((keccak256 (m ++ List.replicate t 0)).take 16) : ℕ) : ZMod p)⟩ := by
  have hl : (m ++ List.replicate t (0 : Byte)).length / 136 = m.length / 136 := by rw [List.length_append, List.length_replicate]; omega
  obtain ⟨rows, hrun⟩ : ∃ rows, multiKeccak k h [m ++ List.replicate t 0] (some c) = some rows := by
    rw [C62_capacity (WitL.of hwit).hh, if_pos (by simp only [List.map_cons, List.map_nil, List.sum_cons, List.sum_nil]; rw [hl]; omega)]
    exact ⟨_, multiKeccak_none _ _ _⟩
  obtain ⟨_, hs, _⟩ := C62_complete (F := ZMod p) hwit hrun
  refine C54_table_forged hspec hg hp hs (s0 := 0) (b := m.length / 136) hm0 hm ht1 ht (by omega) (by omega) (.inl rfl) ?_ (fun R _ hR =>
    clean_rounds hwit hrot hrun R (by rw [hl]; exact hR))
  have e : ((List.range (m.length / 136 + 1 - 0)).map fun i => loadF h (advOf rows : Adv (ZMod p)) (0 + i)) =
      (List.range ((m ++ List.replicate t (0 : Byte)).length / 136 + 1)).map (honestF (m ++ List.replicate t 0)) := by
    rw [hl]
    refine List.map_congr_left fun i hi => ?_
    rw [Nat.zero_add]
    exact (loads_get hwit hrot hrun (by have := List.mem_range.mp hi; omega)).2
  rw [e]
  exact honest_isRun _

end H2.KC
