import Verif.Kec.ForgeMsg
import Verif.Props.KecWit

/-!
# Property C95: the words of the Keccak circuit without the lookups of the input bytes

The lookups of the circuit apply to a column when the first of its cells is in the first row of a round (`transform_to::expr` with
`uniform_lookup`).  For many parameters no input byte is looked up, so the bytes of the words handed to the caller are not tied to the words
that are absorbed.  `KecSat`, `loadF`: see `Verif/Props/Kec.lean`; `Wit`, `witRot`: see `Verif/Props/KecWit.lean`; `inFree h L x` says of the
layout that the cell of input byte `x` occurs only in the gates of the words and of the padding, and its column in no lookup.
-/

set_option autoImplicit false
set_option linter.unusedSectionVars false
namespace H2.Kec
variable {p : ℕ} [Fact p.Prime]

theorem two_ne (hp : p ≠ 2) : (2 : ZMod p) ≠ 0 := by
  intro e
  have : ((2 : ℕ) : ZMod p) = 0 := by exact_mod_cast e
  rw [ZMod.natCast_eq_zero_iff] at this
  exact hp ((Nat.prime_dvd_prime_iff_eq (Fact.out (p := p.Prime)) Nat.prime_two).mp this)

/-- C95 (finding): from any satisfying assignment another one is obtained in which every word whose byte `x` is not marked as padding is
arbitrary, and all other cells handed to the caller (the other words, the lengths, flags and hashes) are the same. -/
theorem C95_words_forged {k h n x : ℕ} {a : Adv (ZMod p)} (hp : p ≠ 2) (hf : inFree h (layout k h) x = true) (hs : KecSat k h n a)
    (W : ℕ → ℕ → ZMod p) :
    ∃ a' : Adv (ZMod p), KecSat k h n a' ∧ ∀ b < n, (loadF h a' b).bytesLeft = (loadF h a b).bytesLeft ∧ (loadF h a' b).isFinal = (loadF h a b).isFinal ∧
      (loadF h a' b).hashLo = (loadF h a b).hashLo ∧ (loadF h a' b).hashHi = (loadF h a b).hashHi ∧
      ∀ i < 17, (padAt (layout k h) a (bs h (1 + 25 * b + i)) x = 0 → (loadF h a' b).words.getD i 0 = W b i) ∧
        (padAt (layout k h) a (bs h (1 + 25 * b + i)) x ≠ 0 → (loadF h a' b).words.getD i 0 = (loadF h a b).words.getD i 0) := by
  obtain ⟨a', k1, k2, k3, k4, k5, -, k7, k8⟩ := forgeI_all (two_ne hp) hs hf (fun R => W ((R - 1) / 25) ((R - 1) % 25)) (1 + 25 * n)
  refine ⟨a', k1, fun b hb => ⟨by simp only [loadF, k2], by simp only [loadF, k3], by simp only [loadF, k4], by simp only [loadF, k5], fun i hi => ?_⟩⟩
  have hw : ∀ a : Adv (ZMod p), (loadF h a b).words.getD i 0 = a.wordValue (bs h (1 + 25 * b + i)) := by
    intro a
    simp only [loadF]
    rw [List.getD_eq_getElem _ _ (by simpa using hi)]
    simp
  rw [hw, hw]
  refine ⟨fun h0 => ?_, fun h0 => k8 _ (.inr h0)⟩
  rw [k7 _ (by omega) h0, show (1 + 25 * b + i - 1) / 25 = b by omega, show (1 + 25 * b + i - 1) % 25 = i by omega]

/-- The padding selectors of the honest assignment. -/
theorem pads_get {k h : ℕ} (hw : Wit k h) {m : List Byte} {c : ℕ} {rows : List KRow} (hrun : multiKeccak k h [m] (some c) = some rows) {i t x : ℕ}
    (hi : i ≤ m.length / 136) (ht : t < 17) (hx : x < 8) :
    padAt (layout k h) (advOf rows : Adv (ZMod p)) (bs h (1 + 25 * i + t)) x = if m.length ≤ 136 * i + 8 * t + x then 1 else 0 := by
  have hL := WitL.of hw
  rw [multiKeccak_some hL.hh] at hrun
  have ht' : totalF [m] = m.length / 136 + 1 := by simp [totalF]
  by_cases hc : totalF [m] ≤ c
  · rw [if_pos hc] at hrun
    rw [(Option.some_inj.mp hrun).symm, show 1 + 25 * i + t = 25 * i + 1 + t by ring]
    have hB : (blocks ([m] ++ List.replicate (c - totalF [m]) []))[i]? = some (m, i) := by
      unfold blocks
      rw [List.flatMap_append, List.flatMap_singleton, List.getElem?_append_left (by simp [numBlocks_eq]; omega), List.getElem?_map,
        List.getElem?_range (by rw [numBlocks_eq]; omega)]
      rfl
    rw [pad_at hL hB (by omega) hx]
    simp [ht]
  · rw [if_neg hc] at hrun; exact absurd hrun (by simp)

theorem loadedF_eq {F : Type} (y : LoadedF F) {a : F} {b : List F} {c d e : F} (h1 : y.bytesLeft = a) (h2 : y.words = b) (h3 : y.isFinal = c)
    (h4 : y.hashLo = d) (h5 : y.hashHi = e) : y = ⟨a, b, c, d, e⟩ := by
  subst h1 h2 h3 h4 h5; rfl

/-- C95 (finding): for every message `m` and every message `m'` of the same length that agrees with it in the words without a message byte
number `x` (for `x = 0`: no condition), some satisfying assignment hands to the caller the words, length and flags of `m'` with the
Keccak-256 hash of `m`. -/
theorem C95_message_forged {k h x : ℕ} (hp : p ≠ 2) (hw : Wit k h) (hr : witRot k = true) (hf : inFree h (layout k h) x = true) (m m' : List Byte)
    (hl : m'.length = m.length) (hm : ∀ j, m.length ≤ 8 * j + x → leLane m' j = leLane m j) {c : ℕ} (hc : m.length / 136 + 1 ≤ c) :
    ∃ a : Adv (ZMod p), KecSat k h c a ∧ ∀ i, i ≤ m.length / 136 → loadF h a i =
      { bytesLeft := ((m'.length - 136 * i : ℕ) : ZMod p)
        words := (List.range 17).map fun t => (((leLane m' (17 * i + t)).toNat : ℕ) : ZMod p)
        isFinal := if i = m'.length / 136 then 1 else 0
        hashLo := if i = m'.length / 136 then ((beNat ((keccak256 m).drop 16) : ℕ) : ZMod p) else 0
        hashHi := if i = m'.length / 136 then ((beNat ((keccak256 m).take 16) : ℕ) : ZMod p) else 0 } := by
  obtain ⟨rows, hrun⟩ : ∃ rows, multiKeccak k h [m] (some c) = some rows := by
    rw [C62_capacity (WitL.of hw).hh, if_pos (by simpa using hc)]
    exact ⟨_, multiKeccak_none _ _ _⟩
  obtain ⟨_, hs, _⟩ := C62_complete (F := ZMod p) hw hrun
  have hx := (inFree_cases hf).2.1
  obtain ⟨a', h1, h2⟩ := C95_words_forged hp hf hs fun i t => (((leLane m' (17 * i + t)).toNat : ℕ) : ZMod p)
  refine ⟨a', h1, fun i hi => ?_⟩
  have hic := (loads_get (p := p) hw hr hrun hi).1
  have hload := (loads_get (p := p) hw hr hrun hi).2
  obtain ⟨e1, e2, e3, e4, e5⟩ := h2 i hic
  rw [hload] at e1 e2 e3 e4 e5
  have ew : (loadF h a' i).words = (List.range 17).map fun t => (((leLane m' (17 * i + t)).toNat : ℕ) : ZMod p) := by
    refine List.ext_getElem (by simp [loadF]) fun t t1 t2 => ?_
    have ht : t < 17 := by simpa using t2
    obtain ⟨f1, f2⟩ := e5 t ht
    rw [pads_get hw hrun hi ht hx] at f1 f2
    rw [List.getD_eq_getElem _ _ t1] at f1 f2
    rw [List.getElem_map, List.getElem_range]
    by_cases hpad : m.length ≤ 136 * i + 8 * t + x
    · rw [f2 (by rw [if_pos hpad]; exact one_ne_zero), hm (17 * i + t) (by omega)]
      simp only [honestF]
      rw [List.getD_eq_getElem _ _ (by simpa using ht)]
      simp
    · exact f1 (if_neg hpad)
  rw [hl]
  exact loadedF_eq _ e1 ew e2 e3 e4

/-- C95 (finding): when no input byte is looked up, every message passes with the hash of every other message of the same length. -/
theorem C95_any_message {k h : ℕ} (hp : p ≠ 2) (hw : Wit k h) (hr : witRot k = true) (hf : inFree h (layout k h) 0 = true) (m m' : List Byte)
    (hl : m'.length = m.length) {c : ℕ} (hc : m.length / 136 + 1 ≤ c) :
    ∃ a : Adv (ZMod p), KecSat k h c a ∧ ∀ i, i ≤ m.length / 136 → loadF h a i =
      { bytesLeft := ((m'.length - 136 * i : ℕ) : ZMod p)
        words := (List.range 17).map fun t => (((leLane m' (17 * i + t)).toNat : ℕ) : ZMod p)
        isFinal := if i = m'.length / 136 then 1 else 0
        hashLo := if i = m'.length / 136 then ((beNat ((keccak256 m).drop 16) : ℕ) : ZMod p) else 0
        hashHi := if i = m'.length / 136 then ((beNat ((keccak256 m).take 16) : ℕ) : ZMod p) else 0 } := by
  refine C95_message_forged hp hw hr hf m m' hl (fun j hj => ?_) hc
  rw [leLane_eq (f := fun _ => 0) fun c _ => List.getD_eq_default _ _ (by omega), leLane_eq (f := fun _ => 0) fun c _ => List.getD_eq_default _ _ (by omega)]

/-- C95 (finding): the parameters of the repository's tests (vanilla/tests.rs:243, 323: `k = 14`, 25 rows per round; component/circuit/tests/shard.rs:24-38:
`k = 18`, 977 rows per round) lack the lookups of all input bytes. -/
theorem C95_params : (Wit 14 25 ∧ witRot 14 = true ∧ inFree 25 (layout 14 25) 0 = true) ∧ inFree 977 (layout 18 977) 0 = true ∧
    inFree 50 (layout 20 50) 0 = true :=
  ⟨⟨wit_14_25, rot_14, inFree0_14_25⟩, inFree0_18_977, inFree0_20_50⟩

/-- The message `[0]` with the hash of `[1]`. -/
example (hp : p ≠ 2) : ∃ a : Adv (ZMod p), KecSat 14 25 1 a ∧ (loadF 25 a 0).bytesLeft = ((1 : ℕ) : ZMod p) ∧ (loadF 25 a 0).words = List.replicate 17 0 ∧
    (loadF 25 a 0).hashLo = ((beNat ((keccak256 [1]).drop 16) : ℕ) : ZMod p) := by
  obtain ⟨a, h1, h2⟩ := C95_any_message hp wit_14_25 rot_14 inFree0_14_25 [1] [0] rfl (c := 1) (by decide)
  have := h2 0 (by decide)
  refine ⟨a, h1, ?_, ?_, ?_⟩
  · rw [this]; rfl
  · rw [this]
    refine List.ext_getElem (by simp) fun t t1 t2 => ?_
    have : leLane [0] (17 * 0 + t) = 0 := by
      unfold leLane
      have : ∀ c, List.getD ([0] : List Byte) c 0 = 0 := by
        intro c
        rcases c with _ | c
        · rfl
        · rw [List.getD_eq_default _ _ (by simp)]
      simp only [this]
      rfl
    simp only [List.getElem_map, List.getElem_range, this, List.getElem_replicate]
    rw [show (0 : Lane).toNat = 0 from rfl, Nat.cast_zero]
  · rw [this]; rfl

end H2.Kec

namespace H2.KC
open H2.Kec
variable {p : ℕ} [Fact p.Prime] {tbl : ZMod p → Prop} {rF rP : ℕ} {cs : List (Fin 3 → ZMod p)} {mds inv : Mat p 3} {sp : PSpec p}

/-- C95 (finding, with C54): a false row of the component's table, from scratch: for all messages `m`, `m'` of the same length there is a satisfying
assignment of the Keccak circuit (without the lookups of the input bytes) for which every satisfying base circuit has a row with the lookup key of `m'`
and the Keccak-256 hash of `m`. -/
theorem C95_table_forged (hspec : IsSpec (R := 2) rF rP cs mds inv sp) {k h : ℕ} (hp : p ≠ 2) (hwit : Wit k h) (hrot : witRot k = true)
    (hf : inFree h (layout k h) 0 = true) (m m' : List Byte) (hlen : m'.length = m.length) {c : ℕ} (hc : m.length / 136 + 1 ≤ c) :
    ∃ a : Adv (ZMod p), KecSat k h c a ∧
      ∀ {s s' : Ctx p} {w : Cell → ZMod p} {hs : Hasher p} {d : Row (ZMod p)} {fs : List (LoadedF (AV p))} {rs : List (Row (AV p))},
        Initialised sp 2 hs s → Inv s → baseOutputs d hs fs s = some (rs, s') → Sat tbl s' w → Loaded w h c a fs →
        (rs.map (valR w))[m'.length / 136]? = some ⟨key (textPerm rF rP mds cs) (capacity p / 64) m',
          ((beNat ((keccak256 m).drop 16) : ℕ) : ZMod p), ((beNat ((keccak256 m).take 16) : ℕ) : ZMod p)⟩ := by
  obtain ⟨a, hk, hload⟩ := C95_any_message (p := p) hp hwit hrot hf m m' hlen hc
  refine ⟨a, hk, ?_⟩
  intro s s' w hs d fs rs hinit hi hr hw hl
  obtain ⟨hW, htab⟩ := base_table hspec (WitL.of hwit).hh hk hinit hi hr hw hl
  rw [htab]
  rw [← hlen] at hload hc
  have hsp : (List.range c).map (fun b => loadF h a b) = (List.range (m'.length / 136)).map (fun b => loadF h a b) ++
      loadF h a (m'.length / 136) :: (List.range (c - (m'.length / 136 + 1))).map (fun i => loadF h a (m'.length / 136 + 1 + i)) := by
    conv_lhs => rw [show c = m'.length / 136 + (1 + (c - (m'.length / 136 + 1))) by omega, List.range_add, List.map_append, List.map_map]
    congr 1
    rw [Nat.add_comm 1, List.range_succ_eq_map, List.map_cons, List.map_map]
    congr 1
    refine List.map_congr_left fun i _ => ?_
    simp only [Function.comp]; congr 1; omega
  have hfin0 : ∀ i, i < m'.length / 136 → (loadF h a i).isFinal = 0 := fun i hi => by
    rw [hload i (by omega)]; exact if_neg (by omega)
  have hfin1 : (loadF h a (m'.length / 136)).isFinal = 1 := by
    rw [hload _ le_rfl]; exact if_pos rfl
  have h2 : (List.range (m'.length / 136)).map (fun b => loadF h a b) ++ [loadF h a (m'.length / 136)] = (List.range (numF m'.length)).map (fun b => loadF h a b) := by
    rw [numF, List.range_succ, List.map_append]; rfl
  rw [hsp, vTable_run _ _ d _ (by
    intro v hv
    obtain ⟨i, hi, rfl⟩ := List.mem_map.mp hv
    exact hfin0 i (List.mem_range.mp hi)) _ hfin1, List.nil_append, h2,
    rowsOf_message (show 1 ≤ capacity p / 64 from hW) (fun b => loadF h a b) m' m'.length (fun i hi => hfin0 i hi) (by
      show (loadF h a 0).bytesLeft = _
      rw [hload 0 (by omega)]; rfl) (fun i hi => by
      show (loadF h a i).words = _
      rw [hload i (by unfold numF at hi; omega)]), List.getElem?_append_right (by simp)]
  simp only [List.length_replicate, List.length_map, List.length_range, Nat.sub_self, List.getElem?_cons_zero]
  rw [hload _ le_rfl]
  simp only [if_true]
  rfl

end H2.KC
