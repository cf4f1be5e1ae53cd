import Verif.KecComp.Shard

/-!
# The table of the shard circuit and the messages hashed by the Keccak circuit
-/

set_option autoImplicit false
set_option linter.unusedSectionVars false
namespace H2.KC
open H2.Kec
variable {p : ℕ} [Fact p.Prime]

/-- The packed elements of several keccak_f's. -/
def rowsOf (W : ℕ) : ZMod p → List (LoadedF (ZMod p)) → List (ZMod p)
  | _, [] => []
  | last, v :: vs => vPackF W last v ++ rowsOf W v.isFinal vs

theorem vTable_run (f : List (ZMod p) → List (ZMod p)) (W : ℕ) (d : Row (ZMod p)) (run : List (LoadedF (ZMod p))) (hr : ∀ v ∈ run, v.isFinal = 0)
    (l : LoadedF (ZMod p)) (hl : l.isFinal = 1) (last : ZMod p) (acc : List (ZMod p)) (rest : List (LoadedF (ZMod p))) :
    vTable f W d last acc (run ++ l :: rest) =
      List.replicate run.length d ++ ⟨spongeHash f 2 (acc ++ rowsOf W last (run ++ [l])), l.hashLo, l.hashHi⟩ :: vTable f W d 1 [] rest := by
  induction run generalizing last acc with
  | nil =>
    rw [List.nil_append, vTable, if_pos hl, hl, List.nil_append, rowsOf, rowsOf, List.append_nil]
    simp
  | cons v run ih =>
    have hv : ¬ v.isFinal = 1 := by rw [hr v (by simp)]; exact zero_ne_one
    rw [List.cons_append, vTable, if_neg hv, if_neg hv, ih (fun v h => hr v (by simp [h])), List.cons_append, rowsOf, List.length_cons,
      List.replicate_succ, List.cons_append, List.append_assoc]

theorem vTable_tail (f : List (ZMod p) → List (ZMod p)) (W : ℕ) (d : Row (ZMod p)) (run : List (LoadedF (ZMod p))) (hr : ∀ v ∈ run, v.isFinal ≠ 1)
    (last : ZMod p) (acc : List (ZMod p)) : vTable f W d last acc run = List.replicate run.length d := by
  induction run generalizing last acc with
  | nil => rfl
  | cons v run ih =>
    rw [vTable, if_neg (hr v (by simp)), ih (fun v h => hr v (by simp [h])), List.length_cons, List.replicate_succ]

theorem rowsOf_zero (W : ℕ) (run : List (LoadedF (ZMod p))) (hr : ∀ v ∈ run, v.isFinal = 0) (l : LoadedF (ZMod p)) :
    rowsOf W 0 (run ++ [l]) = (run ++ [l]).flatMap (vPackF W 0) := by
  induction run with
  | nil => simp [rowsOf]
  | cons v run ih =>
    rw [List.cons_append, rowsOf, hr v (by simp), ih fun v h => hr v (by simp [h]), List.flatMap_cons]

theorem rowsOf_range (W : ℕ) (g : ℕ → LoadedF (ZMod p)) (N : ℕ) (hg : ∀ i, i < N → (g i).isFinal = 0) :
    rowsOf W 1 ((List.range (N + 1)).map g) = (List.range (N + 1)).flatMap fun i => vPackF W (if i = 0 then 1 else 0) (g i) := by
  cases N with
  | zero => simp [rowsOf]
  | succ N =>
    rw [List.range_succ_eq_map, List.map_cons, rowsOf, List.flatMap_cons, if_pos rfl, hg 0 (by omega), List.map_map, List.flatMap_map]
    congr 1
    rw [List.range_succ, List.map_append, List.map_singleton, rowsOf_zero, List.flatMap_append, List.flatMap_append, List.flatMap_map]
    · rfl
    · intro v hv
      obtain ⟨i, hi, rfl⟩ := List.mem_map.mp hv
      exact hg _ (by have := List.mem_range.mp hi; simp only [Nat.succ_eq_add_one]; omega)

/-- The elements absorbed for a run of keccak_f's. -/
theorem rowsOf_message {W : ℕ} (hW : 1 ≤ W) (g : ℕ → LoadedF (ZMod p)) (m : List Byte) (l : ℕ) (hg : ∀ i, i < m.length / 136 → (g i).isFinal = 0)
    (hbl : (g 0).bytesLeft = ((l : ℕ) : ZMod p))
    (hw : ∀ i, i < numF m.length → (g i).words = (List.range 17).map fun t => (((leLane m (17 * i + t)).toNat : ℕ) : ZMod p)) :
    rowsOf W 1 ((List.range (numF m.length)).map g) = (keyElemsAs W l m).map fun x => ((x : ℕ) : ZMod p) := by
  rw [numF, rowsOf_range W g _ hg, keyElemsAs, numF, List.map_flatMap]
  refine List.flatMap_congr fun i hi => ?_
  have hi := List.mem_range.mp hi
  rw [padEven_map, ← vPack_cast hW, vPackF, List.map_cons, List.map_map, hw i hi, Nat.cast_zero]
  congr 3
  by_cases h0 : i = 0
  · subst h0; simp [hbl]
  · simp [h0]

variable {k h n : ℕ} {a : Adv (ZMod p)}

theorem loadF_words (b : ℕ) : (loadF h a b).words.length = 17 := by simp [loadF]

theorem numF_eq' (l : ℕ) : numKeccakF l = numF l := rfl

/-- A possible length in the key of the message `m`: its length, or a positive multiple of 136 not above it. -/
def LenOk (m : List Byte) (l : ℕ) : Prop := l = m.length ∨ ∃ j, 1 ≤ j ∧ l = 136 * j ∧ l ≤ m.length

/-- No `is_final` flag in the rounds in which no word is absorbed, apart from the last. -/
def CleanFlags (h n : ℕ) (a : Adv (ZMod p)) : Prop := ∀ b, b < n → ∀ q, 17 ≤ q → q < 24 → a.isFinal (bs h (1 + 25 * b + q)) = 0

theorem table_sound (hg : Kec.Good k h) (hp : 8 ^ 82 ≤ p) (hs : KecSat k h n a) (f : List (ZMod p) → List (ZMod p)) {W : ℕ} (hW : 1 ≤ W) (d : Row (ZMod p)) :
    ∀ (c s : ℕ), n - s ≤ c → s ≤ n → (s = 0 ∨ (loadF h a (s - 1)).isFinal = 1) →
    ∃ (ms : List (List Byte × ℕ)) (r : ℕ), vTable f W d 1 [] ((List.range (n - s)).map fun i => loadF h a (s + i)) =
        ms.flatMap (fun e => List.replicate (e.1.length / 136) d ++ [rowAs f W e.2 e.1]) ++ List.replicate r d ∧
      ∀ e ∈ ms, LenOk e.1 e.2 ∧ (CleanFlags h n a → e.2 = e.1.length) := by
  intro c
  induction c with
  | zero =>
    intro s h1 h2 _
    refine ⟨[], 0, ?_, by simp⟩
    rw [show n - s = 0 by omega]; rfl
  | succ c ih =>
    intro s h1 h2 hst
    by_cases hex : ∃ b, s ≤ b ∧ b < n ∧ (loadF h a b).isFinal ≠ 0
    · classical
      obtain ⟨hsb, hbn, hbf⟩ := Nat.find_spec hex
      set b := Nat.find hex with hb
      have hmin : ∀ i, s ≤ i → i < b → (loadF h a i).isFinal = 0 := by
        intro i h3 h4
        by_contra h5
        exact Nat.find_min hex h4 ⟨h3, by omega, h5⟩
      obtain ⟨hf1, s', hs'b, hs'0, hnf, m, hN, hwords, hhi, hlo, hbl, hclean⟩ := C61_keccak_sound hg hp hs hbn hbf
      have hss : s' = s := by
        by_contra hne
        rcases Nat.lt_or_gt_of_ne hne with hlt | hgt
        · have := hst.resolve_left (by omega)
          rw [hnf (s - 1) (by omega) (by omega)] at this
          exact zero_ne_one this
        · have := hs'0.resolve_left (by omega)
          rw [hmin (s' - 1) (by omega) (by omega)] at this
          exact zero_ne_one this
      subst hss
      obtain ⟨l, hll, hlok, hlcl⟩ : ∃ l : ℕ, (loadF h a s').bytesLeft = ((l : ℕ) : ZMod p) ∧ LenOk m l ∧ (CleanFlags h n a → l = m.length) := by
        by_cases hc : CleanFlags h n a
        · exact ⟨m.length, hclean fun i _ h4 q h5 h6 => hc i (by omega) q h5 h6, .inl rfl, fun _ => rfl⟩
        · rcases hbl with h | ⟨j, j1, j2, j3⟩
          · exact ⟨m.length, h, .inl rfl, fun _ => rfl⟩
          · exact ⟨136 * j, j3, .inr ⟨j, j1, rfl, j2⟩, fun h => absurd h hc⟩
      rw [numF_eq', numF] at hN
      obtain ⟨ms, r, hrest, hms⟩ := ih (b + 1) (by omega) (by omega) (.inr (by rw [Nat.add_sub_cancel]; exact hf1))
      refine ⟨(m, l) :: ms, r, ?_, ?_⟩
      · have hsplit : (List.range (n - s')).map (fun i => loadF h a (s' + i)) =
            (List.range (m.length / 136)).map (fun i => loadF h a (s' + i)) ++ loadF h a b :: (List.range (n - (b + 1))).map (fun i => loadF h a (b + 1 + i)) := by
          rw [show n - s' = m.length / 136 + (1 + (n - (b + 1))) by omega, List.range_add, List.map_append, List.map_map]
          congr 1
          rw [Nat.add_comm 1, List.range_succ_eq_map, List.map_cons, List.map_map]
          congr 1
          · simp only [Function.comp, Nat.add_zero]; congr 1; omega
          · refine List.map_congr_left fun i _ => ?_
            simp only [Function.comp]; congr 1; omega
        have hfull : (List.range (m.length / 136)).map (fun i => loadF h a (s' + i)) ++ [loadF h a b] = (List.range (numF m.length)).map (fun i => loadF h a (s' + i)) := by
          rw [numF, List.range_succ, List.map_append, List.map_singleton]
          congr 3; omega
        rw [hsplit, vTable_run f W d _ ?_ _ hf1, hfull, rowsOf_message hW _ m l, hrest, List.flatMap_cons]
        · simp only [List.length_map, List.length_range, List.nil_append, List.append_assoc, List.cons_append]
          rw [rowAs, row, hhi, hlo]
        · intro i hi; exact hmin _ (by omega) (by omega)
        · rw [Nat.add_zero]; exact hll
        · intro i hi
          have := hwords (s' + i) (by omega) (by unfold numF at hi; omega)
          rw [this, show s' + i - s' = i by omega]
        · intro v hv
          obtain ⟨i, hi, rfl⟩ := List.mem_map.mp hv
          have := List.mem_range.mp hi
          exact hmin _ (by omega) (by omega)
      · intro e he
        rcases List.mem_cons.mp he with rfl | he
        · exact ⟨hlok, hlcl⟩
        · exact hms e he
    · push_neg at hex
      refine ⟨[], n - s, ?_, by simp⟩
      rw [vTable_tail]
      · simp
      · intro v hv
        obtain ⟨i, hi, rfl⟩ := List.mem_map.mp hv
        have := List.mem_range.mp hi
        rw [hex (s + i) (by omega) (by omega)]
        exact zero_ne_one

/-- The table for an assignment of the Keccak circuit. -/
theorem table_sound' (hg : Kec.Good k h) (hp : 8 ^ 82 ≤ p) (hs : KecSat k h n a) (f : List (ZMod p) → List (ZMod p)) {W : ℕ} (hW : 1 ≤ W) (d : Row (ZMod p)) :
    ∃ (ms : List (List Byte × ℕ)) (r : ℕ), vTable f W d 1 [] ((List.range n).map fun i => loadF h a i) =
        ms.flatMap (fun e => List.replicate (e.1.length / 136) d ++ [rowAs f W e.2 e.1]) ++ List.replicate r d ∧
      ∀ e ∈ ms, LenOk e.1 e.2 ∧ (CleanFlags h n a → e.2 = e.1.length) := by
  have := table_sound hg hp hs f hW d n 0 (by omega) (by omega) (.inl rfl)
  simpa using this

/-! ### the native code -/

theorem dummyOutput_eq (f : List (ZMod p) → List (ZMod p)) (hc : 128 ≤ capacity p) : dummyOutput f = some (row f (wpw p) []) := by
  have hW : 1 ≤ wpw p := by unfold wpw; omega
  unfold dummyOutput
  rw [if_pos hc, encodeNative_eq f hW]; rfl

theorem inputToOutputs_eq (f : List (ZMod p) → List (ZMod p)) (hc : 128 ≤ capacity p) (m : List Byte) :
    inputToOutputs f m = some (rows f (wpw p) m) := by
  have hW : 1 ≤ wpw p := by unfold wpw; omega
  unfold inputToOutputs
  rw [if_pos hc, dummyOutput_eq f hc, encodeNative_eq f hW]
  rfl

theorem mapM_rows (f : List (ZMod p) → List (ZMod p)) (hc : 128 ≤ capacity p) (ms : List (List Byte)) :
    ms.mapM (inputToOutputs f) = some (ms.map (rows f (wpw p))) := by
  induction ms with
  | nil => rfl
  | cons m ms ih => rw [List.mapM_cons, inputToOutputs_eq f hc, ih]; rfl

theorem rows_length (f : List (ZMod p) → List (ZMod p)) (W : ℕ) (m : List Byte) : (rows f W m).length = numF m.length := by
  simp [rows, numF]

end H2.KC
