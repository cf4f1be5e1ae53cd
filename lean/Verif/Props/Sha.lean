import Verif.Sha.Complete

/-!
# Property C55: the SHA-256 circuit

`ShaSat n adv`: the advice columns `adv` (one arbitrary row of field elements per integer: the malicious prover's choice) satisfy every
gate of the circuit with `n` blocks.  `blockAt adv b` are the cells handed to the caller for block `b`.
`sha256` is FIPS 180-4 (`Sha/Spec.lean`).
-/

set_option autoImplicit false
namespace H2.Sha
variable {p : ℕ} [Fact p.Prime]

/-- C55: `is_final` is a bit in every block. -/
theorem C55_sha256_is_final {n : ℕ} {adv : ℤ → Row (ZMod p)} (hs : ShaSat n adv) {b : ℕ} (hb : b < n) :
    (blockAt adv b).isFinal = 0 ∨ (blockAt adv b).isFinal = 1 := by
  obtain ⟨P, hP⟩ := exists_pads hs
  have h := final_eq hs hP hb
  have e : (blockAt adv b).isFinal = b2f (P (72 * b + 17) 3) := by rw [← h]; simp [blockAt]
  rw [e]
  cases P (72 * b + 17) 3 <;> simp [b2f]

theorem exists_run {P : ℕ → ℕ → Bool} {n b : ℕ} (hb : b < n) (hf : P (72 * b + 17) 3 = true) :
    ∃ s ≤ b, Run P n s (b + 1 - s) := by
  have key : ∀ b, ∃ s ≤ b, startB P s = true ∧ ∀ i, s ≤ i → i < b → P (72 * i + 17) 3 = false := by
    intro b
    induction b with
    | zero => exact ⟨0, le_refl _, rfl, fun i h1 h2 => by omega⟩
    | succ b ih =>
      by_cases h : P (72 * b + 17) 3 = true
      · exact ⟨b + 1, le_refl _, by simp [startB, h], fun i h1 h2 => by omega⟩
      · obtain ⟨s, h1, h2, h3⟩ := ih
        refine ⟨s, by omega, h2, fun i h4 h5 => ?_⟩
        by_cases h6 : i = b
        · subst h6; simpa using h
        · exact h3 i h4 (by omega)
  obtain ⟨s, h1, h2, h3⟩ := key b
  refine ⟨s, h1, by omega, by omega, h2, fun i hi => h3 _ (by omega) (by omega), ?_⟩
  rw [show s + (b + 1 - s - 1) = b by omega]; exact hf

/-- C55 (soundness of the SHA-256 circuit): in every satisfying assignment, every final block `b` ends a run of blocks `s, …, b` (the
blocks since the previous final block) which hashes a message `m`: the number of blocks is the one of the standard padding of `m`, the
length cell is its length in bytes, the word cells are its bytes (zero after its end), and the output cells are the two halves of
SHA-256 of `m`. Messages of 2^32 bits or more cannot be hashed. -/
theorem C55_sha256_sound {n : ℕ} {adv : ℤ → Row (ZMod p)} (hp : 2 ^ 35 ≤ p) (hn : 512 * n ≤ p) (hs : ShaSat n adv)
    {b : ℕ} (hb : b < n) (hf : (blockAt adv b).isFinal ≠ 0) :
    (blockAt adv b).isFinal = 1 ∧ ∃ s ≤ b, (s = 0 ∨ (blockAt adv (s - 1)).isFinal = 1) ∧
      (∀ i, s ≤ i → i < b → (blockAt adv i).isFinal = 0) ∧
      ∃ m : List Byte, 8 * m.length < 2 ^ 32 ∧ b + 1 - s = numSha2Blocks m.length ∧
        (blockAt adv b).length = (m.length : ZMod p) ∧
        (∀ i, s ≤ i → i ≤ b → (blockAt adv i).wordValues = (List.range 16).map fun t => ((leWord m (16 * (i - s) + t) : ℕ) : ZMod p)) ∧
        (blockAt adv b).outputHi = (((sha256 m).toNat / 2 ^ 128 : ℕ) : ZMod p) ∧
        (blockAt adv b).outputLo = (((sha256 m).toNat % 2 ^ 128 : ℕ) : ZMod p) := by
  obtain ⟨P, hP⟩ := exists_pads hs
  obtain ⟨D⟩ := exists_words hs
  have hfin : ∀ b < n, (blockAt adv b).isFinal = b2f (P (72 * b + 17) 3) := by
    intro b hb; rw [← final_eq hs hP hb]; simp [blockAt]
  have hfb : P (72 * b + 17) 3 = true := by
    rw [hfin b hb] at hf
    by_contra h
    exact hf (by simp [b2f, h])
  refine ⟨by rw [hfin b hb, hfb]; rfl, ?_⟩
  obtain ⟨s, hsb, R⟩ := exists_run hb hfb
  obtain ⟨L, hL, hL1, hL2⟩ := run_len hs hP R hp
  obtain ⟨h8, hpad⟩ := run_pad hs hP R D hp hn hL hL1 hL2
  have hNb : s + (b + 1 - s - 1) = b := by omega
  refine ⟨s, hsb, ?_, fun i h1 h2 => ?_, (List.range L).map (BY D s), by simpa using h8, ?_, ?_, fun i h1 h2 => ?_, ?_⟩
  · by_cases h0 : s = 0
    · exact .inl h0
    · right
      have := R.start
      rw [startB, if_neg h0] at this
      rw [hfin _ (by omega), this]; rfl
  · have := R.mid (i - s) (by omega)
    rw [show s + (i - s) = i by omega] at this
    rw [hfin _ (by omega), this]; rfl
  · simp only [List.length_map, List.length_range, numSha2Blocks]
    generalize b + 1 - s = N at *
    have := R.pos
    omega
  · have := run_length hs hP R hp hL (i := b + 1 - s - 1) (by omega) 16 (le_refl _)
    rw [hNb, show min L (64 * (b + 1 - s - 1) + 4 * 16) = L by omega] at this
    simp only [List.length_map, List.length_range]
    rw [← this]
    simp only [blockAt]
    congr 2
  · simp only [blockAt]
    refine List.map_congr_left fun t ht => ?_
    have := run_io hs hP R D hp hL (i := i - s) (t := t) (by omega) (List.mem_range.mp ht)
    rw [show s + (i - s) = i by omega] at this
    rw [← this]
    congr 2
  · have hr : 72 * b + 71 < 72 * n := by omega
    have hsq := sat_squeeze hs hr (by omega) (by rw [final_eq hs hP hb, hfb]; simp [b2f])
    simp only at hsq
    rw [D.newA (z := ((72 * b + 71 : ℕ) : ℤ)) (r := 72 * b + 71) (by omega) (by omega),
      D.newA (z := ((72 * b + 71 : ℕ) : ℤ) - 1) (r := 72 * b + 70) (by omega) (by omega),
      D.newA (z := ((72 * b + 71 : ℕ) : ℤ) - 2) (r := 72 * b + 69) (by omega) (by omega),
      D.newA (z := ((72 * b + 71 : ℕ) : ℤ) - 3) (r := 72 * b + 68) (by omega) (by omega),
      D.newE (z := ((72 * b + 71 : ℕ) : ℤ)) (r := 72 * b + 71) (by omega) (by omega),
      D.newE (z := ((72 * b + 71 : ℕ) : ℤ) - 1) (r := 72 * b + 70) (by omega) (by omega),
      D.newE (z := ((72 * b + 71 : ℕ) : ℤ) - 2) (r := 72 * b + 69) (by omega) (by omega),
      D.newE (z := ((72 * b + 71 : ℕ) : ℤ) - 3) (r := 72 * b + 68) (by omega) (by omega)] at hsq
    have hd := split_digest (F := ZMod p) (D.a (72 * b + 71)) (D.a (72 * b + 70)) (D.a (72 * b + 69)) (D.a (72 * b + 68))
      (D.e (72 * b + 71)) (D.e (72 * b + 70)) (D.e (72 * b + 69)) (D.e (72 * b + 68)) _ rfl
    have hc := (run_chain hs hP R D hp hn (i := b + 1 - s - 1) (by omega)).2
    rw [← hpad, hNb, show b + 1 - s - 1 + 1 = b + 1 - s by omega] at hc
    have hN : (pad ((List.range L).map (BY D s))).length / 64 = b + 1 - s := by rw [hpad]; simp
    have hsha : sha256 ((List.range L).map (BY D s)) = D.a (72 * b + 71) ++ D.a (72 * b + 70) ++ D.a (72 * b + 69) ++ D.a (72 * b + 68) ++
        D.e (72 * b + 71) ++ D.e (72 * b + 70) ++ D.e (72 * b + 69) ++ D.e (72 * b + 68) := by
      unfold sha256 sha256St
      rw [hN, ← hc]
      simp only [stAt]
      rfl
    rw [hsha]
    refine ⟨?_, ?_⟩
    · rw [← hd.2, hsq.2]
      simp only [blockAt]
      congr 2; push_cast; ring
    · rw [← hd.1, hsq.1]
      simp only [blockAt]
      congr 2

/-- C55: the words and the length determine the message, hence the output (below the field's size). -/
theorem C55_words_inj {m m' : List Byte} (hl : m.length = m'.length) (hw : ∀ i, leWord m i = leWord m' i) : m = m' := by
  have hb : ∀ i k, k < 4 → m.getD (4 * i + k) 0 = m'.getD (4 * i + k) 0 := by
    intro i k hk
    have h := hw i
    simp only [leWord, pack4] at h
    have f : ∀ (l : List Byte) j, (l.getD j 0).toNat < 256 := fun l j => (l.getD j 0).isLt
    have a0 := f m (4 * i); have a1 := f m (4 * i + 1); have a2 := f m (4 * i + 2); have a3 := f m (4 * i + 3)
    have b0 := f m' (4 * i); have b1 := f m' (4 * i + 1); have b2 := f m' (4 * i + 2); have b3 := f m' (4 * i + 3)
    apply BitVec.eq_of_toNat_eq
    interval_cases k
    · rw [Nat.add_zero]; omega
    · omega
    · omega
    · omega
  refine List.ext_getElem hl fun j h1 h2 => ?_
  have := hb (j / 4) (j % 4) (Nat.mod_lt _ (by norm_num))
  rw [Nat.div_add_mod] at this
  simpa [List.getD, h1, h2] using this

/-- C55: cells of the hash table that carry no data are zero (so that a lookup into `io`/`length` cannot be satisfied by them). -/
theorem C55_sha256_unused {n : ℕ} {adv : ℤ → Row (ZMod p)} (hs : ShaSat n adv) {r : ℕ} (hr : r < 72 * n) :
    (¬ (4 ≤ r % 72 ∧ r % 72 < 20) → r % 72 < 70 → (adv r).io = 0) ∧
    (20 ≤ r % 72 → r % 72 < 71 → (adv r).length = 0) ∧ (4 ≤ r % 72 → r % 72 < 71 → (adv r).isFinal = 0) := by
  have h := sat_all hs hr
  simp only [gates, Z_append] at h
  have h := h.2
  simp only [gUnused, Z_gate, fixedCols_eq hr, Z_append, Z_cond, Z_reqZero] at h
  have h := h.resolve_left (by simp [fixedAt])
  obtain ⟨⟨⟨⟨⟨⟨h1, h2⟩, h3⟩, h4⟩, h5⟩, h6⟩, h7⟩ := h
  refine ⟨fun g1 g2 => h6.resolve_left ?_, fun g1 g2 => h7.resolve_left ?_, fun g1 g2 => h3.resolve_left ?_⟩
  · have e : ((r : ℤ) + 1) = ((r + 1 : ℕ) : ℤ) := by push_cast; rfl
    rw [e]
    have hz : (fixedCols n ((r + 1 : ℕ) : ℤ) : Fix (ZMod p)).qSqueeze = 0 := by
      by_cases hr1 : r + 1 < 72 * n
      · rw [fixedCols_eq hr1]
        simp only [fixedAt, ind_eq_zero]
        omega
      · unfold fixedCols
        rw [if_neg (by omega)]
    rw [hz]
    simp only [fixedAt, notE, ind, if_neg g1, if_neg (show ¬ r % 72 = 71 by omega)]
    simp
  · simp only [fixedAt, ind, if_neg (show ¬ r % 72 = 71 by omega)]
    by_cases g3 : r % 72 < 68
    · simp [g1, g3, show ¬ 68 ≤ r % 72 by omega]
    · simp [g3, show 68 ≤ r % 72 by omega]
  · simp only [fixedAt, ind, if_neg (show ¬ r % 72 = 71 by omega)]
    by_cases g3 : r % 72 < 68
    · simp [g1, g3, show ¬ 68 ≤ r % 72 by omega]
    · simp [g3, show 68 ≤ r % 72 by omega]

/-- C55: outside the assigned rows every gate vanishes whatever the advice cells hold, so that `ShaSat` is the satisfaction of the whole
circuit. -/
theorem C55_sha256_unassigned {n : ℕ} {adv : ℤ → Row (ZMod p)} {r : ℤ} (hr : ¬ (0 ≤ r ∧ r < 72 * n)) :
    ∀ c ∈ gates (fixedCols n) adv r, c = 0 := unassigned_rows hr

/-- The number of blocks of a list of messages. -/
def totalBlocks (msgs : List (List Byte)) : ℕ := (msgs.map fun m => numSha2Blocks m.length).sum

theorem totalBlocks_cons (m : List Byte) (l : List (List Byte)) : totalBlocks (m :: l) = numSha2Blocks m.length + totalBlocks l := by simp [totalBlocks]

theorem blks_length (msgs : List (List Byte)) : (blks msgs).length = totalBlocks msgs := by
  induction msgs with
  | nil => rfl
  | cons m l ih => rw [totalBlocks_cons, ← ih, ← nb_eq]; simp [blks]

theorem blks_at (msgs : List (List Byte)) (j : ℕ) (m : List Byte) (hj : msgs[j]? = some m) (i : ℕ) (hi : i < nb m) :
    (blks msgs)[totalBlocks (msgs.take j) + i]? = some (m, i) := by
  induction msgs generalizing j with
  | nil => simp at hj
  | cons m' l ih =>
    have hc : blks (m' :: l) = ((List.range (nb m')).map fun i => (m', i)) ++ blks l := rfl
    rw [hc]
    cases j with
    | zero =>
      simp only [List.getElem?_cons_zero, Option.some.injEq] at hj
      subst hj
      rw [List.take_zero, show totalBlocks [] = 0 from rfl, Nat.zero_add, List.getElem?_append_left (by simp; omega)]
      simp [List.getElem?_range hi]
    | succ j =>
      rw [List.getElem?_cons_succ] at hj
      rw [List.take_succ_cons, totalBlocks_cons, ← nb_eq, List.getElem?_append_right (by simp; omega), ← ih j hj]
      congr 1
      simp; omega

theorem totalBlocks_append (l l' : List (List Byte)) : totalBlocks (l ++ l') = totalBlocks l + totalBlocks l' := by simp [totalBlocks]
theorem totalBlocks_empty (k : ℕ) : totalBlocks (List.replicate k []) = k := by
  simp [totalBlocks, numSha2Blocks]

/-- The rows of the last block of a message hold its digest. -/
theorem hLimb_sha (m : List Byte) (i : ℕ) (hi : i = nb m - 1) :
    hLimb m i 71 = (sha256 m).toNat % 2 ^ 128 ∧ hLimb m i 70 = (sha256 m).toNat / 2 ^ 128 := by
  have hp := nb_pos m
  refine h_squeeze m i hi _ ?_
  have hc : sha256St m = hv m (i + 1) := by
    unfold sha256St hv
    rw [show i + 1 = (pad m).length / 64 by unfold nb at hi hp; omega]
  have hs := hv_succ m i
  unfold sha256
  simp only
  rw [hc]
  have a : ∀ j < 4, PA m i (68 + j) = pa (hv m (i + 1)) j := by
    intro j hj; rw [PA_end m i j hj, hs, pa_add _ _ _ hj, BitVec.add_comm]
  have e : ∀ j < 4, PE m i (68 + j) = pe (hv m (i + 1)) j := by
    intro j hj; rw [PE_end m i j hj, hs, pe_add _ _ _ hj, BitVec.add_comm]
  have a3 : PA m i 71 = (hv m (i + 1)).a := a 3 (by omega)
  have a2 : PA m i 70 = (hv m (i + 1)).b := a 2 (by omega)
  have a1 : PA m i 69 = (hv m (i + 1)).c := a 1 (by omega)
  have a0 : PA m i 68 = (hv m (i + 1)).d := a 0 (by omega)
  have e3 : PE m i 71 = (hv m (i + 1)).e := e 3 (by omega)
  have e2 : PE m i 70 = (hv m (i + 1)).f := e 2 (by omega)
  have e1 : PE m i 69 = (hv m (i + 1)).g := e 1 (by omega)
  have e0 : PE m i 68 = (hv m (i + 1)).h := e 0 (by omega)
  rw [a3, a2, a1, a0, e3, e2, e1, e0]

/-- C55 (completeness): for messages of fewer than 2^32 bits, if the witness generation does not panic (over capacity), the rows it
produces satisfy the whole circuit; with a capacity exactly that many blocks are produced (the rest hashing empty messages), and the
blocks of message number `j` expose its words, its length, and the digest. -/
theorem C55_sha256_complete {inputs : List (List Byte)} {cap : Option ℕ} {rows : List VRow} (h8 : ∀ m ∈ inputs, 8 * m.length < 2 ^ 32)
    (hg : genMulti inputs cap = some rows) (blind : ℤ → Row (ZMod p)) :
    ∃ n k, rows.length = 72 * n ∧ n = totalBlocks inputs + k ∧ (cap = none → k = 0) ∧ (∀ c, cap = some c → n = c) ∧
      ShaSat n (advOf rows blind) ∧
      ∀ j m, inputs[j]? = some m →
        let b := totalBlocks (inputs.take j) + numSha2Blocks m.length - 1
        b < n ∧ (blockAt (advOf rows blind) b).isFinal = 1 ∧ (blockAt (advOf rows blind) b).length = (m.length : ZMod p) ∧
        (blockAt (advOf rows blind) b).outputHi = (((sha256 m).toNat / 2 ^ 128 : ℕ) : ZMod p) ∧
        (blockAt (advOf rows blind) b).outputLo = (((sha256 m).toNat % 2 ^ 128 : ℕ) : ZMod p) := by
  have hgen := hg
  obtain ⟨k, rfl, hcap, hk⟩ := genMulti_msgs hg
  have hlen := rows_len (inputs ++ List.replicate k [])
  have hn : (blks (inputs ++ List.replicate k [])).length = totalBlocks inputs + k := by
    rw [blks_length, totalBlocks_append, totalBlocks_empty]
  have H8 : ∀ m ∈ inputs ++ List.replicate k [], 8 * m.length < 2 ^ 32 := by
    intro m hm
    rcases List.mem_append.mp hm with hm | hm
    · exact h8 m hm
    · rw [List.eq_of_mem_replicate hm]; norm_num
  refine ⟨totalBlocks inputs + k, k, by rw [hlen, hn], rfl, hk, ?_, ?_, ?_⟩
  · rintro c rfl
    have h1 := hcap c rfl
    rw [hlen, hn] at h1
    have h2 : c ≤ totalBlocks inputs + k := by
      unfold genMulti at hgen
      simp only at hgen
      split at hgen
      · simp at hgen
      · rw [Option.some.injEq] at hgen
        have h3 := congrArg List.length hgen
        have e1 : (inputs.flatMap genSha256).length = 72 * totalBlocks inputs := by rw [rows_len, blks_length]
        have e2 : ∀ q : ℕ, ((List.replicate q ()).flatMap fun _ => genSha256 []).length = 72 * q := by
          intro q
          have h4 : (genSha256 []).length = 72 := by
            have := rows_len [[]]
            rw [blks_length] at this
            simpa [totalBlocks, numSha2Blocks] using this
          exact (flatMap_len _ 72 (fun _ => h4) _).trans (by simp)
        rw [List.length_append, e1, e2, hlen, hn, Nat.mul_div_cancel_left _ (by norm_num)] at h3
        omega
    omega
  · rw [← hn]; exact (hon (inputs ++ List.replicate k []) blind H8).sat
  · intro j m hj
    have hp := nb_pos m
    have hj' : (inputs ++ List.replicate k [])[j]? = some m := by
      rw [List.getElem?_append_left (List.getElem?_eq_some_iff.mp hj).1]; exact hj
    have hb := blks_at _ j m hj' (nb m - 1) (by omega)
    have ht : (inputs ++ List.replicate k []).take j = inputs.take j := by
      rw [List.take_append, show j - inputs.length = 0 by have := (List.getElem?_eq_some_iff.mp hj).1; omega]; simp
    rw [ht] at hb
    simp only
    rw [← nb_eq, show totalBlocks (inputs.take j) + nb m - 1 = totalBlocks (inputs.take j) + (nb m - 1) by omega]
    generalize totalBlocks (inputs.take j) + (nb m - 1) = b at *
    have hbn : b < (blks (inputs ++ List.replicate k [])).length := (List.getElem?_eq_some_iff.mp hb).1
    have hG : G (inputs ++ List.replicate k []) b = (m, nb m - 1) := by
      have := G_get _ hbn
      rw [hb] at this; exact (Option.some.inj this).symm
    have H := hon (F := ZMod p) (inputs ++ List.replicate k []) blind H8
    have hA : ∀ q < 72, advOf ((inputs ++ List.replicate k []).flatMap genSha256) blind (72 * b + q : ℕ) = setRow (72 * b + q) (hrow m (nb m - 1) q) := by
      intro q hq
      have := adv_eq (inputs ++ List.replicate k []) blind hbn hq
      rw [hG] at this; exact this
    have h71 := hA 71 (by omega)
    have h70 := hA 70 (by omega)
    have h19 := hA 19 (by omega)
    push_cast at h71 h70 h19
    have hl : hLen m (nb m - 1) 19 = m.length := by
      have hnb : nb m = (m.length + 8) / 64 + 1 := nb_eq m
      unfold hLen; rw [if_neg (by omega), if_pos (by omega)]; omega
    obtain ⟨s1, s2⟩ := hLimb_sha m (nb m - 1) rfl
    refine ⟨by omega, ?_, ?_, ?_, ?_⟩
    · simp only [blockAt, h71, setRow, hrow, mkRow, hFin]
      simp [b2f]
    · simp only [blockAt, h19, setRow, hrow, mkRow, hl]
    · simp only [blockAt, h70, setRow, hrow, mkRow, s2]
      rw [show (72 * b + 70) % 72 = 70 by omega, if_neg (by omega), if_pos (by omega)]
    · simp only [blockAt, h71, setRow, hrow, mkRow, s1]
      rw [show (72 * b + 71) % 72 = 71 by omega, if_neg (by omega), if_pos (by omega)]

/-- C55: the witness generation panics exactly when the messages need more blocks than the capacity. -/
theorem C55_sha256_capacity (inputs : List (List Byte)) (c : ℕ) : genMulti inputs (some c) = none ↔ c < totalBlocks inputs := by
  have e1 : (inputs.flatMap genSha256).length = 72 * totalBlocks inputs := by rw [rows_len, blks_length]
  have h4 : (genSha256 []).length = 72 := by
    have := rows_len [[]]
    rw [blks_length] at this
    simpa [totalBlocks, numSha2Blocks] using this
  have e2 : ∀ q : ℕ, ((List.replicate q ()).flatMap fun _ => genSha256 []).length = 72 * q := by
    intro q
    exact (flatMap_len _ 72 (fun _ => h4) _).trans (by simp)
  unfold genMulti
  simp only
  rw [List.length_append, e1, e2, Nat.mul_div_cancel_left _ (by norm_num)]
  split
  · rename_i h; exact ⟨fun _ => by omega, fun _ => rfl⟩
  · rename_i h; exact ⟨fun h => by simp at h, fun _ => by omega⟩

/-- Non-vacuity: over any field, the circuit for "abc" and the 56-byte message of the standard (2 blocks) with capacity 5 is satisfied, and
its third block exposes the digest of the second message. -/
example (blind : ℤ → Row (ZMod p)) : ∃ adv : ℤ → Row (ZMod p), ShaSat 5 adv ∧ (blockAt adv 0).isFinal = 1 ∧ (blockAt adv 2).isFinal = 1 ∧
    (blockAt adv 0).outputHi = ((0xba7816bf8f01cfea414140de5dae2223 : ℕ) : ZMod p) ∧ (blockAt adv 2).length = 56 := by
  let m1 : List Byte := [0x61, 0x62, 0x63]
  let m2 : List Byte := List.replicate 56 0x61
  have hne : genMulti [m1, m2] (some 5) ≠ none := by
    rw [Ne, C55_sha256_capacity]; decide
  obtain ⟨rows, hr⟩ := Option.ne_none_iff_exists'.mp hne
  obtain ⟨n, k, -, -, -, hc, hsat, hm⟩ := C55_sha256_complete (p := p) (by intro m hm; fin_cases hm <;> simp [m1, m2]) hr blind
  obtain rfl := hc 5 rfl
  refine ⟨_, hsat, ?_⟩
  obtain ⟨-, f1, -, o1, -⟩ := hm 0 m1 rfl
  obtain ⟨-, f2, l2, -, -⟩ := hm 1 m2 rfl
  rw [show totalBlocks (List.take 0 [m1, m2]) + numSha2Blocks m1.length - 1 = 0 by decide] at f1 o1
  rw [show totalBlocks (List.take 1 [m1, m2]) + numSha2Blocks m2.length - 1 = 2 by decide] at f2 l2
  refine ⟨f1, f2, ?_, ?_⟩
  · refine o1.trans ?_
    congr 1
    rw [← sha256Tab_eq]; decide +kernel
  · refine l2.trans ?_
    simp [m2]

end H2.Sha
