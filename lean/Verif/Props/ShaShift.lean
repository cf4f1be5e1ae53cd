import Verif.Sha.Shift

/-!
# Property C92: SHA-256 calls at an offset (`multi_sha256_shifted`)

`SegSat segs adv`: a region in which the rows `[s, s + len)`, `(s, len) ∈ segs`, have been assigned by calls (fixed values), and whose
advice columns hold `adv` (the malicious prover's choice), satisfies every gate.  `blockFrom adv s b` are the cells handed to the caller
for block `b` of the call at offset `s`.
-/

set_option autoImplicit false
namespace H2.Sha
variable {p : ℕ} [Fact p.Prime]

/-- Block `b` of a circuit hashes the end of a message: the conclusion of `C55_sha256_sound`. `cells i` are the cells of block `i`. -/
def HashesAt (cells : ℕ → Block (ZMod p)) (b : ℕ) : Prop :=
  (cells b).isFinal = 1 ∧ ∃ s ≤ b, (s = 0 ∨ (cells (s - 1)).isFinal = 1) ∧ (∀ i, s ≤ i → i < b → (cells i).isFinal = 0) ∧
    ∃ m : List Byte, 8 * m.length < 2 ^ 32 ∧ b + 1 - s = numSha2Blocks m.length ∧ (cells b).length = (m.length : ZMod p) ∧
      (∀ i, s ≤ i → i ≤ b → (cells i).wordValues = (List.range 16).map fun t => ((leWord m (16 * (i - s) + t) : ℕ) : ZMod p)) ∧
      (cells b).outputHi = (((sha256 m).toNat / 2 ^ 128 : ℕ) : ZMod p) ∧ (cells b).outputLo = (((sha256 m).toNat % 2 ^ 128 : ℕ) : ZMod p)

theorem chainSegs_get (ns : List ℕ) : ∀ (s j n : ℕ), ns[j]? = some n → (chainSegs s ns)[j]? = some (s + 72 * (ns.take j).sum, 72 * n) := by
  induction ns with
  | nil => intro s j n h; simp at h
  | cons x t ih =>
    intro s j n h
    cases j with
    | zero => simp at h; subst h; simp [chainSegs]
    | succ j =>
      rw [List.getElem?_cons_succ] at h
      simp only [chainSegs, List.getElem?_cons_succ]
      rw [ih _ _ _ h, List.take_succ_cons, List.sum_cons]
      congr 2; ring

/-- C92 (soundness of consecutive calls): when calls of `ns = [n₀, n₁, …]` blocks are laid out one after the other from offset 0, every
final block among the cells of any of the calls ends a run of blocks - in the order of the offsets, possibly begun in an earlier call -
that hashes a message, as in `C55_sha256_sound`. The block `b` of the call at offset `s` is block `s / 72 + b` of the region. -/
theorem C92_chain_sound {ns : List ℕ} {adv : ℤ → Row (ZMod p)} (hp : 2 ^ 35 ≤ p) (hn : 512 * ns.sum ≤ p) (hs : SegSat (chainSegs 0 ns) adv)
    {j s len : ℕ} (hj : (chainSegs 0 ns)[j]? = some (s, len)) {b : ℕ} (hb : 72 * b < len) (hf : (blockFrom adv s b).isFinal ≠ 0) :
    blockFrom adv s b = blockFrom adv 0 (s / 72 + b) ∧ HashesAt (blockFrom adv 0) (s / 72 + b) := by
  have hs' := (chain_sat ns adv).mp hs
  have hlen : ∀ (ns : List ℕ) s, (chainSegs s ns).length = ns.length := by
    intro ns
    induction ns with
    | nil => intro s; rfl
    | cons x t ih => intro s; simp [chainSegs, ih]
  have hjl : j < ns.length := by rw [← hlen ns 0]; exact (List.getElem?_eq_some_iff.mp hj).1
  have hn' : ns[j]? = some ns[j] := List.getElem?_eq_getElem hjl
  have := chainSegs_get ns 0 j _ hn'
  rw [hj, Option.some.injEq, Prod.mk.injEq] at this
  obtain ⟨rfl, rfl⟩ := this
  rw [Nat.zero_add] at hf ⊢
  have hsum : (ns.take j).sum + ns[j] ≤ ns.sum := by
    conv_rhs => rw [← List.take_append_drop j ns, List.sum_append, List.drop_eq_getElem_cons hjl, List.sum_cons]
    omega
  rw [Nat.mul_div_cancel_left _ (by norm_num : 0 < 72)]
  have e0 : ∀ i, blockFrom adv 0 i = blockAt adv i := by
    intro i; have := blockFrom_eq adv 0 i; rwa [Nat.mul_zero, Nat.zero_add] at this
  rw [blockFrom_eq] at hf ⊢
  refine ⟨(e0 _).symm, ?_⟩
  have hfun : blockFrom adv 0 = blockAt adv := funext e0
  rw [hfun]
  exact C55_sha256_sound hp hn hs' (b := (ns.take j).sum + b) (by omega) hf

/-- C92 (completeness of consecutive calls): when the calls `l` (inputs, capacity) are made one after the other from offset 0, each
starting where the one before it ended, and none panics, the region is satisfied, and the cells handed out by each call expose for each of
its inputs its length and its digest. -/
theorem C92_chain_complete {l : List (List (List Byte) × Option ℕ)} {calls : List (ℕ × List VRow)} (h8 : ∀ x ∈ l, ∀ m ∈ x.1, 8 * m.length < 2 ^ 32)
    (hc : chainCalls 0 l = some calls) (blind : ℤ → Row (ZMod p)) :
    SegSat (segsOf calls) (advCalls calls blind) ∧
    ∀ (j : ℕ) (inputs : List (List Byte)) (cap : Option ℕ), l[j]? = some (inputs, cap) → ∃ c : ℕ × List VRow, calls[j]? = some c ∧ ∀ (i : ℕ) (m : List Byte), inputs[i]? = some m →
      let b := totalBlocks (inputs.take i) + numSha2Blocks m.length - 1
      72 * b < c.2.length ∧
      (blockFrom (advCalls calls blind) c.1 b).isFinal = 1 ∧ (blockFrom (advCalls calls blind) c.1 b).length = (m.length : ZMod p) ∧
      (blockFrom (advCalls calls blind) c.1 b).outputHi = (((sha256 m).toNat / 2 ^ 128 : ℕ) : ZMod p) ∧
      (blockFrom (advCalls calls blind) c.1 b).outputLo = (((sha256 m).toNat % 2 ^ 128 : ℕ) : ZMod p) := by
  obtain ⟨ms, h1, h2, h3⟩ := chain_msgs l 0 calls hc
  obtain ⟨ns, h4, h5⟩ := chain_segs l 0 calls hc
  have h8' : ∀ m ∈ ms.flatten, 8 * m.length < 2 ^ 32 := by
    intro m hm
    rcases h2 m hm with rfl | ⟨x, hx, hm⟩
    · norm_num
    · exact h8 x hx m hm
  have hadv : advCalls calls blind = advOf (ms.flatten.flatMap genSha256) blind := by
    rw [chain_adv l 0 calls hc, advOf_eq, h1]
  obtain ⟨n, k, e1, e2, e3, -, e5, e6⟩ := C55_sha256_complete (p := p) (inputs := ms.flatten) (cap := none) h8' rfl blind
  rw [hadv]
  refine ⟨?_, ?_⟩
  · rw [h4, chain_sat]
    have : ns.sum = n := by rw [h1] at h5; omega
    rw [this]; exact e5
  · intro j inputs cap hj
    obtain ⟨c, hcj, ⟨kk, hms, hclen⟩, hstart⟩ := h3 j _ hj
    refine ⟨c, hcj, ?_⟩
    intro i m hi
    have hjl := (List.getElem?_eq_some_iff.mp hms)
    have hil := (List.getElem?_eq_some_iff.mp hi)
    obtain ⟨hjl, hjv⟩ := hjl
    obtain ⟨hil, hiv⟩ := hil
    have hfl : ms.flatten = (ms.take j).flatten ++ ((inputs ++ List.replicate kk []) ++ (ms.drop (j + 1)).flatten) := by
      conv_lhs => rw [← List.take_append_drop j ms, List.drop_eq_getElem_cons hjl, List.flatten_append, List.flatten_cons, hjv]
    have hget : ms.flatten[(ms.take j).flatten.length + i]? = some m := by
      rw [hfl, List.getElem?_append_right (by omega), Nat.add_sub_cancel_left, List.append_assoc, List.getElem?_append_left hil]
      exact hi
    have htake : ms.flatten.take ((ms.take j).flatten.length + i) = (ms.take j).flatten ++ inputs.take i := by
      rw [hfl, List.take_append, Nat.add_sub_cancel_left, List.take_of_length_le (by omega), List.append_assoc, List.take_append,
        show i - inputs.length = 0 by omega, List.take_zero, List.append_nil]
    have := e6 _ m hget
    simp only at this
    rw [htake, totalBlocks_append] at this
    have hpos : 1 ≤ numSha2Blocks m.length := by unfold numSha2Blocks; omega
    obtain ⟨-, this⟩ := this
    rw [show totalBlocks (ms.take j).flatten + totalBlocks (inputs.take i) + numSha2Blocks m.length - 1 =
      totalBlocks (ms.take j).flatten + (totalBlocks (inputs.take i) + numSha2Blocks m.length - 1) by omega, ← blockFrom_eq] at this
    rw [Nat.zero_add] at hstart
    rw [← hstart] at this
    refine ⟨?_, this⟩
    have hclen' : c.2.length = 72 * (totalBlocks inputs + totalBlocks (List.replicate kk [])) := by
      rw [hclen, ← totalBlocks_append]
    rw [hclen']
    have : totalBlocks (inputs.take i) + numSha2Blocks m.length ≤ totalBlocks inputs := by
      conv_rhs => rw [← List.take_append_drop i inputs, totalBlocks_append, List.drop_eq_getElem_cons hil, totalBlocks_cons, hiv]
      omega
    omega

/-! ### A call alone -/

/-- C92 (soundness, a call alone at `72 * k`): if the row before the call holds 1 in the cell `is_final`, the call's cells are sound. -/
theorem C92_alone_sound {k n : ℕ} {adv : ℤ → Row (ZMod p)} (hp : 2 ^ 35 ≤ p) (hn : 512 * n ≤ p) (hs : SegSat [(72 * k, 72 * n)] adv)
    (hprev : (adv ((72 * k : ℕ) - 1)).isFinal = 1) {b : ℕ} (hb : b < n) (hf : (blockFrom adv (72 * k) b).isFinal ≠ 0) :
    HashesAt (blockFrom adv (72 * k)) b := by
  have h := (alone_iff hprev).mp hs
  have e : blockFrom adv (72 * k) = blockAt fun r => adv (r + (72 * k : ℕ)) := by
    funext b
    have e1 : ∀ c : ℤ, ((72 * k : ℕ) : ℤ) + (72 * (b : ℤ) + c) = 72 * (b : ℤ) + c + (72 * k : ℕ) := by intro c; ring
    have e2 : ∀ i : ℤ, ((72 * k : ℕ) : ℤ) + (72 * (b : ℤ) + 4 + i) = 72 * (b : ℤ) + 4 + i + (72 * k : ℕ) := by intro c; ring
    simp only [blockFrom, blockAt, e1, e2]
  rw [e] at hf ⊢
  exact C55_sha256_sound hp hn h hb hf

/-- C92: a call alone at `72 * k` accepts the blocks `k, …, k + n - 1` of any satisfied circuit with at least `k + n` blocks, wherever
these stand in their messages. -/
theorem C92_alone_window {N k n : ℕ} {adv : ℤ → Row (ZMod p)} (hN : k + n ≤ N) (hs : ShaSat N adv) : SegSat [(72 * k, 72 * n)] adv :=
  window_sat hN hs

theorem blks_empty (k : ℕ) (l : List (List Byte)) {b : ℕ} : (blks (List.replicate k [] ++ l))[k + b]? = (blks l)[b]? := by
  have h : (blks (List.replicate k [])).length = k := by rw [blks_length, totalBlocks_empty]
  have e : blks (List.replicate k [] ++ l) = blks (List.replicate k []) ++ blks l := by simp [blks]
  rw [e, List.getElem?_append_right (by omega), h, Nat.add_sub_cancel_left]

/-- The honest cells of the second (last) block of a message of 56 to 64 bytes, after `k` empty messages. -/
theorem second_block (k : ℕ) (m : List Byte) (h1 : 56 ≤ m.length) (h2 : m.length ≤ 64) (blind : ℤ → Row (ZMod p)) :
    ∃ adv : ℤ → Row (ZMod p), ShaSat (k + 2) adv ∧ (blockAt adv k).isFinal = 0 ∧ (blockAt adv (k + 1)).isFinal = 1 ∧
      (blockAt adv (k + 1)).length = (m.length : ZMod p) ∧ (blockAt adv (k + 1)).wordValues = List.replicate 16 0 ∧
      (blockAt adv (k + 1)).outputHi = (((sha256 m).toNat / 2 ^ 128 : ℕ) : ZMod p) ∧
      (blockAt adv (k + 1)).outputLo = (((sha256 m).toNat % 2 ^ 128 : ℕ) : ZMod p) := by
  have hnb : numSha2Blocks m.length = 2 := by unfold numSha2Blocks; omega
  have h8 : ∀ x ∈ List.replicate k [] ++ [m], 8 * x.length < 2 ^ 32 := by
    intro x hx
    rcases List.mem_append.mp hx with hx | hx
    · rw [List.eq_of_mem_replicate hx]; norm_num
    · rw [List.mem_singleton.mp hx]; omega
  have htot : totalBlocks (List.replicate k [] ++ [m]) = k + 2 := by
    rw [totalBlocks_append, totalBlocks_empty, totalBlocks_cons, hnb]; rfl
  obtain ⟨n, q, e1, e2, e3, -, e5, e6⟩ := C55_sha256_complete (p := p) (inputs := List.replicate k [] ++ [m]) (cap := none) h8 rfl blind
  obtain rfl := e3 rfl
  rw [htot] at e2
  obtain rfl : n = k + 2 := e2
  have hm := e6 k m (by rw [List.getElem?_append_right (by simp)]; simp)
  have htk : (List.replicate k ([] : List Byte) ++ [m]).take k = List.replicate k [] := by
    rw [List.take_append_of_le_length (by simp)]; simp
  simp only at hm
  rw [htk, totalBlocks_empty, hnb, show k + 2 - 1 = k + 1 by omega] at hm
  obtain ⟨-, f1, f2, f3, f4⟩ := hm
  have H := hon (F := ZMod p) (List.replicate k [] ++ [m]) blind h8
  have hbl : (blks (List.replicate k [] ++ [m])).length = k + 2 := by rw [blks_length, htot]
  have hG : ∀ b < 2, G (List.replicate k [] ++ [m]) (k + b) = (m, b) := by
    intro b hb
    have h := blks_empty k [m] (b := b)
    have hb2 := blks_at [m] 0 m rfl b (by rw [nb_eq, hnb]; exact hb)
    rw [List.take_zero, show totalBlocks [] = 0 from rfl, Nat.zero_add] at hb2
    rw [hb2] at h
    unfold G
    rw [List.getD, h]; rfl
  refine ⟨_, e5, ?_, f1, f2, ?_, f3, f4⟩
  · have := adv_eq (F := ZMod p) (List.replicate k [] ++ [m]) blind (b := k) (k := 71) (by omega) (by omega)
    have hg := hG 0 (by omega)
    rw [Nat.add_zero] at hg
    rw [hg] at this
    push_cast at this
    simp only [blockAt, this, setRow, hrow, mkRow, hFin]
    rw [nb_eq, hnb]; simp [b2f]
  · simp only [blockAt]
    rw [List.eq_replicate_iff]
    refine ⟨by simp, ?_⟩
    intro x hx
    obtain ⟨t, ht, rfl⟩ := List.mem_map.mp hx
    rw [List.mem_range] at ht
    have := adv_eq (F := ZMod p) (List.replicate k [] ++ [m]) blind (b := k + 1) (k := 4 + t) (by omega) (by omega)
    rw [hG 1 (by omega)] at this
    rw [show (72 * ((k + 1 : ℕ) : ℤ) + 4 + (t : ℤ)) = ((72 * (k + 1) + (4 + t) : ℕ) : ℤ) by push_cast; ring, this]
    have hP1 : ∀ q, hP m 1 (4 + t) q = true := by
      intro q; rw [hP_in _ _ _ _ (by omega) (by omega), decide_eq_true_eq]; omega
    simp only [setRow, hrow, mkRow]
    rw [wordValueOf_eq, if_pos (by omega)]
    simp only [hP1, if_true]
    rw [if_pos (by simp; omega)]
    simp [pack4]

/-- C92 (a call alone is not sound): at any offset `72 * k`, `k ≥ 1`, when the row before is not constrained, one block can be made to
expose `is_final = 1`, the length and 16 zero words, together with the digest of **any** message of 56 to 64 bytes. -/
theorem C92_alone_forged {k : ℕ} (hk : 1 ≤ k) (m : List Byte) (h1 : 56 ≤ m.length) (h2 : m.length ≤ 64) :
    ∃ adv : ℤ → Row (ZMod p), SegSat [(72 * k, 72)] adv ∧ (blockFrom adv (72 * k) 0).isFinal = 1 ∧
      (blockFrom adv (72 * k) 0).length = (m.length : ZMod p) ∧ (blockFrom adv (72 * k) 0).wordValues = List.replicate 16 0 ∧
      (blockFrom adv (72 * k) 0).outputHi = (((sha256 m).toNat / 2 ^ 128 : ℕ) : ZMod p) ∧
      (blockFrom adv (72 * k) 0).outputLo = (((sha256 m).toNat % 2 ^ 128 : ℕ) : ZMod p) := by
  obtain ⟨k, rfl⟩ : ∃ j, k = j + 1 := ⟨k - 1, by omega⟩
  obtain ⟨adv, hs, -, f1, f2, f3, f4, f5⟩ := second_block (p := p) k m h1 h2 fun _ => ⟨0, 0, 0, 0, 0, 0, 0⟩
  have := window_sat (k := k + 1) (n := 1) (by omega) hs
  refine ⟨adv, this, ?_⟩
  rw [blockFrom_eq, Nat.add_zero]
  exact ⟨f1, f2, f3, f4, f5⟩

/-- C92: two satisfying assignments of such a call with the same `is_final`, length and words, and different digests. -/
theorem C92_alone_not_determined {k : ℕ} (hk : 1 ≤ k) (hp : 2 ^ 128 ≤ p) : ∃ adv adv' : ℤ → Row (ZMod p),
    SegSat [(72 * k, 72)] adv ∧ SegSat [(72 * k, 72)] adv' ∧
    (blockFrom adv (72 * k) 0).isFinal = 1 ∧ (blockFrom adv' (72 * k) 0).isFinal = 1 ∧
    (blockFrom adv (72 * k) 0).length = (blockFrom adv' (72 * k) 0).length ∧
    (blockFrom adv (72 * k) 0).wordValues = (blockFrom adv' (72 * k) 0).wordValues ∧
    (blockFrom adv (72 * k) 0).outputHi ≠ (blockFrom adv' (72 * k) 0).outputHi := by
  obtain ⟨adv, a1, a2, a3, a4, a5, -⟩ := C92_alone_forged (p := p) hk (List.replicate 56 0x61) (by simp) (by simp)
  obtain ⟨adv', b1, b2, b3, b4, b5, -⟩ := C92_alone_forged (p := p) hk (List.replicate 56 0x62) (by simp) (by simp)
  refine ⟨adv, adv', a1, b1, a2, b2, by rw [a3, b3]; simp, by rw [a4, b4], ?_⟩
  rw [a5, b5]
  intro h
  have hlt : ∀ m : List Byte, (sha256 m).toNat / 2 ^ 128 < p := by
    intro m
    refine lt_of_lt_of_le ?_ hp
    rw [Nat.div_lt_iff_lt_mul (by norm_num)]
    exact lt_of_lt_of_le (sha256 m).isLt (by norm_num)
  rw [ZMod.natCast_eq_natCast_iff', Nat.mod_eq_of_lt (hlt _), Nat.mod_eq_of_lt (hlt _)] at h
  revert h
  rw [← sha256Tab_eq, ← sha256Tab_eq]
  decide +kernel

/-- C92 (calls can share a run): with two calls of one block each laid out one after the other, the block of the first call can be left
not final and the block of the second finish its message: the second call's cells then show 16 zero words and the digest of a message whose
bytes are the first call's. -/
theorem C92_straddle (m : List Byte) (h1 : 56 ≤ m.length) (h2 : m.length ≤ 64) : ∃ adv : ℤ → Row (ZMod p),
    SegSat (chainSegs 0 [1, 1]) adv ∧ (blockFrom adv 0 0).isFinal = 0 ∧ (blockFrom adv 72 0).isFinal = 1 ∧
      (blockFrom adv 72 0).length = (m.length : ZMod p) ∧ (blockFrom adv 72 0).wordValues = List.replicate 16 0 ∧
      (blockFrom adv 72 0).outputHi = (((sha256 m).toNat / 2 ^ 128 : ℕ) : ZMod p) ∧
      (blockFrom adv 72 0).outputLo = (((sha256 m).toNat % 2 ^ 128 : ℕ) : ZMod p) := by
  obtain ⟨adv, hs, f0, f1, f2, f3, f4, f5⟩ := second_block (p := p) 0 m h1 h2 fun _ => ⟨0, 0, 0, 0, 0, 0, 0⟩
  refine ⟨adv, (chain_sat _ _).mpr hs, ?_⟩
  have e0 := blockFrom_eq adv 0 0
  have e1 := blockFrom_eq adv 1 0
  rw [Nat.mul_zero] at e0
  rw [Nat.mul_one, Nat.add_zero] at e1
  rw [e0, e1]
  exact ⟨f0, f1, f2, f3, f4, f5⟩

/-! ### Honest calls -/

theorem first_rows {inputs : List (List Byte)} {cap : Option ℕ} {rows : List VRow} (h : genMulti inputs cap = some rows) (hne : rows ≠ []) :
    ∀ j ≤ 4, ∃ v, rows[j]? = some v ∧ v.isFinal = decide (j < 4) := by
  obtain ⟨k, rfl, hl⟩ := genMulti_len h
  intro j hj
  have hpos : 0 < (blks (inputs ++ List.replicate k [])).length := by
    rw [blks_length]
    have : 0 < ((inputs ++ List.replicate k []).flatMap genSha256).length := List.length_pos_iff.mpr hne
    omega
  have hg := List.getElem?_eq_getElem hpos
  have h0 := blks_zero hg
  have := rows_get (inputs ++ List.replicate k []) hg (k := j) (by omega)
  rw [Nat.mul_zero, Nat.zero_add] at this
  refine ⟨_, this, ?_⟩
  simp only [hrow, mkRow, hFin, h0]
  by_cases h4 : j < 4
  · simp [h4]
  · simp only [h4, if_false, decide_false]
    apply decide_eq_false; omega

theorem final_prev {fx : ℤ → Fix (ZMod p)} {adv : ℤ → Row (ZMod p)} {r : ℤ} (hg : ∀ c ∈ gates fx adv r, c = 0)
    (h1 : (fx r).qStart = 1) (h2 : (fx r).qFirst = 0) : (adv r).isFinal = (adv (r - 1)).isFinal := by
  have h : Z (gates fx adv r) := hg
  simp only [gates, Z_append] at h
  have h := h.1.1.1.1.1.1.2
  simp only [gFinal, Z_gate, Z_append, Z_cond, Z_reqEq, h1, h2] at h
  simpa using (h.resolve_left one_ne_zero).2

theorem final_unused {fx : ℤ → Fix (ZMod p)} {adv : ℤ → Row (ZMod p)} {r : ℤ} (hg : ∀ c ∈ gates fx adv r, c = 0)
    (h1 : (fx r).qEnable = 1) (h2 : (fx r).qCompression + (fx r).qEnd - (fx r).qSqueeze = 1) : (adv r).isFinal = 0 := by
  have h : Z (gates fx adv r) := hg
  simp only [gates, Z_append] at h
  have h := h.2
  simp only [gUnused, Z_gate, Z_append, Z_cond, Z_reqZero, h1, h2] at h
  exact (h.resolve_left one_ne_zero).1.1.1.1.2.resolve_left one_ne_zero

theorem fixedSegs_in {segs : List (ℕ × ℕ)} {s len r : ℕ} (hm : (s, len) ∈ segs) (h1 : s ≤ r) (h2 : r < s + len) :
    (fixedSegs segs r : Fix (ZMod p)) = fixedAt r := by
  unfold fixedSegs
  rw [if_pos]
  · simp
  · rw [List.any_eq_true]
    exact ⟨_, hm, by simp; omega⟩

theorem writeCall_at {s j : ℕ} {rows : List VRow} {v : VRow} (h : rows[j]? = some v) (adv : ℤ → Row (ZMod p)) :
    writeCall (s, rows) adv ((s + j : ℕ) : ℤ) = setRow (s + j) v := by
  unfold writeCall
  rw [if_pos (by push_cast; omega)]
  simp only
  rw [show (((s + j : ℕ) : ℤ) - s).toNat = j by omega, h]
  simp only [Int.toNat_natCast]

/-- C92 (alignment): a call (of at least one block) at an offset that is not a multiple of 72 makes the region unsatisfiable for the honest
prover, whatever else was assigned. -/
theorem C92_misaligned {inputs : List (List Byte)} {cap : Option ℕ} {s : ℕ} {c : ℕ × List VRow} (hc : shaCall inputs cap s = some c)
    (hne : c.2 ≠ []) (hs : s % 72 ≠ 0) {segs : List (ℕ × ℕ)} (hseg : (s, c.2.length) ∈ segs) (adv : ℤ → Row (ZMod p)) :
    ¬ SegSat segs (writeCall c adv) := by
  simp only [shaCall, Option.map_eq_some_iff] at hc
  obtain ⟨rows, hr, rfl⟩ := hc
  simp only at hne hseg
  have hf := first_rows hr hne
  have hlen : 72 ≤ rows.length := by
    obtain ⟨k, _, hl⟩ := genMulti_len hr
    have : 0 < rows.length := List.length_pos_iff.mpr hne
    omega
  intro h
  -- an honest `is_final = 1` row where `is_final` must be 0
  have bad : ∀ j < 4, (4 ≤ (s + j) % 72 ∧ (s + j) % 72 < 71) → False := by
    intro j hj hr
    obtain ⟨v, hv, hfin⟩ := hf j (by omega)
    have hg := h ((s + j : ℕ) : ℤ)
    have hx : (fixedSegs segs ((s + j : ℕ) : ℤ) : Fix (ZMod p)) = fixedAt (s + j) := fixedSegs_in hseg (by omega) (by omega)
    have := final_unused hg (by rw [hx]; rfl) (by
      rw [hx]
      simp only [fixedAt, ind]
      by_cases h68 : (s + j) % 72 < 68
      · rw [if_pos (by omega), if_neg (by omega), if_neg (by omega)]; ring
      · rw [if_neg (by omega), if_pos (by omega), if_neg (by omega)]; ring)
    rw [writeCall_at hv] at this
    simp only [setRow, hfin, hj, decide_true] at this
    simp [b2f] at this
  by_cases h71 : s % 72 = 71
  · -- row 4 of the call is a start row, but its `is_final` is 0 and the one before it 1
    obtain ⟨v4, hv4, hf4⟩ := hf 4 (by omega)
    obtain ⟨v3, hv3, hf3⟩ := hf 3 (by omega)
    have hg := h ((s + 4 : ℕ) : ℤ)
    have hx : (fixedSegs segs ((s + 4 : ℕ) : ℤ) : Fix (ZMod p)) = fixedAt (s + 4) := fixedSegs_in hseg (by omega) (by omega)
    have := final_prev hg (by rw [hx]; simp only [fixedAt, ind]; rw [if_pos (by omega)]) (by rw [hx]; simp only [fixedAt, ind]; rw [if_neg (by omega)])
    rw [show (((s + 4 : ℕ) : ℤ) - 1) = ((s + 3 : ℕ) : ℤ) by push_cast; ring, writeCall_at hv4, writeCall_at hv3] at this
    simp [setRow, hf4, hf3, b2f] at this
  · by_cases h4 : s % 72 < 4
    · exact bad 3 (by omega) (by omega)
    · exact bad 0 (by omega) (by omega)

/-- C92 (completeness of a call alone): a call of at least one block at `72 * k`, `k ≥ 1`, is satisfied by the honest rows exactly if the
cell `is_final` of the row before it holds 1 — which it does not where nothing has been assigned (an unassigned cell holds 0). -/
theorem C92_alone_complete {inputs : List (List Byte)} {cap : Option ℕ} (h8 : ∀ m ∈ inputs, 8 * m.length < 2 ^ 32) {k : ℕ} (hk : 1 ≤ k)
    {c : ℕ × List VRow} (hc : shaCall inputs cap (72 * k) = some c) (hne : c.2 ≠ []) (adv : ℤ → Row (ZMod p)) :
    SegSat [(72 * k, c.2.length)] (writeCall c adv) ↔ (adv ((72 * k : ℕ) - 1)).isFinal = 1 := by
  simp only [shaCall, Option.map_eq_some_iff] at hc
  obtain ⟨rows, hr, rfl⟩ := hc
  simp only at hne ⊢
  obtain ⟨q, _, hl⟩ := genMulti_len hr
  have hpos : 0 < rows.length := List.length_pos_iff.mpr hne
  have hprev : writeCall (72 * k, rows) adv ((72 * k : ℕ) - 1) = adv ((72 * k : ℕ) - 1) := by
    unfold writeCall; rw [if_neg (by simp)]
  constructor
  · intro h
    obtain ⟨v, hv, hf⟩ := first_rows hr hne 0 (by omega)
    have hg := h ((72 * k + 0 : ℕ) : ℤ)
    have hx : (fixedSegs [(72 * k, rows.length)] ((72 * k + 0 : ℕ) : ℤ) : Fix (ZMod p)) = fixedAt (72 * k + 0) :=
      fixedSegs_in List.mem_cons_self (by omega) (by omega)
    have := final_prev hg (by rw [hx]; simp only [fixedAt, ind]; rw [if_pos (by omega)]) (by rw [hx]; simp only [fixedAt, ind]; rw [if_neg (by omega)])
    rw [writeCall_at hv, Nat.add_zero, hprev] at this
    rw [← this]
    simp [setRow, hf, b2f]
  · intro h
    rw [hl, alone_iff (by rw [hprev]; exact h)]
    obtain ⟨n, q', e1, -, -, -, e5, -⟩ := C55_sha256_complete (p := p) h8 hr fun r => adv (r + (72 * k : ℕ))
    have hn : n = totalBlocks (inputs ++ List.replicate q []) := by omega
    rw [← hn]
    have e : (fun r => writeCall (72 * k, rows) adv (r + (72 * k : ℕ))) = advOf rows fun r => adv (r + (72 * k : ℕ)) := by
      funext r
      rw [advOf_eq]
      unfold writeCall
      simp only
      by_cases h0 : 0 ≤ r
      · rw [if_pos (by omega), if_pos (by simpa using h0), show (r + ((72 * k : ℕ) : ℤ) - (72 * k : ℕ)).toNat = (r - (0 : ℕ)).toNat by simp]
        cases rows[(r - (0 : ℕ)).toNat]? with
        | none => rfl
        | some v =>
          simp only [setRow]
          rw [show (r + ((72 * k : ℕ) : ℤ)).toNat % 72 = r.toNat % 72 by omega]
      · rw [if_neg (by omega), if_neg (by simpa using h0)]
    rw [e]; exact e5

/-- Non-vacuity: two calls, of "abc" with capacity 2 and of a 56-byte message, one after the other; the second starts at offset 144 and its
second block shows the digest. -/
example (blind : ℤ → Row (ZMod p)) : ∃ calls, chainCalls 0 [([[0x61, 0x62, 0x63]], some 2), ([List.replicate 56 0x61], none)] = some calls ∧
    segsOf calls = chainSegs 0 [2, 2] ∧ SegSat (chainSegs 0 [2, 2]) (advCalls calls blind) ∧
    (blockFrom (advCalls calls blind) 144 1).isFinal = 1 ∧ (blockFrom (advCalls calls blind) 144 1).length = 56 := by
  obtain ⟨r1, h1⟩ := Option.ne_none_iff_exists'.mp (show genMulti [[0x61, 0x62, 0x63]] (some 2) ≠ none by rw [Ne, C55_sha256_capacity]; decide)
  have h2 : genMulti [List.replicate 56 0x61] none = some ([List.replicate 56 0x61].flatMap genSha256) := rfl
  obtain ⟨k, _, hl1⟩ := genMulti_len h1
  obtain ⟨n, k', e1, e2, -, e4, -, -⟩ := C55_sha256_complete (p := p) (by intro m hm; fin_cases hm; simp) h1 blind
  obtain rfl := e4 2 rfl
  have hl2 : ([List.replicate 56 (0x61 : Byte)].flatMap genSha256).length = 144 := by
    rw [rows_len, blks_length]; rfl
  generalize hr2 : [List.replicate 56 (0x61 : Byte)].flatMap genSha256 = r2 at *
  have hc : chainCalls 0 [([[0x61, 0x62, 0x63]], some 2), ([List.replicate 56 0x61], none)] = some [(0, r1), (144, r2)] := by
    simp only [chainCalls, shaCall, h1, h2, e1, Option.map_some, Option.bind_eq_bind, Option.bind_some, Option.pure_def]
  obtain ⟨s1, s2⟩ := C92_chain_complete (p := p) (by
    intro x hx m hm
    fin_cases hx <;> (fin_cases hm; simp)) hc blind
  have hsg : segsOf [(0, r1), (144, r2)] = chainSegs 0 [2, 2] := by simp [segsOf, chainSegs, e1, hl2]
  refine ⟨_, hc, hsg, hsg ▸ s1, ?_⟩
  obtain ⟨c, hc1, hc2⟩ := s2 1 _ _ rfl
  simp only [List.getElem?_cons_succ, List.getElem?_cons_zero, Option.some.injEq] at hc1
  subst hc1
  have := hc2 0 _ rfl
  simp only [List.take_zero] at this
  rw [show totalBlocks [] + numSha2Blocks (List.replicate 56 (0x61 : Byte)).length - 1 = 1 by simp [totalBlocks, numSha2Blocks]] at this
  refine ⟨this.2.1, ?_⟩
  rw [this.2.2.1]; simp

end H2.Sha
