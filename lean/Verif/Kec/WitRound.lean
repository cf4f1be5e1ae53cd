import Verif.Kec.WitCheck

/-!
# The values of one round of the witness: bounds on digits
-/

set_option autoImplicit false
set_option linter.unusedSectionVars false
namespace H2.Kec

/-! ### Rotations of lists of parts -/

theorem rotR_map {α β : Type} (f : α → β) (l : List α) (c : ℕ) : rotR (l.map f) c = (rotR l c).map f := by
  unfold rotR; rw [List.map_append, List.map_drop, List.map_take, List.length_map]
theorem rotL_map {α β : Type} (f : α → β) (l : List α) (c : ℕ) : rotL (l.map f) c = (rotL l c).map f := by
  unfold rotL; rw [List.map_append, List.map_drop, List.map_take]

theorem rotL_rotR {α : Type} (l : List α) {c : ℕ} (hc : c ≤ l.length) : rotL (rotR l c) c = l := by
  unfold rotL rotR
  have h1 : (l.drop (l.length - c)).length = c := by rw [List.length_drop]; omega
  rw [List.drop_left' h1, List.take_left' h1, List.take_append_drop]

theorem rotR_flatten_length (l : List (List ℕ)) (c : ℕ) : (rotR l c).flatten.length = l.flatten.length := by
  unfold rotR
  conv_rhs => rw [← List.take_append_drop (l.length - c) l]
  rw [List.flatten_append, List.flatten_append, List.length_append, List.length_append, Nat.add_comm]

theorem rotR_mem {α : Type} {l : List α} {c : ℕ} {x : α} (h : x ∈ rotR l c) : x ∈ l := by
  unfold rotR at h
  rcases List.mem_append.mp h with h | h
  · exact List.mem_of_mem_drop h
  · exact List.mem_of_mem_take h

theorem rotParts_enc (parts : List (List ℕ)) (d : ℕ → ℕ) (c ps : ℕ) : rotParts (enc parts d) c ps = enc (rotParts parts c ps) d := rotR_map _ _ _

/-! ### What `Wit` says -/

structure WitL (k h : ℕ) : Prop where
  hh : 1 ≤ h
  p3 : PartsOk (ps3 k) (wordParts (ps3 k) 0 false)
  p6 : PartsOk (ps6 k) (wordParts (ps6 k) 1 false)
  p8 : PartsOk 8 (wordParts 8 0 false)
  l3 : ps3 k ≤ 64
  l6 : ps6 k ≤ 64
  l5 : ps5 k ≤ 64
  o5 : 1 ≤ ps5 k
  n4 : ps5 k ≤ numBits 4 k
  tl : ∀ s ∈ targetPartSizes (ps5 k), s ≤ ps5 k
  t64 : 64 ≤ ps5 k * nParts k
  top : ∀ j, j < ps5 k * nParts k - 64 → (targetPartSizes (ps5 k)).getD ((64 + j) / ps5 k) 0 ≤ (64 + j) % ps5 k
  ls : (layout k h).s.length = 25
  laf : (layout k h).absorbFat.length = (wordParts (ps3 k) 0 false).length
  lar : (layout k h).absorbRes.length = (wordParts (ps3 k) 0 false).length
  lp : (layout k h).packed.length = 8
  l8 : (wordParts 8 0 false).length = 8
  lib : (layout k h).inputBytes.length = 8
  lpad : (layout k h).paddings.length = 8
  lc : ∀ i, i < 5 → ((layout k h).cParts.getD i []).length = (wordParts (ps6 k) 1 false).length ∧
    ((layout k h).bc.getD i []).length = (wordParts (ps6 k) 1 false).length
  lif : (layout k h).iotaFat.length = (wordParts (ps3 k) 0 false).length
  lir : (layout k h).iotaRes.length = (wordParts (ps3 k) 0 false).length
  lsp : (layout k h).squeezePacked.length = 8
  lsb : (layout k h).squeezeBytes.length = 8
  rho : ∀ x, x < 25 → PartsOk (ps5 k) (wordParts (ps5 k) (rhoAt (x % 5) (x / 5)) true) ∧
    rotateCount (rhoAt (x % 5) (x / 5)) (ps5 k) ≤ (wordParts (ps5 k) (rhoAt (x % 5) (x / 5)) true).length ∧
    uniOk ((layout k h).uparts.getD x []) (rotParts (wordParts (ps5 k) (rhoAt (x % 5) (x / 5)) true) (rhoAt (x % 5) (x / 5)) (ps5 k)) = true ∧
    ((layout k h).uparts.getD x []).map UPart.size = targetPartSizes (ps5 k)
  mask : maskOk h (allCells k (layout k h)) 0 = true
  looks : ∀ l ∈ (layout k h).looks, ∀ o, o < h → lookCheck k h (layout k h) (maskOf h (allCells k (layout k h)) 0) o l = true

theorem WitL.of {k h : ℕ} (hw : Wit k h) : WitL k h := by
  obtain ⟨h1, h2, h3, h4, h5, h6⟩ := hw
  simp only [witSizes, Bool.and_eq_true, decide_eq_true_eq, List.all_eq_true, List.mem_range] at h2
  obtain ⟨⟨⟨⟨⟨⟨⟨⟨⟨⟨a1, a2⟩, a3⟩, a4⟩, a5⟩, a6⟩, a7⟩, a8⟩, a9⟩, a10⟩, a11⟩ := h2
  simp only [witLens, Bool.and_eq_true, beq_iff_eq, List.all_eq_true, List.mem_range] at h3
  obtain ⟨⟨⟨⟨⟨⟨⟨⟨⟨⟨⟨b1, b2⟩, b3⟩, b4⟩, b5⟩, b6⟩, b7⟩, b8⟩, b9⟩, b10⟩, b11⟩, b12⟩ := h3
  refine ⟨h1, a1, a2, a3, a4, a5, a6, a7, a8, a9, a10, a11, b1, b2, b3, b4, b5, b6, b7, b8, b9, b10, b11, b12, fun x hx => ?_, h5, ?_⟩
  · have := List.all_eq_true.mp h4 x (List.mem_range.mpr hx)
    simp only [rhoOk, Bool.and_eq_true, decide_eq_true_eq, beq_iff_eq] at this
    exact ⟨this.1.1.1, this.1.1.2, this.1.2, this.2⟩
  · intro l hl o ho
    have := List.all_eq_true.mp h6 l hl
    exact List.all_eq_true.mp this o (List.mem_range.mpr ho)

theorem cellNo_inj {h : ℕ} {c d : Cell} (hc : c.2 < h) (hd : d.2 < h) (e : cellNo h c = cellNo h d) : c = d := by
  unfold cellNo at e
  have h2 : c.2 = d.2 := by
    have := congrArg (· % h) e
    simp only [Nat.mul_add_mod_self_right] at this
    rwa [Nat.mod_eq_of_lt hc, Nat.mod_eq_of_lt hd] at this
  rw [h2] at e
  have : c.1 * h = d.1 * h := by omega
  exact Prod.ext (Nat.eq_of_mul_eq_mul_right (by omega) this) h2

theorem testBit_or_shift (m i j : ℕ) : (m ||| 1 <<< i).testBit j = (m.testBit j || decide (i = j)) := by
  rw [Nat.testBit_or, Nat.one_shiftLeft, Nat.testBit_two_pow]

theorem maskOk_spec {h : ℕ} (l : List Cell) (m : ℕ) (hm : maskOk h l m = true) :
    l.Nodup ∧ ∀ c ∈ l, c.2 < h ∧ m.testBit (cellNo h c) = false := by
  induction l generalizing m with
  | nil => simp
  | cons c l ih =>
    simp only [maskOk, Bool.and_eq_true, decide_eq_true_eq, Bool.not_eq_true'] at hm
    obtain ⟨⟨h1, h2⟩, h3⟩ := hm
    obtain ⟨i1, i2⟩ := ih _ h3
    refine ⟨List.nodup_cons.mpr ⟨fun hc => ?_, i1⟩, fun d hd => ?_⟩
    · have := (i2 c hc).2
      rw [testBit_or_shift] at this
      simp at this
    · rcases List.mem_cons.mp hd with rfl | hd
      · exact ⟨h1, h2⟩
      · have := (i2 d hd)
        rw [testBit_or_shift, Bool.or_eq_false_iff] at this
        exact ⟨this.1, this.2.1⟩

theorem maskOf_mono {h : ℕ} (l : List Cell) (m j : ℕ) (hj : m.testBit j = true) : (maskOf h l m).testBit j = true := by
  induction l generalizing m with
  | nil => exact hj
  | cons c l ih => exact ih _ (by rw [testBit_or_shift, hj]; rfl)

theorem maskOf_mem {h : ℕ} (l : List Cell) (m : ℕ) {c : Cell} (hc : c ∈ l) : (maskOf h l m).testBit (cellNo h c) = true := by
  induction l generalizing m with
  | nil => simp at hc
  | cons d l ih =>
    rcases List.mem_cons.mp hc with rfl | hc
    · exact maskOf_mono l _ _ (by rw [testBit_or_shift]; simp)
    · exact ih _ hc

/-! ### The state -/

/-- A state: 25 words of bits. -/
structure SOk (s : List ℕ) : Prop where
  len : s.length = 25
  dw : ∀ i j, DW 1 (sget s i j)

theorem sget_map {f : ℕ → ℕ} {i j : ℕ} (hi : i < 5) (hj : j < 5) : sget ((List.range 25).map f) i j = f (5 * i + j) := by
  unfold sget
  have : 5 * i + j < 25 := by omega
  simp [List.getD_eq_getElem?_getD, this]

theorem SOk_map {f : ℕ → ℕ} (h : ∀ q, q < 25 → DW 1 (f q)) : SOk ((List.range 25).map f) := by
  refine ⟨by simp, fun i j => ?_⟩
  unfold sget
  by_cases hq : 5 * i + j < 25
  · rw [show ((List.range 25).map f).getD (5 * i + j) 0 = f (5 * i + j) by simp [List.getD_eq_getElem?_getD, hq]]
    exact h _ hq
  · rw [getD_ge (by simp; omega)]; exact DW_zero 1

section
variable {k h : ℕ} (hw : WitL k h)
include hw

theorem colSum_DW {s : List ℕ} (hs : SOk s) (i : ℕ) : DW 5 (sget s i 0 + sget s i 1 + sget s i 2 + sget s i 3 + sget s i 4) :=
  ((((((hs.dw i 0).add (hs.dw i 1) (by omega)).1.add (hs.dw i 2) (by omega)).1.add (hs.dw i 3) (by omega)).1.add (hs.dw i 4) (by omega)).1)

theorem bcV_eq {s : List ℕ} (hs : SOk s) (i : ℕ) : bcV k s i = enc (wordParts (ps6 k) 1 false)
    (fun j => dig (sget s i 0 + sget s i 1 + sget s i 2 + sget s i 3 + sget s i 4) j % 2) :=
  split_par (colSum_DW hw hs i).lt hw.l6 hw.p6

theorem tV_DW {s : List ℕ} (hs : SOk s) (i : ℕ) : DW 2 (tV k s i) := by
  have hle : ∀ i' j, dig (sget s i' 0 + sget s i' 1 + sget s i' 2 + sget s i' 3 + sget s i' 4) j % 2 ≤ 1 := fun i' j => by omega
  have hlt : ∀ i' j, dig (sget s i' 0 + sget s i' 1 + sget s i' 2 + sget s i' 3 + sget s i' 4) j % 2 < 8 := fun i' j => by omega
  unfold tV
  rw [bcV_eq hw hs, bcV_eq hw hs, rotParts_enc, decN_enc, decN_enc, hw.p6.flat]
  refine (DW.add (A := 1) (B := 1) ⟨?_, dig_pack_le (by omega) (hle _)⟩ ⟨?_, dig_pack_le (by omega) (hle _)⟩ (by omega)).1
  · have := pack_map_lt (l := List.range 64) (hlt ((i + 4) % 5))
    rwa [List.length_range] at this
  · have := pack_map_lt (l := (rotParts (wordParts (ps6 k) 1 false) 1 (ps6 k)).flatten) (hlt ((i + 1) % 5))
    unfold rotParts at this ⊢
    rw [rotR_flatten_length, hw.p6.flat, List.length_range] at this
    exact this

theorem thV_DW {s : List ℕ} (hs : SOk s) {i j : ℕ} (hi : i < 5) (hj : j < 5) :
    sget (thV k s) i j = sget s i j + tV k s i ∧ DW 3 (sget (thV k s) i j) := by
  have e : sget (thV k s) i j = sget s i j + tV k s i := by
    unfold thV
    rw [sget_map hi hj, show (5 * i + j) / 5 = i by omega, show (5 * i + j) % 5 = j by omega]
  exact ⟨e, e ▸ ((hs.dw i j).add (tV_DW hw hs i) (by omega)).1⟩

end

/-! ### `split_uniform` -/

theorem uniV_spec {X B : ℕ} (hX : DW B X) (hB : B < 8) (us : List UPart) (qs : List (List ℕ)) (h : uniOk us qs = true) :
    (uniV (unpackN X) us qs).2.map (·.1) = us.map UPart.size ∧ (∀ e ∈ (uniV (unpackN X) us qs).2, DP B e) ∧
    (uniV (unpackN X) us qs).1.map (·.1) = us.flatMap UPart.cells ∧
    ∀ W : Cell → ℕ, (∀ e ∈ (uniV (unpackN X) us qs).1, W e.1 = e.2) →
      us.map (fun u => W u.out) = (uniV (unpackN X) us qs).2.map (·.2) ∧
      (us.flatMap UPart.inputs).map (fun q => (q.1, W q.2)) = enc qs (dig X) ∧
      (∀ u ∈ us, ∀ na a nb b c, u = .two na a nb b c → W a + W b * 8 ^ na = W c) ∧
      ∀ c ∈ us.flatMap UPart.halves, ∃ q ∈ qs, W c = packL (q.map (dig X)) := by
  fun_induction uniOk us qs with
  | case1 => simp [uniV, enc]
  | case2 n c us q qs ih =>
    rw [Bool.and_eq_true, beq_iff_eq] at h
    obtain ⟨i1, i2, i3, i4⟩ := ih h.2
    simp only [uniV]
    have hp : ∀ q : List ℕ, packPart (unpackN X) q = packL (q.map (dig X)) := packPart_eq hX.lt
    have hdp : DP B (q.length, packPart (unpackN X) q) := by
      have := DP_packL hB (l := q.map (dig X)) (by intro d hd; obtain ⟨i, _, rfl⟩ := List.mem_map.mp hd; exact hX.le i)
      rw [List.length_map] at this
      rw [hp]; exact this
    refine ⟨?_, ?_, ?_, ?_⟩
    · rw [List.map_cons, List.map_cons, i1, UPart.size, h.1]
    · intro e he
      rcases List.mem_cons.mp he with rfl | he
      · exact hdp
      · exact i2 e he
    · rw [List.map_cons, i3]; rfl
    · intro W hW
      obtain ⟨j1, j2, j3, j4⟩ := i4 W fun e he => hW e (List.mem_cons_of_mem _ he)
      have hc : W c = packPart (unpackN X) q := hW (c, packPart (unpackN X) q) (by simp)
      refine ⟨?_, ?_, ?_, ?_⟩
      · rw [List.map_cons, List.map_cons, j1, UPart.out, hc]
      · rw [List.flatMap_cons, List.map_append, j2, UPart.inputs, List.map_cons, List.map_nil, hc, hp, h.1]
        rfl
      · intro u hu na a nb b c' e
        rcases List.mem_cons.mp hu with rfl | hu
        · exact absurd e (by simp)
        · exact j3 u hu na a nb b c' e
      · intro c' hc'
        rw [List.flatMap_cons] at hc'
        rcases List.mem_append.mp hc' with hc' | hc'
        · simp [UPart.halves] at hc'
        · obtain ⟨q', hq', e⟩ := j4 c' hc'
          exact ⟨q', List.mem_cons_of_mem _ hq', e⟩
  | case3 na a nb b c us qa qb qs ih =>
    rw [Bool.and_eq_true, Bool.and_eq_true, beq_iff_eq, beq_iff_eq] at h
    obtain ⟨i1, i2, i3, i4⟩ := ih h.2
    simp only [uniV]
    have hp : ∀ q : List ℕ, packPart (unpackN X) q = packL (q.map (dig X)) := packPart_eq hX.lt
    have hv : packPart (unpackN X) qa + packPart (unpackN X) qb * 8 ^ qa.length = packL ((qa ++ qb).map (dig X)) := by
      rw [List.map_append, packL_append, hp, hp, List.length_map]
    have hdp : DP B (qa.length + qb.length, packPart (unpackN X) qa + packPart (unpackN X) qb * 8 ^ qa.length) := by
      have := DP_packL hB (l := (qa ++ qb).map (dig X)) (by intro d hd; obtain ⟨i, _, rfl⟩ := List.mem_map.mp hd; exact hX.le i)
      rw [List.length_map, List.length_append] at this
      rw [hv]; exact this
    refine ⟨?_, ?_, ?_, ?_⟩
    · rw [List.map_cons, List.map_cons, i1, UPart.size, h.1.1, h.1.2]
    · intro e he
      rcases List.mem_cons.mp he with rfl | he
      · exact hdp
      · exact i2 e he
    · rw [List.map_cons, List.map_cons, List.map_cons, i3]; rfl
    · intro W hW
      obtain ⟨j1, j2, j3, j4⟩ := i4 W fun e he => hW e (List.mem_cons_of_mem _ (List.mem_cons_of_mem _ (List.mem_cons_of_mem _ he)))
      have ha : W a = packPart (unpackN X) qa := hW (a, packPart (unpackN X) qa) (by simp)
      have hb : W b = packPart (unpackN X) qb := hW (b, packPart (unpackN X) qb) (by simp)
      have hc : W c = packPart (unpackN X) qa + packPart (unpackN X) qb * 8 ^ qa.length := hW (c, _) (by simp)
      refine ⟨?_, ?_, ?_, ?_⟩
      · rw [List.map_cons, List.map_cons, j1, UPart.out, hc]
      · rw [List.flatMap_cons, List.map_append, j2, UPart.inputs, List.map_cons, List.map_cons, List.map_nil, ha, hb, hp, hp, h.1.1, h.1.2]
        rfl
      · intro u hu na' a' nb' b' c' e
        rcases List.mem_cons.mp hu with rfl | hu
        · cases e
          rw [ha, hb, hc, h.1.1]
        · exact j3 u hu na' a' nb' b' c' e
      · intro c' hc'
        rw [List.flatMap_cons] at hc'
        rcases List.mem_append.mp hc' with hc' | hc'
        · simp only [UPart.halves, List.mem_cons, List.not_mem_nil, or_false] at hc'
          rcases hc' with rfl | rfl
          · exact ⟨qa, by simp, by rw [ha, hp]⟩
          · exact ⟨qb, by simp, by rw [hb, hp]⟩
        · obtain ⟨q', hq', e⟩ := j4 c' hc'
          exact ⟨q', List.mem_cons_of_mem _ (List.mem_cons_of_mem _ hq'), e⟩
  | case4 => simp at h

section
variable {k h : ℕ} (hw : WitL k h)
include hw

theorem uV_spec {s : List ℕ} (hs : SOk s) {x : ℕ} (hx : x < 25) :
    (uV k (layout k h) (thV k s) x).2.map (·.1) = targetPartSizes (ps5 k) ∧ (∀ e ∈ (uV k (layout k h) (thV k s) x).2, DP 3 e) := by
  obtain ⟨_, _, h3, h4⟩ := hw.rho x hx
  have hdw := (thV_DW hw hs (i := x % 5) (j := x / 5) (by omega) (by omega)).2
  obtain ⟨i1, i2, _⟩ := uniV_spec hdw (by norm_num) _ _ h3
  exact ⟨i1.trans h4, i2⟩

theorem rpV_spec {s : List ℕ} (hs : SOk s) {x : ℕ} (hx : x < 25) :
    (rpV k (layout k h) (thV k s) x).map (·.1) = targetPartSizes (ps5 k) ∧ (∀ e ∈ rpV k (layout k h) (thV k s) x, DP 1 e ∧ e.1 ≤ ps5 k) := by
  obtain ⟨h1, h2⟩ := uV_spec hw hs hx
  have hle : ∀ e ∈ (uV k (layout k h) (thV k s) x).2, e.1 ≤ ps5 k := fun e he => by
    have hm : e.1 ∈ (uV k (layout k h) (thV k s) x).2.map (·.1) := List.mem_map.mpr ⟨e, he, rfl⟩
    rw [h1] at hm
    exact hw.tl _ hm
  unfold rpV
  refine ⟨?_, fun e he => ?_⟩
  · simp only [List.map_map, Function.comp_def, trV_fst]; exact h1
  · obtain ⟨e', he', rfl⟩ := List.mem_map.mp he
    rw [trV_fst]
    exact ⟨trV_DP (h2 e' he') (le_trans (hle e' he') hw.l5), hle e' he'⟩

/-- A part of `os_parts`. -/
theorem osV_spec {s : List ℕ} (hs : SOk s) {i j : ℕ} (hi : i < 5) (idx : ℕ) :
    ((osV k (layout k h) (thV k s) i j).getD idx (0, 0)).2 < 8 ^ (targetPartSizes (ps5 k)).getD idx 0 ∧
    ((osV k (layout k h) (thV k s) i j).getD idx (0, 0)).2 < 8 ^ ps5 k ∧
    ∀ q, dig ((osV k (layout k h) (thV k s) i j).getD idx (0, 0)).2 q ≤ 1 := by
  have hx : 5 * i + (3 * j + i) % 5 < 25 := by omega
  obtain ⟨h1, h2⟩ := rpV_spec hw hs hx
  unfold osV
  set l := rpV k (layout k h) (thV k s) (5 * i + (3 * j + i) % 5) with hl
  by_cases hlen : idx < l.length
  · have he : l.getD idx (0, 0) = l[idx] := by simp [hlen]
    have hm := h2 _ (List.getElem_mem hlen)
    rw [he]
    have hf : (targetPartSizes (ps5 k)).getD idx 0 = (l[idx]).1 := by
      rw [← h1]; simp [List.getD_eq_getElem?_getD, hlen]
    rw [hf]
    exact ⟨hm.1.lt, lt_of_lt_of_le hm.1.lt (Nat.pow_le_pow_right (by norm_num) hm.2), hm.1.le⟩
  · rw [getD_ge (by omega)]
    exact ⟨by positivity, by positivity, fun q => by rw [dig_zero_left]; omega⟩

end

/-! ### Chi -/

theorem chi_nat {n a b c : ℕ} (ha : a < 8 ^ n) (hb : b < 8 ^ n) (hc : c < 8 ^ n) (da : ∀ j, dig a j ≤ 1) (db : ∀ j, dig b j ≤ 1) (dc : ∀ j, dig c j ≤ 1) :
    packL (List.replicate n 3) + b - (2 * a + c) + (2 * a + c) = packL (List.replicate n 3) + b ∧
    packL (List.replicate n 3) + b - (2 * a + c) < 8 ^ n ∧
    ∀ j, j < n → dig (packL (List.replicate n 3) + b - (2 * a + c)) j + (2 * dig a j + dig c j) = 3 + dig b j := by
  have d3 : ∀ j, dig (packL (List.replicate n 3)) j = if j < n then 3 else 0 := by
    intro j
    rw [dig_packL _ (by intro d hd; rw [(List.mem_replicate.mp hd).2]; norm_num)]
    split
    · rename_i h; simp [List.getD_eq_getElem?_getD, h]
    · rename_i h; exact getD_ge (by simp; omega)
  set f : ℕ → ℕ := fun j => 3 + dig b j - (2 * dig a j + dig c j) with hf
  have hf8 : ∀ j, f j < 8 := fun j => by have := db j; simp only [hf]; omega
  have dw : ∀ j, dig (packL ((List.range n).map f)) j = if j < n then f j else 0 := by
    intro j
    rw [dig_packL _ (by intro x hx; obtain ⟨i, _, rfl⟩ := List.mem_map.mp hx; exact hf8 i)]
    split
    · rename_i h; simp [List.getD_eq_getElem?_getD, h]
    · rename_i h; exact getD_ge (by simp; omega)
  have d2a : ∀ j, dig (2 * a) j = 2 * dig a j := fun j => dig_mul (fun j => by have := da j; omega) j
  have d2ac : ∀ j, dig (2 * a + c) j = 2 * dig a j + dig c j := fun j => by
    rw [dig_add (fun j => by rw [d2a]; have := da j; have := dc j; omega), d2a]
  have hsum : packL ((List.range n).map f) + (2 * a + c) = packL (List.replicate n 3) + b := by
    refine eq_of_dig fun j => ?_
    have e1 : ∀ j, n ≤ j → dig a j = 0 ∧ dig b j = 0 ∧ dig c j = 0 := fun j hj => ⟨dig_of_lt ha hj, dig_of_lt hb hj, dig_of_lt hc hj⟩
    have s1 : dig (packL ((List.range n).map f) + (2 * a + c)) j = dig (packL ((List.range n).map f)) j + dig (2 * a + c) j := dig_add (fun j => by
      rw [dw, d2ac]
      split
      · have := da j; have := db j; have := dc j; simp only [hf]; omega
      · have := da j; have := dc j; omega) j
    have s2 : dig (packL (List.replicate n 3) + b) j = dig (packL (List.replicate n 3)) j + dig b j := dig_add (fun j => by
      rw [d3]; have := db j; split <;> omega) j
    rw [s1, s2, dw, d2ac, d3]
    split
    · have := da j; have := db j; have := dc j; simp only [hf]; omega
    · obtain ⟨x, y, z⟩ := e1 j (by omega); omega
  have hw : packL (List.replicate n 3) + b - (2 * a + c) = packL ((List.range n).map f) := by omega
  rw [hw]
  refine ⟨hsum, ?_, fun j hj => ?_⟩
  · have := pack_map_lt (l := List.range n) hf8
    rwa [List.length_range] at this
  · rw [dw, if_pos hj]
    have := da j; have := db j; have := dc j; simp only [hf]; omega

theorem chi_le (d : ℕ) : CHI_BASE.getD d 0 ≤ 1 := by
  by_cases h : d < 5
  · rcases (by omega : d = 0 ∨ d = 1 ∨ d = 2 ∨ d = 3 ∨ d = 4) with rfl | rfl | rfl | rfl | rfl <;> decide
  · rw [getD_ge (by simp [CHI_BASE]; omega)]; omega

theorem chi_pair {k : ℕ} (h64 : ps5 k ≤ 64) {v : ℕ} (hv : v < 8 ^ ps5 k) (hd : ∀ j, j < ps5 k → dig v j < 5) :
    (v, (trV (fun d => CHI_BASE.getD d 0) (ps5 k, v)).2) ∈ chiTable k := by
  have hf : ∀ d, d < 8 → CHI_BASE.getD d 0 < 8 := fun d _ => by have := chi_le d; omega
  refine tblRows_mem (by simp [CHI_BASE]) (fun d hd => by have := chi_le d; omega) hv (trV_lt (e := (ps5 k, v)) hf h64) fun j hj =>
    ⟨by simpa [CHI_BASE] using hd j hj, ?_⟩
  rw [dig_trV hf (e := (ps5 k, v)) h64, if_pos hj]

theorem chi_zero (k : ℕ) : (packL (List.replicate (ps5 k) 3), 0) ∈ chiTable k := by
  refine tblRows_mem (by simp [CHI_BASE]) (fun d hd => by have := chi_le d; omega) ?_ (by positivity) fun j hj => ?_
  · have := packL_lt (l := List.replicate (ps5 k) 3) (by intro d hd; rw [(List.mem_replicate.mp hd).2]; norm_num)
    rwa [List.length_replicate] at this
  · rw [dig_packL _ (by intro d hd; rw [(List.mem_replicate.mp hd).2]; norm_num), dig_zero_left]
    rw [show (List.replicate (ps5 k) 3).getD j 0 = 3 by simp [List.getD_eq_getElem?_getD, hj]]
    exact ⟨by simp [CHI_BASE], rfl⟩

section
variable {k h : ℕ} (hw : WitL k h)
include hw

theorem chiV_DW {s : List ℕ} (hs : SOk s) {i j : ℕ} (hi : i < 5) : DW 1 (decN (chiV k (layout k h) (thV k s) i j)) := by
  have hf : ∀ d, d < 8 → CHI_BASE.getD d 0 < 8 := fun d _ => by have := chi_le d; omega
  have hlen : (chiV k (layout k h) (thV k s) i j).length = nParts k := by simp [chiV, chiIn, nParts]
  have hdec := dig_decN (ps := ps5 k) hw.o5 (parts := chiV k (layout k h) (thV k s) i j) (by
      intro q hq
      obtain ⟨e, he, rfl⟩ := List.mem_map.mp (List.mem_of_mem_dropLast hq)
      obtain ⟨idx, _, rfl⟩ := List.mem_map.mp he
      rfl) (by
      intro q hq
      obtain ⟨e, he, rfl⟩ := List.mem_map.mp hq
      obtain ⟨idx, _, rfl⟩ := List.mem_map.mp he
      exact trV_lt hf hw.l5)
  have hget : ∀ idx, idx < nParts k → (chiV k (layout k h) (thV k s) i j).getD idx (0, 0) = trV (fun d => CHI_BASE.getD d 0)
      (ps5 k, packL (List.replicate (ps5 k) 3) + ((osV k (layout k h) (thV k s) ((i + 1) % 5) j).getD idx (0, 0)).2
      - (2 * ((osV k (layout k h) (thV k s) i j).getD idx (0, 0)).2 + ((osV k (layout k h) (thV k s) ((i + 2) % 5) j).getD idx (0, 0)).2)) := by
    intro idx hidx
    unfold nParts at hidx
    simp [chiV, chiIn, List.getD_eq_getElem?_getD, hidx]
  refine ⟨lt_of_dig fun q hq => ?_, fun q => ?_⟩
  · rw [hdec]
    by_cases hidx : q / ps5 k < nParts k
    · rw [hget _ hidx, dig_trV hf hw.l5, if_pos (Nat.mod_lt _ hw.o5)]
      have hq2 : q < ps5 k * nParts k := by
        rw [Nat.div_lt_iff_lt_mul hw.o5] at hidx
        rwa [Nat.mul_comm] at hidx
      have htop := hw.top (q - 64) (by omega)
      rw [show 64 + (q - 64) = q by omega] at htop
      obtain ⟨a1, a2, a3⟩ := osV_spec hw hs (i := i) (j := j) hi (q / ps5 k)
      obtain ⟨b1, b2, b3⟩ := osV_spec hw hs (i := (i + 1) % 5) (j := j) (by omega) (q / ps5 k)
      obtain ⟨c1, c2, c3⟩ := osV_spec hw hs (i := (i + 2) % 5) (j := j) (by omega) (q / ps5 k)
      have := (chi_nat a2 b2 c2 a3 b3 c3).2.2 (q % ps5 k) (Nat.mod_lt _ hw.o5)
      rw [dig_of_lt a1 htop, dig_of_lt b1 htop, dig_of_lt c1 htop] at this
      rw [show ∀ x, x + (2 * 0 + 0) = 3 + 0 → CHI_BASE.getD x 0 = 0 from fun x hx => by
        have : x = 3 := by omega
        subst this; rfl]
      exact this
    · rw [getD_ge (by omega), dig_zero_left]
  · rw [hdec]
    by_cases hidx : q / ps5 k < nParts k
    · rw [hget _ hidx, dig_trV hf hw.l5, if_pos (Nat.mod_lt _ hw.o5)]
      exact chi_le _
    · rw [getD_ge (by omega), dig_zero_left]; omega

theorem packU64_DW (v : ℕ) : DW 1 (packU64 v) := by
  unfold packU64
  refine ⟨?_, dig_pack_le (by omega) fun i => by omega⟩
  have := pack_map_lt (l := List.range 64) (d := fun i => v / 2 ^ i % 2) (fun i => by omega)
  rwa [List.length_range] at this

theorem iota_DW {s : List ℕ} (hs : SOk s) (t : ℕ) :
    DW 2 (decN (chiV k (layout k h) (thV k s) 0 0) + packU64 (ROUND_CST.getD t 0)) ∧ DW 1 (decN (iotaV k (layout k h) t (thV k s))) := by
  have h1 := ((chiV_DW hw hs (i := 0) (j := 0) (by omega)).add (packU64_DW hw (ROUND_CST.getD t 0)) (by omega)).1
  refine ⟨h1, ?_⟩
  unfold iotaV iotaIn
  have key := decN_split_par h1.lt hw.l3 hw.p3
  exact ⟨lt_of_dig fun j hj => by rw [key, dig_of_lt h1.lt hj], fun j => by rw [key]; omega⟩

theorem nextV_SOk {s : List ℕ} (hs : SOk s) (t : ℕ) : SOk (nextV k (layout k h) t s) := by
  unfold nextV
  refine SOk_map fun q hq => ?_
  split
  · exact (iota_DW hw hs t).2
  · exact chiV_DW hw hs (by omega)

theorem roundsV_SOk {s : List ℕ} (hs : SOk s) (t : ℕ) : SOk (roundsV k (layout k h) s t) := by
  induction t with
  | zero => exact hs
  | succ t ih => exact nextV_SOk hw ih t

end

end H2.Kec
