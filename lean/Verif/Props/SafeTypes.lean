import Verif.SafeTypes.Complete
import Verif.SafeTypes.Rel
import Verif.Props.Modes

/-!
# Properties C35 - C38 (safe types)

Reading guide: see `Verif/Props/Gate.lean`.  `at' w a` is the value the assignment `w` gives to the cell of `a`;
`Sat (RangeTable p L) s w` says `w` satisfies every constraint recorded in `s`; `Con ext s a x` says the honest value
of `a` is `x`.
-/

set_option autoImplicit false
namespace H2
variable {p : ℕ} [Fact p.Prime] {tbl : ZMod p → Prop} {ext : Cell → ZMod p} {s s' : Ctx p} {w : Cell → ZMod p}
  {L : ℕ}

theorem val_of_lt {m b : ℕ} {x : ZMod p} (h : m < b) (hx : x = (m : ZMod p)) : x.val < b := by
  rw [hx, ZMod.val_natCast]
  exact lt_of_le_of_lt (Nat.mod_le _ _) h

/-! ## C35 -/

/-- C35: a `SafeBool` is 0 or 1. -/
theorem C35_assert_bool {a r : AV p} (hi : Inv s) (hrun : assertBool a s = some (r, s')) (hw : Sat tbl s' w) :
    r = a ∧ (at' w r = 0 ∨ at' w r = 1) := (assertBool_sound a).run hi hrun hw

theorem C35_load_bool {b : Bool} {r : AV p} (hi : Inv s) (hrun : loadBool b s = some (r, s')) (hw : Sat tbl s' w) :
    at' w r = 0 ∨ at' w r = 1 := (loadBool_sound b).run hi hrun hw

/-- C35: a `SafeByte` is below 256. -/
theorem C35_assert_byte {a r : AV p} (hi : Inv s) (hL : RangeOk p L) (hrun : assertByte L a s = some (r, s'))
    (hw : Sat (RangeTable p L) s' w) : r = a ∧ (at' w r).val < 256 := by
  obtain ⟨h1, m, h2, h3⟩ := (assertByte_sound a hL).run hi hrun hw
  exact ⟨h1, val_of_lt h2 h3⟩

theorem C35_load_byte {b : ℕ} {r : AV p} (hi : Inv s) (hL : RangeOk p L) (hrun : loadByte L b s = some (r, s'))
    (hw : Sat (RangeTable p L) s' w) : (at' w r).val < 256 := by
  obtain ⟨m, h2, h3⟩ := (loadByte_sound b hL).run hi hrun hw
  exact val_of_lt h2 h3

/-- C35: `raw_to_var_len_bytes(_vec)` returns its inputs, all bytes, and `len ≤ MAX_LEN`. -/
theorem C35_var_len_bytes {inputs : List (AV p)} {len : AV p} {n : ℕ} {r : VarLenBytes p} (hi : Inv s)
    (hL : RangeOk p L) (hn : LtSafeOk p L (n + 1)) (hrun : rawToVarLenBytes L inputs len n s = some (r, s'))
    (hw : Sat (RangeTable p L) s' w) :
    r.bytes = inputs ∧ r.len = len ∧ r.bytes.length = n ∧ (at' w r.len).val ≤ n ∧
      ∀ a ∈ r.bytes, (at' w a).val < 256 := by
  obtain ⟨rfl, h1, h2, h3⟩ := (rawToVarLenBytes_sound inputs len n hL hn).run hi hrun hw
  refine ⟨rfl, rfl, h1, h2, fun a ha => ?_⟩
  obtain ⟨m, h4, h5⟩ := h3 a ha
  exact val_of_lt h4 h5

/-- C35: `raw_to_fix_len_bytes(_vec)` returns its inputs, all bytes. -/
theorem C35_fix_len_bytes {inputs : List (AV p)} {n : ℕ} {r : List (AV p)} (hi : Inv s)
    (hL : RangeOk p L) (hrun : rawToFixLenBytes L inputs n s = some (r, s')) (hw : Sat (RangeTable p L) s' w) :
    r = inputs ∧ r.length = n ∧ ∀ a ∈ r, (at' w a).val < 256 := by
  obtain ⟨rfl, h1, h3⟩ := (rawToFixLenBytes_sound inputs n hL).run hi hrun hw
  refine ⟨rfl, h1, fun a ha => ?_⟩
  obtain ⟨m, h4, h5⟩ := h3 a ha
  exact val_of_lt h4 h5

theorem C35_bool_complete {a : AV p} {x : ZMod p} (hg : Good tbl ext s) (ha : Con ext s a x) (hx : x = 0 ∨ x = 1)
    (b : Bool) :
    Completes tbl ext s (assertBool a) (fun r s' => r = a ∧ Con ext s' r x) ∧
    Completes tbl ext s (loadBool b) (fun r s' => Con ext s' r (if b then 1 else 0)) :=
  ⟨(assertBool_cmp ha hx).run hg, (loadBool_cmp b).run hg⟩

theorem C35_byte_complete {a : AV p} {x : ZMod p} {b : ℕ} (hg : Good (RangeTable p L) ext s) (hL : RangeOk p L)
    (h8 : ceilDiv 8 L * L ≤ capacity p) (ha : Con ext s a x) (hx : x.val < 256) (hb : b < 256) :
    Completes (RangeTable p L) ext s (assertByte L a) (fun r s' => r = a ∧ Con ext s' r x) ∧
    Completes (RangeTable p L) ext s (loadByte L b) (fun r s' => Con ext s' r (b : ZMod p)) :=
  ⟨(assertByte_cmp hL h8 ha hx).run hg, (loadByte_cmp hL h8 hb).run hg⟩

theorem C35_var_len_bytes_complete {inputs : List (AV p)} {xs : List (ZMod p)} {len : AV p} {l : ZMod p} {n : ℕ}
    (hg : Good (RangeTable p L) ext s) (hL : RangeOk p L) (h8 : ceilDiv 8 L * L ≤ capacity p)
    (h : AvsCon ext s inputs xs) (hx : ∀ x ∈ xs, x.val < 256) (hl : Con ext s len l) (hle : l.val ≤ n)
    (hn : inputs.length = n) (hs : safeBits L (n + 1) ≤ capacity p) (hp : n < p) :
    Completes (RangeTable p L) ext s (rawToVarLenBytes L inputs len n) (fun r s' => r = ⟨inputs, len⟩ ∧
      AvsCon ext s' inputs xs ∧ Con ext s' len l) :=
  (rawToVarLenBytes_cmp hL h8 h hx hl hle hn hs hp).run hg

theorem C35_fix_len_bytes_complete {inputs : List (AV p)} {xs : List (ZMod p)} {n : ℕ}
    (hg : Good (RangeTable p L) ext s) (hL : RangeOk p L) (h8 : ceilDiv 8 L * L ≤ capacity p)
    (h : AvsCon ext s inputs xs) (hx : ∀ x ∈ xs, x.val < 256) (hn : inputs.length = n) :
    Completes (RangeTable p L) ext s (rawToFixLenBytes L inputs n) (fun r s' => r = inputs ∧ AvsCon ext s' inputs xs) :=
  (rawToFixLenBytes_cmp hL h8 h hx hn).run hg

/-- The prime 1009 has capacity 9, enough for byte checks with 4-bit lookups. -/
instance fact1009 : Fact (Nat.Prime 1009) := ⟨by norm_num⟩

theorem size1009 : Nat.size 1009 = 10 := le_antisymm (Nat.size_le.2 (by norm_num)) (Nat.lt_size.2 (by norm_num))

theorem capacity1009 : capacity 1009 = 9 := by rw [capacity, numBits, size1009]

theorem rangeOk1009 : RangeOk 1009 4 := ⟨by norm_num, by norm_num, by rw [capacity1009]; norm_num⟩

def ctx1009 : Ctx 1009 := Ctx.new false 0 "halo2-base:SinglePhaseCoreManager:FirstPhase" 0 [] []

theorem good1009 {tbl : ZMod 1009 → Prop} {ext : Cell → ZMod 1009} : Good tbl ext ctx1009 := good_new _ _ _

theorem byte1009 : ceilDiv 8 4 * 4 ≤ capacity 1009 := by rw [capacity1009]; decide

/-- Three loaded bytes `200, 7, 255` of which the first two are in use. -/
def load1009 : M 1009 (List (AV 1009) × AV 1009) := do
  let a ← loadWitness 200
  let b ← loadWitness 7
  let c ← loadWitness 255
  let l ← loadWitness 2
  pure ([a, b, c], l)

theorem load1009_cmp {tbl : ZMod 1009 → Prop} {ext : Cell → ZMod 1009} :
    Cmp tbl ext ctx1009 load1009 (fun r s' => AvsCon ext s' r.1 [200, 7, 255] ∧ Con ext s' r.2 2) :=
  Cmp.bind (loadWitness_cmp _) fun _ _ _ h1 => Cmp.bind (loadWitness_cmp _) fun _ _ e2 h2 =>
    Cmp.bind (loadWitness_cmp _) fun _ _ e3 h3 => Cmp.bind (loadWitness_cmp _) fun _ _ e4 h4 => Cmp.pure
      ⟨.cons (((h1.mono e2).mono e3).mono e4) (.cons ((h2.mono e3).mono e4) (.cons (h3.mono e4) .nil)), h4⟩

theorem byteVals : ∀ x ∈ ([200, 7, 255] : List (ZMod 1009)), x.val < 256 := by decide +kernel

example : Completes (RangeTable 1009 4) (fun _ => 0) ctx1009
    (do let (bs, l) ← load1009; rawToVarLenBytes 4 bs l 3) (fun r _ => r.bytes.length = 3) :=
  (Cmp.bind load1009_cmp fun r s' _ h => (rawToVarLenBytes_cmp (n := 3) rangeOk1009 byte1009 h.1
    byteVals h.2 (by decide +kernel) h.1.length_eq (by rw [capacity1009]; decide +kernel) (by norm_num)).weaken
    fun r' _ h' => by rw [h'.1]; exact h.1.length_eq).run good1009

/-! ## C36 -/

theorem byteBase_rd (is : List ℕ) : Rd s (byteBase is : M p _) (fun _ => True) := by
  induction is with
  | nil => exact Rd.pure trivial
  | cons i is ih => exact Rd.bind (unwrap_rd _) fun _ _ => Rd.bind ih fun _ _ => Rd.pure trivial

theorem packChunks_snd (base : List (QCell p)) (cs : List (List (AV p))) :
    Sound tbl (packChunks base cs) (fun _ _ => True) := by
  induction cs with
  | nil => exact fun s => Snd.pure fun _ _ => trivial
  | cons c cs ih =>
    intro s
    refine Snd.rd (sliceTo_rd _ _) fun b hb => ?_
    refine Snd.bind (innerProduct_sound _ _ ?_ s) fun r s1 _ => ?_
    · rw [hb.2, List.length_map, List.length_take, min_eq_left hb.1]
    · exact Snd.bind (ih s1) fun _ _ _ => Snd.pure fun _ _ _ _ => trivial

/-- C36, soundness: `raw_bytes_to` succeeds only with `8 · len(inputs) = max(T, 8)`, checks input `i` to have at most
`min (T - 8 i) 8` bits, and returns the inputs themselves when an element is a bool or a byte. -/
theorem C36_raw_bytes_to {B T : ℕ} {inputs rs : List (AV p)} (hi : Inv s) (hL : RangeOk p L)
    (hrun : rawBytesTo L B T inputs s = some (rs, s')) (hw : Sat (RangeTable p L) s' w) :
    inputs.length * 8 = max T 8 ∧
    (∀ (i : ℕ) (a : AV p), inputs[i]? = some a → (at' w a).val < 2 ^ min (T - 8 * i) 8) ∧
    rs.length = valueLength B T ∧ (T = 1 ∨ bitsPerEle B T = 8 → rs = inputs) := by
  have key : Sound (RangeTable p L) (rawBytesTo L B T inputs) (fun w rs => inputs.length * 8 = max T 8 ∧
      (∀ (i : ℕ) (a : AV p), inputs[i]? = some a → (at' w a).val < 2 ^ min (T - 8 * i) 8) ∧
      rs.length = valueLength B T ∧ (T = 1 ∨ bitsPerEle B T = 8 → rs = inputs)) := by
    intro s
    refine Snd.assert fun _ => Snd.assert fun h => ?_
    have h := of_decide_eq_true h
    refine Snd.bind (addBytesConstraints_sound inputs T hL s) fun _ s1 _ => ?_
    have hr : ∀ w : Cell → ZMod p, (∀ (i : ℕ) (a : AV p), inputs[i]? = some a →
        ∃ m : ℕ, m < 2 ^ min (T - 8 * i) 8 ∧ at' w a = (m : ZMod p)) → ∀ (i : ℕ) (a : AV p), inputs[i]? = some a →
        (at' w a).val < 2 ^ min (T - 8 * i) 8 := by
      intro w h i a ha
      obtain ⟨m, h1, h2⟩ := h i a ha
      exact val_of_lt h1 h2
    refine Snd.ite (fun hf => ?_) (fun hf => ?_)
    · refine (safeTypeNew_sound B T inputs s1).weaken ?_
      rintro w r _ ⟨rfl, h2⟩ h3
      exact ⟨h, hr w h3, h2, fun _ => rfl⟩
    · refine Snd.rd (byteBase_rd _) fun base _ => ?_
      refine Snd.bind (packChunks_snd base _ s1) fun rs s2 _ => ?_
      refine (safeTypeNew_sound B T rs s2).weaken ?_
      rintro w r _ ⟨rfl, h2⟩ _ h3
      exact ⟨h, hr w h3, h2, fun h => absurd h hf⟩
  exact key.run hi hrun hw

/-- The `i`-th chunk of `B` elements (specification of `chunks`). -/
def chunk {α : Type} (B i : ℕ) (l : List α) : List α := (l.drop (B * i)).take B

theorem chunksAux_eq {α : Type} {n : ℕ} (hn : 1 ≤ n) (f : ℕ) (l : List α) (hf : l.length ≤ f) :
    chunksAux n f l = (List.range (ceilDiv l.length n)).map (fun i => chunk n i l) := by
  refine List.ext_getElem (by simp [chunksAux_length hn f l hf]) fun i h1 h2 => ?_
  simp only [List.getElem_map, List.getElem_range]
  clear h2
  induction f generalizing l i with
  | zero => simp [chunksAux] at h1
  | succ f ih =>
    cases l with
    | nil => simp [chunksAux] at h1
    | cons a l =>
      cases i with
      | zero => simp [chunksAux, chunk]
      | succ i =>
        simp only [chunksAux, List.getElem_cons_succ]
        rw [ih _ (by simp at hf ⊢; omega)]
        simp only [chunk, List.drop_drop]
        congr 2
        ring

/-- C36, honest run, elements of several bytes: element `i` is the little-endian value of the `i`-th chunk. -/
theorem C36_raw_bytes_to_complete {B T : ℕ} {inputs : List (AV p)} {xs : List (ZMod p)}
    (hg : Good (RangeTable p L) ext s) (hL : RangeOk p L) (h8 : ceilDiv 8 L * L ≤ capacity p) (hB : 1 ≤ B)
    (hT : inputs.length * 8 = max T 8) (hT0 : 1 ≤ T) (hf : ¬ (T = 1 ∨ bitsPerEle B T = 8))
    (hb : (B - 1) * 8 < numBits p) (h : AvsCon ext s inputs xs)
    (hx : ∀ (i : ℕ) (x : ZMod p), xs[i]? = some x → x.val < 2 ^ min (T - 8 * i) 8) :
    Completes (RangeTable p L) ext s (rawBytesTo L B T inputs) (fun rs s' =>
      AvsCon ext s' rs ((List.range (valueLength B T)).map (fun i =>
        ((Nat.ofDigits 256 ((chunk B i xs).map ZMod.val) : ℕ) : ZMod p)))) := by
  obtain ⟨rs, s', h1, h2, h3, h4, h5⟩ := (rawBytesTo_slow_cmp hL h8 hB hT hT0 hf hb h hx).run hg
  refine ⟨rs, s', h1, h2, h3, h4, ?_⟩
  rw [chunksOf, chunksAux_eq hB _ _ le_rfl, ← h.length_eq, valueLength_eq hB hT hT0, List.map_map] at h5
  exact h5

/-- C36, honest run, bool or single-byte elements. -/
theorem C36_raw_bytes_to_bytes_complete {B T : ℕ} {inputs : List (AV p)} {xs : List (ZMod p)}
    (hg : Good (RangeTable p L) ext s) (hL : RangeOk p L) (h8 : ceilDiv 8 L * L ≤ capacity p) (hB : 1 ≤ B)
    (hT : inputs.length * 8 = max T 8) (hf : T = 1 ∨ bitsPerEle B T = 8) (h : AvsCon ext s inputs xs)
    (hx : ∀ (i : ℕ) (x : ZMod p), xs[i]? = some x → x.val < 2 ^ min (T - 8 * i) 8) :
    Completes (RangeTable p L) ext s (rawBytesTo L B T inputs) (fun rs s' => rs = inputs ∧ AvsCon ext s' rs xs) :=
  (rawBytesTo_fast_cmp hL h8 hB hT hf h hx).run hg

example : Completes (RangeTable 1009 4) (fun _ => 0) ctx1009
    (do let (bs, _) ← load1009; rawBytesTo 4 1 24 bs) (fun r _ => r.length = 3) :=
  (Cmp.bind load1009_cmp fun r s' _ h => (rawBytesTo_fast_cmp (T := 24) rangeOk1009 byte1009 le_rfl
    (by rw [h.1.length_eq]; rfl) (.inr rfl) h.1 (by
      intro i x hx
      match i with
      | 0 => cases hx; decide +kernel
      | 1 => cases hx; decide +kernel
      | 2 => cases hx; decide +kernel)).weaken
    fun r' _ h' => by rw [h'.1]; exact h.1.length_eq).run good1009

/-- C36, finding: when an element packs several bytes, the weights `2^(8 i)` are loaded as unconstrained witnesses
(mod.rs:152-154 uses `Witness`, not `Constant`).  So the constraints do **not** tie the packed element to the bytes:
whatever the honest bytes (first byte nonzero) and whatever field element `v`, the very run the verifier expects has a
satisfying assignment that keeps every byte and gives the first packed element the value `v`. -/
theorem C36_packing_unsound {B T : ℕ} {inputs : List (AV p)} {xs : List (ZMod p)} {x0 : ZMod p}
    (hg : Good (RangeTable p L) ext s) (hL : RangeOk p L) (h8 : ceilDiv 8 L * L ≤ capacity p) (hB : 1 ≤ B)
    (hT : inputs.length * 8 = max T 8) (hT0 : 1 ≤ T) (hf : ¬ (T = 1 ∨ bitsPerEle B T = 8))
    (hb : (B - 1) * 8 < numBits p) (h : AvsCon ext s inputs xs)
    (hx : ∀ (i : ℕ) (x : ZMod p), xs[i]? = some x → x.val < 2 ^ min (T - 8 * i) 8)
    (h0 : xs[0]? = some x0) (hne : x0 ≠ 0) (v : ZMod p) :
    ∃ r rs s' w, rawBytesTo L B T inputs s = some (r :: rs, s') ∧ Sat (RangeTable p L) s' w ∧
      inputs.map (at' w) = xs ∧ at' w r = v := by
  obtain ⟨rs, s', hrun, -, -, -, hc⟩ := C36_raw_bytes_to_complete hg hL h8 hB hT hT0 hf hb h hx
  have hrun' := hrun
  unfold rawBytesTo at hrun
  rw [show assertM (decide (B ≠ 0)) = (pure () : M p Unit) from by
      rw [decide_eq_true (by omega : B ≠ 0)]; rfl, pure_bind,
    show assertM (decide (inputs.length * 8 = max T 8)) = (pure () : M p Unit) from by
      rw [decide_eq_true hT]; rfl, pure_bind] at hrun
  obtain ⟨_, s1, hr1, hr2⟩ := bind_some.1 hrun
  obtain ⟨_, s1', hr1', hg1, e1, -⟩ := addBytesConstraints_cmp hL h8 h hx hg
  rw [hr1] at hr1'
  cases hr1'
  rw [if_neg hf, byteBase_pure _ (fun i hi => by have := List.mem_range.1 hi; omega), pure_bind] at hr2
  -- the malicious weights
  set bad : List (ZMod p) := v / x0 :: List.replicate (B - 1) 0 with hbad
  have hbl : bad.length = B := by simp [hbad]; omega
  obtain ⟨rs2, s2, hr3, hg2, e2, hc2⟩ := packBytes_cmp (tbl := RangeTable p L) hB hbl (AvsCon.mono h e1) hT hT0 hg1
  have hrel : Rel false (packBytes B T (((List.range B).map (fun i : ℕ => (2 : ZMod p) ^ (i * 8))).map .witness) inputs)
      (packBytes B T (bad.map .witness) inputs) (RAs false) := by
    refine packBytes_rel B T ?_ ?_
    · have : ∀ l l' : List (ZMod p), l.length = l'.length → RQs false (l.map QCell.witness) (l'.map QCell.witness) := by
        intro l
        induction l with
        | nil => intro l' h; cases l' with
          | nil => exact .nil
          | cons _ _ => simp at h
        | cons a l ih => intro l' h; cases l' with
          | nil => simp at h
          | cons b l' => exact .cons (by simp [RQ, RV]) (ih l' (by simpa using h))
      exact this _ _ (by simp [hbl])
    · exact List.forall₂_same.2 fun a _ => ra_same.2 rfl
  obtain ⟨hss, hrs⟩ := hrel.shape (R := AVs.Same) (fun _ _ => ras_same.1) s1 s1 (sameShape_refl hg1.inv.wgo) _ _ _ _ hr2 hr3
  obtain ⟨y0, ys, rfl⟩ : ∃ y0 ys, xs = y0 :: ys := by
    cases xs with
    | nil => simp at h0
    | cons a l => exact ⟨a, l, rfl⟩
  obtain rfl : y0 = x0 := by simpa using h0
  have hin : inputs.map (at' (hw ext s2)) = y0 :: ys := by
    have := AvsCon.mono (AvsCon.mono h e1) e2
    clear * - this
    generalize y0 :: ys = l at this
    induction this with
    | nil => rfl
    | cons h _ ih => rw [List.map_cons, ih, h.at]
  rw [chunksOf, List.length_cons, chunksAux, List.map_cons] at hc2
  rcases hc2 with _ | @⟨r2, _, rs2, _, hr, -⟩
  rcases hrs with _ | @⟨r, _, rs, _, hs, -⟩
  refine ⟨r, rs, s', hw ext s2, hrun', (hss.sat _).2 hg2.sat, hin, ?_⟩
  have : at' (hw ext s2) r = at' (hw ext s2) r2 := by
    simp only [AV.Same] at hs
    simp [at', hs]
  rw [this, hr.at]
  obtain ⟨m, rfl⟩ : ∃ m, B = m + 1 := ⟨B - 1, by omega⟩
  rw [List.take_succ_cons, hbad, dot_cons]
  have hz : ∀ (l : List (ZMod p)) (m : ℕ), dot l (List.replicate m 0) = 0 := by
    intro l m
    induction l generalizing m with
    | nil => simp
    | cons a l ih => cases m with
      | zero => simp
      | succ m => simp [List.replicate_succ, ih]
  rw [hz, add_zero, mul_div_cancel₀ _ hne]

/-- C36, finding, instantiated: a `SafeUint16` over the BN254 scalar field (`BYTES_PER_ELE = 253 / 8 = 31`) built from
the bytes `1, 2` can be given any value `v` by the prover. -/
theorem C36_uint16_bn254_unsound (v : ZMod bn254R) (L : ℕ) (h1 : 1 ≤ L) (h2 : L < 64) :
    ∃ (s : Ctx bn254R) (inputs : List (AV bn254R)) (r : AV bn254R) (s' : Ctx bn254R) (w : Cell → ZMod bn254R),
      rawBytesTo L 31 16 inputs s = some ([r], s') ∧ Sat (RangeTable bn254R L) s' w ∧
      inputs.map (at' w) = [1, 2] ∧ at' w r = v := by
  have hL := rangeOk_bn254 h1 h2
  obtain ⟨inputs, s, -, hg, -, -, hin⟩ := (Cmp.bind (m := loadWitness 1) (f := fun a => do
      let b ← loadWitness 2
      pure [a, b]) (loadWitness_cmp (ext := fun _ => 0) (tbl := RangeTable bn254R L)
        (s := Ctx.new false 0 "t" 0 [] []) (1 : ZMod bn254R)) (R := fun r s' => AvsCon (fun _ => 0) s' r [1, 2])
    fun _ _ _ h1 => Cmp.bind (loadWitness_cmp _) fun _ _ e2 h2 =>
      Cmp.pure (.cons (h1.mono e2) (.cons h2 .nil))).run (good_new _ _ _)
  have h8 : ceilDiv 8 L * L ≤ capacity bn254R := by
    rw [capacity_bn254R]
    unfold ceilDiv
    have := Nat.div_mul_le_self (8 + L - 1) L
    omega
  have hlen : inputs.length = 2 := hin.length_eq
  have hv : ∀ n : ℕ, n < 3 → ((n : ℕ) : ZMod bn254R).val = n := fun n hn => by
    rw [ZMod.val_natCast, Nat.mod_eq_of_lt (lt_trans hn (by norm_num [bn254R]))]
  obtain ⟨r, rs, s', w, a1, a2, a3, a4⟩ := C36_packing_unsound (T := 16) (B := 31) (x0 := 1) hg hL h8 (by norm_num)
    (by rw [hlen]; rfl) (by norm_num) (by simp [bitsPerEle]) (by rw [numBits, size_bn254R]; norm_num) hin (by
      intro i x hx
      match i with
      | 0 => cases hx; have := hv 1 (by norm_num); rw [Nat.cast_one] at this; rw [this]; norm_num
      | 1 => cases hx; have := hv 2 (by norm_num); rw [Nat.cast_ofNat] at this; rw [this]; norm_num) rfl one_ne_zero v
  have hl := (C36_raw_bytes_to hg.inv hL a1 a2).2.2.1
  have : rs = [] := by
    rw [show valueLength 31 16 = 1 from rfl] at hl
    simpa using hl
  subst this
  exact ⟨s, inputs, r, s', w, a1, a2, a3, a4⟩

/-! ## C37 -/

/-- C37, soundness: `left_pad_var_array_to_fixed` returns `[0; out_len - len] ++ arr[..len]`, whatever the unused tail
of `arr` holds. -/
theorem C37_left_pad {arr rs : List (AV p)} {len : AV p} {n : ℕ} (hi : Inv s) (hn : arr.length ≤ n)
    (hp : Nat.size n ≤ capacity p) (hrun : leftPad arr len n s = some (rs, s')) (hw : Sat tbl s' w)
    (hle : (at' w len).val ≤ arr.length) :
    rs.map (at' w) = List.replicate (n - (at' w len).val) 0 ++ (arr.map (at' w)).take (at' w len).val :=
  (leftPad_sound arr len n hn (pow_capacity_le hp)).run hi hrun hw hle

/-- C37, completeness. -/
theorem C37_left_pad_complete {arr : List (AV p)} {xs : List (ZMod p)} {len : AV p} {l : ZMod p} {n : ℕ}
    (hg : Good tbl ext s) (hne : arr ≠ []) (h : AvsCon ext s arr xs) (hl : Con ext s len l) (hn : arr.length ≤ n)
    (hp : Nat.size n ≤ capacity p) (hle : l.val ≤ arr.length) :
    Completes tbl ext s (leftPad arr len n) (fun rs s' =>
      AvsCon ext s' rs (List.replicate (n - l.val) 0 ++ xs.take l.val)) :=
  (leftPad_cmp hne h hl hn hp hle).run hg

theorem rawToVarLenBytes_len {inputs : List (AV p)} {len : AV p} {n : ℕ} {v : VarLenBytes p}
    (h : rawToVarLenBytes L inputs len n s = some (v, s')) : v.bytes.length = n := by
  unfold rawToVarLenBytes at h
  obtain ⟨_, _, -, h⟩ := bind_some.1 h
  obtain ⟨_, _, -, h⟩ := bind_some.1 h
  unfold varLenNew at h
  obtain ⟨_, _, -, h⟩ := bind_some.1 h
  obtain ⟨_, _, -, h⟩ := bind_some.1 h
  obtain ⟨_, _, h1, h⟩ := bind_some.1 h
  cases h
  exact of_decide_eq_true (assertM_state h1).1

/-- C37 for `VarLenBytes(Vec)::left_pad_to_fixed`, from the checked inputs to the padded bytes: starting from raw
cells, the result is `[0; max_len - len] ++ inputs[..len]`, all bytes. -/
theorem C37_left_pad_to_fixed {inputs rs : List (AV p)} {len : AV p} {n : ℕ} {v : VarLenBytes p} {s1 : Ctx p}
    (hi : Inv s) (hL : RangeOk p L) (hok : LtSafeOk p L (n + 1)) (hp : Nat.size n ≤ capacity p)
    (h1 : rawToVarLenBytes L inputs len n s = some (v, s1)) (h2 : v.leftPadToFixed s1 = some (rs, s'))
    (hw : Sat (RangeTable p L) s' w) :
    (at' w len).val ≤ n ∧ rs.length = n ∧
    rs.map (at' w) = List.replicate (n - (at' w len).val) 0 ++ (inputs.map (at' w)).take (at' w len).val := by
  obtain ⟨hi1, -⟩ := (rawToVarLenBytes_sound inputs len n hL hok).extends_of hi h1
  have hl : v.bytes.length = n := rawToVarLenBytes_len h1
  have hv : Sound (RangeTable p L) v.leftPadToFixed (fun w rs => rs.length = v.bytes.length ∧
      ((at' w v.len).val ≤ v.bytes.length → rs.map (at' w) =
        List.replicate (v.bytes.length - (at' w v.len).val) 0 ++ (v.bytes.map (at' w)).take (at' w v.len).val)) := by
    intro s
    refine Snd.bind (leftPad_sound v.bytes v.len v.bytes.length le_rfl (pow_capacity_le (hl ▸ hp)) s) fun r s2 _ => ?_
    refine (fixLenNew_sound r v.bytes.length s2).weaken ?_
    rintro w r _ ⟨rfl, h1⟩ h2
    exact ⟨h1, h2⟩
  obtain ⟨-, e⟩ := hv.extends_of hi1 h2
  obtain ⟨b1, b2, b3, b4, b5⟩ := C35_var_len_bytes hi hL hok h1 (hw.mono e)
  obtain ⟨c1, c2⟩ := hv.run hi1 h2 hw
  rw [b3] at c1 c2
  rw [b2] at c2 b4
  rw [b1] at c2
  exact ⟨b4, c1, c2 b4⟩

theorem C37_left_pad_to_fixed_complete {v : VarLenBytes p} {xs : List (ZMod p)} {l : ZMod p}
    (hg : Good tbl ext s) (hne : v.bytes ≠ []) (h : AvsCon ext s v.bytes xs) (hl : Con ext s v.len l)
    (hp : Nat.size v.bytes.length ≤ capacity p) (hle : l.val ≤ v.bytes.length) :
    Completes tbl ext s v.leftPadToFixed (fun rs s' =>
      AvsCon ext s' rs (List.replicate (v.bytes.length - l.val) 0 ++ xs.take l.val)) := by
  refine Cmp.run (Cmp.bind (leftPad_cmp hne h hl le_rfl hp hle) fun rs s1 _ hr => ?_) hg
  refine Cmp.assert ?_ (Cmp.pure hr)
  rw [decide_eq_true_iff, hr.length_eq, List.length_append, List.length_replicate, List.length_take, ← h.length_eq]
  omega

theorem size3 : Nat.size 3 = 2 := by decide +kernel

example : Completes (RangeTable 1009 4) (fun _ => 0) ctx1009
    (do let (bs, l) ← load1009; leftPad bs l 3) (fun r s' => AvsCon (fun _ => 0) s' r [0, 200, 7]) :=
  (Cmp.bind load1009_cmp fun r s' _ h => (leftPad_cmp (n := 3) (by
      intro h0
      have := h.1.length_eq
      rw [h0] at this
      simp at this) h.1 h.2 (by rw [h.1.length_eq]; rfl)
    (by rw [capacity1009, size3]; norm_num) (by rw [h.1.length_eq]; decide +kernel)).weaken
    fun r' _ h' => h').run good1009

/-! ## C38 -/

/-- C38, soundness: the first `len` bytes are kept, all later ones are zero (`len = 0` included). -/
theorem C38_ensure_0_padding {bytes rs : List (AV p)} {len : AV p} (hi : Inv s) (hn : bytes.length < p)
    (hrun : ensure0Padding bytes len s = some (rs, s')) (hw : Sat tbl s' w) (hle : (at' w len).val ≤ bytes.length) :
    rs.length = bytes.length ∧ ∀ (i : ℕ) (r a : AV p), rs[i]? = some r → bytes[i]? = some a →
      at' w r = if i < (at' w len).val then at' w a else 0 := by
  have h := (ensure0Padding_sound bytes len hn).run hi hrun hw hle
  have hl : rs.length = bytes.length := by
    have := congrArg List.length h
    simp at this
    omega
  refine ⟨hl, fun i r a hr ha => ?_⟩
  have h1 : (rs.map (at' w))[i]? = some (at' w r) := by simp [hr]
  rw [h, List.getElem?_append] at h1
  simp only [List.length_take, List.length_map, min_eq_left hle] at h1
  by_cases hil : i < (at' w len).val
  · rw [if_pos hil] at h1 ⊢
    rw [List.getElem?_take_of_lt hil, List.getElem?_map, ha] at h1
    exact (Option.some.inj h1).symm
  · rw [if_neg hil] at h1 ⊢
    rw [List.getElem?_replicate] at h1
    split at h1
    · exact (Option.some.inj h1).symm
    · cases h1

/-- C38, completeness. -/
theorem C38_ensure_0_padding_complete {bytes : List (AV p)} {xs : List (ZMod p)} {len : AV p} {l : ZMod p}
    (hg : Good tbl ext s) (h : AvsCon ext s bytes xs) (hl : Con ext s len l) (hn : bytes.length < p)
    (hle : l.val ≤ bytes.length) :
    Completes tbl ext s (ensure0Padding bytes len) (fun rs s' =>
      AvsCon ext s' rs (xs.take l.val ++ List.replicate (bytes.length - l.val) 0)) :=
  (ensure0Padding_cmp h hl hn hle).run hg

/-- C38 for `VarLenBytes(Vec)::ensure_0_padding`. -/
theorem C38_var_len_ensure_0_padding {v r : VarLenBytes p} (hi : Inv s) (hn : v.bytes.length < p)
    (hrun : v.ensure0 s = some (r, s')) (hw : Sat tbl s' w) (hle : (at' w v.len).val ≤ v.bytes.length) :
    r.len = v.len ∧ r.bytes.length = v.bytes.length ∧ r.bytes.map (at' w) =
      (v.bytes.map (at' w)).take (at' w v.len).val ++ List.replicate (v.bytes.length - (at' w v.len).val) 0 := by
  have h : Sound tbl v.ensure0 (fun w r => (at' w v.len).val ≤ v.bytes.length → r.len = v.len ∧
      r.bytes.length = v.bytes.length ∧ r.bytes.map (at' w) =
      (v.bytes.map (at' w)).take (at' w v.len).val ++ List.replicate (v.bytes.length - (at' w v.len).val) 0) := by
    intro s
    refine Snd.bind (ensure0Padding_sound v.bytes v.len hn s) fun b s1 _ => ?_
    refine (varLenNew_sound b v.len v.bytes.length s1).weaken ?_
    rintro w r _ ⟨rfl, h1⟩ h2 h3
    exact ⟨rfl, h1, h2 h3⟩
  exact h.run hi hrun hw hle

theorem C38_var_len_ensure_0_padding_complete {v : VarLenBytes p} {xs : List (ZMod p)} {l : ZMod p}
    (hg : Good tbl ext s) (h : AvsCon ext s v.bytes xs) (hl : Con ext s v.len l) (hn : v.bytes.length < p)
    (hle : l.val ≤ v.bytes.length) :
    Completes tbl ext s v.ensure0 (fun r s' => r.len = v.len ∧
      AvsCon ext s' r.bytes (xs.take l.val ++ List.replicate (v.bytes.length - l.val) 0)) := by
  refine Cmp.run (Cmp.bind (ensure0Padding_cmp h hl hn hle) fun rs s1 e hr => ?_) hg
  refine (varLenNew_cmp (hl.mono e) hle ?_ hn).weaken ?_
  · rw [hr.length_eq, List.length_append, List.length_replicate, List.length_take, ← h.length_eq]
    omega
  · rintro r s' ⟨rfl, rfl⟩
    exact ⟨rfl, hr⟩

example : Completes (RangeTable 1009 4) (fun _ => 0) ctx1009
    (do let (bs, l) ← load1009; ensure0Padding bs l) (fun r s' => AvsCon (fun _ => 0) s' r [200, 7, 0]) :=
  (Cmp.bind load1009_cmp fun r s' _ h => (ensure0Padding_cmp h.1 h.2 (by rw [h.1.length_eq]; norm_num)
    (by rw [h.1.length_eq]; decide +kernel)).weaken
    fun r' _ h' => by rw [h.1.length_eq] at h'; exact h').run good1009

/-! ## C03 and C56 for the safe types -/

/-- C03 for the safe types: prover mode computes the same values and needs no constraint data. -/
theorem C03_safe_types (L B T n : ℕ) (a : AV p) (l : List (AV p)) (b : Bool) (x : ℕ) :
    ProverMatches AV.prover (assertBool a) (assertBool a.prover) ∧
    ProverMatches AV.prover (loadBool b : M p _) (loadBool b) ∧
    ProverMatches AV.prover (assertByte L a) (assertByte L a.prover) ∧
    ProverMatches AV.prover (loadByte L x : M p _) (loadByte L x) ∧
    ProverMatches (List.map AV.prover) (rawToFixLenBytes L l n) (rawToFixLenBytes L (l.map AV.prover) n) ∧
    ProverMatches (fun v => ⟨v.bytes.map AV.prover, v.len.prover⟩) (rawToVarLenBytes L l a n)
      (rawToVarLenBytes L (l.map AV.prover) a.prover n) ∧
    ProverMatches (List.map AV.prover) (rawBytesTo L B T l) (rawBytesTo L B T (l.map AV.prover)) ∧
    ProverMatches (List.map AV.prover) (leftPad l a n) (leftPad (l.map AV.prover) a.prover n) ∧
    ProverMatches (List.map AV.prover) (ensure0Padding l a) (ensure0Padding (l.map AV.prover) a.prover) := by
  have pid : ∀ r r' : AV p, RA true r r' → r' = r.prover := fun _ _ h => h.toProver
  have pls : ∀ r r' : List (AV p), RAs true r r' → r' = r.map AV.prover := fun _ _ h => h.toProver
  have pv : ∀ r r' : VarLenBytes p, RVL true r r' → r' = ⟨r.bytes.map AV.prover, r.len.prover⟩ := by
    rintro ⟨b, l⟩ ⟨b', l'⟩ ⟨h1, h2⟩
    have h1 : b' = _ := RAs.toProver h1
    have h2 : l' = _ := RA.toProver h2
    rw [h1, h2]
  exact ⟨(assertBool_rel (ra_prover a)).prover pid, (loadBool_rel (RV.refl b)).prover pid,
    (assertByte_rel L (ra_prover a)).prover pid, (loadByte_rel L (RV.refl x)).prover pid,
    (rawToFixLenBytes_rel L n (ras_prover l)).prover pls,
    (rawToVarLenBytes_rel L n (ras_prover l) (ra_prover a)).prover pv,
    (rawBytesTo_rel L B T (ras_prover l)).prover pls, (leftPad_rel (ras_prover l) (ra_prover a) n).prover pls,
    (ensure0Padding_rel (ras_prover l) (ra_prover a)).prover pls⟩

/-- C56 for the safe types: the circuit does not depend on the witness values. -/
theorem C56_safe_types (L B T n : ℕ) {a a' : AV p} {l l' : List (AV p)} (b b' : Bool) (x x' : ℕ) (ha : a.Same a')
    (hl : AVs.Same l l') :
    ShapeIndep AV.Same (assertBool a) (assertBool a') ∧
    ShapeIndep AV.Same (loadBool b : M p _) (loadBool b') ∧
    ShapeIndep AV.Same (assertByte L a) (assertByte L a') ∧
    ShapeIndep AV.Same (loadByte L x : M p _) (loadByte L x') ∧
    ShapeIndep AVs.Same (rawToFixLenBytes L l n) (rawToFixLenBytes L l' n) ∧
    ShapeIndep (fun v v' => AVs.Same v.bytes v'.bytes ∧ v.len.Same v'.len) (rawToVarLenBytes L l a n)
      (rawToVarLenBytes L l' a' n) ∧
    ShapeIndep AVs.Same (rawBytesTo L B T l) (rawBytesTo L B T l') ∧
    ShapeIndep AVs.Same (leftPad l a n) (leftPad l' a' n) ∧
    ShapeIndep AVs.Same (ensure0Padding l a) (ensure0Padding l' a') := by
  have sid : ∀ r r' : AV p, RA false r r' → AV.Same r r' := fun _ _ h => ra_same.1 h
  have sls : ∀ r r' : List (AV p), RAs false r r' → AVs.Same r r' := fun _ _ h => ras_same.1 h
  have ha := ra_same.2 ha
  have hl := ras_same.2 hl
  have rv : ∀ {α : Type} (x y : α), RV false x y := fun _ _ h => by simp at h
  exact ⟨(assertBool_rel ha).shape sid, (loadBool_rel (rv b b')).shape sid,
    (assertByte_rel L ha).shape sid, (loadByte_rel L (rv x x')).shape sid,
    (rawToFixLenBytes_rel L n hl).shape sls,
    (rawToVarLenBytes_rel L n hl ha).shape fun _ _ h => ⟨ras_same.1 h.1, ra_same.1 h.2⟩,
    (rawBytesTo_rel L B T hl).shape sls, (leftPad_rel hl ha n).shape sls,
    (ensure0Padding_rel hl ha).shape sls⟩

end H2
