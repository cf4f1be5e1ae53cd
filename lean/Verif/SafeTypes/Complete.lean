import Verif.SafeTypes.Sound
import Verif.Range.Complete

/-! # Completeness of the safe types -/

set_option autoImplicit false
namespace H2
variable {p : ℕ} [Fact p.Prime] {tbl : ZMod p → Prop} {ext : Cell → ZMod p} {s : Ctx p} {L : ℕ}

theorem assertBool_cmp {a : AV p} {x : ZMod p} (ha : Con ext s a x) (hx : x = 0 ∨ x = 1) :
    Cmp tbl ext s (assertBool a) (fun r s' => r = a ∧ Con ext s' r x) :=
  Cmp.bind (assertBit_cmp ha hx) fun _ _ e _ => Cmp.pure ⟨rfl, ha.mono e⟩

theorem loadBool_cmp (b : Bool) :
    Cmp tbl ext s (loadBool b) (fun r s' => Con ext s' r (if b then 1 else 0)) :=
  Cmp.bind (loadWitness_cmp _) fun _ _ _ h => (assertBool_cmp h (by cases b <;> simp)).weaken fun _ _ h => h.2

theorem ceilDiv_mono {m n L : ℕ} (h : m ≤ n) : ceilDiv m L ≤ ceilDiv n L := by
  unfold ceilDiv
  exact Nat.div_le_div_right (by omega)

theorem assertByte_cmp {a : AV p} {x : ZMod p} (hL : RangeOk p L) (h8 : ceilDiv 8 L * L ≤ capacity p)
    (ha : Con ext s a x) (hx : x.val < 256) :
    Cmp (RangeTable p L) ext s (assertByte L a) (fun r s' => r = a ∧ Con ext s' r x) :=
  Cmp.bind (rangeCheck_cmp hL ha (ceilDiv_le_of_mul_le hL.pos h8) hx) fun _ _ e _ => Cmp.pure ⟨rfl, ha.mono e⟩

theorem loadByte_cmp {b : ℕ} (hL : RangeOk p L) (h8 : ceilDiv 8 L * L ≤ capacity p) (hb : b < 256) :
    Cmp (RangeTable p L) ext s (loadByte L b) (fun r s' => Con ext s' r (b : ZMod p)) :=
  Cmp.bind (loadWitness_cmp _) fun _ _ _ h =>
    (assertByte_cmp hL h8 h (lt_of_le_of_lt (by rw [ZMod.val_natCast]; exact Nat.mod_le _ _) hb)).weaken
      fun _ _ h => h.2

theorem assertByteList_cmp {as : List (AV p)} {xs : List (ZMod p)} (hL : RangeOk p L)
    (h8 : ceilDiv 8 L * L ≤ capacity p) (h : AvsCon ext s as xs) (hx : ∀ x ∈ xs, x.val < 256) :
    Cmp (RangeTable p L) ext s (assertByteList L as) (fun rs s' => rs = as ∧ AvsCon ext s' rs xs) := by
  induction as generalizing s xs with
  | nil => cases h; exact Cmp.pure ⟨rfl, .nil⟩
  | cons a as ih =>
    rcases h with _ | ⟨h1, h2⟩
    refine Cmp.bind (assertByte_cmp hL h8 h1 (hx _ (by simp))) fun b s1 e hb => ?_
    have ih' := ih (AvsCon.mono h2 e) fun x h => hx x (by simp [h])
    refine Cmp.bind ih' fun bs s2 e2 hbs => Cmp.pure ?_
    · exact ⟨by rw [hb.1, hbs.1], .cons (hb.2.mono e2) hbs.2⟩

theorem varLenNew_cmp {bytes : List (AV p)} {len : AV p} {x : ZMod p} {n : ℕ} (hl : Con ext s len x)
    (hx : x.val ≤ n) (hn : bytes.length = n) (hp : n < p) :
    Cmp tbl ext s (varLenNew bytes len n) (fun r s' => s' = s ∧ r = ⟨bytes, len⟩) := by
  refine Cmp.unwrap hl.val ?_
  refine Cmp.assert (by rw [ZMod.val_natCast, Nat.mod_eq_of_lt hp]; simpa using hx) ?_
  exact Cmp.assert (by simpa using hn) (Cmp.pure ⟨rfl, rfl⟩)

theorem fixLenNew_cmp {bytes : List (AV p)} {n : ℕ} (hn : bytes.length = n) :
    Cmp tbl ext s (fixLenNew bytes n) (fun r s' => s' = s ∧ r = bytes) :=
  Cmp.assert (by simpa using hn) (Cmp.pure ⟨rfl, rfl⟩)

theorem rawToVarLenBytes_cmp {inputs : List (AV p)} {xs : List (ZMod p)} {len : AV p} {l : ZMod p} {n : ℕ}
    (hL : RangeOk p L) (h8 : ceilDiv 8 L * L ≤ capacity p) (h : AvsCon ext s inputs xs)
    (hx : ∀ x ∈ xs, x.val < 256) (hl : Con ext s len l) (hle : l.val ≤ n) (hn : inputs.length = n)
    (hs : safeBits L (n + 1) ≤ capacity p) (hp : n < p) :
    Cmp (RangeTable p L) ext s (rawToVarLenBytes L inputs len n) (fun r s' => r = ⟨inputs, len⟩ ∧
      AvsCon ext s' inputs xs ∧ Con ext s' len l) := by
  refine Cmp.bind (checkLessThanSafe_cmp hL hl hs (by omega)) fun _ s1 e _ => ?_
  refine Cmp.bind (assertByteList_cmp hL h8 (AvsCon.mono h e) hx) fun bs s2 e2 hbs => ?_
  obtain ⟨rfl, h3⟩ := hbs
  have hl2 : Con ext s2 len l := (hl.mono e).mono e2
  refine (varLenNew_cmp hl2 hle hn hp).weaken ?_
  rintro r s' ⟨rfl, rfl⟩
  exact ⟨rfl, h3, hl2⟩

theorem rawToFixLenBytes_cmp {inputs : List (AV p)} {xs : List (ZMod p)} {n : ℕ}
    (hL : RangeOk p L) (h8 : ceilDiv 8 L * L ≤ capacity p) (h : AvsCon ext s inputs xs)
    (hx : ∀ x ∈ xs, x.val < 256) (hn : inputs.length = n) :
    Cmp (RangeTable p L) ext s (rawToFixLenBytes L inputs n) (fun r s' => r = inputs ∧
      AvsCon ext s' inputs xs) := by
  refine Cmp.bind (assertByteList_cmp hL h8 h hx) fun bs s2 e2 hbs => ?_
  obtain ⟨rfl, h3⟩ := hbs
  refine (fixLenNew_cmp hn).weaken ?_
  rintro r s' ⟨rfl, rfl⟩
  exact ⟨rfl, h3⟩

/-! ### raw_bytes_to -/

theorem addBytesConstraints_cmp {as : List (AV p)} {xs : List (ZMod p)} {bits : ℕ} (hL : RangeOk p L)
    (h8 : ceilDiv 8 L * L ≤ capacity p) (h : AvsCon ext s as xs)
    (hx : ∀ (i : ℕ) (x : ZMod p), xs[i]? = some x → x.val < 2 ^ min (bits - 8 * i) 8) :
    Cmp (RangeTable p L) ext s (addBytesConstraints L as bits) (fun _ _ => True) := by
  induction as generalizing s bits xs with
  | nil => exact Cmp.pure trivial
  | cons a as ih =>
    rcases h with _ | ⟨h1, h2⟩
    refine Cmp.bind (rangeCheck_cmp hL h1 ?_ (by simpa using hx 0 _ rfl)) fun _ s1 e _ => ?_
    · exact le_trans (ceilDiv_mono (min_le_right _ _)) (ceilDiv_le_of_mul_le hL.pos h8)
    · refine ih (AvsCon.mono h2 e) fun i y hy => ?_
      have := hx (i + 1) y (by simpa using hy)
      by_cases hb : 8 ≤ bits
      · rwa [min_eq_right hb, Nat.sub_sub, show 8 + 8 * i = 8 * (i + 1) by ring]
      · rw [show min (bits - min bits 8 - 8 * i) 8 = min (bits - 8 * (i + 1)) 8 by omega]
        exact this

theorem chunksAux_forall₂ {α β : Type} {R : α → β → Prop} (n f : ℕ) {as : List α} {bs : List β}
    (h : List.Forall₂ R as bs) : List.Forall₂ (List.Forall₂ R) (chunksAux n f as) (chunksAux n f bs) := by
  induction f generalizing as bs with
  | zero => exact .nil
  | succ f ih =>
    cases h with
    | nil => exact .nil
    | cons h1 h2 => exact .cons (List.forall₂_take n (.cons h1 h2)) (ih (List.forall₂_drop n (.cons h1 h2)))

theorem chunksOf_forall₂ {α β : Type} {R : α → β → Prop} (n : ℕ) {as : List α} {bs : List β}
    (h : List.Forall₂ R as bs) : List.Forall₂ (List.Forall₂ R) (chunksOf n as) (chunksOf n bs) := by
  unfold chunksOf
  rw [h.length_eq]
  exact chunksAux_forall₂ n _ h

theorem chunksAux_le {α : Type} (n f : ℕ) (l : List α) : ∀ c ∈ chunksAux n f l, c.length ≤ n := by
  induction f generalizing l with
  | zero => simp [chunksAux]
  | succ f ih =>
    cases l with
    | nil => simp [chunksAux]
    | cons a l =>
      simp only [chunksAux, List.mem_cons, forall_eq_or_imp]
      exact ⟨by simp [List.length_take], ih _⟩

theorem chunksAux_flatten {α : Type} {n : ℕ} (hn : 1 ≤ n) (f : ℕ) (l : List α) (hf : l.length ≤ f) :
    (chunksAux n f l).flatten = l := by
  induction f generalizing l with
  | zero => simp at hf; subst hf; rfl
  | succ f ih =>
    cases l with
    | nil => rfl
    | cons a l =>
      simp only [chunksAux, List.flatten_cons]
      rw [ih _ (by simp at hf ⊢; omega), List.take_append_drop]

theorem chunksAux_length {α : Type} {n : ℕ} (hn : 1 ≤ n) (f : ℕ) (l : List α) (hf : l.length ≤ f) :
    (chunksAux n f l).length = ceilDiv l.length n := by
  induction f generalizing l with
  | zero => simp at hf; subst hf; simp only [chunksAux, ceilDiv, List.length_nil]; rw [Nat.div_eq_of_lt (by omega)]
  | succ f ih =>
    cases l with
    | nil => simp only [chunksAux, ceilDiv, List.length_nil]; rw [Nat.div_eq_of_lt (by omega)]
    | cons a l =>
      simp only [chunksAux, List.length_cons]
      rw [ih _ (by simp at hf ⊢; omega)]
      simp only [ceilDiv, List.length_drop, List.length_cons]
      by_cases h : n ≤ l.length + 1
      · rw [show l.length + 1 + n - 1 = (l.length + 1 - n + n - 1) + n by omega, Nat.add_div_right _ (by omega)]
      · rw [show l.length + 1 - n = 0 by omega, Nat.div_eq_of_lt (by omega : 0 + n - 1 < n),
          show l.length + 1 + n - 1 = l.length + n by omega, Nat.add_div_right _ (by omega), Nat.div_eq_of_lt (by omega)]

/-- Every chunk has at most `n` elements, there are `ceil(len / n)` of them and together they are the list. -/
theorem chunksOf_spec {α : Type} {n : ℕ} (hn : 1 ≤ n) (l : List α) :
    (∀ c ∈ chunksOf n l, c.length ≤ n) ∧ (chunksOf n l).flatten = l ∧ (chunksOf n l).length = ceilDiv l.length n :=
  ⟨chunksAux_le _ _ _, chunksAux_flatten hn _ _ le_rfl, chunksAux_length hn _ _ le_rfl⟩

theorem packChunks_cmp {base : List (ZMod p)} {cs : List (List (AV p))} {vs : List (List (ZMod p))}
    (h : List.Forall₂ (AvsCon ext s) cs vs) (hl : ∀ c ∈ cs, c.length ≤ base.length) :
    Cmp tbl ext s (packChunks (base.map .witness) cs) (fun rs s' => AvsCon ext s' rs (vs.map (fun v => dot v base))) := by
  induction cs generalizing s vs with
  | nil => cases h; exact Cmp.pure .nil
  | cons c cs ih =>
    rcases h with _ | @⟨_, v, _, vs, h1, h2⟩
    have hc := hl c (by simp)
    simp only [packChunks]
    rw [sliceTo_pure (by simpa using hc), pure_bind, ← List.map_take]
    refine Cmp.bind (innerProduct_cmp (QsConT.existing h1) (QsConT.witnesses _) (by simpa using hc)) fun r s1 e hr => ?_
    refine Cmp.bind (ih (s := s1) (h2.imp fun _ _ h => AvsCon.mono h e) fun c hc => hl c (by simp [hc]))
      fun rs s2 e2 hrs => Cmp.pure ?_
    refine .cons ?_ hrs
    have : dot v (base.take c.length) = dot v base := by
      rw [h1.length_eq]
      clear * -
      induction v generalizing base with
      | nil => simp
      | cons x v ih => cases base with
        | nil => simp
        | cons b base => simp [ih]
    change Con ext s2 r (dot v base)
    rw [← this]
    exact hr.mono e2

theorem byteBase_pure (is : List ℕ) (h : ∀ i ∈ is, i * 8 < numBits p) :
    (byteBase is : M p _) = pure ((is.map (fun i : ℕ => (2 : ZMod p) ^ (i * 8))).map .witness) := by
  induction is with
  | nil => rfl
  | cons i is ih =>
    rw [byteBase, pow2At_pure (h i (by simp)), pure_bind, ih fun i hi => h i (by simp [hi]), pure_bind]
    rfl

theorem valueLength_eq {B T n : ℕ} (hB : 1 ≤ B) (hn : n * 8 = max T 8) (hT : 1 ≤ T) :
    ceilDiv n B = valueLength B T := by
  unfold valueLength ceilDiv
  have h8 : (T + B * 8 - 1) / (B * 8) = (n * 8 + B * 8 - 1) / (B * 8) := by
    by_cases h : 8 ≤ T
    · rw [show T = n * 8 by omega]
    · have : n = 1 := by omega
      subst this
      rw [Nat.div_eq_of_lt_le (k := 1) (by omega) (by omega), Nat.div_eq_of_lt_le (k := 1) (by omega) (by omega)]
  rw [h8]
  rw [show n * 8 + B * 8 - 1 = (n + B - 1) * 8 + 7 by omega, mul_comm B 8, ← Nat.div_div_eq_div_mul]
  congr 1
  omega

theorem packBytes_cmp {B T : ℕ} {base : List (ZMod p)} {inputs : List (AV p)} {xs : List (ZMod p)} (hB : 1 ≤ B)
    (hb : base.length = B) (h : AvsCon ext s inputs xs) (hT : inputs.length * 8 = max T 8) (hT0 : 1 ≤ T) :
    Cmp tbl ext s (packBytes B T (base.map .witness) inputs) (fun rs s' =>
      AvsCon ext s' rs ((chunksOf B xs).map (fun v => dot v base))) := by
  refine Cmp.bind (packChunks_cmp (chunksOf_forall₂ B h) fun c hc => hb ▸ (chunksOf_spec hB inputs).1 c hc)
    fun rs s1 _ hrs => ?_
  refine Cmp.assert ?_ (Cmp.pure hrs)
  rw [decide_eq_true_iff, hrs.length_eq, List.length_map, (chunksOf_spec hB xs).2.2, ← h.length_eq]
  exact valueLength_eq hB hT hT0

theorem dot_pow (b : ℕ) (v : List (ZMod p)) (i n : ℕ) (h : v.length ≤ n) :
    dot v ((List.range' i n).map (fun j : ℕ => (b : ZMod p) ^ j)) =
      (b : ZMod p) ^ i * ((Nat.ofDigits b (v.map ZMod.val) : ℕ) : ZMod p) := by
  induction v generalizing i n with
  | nil => simp [Nat.ofDigits]
  | cons x v ih =>
    obtain ⟨m, rfl⟩ : ∃ m, n = m + 1 := ⟨n - 1, by simp at h; omega⟩
    rw [List.range'_succ, List.map_cons, dot_cons, ih _ _ (by simpa using h), List.map_cons, Nat.ofDigits_cons]
    push_cast
    rw [ZMod.natCast_zmod_val, pow_succ]
    ring

/-- The packed value of a chunk is its little-endian base-256 value. -/
theorem dot_byteBase (v : List (ZMod p)) (B : ℕ) (h : v.length ≤ B) :
    dot v ((List.range B).map (fun i : ℕ => (2 : ZMod p) ^ (i * 8))) =
      ((Nat.ofDigits 256 (v.map ZMod.val) : ℕ) : ZMod p) := by
  have h1 := dot_pow 256 v 0 B h
  rw [pow_zero, one_mul, ← List.range_eq_range'] at h1
  rw [← h1]
  congr 1
  refine List.map_congr_left fun i _ => ?_
  rw [mul_comm, pow_mul]
  norm_num

theorem fast_length {B T n : ℕ} (hB : 1 ≤ B) (hT : n * 8 = max T 8) (hf : T = 1 ∨ bitsPerEle B T = 8) :
    n = valueLength B T := by
  unfold valueLength
  unfold bitsPerEle at hf
  rcases hf with rfl | hf
  · have : n = 1 := by omega
    subst this
    exact (Nat.div_eq_of_lt_le (by omega) (by omega)).symm
  · by_cases h : T ≤ B * 8
    · rw [min_eq_left h] at hf
      subst hf
      have : n = 1 := by omega
      subst this
      exact (Nat.div_eq_of_lt_le (by omega) (by omega)).symm
    · rw [min_eq_right (by omega)] at hf
      have hB1 : B = 1 := by omega
      subst hB1
      exact (Nat.div_eq_of_lt_le (by omega) (by omega)).symm

theorem rawBytesTo_fast_cmp {B T : ℕ} {inputs : List (AV p)} {xs : List (ZMod p)} (hL : RangeOk p L)
    (h8 : ceilDiv 8 L * L ≤ capacity p) (hB : 1 ≤ B) (hT : inputs.length * 8 = max T 8)
    (hf : T = 1 ∨ bitsPerEle B T = 8) (h : AvsCon ext s inputs xs)
    (hx : ∀ (i : ℕ) (x : ZMod p), xs[i]? = some x → x.val < 2 ^ min (T - 8 * i) 8) :
    Cmp (RangeTable p L) ext s (rawBytesTo L B T inputs) (fun rs s' => rs = inputs ∧ AvsCon ext s' rs xs) := by
  unfold rawBytesTo
  refine Cmp.assert (by simp; omega) (Cmp.assert (by simpa using hT) ?_)
  refine Cmp.bind (addBytesConstraints_cmp hL h8 h hx) fun _ s1 e _ => ?_
  rw [if_pos hf]
  exact Cmp.assert (by simpa using fast_length hB hT hf) (Cmp.pure ⟨rfl, AvsCon.mono h e⟩)

theorem rawBytesTo_slow_cmp {B T : ℕ} {inputs : List (AV p)} {xs : List (ZMod p)} (hL : RangeOk p L)
    (h8 : ceilDiv 8 L * L ≤ capacity p) (hB : 1 ≤ B) (hT : inputs.length * 8 = max T 8) (hT0 : 1 ≤ T)
    (hf : ¬ (T = 1 ∨ bitsPerEle B T = 8)) (hb : (B - 1) * 8 < numBits p) (h : AvsCon ext s inputs xs)
    (hx : ∀ (i : ℕ) (x : ZMod p), xs[i]? = some x → x.val < 2 ^ min (T - 8 * i) 8) :
    Cmp (RangeTable p L) ext s (rawBytesTo L B T inputs) (fun rs s' =>
      AvsCon ext s' rs ((chunksOf B xs).map (fun v => ((Nat.ofDigits 256 (v.map ZMod.val) : ℕ) : ZMod p)))) := by
  unfold rawBytesTo
  refine Cmp.assert (by simp; omega) (Cmp.assert (by simpa using hT) ?_)
  refine Cmp.bind (addBytesConstraints_cmp hL h8 h hx) fun _ s1 e _ => ?_
  rw [if_neg hf, byteBase_pure _ (fun i hi => by have := List.mem_range.1 hi; omega), pure_bind]
  refine (packBytes_cmp hB (by simp) (AvsCon.mono h e) hT hT0).weaken fun rs s' hr => ?_
  have : (chunksOf B xs).map (fun v => ((Nat.ofDigits 256 (v.map ZMod.val) : ℕ) : ZMod p)) =
      (chunksOf B xs).map (fun v => dot v ((List.range B).map (fun i : ℕ => (2 : ZMod p) ^ (i * 8)))) :=
    List.map_congr_left fun v hv => (dot_byteBase v B ((chunksOf_spec hB xs).1 v hv)).symm
  rw [this]
  exact hr

/-! ### barrel shifter -/

theorem padShift_cmp {cur : List (AV p)} {vs : List (ZMod p)} (h : AvsCon ext s cur vs) {k j : ℕ}
    (hj : j < vs.length) :
    Cmp tbl ext s (padShift cur k j) (fun q s' => s' = s ∧
      QCon ext s q (if 2 ^ k ≤ j then vs.getD (j - 2 ^ k) 0 else 0)) := by
  unfold padShift
  by_cases hk : 2 ^ k ≤ j
  · simp only [if_pos hk]
    obtain ⟨a, ha, hc⟩ := AvsCon.get h (i := j - 2 ^ k) (lt_of_le_of_lt (Nat.sub_le _ _) hj)
    refine Cmp.unwrap ha (Cmp.pure ⟨rfl, ?_⟩)
    exact hc
  · simp only [if_neg hk]
    exact Cmp.pure ⟨rfl, rfl⟩

theorem padStage_cmp {cur : List (AV p)} {vs : List (ZMod p)} {k : ℕ} {bit : AV p} {b : ZMod p}
    {l : List (ℕ × AV p)} {us : List (ℕ × ZMod p)} (h : AvsCon ext s cur vs) (hb : Con ext s bit b)
    (hl : List.Forall₂ (fun e u => e.1 = u.1 ∧ Con ext s e.2 u.2) l us) (hj : ∀ u ∈ us, u.1 < vs.length) :
    Cmp tbl ext s (padStage cur k bit l) (fun rs s' => AvsCon ext s' rs (us.map (fun u =>
      ((if 2 ^ k ≤ u.1 then vs.getD (u.1 - 2 ^ k) 0 else 0) - u.2) * b + u.2))) := by
  induction l generalizing s us with
  | nil => cases hl; exact Cmp.pure .nil
  | cons e l ih =>
    rcases hl with _ | @⟨_, u, _, us, h1, h2⟩
    obtain ⟨j, a⟩ := e
    obtain ⟨j', y⟩ := u
    obtain ⟨rfl, h1⟩ : j = j' ∧ Con ext s a y := h1
    refine Cmp.bind (padShift_cmp (k := k) h (hj (j, y) (by simp))) fun q s1 _ hq => ?_
    obtain ⟨rfl, hq⟩ := hq
    refine Cmp.bind (select_cmp hq (b := .existing a) (c := .existing bit) h1 hb) fun r s2 e hr => ?_
    refine Cmp.bind (ih (s := s2) (AvsCon.mono h e) (hb.mono e) (h2.imp fun _ _ h => ⟨h.1, h.2.mono e⟩)
      fun u hu => hj u (by simp [hu])) fun rs s3 e2 hrs => Cmp.pure ?_
    exact .cons (hr.mono e2) hrs

theorem range_zip_forall₂ {cur : List (AV p)} {vs : List (ZMod p)} (h : AvsCon ext s cur vs) (is : List ℕ) :
    List.Forall₂ (fun (e : ℕ × AV p) (u : ℕ × ZMod p) => e.1 = u.1 ∧ Con ext s e.2 u.2) (is.zip cur) (is.zip vs) := by
  induction h generalizing is with
  | nil => simp
  | cons h1 h2 ih =>
    cases is with
    | nil => simp
    | cons i is => exact .cons ⟨rfl, h1⟩ (ih is)

theorem padStage_shift_cmp {cur : List (AV p)} {vs : List (ZMod p)} {k : ℕ} {bit : AV p} {b : ℕ} (hb2 : b < 2)
    (h : AvsCon ext s cur vs) (hb : Con ext s bit (b : ZMod p)) :
    Cmp tbl ext s (padStage cur k bit ((List.range cur.length).zip cur)) (fun rs s' =>
      AvsCon ext s' rs (shiftR (b * 2 ^ k) vs)) := by
  have hz : ∀ u ∈ (List.range cur.length).zip vs, u.1 < vs.length := by
    intro u hu
    have := (List.of_mem_zip hu).1
    rw [h.length_eq] at this
    exact List.mem_range.1 this
  refine (padStage_cmp h hb (range_zip_forall₂ h _) hz).weaken fun rs s' hr => ?_
  convert hr using 1
  rw [h.length_eq]
  unfold shiftR
  refine List.ext_getElem (by simp) fun i h1 h2 => ?_
  have hi : i < vs.length := by simpa using h1
  obtain rfl | rfl : b = 0 ∨ b = 1 := by omega
  · simp [List.getD, hi]
  · simp [List.getD]

theorem padLoop_cmp {k : ℕ} {bits cur : List (AV p)} {bs : List ℕ} {vs : List (ZMod p)}
    (hb : AvsCon ext s bits (bs.map (fun b : ℕ => (b : ZMod p)))) (h2 : ∀ b ∈ bs, b < 2)
    (h : AvsCon ext s cur vs) :
    Cmp tbl ext s (padLoop k bits cur) (fun rs s' => AvsCon ext s' rs (shiftR (Nat.ofDigits 2 bs * 2 ^ k) vs)) := by
  induction bs generalizing s k bits cur vs with
  | nil =>
    cases hb
    refine Cmp.pure ?_
    simpa [shiftR_zero] using h
  | cons b bs ih =>
    rcases hb with _ | ⟨h1, h3⟩
    refine Cmp.bind (padStage_shift_cmp (h2 b (by simp)) h h1) fun cur' s1 e hc => ?_
    refine (ih (k := k + 1) (AvsCon.mono h3 e) (fun x hx => h2 x (by simp [hx])) hc).weaken fun rs s' hr => ?_
    rw [shiftR_shiftR] at hr
    convert hr using 2
    rw [Nat.ofDigits_cons]
    ring

theorem leftPad_cmp {arr : List (AV p)} {xs : List (ZMod p)} {len : AV p} {l : ZMod p} {n : ℕ} (hne : arr ≠ [])
    (h : AvsCon ext s arr xs) (hl : Con ext s len l) (hn : arr.length ≤ n) (hp : Nat.size n ≤ capacity p)
    (hle : l.val ≤ arr.length) :
    Cmp tbl ext s (leftPad arr len n) (fun rs s' =>
      AvsCon ext s' rs (List.replicate (n - l.val) 0 ++ xs.take l.val)) := by
  obtain ⟨a0, ha0⟩ : ∃ a, arr[0]? = some a := by
    cases arr with
    | nil => exact absurd rfl hne
    | cons a _ => exact ⟨a, rfl⟩
  have hpw : 2 ^ Nat.size n ≤ p := pow_capacity_le hp
  have hnlt : n < 2 ^ Nat.size n := Nat.lt_size_self n
  have hxl : xs.length = arr.length := h.length_eq.symm
  have hpos : 0 < arr.length := List.length_pos_of_ne_nil hne
  obtain ⟨x0, hx0⟩ : ∃ x0, xs[0]? = some x0 := ⟨_, List.getElem?_eq_getElem (by omega)⟩
  have hc0 : Con ext s a0 x0 := by
    obtain ⟨a, ha, hc⟩ := AvsCon.get h (i := 0) (by omega)
    rw [ha0] at ha
    cases ha
    simpa [List.getD, hx0] using hc
  unfold leftPad padResize
  rw [bind_assoc]
  refine Cmp.unwrap ha0 ?_
  rw [pure_bind]
  have hcur : AvsCon ext s (arr.take n ++ List.replicate (n - arr.length) a0)
      (xs ++ List.replicate (n - arr.length) x0) := by
    rw [List.take_of_length_le hn]
    refine AvsCon.append h ?_
    generalize n - arr.length = m
    induction m with
    | zero => exact .nil
    | succ m ih => exact .cons hc0 ih
  refine Cmp.bind (sub_cmp (a := .constant (n : ZMod p)) (b := .existing len) rfl hl) fun shift s1 e hs => ?_
  have hv : ((n : ZMod p) - l) = ((n - l.val : ℕ) : ZMod p) := by
    rw [Nat.cast_sub (by omega), ZMod.natCast_zmod_val]
  have hvv : ((n : ZMod p) - l).val = n - l.val := by
    rw [hv, ZMod.val_natCast, Nat.mod_eq_of_lt (by omega)]
  have h1 : 1 ≤ Nat.size n := Nat.size_pos.2 (by omega)
  have h2 : Nat.size n ≤ numBits p := by unfold capacity at hp; omega
  refine Cmp.bind (numToBits_cmp hs h1 h2 (by rw [hvv]; omega)) fun bits s2 e2 hb => ?_
  rw [hvv] at hb
  refine (padLoop_cmp (k := 0) hb ?_ ((AvsCon.mono hcur e).mono e2)).weaken fun rs s' hr => ?_
  · intro b hb
    simp only [limbsOf, List.mem_map] at hb
    obtain ⟨i, -, rfl⟩ := hb
    exact Nat.mod_lt _ (by norm_num)
  · convert hr using 1
    rw [pow_zero, mul_one]
    have hod : Nat.ofDigits 2 (limbsOf (n - l.val) (Nat.size n) 1) = n - l.val := by
      have := limbsOf_ofDigits (n - l.val) (Nat.size n) 1
      rw [one_mul, pow_one, Nat.mod_eq_of_lt (by omega)] at this
      exact this
    rw [hod]
    have hlen : (xs ++ List.replicate (n - arr.length) x0).length = n := by simp; omega
    have := shiftR_eq (xs ++ List.replicate (n - arr.length) x0) (k := l.val) (by omega)
    rw [hlen] at this
    rw [this, List.take_append_of_le_length (by omega)]

/-! ### ensure_0_padding -/

theorem maskBytes_cmp {l : List (AV p × AV p)} {us : List (ZMod p × ZMod p)}
    (h : List.Forall₂ (fun e u => Con ext s e.1 u.1 ∧ Con ext s e.2 u.2) l us) :
    Cmp tbl ext s (maskBytes l) (fun rs s' => AvsCon ext s' rs (us.map (fun u => u.1 * u.2))) := by
  induction l generalizing s us with
  | nil => cases h; exact Cmp.pure .nil
  | cons e l ih =>
    rcases h with _ | @⟨_, u, _, us, h1, h2⟩
    obtain ⟨a, b⟩ := e
    refine Cmp.bind (mul_cmp (a := .existing a) (b := .existing b) h1.1 h1.2) fun r s1 e hr => ?_
    refine Cmp.bind (ih (s := s1) (h2.imp fun _ _ h => ⟨h.1.mono e, h.2.mono e⟩)) fun rs s2 e2 hrs => Cmp.pure ?_
    exact .cons (hr.mono e2) hrs

theorem AvsCon.reverse {as : List (AV p)} {xs : List (ZMod p)} (h : AvsCon ext s as xs) :
    AvsCon ext s as.reverse xs.reverse := List.forall₂_reverse_iff.2 h

theorem avs_zip {as bs : List (AV p)} {xs ys : List (ZMod p)} (h : AvsCon ext s as xs) (h2 : AvsCon ext s bs ys) :
    List.Forall₂ (fun (e : AV p × AV p) (u : ZMod p × ZMod p) => Con ext s e.1 u.1 ∧ Con ext s e.2 u.2)
      (as.zip bs) (xs.zip ys) := by
  induction h generalizing bs ys with
  | nil => simp
  | cons h1 _ ih =>
    cases h2 with
    | nil => simp
    | cons h3 h4 => exact .cons ⟨h1, h3⟩ (ih h4)

theorem ensure0Padding_cmp {bytes : List (AV p)} {xs : List (ZMod p)} {len : AV p} {l : ZMod p}
    (h : AvsCon ext s bytes xs) (hl : Con ext s len l) (hn : bytes.length < p) (hle : l.val ≤ bytes.length) :
    Cmp tbl ext s (ensure0Padding bytes len) (fun rs s' =>
      AvsCon ext s' rs (xs.take l.val ++ List.replicate (bytes.length - l.val) 0)) := by
  refine Cmp.bind (dec_cmp (a := .existing len) hl) fun idx s1 e hi => ?_
  refine Cmp.bind (idxToIndicator_cmp (idx := .existing idx) (len := bytes.length) hi) fun ind s2 e2 hind => ?_
  rw [ind_eq hn] at hind
  refine Cmp.bind (partialSums_cmp (QsConT.existing hind.reverse)) fun mask s3 e3 hm => ?_
  have hb := ((h.mono e).mono e2).mono e3
  refine (maskBytes_cmp (avs_zip hb hm.reverse)).weaken fun rs s' hr => ?_
  convert hr using 1
  rcases bytes with _ | ⟨b, bs⟩
  · cases h
    simp
  · have hne : ind.reverse.map (.existing : AV p → QCell p) ≠ [] := by
      intro he
      have he : ind = [] := by simpa using he
      have := hind.length_eq
      rw [he] at this
      simp at this
    rw [if_neg hne, mask_spec _ _ hle]
    have hx := h.length_eq
    generalize hB : b :: bs = B at *
    generalize l.val = l at *
    refine List.ext_getElem (by simp; omega) fun i h1 h2 => ?_
    simp only [List.getElem_map, List.getElem_zip, List.getElem_range, List.getElem_append,
      List.getElem_take, List.getElem_replicate, List.length_take]
    have hi : i < B.length := by simp at h2; omega
    by_cases hil : i < l
    · rw [if_pos hil, dif_pos (by omega), mul_one]
    · rw [if_neg hil, dif_neg (by omega), mul_zero]

end H2
