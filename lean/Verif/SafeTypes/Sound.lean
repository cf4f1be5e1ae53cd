import Verif.SafeTypes.Model
import Verif.Range.SoundOps
import Verif.Gate.SoundBits

/-! # Soundness of the safe types -/

set_option autoImplicit false
namespace H2
variable {p : ℕ} [Fact p.Prime] {tbl : ZMod p → Prop} {L : ℕ}

/-- Right shift of a vector by `k` places, filling with zeros (specification). -/
def shiftR (k : ℕ) (v : List (ZMod p)) : List (ZMod p) :=
  (List.range v.length).map (fun j : ℕ => if k ≤ j then v.getD (j - k) 0 else 0)

theorem shiftR_length (k : ℕ) (v : List (ZMod p)) : (shiftR k v).length = v.length := by simp [shiftR]

theorem shiftR_getD {k j : ℕ} {v : List (ZMod p)} (hj : j < v.length) :
    (shiftR k v).getD j 0 = if k ≤ j then v.getD (j - k) 0 else 0 := by
  simp [shiftR, List.getD, hj]

theorem shiftR_zero (v : List (ZMod p)) : shiftR 0 v = v := by
  refine List.ext_getElem (shiftR_length _ _) fun i h1 h2 => ?_
  simp [shiftR, List.getD, h2]

theorem shiftR_shiftR (a b : ℕ) (v : List (ZMod p)) : shiftR a (shiftR b v) = shiftR (a + b) v := by
  unfold shiftR
  rw [List.length_map, List.length_range]
  refine List.map_congr_left fun j hj => ?_
  have hj := List.mem_range.1 hj
  change (if a ≤ j then (shiftR b v).getD (j - a) 0 else 0) = _
  rw [shiftR_getD (by omega)]
  by_cases h1 : a + b ≤ j
  · rw [if_pos (by omega), if_pos (by omega), if_pos h1, Nat.sub_sub]
  · rw [if_neg h1]
    split
    · rw [if_neg (by omega)]
    · rfl

/-- Shifting a vector right by `n - k` keeps exactly its first `k` entries, at the end. -/
theorem shiftR_eq (v : List (ZMod p)) {k : ℕ} (hk : k ≤ v.length) :
    shiftR (v.length - k) v = List.replicate (v.length - k) 0 ++ v.take k := by
  refine List.ext_getElem (by simp [shiftR_length]; omega) fun i h1 h2 => ?_
  rw [shiftR_length] at h1
  simp only [shiftR, List.getElem_map, List.getElem_range, List.getElem_append, List.length_replicate,
    List.getElem_replicate, List.getElem_take]
  by_cases h : i < v.length - k
  · rw [dif_pos h, if_neg (by omega)]
  · rw [dif_neg h, if_pos (by omega)]
    simp [List.getD, show i - (v.length - k) < v.length by omega]

/-! ### bool, byte -/

theorem assertBool_sound (a : AV p) :
    Sound tbl (assertBool a) (fun w r => r = a ∧ (at' w r = 0 ∨ at' w r = 1)) := fun s =>
  Snd.bind (assertBit_sound a s) fun _ _ _ => Snd.pure fun _ _ h => ⟨rfl, h⟩

theorem loadBool_sound (b : Bool) : Sound tbl (loadBool b) (fun w r => at' w r = 0 ∨ at' w r = 1) := fun s =>
  Snd.bind (loadWitness_sound _ s) fun a s1 _ => (assertBool_sound a s1).weaken fun _ _ _ h _ => h.2

theorem assertByte_sound (a : AV p) (hL : RangeOk p L) :
    Sound (RangeTable p L) (assertByte L a) (fun w r => r = a ∧ ∃ m : ℕ, m < 256 ∧ at' w r = (m : ZMod p)) := fun s =>
  Snd.bind (rangeCheck_sound a 8 hL s) fun _ _ _ => Snd.pure fun _ _ h => ⟨rfl, h⟩

theorem loadByte_sound (b : ℕ) (hL : RangeOk p L) :
    Sound (RangeTable p L) (loadByte L b) (fun w r => ∃ m : ℕ, m < 256 ∧ at' w r = (m : ZMod p)) := fun s =>
  Snd.bind (loadWitness_sound _ s) fun a s1 _ => (assertByte_sound a hL s1).weaken fun _ _ _ h _ => h.2

theorem assertByteList_sound (as : List (AV p)) (hL : RangeOk p L) :
    Sound (RangeTable p L) (assertByteList L as) (fun w rs => rs = as ∧
      ∀ a ∈ as, ∃ m : ℕ, m < 256 ∧ at' w a = (m : ZMod p)) := by
  induction as with
  | nil => exact fun s => Snd.pure fun w _ => ⟨rfl, by simp⟩
  | cons a as ih =>
    intro s
    refine Snd.bind (assertByte_sound a hL s) fun b s1 _ => ?_
    refine Snd.bind (ih s1) fun bs s2 _ => Snd.pure ?_
    rintro w _ ⟨rfl, h⟩ ⟨rfl, h2⟩
    exact ⟨rfl, by simpa using ⟨h2, h⟩⟩

theorem varLenNew_sound (bytes : List (AV p)) (len : AV p) (n : ℕ) :
    Sound tbl (varLenNew bytes len n) (fun _ r => r = ⟨bytes, len⟩ ∧ bytes.length = n) := fun s =>
  Snd.unwrap fun _ _ => Snd.assert fun _ => Snd.assert fun h => Snd.pure fun _ _ => ⟨rfl, of_decide_eq_true h⟩

theorem fixLenNew_sound (bytes : List (AV p)) (n : ℕ) :
    Sound tbl (fixLenNew bytes n) (fun _ r => r = bytes ∧ bytes.length = n) := fun s =>
  Snd.assert fun h => Snd.pure fun _ _ => ⟨rfl, of_decide_eq_true h⟩

theorem rawToVarLenBytes_sound (inputs : List (AV p)) (len : AV p) (n : ℕ) (hL : RangeOk p L)
    (hb : LtSafeOk p L (n + 1)) :
    Sound (RangeTable p L) (rawToVarLenBytes L inputs len n) (fun w r => r = ⟨inputs, len⟩ ∧
      inputs.length = n ∧ (at' w len).val ≤ n ∧ ∀ a ∈ inputs, ∃ m : ℕ, m < 256 ∧ at' w a = (m : ZMod p)) := by
  intro s
  refine Snd.bind (checkLessThanSafe_sound len (n + 1) hL hb s) fun _ s1 _ => ?_
  refine Snd.bind (assertByteList_sound inputs hL s1) fun bs s2 _ => ?_
  refine (varLenNew_sound bs len n s2).weaken ?_
  rintro w r _ ⟨rfl, h1⟩ ⟨rfl, h2⟩ h3
  exact ⟨rfl, h1, by omega, h2⟩

theorem rawToFixLenBytes_sound (inputs : List (AV p)) (n : ℕ) (hL : RangeOk p L) :
    Sound (RangeTable p L) (rawToFixLenBytes L inputs n) (fun w r => r = inputs ∧
      inputs.length = n ∧ ∀ a ∈ inputs, ∃ m : ℕ, m < 256 ∧ at' w a = (m : ZMod p)) := by
  intro s
  refine Snd.bind (assertByteList_sound inputs hL s) fun bs s2 _ => ?_
  refine (fixLenNew_sound bs n s2).weaken ?_
  rintro w r _ ⟨rfl, h1⟩ ⟨rfl, h2⟩
  exact ⟨rfl, h1, h2⟩

/-! ### raw_bytes_to -/

theorem addBytesConstraints_sound (as : List (AV p)) (bits : ℕ) (hL : RangeOk p L) :
    Sound (RangeTable p L) (addBytesConstraints L as bits) (fun w _ => ∀ (i : ℕ) (a : AV p), as[i]? = some a →
      ∃ m : ℕ, m < 2 ^ min (bits - 8 * i) 8 ∧ at' w a = (m : ZMod p)) := by
  induction as generalizing bits with
  | nil => exact fun s => Snd.pure fun w _ => by simp
  | cons a as ih =>
    intro s
    refine Snd.bind (rangeCheck_sound a (min bits 8) hL s) fun _ s1 _ => ?_
    refine (ih (bits - min bits 8) s1).weaken ?_
    intro w _ _ h h0 i b hb
    cases i with
    | zero => simp only [List.getElem?_cons_zero, Option.some.injEq] at hb; subst hb; simpa using h0
    | succ i =>
      obtain ⟨m, h1, h2⟩ := h i b (by simpa using hb)
      refine ⟨m, lt_of_lt_of_le h1 (Nat.pow_le_pow_right (by norm_num) ?_), h2⟩
      omega

theorem safeTypeNew_sound (B T : ℕ) (raw : List (AV p)) :
    Sound tbl (safeTypeNew B T raw) (fun _ r => r = raw ∧ raw.length = valueLength B T) := fun s =>
  Snd.assert fun h => Snd.pure fun _ _ => ⟨rfl, of_decide_eq_true h⟩

/-! ### barrel shifter -/

theorem padShift_rd {s : Ctx p} (cur : List (AV p)) (k j : ℕ) :
    Rd s (padShift cur k j) (fun q => (2 ^ k ≤ j → ∃ a, cur[j - 2 ^ k]? = some a ∧ q = .existing a) ∧
      (¬ 2 ^ k ≤ j → q = .constant 0)) := by
  unfold padShift
  refine Rd.ite (fun h => Rd.bind (unwrap_rd _) fun a ha => Rd.pure ?_) (fun h => Rd.pure ?_)
  · exact ⟨fun _ => ⟨a, ha, rfl⟩, fun h' => absurd h h'⟩
  · exact ⟨fun h' => absurd h' h, fun _ => rfl⟩

theorem padStage_sound (cur : List (AV p)) (k : ℕ) (bit : AV p) (l : List (ℕ × AV p)) :
    Sound tbl (padStage cur k bit l) (fun w rs => rs.map (at' w) = l.map (fun e =>
      ((if 2 ^ k ≤ e.1 then (cur.map (at' w)).getD (e.1 - 2 ^ k) 0 else 0) - at' w e.2) * at' w bit + at' w e.2)) := by
  induction l with
  | nil => exact fun s => Snd.pure fun w _ => rfl
  | cons e l ih =>
    obtain ⟨j, a⟩ := e
    intro s
    refine Snd.rd (padShift_rd cur k j) fun q hq => ?_
    refine Snd.bind (select_sound _ _ _ s) fun r s1 _ => ?_
    refine Snd.bind (ih s1) fun rs s2 _ => Snd.pure ?_
    rintro w _ h1 ⟨x, y, z, hx, hy, hz, hr⟩
    simp only [List.map_cons, h1, List.cons.injEq, and_true]
    rw [hr, show y = at' w a from hy, show z = at' w bit from hz]
    by_cases hk : 2 ^ k ≤ j
    · obtain ⟨b, hb, rfl⟩ := hq.1 hk
      rw [if_pos hk, show x = at' w b from hx]
      simp [List.getD, hb]
    · rw [hq.2 hk] at hx
      rw [if_neg hk, show x = 0 from hx]

theorem map_range_zip {α β : Type} (l : List α) (d : α) (f : ℕ → α → β) :
    ((List.range l.length).zip l).map (fun e => f e.1 e.2) = (List.range l.length).map (fun j => f j (l.getD j d)) := by
  refine List.ext_getElem (by simp) fun i h1 h2 => ?_
  have : i < l.length := by simpa using h2
  simp [List.getD, this]

theorem padStage_shift (cur : List (AV p)) (k : ℕ) (bit : AV p) :
    Sound tbl (padStage cur k bit ((List.range cur.length).zip cur)) (fun w rs => ∀ b : ℕ, b < 2 →
      at' w bit = (b : ZMod p) → rs.map (at' w) = shiftR (b * 2 ^ k) (cur.map (at' w))) := by
  intro s
  refine (padStage_sound cur k bit _ s).weaken ?_
  intro w rs _ h b hb hbit
  rw [h, hbit]
  unfold shiftR
  rw [List.length_map]
  refine List.ext_getElem (by simp) fun i h1 h2 => ?_
  have hi : i < cur.length := by simpa using h1
  obtain rfl | rfl : b = 0 ∨ b = 1 := by omega
  · simp [List.getD, hi]
  · simp [List.getD, hi]

theorem padLoop_sound (k : ℕ) (bits cur : List (AV p)) :
    Sound tbl (padLoop k bits cur) (fun w rs => ∀ bs : List ℕ, (∀ b ∈ bs, b < 2) →
      bits.map (at' w) = bs.map (fun b : ℕ => (b : ZMod p)) →
      rs.map (at' w) = shiftR (Nat.ofDigits 2 bs * 2 ^ k) (cur.map (at' w))) := by
  induction bits generalizing k cur with
  | nil =>
    refine fun s => Snd.pure fun w _ bs _ h => ?_
    have : bs = [] := by cases bs with
      | nil => rfl
      | cons => simp at h
    subst this
    simp [shiftR_zero]
  | cons bit bits ih =>
    intro s
    refine Snd.bind (padStage_shift cur k bit s) fun cur' s1 _ => ?_
    refine (ih (k + 1) cur' s1).weaken ?_
    intro w rs _ h h0 bs hb hbs
    cases bs with
    | nil => simp at hbs
    | cons b bs =>
      simp only [List.map_cons, List.cons.injEq] at hbs
      rw [h bs (fun x hx => hb x (by simp [hx])) hbs.2, h0 b (hb b (by simp)) hbs.1, shiftR_shiftR,
        Nat.ofDigits_cons]
      congr 1
      push_cast
      ring

theorem padResize_rd {s : Ctx p} (arr : List (AV p)) (n : ℕ) :
    Rd s (padResize arr n) (fun r => arr ≠ [] ∧ ∃ a, r = arr.take n ++ List.replicate (n - arr.length) a) := by
  unfold padResize
  refine Rd.bind (unwrap_rd _) fun a ha => Rd.pure ⟨?_, a, rfl⟩
  rintro rfl
  simp at ha

theorem leftPad_sound (arr : List (AV p)) (len : AV p) (n : ℕ) (hn : arr.length ≤ n) (hp : 2 ^ Nat.size n ≤ p) :
    Sound tbl (leftPad arr len n) (fun w rs => (at' w len).val ≤ arr.length →
      rs.map (at' w) = List.replicate (n - (at' w len).val) 0 ++ (arr.map (at' w)).take (at' w len).val) := by
  intro s
  refine Snd.rd (padResize_rd arr n) fun padded hpad => ?_
  obtain ⟨-, a0, rfl⟩ := hpad
  refine Snd.bind (sub_sound _ _ s) fun shift s1 _ => ?_
  refine Snd.bind (numToBits_sound shift _ s1) fun bits s2 _ => ?_
  refine (padLoop_sound 0 bits _ s2).weaken ?_
  rintro w rs _ h ⟨bs, hb, hbs, -, hlt, hval⟩ ⟨x, y, hx, hy, hr⟩ hlen
  have h1 := h bs hb hbs
  rw [pow_zero, mul_one] at h1
  set l := (at' w len).val with hl
  have hsh : Nat.ofDigits 2 bs = n - l := by
    have e1 : ((Nat.ofDigits 2 bs : ℕ) : ZMod p) = ((n - l : ℕ) : ZMod p) := by
      rw [← hval, hr, show x = (n : ZMod p) from hx, show y = at' w len from hy, Nat.cast_sub (by omega), hl,
        ZMod.natCast_zmod_val]
    have h2 : n < 2 ^ Nat.size n := Nat.lt_size_self n
    rw [ZMod.natCast_eq_natCast_iff'] at e1
    rwa [Nat.mod_eq_of_lt (by omega), Nat.mod_eq_of_lt (by omega)] at e1
  rw [hsh, List.take_of_length_le hn] at h1
  rw [h1]
  set v := List.map (at' w) (arr ++ List.replicate (n - arr.length) a0) with hv
  have hvl : v.length = n := by simp [hv]; omega
  have := shiftR_eq v (k := l) (by omega)
  rw [hvl] at this
  rw [this, hv, List.map_append, List.take_append_of_le_length (by simpa using hlen)]

/-! ### ensure_0_padding -/

theorem maskBytes_sound (l : List (AV p × AV p)) :
    Sound tbl (maskBytes l) (fun w rs => rs.map (at' w) = l.map (fun e => at' w e.1 * at' w e.2)) := by
  induction l with
  | nil => exact fun s => Snd.pure fun w _ => rfl
  | cons e l ih =>
    obtain ⟨a, b⟩ := e
    intro s
    refine Snd.bind (mul_sound _ _ s) fun r s1 _ => ?_
    refine Snd.bind (ih s1) fun rs s2 _ => Snd.pure ?_
    rintro w _ h1 ⟨x, y, hx, hy, hr⟩
    simp only [List.map_cons, h1, List.cons.injEq, and_true]
    rw [hr, show x = at' w a from hx, show y = at' w b from hy]

theorem indSum (l i c : ℕ) : ((List.range' i c).map (fun j : ℕ => if j + 1 = l then (1 : ZMod p) else 0)).sum =
    if i < l ∧ l ≤ i + c then 1 else 0 := by
  induction c generalizing i with
  | zero => simp
  | succ c ih =>
    rw [List.range'_succ, List.map_cons, List.sum_cons, ih]
    by_cases h1 : i + 1 = l
    · rw [if_pos h1, if_neg (by omega), if_pos (by omega), add_zero]
    · rw [if_neg h1, zero_add]
      exact if_congr (by omega) rfl rfl

/-- The mask built from the reversed partial sums of the one-hot vector at `l - 1`. -/
theorem mask_spec (n l : ℕ) (hl : l ≤ n) :
    (psums ((List.range n).map (fun j : ℕ => if j + 1 = l then (1 : ZMod p) else 0)).reverse).reverse =
      (List.range n).map (fun i : ℕ => if i < l then 1 else 0) := by
  refine List.ext_getElem (by simp [psums]) fun i h1 h2 => ?_
  have hi : i < n := by simpa using h2
  rw [List.getElem_reverse]
  simp only [psums, List.length_map, List.length_range, List.length_reverse, List.getElem_map, List.getElem_range]
  rw [List.take_reverse, List.sum_reverse, List.length_map, List.length_range,
    show n - (n - 1 - i + 1) = i by omega, ← List.map_drop, List.range_eq_range', List.drop_range']
  rw [indSum]
  exact if_congr (by omega) rfl rfl

theorem ind_eq {n : ℕ} (hn : n < p) (y : ZMod p) : (List.range n).map (fun i : ℕ => if y - 1 = (i : ZMod p) then (1 : ZMod p) else 0)
    = (List.range n).map (fun j : ℕ => if j + 1 = y.val then (1 : ZMod p) else 0) := by
  refine List.map_congr_left fun j hj => if_congr ?_ rfl rfl
  have hj := List.mem_range.1 hj
  rw [sub_eq_iff_eq_add]
  constructor
  · intro h
    rw [h, ← Nat.cast_succ, ZMod.val_natCast, Nat.mod_eq_of_lt (by omega)]
  · intro h
    rw [← ZMod.natCast_zmod_val y, ← h]
    push_cast; rfl

theorem QOks_existing {w : Cell → ZMod p} {as : List (AV p)} {xs : List (ZMod p)}
    (h : QOks w (as.map .existing) xs) : xs = as.map (at' w) := by
  induction as generalizing xs with
  | nil => cases h; rfl
  | cons a as ih =>
    cases h with
    | cons h1 h2 => rw [ih h2, show _ = at' w a from h1]; rfl

theorem ensure0Padding_sound (bytes : List (AV p)) (len : AV p) (hn : bytes.length < p) :
    Sound tbl (ensure0Padding bytes len) (fun w rs => (at' w len).val ≤ bytes.length →
      rs.map (at' w) = (bytes.map (at' w)).take (at' w len).val ++
        List.replicate (bytes.length - (at' w len).val) 0) := by
  intro s
  refine Snd.bind (dec_sound _ s) fun idx s1 _ => ?_
  refine Snd.bind (idxToIndicator_sound _ _ s1) fun ind s2 _ => ?_
  refine Snd.bind (partialSums_sound _ s2) fun mask s3 _ => ?_
  refine (maskBytes_sound _ s3).weaken ?_
  rintro w rs _ h ⟨xs, hxs, hmask⟩ ⟨x, hx, hind⟩ ⟨y, hy, hidx⟩ hlen
  have hy : y = at' w len := hy
  have hx : x = at' w idx := hx
  subst hy
  rw [hx, hidx, ind_eq hn] at hind
  have hxs := QOks_existing hxs
  rw [h]
  rcases bytes with _ | ⟨b, bs⟩
  · simp
  · have hne : ind.reverse.map (.existing : AV p → QCell p) ≠ [] := by
      intro he
      have : ind = [] := by simpa using he
      rw [this] at hind
      simp at hind
    rw [if_neg hne, hxs, List.map_reverse, hind] at hmask
    have hm : mask.reverse.map (at' w) = _ := (List.map_reverse).trans ((congrArg List.reverse hmask).trans (mask_spec _ _ hlen))
    generalize hB : b :: bs = B at *
    generalize (at' w len).val = l at *
    have e1 : (B.zip mask.reverse).map (fun e => at' w e.1 * at' w e.2) =
        List.zipWith (· * ·) (B.map (at' w)) (mask.reverse.map (at' w)) := by
      rw [List.zipWith_map, List.zip, List.map_zipWith]
    rw [e1, hm]
    refine List.ext_getElem (by simp; omega) fun i h1 h2 => ?_
    simp only [List.getElem_zipWith, List.getElem_map, List.getElem_range, List.getElem_append,
      List.getElem_take, List.getElem_replicate, List.length_take, List.length_map]
    have hi : i < B.length := by simpa using h1
    by_cases hil : i < l
    · rw [if_pos hil, dif_pos (by omega), mul_one]
    · rw [if_neg hil, dif_neg (by omega), mul_zero]

end H2
