import Verif.Range.SoundOps
import Verif.Gate.CompleteBits

/-! # Completeness of the range chip -/

set_option autoImplicit false
namespace H2
variable {p : ℕ} [Fact p.Prime] {ext : Cell → ZMod p} {s : Ctx p} {L : ℕ}

theorem pow2At_pure {n : ℕ} (h : n < numBits p) : (pow2At n : M p (ZMod p)) = pure (2 ^ n) := by
  funext s
  simp [pow2At, unwrap, powOfTwo, h]

theorem bigToFe_pure {n : ℕ} (h : n < p) : (bigToFe n : M p (ZMod p)) = pure (n : ZMod p) := by
  simp [bigToFe, h]

theorem lt_numBits_of_le_capacity {n : ℕ} (h : n ≤ capacity p) : n < numBits p := by
  have h2 : 2 ≤ p := (Fact.out : p.Prime).two_le
  have hs : 1 < Nat.size p := Nat.lt_size.2 (by simpa using h2)
  rw [capacity] at h
  unfold numBits at *
  omega

/-- `range_check` only adds constraints, for any parameters and table. -/
theorem rangeCheck_ext {tbl : ZMod p → Prop} {s : Ctx p} (L : ℕ) (a : AV p) (n : ℕ) :
    Snd tbl s (rangeCheck L a n) (fun _ _ _ => True) := by
  have hl : ∀ {s : Ctx p} (a : AV p) (k : ℕ), Snd tbl s (rangeLimbs L a k) (fun _ _ _ => True) := by
    intro s a k
    unfold rangeLimbs
    refine Snd.ite (fun _ => ?_) fun _ => ?_
    · exact Snd.bind (addCellToLookup_sound a s) fun _ _ _ => Snd.pure fun _ _ _ => trivial
    · refine Snd.unwrap fun x _ => adviceLen_snd ?_
      refine Snd.rd (sliceTo_rd _ _) fun bases hp => ?_
      obtain ⟨hn, rfl⟩ := hp
      unfold innerProduct
      simp only [bind_assoc]
      refine Snd.bind (innerProductSimple_snd _ _ (by simp [limbsOf, hn])) fun one s1 e1 => ?_
      refine Snd.rd lastM_rd fun acc hacc => ?_
      refine Snd.bind (constrainEqual_snd a acc) fun _ s2 e2 => ?_
      refine Snd.bind (lookupsAt_snd _) fun _ s3 e3 => ?_
      exact Snd.weaken ((getM_rd _).snd) fun _ _ _ _ _ _ _ => trivial
  have hr : ∀ {s : Ctx p} (a : AV p) (k : ℕ), Snd tbl s (rangeRem L a k) (fun _ _ _ => True) := by
    intro s a k
    unfold rangeRem
    refine Snd.ite (fun _ => ?_) fun _ => Snd.ite (fun _ => ?_) fun _ => ?_
    · exact (assertBit_sound a s).weaken fun _ _ _ _ => trivial
    · refine Snd.rd (pow2At_rd _) fun m _ => ?_
      refine Snd.bind (mul_sound _ _ s) fun c s1 _ => ?_
      exact (addCellToLookup_sound c s1).weaken fun _ _ _ _ _ => trivial
    · exact Snd.pure fun _ _ => trivial
  unfold rangeCheck rangeCheckLimb
  refine Snd.bind (Q := fun _ _ _ => True) (Snd.ite (fun _ => ?_) fun _ => ?_) fun _ _ _ => Snd.pure fun _ _ _ => trivial
  · exact Snd.bind (assertIsConst_sound a 0 s) fun _ _ _ => Snd.pure fun _ _ _ => trivial
  · exact Snd.bind (hl _ _) fun _ _ _ => Snd.bind (hr _ _) fun _ _ _ => Snd.pure fun _ _ _ _ => trivial

theorem lookupsAt_cmp {tbl : ZMod p → Prop} {os : List ℤ}
    (h : ∀ o ∈ os, ∃ (i : ℕ) (x : ZMod p), (i : ℤ) = o ∧ s.advice[i]? = some (.trivial x) ∧ tbl x) :
    Cmp tbl ext s (lookupsAt os) (fun _ s' => s'.advice = s.advice) := by
  induction os generalizing s with
  | nil => exact Cmp.pure rfl
  | cons o os ih =>
    obtain ⟨i, x, h1, h2, h3⟩ := h o (by simp)
    refine Cmp.bind (getM_con (i := i) (x := x) (by rw [if_neg (by omega)]; exact h1) h2) fun c s1 _ ⟨e1, hc⟩ => ?_
    subst e1
    refine Cmp.bind (addCellToLookup_cmp hc.conF h3) fun _ s2 _ h4 => ?_
    refine (ih ?_).weaken fun _ _ h5 => h5.trans h4
    intro o' ho'
    rw [h4]
    exact h o' (by simp [ho'])

theorem rangeTable_cast {n : ℕ} (h : n < 2 ^ L) : RangeTable p L (n : ZMod p) := ⟨n, h, rfl⟩

theorem limbsOf_get {n k b i : ℕ} (hi : i < k) : (limbsOf n k b)[i]? = some (n / 2 ^ (b * i) % 2 ^ b) := by
  simp [limbsOf, hi]

theorem rangeLimbs_cmp {a : AV p} {x : ZMod p} {k : ℕ} (ha : Con ext s a x) (hL : 1 ≤ L) (h1 : 1 ≤ k)
    (hk : k ≤ capacity p / L + 1) (hx : x.val < 2 ^ (L * k)) :
    Cmp (RangeTable p L) ext s (rangeLimbs L a k) (fun r s' =>
      Con ext s' r ((x.val / 2 ^ (L * (k - 1)) : ℕ) : ZMod p)) := by
  unfold rangeLimbs
  by_cases hk1 : k = 1
  · subst hk1
    rw [if_pos rfl]
    have hx' : x = ((x.val : ℕ) : ZMod p) := (ZMod.natCast_zmod_val x).symm
    refine Cmp.bind (addCellToLookup_cmp ha.conF ?_) fun _ s1 e1 _ => Cmp.pure ?_
    · rw [hx']; exact rangeTable_cast (by simpa using hx)
    · simpa using ha.mono e1
  · rw [if_neg hk1]
    have hn' : k ≤ (limbBases p L).length := by simp [limbBases]; omega
    refine Cmp.unwrap ha.val (adviceLen_cmp ?_)
    rw [sliceTo_pure hn', pure_bind, limbBases_take hn']
    have hbl : (limbsOf x.val k L).length = k := limbsOf_length _ _ _
    have hW : QsConT ext s ((limbsOf x.val k L).map (fun b : ℕ => (.witness (b : ZMod p) : QCell p)))
        ((limbsOf x.val k L).map (fun b : ℕ => (b : ZMod p))) := by
      have := QsConT.witnesses (ext := ext) (s := s) ((limbsOf x.val k L).map (fun b : ℕ => (b : ZMod p)))
      rwa [List.map_map] at this
    refine Cmp.bind (innerProduct_cmpA hW (QsConT.constants _) (by simp [hbl])) fun acc s1 e1 ⟨hacc, hadv⟩ => ?_
    have hdot : dot ((limbsOf x.val k L).map (fun b : ℕ => (b : ZMod p)))
        ((List.range k).map (fun i : ℕ => ((2 ^ L : ℕ) : ZMod p) ^ i)) = x := by
      have := dot_powB (p := p) (2 ^ L) (limbsOf x.val k L)
      rw [hbl] at this
      rw [this, limbsOf_ofDigits, Nat.mod_eq_of_lt hx]
      exact ZMod.natCast_zmod_val x
    rw [hdot] at hacc
    refine Cmp.bind (constrainEqual_cmp (ha.conF.mono e1) hacc.conF) fun _ s2 e2 h2 => ?_
    have hone : startsWithOne ((List.range k).map (fun i : ℕ => ((2 ^ L : ℕ) : ZMod p) ^ i) |>.map
        (QCell.constant : ZMod p → QCell p)) = true := by
      obtain ⟨m, rfl⟩ : ∃ m, k = m + 1 := ⟨k - 1, by omega⟩
      rw [startsWithOne_iff, List.range_succ_eq_map]; simp
    rw [hone] at hadv
    have hrow : ∀ i < k, s2.advice[s.advice.length + ipRow true i]?
        = some (.trivial ((x.val / 2 ^ (L * i) % 2 ^ L : ℕ) : ZMod p)) := by
      intro i hi
      rw [h2, hadv, List.getElem?_append_right (by omega), Nat.add_sub_cancel_left, List.getElem?_map,
        ipVals_x (by simp [hbl]) (by simpa [hbl] using hi), List.getElem?_map, limbsOf_get hi]
      rfl
    refine Cmp.bind (lookupsAt_cmp ?_) fun _ s3 e3 h3 => ?_
    · intro o ho
      rcases List.mem_cons.1 ho with rfl | ho
      · refine ⟨_, _, ?_, hrow 0 (by omega), rangeTable_cast (Nat.mod_lt _ (by positivity))⟩
        simp [ipRow]
      · obtain ⟨i, hi, rfl⟩ := List.mem_map.1 ho
        rw [List.mem_range] at hi
        refine ⟨_, _, ?_, hrow (i + 1) (by omega), rangeTable_cast (Nat.mod_lt _ (by positivity))⟩
        simp [ipRow]; omega
    · have hlast := hrow (k - 1) (by omega)
      rw [← h3] at hlast
      refine (getM_con (x := ((x.val / 2 ^ (L * (k - 1)) % 2 ^ L : ℕ) : ZMod p))
        (i := s.advice.length + ipRow true (k - 1)) ?_ hlast).weaken ?_
      · rw [if_neg (by omega)]
        simp only [ipRow, if_true]
        rw [if_neg (by omega)]
        congr 1; omega
      · rintro r s4 ⟨-, h⟩
        rw [Nat.mod_eq_of_lt] at h
        · exact h
        · rw [Nat.div_lt_iff_lt_mul (by positivity), ← pow_add]
          refine lt_of_lt_of_eq hx ?_
          congr 1
          obtain ⟨m, rfl⟩ : ∃ m, k = m + 1 := ⟨k - 1, by omega⟩
          simp; ring

theorem rangeRem_cmp {last : AV p} {h rem : ℕ} (hL : RangeOk p L) (hrem : rem < L)
    (hc : Con ext s last (h : ZMod p)) (hh : rem ≠ 0 → h < 2 ^ rem) :
    Cmp (RangeTable p L) ext s (rangeRem L last rem) (fun _ _ => True) := by
  unfold rangeRem
  by_cases h1 : rem = 1
  · rw [if_pos h1]
    refine assertBit_cmp hc ?_
    have := hh (by omega)
    rw [h1] at this
    exact bit_cast (by simpa using this)
  · rw [if_neg h1]
    by_cases h2 : 1 < rem
    · rw [if_pos h2, pow2At_pure (lt_numBits_of_le_capacity (by have := hL.big; omega)), pure_bind]
      refine Cmp.bind (mul_cmp (a := .existing last) (b := .constant (2 ^ (L - rem))) hc rfl) fun c s1 _ hc' => ?_
      refine (addCellToLookup_cmp hc'.conF ⟨h * 2 ^ (L - rem), ?_, by push_cast; ring⟩).weaken fun _ _ _ => trivial
      calc h * 2 ^ (L - rem) < 2 ^ rem * 2 ^ (L - rem) := Nat.mul_lt_mul_of_pos_right (hh (by omega)) (by positivity)
        _ = 2 ^ L := by rw [← pow_add]; congr 1; omega
    · rw [if_neg h2]
      exact Cmp.pure trivial

theorem rangeCheckLimb_cmp {a : AV p} {x : ZMod p} {n : ℕ} (hL : RangeOk p L) (ha : Con ext s a x)
    (hn : ceilDiv n L ≤ capacity p / L + 1) (hx : x.val < 2 ^ n) :
    Cmp (RangeTable p L) ext s (rangeCheckLimb L a n) (fun r s' =>
      1 ≤ n → Con ext s' r ((x.val / 2 ^ (L * (ceilDiv n L - 1)) : ℕ) : ZMod p)) := by
  unfold rangeCheckLimb
  by_cases h0 : n = 0
  · subst h0
    rw [if_pos rfl]
    have : x = 0 := by
      rw [← ZMod.val_eq_zero]; simpa using hx
    subst this
    refine Cmp.bind (assertIsConst_cmp ha.conF) fun _ s1 e1 _ => Cmp.pure (fun h => absurd h (by omega))
  · rw [if_neg h0]
    obtain ⟨hk1, hk2, hk3, hk4, hk5⟩ := ceilDiv_spec (n := n) hL.pos (by omega)
    refine Cmp.bind (rangeLimbs_cmp ha hL.pos hk1 hn (lt_of_lt_of_le hx (Nat.pow_le_pow_right (by norm_num)
      (by rw [Nat.mul_comm]; exact hk2)))) fun last s1 e1 hlast => ?_
    refine Cmp.bind (rangeRem_cmp hL (Nat.mod_lt _ hL.pos) hlast ?_) fun _ s2 e2 _ =>
      Cmp.pure fun _ => hlast.mono e2
    intro hr
    rw [Nat.div_lt_iff_lt_mul (by positivity), ← pow_add]
    refine lt_of_lt_of_eq hx ?_
    have := hk5 hr
    congr 1
    rw [Nat.mul_comm L]; omega

theorem rangeCheck_cmp {a : AV p} {x : ZMod p} {n : ℕ} (hL : RangeOk p L) (ha : Con ext s a x)
    (hn : ceilDiv n L ≤ capacity p / L + 1) (hx : x.val < 2 ^ n) :
    Cmp (RangeTable p L) ext s (rangeCheck L a n) (fun _ _ => True) :=
  Cmp.bind (rangeCheckLimb_cmp hL ha hn hx) fun _ _ _ _ => Cmp.pure trivial

theorem cmpRegion_cmp {tbl : ZMod p → Prop} {a b : QCell p} {x y : ZMod p} (pw : ZMod p)
    (ha : QCon ext s a x) (hb : QCon ext s b y) :
    Cmp tbl ext s (do
        assignRegion [.witness (pw + x - y), b, .constant 1, .witness (pw + x), .constant (-pw), .constant 1, a] [0, 3]
        getM (-7)) (fun r s' => Con ext s' r (pw + x - y)) := by
  refine regionGet_cmp [pw + x - y, y, 1, pw + x, -pw, 1, x] 0
    (.cons rfl (.cons hb.qConF (.cons rfl (.cons rfl (.cons rfl (.cons rfl (.cons ha.qConF .nil))))))) ?_
    (by simp) (by omega) rfl
  intro o ho
  simp only [List.mem_cons, List.not_mem_nil, or_false] at ho
  rcases ho with rfl | rfl
  · simp [GateL]
  · refine ⟨by omega, by simp, ?_⟩
    simp [show (3 : ℤ).toNat = 3 from rfl]

/-- Exact acceptance condition of `check_less_than`: the difference `2^n + a - b` is in range. -/
theorem checkLessThan_cmp {a b : QCell p} {x y : ZMod p} {n : ℕ} (hL : RangeOk p L) (ha : QCon ext s a x)
    (hb : QCon ext s b y) (hn1 : n < numBits p) (hn : ceilDiv n L ≤ capacity p / L + 1)
    (hx : (2 ^ n + x - y).val < 2 ^ n) :
    Cmp (RangeTable p L) ext s (checkLessThan L a b n) (fun _ _ => True) := by
  unfold checkLessThan
  rw [pow2At_pure hn1, pure_bind]
  refine Cmp.unwrap ha.val (Cmp.unwrap hb.val ?_)
  have := Cmp.bind (cmpRegion_cmp (tbl := RangeTable p L) (2 ^ n) ha hb) fun c s1 _ hc =>
    rangeCheck_cmp hL hc hn hx
  simpa only [bind_assoc] using this

theorem shift_val_lt {x y : ZMod p} {n : ℕ} (hxy : x.val < y.val) (hy : y.val ≤ 2 ^ n + x.val)
    (hp : 2 ^ n ≤ p) : (2 ^ n + x - y).val < 2 ^ n := by
  have : (2 ^ n + x - y) = ((2 ^ n + x.val - y.val : ℕ) : ZMod p) := by
    rw [Nat.cast_sub hy]
    push_cast
    rw [ZMod.natCast_zmod_val, ZMod.natCast_zmod_val]
  rw [this, ZMod.val_natCast_of_lt (by omega)]
  omega

theorem ceilDiv_le_of_mul_le {n K : ℕ} (hL : 1 ≤ L) (h : ceilDiv n L * L ≤ K) : ceilDiv n L ≤ K / L + 1 := by
  have := (Nat.le_div_iff_mul_le (by omega)).2 h
  omega

theorem ceilDiv_mul (hL : 1 ≤ L) (k : ℕ) : ceilDiv (k * L) L = k := by
  unfold ceilDiv
  rw [Nat.div_eq_iff (by omega)]
  constructor <;> omega

theorem ceilDiv_safeBits (hL : 1 ≤ L) (b : ℕ) : ceilDiv (safeBits L b) L * L = safeBits L b := by
  rw [safeBits, ceilDiv_mul hL]

/-- Exact acceptance condition of `check_less_than_safe`. -/
theorem checkLessThanSafe_cmp' {a : AV p} {x : ZMod p} {b : ℕ} (hL : RangeOk p L) (ha : Con ext s a x)
    (hn : safeBits L b ≤ capacity p) (hx : x.val < 2 ^ safeBits L b)
    (hd : (2 ^ safeBits L b + x - (b : ZMod p)).val < 2 ^ safeBits L b) :
    Cmp (RangeTable p L) ext s (checkLessThanSafe L a b) (fun _ _ => True) := by
  unfold checkLessThanSafe
  have hn2 : ceilDiv (safeBits L b) L ≤ capacity p / L + 1 :=
    ceilDiv_le_of_mul_le hL.pos (by rw [ceilDiv_safeBits hL.pos]; exact hn)
  refine Cmp.bind (rangeCheck_cmp hL ha hn2 hx) fun _ s1 e1 _ => ?_
  exact checkLessThan_cmp (a := .existing a) (b := .constant (b : ZMod p)) hL (ha.mono e1) rfl
    (lt_numBits_of_le_capacity hn) hn2 hd

theorem checkBigLessThanSafe_cmp' {a : AV p} {x : ZMod p} {b : ℕ} (hL : RangeOk p L) (ha : Con ext s a x)
    (hb : b < p) (hn : safeBits L b ≤ capacity p) (hx : x.val < 2 ^ safeBits L b)
    (hd : (2 ^ safeBits L b + x - (b : ZMod p)).val < 2 ^ safeBits L b) :
    Cmp (RangeTable p L) ext s (checkBigLessThanSafe L a b) (fun _ _ => True) := by
  unfold checkBigLessThanSafe
  have hn2 : ceilDiv (safeBits L b) L ≤ capacity p / L + 1 :=
    ceilDiv_le_of_mul_le hL.pos (by rw [ceilDiv_safeBits hL.pos]; exact hn)
  refine Cmp.bind (rangeCheck_cmp hL ha hn2 hx) fun _ s1 e1 _ => ?_
  rw [bigToFe_pure hb, pure_bind]
  exact checkLessThan_cmp (a := .existing a) (b := .constant (b : ZMod p)) hL (ha.mono e1) rfl
    (lt_numBits_of_le_capacity hn) hn2 hd

theorem safe_honest {x : ZMod p} {b : ℕ} (hL : 1 ≤ L) (hn : safeBits L b ≤ capacity p) (hx : x.val < b) :
    b < p ∧ x.val < 2 ^ safeBits L b ∧ (2 ^ safeBits L b + x - (b : ZMod p)).val < 2 ^ safeBits L b := by
  have hbl := lt_two_pow_safeBits hL b
  have hp := pow_capacity_le hn
  have hb : b < p := by omega
  refine ⟨hb, by omega, shift_val_lt ?_ ?_ hp⟩ <;> rw [ZMod.val_natCast_of_lt hb] <;> omega

theorem checkLessThanSafe_cmp {a : AV p} {x : ZMod p} {b : ℕ} (hL : RangeOk p L) (ha : Con ext s a x)
    (hn : safeBits L b ≤ capacity p) (hx : x.val < b) :
    Cmp (RangeTable p L) ext s (checkLessThanSafe L a b) (fun _ _ => True) :=
  have h := safe_honest hL.pos hn hx
  checkLessThanSafe_cmp' hL ha hn h.2.1 h.2.2

theorem checkBigLessThanSafe_cmp {a : AV p} {x : ZMod p} {b : ℕ} (hL : RangeOk p L) (ha : Con ext s a x)
    (hn : safeBits L b ≤ capacity p) (hx : x.val < b) :
    Cmp (RangeTable p L) ext s (checkBigLessThanSafe L a b) (fun _ _ => True) :=
  have h := safe_honest hL.pos hn hx
  checkBigLessThanSafe_cmp' hL ha h.1 hn h.2.1 h.2.2

theorem isLessThan_cmp {a b : QCell p} {x y : ZMod p} {n : ℕ} (hL : RangeOk p L) (ha : QCon ext s a x)
    (hb : QCon ext s b y) (hn : ceilDiv n L * L + L ≤ capacity p)
    (hx : x.val < 2 ^ (ceilDiv n L * L)) (hy : y.val ≤ 2 ^ (ceilDiv n L * L)) :
    Cmp (RangeTable p L) ext s (isLessThan L a b n) (fun r s' =>
      Con ext s' r (if x.val < y.val then 1 else 0)) := by
  unfold isLessThan
  set K := ceilDiv n L with hK
  have hp := pow_capacity_le hn
  have hpow : 2 ^ (K * L + L) = 2 ^ (K * L) * 2 ^ L := pow_add _ _ _
  have hL2 : 2 ≤ 2 ^ L := by
    calc 2 = 2 ^ 1 := rfl
      _ ≤ 2 ^ L := Nat.pow_le_pow_right (by norm_num) hL.pos
  have hmul : 2 ^ (K * L) * 2 ≤ 2 ^ (K * L) * 2 ^ L := Nat.mul_le_mul_left _ hL2
  dsimp only
  rw [pow2At_pure (lt_numBits_of_le_capacity (by omega)), pure_bind]
  refine Cmp.unwrap ha.val (Cmp.unwrap hb.val ?_)
  have hval : (2 ^ (K * L) + x - y).val = 2 ^ (K * L) + x.val - y.val := by
    refine cast_val_eq ?_ (by omega)
    rw [Nat.cast_sub (by omega)]
    push_cast
    rw [ZMod.natCast_zmod_val, ZMod.natCast_zmod_val]
  have hc1 : ceilDiv (K * L + L) L = K + 1 := ceilDiv_mul_add hL.pos K
  have hcK : K + 1 ≤ capacity p / L + 1 := by
    have : K ≤ capacity p / L := (Nat.le_div_iff_mul_le (by have := hL.pos; omega)).2 (by omega)
    omega
  have key := Cmp.bind (cmpRegion_cmp (tbl := RangeTable p L) (2 ^ (K * L)) ha hb) fun c s1 _ hc =>
    Cmp.bind (rangeCheckLimb_cmp (n := K * L + L) hL hc (by rw [hc1]; exact hcK) (by rw [hval]; omega))
      fun last s2 _ hlast => (isZero_cmp (hlast (by have := hL.pos; omega))).weaken
        (R := fun r s' => Con ext s' r (if x.val < y.val then 1 else 0)) fun r s' h => ?_
  · simpa only [bind_assoc] using key
  · rw [hc1, hval, Nat.add_sub_cancel, Nat.mul_comm L K] at h
    by_cases hlt : x.val < y.val
    · rw [if_pos hlt]
      rw [Nat.div_eq_of_lt (by omega)] at h
      simpa using h
    · rw [if_neg hlt]
      have hq : (2 ^ (K * L) + x.val - y.val) / 2 ^ (K * L) = 1 := by
        rw [Nat.div_eq_iff (by positivity)]
        constructor <;> omega
      rw [hq] at h
      simpa using h

theorem isLessThanSafe_cmp {a : AV p} {x : ZMod p} {b : ℕ} (hL : RangeOk p L) (ha : Con ext s a x)
    (hn : safeBits L b + L ≤ capacity p) (hx : x.val < 2 ^ safeBits L b) :
    Cmp (RangeTable p L) ext s (isLessThanSafe L a b) (fun r s' =>
      Con ext s' r (if x.val < b then 1 else 0)) := by
  unfold isLessThanSafe
  have hbl := lt_two_pow_safeBits hL.pos b
  have hp := pow_capacity_le (p := p) (n := safeBits L b) (by omega)
  have hcs := ceilDiv_safeBits hL.pos b
  have hn2 : ceilDiv (safeBits L b) L ≤ capacity p / L + 1 :=
    ceilDiv_le_of_mul_le hL.pos (by rw [hcs]; omega)
  refine Cmp.bind (rangeCheck_cmp hL ha hn2 hx) fun _ s1 e1 _ => ?_
  have hbv : ((b : ZMod p)).val = b := ZMod.val_natCast_of_lt (by omega)
  have := isLessThan_cmp (a := .existing a) (b := .constant (b : ZMod p)) (n := safeBits L b) hL (ha.mono e1)
    (y := (b : ZMod p)) rfl (by rw [hcs]; exact hn) (by rw [hcs]; exact hx) (by rw [hcs, hbv]; omega)
  rw [hbv] at this
  exact this

theorem isBigLessThanSafe_cmp {a : AV p} {x : ZMod p} {b : ℕ} (hL : RangeOk p L) (ha : Con ext s a x)
    (hn : safeBits L b + L ≤ capacity p) (hx : x.val < 2 ^ safeBits L b) :
    Cmp (RangeTable p L) ext s (isBigLessThanSafe L a b) (fun r s' =>
      Con ext s' r (if x.val < b then 1 else 0)) := by
  have hbl := lt_two_pow_safeBits hL.pos b
  have hp := pow_capacity_le (p := p) (n := safeBits L b) (by omega)
  have h : isBigLessThanSafe L a b = isLessThanSafe L a b := by
    unfold isBigLessThanSafe isLessThanSafe
    rw [bigToFe_pure (by omega)]
    simp only [pure_bind]
  rw [h]
  exact isLessThanSafe_cmp hL ha hn hx

theorem region4_get_cmp {tbl : ZMod p → Prop} {a : QCell p} {x : ZMod p} (r b d : ZMod p)
    (ha : QCon ext s a x) (hg : r + b * d = x) :
    Cmp tbl ext s (do
        assignRegion [.witness r, .constant b, .witness d, a] [0]
        let c0 ← getM (-4)
        let c2 ← getM (-2)
        pure (c0, c2)) (fun c s' => Con ext s' c.1 r ∧ Con ext s' c.2 d) := by
  refine Cmp.bind (assignRegion_cmp [r, b, d, x] (.cons rfl (.cons rfl (.cons rfl (.cons ha.qConF .nil)))) ?_)
    fun _ s1 e1 h1 => ?_
  · simp [GateL, hg]
  refine Cmp.bind (getM_con (i := s.advice.length) (x := r) ?_ ?_) fun c0 s2 _ ⟨e2, hc0⟩ => ?_
  · rw [if_pos (by omega), h1]; simp
  · rw [h1]; simp [QCell.assigned]
  subst e2
  refine Cmp.bind (getM_con (i := s.advice.length + 2) (x := d) ?_ ?_) fun c2 s3 _ ⟨e3, hc2⟩ => ?_
  · rw [if_pos (by omega), h1]; simp; omega
  · rw [h1]; simp [QCell.assigned]
  subst e3
  exact Cmp.pure ⟨hc0, hc2⟩

/-- Completeness of `div_mod` for `a < 2^n`. -/
theorem divMod_cmp {a : QCell p} {x : ZMod p} {b n : ℕ} (hL : RangeOk p L) (ha : QCon ext s a x)
    (hb0 : b ≠ 0) (hd : safeBits L (2 ^ n / b + 1) ≤ capacity p) (hr : safeBits L b ≤ capacity p)
    (hx : x.val / b ≤ 2 ^ n / b) :
    Cmp (RangeTable p L) ext s (divMod L a b n) (fun c s' =>
      Con ext s' c.1 ((x.val / b : ℕ) : ZMod p) ∧ Con ext s' c.2 ((x.val % b : ℕ) : ZMod p)) := by
  unfold divMod
  have hbl := lt_two_pow_safeBits hL.pos b
  have hbp : b < p := lt_of_lt_of_le hbl (pow_capacity_le hr)
  have hxp := ZMod.val_lt x
  have h1 : x.val / b < p := lt_of_le_of_lt (Nat.div_le_self _ _) hxp
  have h2 : x.val % b < p := lt_of_le_of_lt (Nat.mod_le _ _) hxp
  refine Cmp.unwrap ha.val (Cmp.assert (by simpa using hb0) ?_)
  rw [bigToFe_pure h1, pure_bind, bigToFe_pure h2, pure_bind, bigToFe_pure hbp, pure_bind]
  have key := Cmp.bind (region4_get_cmp (tbl := RangeTable p L) (s := s) ((x.val % b : ℕ) : ZMod p) (b : ZMod p)
    ((x.val / b : ℕ) : ZMod p) ha (by
      rw [← Nat.cast_mul, ← Nat.cast_add, Nat.mod_add_div]; exact ZMod.natCast_zmod_val x)) fun c s1 _ hc =>
    Cmp.bind (checkBigLessThanSafe_cmp (b := 2 ^ n / b + 1) hL hc.2 hd (by
      rw [ZMod.val_natCast_of_lt h1]; omega)) fun _ s2 e2 _ =>
    Cmp.bind (checkBigLessThanSafe_cmp (b := b) hL (hc.1.mono e2) hr (by
      rw [ZMod.val_natCast_of_lt h2]; exact Nat.mod_lt _ (by omega))) fun _ s3 e3 _ =>
    Cmp.pure (a := (c.2, c.1)) (Q := fun c s' =>
      Con ext s' c.1 ((x.val / b : ℕ) : ZMod p) ∧ Con ext s' c.2 ((x.val % b : ℕ) : ZMod p))
      ⟨(hc.2.mono e2).mono e3, (hc.1.mono e2).mono e3⟩
  simpa only [bind_assoc, pure_bind] using key

theorem regionGets_cmp {tbl : ZMod p → Prop} {qs : List (QCell p)} {vs : List (ZMod p)} {gs : List ℤ}
    (hq : QsConT ext s qs vs) (hgate : ∀ o ∈ gs, GateL vs o) :
    Cmp tbl ext s (assignRegion qs gs) (fun _ s' => ∀ (o : ℤ) (i : ℕ) (x : ZMod p),
      (i : ℤ) = vs.length + o → o < 0 → vs[i]? = some x →
      ∀ {tbl : ZMod p → Prop}, Cmp tbl ext s' (getM o) (fun r s'' => s'' = s' ∧ Con ext s'' r x)) := by
  refine (region_cmpT hq hgate).weaken ?_
  intro _ s' h o i x hi ho hx tbl
  refine getM_con (i := s.advice.length + i) ?_ ?_
  · rw [if_pos ho, h]; simp; omega
  · rw [h, List.getElem?_append_right (by omega), Nat.add_sub_cancel_left, List.getElem?_map, hx]; rfl

theorem divModVarHi_cmp {a : AV p} {h an bn : ℕ} (hL : RangeOk p L) (ha : Con ext s a (h : ZMod p))
    (hh : h < 2 ^ (an - bn)) (hp : h < p) (hn : ceilDiv (an - bn) L ≤ capacity p / L + 1) :
    Cmp (RangeTable p L) ext s (divModVarHi L a an bn) (fun _ _ => True) := by
  unfold divModVarHi
  by_cases hab : an ≤ bn
  · rw [if_pos hab]
    have : h = 0 := by rw [Nat.sub_eq_zero_of_le hab] at hh; omega
    subst this
    exact (assertIsConst_cmp (by simpa using ha.conF)).weaken fun _ _ _ => trivial
  · rw [if_neg hab]
    exact rangeCheck_cmp hL ha hn (by rw [ZMod.val_natCast_of_lt hp]; exact hh)

/-- Completeness of `div_mod_var` for `a < 2^an`, `0 < b < 2^bn`. -/
theorem divModVar_cmp {a b : QCell p} {x y : ZMod p} {an bn : ℕ} (hL : RangeOk p L) (ha : QCon ext s a x)
    (hb : QCon ext s b y) (hbn : ceilDiv bn L * L ≤ capacity p) (han : ceilDiv an L * L ≤ capacity p)
    (hd : safeBits L (2 ^ an / 2 ^ bn + 1) ≤ capacity p) (hr : safeBits L (2 ^ bn) ≤ capacity p)
    (hx : x.val < 2 ^ an) (hy0 : y.val ≠ 0) (hy : y.val < 2 ^ bn) :
    Cmp (RangeTable p L) ext s (divModVar L a b an bn) (fun c s' =>
      Con ext s' c.1 ((x.val / y.val : ℕ) : ZMod p) ∧ Con ext s' c.2 ((x.val % y.val : ℕ) : ZMod p)) := by
  unfold divModVar
  have hbn1 : bn ≤ capacity p := by
    rcases Nat.eq_zero_or_pos bn with h | h
    · omega
    · exact le_trans (ceilDiv_spec hL.pos h).2.1 hbn
  have hXp := pow_capacity_le hbn1
  have hxp := ZMod.val_lt x
  set X := 2 ^ bn with hX
  have hX0 : 0 < X := by positivity
  set d := x.val / y.val with hdd
  set r := x.val % y.val with hrr
  have hxe : y.val * d + r = x.val := Nat.div_add_mod _ _
  have hrl : r < y.val := Nat.mod_lt _ (by omega)
  have hdx : d ≤ x.val := Nat.div_le_self _ _
  have hde : d / X * X + d % X = d := Nat.div_add_mod' _ _
  have hlo : d % X < X := Nat.mod_lt _ hX0
  have hhi : d / X < 2 ^ (an - bn) := by
    rw [Nat.div_lt_iff_lt_mul hX0, hX, ← pow_add]
    exact lt_of_le_of_lt hdx (lt_of_lt_of_le hx (Nat.pow_le_pow_right (by norm_num) (by omega)))
  have hhip : d / X ≤ d := Nat.div_le_self _ _
  have hcn : ∀ m, ceilDiv m L * L ≤ capacity p → ceilDiv m L ≤ capacity p / L + 1 := fun m h =>
    ceilDiv_le_of_mul_le hL.pos h
  have hcm : ceilDiv (an - bn) L ≤ ceilDiv an L := Nat.div_le_div_right (by omega)
  have hlow : y.val * (d % X) + r ≤ x.val := by
    have : y.val * (d % X) ≤ y.val * d := Nat.mul_le_mul_left _ (Nat.mod_le _ _)
    omega
  have hsplit : x.val = y.val * (d / X) * X + (y.val * (d % X) + r) := by
    rw [← hxe]; conv_lhs => rw [← hde]
    ring
  have hxd : x.val / X = y.val * (d / X) + (y.val * (d % X) + r) / X := by
    rw [hsplit, Nat.add_comm, Nat.add_mul_div_right _ _ hX0, Nat.add_comm]
  have hxm : x.val % X = (y.val * (d % X) + r) % X := by
    rw [hsplit, Nat.add_comm, Nat.add_mul_mod_self_right]
  refine Cmp.unwrap ha.val (Cmp.unwrap hb.val (Cmp.assert (by simpa using hy0) ?_))
  rw [pow2At_pure (lt_numBits_of_le_capacity hbn1), pure_bind]
  dsimp only
  rw [← hdd, ← hrr, bigToFe_pure (by omega), pure_bind, bigToFe_pure (by omega), pure_bind,
    bigToFe_pure (by omega), pure_bind, bigToFe_pure (by omega), pure_bind]
  have hq : QsConT ext s [.witness ((d % X : ℕ) : ZMod p), .witness ((d / X : ℕ) : ZMod p), .constant (2 ^ bn),
      .witness (d : ZMod p), .witness (r : ZMod p)]
      [((d % X : ℕ) : ZMod p), ((d / X : ℕ) : ZMod p), 2 ^ bn, (d : ZMod p), (r : ZMod p)] :=
    .cons rfl (.cons rfl (.cons rfl (.cons rfl (.cons rfl .nil))))
  refine Cmp.bind (regionGets_cmp hq ?_) fun _ s1 e1 hget => ?_
  · intro o ho
    simp only [List.mem_singleton] at ho
    subst ho
    refine ⟨le_rfl, by simp, ?_⟩
    simp only [Int.toNat_zero, List.getD_cons_zero, List.getD_cons_succ]
    have : ((2 ^ bn : ℕ) : ZMod p) = 2 ^ bn := by push_cast; rfl
    rw [← this, ← hX, ← Nat.cast_mul, ← Nat.cast_add]
    congr 1; omega
  refine Cmp.bind (hget (-5) 0 _ (by simp) (by omega) rfl) fun dlo s2 _ ⟨e, hdlo⟩ => ?_
  subst e
  refine Cmp.bind (hget (-4) 1 _ (by simp) (by omega) rfl) fun dhi s2 _ ⟨e, hdhi⟩ => ?_
  subst e
  refine Cmp.bind (hget (-2) 3 _ (by simp) (by omega) rfl) fun div s2 _ ⟨e, hdiv⟩ => ?_
  subst e
  refine Cmp.bind (hget (-1) 4 _ (by simp) (by omega) rfl) fun rem s2 _ ⟨e, hrem⟩ => ?_
  subst e
  have ha := ha.mono e1
  have hb := hb.mono e1
  refine Cmp.bind (rangeCheck_cmp hL hdlo (hcn _ hbn) (by rw [ZMod.val_natCast_of_lt (by omega)]; exact hlo))
    fun _ s3 e3 _ => ?_
  refine Cmp.bind (divModVarHi_cmp hL (hdhi.mono e3) hhi (by omega) (le_trans hcm (hcn _ han)))
    fun _ s4 e4 _ => ?_
  have e34 := e3.trans e4
  have hbcr0v : (y * ((d % X : ℕ) : ZMod p) + (r : ZMod p)) = ((y.val * (d % X) + r : ℕ) : ZMod p) := by
    rw [Nat.cast_add, Nat.cast_mul, ZMod.natCast_zmod_val]
  refine Cmp.bind (mulAdd_cmp (b := .existing dlo) (c := .existing rem) (hb.mono e34) (hdlo.mono e34)
    (hrem.mono e34)) fun bcr0 s5 e5 hbcr0 => ?_
  rw [hbcr0v] at hbcr0
  have e35 := e34.trans e5
  have hbv : (((y.val * (d % X) + r : ℕ) : ZMod p)).val = y.val * (d % X) + r :=
    ZMod.val_natCast_of_lt (by omega)
  refine Cmp.bind (divMod_cmp (a := .existing bcr0) (b := X) (n := an) hL hbcr0 (by omega) hd hr
    (Nat.div_le_div_right (by rw [hbv]; omega))) fun c1 s6 e6 hc1 => ?_
  rw [hbv] at hc1
  have e36 := e35.trans e6
  refine Cmp.bind (mulAdd_cmp (b := .existing dhi) (c := .existing c1.1) (hb.mono e36) (hdhi.mono e36)
    hc1.1) fun bhi s7 e7 hbhi => ?_
  have e37 := e36.trans e7
  refine Cmp.bind (divMod_cmp (b := X) (n := an) hL (ha.mono e37) (by omega) hd hr
    (Nat.div_le_div_right (by omega))) fun c2 s8 e8 hc2 => ?_
  have hbhiv : (y * ((d / X : ℕ) : ZMod p) + (((y.val * (d % X) + r) / X : ℕ) : ZMod p))
      = ((x.val / X : ℕ) : ZMod p) := by
    rw [hxd, Nat.cast_add, Nat.cast_mul, ZMod.natCast_zmod_val]
  rw [hbhiv] at hbhi
  refine Cmp.bind (constrainEqual_cmp (hbhi.mono e8).conF hc2.1.conF) fun _ s9 e9 _ => ?_
  refine Cmp.bind (constrainEqual_cmp (((hc1.2.mono e7).mono e8).mono e9).conF
    (by rw [← hxm]; exact (hc2.2.mono e9).conF)) fun _ s10 e10 _ => ?_
  have e310 := ((e37.trans e8).trans e9).trans e10
  have hrv : ((r : ZMod p)).val = r := ZMod.val_natCast_of_lt (by omega)
  refine Cmp.bind (rangeCheck_cmp hL (hrem.mono e310) (hcn _ hbn) (by rw [hrv]; omega)) fun _ s11 e11 _ => ?_
  have e311 := e310.trans e11
  refine Cmp.bind (checkLessThan_cmp (a := .existing rem) hL (hrem.mono e311) (hb.mono e311)
    (lt_numBits_of_le_capacity hbn1) (hcn _ hbn) (shift_val_lt (by rw [hrv]; exact hrl) (by omega) hXp))
    fun _ s12 e12 _ => Cmp.pure ?_
  exact ⟨hdiv.mono (e311.trans e12), hrem.mono (e311.trans e12)⟩

theorem getLastBit_cmp {a : AV p} {x : ZMod p} {n : ℕ} (hL : RangeOk p L) (ha : Con ext s a x) (h1 : 1 ≤ n)
    (hn : ceilDiv (n - 1) L ≤ capacity p / L + 1) (hx : x.val < 2 ^ n) :
    Cmp (RangeTable p L) ext s (getLastBit L a n) (fun r s' =>
      Con ext s' r ((x.val % 2 : ℕ) : ZMod p)) := by
  unfold getLastBit
  refine Cmp.unwrap ha.val ?_
  have hxp := ZMod.val_lt x
  have hq : QsConT ext s [.witness ((x.val % 2 : ℕ) : ZMod p), .witness ((x.val / 2 : ℕ) : ZMod p), .constant 2,
      .existing a] [((x.val % 2 : ℕ) : ZMod p), ((x.val / 2 : ℕ) : ZMod p), 2, x] :=
    .cons rfl (.cons rfl (.cons rfl (.cons ha .nil)))
  refine Cmp.bind (regionGets_cmp hq ?_) fun _ s1 e1 hget => ?_
  · intro o ho
    simp only [List.mem_singleton] at ho
    subst ho
    refine ⟨le_rfl, by simp, ?_⟩
    simp only [Int.toNat_zero, List.getD_cons_zero, List.getD_cons_succ]
    conv_rhs => rw [← ZMod.natCast_zmod_val x, ← Nat.mod_add_div x.val 2]
    push_cast; ring
  refine Cmp.bind (hget (-3) 1 _ (by simp) (by omega) rfl) fun half s2 _ ⟨e, hhalf⟩ => ?_
  subst e
  refine Cmp.bind (hget (-4) 0 _ (by simp) (by omega) rfl) fun bit s2 _ ⟨e, hbit⟩ => ?_
  subst e
  refine Cmp.assert (by simp; omega) ?_
  refine Cmp.bind (rangeCheck_cmp hL hhalf hn ?_) fun _ s3 e3 _ => ?_
  · rw [ZMod.val_natCast_of_lt (by omega), Nat.div_lt_iff_lt_mul (by norm_num), ← pow_succ,
      Nat.sub_add_cancel h1]
    exact hx
  refine Cmp.bind (assertBit_cmp (hbit.mono e3) (bit_cast (Nat.mod_lt _ (by norm_num)))) fun _ s4 e4 _ => ?_
  exact Cmp.pure (hbit.mono (e3.trans e4))

theorem powStep_pure {b n : ℕ} (hb : 1 ≤ b) (hn : n ≤ ceilDiv (numBits p) b) :
    (powStep b n : M p (List (ZMod p))) = pure ((List.range n).map (fun i : ℕ => ((2 ^ b : ℕ) : ZMod p) ^ i)) := by
  unfold powStep
  rw [if_neg (by omega), ← List.map_take, List.take_range, Nat.min_eq_left hn]
  congr 1
  apply List.map_congr_left
  intro i _
  push_cast
  rw [← pow_mul]

theorem rangeChecks_cmp {as : List (AV p)} {ds : List ℕ} {n : ℕ} (hL : RangeOk p L)
    (h : AvsCon ext s as (ds.map (fun d : ℕ => (d : ZMod p)))) (hd : ∀ d ∈ ds, d < 2 ^ n) (hp : 2 ^ n ≤ p)
    (hn : ceilDiv n L ≤ capacity p / L + 1) :
    Cmp (RangeTable p L) ext s (rangeChecks L as n) (fun _ _ => True) := by
  induction ds generalizing s as with
  | nil => cases h; exact Cmp.pure trivial
  | cons d ds ih =>
    cases h with
    | cons h1 h2 =>
      have hd0 := hd d (by simp)
      refine Cmp.bind (rangeCheck_cmp hL h1 hn (by rw [ZMod.val_natCast_of_lt (by omega)]; exact hd0))
        fun _ s1 e1 _ => ?_
      exact ih (AvsCon.mono h2 e1) fun d' hd' => hd d' (by simp [hd'])

theorem decomposeLe_cmp {num : AV p} {x : ZMod p} {b n : ℕ} (hL : RangeOk p L) (hx : Con ext s num x)
    (hb : 1 ≤ b) (hn : n ≤ ceilDiv (numBits p) b) (hp : 2 ^ b ≤ p)
    (hbn : ceilDiv b L ≤ capacity p / L + 1) (hlt : x.val < 2 ^ (b * n)) :
    Cmp (RangeTable p L) ext s (decomposeLe L num b n) (fun rs s' =>
      AvsCon ext s' rs ((limbsOf x.val n b).map (fun d : ℕ => (d : ZMod p)))) := by
  unfold decomposeLe
  rw [powStep_pure hb hn, pure_bind]
  refine Cmp.unwrap hx.val ?_
  have hbl : (limbsOf x.val n b).length = n := limbsOf_length _ _ _
  have hW : QsConT ext s ((limbsOf x.val n b).map (fun b : ℕ => (.witness (b : ZMod p) : QCell p)))
      ((limbsOf x.val n b).map (fun b : ℕ => (b : ZMod p))) := by
    have := QsConT.witnesses (ext := ext) (s := s) ((limbsOf x.val n b).map (fun b : ℕ => (b : ZMod p)))
    rwa [List.map_map] at this
  refine Cmp.bind (innerProductLeft_cmp hW (QsConT.constants _) (by simp [hbl])) fun r s1 e1 ⟨hacc, hls⟩ => ?_
  have hdot : dot ((limbsOf x.val n b).map (fun b : ℕ => (b : ZMod p)))
      ((List.range n).map (fun i : ℕ => ((2 ^ b : ℕ) : ZMod p) ^ i)) = x := by
    have := dot_powB (p := p) (2 ^ b) (limbsOf x.val n b)
    rw [hbl] at this
    rw [this, limbsOf_ofDigits, Nat.mod_eq_of_lt hlt]
    exact ZMod.natCast_zmod_val x
  rw [hdot] at hacc
  refine Cmp.bind (constrainEqual_cmp hacc.conF (hx.conF.mono e1)) fun _ s2 e2 _ => ?_
  refine Cmp.bind (rangeChecks_cmp hL (AvsCon.mono hls e2) (limbsOf_lt _ _ _) hp hbn) fun _ s3 e3 _ => ?_
  exact Cmp.pure (AvsCon.mono hls (e2.trans e3))

theorem limbsToNum_cmp {tbl : ZMod p → Prop} {limbs : List (AV p)} {ds : List ℕ} {b : ℕ}
    (h : AvsCon ext s limbs (ds.map (fun d : ℕ => (d : ZMod p)))) (hb : 1 ≤ b)
    (hn : limbs.length ≤ ceilDiv (numBits p) b) :
    Cmp tbl ext s (limbsToNum limbs b) (fun r s' =>
      Con ext s' r ((Nat.ofDigits (2 ^ b) ds : ℕ) : ZMod p)) := by
  unfold limbsToNum
  have hl : limbs.length = ds.length := by simpa using List.Forall₂.length_eq h
  rw [powStep_pure hb hn, pure_bind]
  refine (innerProduct_cmpA (QsConT.existing h) (QsConT.constants _) (by simp)).weaken ?_
  rintro r s' ⟨h1, -⟩
  rw [hl, dot_powB] at h1
  exact h1

/-- Acceptance of the rotation gadget: it needs the swapped recomposition to be the input. -/
theorem rotRightInternal_cmp {a : AV p} {x : ZMod p} {bit n : ℕ} (hL : RangeOk p L) (ha : Con ext s a x)
    (hn0 : 0 < n) (hn : ceilDiv n L * L ≤ capacity p) (hb : bit ≤ n) (hx : x.val < 2 ^ n)
    (h1 : x.val % 2 ^ bit < 2 ^ (n - bit)) (h2 : x.val / 2 ^ bit < 2 ^ bit)
    (h3 : x.val % 2 ^ bit * 2 ^ bit + x.val / 2 ^ bit = x.val) :
    Cmp (RangeTable p L) ext s (rotRightInternal L a bit n) (fun r s' =>
      Con ext s' r ((x.val / 2 ^ bit * 2 ^ (n - bit) + x.val % 2 ^ bit : ℕ) : ZMod p)) := by
  unfold rotRightInternal
  have hncap : n ≤ capacity p := le_trans (ceilDiv_spec hL.pos hn0).2.1 hn
  have hxp := ZMod.val_lt x
  have hm : x.val % 2 ^ bit ≤ x.val := Nat.mod_le _ _
  have hd : x.val / 2 ^ bit ≤ x.val := Nat.div_le_self _ _
  have hmono : ∀ m ≤ n, ceilDiv m L ≤ capacity p / L + 1 := fun m hm =>
    le_trans (Nat.div_le_div_right (by omega)) (ceilDiv_le_of_mul_le hL.pos hn)
  refine Cmp.assert (by simp; omega) (Cmp.unwrap ha.val (Cmp.assert (by simpa using Nat.size_le.2 hx) ?_))
  dsimp only
  rw [bigToFe_pure (by omega), pure_bind, bigToFe_pure (by omega)]
  refine Cmp.bind (loadWitness_cmp _) fun l s1 e1 hl => ?_
  rw [pure_bind]
  refine Cmp.bind (loadWitness_cmp _) fun r s2 e2 hr => ?_
  rw [pow2At_pure (lt_numBits_of_le_capacity (by omega)), pure_bind]
  refine Cmp.bind (mulAdd_cmp (a := .existing l) (b := .constant (2 ^ bit)) (c := .existing r) (hl.mono e2) rfl hr)
    fun v s3 e3 hv => ?_
  have hvx : (((x.val % 2 ^ bit : ℕ) : ZMod p) * 2 ^ bit + ((x.val / 2 ^ bit : ℕ) : ZMod p)) = x := by
    conv_rhs => rw [← ZMod.natCast_zmod_val x, ← h3]
    push_cast; rfl
  rw [hvx] at hv
  refine Cmp.bind (rangeCheck_cmp hL (hl.mono (e2.trans e3)) (hmono _ (by omega))
    (by rw [ZMod.val_natCast_of_lt (by omega)]; exact h1)) fun _ s4 e4 _ => ?_
  refine Cmp.bind (rangeCheck_cmp hL (hr.mono (e3.trans e4)) (hmono _ hb)
    (by rw [ZMod.val_natCast_of_lt (by omega)]; exact h2)) fun _ s5 e5 _ => ?_
  have e15 := e1.trans (((e2.trans e3).trans e4).trans e5)
  refine Cmp.bind (constrainEqual_cmp (ha.mono e15).conF (hv.mono (e4.trans e5)).conF) fun _ s6 e6 _ => ?_
  rw [pow2At_pure (lt_numBits_of_le_capacity (by omega)), pure_bind]
  refine (mulAdd_cmp (a := .existing r) (b := .constant (2 ^ (n - bit))) (c := .existing l)
    (hr.mono (((e3.trans e4).trans e5).trans e6)) rfl
    (hl.mono ((((e2.trans e3).trans e4).trans e5).trans e6))).weaken fun _ _ h => ?_
  have : (((x.val / 2 ^ bit : ℕ) : ZMod p) * 2 ^ (n - bit) + ((x.val % 2 ^ bit : ℕ) : ZMod p))
      = ((x.val / 2 ^ bit * 2 ^ (n - bit) + x.val % 2 ^ bit : ℕ) : ZMod p) := by push_cast; rfl
  rw [← this]; exact h

/-- Finding: whenever the rotation code runs, its own witness satisfies the circuit only if the swapped
recomposition happens to give back the input. -/
theorem rotRightInternal_honest {a : AV p} {x : ZMod p} {bit n : ℕ} {r : AV p} {s' : Ctx p}
    {tbl : ZMod p → Prop} (hg : Good tbl ext s) (ha : Con ext s a x)
    (hrun : rotRightInternal L a bit n s = some (r, s')) (hw : Sat tbl s' (hw ext s')) :
    (((x.val % 2 ^ bit * 2 ^ bit + x.val / 2 ^ bit : ℕ)) : ZMod p) = x := by
  unfold rotRightInternal at hrun
  obtain ⟨_, s1, h1, hrun⟩ := bind_some.1 hrun
  simp only [assertM] at h1
  split at h1
  swap; · cases h1
  rename_i hn
  simp only [Option.some.injEq, Prod.mk.injEq, true_and] at h1
  subst h1
  obtain ⟨x', s2, h2, hrun⟩ := bind_some.1 hrun
  simp only [unwrap, ha.val, Option.map_some, Option.some.injEq, Prod.mk.injEq] at h2
  obtain ⟨rfl, rfl⟩ := h2
  obtain ⟨_, s3, h3, hrun⟩ := bind_some.1 hrun
  simp only [assertM] at h3
  split at h3
  swap; · cases h3
  simp only [Option.some.injEq, Prod.mk.injEq, true_and] at h3
  subst h3
  have hxp := ZMod.val_lt x
  have hm : x.val % 2 ^ bit ≤ x.val := Nat.mod_le _ _
  have hd : x.val / 2 ^ bit ≤ x.val := Nat.div_le_self _ _
  rw [bigToFe_pure (by omega), pure_bind, bigToFe_pure (by omega)] at hrun
  obtain ⟨l, s4, h4, hrun⟩ := bind_some.1 hrun
  obtain ⟨l', s4', h4', g4, e4, hl⟩ := loadWitness_cmp (tbl := tbl) (ext := ext) (s := s)
    ((x.val % 2 ^ bit : ℕ) : ZMod p) hg
  rw [h4, Option.some.injEq, Prod.mk.injEq] at h4'
  obtain ⟨rfl, rfl⟩ := h4'
  rw [pure_bind] at hrun
  obtain ⟨r', s5, h5, hrun⟩ := bind_some.1 hrun
  obtain ⟨r'', s5', h5', g5, e5, hr⟩ := loadWitness_cmp (tbl := tbl) (ext := ext) (s := s4)
    ((x.val / 2 ^ bit : ℕ) : ZMod p) g4
  rw [h5, Option.some.injEq, Prod.mk.injEq] at h5'
  obtain ⟨rfl, rfl⟩ := h5'
  have key : Snd tbl s5 (do
      let pb ← pow2At bit
      let v ← mulAdd (.existing l) (.constant pb) (.existing r')
      rangeCheck L l (n - bit)
      rangeCheck L r' bit
      constrainEqual a v
      let pnb ← pow2At (n - bit)
      mulAdd (.existing r') (.constant pnb) (.existing l)) (fun w _ _ =>
        at' w a = at' w l * 2 ^ bit + at' w r') := by
    refine Snd.rd (pow2At_rd _) fun pb hpb => ?_
    obtain ⟨-, rfl⟩ := hpb
    refine Snd.bind (mulAdd_sound _ _ _ s5) fun v s6 _ => ?_
    refine Snd.bind (Q := fun _ _ _ => True) (rangeCheck_ext _ _ _) fun _ s7 _ => ?_
    refine Snd.bind (Q := fun _ _ _ => True) (rangeCheck_ext _ _ _) fun _ s8 _ => ?_
    refine Snd.bind (constrainEqual_snd _ _) fun _ s9 _ => ?_
    refine Snd.rd (pow2At_rd _) fun pnb _ => ?_
    refine (mulAdd_sound _ _ _ s9).weaken ?_
    rintro w _ _ - heq - - ⟨u1, u2, u3, hu1, hu2, hu3, hv⟩
    rw [heq.2, hv, show u1 = at' w l from hu1, show u2 = 2 ^ bit from hu2, show u3 = at' w r' from hu3]
  obtain ⟨-, e6, h6⟩ := key g5.inv _ _ hrun
  have := h6 _ hw
  beta_reduce at this
  rw [(ha.mono ((e4.trans e5).trans e6)).at, (hl.mono (e5.trans e6)).at, (hr.mono e6).at] at this
  conv_rhs => rw [this]
  push_cast; rfl

end H2
