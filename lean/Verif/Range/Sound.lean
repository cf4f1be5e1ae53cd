import Verif.Range.Model
import Verif.Gate.SoundBits

/-! # Soundness of the range chip -/

set_option autoImplicit false
namespace H2
variable {p : ℕ} [Fact p.Prime] {tbl : ZMod p → Prop} {L : ℕ}

/-- Parameters for which a `RangeChip` exists and its last-limb check cannot wrap around the field
(for the 254-bit fields in use and `lookup_bits ≤ 28` this always holds). -/
structure RangeOk (p L : ℕ) : Prop where
  pos : 1 ≤ L
  lt64 : L < 64
  big : 2 * L ≤ capacity p

theorem pow_capacity_le {n : ℕ} (h : n ≤ capacity p) : 2 ^ n ≤ p := by
  have h2 : 2 ≤ p := (Fact.out : p.Prime).two_le
  have hs : 1 < Nat.size p := Nat.lt_size.2 (by simpa using h2)
  rw [capacity, numBits] at h
  exact Nat.lt_size.1 (by omega)

theorem pow2At_rd {s : Ctx p} (n : ℕ) :
    Rd s (pow2At n : M p (ZMod p)) (fun r => n < numBits p ∧ r = 2 ^ n) := by
  refine (unwrap_rd _).weaken fun r h => ?_
  simp only [powOfTwo, List.getElem?_map, Option.map_eq_some_iff] at h
  obtain ⟨m, h1, rfl⟩ := h
  rw [List.getElem?_eq_some_iff] at h1
  obtain ⟨h2, h3⟩ := h1
  simp at h2 h3
  exact ⟨h2, by rw [h3]⟩

theorem bigToFe_rd {s : Ctx p} (n : ℕ) :
    Rd s (bigToFe n : M p (ZMod p)) (fun r => n < p ∧ r = (n : ZMod p)) :=
  Rd.ite (fun h => Rd.pure ⟨h, rfl⟩) fun _ => Rd.panic

theorem lookupsAt_snd {s : Ctx p} (os : List ℤ) :
    Snd tbl s (lookupsAt os) (fun w _ s' => s'.advice = s.advice ∧
      ∀ o ∈ os, 0 ≤ o → tbl (w (s.cellAt o.toNat))) := by
  induction os generalizing s with
  | nil => exact Snd.pure fun _ _ => ⟨rfl, by simp⟩
  | cons o os ih =>
    refine Snd.rd (getM_rd o) fun c hc => ?_
    refine Snd.bind (Q := fun w _ s' => s'.advice = s.advice ∧ tbl (at' w c)) ?_ fun _ s1 e1 => ?_
    · intro hi r s' h
      obtain ⟨h1, h2, h3⟩ := addCellToLookup_sound (tbl := tbl) c s hi r s' h
      refine ⟨h1, h2, fun w hw => ⟨?_, h3 w hw⟩⟩
      simp only [addCellToLookup, Option.some.injEq, Prod.mk.injEq] at h
      obtain ⟨_, rfl⟩ := h
      rfl
    · refine ih.weaken ?_
      rintro w _ s2 ⟨h1, h2⟩ ⟨h3, h4⟩
      refine ⟨h1.trans h3, fun o' ho' hpos => ?_⟩
      rcases List.mem_cons.1 ho' with rfl | ho'
      · obtain ⟨i, hi, _, hcell, _⟩ := hc
        rw [getRow, if_neg (by omega)] at hi
        simp only [at', hcell] at h4
        rwa [← hi]
      · have := h2 o' ho' hpos
        rwa [e1.cellAt] at this

theorem limbBases_take {k : ℕ} (h : k ≤ (limbBases p L).length) :
    (limbBases p L).take k = (List.range k).map (fun i : ℕ => ((2 ^ L : ℕ) : ZMod p) ^ i) := by
  simp only [limbBases, List.length_map, List.length_range] at h
  rw [limbBases, ← List.map_take, List.take_range, Nat.min_eq_left h]

theorem dot_powB (B : ℕ) (ns : List ℕ) :
    dot (ns.map (fun n : ℕ => (n : ZMod p))) ((List.range ns.length).map (fun i : ℕ => ((B : ℕ) : ZMod p) ^ i))
      = ((Nat.ofDigits B ns : ℕ) : ZMod p) := by
  have := dot_pows ((B : ℕ) : ZMod p) ns 0
  simp only [zero_add, pow_zero, one_mul] at this
  rw [this, Nat.coe_ofDigits]

/-- Looked-up field elements are the images of small naturals. -/
theorem limbs_of_table {xs : List (ZMod p)} (h : ∀ x ∈ xs, RangeTable p L x) :
    ∃ bs : List ℕ, (∀ b ∈ bs, b < 2 ^ L) ∧ xs = bs.map (fun b : ℕ => (b : ZMod p)) := by
  induction xs with
  | nil => exact ⟨[], by simp, rfl⟩
  | cons x xs ih =>
    obtain ⟨bs, h1, h2⟩ := ih fun y hy => h y (by simp [hy])
    obtain ⟨n, h3, h4⟩ := h x (by simp)
    exact ⟨n :: bs, by simpa using ⟨h3, h1⟩, by simp [h4, h2]⟩

/-- The limb decomposition: `a` is a `k`-limb number whose top limb is the returned cell. -/
theorem rangeLimbs_sound (a : AV p) (k : ℕ) (hk : 1 ≤ k) :
    Sound (RangeTable p L) (rangeLimbs L a k) (fun w r => ∃ lo hi : ℕ, lo < 2 ^ (L * (k - 1)) ∧ hi < 2 ^ L ∧
      at' w a = ((lo + 2 ^ (L * (k - 1)) * hi : ℕ) : ZMod p) ∧ at' w r = (hi : ZMod p)) := by
  intro s
  unfold rangeLimbs
  refine Snd.ite (fun h1 => ?_) fun h1 => ?_
  · subst h1
    refine Snd.bind (addCellToLookup_sound a s) fun _ s1 _ => Snd.pure ?_
    rintro w _ ⟨n, hn, ha⟩
    exact ⟨0, n, by simp, hn, by simp [ha], ha⟩
  · refine Snd.unwrap fun x _ => adviceLen_snd ?_
    refine Snd.rd (sliceTo_rd _ _) fun bases hp => ?_
    obtain ⟨hn, rfl⟩ := hp
    rw [limbBases_take hn]
    unfold innerProduct
    simp only [bind_assoc]
    have hn' : ((limbsOf x.val k L).map (fun b : ℕ => (.witness (b : ZMod p) : QCell p))).length = k := by
      simp [limbsOf]
    have hlen : ((limbsOf x.val k L).map (fun b : ℕ => (.witness (b : ZMod p) : QCell p))).length
        = (((List.range k).map (fun i : ℕ => ((2 ^ L : ℕ) : ZMod p) ^ i)).map (QCell.constant (p := p))).length := by
      simp [limbsOf]
    refine Snd.bind (innerProductSimple_snd _ _ hlen) fun one s1 e1 => ?_
    refine Snd.rd lastM_rd fun acc hacc => ?_
    refine Snd.bind (constrainEqual_snd a acc) fun _ s2 e2 => ?_
    refine Snd.bind (lookupsAt_snd _) fun _ s3 e3 => ?_
    refine Snd.weaken ((getM_rd _).snd) ?_
    rintro w r _ ⟨-, hr⟩ ⟨-, hlk⟩ ⟨-, heq⟩ ⟨h1', hone, hl, xs, ys, hx, hy, hv, hs, h0⟩
    have hacc' : at' w acc = dot xs ys := by
      rw [← ip_last hone hlen hx hy hs h0, ← e1.rowV]
      exact rowV_of_cell hacc.2.1 (by omega)
    have hxl := hx.length
    rw [hn'] at *
    have hy' := QOks.constants hy
    have hone1 : one = true := by
      obtain ⟨m, rfl⟩ : ∃ m, k = m + 1 := ⟨k - 1, by omega⟩
      rw [h1', startsWithOne_iff, List.range_succ_eq_map]
      simp
    subst hone1
    have hrow : ∀ i < k, xs[i]? = some (w (s.cellAt (s.advice.length + ipRow true i))) := by
      intro i hi
      rw [hv i hi, rowV_nat]
    have htab : ∀ y ∈ xs, RangeTable p L y := by
      intro y hy
      obtain ⟨i, hi⟩ := List.getElem?_of_mem hy
      have hik : i < k := by rw [hxl]; exact (List.getElem?_eq_some_iff.1 hi).1
      rw [hrow i hik, Option.some.injEq] at hi
      have := hlk ((s.advice.length + ipRow true i : ℕ) : ℤ) (by
        cases i with
        | zero => simp [ipRow]
        | succ i =>
          refine List.mem_cons_of_mem _ (List.mem_map.2 ⟨i, List.mem_range.2 (by omega), ?_⟩)
          simp only [ipRow, if_true]
          rw [if_neg (by omega)]
          push_cast; omega) (by omega)
      rw [(e1.trans e2).cellAt, Int.toNat_natCast, hi] at this
      exact this
    obtain ⟨bs, hb2, hbx⟩ := limbs_of_table htab
    have hbsl : bs.length = k := by rw [hbx] at hxl; simpa using hxl.symm
    have hne : bs ≠ [] := by rintro rfl; simp at hbsl; omega
    have hr' : xs[k - 1]? = some (at' w r) := by
      rw [hrow _ (by omega)]
      obtain ⟨i, hi, -, hc, -⟩ := hr
      rw [getRow, if_neg (by omega)] at hi
      simp only [at', hc, ((e1.trans e2).trans e3).cellAt, ipRow, if_true]
      rw [if_neg (by omega)]
      congr 3; omega
    have hinit : bs = bs.dropLast ++ [bs.getLast hne] := (List.dropLast_append_getLast hne).symm
    have hdl : bs.dropLast.length = k - 1 := by simp [hbsl]
    refine ⟨Nat.ofDigits (2 ^ L) bs.dropLast, bs.getLast hne, ?_, hb2 _ (List.getLast_mem hne), ?_, ?_⟩
    · rw [pow_mul, ← hdl]
      rcases Nat.eq_zero_or_pos L with h0 | h0
      · subst h0
        have : ∀ l : List ℕ, (∀ b ∈ l, b < 2 ^ 0) → Nat.ofDigits (2 ^ 0) l = 0 := by
          intro l hl
          induction l with
          | nil => rfl
          | cons b l ih =>
            rw [Nat.ofDigits_cons, ih fun b' hb' => hl b' (by simp [hb'])]
            have := hl b (by simp)
            omega
        rw [this _ fun b hb => hb2 b (List.dropLast_subset _ hb)]
        positivity
      · exact Nat.ofDigits_lt_base_pow_length (Nat.one_lt_two_pow (by omega))
          fun b hb => hb2 b (List.dropLast_subset _ hb)
    · rw [heq, hacc', hy', hbx, ← hbsl, dot_powB]
      congr 1
      conv_lhs => rw [hinit]
      rw [Nat.ofDigits_append, Nat.ofDigits_singleton, hdl, hbsl, pow_mul]
    · rw [hbx, List.getElem?_map] at hr'
      have : bs[k - 1]? = some (bs.getLast hne) := by
        rw [← hbsl, ← List.getLast?_eq_getElem?, List.getLast?_eq_some_getLast hne]
      rw [this] at hr'
      simpa using hr'.symm

/-- The last-limb check. -/
theorem rangeRem_sound (last : AV p) (rem : ℕ) (hL : RangeOk p L) (hrem : rem < L) :
    Sound (RangeTable p L) (rangeRem L last rem) (fun w _ => ∀ hi : ℕ, hi < 2 ^ L → at' w last = (hi : ZMod p) →
      rem ≠ 0 → hi < 2 ^ rem) := by
  intro s
  unfold rangeRem
  have hp2 : 2 ^ (2 * L) ≤ p := pow_capacity_le hL.big
  have hpL : 2 ^ L < 2 ^ (2 * L) := Nat.pow_lt_pow_right (by norm_num) (by have := hL.pos; omega)
  refine Snd.ite (fun h => ?_) fun h => Snd.ite (fun h' => ?_) fun h' => ?_
  · subst h
    refine (assertBit_sound last s).weaken ?_
    intro w _ _ hb hi hlt he _
    beta_reduce at hb
    rw [he] at hb
    rcases hb with hb | hb
    · have : hi = 0 := by
        have := congrArg ZMod.val hb
        rwa [ZMod.val_natCast_of_lt (by omega), ZMod.val_zero] at this
      omega
    · have : hi = 1 := by
        have := congrArg ZMod.val hb
        have hp1 : 1 < p := (Fact.out : p.Prime).one_lt
        rwa [ZMod.val_natCast_of_lt (by omega), ← Nat.cast_one, ZMod.val_natCast_of_lt hp1] at this
      omega
  · refine Snd.rd (pow2At_rd _) fun m hm => ?_
    obtain ⟨-, rfl⟩ := hm
    refine Snd.bind (mul_sound _ _ s) fun c s1 _ => ?_
    refine (addCellToLookup_sound c s1).weaken ?_
    rintro w _ _ ⟨n, hn, hc⟩ ⟨u, v, hu, hv, hcu⟩ hi hlt he _
    rw [hcu, show u = at' w last from hu, show v = 2 ^ (L - rem) from hv, he] at hc
    have hlt2 : hi * 2 ^ (L - rem) < p := by
      calc hi * 2 ^ (L - rem) < 2 ^ L * 2 ^ (L - rem) := Nat.mul_lt_mul_of_pos_right hlt (by positivity)
        _ = 2 ^ (L + (L - rem)) := (pow_add _ _ _).symm
        _ ≤ 2 ^ (2 * L) := Nat.pow_le_pow_right (by norm_num) (by omega)
        _ ≤ p := hp2
    have hval : hi * 2 ^ (L - rem) = n := by
      have hc' : ((hi * 2 ^ (L - rem) : ℕ) : ZMod p) = (n : ZMod p) := by push_cast; exact hc
      have := congrArg ZMod.val hc'
      rwa [ZMod.val_natCast_of_lt hlt2, ZMod.val_natCast_of_lt (by omega)] at this
    by_contra hcon
    have : 2 ^ rem * 2 ^ (L - rem) ≤ hi * 2 ^ (L - rem) := Nat.mul_le_mul_right _ (by omega)
    rw [← pow_add, show rem + (L - rem) = L by omega] at this
    omega
  · exact Snd.pure fun w _ hi _ _ hne => absurd hne (by omega)

omit [Fact p.Prime] in
theorem ceilDiv_spec {n : ℕ} (hL : 1 ≤ L) (hn : 1 ≤ n) :
    1 ≤ ceilDiv n L ∧ n ≤ ceilDiv n L * L ∧ (ceilDiv n L - 1) * L < n ∧
      (n % L = 0 → ceilDiv n L * L = n) ∧ (n % L ≠ 0 → (ceilDiv n L - 1) * L + n % L = n) := by
  unfold ceilDiv
  have h1 := Nat.div_add_mod (n + L - 1) L
  have h2 := Nat.mod_lt (n + L - 1) hL
  have h3 := Nat.div_add_mod n L
  have h4 := Nat.mod_lt n hL
  have e : (n + L - 1) / L = if n % L = 0 then n / L else n / L + 1 := by
    split
    · rename_i h
      rw [Nat.div_eq_iff (by omega)]
      constructor
      · have : n / L * L = L * (n / L) := Nat.mul_comm _ _
        omega
      · have : n / L * L = L * (n / L) := Nat.mul_comm _ _
        omega
    · rename_i h
      rw [Nat.div_eq_iff (by omega)]
      have : (n / L + 1) * L = L * (n / L) + L := by ring
      constructor <;> omega
  rw [e]
  have hc : n / L * L = L * (n / L) := Nat.mul_comm _ _
  split
  · rename_i h
    have hpos : 1 ≤ n / L := by
      rcases Nat.eq_zero_or_pos (n / L) with h0 | h0
      · rw [h0] at h3; simp at h3; omega
      · exact h0
    refine ⟨hpos, by omega, ?_, fun _ => by omega, fun h' => absurd h h'⟩
    have : (n / L - 1) * L + L = n / L * L := by
      rw [← Nat.succ_mul]; congr 1; omega
    omega
  · rename_i h
    have : (n / L + 1) * L = L * (n / L) + L := by ring
    have h0 : 0 ≤ n / L := Nat.zero_le _
    refine ⟨Nat.le_add_left 1 _, by omega, by simp; omega, fun h' => absurd h' h, fun _ => by simp; omega⟩

/-- Soundness of `_range_check`, before any assumption on `p` versus `range_bits`: `a` is congruent to
an integer below `2^range_bits`, and the returned limb is its top limb. -/
theorem rangeCheckLimb_sound (a : AV p) (n : ℕ) (hL : RangeOk p L) :
    Sound (RangeTable p L) (rangeCheckLimb L a n) (fun w r => ∃ m : ℕ, m < 2 ^ n ∧ at' w a = (m : ZMod p) ∧
      (1 ≤ n → at' w r = ((m / 2 ^ (L * (ceilDiv n L - 1)) : ℕ) : ZMod p))) := by
  intro s
  unfold rangeCheckLimb
  refine Snd.ite (fun h => ?_) fun h => ?_
  · subst h
    refine Snd.bind (assertIsConst_sound a 0 s) fun _ s1 _ => Snd.pure fun w _ ha => ?_
    exact ⟨0, by simp, by simpa using ha, by simp⟩
  · obtain ⟨hk1, hk2, hk3, hk4, hk5⟩ := ceilDiv_spec (n := n) hL.pos (by omega)
    refine Snd.bind (rangeLimbs_sound a _ hk1 s) fun last s1 _ => ?_
    refine Snd.bind (rangeRem_sound last (n % L) hL (Nat.mod_lt _ hL.pos) s1) fun _ s2 _ => Snd.pure ?_
    rintro w _ hrem ⟨lo, hi, hlo, hhi, ha, hl⟩
    refine ⟨lo + 2 ^ (L * (ceilDiv n L - 1)) * hi, ?_, ha, fun _ => ?_⟩
    · set K := ceilDiv n L - 1 with hK
      have hc : K * L = L * K := Nat.mul_comm _ _
      by_cases hr : n % L = 0
      · have hn : n = L * K + L := by
          have := hk4 hr
          have h2 : ceilDiv n L * L = K * L + L := by
            rw [← Nat.succ_mul]; congr 1; omega
          omega
        calc lo + 2 ^ (L * K) * hi < 2 ^ (L * K) + 2 ^ (L * K) * hi := by omega
          _ = 2 ^ (L * K) * (hi + 1) := by ring
          _ ≤ 2 ^ (L * K) * 2 ^ L := Nat.mul_le_mul_left _ (by omega)
          _ = 2 ^ n := by rw [← pow_add, ← hn]
      · have hn : n = L * K + n % L := by have := hk5 hr; omega
        have hh := hrem hi hhi hl hr
        calc lo + 2 ^ (L * K) * hi < 2 ^ (L * K) + 2 ^ (L * K) * hi := by omega
          _ = 2 ^ (L * K) * (hi + 1) := by ring
          _ ≤ 2 ^ (L * K) * 2 ^ (n % L) := Nat.mul_le_mul_left _ (by omega)
          _ = 2 ^ n := by rw [← pow_add, ← hn]
    · rw [hl]
      congr 1
      rw [Nat.add_mul_div_left _ _ (by positivity), Nat.div_eq_of_lt hlo, zero_add]

theorem rangeCheck_sound (a : AV p) (n : ℕ) (hL : RangeOk p L) :
    Sound (RangeTable p L) (rangeCheck L a n) (fun w _ => ∃ m : ℕ, m < 2 ^ n ∧ at' w a = (m : ZMod p)) := by
  intro s
  refine Snd.bind (rangeCheckLimb_sound a n hL s) fun r s1 _ => Snd.pure ?_
  rintro w _ ⟨m, h1, h2, _⟩
  exact ⟨m, h1, h2⟩

/-- With `2^n ≤ p`: the canonical representative is in range. -/
theorem rangeCheck_val (a : AV p) (n : ℕ) (hL : RangeOk p L) (hn : 2 ^ n ≤ p) :
    Sound (RangeTable p L) (rangeCheck L a n) (fun w _ => (at' w a).val < 2 ^ n) := by
  refine fun s => (rangeCheck_sound a n hL s).weaken ?_
  rintro w _ _ ⟨m, h1, h2⟩
  rw [h2, ZMod.val_natCast_of_lt (by omega)]
  exact h1

end H2
