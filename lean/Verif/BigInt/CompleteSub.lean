import Verif.BigInt.CompleteZero
import Verif.BigInt.SoundSub

/-! # Completeness of subtraction with borrow, comparisons, zero/equality tests and selection by indicator -/

set_option autoImplicit false
set_option linter.unusedSectionVars false
namespace H2
variable {p : ℕ} [Fact p.Prime] {tbl : ZMod p → Prop} {ext : Cell → ZMod p} {s s' : Ctx p} {L n k : ℕ}

/-- The incoming borrow holds a bit. -/
def BorrowCon (ext : Cell → ZMod p) (s : Ctx p) (bw : Option (AV p)) (d0 : ℕ) : Prop :=
  d0 ≤ 1 ∧ match bw with
  | none => d0 = 0
  | some b => Con ext s b (d0 : ZMod p)

theorem BorrowCon.mono {bw : Option (AV p)} {d0 : ℕ} (h : BorrowCon ext s bw d0) (e : Ext s s') : BorrowCon ext s' bw d0 := by
  refine ⟨h.1, ?_⟩
  have := h.2
  cases bw with
  | none => exact this
  | some b => exact Con.mono this e

theorem subLt_cmp (hL : RangeOk p L) (ok : SubOk p L n) {a b : AV p} {bw : Option (AV p)} {da db d0 : ℕ}
    (ha : Con ext s a (da : ZMod p)) (hb : Con ext s b (db : ZMod p)) (hw : BorrowCon ext s bw d0) (hda : da < 2 ^ n)
    (hdb : db < 2 ^ n) :
    Cmp (RangeTable p L) ext s (subLt L n a b bw) (fun r s' => Con ext s' r.1 ((db + d0 : ℕ) : ZMod p) ∧
      Con ext s' r.2 ((if da < db + d0 then 1 else 0 : ℕ) : ZMod p)) := by
  have h2 : n + 1 ≤ ceilDiv (n + 1) L * L := le_ceilDiv hL.pos _
  have hp : 2 ^ (n + 1) ≤ p := pow_capacity_le (by have := ok.rest; omega)
  have hp2 : 2 ^ n + 2 ^ n ≤ p := by rw [pow_succ] at hp; omega
  have hpos : 1 ≤ 2 ^ n := Nat.one_le_two_pow
  obtain ⟨h01, hw⟩ := hw
  have hva : (da : ZMod p).val = da := ZMod.val_natCast_of_lt (by omega)
  cases bw with
  | none =>
    dsimp only at hw
    subst hw
    have hvb : (db : ZMod p).val = db := ZMod.val_natCast_of_lt (by omega)
    have hle : 2 ^ n ≤ 2 ^ (ceilDiv n L * L) := Nat.pow_le_pow_right (by norm_num) (le_ceilDiv hL.pos n)
    refine Cmp.bind (isLessThan_cmp hL (show QCon ext s (.existing a) _ from ha) (show QCon ext s (.existing b) _ from hb) ok.fst
      (by omega) (by omega)) fun lt s1 e1 h1 => Cmp.pure ⟨by simpa using hb.mono e1, ?_⟩
    rw [hva, hvb] at h1
    dsimp only
    convert h1 using 1
    split <;> simp_all
  | some b0 =>
    refine Cmp.bind (add_cmp (show QCon ext s (.existing b) _ from hb) (show QCon ext s (.existing b0) _ from hw)) fun bb s1 e1 h1 => ?_
    rw [← Nat.cast_add] at h1
    have hvb : ((db + d0 : ℕ) : ZMod p).val = db + d0 := ZMod.val_natCast_of_lt (by omega)
    have hle : 2 ^ (n + 1) ≤ 2 ^ (ceilDiv (n + 1) L * L) := Nat.pow_le_pow_right (by norm_num) h2
    rw [pow_succ] at hle
    refine Cmp.bind (isLessThan_cmp hL (show QCon ext s1 (.existing a) _ from ha.mono e1)
      (show QCon ext s1 (.existing bb) _ from h1) ok.rest (by omega) (by omega)) fun lt s2 e2 h2 => Cmp.pure ⟨h1.mono e2, ?_⟩
    rw [hva, hvb] at h2
    dsimp only
    convert h2 using 1
    split <;> simp

theorem subStep_cmp (hL : RangeOk p L) (ok : SubOk p L n) {a b : AV p} {bw : Option (AV p)} {da db d0 : ℕ}
    (ha : Con ext s a (da : ZMod p)) (hb : Con ext s b (db : ZMod p)) (hw : BorrowCon ext s bw d0) (hda : da < 2 ^ n)
    (hdb : db < 2 ^ n) :
    Cmp (RangeTable p L) ext s (subStep L n (2 ^ n) a b bw) (fun r s' => AvW ext s' r.1 ∧
      Con ext s' r.2 ((if da < db + d0 then 1 else 0 : ℕ) : ZMod p)) := by
  refine Cmp.bind (subLt_cmp hL ok ha hb hw hda hdb) fun r s1 e1 hr => ?_
  obtain ⟨bottom, lt⟩ := r
  obtain ⟨h1, h2⟩ := hr
  dsimp only at h1 h2 ⊢
  refine Cmp.unwrap h2.val (Cmp.unwrap ha.val (Cmp.unwrap h1.val ?_))
  set lv : ZMod p := ((if da < db + d0 then 1 else 0 : ℕ) : ZMod p)
  set bv : ZMod p := ((db + d0 : ℕ) : ZMod p)
  have hq : QsConT ext s1 [.existing a, .existing lt, .constant (2 ^ n), .witness (2 ^ n * lv + (da : ZMod p)), .constant (-1),
      .existing bottom, .witness (2 ^ n * lv + (da : ZMod p) - bv)]
      [(da : ZMod p), lv, 2 ^ n, 2 ^ n * lv + da, -1, bv, 2 ^ n * lv + da - bv] :=
    .cons (ha.mono e1) (.cons h2 (.cons rfl (.cons rfl (.cons rfl (.cons h1 (.cons rfl .nil))))))
  refine Cmp.bind (regionLast_cmpT hq ?_ rfl) fun r s2 e2 hr => Cmp.pure ⟨hr.w, h2.mono e2⟩
  intro o ho
  simp only [List.mem_cons, List.not_mem_nil, or_false] at ho
  rcases ho with rfl | rfl
  · exact ⟨by norm_num, by simp, by simp; ring⟩
  · exact ⟨by norm_num, by simp, by simp; ring⟩

theorem subLoop_cmp (hL : RangeOk p L) (ok : SubOk p L n) {as bs : List (AV p)} {das dbs : List ℕ} {bw : Option (AV p)} {d0 : ℕ}
    (ha : AvsCon ext s as (das.map (fun d : ℕ => (d : ZMod p)))) (hb : AvsCon ext s bs (dbs.map (fun d : ℕ => (d : ZMod p))))
    (hl : das.length = dbs.length) (hw : BorrowCon ext s bw d0)
    (hda : ∀ d ∈ das, d < 2 ^ n) (hdb : ∀ d ∈ dbs, d < 2 ^ n) :
    Cmp (RangeTable p L) ext s (subLoop L n (2 ^ n) as bs bw) (fun r s' => AvsW ext s' r.1 ∧
      (r.2 = none ↔ (as = [] ∧ bw = none)) ∧ ∃ d1, BorrowCon ext s' r.2 d1) := by
  induction das generalizing s as bs dbs bw d0 with
  | nil =>
    obtain rfl : dbs = [] := List.length_eq_zero_iff.1 hl.symm
    rcases ha with _ | _
    rcases hb with _ | _
    exact Cmp.pure ⟨by simp [AvsW], by simp, _, hw⟩
  | cons da das ih =>
    cases dbs with
    | nil => simp at hl
    | cons db dbs =>
    rcases ha with _ | ⟨ha1, ha2⟩
    rcases hb with _ | ⟨hb1, hb2⟩
    rename_i a as b bs
    have ha2 : AvsCon ext s as _ := ha2
    have hb2 : AvsCon ext s bs _ := hb2
    refine Cmp.bind (subStep_cmp hL ok ha1 hb1 hw (hda da (by simp)) (hdb db (by simp))) fun r s1 e1 hr => ?_
    refine Cmp.bind (ih (s := s1) (ha2.mono e1) (hb2.mono e1) (by simpa using hl)
      (bw := some r.2) (d0 := if da < db + d0 then 1 else 0) ⟨by split <;> simp, hr.2⟩
      (fun d hd => hda d (by simp [hd])) (fun d hd => hdb d (by simp [hd]))) fun r2 s2 e2 hr2 => Cmp.pure ?_
    obtain ⟨q1, q2, q3⟩ := hr2
    exact ⟨.cons (hr.1.mono e2) q1, by simp [q2], q3⟩

theorem subInt_cmp (hL : RangeOk p L) (ok : SubOk p L n) {as bs : List (AV p)} {das dbs : List ℕ}
    (ha : AvsCon ext s as (das.map (fun d : ℕ => (d : ZMod p)))) (hb : AvsCon ext s bs (dbs.map (fun d : ℕ => (d : ZMod p))))
    (hl : das.length = dbs.length) (h0 : das ≠ []) (hda : ∀ d ∈ das, d < 2 ^ n) (hdb : ∀ d ∈ dbs, d < 2 ^ n) :
    Cmp (RangeTable p L) ext s (subInt L n (2 ^ n) as bs) (fun r s' => AvsW ext s' r.1.limbs ∧ AvW ext s' r.2) := by
  refine Cmp.bind (subLoop_cmp hL ok ha hb hl (d0 := 0) ⟨by omega, rfl⟩ hda hdb) fun r s1 e1 hr => ?_
  obtain ⟨ls, bw⟩ := r
  obtain ⟨h1, h2, d1, h3, h4⟩ := hr
  dsimp only at h1 h2 h4 ⊢
  have has : as ≠ [] := by
    intro h; subst h
    rcases das with _ | _
    · exact h0 rfl
    · rcases ha
  cases bw with
  | none => exact absurd (h2.1 rfl).1 has
  | some b => exact Cmp.unwrap (a := b) rfl (Cmp.pure ⟨h1, Con.w h4⟩)

theorem ProperW.digits {a : CrtInt p} {A : ℕ} (h : ProperW n k ext s a A) : ∃ ds : List ℕ, ds.length = k ∧
    AvsCon ext s a.trunc.limbs (ds.map (fun d : ℕ => (d : ZMod p))) ∧ (∀ d ∈ ds, d < 2 ^ n) ∧ A = Nat.ofDigits (2 ^ n) ds := by
  obtain ⟨ds, h1, h2, h3, h4, h5, h6⟩ := h.ok
  exact ⟨ds, h1, h3 ▸ h.limbs.con, h4, h5⟩

theorem bigLessThan_cmp (hL : RangeOk p L) (ok : SubOk p L n) (hk : 1 ≤ k) {a b : CrtInt p} {A B : ℕ}
    (ha : ProperW n k ext s a A) (hb : ProperW n k ext s b B) :
    Cmp (RangeTable p L) ext s (bigLessThan L n (2 ^ n) a.trunc.limbs b.trunc.limbs)
      (fun r s' => Con ext s' r (if A < B then 1 else 0)) := by
  obtain ⟨das, a1, a2, a3, rfl⟩ := ha.digits
  obtain ⟨dbs, b1, b2, b3, rfl⟩ := hb.digits
  have h : Cmp (RangeTable p L) ext s (bigLessThan L n (2 ^ n) a.trunc.limbs b.trunc.limbs)
      (fun r s' => Ext s s' ∧ AvW ext s' r) := by
    refine Cmp.bind (subInt_cmp hL ok a2 b2 (a1.trans b1.symm) (by rintro rfl; simp at a1; omega) a3 b3)
      fun r s1 e1 hr => Cmp.pure ⟨e1, hr.2⟩
  refine (h.withSnd (bigLessThan_sound hL ok _ _)).weaken fun r s' hr => ?_
  obtain ⟨⟨e, h1⟩, h2⟩ := hr
  unfold AvW at h1
  rwa [h2 das dbs (a2.mono e).map_at (b2.mono e).map_at a3 b3] at h1

theorem subCrt_cmp (hL : RangeOk p L) (ok : SubOk p L n) (hk : 1 ≤ k) {a b : CrtInt p} {A B : ℕ}
    (ha : ProperW n k ext s a A) (hb : ProperW n k ext s b B) :
    Cmp (RangeTable p L) ext s (subCrt L n (2 ^ n) a b) (fun r s' => CrtW n k ext s' r.1 ((A : ℤ) - B) ∧
      (B ≤ A → ProperW n k ext s' r.1 (A - B)) ∧ Con ext s' r.2 (if A < B then 1 else 0)) := by
  obtain ⟨das, a1, a2, a3, -⟩ := ha.digits
  obtain ⟨dbs, b1, b2, b3, -⟩ := hb.digits
  have h : Cmp (RangeTable p L) ext s (subCrt L n (2 ^ n) a b)
      (fun r s' => Ext s s' ∧ AvsW ext s' r.1.trunc.limbs ∧ AvW ext s' r.1.native ∧ AvW ext s' r.2) := by
    refine Cmp.bind (sub_w s _ _ ha.native hb.native) fun v s1 e1 hv => ?_
    refine Cmp.bind (subInt_cmp hL ok (a2.mono e1) (b2.mono e1) (a1.trans b1.symm) (by rintro rfl; simp at a1; omega) a3 b3)
      fun r s2 e2 hr => Cmp.pure ⟨e1.trans e2, hr.1, hv.mono e2, hr.2⟩
  refine (h.withSnd (subCrt_sound (k := k) hL ok _ _)).weaken fun r s' hr => ?_
  obtain ⟨⟨e, h1, h2, h3⟩, h4, h5⟩ := hr
  obtain ⟨c1, c2, c3⟩ := h5 A B (ha.mono e).ok (hb.mono e).ok
  rw [ha.value, hb.value] at h4
  refine ⟨⟨c3, h1, h2, h4⟩, fun hle => ⟨c2 hle, h1, h2, ?_⟩, ?_⟩
  · rw [h4, Nat.cast_sub hle]
  · unfold AvW at h3
    rwa [c1] at h3

theorem bigIsZeroPositive_cmp (hk : 1 ≤ k) (hc : n + Nat.log2 k < capacity p) {a : CrtInt p} {A : ℕ}
    (ha : ProperW n k ext s a A) :
    Cmp tbl ext s (bigIsZeroPositive a.trunc) (fun r s' => Con ext s' r (if A = 0 then 1 else 0)) := by
  have h : Cmp tbl ext s (bigIsZeroPositive a.trunc) (fun r s' => Ext s s' ∧ AvW ext s' r) := by
    obtain ⟨ds, a1, a2, -⟩ := ha.ok
    have hal : a.trunc.limbs.length = k := ha.crt.ok.length
    refine Cmp.assert (by rw [decide_eq_true_eq]; omega) (Cmp.assert (by rw [decide_eq_true_eq, hal, a2]; exact hc) ?_)
    refine Cmp.bind (sum_cmp ha.limbs.qs) fun r s1 e1 hr => ?_
    refine (isZero_cmp hr).weakenE fun r s2 e2 h => ?_
    exact ⟨e1.trans e2, h.w⟩
  refine (h.withSnd (bigIsZeroPositive_proper (n := n) (k := k) a)).weaken fun r s' hr => ?_
  obtain ⟨⟨e, h1⟩, h2⟩ := hr
  unfold AvW at h1
  rwa [h2 A (ha.mono e).ok] at h1

theorem bigIsZeroLoop_cmp {z : AV p} {as : List (AV p)} (hz : AvW ext s z) (ha : AvsW ext s as) :
    Cmp tbl ext s (bigIsZeroLoop z as) (fun r s' => AvW ext s' r) := by
  induction as generalizing s z with
  | nil => exact Cmp.pure hz
  | cons a as ih =>
    refine Cmp.bind (isZero_cmp (ha a (by simp))) fun y s1 e1 hy => ?_
    refine Cmp.bind (and_cmp hy.w.q (hz.mono e1).q) fun q s2 e2 hq => ?_
    exact ih (s := s2) hq.w fun b hb => ((ha b (by simp [hb])).mono e1).mono e2

theorem bigIsZero_cmp (hk : 1 ≤ k) {a : CrtInt p} (hl : a.trunc.limbs.length = k) (ha : AvsW ext s a.trunc.limbs) :
    Cmp tbl ext s (bigIsZero a.trunc.limbs) (fun r s' =>
      Con ext s' r (if ∀ x ∈ a.trunc.limbs, at' (hw ext s) x = 0 then 1 else 0)) := by
  have h : Cmp tbl ext s (bigIsZero a.trunc.limbs) (fun r s' => Ext s s' ∧ AvW ext s' r) := by
    cases hx : a.trunc.limbs with
    | nil => rw [hx] at hl; simp at hl; omega
    | cons x xs =>
      rw [hx] at ha
      refine Cmp.bind (isZero_cmp (ha x (by simp))) fun z s1 e1 hz => ?_
      exact (bigIsZeroLoop_cmp hz.w fun b hb => (ha b (by simp [hb])).mono e1).weakenE fun r s2 e2 h => ⟨e1.trans e2, h⟩
  refine (h.withSnd (bigIsZero_sound _)).weaken fun r s' hr => ?_
  obtain ⟨⟨e, h1⟩, h2⟩ := hr
  unfold AvW at h1
  rw [h2] at h1
  convert h1 using 2
  refine forall_congr' fun x => forall_congr' fun hx => ?_
  rw [(ha x hx).at_mono e]

theorem bigIsEqualLoop_cmp {z : AV p} {as bs : List (AV p)} (hz : AvW ext s z) (ha : AvsW ext s as) (hb : AvsW ext s bs)
    (hl : as.length = bs.length) :
    Cmp tbl ext s (bigIsEqualLoop z as bs) (fun r s' => AvW ext s' r) := by
  induction as generalizing s z bs with
  | nil =>
    obtain rfl : bs = [] := List.length_eq_zero_iff.1 hl.symm
    exact Cmp.pure hz
  | cons a as ih =>
    cases bs with
    | nil => simp at hl
    | cons b bs =>
    refine Cmp.bind (isEqual_cmp (ha a (by simp)).q (hb b (by simp)).q) fun y s1 e1 hy => ?_
    refine Cmp.bind (and_cmp hy.w.q (hz.mono e1).q) fun q s2 e2 hq => ?_
    exact ih (s := s2) hq.w (fun b hb => ((ha b (by simp [hb])).mono e1).mono e2)
      (fun c hc => ((hb c (by simp [hc])).mono e1).mono e2) (by simpa using hl)

theorem bigIsEqual_cmp (hk : 1 ≤ k) (hp : 2 ^ n ≤ p) {a b : CrtInt p} {A B : ℕ}
    (ha : ProperW n k ext s a A) (hb : ProperW n k ext s b B) :
    Cmp tbl ext s (bigIsEqual a.trunc.limbs b.trunc.limbs) (fun r s' => Con ext s' r (if A = B then 1 else 0)) := by
  have hla := ha.crt.ok.length
  have hlb := hb.crt.ok.length
  have h : Cmp tbl ext s (bigIsEqual a.trunc.limbs b.trunc.limbs) (fun r s' => Ext s s' ∧ AvW ext s' r) := by
    have hA := ha.limbs
    have hB := hb.limbs
    cases hx : a.trunc.limbs with
    | nil => rw [hx] at hla; simp at hla; omega
    | cons x xs =>
    cases hy : b.trunc.limbs with
    | nil => rw [hy] at hlb; simp at hlb; omega
    | cons y ys =>
      rw [hx] at hA hla
      rw [hy] at hB hlb
      refine Cmp.bind (isEqual_cmp (hA x (by simp)).q (hB y (by simp)).q) fun z s1 e1 hz => ?_
      exact (bigIsEqualLoop_cmp hz.w (fun b hb => (hA b (by simp [hb])).mono e1) (fun c hc => (hB c (by simp [hc])).mono e1)
        (by simp at hla hlb; omega)).weakenE fun r s2 e2 h => ⟨e1.trans e2, h⟩
  refine (h.withSnd (bigIsEqual_proper (n := n) (k := k) hp a b)).weaken fun r s' hr => ?_
  obtain ⟨⟨e, h1⟩, h2⟩ := hr
  unfold AvW at h1
  rwa [h2 A B (ha.mono e).ok (hb.mono e).ok] at h1

theorem bigIsEven_cmp (hL : RangeOk p L) (hk : 1 ≤ k) (hp : 2 ^ n ≤ p) (hn : 1 ≤ n) {a : CrtInt p} {A : ℕ}
    (ha : ProperW n k ext s a A) :
    Cmp (RangeTable p L) ext s (bigIsEvenPositive L n a.trunc) (fun r s' => Con ext s' r (if A % 2 = 0 then 1 else 0)) := by
  have hla := ha.crt.ok.length
  have h : Cmp (RangeTable p L) ext s (bigIsEvenPositive L n a.trunc) (fun r s' => Ext s s' ∧ AvW ext s' r) := by
    unfold bigIsEvenPositive
    obtain ⟨ds, d1, d2, d3, -⟩ := ha.digits
    cases hx : a.trunc.limbs with
    | nil => rw [hx] at hla; simp at hla; omega
    | cons x xs =>
      rw [hx] at d2
      cases ds with
      | nil => rcases d2
      | cons d ds =>
      rcases d2 with _ | ⟨h1, h2⟩
      have hn1 : 2 ^ (n - 1) ≤ p := (Nat.pow_le_pow_right (by norm_num) (by omega)).trans hp
      have hd := d3 d (by simp)
      refine Cmp.bind (getLastBit_cmp hL h1 hn (ceilDiv_ok hL hn1) (by rw [ZMod.val_natCast_of_lt (by omega)]; exact hd))
        fun b s1 e1 hb => ?_
      exact (not_cmp hb.w.q).weakenE fun r s2 e2 h => ⟨e1.trans e2, h.w⟩
  refine (h.withSnd (bigIsEven_sound hL (k := k) hp hn a)).weaken fun r s' hr => ?_
  obtain ⟨⟨e, h1⟩, h2⟩ := hr
  unfold AvW at h1
  rwa [h2 A (ha.mono e).ok] at h1

end H2
