import Verif.BigInt.SoundOps
import Mathlib.Algebra.BigOperators.Group.List.Lemmas
import Mathlib.Algebra.Order.BigOperators.Group.List

/-! # Soundness of subtraction with borrow, comparisons and zero/equality tests -/

set_option autoImplicit false
set_option linter.unusedSectionVars false
namespace H2
variable {p : ℕ} [Fact p.Prime] {tbl : ZMod p → Prop} {n k L : ℕ}

/-- Conditions under which comparing limbs of `n` bits (plus a borrow) cannot wrap: they hold when
`n + 1 + 2 L ≤ CAPACITY`. -/
structure SubOk (p L n : ℕ) : Prop where
  fst : ceilDiv n L * L + L ≤ capacity p
  rest : ceilDiv (n + 1) L * L + L ≤ capacity p

theorem le_ceilDiv {L : ℕ} (hL : 1 ≤ L) (n : ℕ) : n ≤ ceilDiv n L * L := by
  rcases Nat.eq_zero_or_pos n with rfl | h
  · exact Nat.zero_le _
  · exact (ceilDiv_spec hL h).2.1

/-- The value of the incoming borrow. -/
def borrowVal (w : Cell → ZMod p) : Option (AV p) → ZMod p
  | none => 0
  | some b => at' w b

theorem subLt_sound (hL : RangeOk p L) (ok : SubOk p L n) (a b : AV p) (bw : Option (AV p)) :
    Sound (RangeTable p L) (subLt L n a b bw) (fun w r => ∀ da db d0 : ℕ, at' w a = (da : ZMod p) → at' w b = (db : ZMod p) →
      borrowVal w bw = (d0 : ZMod p) → da < 2 ^ n → db < 2 ^ n → d0 ≤ 1 →
      at' w r.1 = ((db + d0 : ℕ) : ZMod p) ∧ at' w r.2 = (((if da < db + d0 then 1 else 0) : ℕ) : ZMod p)) := by
  have h2 : n + 1 ≤ ceilDiv (n + 1) L * L := le_ceilDiv hL.pos _
  have hp : 2 ^ (n + 1) ≤ p := pow_capacity_le (by have := ok.rest; omega)
  have hp2 : 2 ^ n + 2 ^ n ≤ p := by rw [pow_succ] at hp; omega
  have hpos : 1 ≤ 2 ^ n := Nat.one_le_two_pow
  intro s
  cases bw with
  | none =>
    refine Snd.bind (isLessThan_sound _ _ n hL ok.fst s) fun lt s1 _ => Snd.pure ?_
    rintro w - ⟨x, y, hx, hy, h⟩ da db d0 ha hb hd hda hdb hd0
    have hx : x = (da : ZMod p) := (show x = at' w a from hx).trans ha
    have hy : y = (db : ZMod p) := (show y = at' w b from hy).trans hb
    have h0 : d0 = 0 := by
      have : ((0 : ℕ) : ZMod p) = (d0 : ZMod p) := by rw [Nat.cast_zero]; exact hd
      exact (natCast_inj_lt this (by omega) (by omega)).symm
    subst h0
    have hxv := cast_val_eq hx (by omega)
    have hyv := cast_val_eq hy (by omega)
    have hle : 2 ^ n ≤ 2 ^ (ceilDiv n L * L) := Nat.pow_le_pow_right (by norm_num) (le_ceilDiv hL.pos n)
    refine ⟨hb, ?_⟩
    rw [show at' w _ = _ from h (by omega) (by omega), hxv, hyv, Nat.add_zero]
    split <;> simp
  | some b0 =>
    refine Snd.bind (add_ex b b0 s) fun bb s1 _ => ?_
    refine Snd.bind (isLessThan_sound _ _ (n + 1) hL ok.rest s1) fun lt s2 _ => Snd.pure ?_
    rintro w - ⟨x, y, hx, hy, h⟩ hbb da db d0 ha hb hd hda hdb hd0
    have hx : x = (da : ZMod p) := (show x = at' w a from hx).trans ha
    have hbb' : at' w bb = ((db + d0 : ℕ) : ZMod p) := by
      rw [hbb, hb, show at' w b0 = _ from hd]; push_cast; rfl
    have hy : y = ((db + d0 : ℕ) : ZMod p) := (show y = at' w bb from hy).trans hbb'
    have hxv := cast_val_eq hx (by omega)
    have hyv := cast_val_eq hy (by omega)
    have hle : 2 ^ (n + 1) ≤ 2 ^ (ceilDiv (n + 1) L * L) := Nat.pow_le_pow_right (by norm_num) h2
    rw [pow_succ] at hle
    refine ⟨hbb', ?_⟩
    rw [show at' w _ = _ from h (by omega) (by omega), hxv, hyv]
    split <;> simp

theorem subStep_sound (hL : RangeOk p L) (ok : SubOk p L n) (a b : AV p) (bw : Option (AV p)) :
    Sound (RangeTable p L) (subStep L n (2 ^ n) a b bw) (fun w r => ∀ da db d0 : ℕ, at' w a = (da : ZMod p) →
      at' w b = (db : ZMod p) → borrowVal w bw = (d0 : ZMod p) → da < 2 ^ n → db < 2 ^ n → d0 ≤ 1 →
      ∃ d u : ℕ, at' w r.1 = (d : ZMod p) ∧ at' w r.2 = (u : ZMod p) ∧ d < 2 ^ n ∧ u ≤ 1 ∧
        d + db + d0 = da + u * 2 ^ n) := by
  intro s
  refine Snd.bind (subLt_sound hL ok a b bw s) fun bl s1 _ => ?_
  obtain ⟨bottom, lt⟩ := bl
  refine Snd.unwrap fun lv _ => Snd.unwrap fun av _ => Snd.unwrap fun bv _ => ?_
  refine Snd.bind (assignRegionLast_snd _ _ (by simp)) fun r s2 _ => Snd.pure ?_
  rintro w - ⟨V, hq, hg, hr⟩ h da db d0 ha hb hd hda hdb hd0
  obtain ⟨h1, h2⟩ := h da db d0 ha hb hd hda hdb hd0
  have g1 := hg 0 (by simp)
  have g2 := hg 3 (by simp)
  simp only [QsOk, QOk, and_true, true_and] at hq
  obtain ⟨q0, q1, q2, q4, q5⟩ := hq
  norm_num [gateV] at g1 g2 q0 q1 q2 q4 q5 hr
  dsimp only at h1 h2
  set u : ℕ := if da < db + d0 then 1 else 0 with hu
  have hpos : 1 ≤ 2 ^ n := Nat.one_le_two_pow
  have hsub : db + d0 ≤ da + u * 2 ^ n := by rw [hu]; split <;> omega
  refine ⟨da + u * 2 ^ n - (db + d0), u, ?_, h2, ?_, ?_, by omega⟩
  · rw [Nat.cast_sub hsub]
    push_cast
    rw [show at' w _ = _ from hr, ← g2, ← g1, q0, q1, q2, q4, q5, ha, h2, h1]
    push_cast
    ring
  · rw [hu]; split <;> omega
  · rw [hu]; split <;> omega

theorem subLoop_sound (hL : RangeOk p L) (ok : SubOk p L n) (as bs : List (AV p)) (bw : Option (AV p)) :
    Sound (RangeTable p L) (subLoop L n (2 ^ n) as bs bw) (fun w r => ∀ (das dbs : List ℕ) (d0 : ℕ),
      as.map (at' w) = das.map (fun d : ℕ => (d : ZMod p)) → bs.map (at' w) = dbs.map (fun d : ℕ => (d : ZMod p)) →
      borrowVal w bw = (d0 : ZMod p) → (∀ d ∈ das, d < 2 ^ n) → (∀ d ∈ dbs, d < 2 ^ n) → d0 ≤ 1 →
      ∃ (ds : List ℕ) (u : ℕ), r.1.map (at' w) = ds.map (fun d : ℕ => (d : ZMod p)) ∧ (∀ d ∈ ds, d < 2 ^ n) ∧
        ds.length = das.length ∧ borrowVal w r.2 = (u : ZMod p) ∧ u ≤ 1 ∧
        Nat.ofDigits (2 ^ n) ds + Nat.ofDigits (2 ^ n) dbs + d0 = Nat.ofDigits (2 ^ n) das + u * 2 ^ (n * das.length)) := by
  induction as generalizing bs bw with
  | nil => cases bs with
    | nil =>
      refine fun s => Snd.pure ?_
      intro w _ das dbs d0 ha hb hd _ _ hd0
      have : das = [] := by simpa using ha.symm
      have : dbs = [] := by simpa using hb.symm
      subst_vars
      exact ⟨[], d0, rfl, by simp, rfl, hd, hd0, by simp⟩
    | cons b bs => exact fun s => Snd.panic
  | cons a as ih => cases bs with
    | nil => exact fun s => Snd.panic
    | cons b bs =>
      intro s
      refine Snd.bind (subStep_sound hL ok a b bw s) fun r s1 _ => ?_
      obtain ⟨r, lt⟩ := r
      refine Snd.bind (ih bs (some lt) s1) fun rs s2 _ => ?_
      obtain ⟨rs, bo⟩ := rs
      refine Snd.pure ?_
      rintro w - hrec hstep das dbs d0 ha hb hd hda hdb hd0
      cases das with
      | nil => simp at ha
      | cons da das =>
        cases dbs with
        | nil => simp at hb
        | cons db dbs =>
          simp only [List.map_cons, List.cons.injEq] at ha hb
          obtain ⟨d, u, h1, h2, h3, h4, h5⟩ := hstep da db d0 ha.1 hb.1 hd (hda _ (by simp)) (hdb _ (by simp)) hd0
          obtain ⟨ds, u', e1, e2, e3, e4, e5, e6⟩ := hrec das dbs u ha.2 hb.2 h2 (fun d hd => hda d (by simp [hd]))
            (fun d hd => hdb d (by simp [hd])) h4
          refine ⟨d :: ds, u', ?_, ?_, by simp [e3], e4, e5, ?_⟩
          · show at' w r :: rs.map (at' w) = _
            rw [show at' w r = _ from h1, show rs.map (at' w) = _ from e1]; rfl
          · intro x hx
            rcases List.mem_cons.1 hx with rfl | hx
            · exact h3
            · exact e2 x hx
          · rw [Nat.ofDigits_cons, Nat.ofDigits_cons, Nat.ofDigits_cons, List.length_cons, Nat.mul_succ, pow_add]
            have : 2 ^ n * (Nat.ofDigits (2 ^ n) ds + Nat.ofDigits (2 ^ n) dbs + u) =
                2 ^ n * (Nat.ofDigits (2 ^ n) das + u' * 2 ^ (n * das.length)) := by rw [e6]
            nlinarith

/-- `sub::assign`: the difference modulo `2 ^ (n k)` and the borrow. -/
theorem subInt_sound (hL : RangeOk p L) (ok : SubOk p L n) (as bs : List (AV p)) :
    Sound (RangeTable p L) (subInt L n (2 ^ n) as bs) (fun w r => r.1.maxBits = n ∧ ∀ das dbs : List ℕ,
      as.map (at' w) = das.map (fun d : ℕ => (d : ZMod p)) → bs.map (at' w) = dbs.map (fun d : ℕ => (d : ZMod p)) →
      (∀ d ∈ das, d < 2 ^ n) → (∀ d ∈ dbs, d < 2 ^ n) →
      ∃ ds : List ℕ, r.1.limbs.map (at' w) = ds.map (fun d : ℕ => (d : ZMod p)) ∧ (∀ d ∈ ds, d < 2 ^ n) ∧
        ds.length = das.length ∧
        at' w r.2 = (if Nat.ofDigits (2 ^ n) das < Nat.ofDigits (2 ^ n) dbs then 1 else 0) ∧
        Nat.ofDigits (2 ^ n) ds + Nat.ofDigits (2 ^ n) dbs = Nat.ofDigits (2 ^ n) das +
          (if Nat.ofDigits (2 ^ n) das < Nat.ofDigits (2 ^ n) dbs then 2 ^ (n * das.length) else 0)) := by
  intro s
  refine Snd.bind (subLoop_sound hL ok as bs none s) fun lb s1 _ => ?_
  obtain ⟨ls, bw⟩ := lb
  refine Snd.rd (unwrap_rd _) fun u hu => Snd.pure ?_
  subst hu
  rintro w - h
  refine ⟨rfl, fun das dbs ha hb hda hdb => ?_⟩
  obtain ⟨ds, v, h1, h2, h3, h4, h5, h6⟩ := h das dbs 0 ha hb (by simp [borrowVal]) hda hdb (by norm_num)
  have hlt := ofDigits_lt ds h2
  have hlb := ofDigits_lt dbs hdb
  have hla := ofDigits_lt das hda
  rw [h3] at hlt
  have h4 : at' w u = (v : ZMod p) := h4
  rw [Nat.add_zero] at h6
  have hv : v = if Nat.ofDigits (2 ^ n) das < Nat.ofDigits (2 ^ n) dbs then 1 else 0 := by
    split
    · have : v ≠ 0 := by rintro rfl; omega
      omega
    · by_contra hne
      have : v = 1 := by omega
      subst this
      omega
  refine ⟨ds, h1, h2, h3, ?_, ?_⟩
  · rw [show at' w _ = _ from h4, hv]; split <;> simp
  · rw [h6, hv]; split <;> simp

theorem bigLessThan_sound (hL : RangeOk p L) (ok : SubOk p L n) (as bs : List (AV p)) :
    Sound (RangeTable p L) (bigLessThan L n (2 ^ n) as bs) (fun w r => ∀ das dbs : List ℕ,
      as.map (at' w) = das.map (fun d : ℕ => (d : ZMod p)) → bs.map (at' w) = dbs.map (fun d : ℕ => (d : ZMod p)) →
      (∀ d ∈ das, d < 2 ^ n) → (∀ d ∈ dbs, d < 2 ^ n) →
      at' w r = if Nat.ofDigits (2 ^ n) das < Nat.ofDigits (2 ^ n) dbs then 1 else 0) := by
  intro s
  refine Snd.bind (subInt_sound hL ok as bs s) fun lu s1 _ => ?_
  obtain ⟨t, u⟩ := lu
  refine Snd.pure ?_
  rintro w - ⟨-, h⟩ das dbs ha hb hda hdb
  obtain ⟨ds, -, -, -, h4, -⟩ := h das dbs ha hb hda hdb
  exact h4

/-- `sub::crt`: if there is no borrow, the result is the proper integer `A - B`; the native part is always
`A - B`. -/
theorem subCrt_sound (hL : RangeOk p L) (ok : SubOk p L n) (a b : CrtInt p) :
    Sound (RangeTable p L) (subCrt L n (2 ^ n) a b) (fun w r => r.1.value = a.value - b.value ∧ ∀ A B : ℕ,
      ProperOk n k w a A → ProperOk n k w b B →
      at' w r.2 = (if A < B then 1 else 0) ∧ (B ≤ A → ProperOk n k w r.1 (A - B)) ∧ CrtOk n k w r.1 ((A : ℤ) - B)) := by
  intro s
  refine Snd.bind (sub_ex _ _ s) fun v s1 _ => ?_
  refine Snd.bind (subInt_sound hL ok _ _ s1) fun lu s2 _ => ?_
  obtain ⟨t, u⟩ := lu
  refine Snd.pure ?_
  rintro w - ⟨hm, h⟩ hv
  refine ⟨rfl, ?_⟩
  rintro A B ⟨das, a1, a2, a3, a4, rfl, a6⟩ ⟨dbs, b1, b2, b3, b4, rfl, b6⟩
  obtain ⟨ds, h1, h2, h3, h4, h5⟩ := h das dbs a3 b3 a4 b4
  have hn : at' w v = (((Nat.ofDigits (2 ^ n) das : ℕ) : ℤ) - (Nat.ofDigits (2 ^ n) dbs : ℕ) : ℤ) := by
    rw [hv, a6, b6, Int.cast_sub, Int.cast_natCast, Int.cast_natCast]
  refine ⟨h4, fun hle => ?_, ?_⟩
  · rw [if_neg (by omega)] at h5
    refine ⟨ds, h3.trans a1, hm, h1, h2, by omega, ?_⟩
    rw [show at' w _ = _ from hn, Nat.cast_sub hle, Int.cast_sub, Int.cast_natCast, Int.cast_natCast]
  · refine ⟨ds.map (fun d : ℕ => (d : ℤ)), by simp [h3, a1], ⟨?_, ?_⟩, ?_, hn⟩
    · show t.limbs.map (at' w) = _
      rw [show t.limbs.map (at' w) = _ from h1]; simp
    · intro x hx
      rw [List.mem_map] at hx
      obtain ⟨d, hd, rfl⟩ := hx
      show _ < (2 : ℤ) ^ t.maxBits
      rw [show t.maxBits = n from hm, abs_of_nonneg (Int.natCast_nonneg d)]
      exact_mod_cast h2 d hd
    · rw [limbVal_map_nat, Int.modEq_iff_dvd]
      have h5' : ((Nat.ofDigits (2 ^ n) ds : ℕ) : ℤ) + (Nat.ofDigits (2 ^ n) dbs : ℕ) = (Nat.ofDigits (2 ^ n) das : ℕ) +
          (if Nat.ofDigits (2 ^ n) das < Nat.ofDigits (2 ^ n) dbs then 2 ^ (n * das.length) else 0 : ℕ) := by
        exact_mod_cast h5
      split at h5'
      · refine ⟨-1, ?_⟩
        push_cast at h5' ⊢
        rw [a1] at h5'
        linarith
      · refine ⟨0, ?_⟩
        push_cast at h5' ⊢
        linarith

/-! ### zero, equality, parity -/

theorem sum_nat_casts (ds : List ℕ) : (ds.map (fun d : ℕ => (d : ZMod p))).sum = ((ds.sum : ℕ) : ZMod p) := by
  induction ds with
  | nil => simp
  | cons d ds ih => rw [List.map_cons, List.sum_cons, ih, List.sum_cons, Nat.cast_add]

theorem bigIsZeroPositive_sound (a : OvInt p) : Sound tbl (bigIsZeroPositive a) (fun w r => ∀ ds : List ℕ,
    a.limbs.map (at' w) = ds.map (fun d : ℕ => (d : ZMod p)) → (∀ d ∈ ds, d < 2 ^ a.maxBits) →
    at' w r = if ∀ d ∈ ds, d = 0 then 1 else 0) := by
  intro s
  refine Snd.assert fun h1 => Snd.assert fun h2 => ?_
  rw [decide_eq_true_eq] at h1 h2
  refine Snd.bind (sum_sound _ s) fun sm s1 _ => (isZero_sound sm s1).weaken ?_
  rintro w r _ hr ⟨xs, hx, hs⟩ ds hd hlt
  rw [QOks.existing hx, hd, sum_nat_casts] at hs
  have hl : a.limbs.length = ds.length := by simpa using congrArg List.length hd
  have hsum : ds.sum < p := by
    have b1 : ds.sum ≤ ds.length * 2 ^ a.maxBits := by
      have := List.sum_le_card_nsmul ds (2 ^ a.maxBits) (fun x hx => (hlt x hx).le)
      simpa using this
    have b2 : ds.length < 2 ^ (Nat.log2 a.limbs.length + 1) := by rw [← hl]; exact Nat.lt_log2_self
    have b3 : ds.length * 2 ^ a.maxBits < 2 ^ (Nat.log2 a.limbs.length + 1) * 2 ^ a.maxBits :=
      Nat.mul_lt_mul_of_pos_right b2 (by positivity)
    rw [← pow_add] at b3
    have b4 : 2 ^ (Nat.log2 a.limbs.length + 1 + a.maxBits) ≤ p := pow_capacity_le (by omega)
    omega
  have key : ((ds.sum : ℕ) : ZMod p) = 0 ↔ ∀ d ∈ ds, d = 0 := by
    rw [← List.sum_eq_zero_iff]
    constructor
    · intro h
      have : ((ds.sum : ℕ) : ZMod p) = ((0 : ℕ) : ZMod p) := by rw [h, Nat.cast_zero]
      exact natCast_inj_lt this hsum (Nat.Prime.pos Fact.out)
    · intro h; rw [h, Nat.cast_zero]
  rw [hr, hs]
  by_cases h : ∀ d ∈ ds, d = 0
  · rw [if_pos h, if_pos (key.2 h)]
  · rw [if_neg h, if_neg (fun h' => h (key.1 h'))]

theorem ofDigits_eq_zero {B : ℕ} (hB : 1 ≤ B) (ds : List ℕ) : Nat.ofDigits B ds = 0 ↔ ∀ d ∈ ds, d = 0 := by
  induction ds with
  | nil => simp
  | cons d ds ih =>
    rw [Nat.ofDigits_cons, Nat.add_eq_zero_iff, Nat.mul_eq_zero, ih]
    simp only [List.mem_cons, forall_eq_or_imp]
    constructor
    · rintro ⟨h1, h2 | h2⟩
      · omega
      · exact ⟨h1, h2⟩
    · rintro ⟨h1, h2⟩; exact ⟨h1, Or.inr h2⟩

theorem bigIsZeroLoop_sound (z : AV p) (as : List (AV p)) : Sound tbl (bigIsZeroLoop z as) (fun w r => ∀ b : Prop, [Decidable b] →
    at' w z = (if b then 1 else 0) → at' w r = if b ∧ ∀ a ∈ as, at' w a = 0 then 1 else 0) := by
  induction as generalizing z with
  | nil => exact fun s => Snd.pure fun w _ b _ h => by simpa using h
  | cons a as ih =>
    intro s
    refine Snd.bind (isZero_sound a s) fun y s1 _ => Snd.bind (and_sound _ _ s1) fun q s2 _ => (ih q s2).weaken ?_
    rintro w r _ h ⟨x, x', hx, hx', hq⟩ hy b hb hz
    have := h (b ∧ at' w a = 0) (by
      rw [hq, show x = at' w y from hx, show x' = at' w z from hx', hy, hz]
      by_cases h1 : b <;> by_cases h2 : at' w a = 0 <;> simp [h1, h2])
    rw [this]
    simp [and_assoc]

/-- `big_is_zero::assign`: every limb is zero in the field. -/
theorem bigIsZero_sound (as : List (AV p)) : Sound tbl (bigIsZero as) (fun w r =>
    at' w r = if ∀ a ∈ as, at' w a = 0 then 1 else 0) := by
  cases as with
  | nil => exact fun s => Snd.panic
  | cons a as =>
    intro s
    refine Snd.bind (isZero_sound a s) fun z s1 _ => (bigIsZeroLoop_sound z as s1).weaken ?_
    intro w r _ h hz
    rw [h _ hz]
    simp

theorem bigIsEqualLoop_sound (z : AV p) (as bs : List (AV p)) : Sound tbl (bigIsEqualLoop z as bs) (fun w r =>
    as.length = bs.length ∧ ∀ b : Prop, [Decidable b] →
    at' w z = (if b then 1 else 0) → at' w r = if b ∧ as.map (at' w) = bs.map (at' w) then 1 else 0) := by
  induction as generalizing z bs with
  | nil => cases bs with
    | nil => exact fun s => Snd.pure fun w _ => ⟨rfl, fun b _ h => by simpa using h⟩
    | cons b bs => exact fun s => Snd.panic
  | cons a as ih => cases bs with
    | nil => exact fun s => Snd.panic
    | cons b bs =>
      intro s
      refine Snd.bind (isEqual_ex a b s) fun y s1 _ => Snd.bind (and_sound _ _ s1) fun q s2 _ => (ih q bs s2).weaken ?_
      rintro w r _ ⟨hl, h⟩ ⟨x, x', hx, hx', hq⟩ hy
      refine ⟨by simpa using hl, fun c hc hz => ?_⟩
      have := h (c ∧ at' w a = at' w b) (by
        rw [hq, show x = at' w y from hx, show x' = at' w z from hx', hy, hz]
        by_cases h1 : c <;> by_cases h2 : at' w a = at' w b <;> simp [h1, h2])
      rw [this]
      simp [and_assoc]

/-- `big_is_equal::assign`: the lists of limbs are equal in the field. -/
theorem bigIsEqual_sound (as bs : List (AV p)) : Sound tbl (bigIsEqual as bs) (fun w r =>
    as.length = bs.length ∧ at' w r = if as.map (at' w) = bs.map (at' w) then 1 else 0) := by
  cases as with
  | nil => exact fun s => Snd.panic
  | cons a as => cases bs with
    | nil => exact fun s => Snd.panic
    | cons b bs =>
      intro s
      refine Snd.bind (isEqual_ex a b s) fun z s1 _ => (bigIsEqualLoop_sound z as bs s1).weaken ?_
      rintro w r _ ⟨hl, h⟩ hz
      refine ⟨by simpa using hl, ?_⟩
      rw [h _ hz]
      simp

theorem casts_inj {n : ℕ} (hp : 2 ^ n ≤ p) {ds es : List ℕ} (hd : ∀ d ∈ ds, d < 2 ^ n) (he : ∀ d ∈ es, d < 2 ^ n)
    (h : ds.map (fun d : ℕ => (d : ZMod p)) = es.map (fun d : ℕ => (d : ZMod p))) : ds = es := by
  induction ds generalizing es with
  | nil => cases es <;> simp_all
  | cons d ds ih =>
    cases es with
    | nil => simp at h
    | cons e es =>
      simp only [List.map_cons, List.cons.injEq] at h
      have h1 := hd d (by simp)
      have h2 := he e (by simp)
      rw [natCast_inj_lt h.1 (by omega) (by omega), ih (fun x hx => hd x (by simp [hx])) (fun x hx => he x (by simp [hx])) h.2]

theorem ofDigits_inj' {n : ℕ} {ds es : List ℕ} (hl : ds.length = es.length) (hd : ∀ d ∈ ds, d < 2 ^ n)
    (he : ∀ d ∈ es, d < 2 ^ n) (h : Nat.ofDigits (2 ^ n) ds = Nat.ofDigits (2 ^ n) es) : ds = es := by
  induction ds generalizing es with
  | nil => cases es <;> simp_all
  | cons d ds ih =>
    cases es with
    | nil => simp at hl
    | cons e es =>
      rw [Nat.ofDigits_cons, Nat.ofDigits_cons] at h
      have h1 := hd d (by simp)
      have h2 := he e (by simp)
      have hm : d = e := by
        have := congrArg (· % 2 ^ n) h
        simpa [Nat.add_mul_mod_self_left, Nat.mod_eq_of_lt h1, Nat.mod_eq_of_lt h2] using this
      subst hm
      have hq : 2 ^ n * Nat.ofDigits (2 ^ n) ds = 2 ^ n * Nat.ofDigits (2 ^ n) es := by omega
      have := Nat.eq_of_mul_eq_mul_left (by positivity) hq
      rw [ih (by simpa using hl) (fun x hx => hd x (by simp [hx])) (fun x hx => he x (by simp [hx])) this]

/-- On proper integers `big_is_equal` decides equality. -/
theorem bigIsEqual_proper (hp : 2 ^ n ≤ p) (a b : CrtInt p) :
    Sound tbl (bigIsEqual a.trunc.limbs b.trunc.limbs) (fun w r => ∀ A B, ProperOk n k w a A → ProperOk n k w b B →
      at' w r = if A = B then 1 else 0) := by
  refine fun s => (bigIsEqual_sound _ _ s).weaken ?_
  rintro w r _ ⟨-, h⟩ A B ⟨ds, a1, -, a3, a4, rfl, -⟩ ⟨es, b1, -, b3, b4, rfl, -⟩
  rw [h, a3, b3]
  have : (ds.map (fun d : ℕ => (d : ZMod p)) = es.map (fun d : ℕ => (d : ZMod p))) ↔
      Nat.ofDigits (2 ^ n) ds = Nat.ofDigits (2 ^ n) es := by
    constructor
    · intro h; rw [casts_inj hp a4 b4 h]
    · intro h; rw [ofDigits_inj' (a1.trans b1.symm) a4 b4 h]
  simp only [this]

/-- On proper integers `big_is_zero::positive` decides `= 0`. -/
theorem bigIsZeroPositive_proper (a : CrtInt p) :
    Sound tbl (bigIsZeroPositive a.trunc) (fun w r => ∀ A, ProperOk n k w a A → at' w r = if A = 0 then 1 else 0) := by
  refine fun s => (bigIsZeroPositive_sound _ s).weaken ?_
  rintro w r _ h A ⟨ds, a1, a2, a3, a4, rfl, -⟩
  rw [h ds a3 (by rw [a2]; exact a4)]
  simp only [ofDigits_eq_zero Nat.one_le_two_pow]

theorem bigIsEven_sound (hL : RangeOk p L) (hp : 2 ^ n ≤ p) (hn : 1 ≤ n) (a : CrtInt p) :
    Sound (RangeTable p L) (bigIsEvenPositive L n a.trunc) (fun w r => ∀ A, ProperOk n k w a A →
      at' w r = if A % 2 = 0 then 1 else 0) := by
  intro s
  unfold bigIsEvenPositive
  cases hl : a.trunc.limbs with
  | nil => exact Snd.panic
  | cons x xs =>
    refine Snd.bind (getLastBit_sound x n hL hp s) fun b s1 _ => (not_ex b s1).weaken ?_
    rintro w r _ h ⟨h1, h2⟩ A ⟨ds, a1, a2, a3, a4, rfl, -⟩
    cases ds with
    | nil => rw [hl] at a3; simp at a3
    | cons d ds =>
      rw [hl] at a3
      simp only [List.map_cons, List.cons.injEq] at a3
      have hd := a4 d (by simp)
      have hv := cast_val_eq a3.1 (by omega)
      have e : Nat.ofDigits (2 ^ n) (d :: ds) % 2 = d % 2 := by
        rw [Nat.ofDigits_cons]
        obtain ⟨m, rfl⟩ : ∃ m, n = m + 1 := ⟨n - 1, by omega⟩
        rw [pow_succ, show 2 ^ m * 2 * Nat.ofDigits (2 ^ m * 2) ds = 2 * (2 ^ m * Nat.ofDigits (2 ^ m * 2) ds) by ring,
          Nat.add_mul_mod_self_left]
      rw [h, h2, hv, e]
      rcases Nat.mod_two_eq_zero_or_one d with h0 | h0 <;> rw [h0] <;> simp

end H2
