import Verif.BigInt.Complete

/-! # Completeness of `check_carry_to_zero` -/

set_option autoImplicit false
set_option linter.unusedSectionVars false
namespace H2
variable {p : ℕ} [Fact p.Prime] {tbl : ZMod p → Prop} {ext : Cell → ZMod p} {s s' : Ctx p} {L n k : ℕ}

/-- The exact carries of a limb vector that is zero modulo `2 ^ (n k)`. -/
def exCarries (n : ℕ) : ℤ → List ℤ → List ℤ
  | _, [] => []
  | prev, x :: xs => (x + prev) / 2 ^ n :: exCarries n ((x + prev) / 2 ^ n) xs

theorem feToBigint_cast (hp : p ≤ 256 ^ 32) {x : ℤ} (h : 2 * |x| < p) : Utils.feToBigint (x : ZMod p) = x := by
  obtain ⟨h1, h2, h3⟩ := Utils.C28_fe_to_bigint hp (x : ZMod p)
  refine intCast_eq_of_abs h1 ?_
  have hx := abs_lt.1 (show |x| < (p : ℤ) by have := abs_nonneg x; omega)
  have hx2 := abs_le.1 (le_refl |x|)
  rw [abs_lt]
  constructor <;> omega

theorem limbVal_dvd_step {x prev : ℤ} {xs : List ℤ} (h : (2 : ℤ) ^ (n * (x :: xs).length) ∣ limbVal n (x :: xs) + prev) :
    (2 : ℤ) ^ n ∣ x + prev ∧ (2 : ℤ) ^ (n * xs.length) ∣ limbVal n xs + (x + prev) / 2 ^ n := by
  rw [List.length_cons, Nat.mul_succ, Nat.add_comm, pow_add, limbVal] at h
  have h1 : (2 : ℤ) ^ n ∣ x + prev := by
    have : x + prev = (x + 2 ^ n * limbVal n xs + prev) - 2 ^ n * limbVal n xs := by ring
    rw [this]
    exact dvd_sub ((dvd_mul_right _ _).trans h) (dvd_mul_right _ _)
  refine ⟨h1, ?_⟩
  obtain ⟨c, hc⟩ := h1
  have hpos : (2 : ℤ) ^ n ≠ 0 := by positivity
  rw [hc, Int.mul_ediv_cancel_left _ hpos]
  have : x + 2 ^ n * limbVal n xs + prev = 2 ^ n * (limbVal n xs + c) := by linear_combination hc
  rw [this] at h
  exact Int.dvd_of_mul_dvd_mul_left hpos h

theorem carries_pure (hp : p ≤ 256 ^ 32) {as : List (AV p)} {xs : List ℤ} {prev : ℤ}
    (h : AvsCon ext s as (xs.map (fun x : ℤ => (x : ZMod p)))) (hb : ∀ x ∈ xs, 2 * |x| < p)
    (hd : (2 : ℤ) ^ (n * xs.length) ∣ limbVal n xs + prev) :
    (carries (2 ^ n) prev as : M p (List ℤ)) = pure (exCarries n prev xs) := by
  induction xs generalizing as prev with
  | nil => rcases h with _ | _; rfl
  | cons x xs ih =>
    rcases h with _ | ⟨h1, h2⟩
    rename_i a as
    obtain ⟨d1, d2⟩ := limbVal_dvd_step hd
    unfold carries exCarries
    rw [h1.val]
    have e : (Utils.feToBigint (x : ZMod p) + prev).tdiv (2 ^ n) = (x + prev) / 2 ^ n := by
      rw [feToBigint_cast hp (hb x (by simp)), Int.tdiv_eq_ediv_of_dvd d1]
    show (do
      let r ← carries (2 ^ n) ((Utils.feToBigint (x : ZMod p) + prev).tdiv (2 ^ n)) as
      pure ((Utils.feToBigint (x : ZMod p) + prev).tdiv (2 ^ n) :: r)) = _
    rw [e, ih h2 (fun y hy => hb y (by simp [hy])) d2]
    rfl

theorem carryStep_cmp {a : AV p} {x d base v : ZMod p} {prev : QCell p} (ha : Con ext s a x) (hv : QCon ext s prev v)
    (hg : x + d * base = v) :
    Cmp tbl ext s (do assignRegion [.existing a, .witness d, .constant base, prev] [0]; getM (-3))
      (fun r s' => Con ext s' r d) := by
  refine regionGet_cmp [x, d, base, v] 1 (.cons ha.conF (.cons rfl (.cons rfl (.cons hv.qConF .nil)))) ?_ (by simp) (by omega) rfl
  intro o ho
  simp only [List.mem_singleton] at ho
  subst ho
  exact ⟨le_refl _, by simp, by simpa using hg⟩

theorem lt_numBits_of_pow_le {r : ℕ} (h : 2 ^ r ≤ p) : r < numBits p := Nat.lt_size.2 h

theorem carryLoop_cmp (hp : p ≤ 256 ^ 32) (hL : RangeOk p L) {rb : ℕ} (hrb : 2 ^ (rb + 1) ≤ p) {C bnd : ℤ}
    (hC : C < 2 ^ rb) (hCn : bnd + C ≤ C * 2 ^ n) {prev : QCell p} {P : ℤ} {as : List (AV p)} {xs : List ℤ}
    (hprev : QCon ext s prev ((-P : ℤ) : ZMod p)) (hP : |P| ≤ C)
    (h : AvsCon ext s as (xs.map (fun x : ℤ => (x : ZMod p)))) (hb : ∀ x ∈ xs, |x| ≤ bnd)
    (hd : (2 : ℤ) ^ (n * xs.length) ∣ limbVal n xs + P) :
    Cmp (RangeTable p L) ext s (carryLoop L rb (2 ^ n) (2 ^ rb) prev (as.zip (exCarries n P xs))) (fun _ _ => True) := by
  induction xs generalizing s as P prev with
  | nil => rcases h with _ | _; exact Cmp.pure trivial
  | cons x xs ih =>
    rcases h with _ | ⟨h1, h2⟩
    rename_i a as
    obtain ⟨d1, d2⟩ := limbVal_dvd_step hd
    obtain ⟨c, hc⟩ := d1
    have hpos : (0 : ℤ) < 2 ^ n := by positivity
    have ec : (x + P) / 2 ^ n = c := by rw [hc, Int.mul_ediv_cancel_left _ hpos.ne']
    have hcC : |c| ≤ C := by
      have e1 : |c| * 2 ^ n = |x + P| := by rw [hc, abs_mul, abs_of_pos hpos, mul_comm]
      have e2 : |c| * 2 ^ n ≤ C * 2 ^ n := by
        rw [e1]; have := abs_add_le x P; have := hb x (by simp); linarith
      exact le_of_mul_le_mul_right e2 hpos
    have hcrb := abs_lt.1 (lt_of_le_of_lt hcC hC)
    have hrb' : (2 : ℤ) ^ rb * 2 ≤ p := by rw [← pow_succ]; exact_mod_cast hrb
    unfold exCarries
    rw [ec] at d2 ⊢
    show Cmp _ _ _ (do
      let d ← unwrap (Utils.bigintToFe p (-c))
      assignRegion [.existing a, .witness d, .constant (2 ^ n), prev] [0]
      let nc ← getM (-3)
      let sh ← add (.existing nc) (.constant (2 ^ rb))
      rangeCheck L sh (rb + 1)
      carryLoop L rb (2 ^ n) (2 ^ rb) (.existing nc) (as.zip (exCarries n c xs))) _
    refine Cmp.unwrap (a := ((-c : ℤ) : ZMod p)) (Utils.C28_bigint_to_fe hp _ (by omega)) ?_
    have hg : (x : ZMod p) + ((-c : ℤ) : ZMod p) * 2 ^ n = ((-P : ℤ) : ZMod p) := by
      have : x + -c * 2 ^ n = -P := by linear_combination hc
      rw [← this]; push_cast; ring
    have key := carryStep_cmp (tbl := RangeTable p L) h1 hprev hg
    rw [← bind_assoc]
    refine Cmp.bind key fun nc s1 e1 hnc => ?_
    refine Cmp.bind (add_cmp (b := .constant (2 ^ rb)) (show QCon ext s1 (.existing nc) _ from hnc) rfl) fun sh s2 e2 hsh => ?_
    have hval : ((-c : ℤ) : ZMod p) + 2 ^ rb = (((2 ^ rb - c).toNat : ℕ) : ZMod p) := by
      have : ((2 ^ rb - c).toNat : ℤ) = 2 ^ rb - c := Int.toNat_of_nonneg (by linarith)
      rw [← Int.cast_natCast, this]; push_cast; ring
    have hlt : (2 ^ rb - c).toNat < 2 ^ (rb + 1) := by
      zify
      rw [Int.toNat_of_nonneg (by linarith), pow_succ]; linarith
    refine Cmp.bind (rangeCheck_cmp hL hsh ?_ ?_) fun _ s3 e3 _ => ?_
    · have h3 := lt_numBits_of_pow_le hrb
      refine (Nat.div_le_div_right (c := L) (?_ : _ ≤ capacity p + L)).trans ?_
      swap
      · rw [Nat.add_div_right _ hL.pos]
      · rw [capacity]; have := hL.pos; omega
    · rw [hval, ZMod.val_natCast_of_lt (lt_of_lt_of_le hlt hrb)]; exact hlt
    have h2 : AvsCon ext s as _ := h2
    exact ih (s := s3) (show QCon ext s3 (.existing nc) _ from (hnc.mono e2).mono e3) hcC (((h2.mono e1).mono e2).mono e3)
      (fun y hy => hb y (by simp [hy])) d2

/-- `check_carry_to_zero` accepts a limb vector that is zero modulo `2 ^ (n k)`. -/
theorem checkCarryToZero_cmp (hp : p ≤ 256 ^ 32) (hL : RangeOk p L) {a : OvInt p} {xs : List ℤ} {bnd C : ℤ}
    (hmn : n ≤ a.maxBits) (hrb : 2 ^ (carryBits L a.maxBits n + 1) ≤ p) (hC0 : 0 ≤ C) (hC : C < 2 ^ carryBits L a.maxBits n)
    (hCn : bnd + C ≤ C * 2 ^ n) (h2 : 2 * bnd < p)
    (h : AvsCon ext s a.limbs (xs.map (fun x : ℤ => (x : ZMod p)))) (hb : ∀ x ∈ xs, |x| ≤ bnd)
    (hd : (2 : ℤ) ^ (n * xs.length) ∣ limbVal n xs) :
    Cmp (RangeTable p L) ext s (checkCarryToZero L a n (2 ^ n)) (fun _ _ => True) := by
  unfold checkCarryToZero
  rw [carries_pure hp h (fun x hx => by have := hb x hx; linarith) (by simpa using hd), pure_bind]
  have hs : (subU a.maxBits n : M p ℕ) = pure (a.maxBits - n) := by rw [subU, if_pos hmn]
  have hrb' : 2 ^ carryBits L a.maxBits n ≤ p := le_trans (Nat.pow_le_pow_right (by norm_num) (by omega)) hrb
  rw [hs, pure_bind, pow2At_pure (lt_numBits_of_pow_le hrb'), pure_bind]
  exact carryLoop_cmp hp hL hrb hC hCn (prev := .constant 0) (P := 0) (by show (0 : ZMod p) = _; simp) (by simpa using hC0) h hb
    (by simpa using hd)

end H2
