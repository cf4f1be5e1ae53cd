import Verif.Pairing.SoundExp2

/-!
# Soundness of `final_exp.rs`: `pow`, `cyclotomic_pow`, the hard and the easy part
-/

set_option autoImplicit false
set_option linter.unusedSectionVars false
namespace H2
open PairCfg

/-- The value of the digits `zs`, most significant first, after `n`. -/
def hv (n : ℤ) (zs : List ℤ) : ℤ := zs.foldl (fun n z => 2 * n + z) n

theorem hv_value (naf : List ℤ) : hv 0 naf.reverse = Naf.value 2 naf := by
  unfold hv
  rw [List.foldl_reverse]
  induction naf with
  | nil => rfl
  | cons d ds ih =>
    rw [List.foldr_cons, ih, Naf.value]
    ring

/-- The exponent of the element which the loops hold: the one before the first nonzero digit is `1`. -/
def pw (n : ℤ) : ℤ := if n = 0 then 1 else n

theorem pw_pos {n : ℤ} (h : 1 ≤ n) : pw n = n := if_neg (by omega)

theorem powLoop_sound (a : List (CrtInt bn254R)) : ∀ (zs : List ℤ) (st : Bool) (res : List (CrtInt bn254R)),
    Sound bnTbl (bnCfg.powLoop a zs st res) (fun w r => ∀ (X : Fq12) (n : ℤ), X ≠ 0 → R12 w a X → R12 w res (X ^ pw n) →
      (if st then 1 ≤ n else n = 0) → R12 w r (X ^ pw (hv n zs)))
  | [], st, res => fun s => Snd.pure fun w _ X n _ _ h _ => h
  | z :: zs, st, res => by
    intro s
    unfold powLoop
    have hsq : Snd bnTbl s (if st = true then bnCfg.F12.mul res res else pure res) (fun w r _ => ∀ (X : Fq12) (n : ℤ), X ≠ 0 →
        R12 w res (X ^ pw n) → (if st then 1 ≤ n else n = 0) → R12 w r (X ^ pw (2 * n))) := by
      refine Snd.ite (fun h => ?_) (fun h => ?_)
      · refine (f12_mul res res s).weaken fun w r _ h1 X n h0 hX hn => ?_
        rw [if_pos h] at hn
        rw [pw_pos hn] at hX
        rw [pw_pos (by omega), two_mul, zpow_add₀ h0]
        exact h1 _ _ hX hX
      · refine Snd.pure fun w _ X n h0 hX hn => ?_
        rw [if_neg h] at hn
        subst hn
        exact hX
    refine Snd.jp hsq fun res1 s1 _ => ?_
    refine Snd.ite (fun hz => Snd.assert fun hz1 => Snd.ite (fun hs => ?_) (fun hs => Snd.assert fun hz2 => ?_)) (fun hz => ?_)
    · have hm : Snd bnTbl s1 (if z = 1 then bnCfg.F12.mul res1 a else bnCfg.F12.divideUnsafe res1 a) (fun w r _ =>
          ∀ (X : Fq12) (n : ℤ), X ≠ 0 → R12 w a X → R12 w res1 (X ^ (2 * n)) → R12 w r (X ^ (2 * n + z))) := by
        refine Snd.ite (fun h => ?_) (fun h => ?_)
        · refine (f12_mul res1 a s1).weaken fun w r _ h1 X n h0 ha hX => ?_
          subst h
          rw [zpow_add₀ h0, zpow_one]
          exact h1 _ _ hX ha
        · refine (f12_div res1 a s1).weaken ?_
          rintro w r _ ⟨Q, hQ, h1⟩ X n h0 ha hX
          have hz3 : z = -1 := by
            simp only [Bool.or_eq_true, beq_iff_eq] at hz1
            omega
          subst hz3
          have : Q = X ^ (2 * n + -1) := by
            have := h1 _ _ hX ha
            rw [zpow_add₀ h0, zpow_neg_one, ← this, mul_inv_cancel_right₀ h0]
          exact this ▸ hQ
      refine Snd.jp hm fun res2 s2 _ => (powLoop_sound a zs true res2 s2).weaken ?_
      intro w r _ h3 h2 h1 X n h0 ha hX hn
      have hn' : 1 ≤ n := by rwa [if_pos hs] at hn
      have hz3 : z = 1 ∨ z = -1 := by simpa using hz1
      have e1 := h1 X n h0 hX hn
      rw [pw_pos (by omega)] at e1
      have e2 := h2 X n h0 ha e1
      rw [← pw_pos (n := 2 * n + z) (by omega)] at e2
      exact h3 X (2 * n + z) h0 ha e2 (by rw [if_pos rfl]; omega)
    · refine (powLoop_sound a zs true res1 s1).weaken ?_
      intro w r _ h3 h1 X n h0 ha hX hn
      have hz3 : z = 1 := by simpa using hz2
      have e1 := h1 X n h0 hX hn
      rw [if_neg hs] at hn
      subst hn hz3
      exact h3 X 1 h0 ha e1 (by rw [if_pos rfl])
    · refine (powLoop_sound a zs st res1 s1).weaken ?_
      intro w r _ h3 h1 X n h0 ha hX hn
      have e1 := h1 X n h0 hX hn
      have hz0 : z = 0 := by omega
      subst hz0
      have := h3 X (2 * n) h0 ha e1 (by cases st <;> simp at hn ⊢ <;> omega)
      show R12 w r (X ^ pw (hv (2 * n + 0) zs))
      rwa [add_zero]

theorem pw_nat (X : Fq12) (n : ℕ) : X ^ pw (n : ℤ) = if n = 0 then X else X ^ n := by
  unfold pw
  by_cases h : n = 0
  · rw [if_pos (by exact_mod_cast h), if_pos h, zpow_one]
  · rw [if_neg (by exact_mod_cast h), if_neg h, zpow_natCast]

theorem pow_sound (a : List (CrtInt bn254R)) (exp : List ℕ) (hx : ∀ x ∈ exp, x < 2 ^ 64) : Sound bnTbl (bnCfg.pow a exp) (fun w r =>
    ∀ X, X ≠ 0 → R12 w a X → R12 w r (if Nat.ofDigits (2 ^ 64) exp = 0 then X else X ^ Nat.ofDigits (2 ^ 64) exp)) := by
  intro s
  refine Snd.unwrap fun naf hn => (powLoop_sound a naf.reverse false a s).weaken ?_
  intro w r _ h X h0 hX
  have := h X 0 h0 hX (by rw [show pw 0 = 1 from rfl, zpow_one]; exact hX) (by simp)
  rwa [hv_value, (Naf.C60_get_naf hx hn).1, pw_nat] at this

/-! ### `cyclotomic_pow` -/

theorem cycPowLoop_sound (a : List (CrtInt bn254R)) : ∀ (zs : List ℤ) (st : Bool) (comp : Comp (CrtInt bn254R))
    (out : Option (List (CrtInt bn254R))), (st = false → out = none) →
    Sound bnTbl (bnCfg.cycPowLoop a zs st comp out) (fun w r => (zs = [] → r.2 = out) ∧ ∀ (X : Fq12) (n B : ℕ), InCyc X → R12 w a X →
      (∀ j, 0 < j → j ≤ B → X ^ j ≠ 1) → (n + 1) * 2 ^ zs.length ≤ B → CompRep w comp (X ^ pw n) →
      (if st then 1 ≤ n else n = 0) → ∃ m : ℕ, hv n zs = m ∧ m + 1 ≤ B ∧ CompRep w r.1 (X ^ pw m) ∧
        ∀ z, zs.getLast? = some z → z ≠ 0 → R12 w (r.2.getD a) (X ^ pw m))
  | [], st, comp, out, _ => fun s => Snd.pure fun w _ => ⟨fun _ => rfl, fun X n B _ _ _ hB h _ => ⟨n, rfl, by simpa using hB, h, by simp⟩⟩
  | z :: zs, st, comp, out, hout => by
    intro s
    unfold cycPowLoop
    have hsq : Snd bnTbl s (if st = true then bnCfg.cycSquare comp else pure comp) (fun w r _ => ∀ (X : Fq12) (n : ℕ), InCyc X →
        CompRep w comp (X ^ pw n) → (if st then 1 ≤ n else n = 0) → CompRep w r (X ^ pw (2 * n : ℕ))) := by
      refine Snd.ite (fun h => ?_) (fun h => ?_)
      · refine (cycSquare_sound comp s).weaken fun w r _ h1 X n h0 hX hn => ?_
        rw [if_pos h] at hn
        rw [pw_nat, if_neg (by omega)] at hX ⊢
        have := h1 _ hX (h0.pow n)
        rwa [← pow_mul, mul_comm] at this
      · refine Snd.pure fun w _ X n h0 hX hn => ?_
        rw [if_neg h] at hn
        subst hn
        exact hX
    have hbound : ∀ n m B : ℕ, (n + 1) * 2 ^ (z :: zs).length ≤ B → m ≤ 2 * n + 1 → (m + 1) * 2 ^ zs.length ≤ B := by
      intro n m B h1 h2
      rw [List.length_cons, pow_succ] at h1
      have : (m + 1) * 2 ^ zs.length ≤ (2 * (n + 1)) * 2 ^ zs.length := Nat.mul_le_mul_right _ (by omega)
      have e : (n + 1) * (2 ^ zs.length * 2) = (2 * (n + 1)) * 2 ^ zs.length := by ring
      omega
    refine Snd.jp hsq fun comp1 s1 _ => ?_
    refine Snd.ite (fun hz => Snd.assert fun hz1 => Snd.ite (fun hs => ?_) (fun hs => Snd.assert fun hz2 => ?_)) (fun hz => ?_)
    · refine Snd.bind (cycDecompress_sound comp1 s1) fun res0 s2 _ => ?_
      have hm : Snd bnTbl s2 (if z = 1 then bnCfg.F12.mul res0 a else bnCfg.F12.divideUnsafe res0 a) (fun w r _ =>
          ∀ (X : Fq12) (n m : ℕ), X ≠ 0 → (m : ℤ) = 2 * n + z → R12 w a X → R12 w res0 (X ^ (2 * n)) → R12 w r (X ^ m)) := by
        refine Snd.ite (fun h => ?_) (fun h => ?_)
        · refine (f12_mul res0 a s2).weaken fun w r _ h1 X n m h0 hm ha hX => ?_
          subst h
          have : m = 2 * n + 1 := by omega
          rw [this, pow_succ]
          exact h1 _ _ hX ha
        · refine (f12_div res0 a s2).weaken ?_
          rintro w r _ ⟨Q, hQ, h1⟩ X n m h0 hm ha hX
          have hz3 : z = -1 := by
            simp only [Bool.or_eq_true, beq_iff_eq] at hz1
            omega
          subst hz3
          have : Q = X ^ m := by
            have := h1 _ _ hX ha
            have e : 2 * n = m + 1 := by omega
            rw [e, pow_succ] at this
            exact mul_right_cancel₀ h0 this
          exact this ▸ hQ
      refine Snd.jp hm fun res s3 _ => Snd.bind (cycCompress_sound res s3) fun comp2 s4 _ =>
        (cycPowLoop_sound a zs true comp2 (some res) (by simp) s4).weaken ?_
      rintro w r _ ⟨h6, h5⟩ h4 h3 h2 h1
      refine ⟨by simp, fun X n B hc ha hj hB hX hn => ?_⟩
      have hn' : 1 ≤ n := by rwa [if_pos hs] at hn
      have hz3 : z = 1 ∨ z = -1 := by simpa using hz1
      have e1 := h1 X n hc hX hn
      rw [pw_nat, if_neg (by omega)] at e1
      have hB2 := hbound n (2 * n) B hB (by omega)
      have hB3 : 2 * n ≤ B := by
        have : 1 ≤ 2 ^ zs.length := Nat.one_le_two_pow
        nlinarith
      have e2 := h2 _ e1 (hc.pow _) (hj _ (by omega) hB3)
      obtain ⟨m, hm⟩ : ∃ m : ℕ, (m : ℤ) = 2 * n + z := ⟨(2 * (n : ℤ) + z).toNat, Int.toNat_of_nonneg (by omega)⟩
      have e3 := h3 X n m hc.ne_zero hm ha e2
      have hm1 : 1 ≤ m := by omega
      have e4 := h4 _ e3
      have ep : X ^ pw (m : ℤ) = X ^ m := by rw [pw_nat, if_neg (by omega)]
      obtain ⟨m', a1, a2, a3, a4⟩ := h5 X m B hc ha hj (hbound n m B hB (by omega)) (by rw [ep]; exact e4) (by simpa using hm1)
      have a1' : hv n (z :: zs) = m' := by
        rw [← a1, hm]
        rfl
      refine ⟨m', a1', a2, a3, fun y hy hy0 => ?_⟩
      cases zs with
      | cons z' zs => exact a4 y (by rw [List.getLast?_cons_cons] at hy; exact hy) hy0
      | nil =>
        have : m' = m := by
          have : ((m : ℕ) : ℤ) = m' := a1
          omega
        rw [this, ep, h6 rfl]
        exact e3
    · refine (cycPowLoop_sound a zs true comp1 out (by simp) s1).weaken ?_
      rintro w r _ ⟨h6, h3⟩ h1
      refine ⟨by simp, fun X n B hc ha hj hB hX hn => ?_⟩
      have hz3 : z = 1 := by simpa using hz2
      have e1 := h1 X n hc hX hn
      rw [if_neg hs] at hn
      subst hn hz3
      obtain ⟨m', a1, a2, a3, a4⟩ := h3 X 1 B hc ha hj (hbound 0 1 B hB (by omega)) e1 (by simp)
      refine ⟨m', a1, a2, a3, fun y hy hy0 => ?_⟩
      cases zs with
      | cons z' zs => exact a4 y (by rw [List.getLast?_cons_cons] at hy; exact hy) hy0
      | nil =>
        have : m' = 1 := by
          have : ((1 : ℕ) : ℤ) = m' := a1
          omega
        rw [this, h6 rfl, hout (by simpa using hs)]
        show R12 w a (X ^ (1 : ℤ))
        rw [zpow_one]
        exact ha
    · refine (cycPowLoop_sound a zs st comp1 out hout s1).weaken ?_
      rintro w r _ ⟨h6, h3⟩ h1
      refine ⟨by simp, fun X n B hc ha hj hB hX hn => ?_⟩
      have e1 := h1 X n hc hX hn
      have hz0 : z = 0 := by omega
      subst hz0
      obtain ⟨m', a1, a2, a3, a4⟩ := h3 X (2 * n) B hc ha hj (hbound n (2 * n) B hB (by omega)) e1
        (by cases st <;> simp at hn ⊢ <;> omega)
      refine ⟨m', ?_, a2, a3, fun y hy hy0 => ?_⟩
      · rw [← a1]
        show hv (2 * n + 0) zs = _
        rw [add_zero]
        push_cast
        rfl
      cases zs with
      | cons z' zs => exact a4 y (by rw [List.getLast?_cons_cons] at hy; exact hy) hy0
      | nil =>
        simp at hy
        omega

theorem cycPow_sound (a : List (CrtInt bn254R)) (exp : List ℕ) (hx : ∀ x ∈ exp, x < 2 ^ 64) : Sound bnTbl (bnCfg.cycPow a exp) (fun w r =>
    ∀ X, InCyc X → R12 w a X → (∀ j, 0 < j → j ≤ 2 ^ (64 * exp.length) → X ^ j ≠ 1) →
      R12 w r (if Nat.ofDigits (2 ^ 64) exp = 0 then X else X ^ Nat.ofDigits (2 ^ 64) exp)) := by
  intro s
  refine Snd.bind (cycCompress_sound a s) fun comp s1 _ => Snd.unwrap fun naf hn =>
    Snd.bind (cycPowLoop_sound a naf.reverse false comp none (fun _ => rfl) s1) fun co s2 _ => ?_
  obtain ⟨comp2, out⟩ := co
  refine Snd.unwrap fun d0 hd => ?_
  obtain ⟨n1, n2, -⟩ := Naf.C60_get_naf hx hn
  have key : ∀ (w : Cell → ZMod bn254R) (X : Fq12), InCyc X → R12 w a X → (∀ j, 0 < j → j ≤ 2 ^ (64 * exp.length) → X ^ j ≠ 1) →
      (∀ X, R12 w a X → CompRep w comp X) →
      (∀ (X : Fq12) (n B : ℕ), InCyc X → R12 w a X →
      (∀ j, 0 < j → j ≤ B → X ^ j ≠ 1) → (n + 1) * 2 ^ naf.reverse.length ≤ B → CompRep w comp (X ^ pw n) →
      (if false then 1 ≤ n else n = 0) → ∃ m : ℕ, hv n naf.reverse = m ∧ m + 1 ≤ B ∧ CompRep w comp2 (X ^ pw m) ∧
        ∀ z, naf.reverse.getLast? = some z → z ≠ 0 → R12 w (out.getD a) (X ^ pw m)) →
      CompRep w comp2 (X ^ pw (Nat.ofDigits (2 ^ 64) exp : ℕ)) ∧ Nat.ofDigits (2 ^ 64) exp ≤ 2 ^ (64 * exp.length) ∧
      (d0 ≠ 0 → R12 w (out.getD a) (X ^ pw (Nat.ofDigits (2 ^ 64) exp : ℕ))) := by
    intro w X hc ha hj h1 h2
    obtain ⟨m, m1, m2, m3, m4⟩ := h2 X 0 (2 ^ (64 * exp.length)) hc ha hj (by rw [List.length_reverse, n2]; omega)
      (by
        have := h1 X ha
        rw [show pw ((0 : ℕ) : ℤ) = 1 from rfl, zpow_one]
        exact this) (by simp)
    have hm : m = Nat.ofDigits (2 ^ 64) exp := by
      have : hv ((0 : ℕ) : ℤ) naf.reverse = Naf.value 2 naf := hv_value naf
      have := (m1.symm.trans this).trans n1
      exact_mod_cast this
    subst hm
    refine ⟨m3, by omega, fun h => m4 d0 ?_ h⟩
    rw [List.getLast?_reverse, List.head?_eq_getElem?]
    exact hd
  refine Snd.ite (fun h => ?_) (fun h => ?_)
  · refine Snd.bind (cycDecompress_sound comp2 s2) fun r s3 _ => Snd.pure ?_
    rintro w _ h3 ⟨-, h2⟩ h1 X hc ha hj
    obtain ⟨k1, k2, k3⟩ := key w X hc ha hj h1 h2
    rw [pw_nat] at k1
    refine h3 _ k1 ?_ ?_
    · split
      · exact hc
      · exact hc.pow _
    · split
      · have := hj 1 one_pos Nat.one_le_two_pow
        rwa [pow_one] at this
      · exact hj _ (by omega) k2
  · refine Snd.pure ?_
    rintro w _ ⟨-, h2⟩ h1 X hc ha hj
    obtain ⟨k1, k2, k3⟩ := key w X hc ha hj h1 h2
    have := k3 h
    rwa [pw_nat] at this

end H2
