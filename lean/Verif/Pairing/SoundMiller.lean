import Verif.Pairing.SoundLine
import Mathlib.GroupTheory.OrderOfElement

/-!
# Soundness of the Miller loops (`pairing.rs`)
-/

set_option autoImplicit false
set_option linter.unusedSectionVars false
set_option linter.unusedVariables false
namespace H2
open PairCfg

/-! ### Multiples of a point of order `r` -/

theorem zsmul_eq_zero_iff {G : Type} [AddCommGroup G] {r : ℕ} [hr : Fact r.Prime] {Q : G} (h0 : Q ≠ 0) (h : r • Q = 0) (m : ℤ) :
    m • Q = 0 ↔ (r : ℤ) ∣ m := by
  rw [← addOrderOf_dvd_iff_zsmul_eq_zero, addOrderOf_eq_prime h h0]

theorem zsmul_ne {G : Type} [AddCommGroup G] {r : ℕ} [hr : Fact r.Prime] {Q : G} (h0 : Q ≠ 0) (h : r • Q = 0) {m k : ℤ}
    (h1 : ¬ (r : ℤ) ∣ m - k) : m • Q ≠ k • Q := by
  intro e
  exact h1 ((zsmul_eq_zero_iff h0 h _).1 (by rw [sub_smul, e, sub_self]))

theorem zsmul_ne_neg {G : Type} [AddCommGroup G] {r : ℕ} [hr : Fact r.Prime] {Q : G} (h0 : Q ≠ 0) (h : r • Q = 0) {m k : ℤ}
    (h1 : ¬ (r : ℤ) ∣ m + k) : m • Q ≠ -(k • Q) := by
  intro e
  exact h1 ((zsmul_eq_zero_iff h0 h _).1 (by rw [add_smul, e, neg_add_cancel]))

/-- The condition on the loop: no multiple of `Q` met in it is exceptional. -/
theorem not_dvd_of_lt {r m : ℤ} (h0 : 0 < m) (h1 : m < r) : ¬ r ∣ m := fun h => absurd (Int.le_of_dvd h0 h) (by omega)

/-! ### The specification -/

/-- The multiple of `Q` after the digits `ds`, from `n`. -/
def digitsFrom (n : ℤ) (ds : List ℤ) : ℤ := ds.foldl (fun n z => 2 * n + z) n

theorem millerStep_snd (Q : G2) (P : G1) (f : Fq12) (n d : ℤ) : (millerStep Q P (f, n • Q) d).2 = (2 * n + d) • Q := by
  unfold millerStep
  dsimp only
  split
  · rename_i h
    rw [h, add_zero, mul_smul]
  · rw [add_smul, mul_smul]

theorem miller_snd (Q : G2) (P : G1) : ∀ (ds : List ℤ) (f : Fq12) (n : ℤ), (ds.foldl (millerStep Q P) (f, n • Q)).2 = digitsFrom n ds • Q
  | [], _, _ => rfl
  | d :: ds, f, n => by
    have := miller_snd Q P ds (millerStep Q P (f, n • Q) d).1 (2 * n + d)
    rw [← millerStep_snd Q P f n d] at this
    exact this

/-- The factor a round adds. -/
noncomputable def stepF (Q : G2) (P : G1) (R : G2) (d : ℤ) : Fq12 :=
  tangent R P * (if d = 0 then 1 else chord ((2 : ℤ) • R) (d • Q) P)

theorem millerStep_fst (Q : G2) (P : G1) (f : Fq12) (R : G2) (d : ℤ) : (millerStep Q P (f, R) d).1 = f ^ 2 * stepF Q P R d := by
  unfold millerStep stepF
  dsimp only
  split <;> ring

/-- Miller's algorithm started at `f` is that started at `1`, times a power of `f`. -/
theorem miller_fst (Q : G2) (P : G1) : ∀ (ds : List ℤ) (f : Fq12) (n : ℤ), (ds.foldl (millerStep Q P) (f, n • Q)).1 =
    f ^ 2 ^ ds.length * (ds.foldl (millerStep Q P) (1, n • Q)).1
  | [], f, _ => by simp
  | d :: ds, f, n => by
    have e1 : millerStep Q P (f, n • Q) d = (f ^ 2 * stepF Q P (n • Q) d, (2 * n + d) • Q) :=
      Prod.ext (millerStep_fst _ _ _ _ _) (millerStep_snd _ _ _ _ _)
    have e2 : millerStep Q P (1, n • Q) d = (stepF Q P (n • Q) d, (2 * n + d) • Q) :=
      Prod.ext ((millerStep_fst _ _ _ _ _).trans (by rw [one_pow, one_mul])) (millerStep_snd _ _ _ _ _)
    rw [List.foldl_cons, List.foldl_cons, e1, e2, miller_fst Q P ds, miller_fst Q P ds (stepF Q P (n • Q) d), List.length_cons]
    rw [mul_pow, ← pow_mul, pow_succ, mul_comm (2 ^ ds.length) 2]
    ring

/-! ### The loop -/

theorem ecDouble2 (R : EcPt bnCfg.F2) : Sound bnTbl (ecDouble bnCfg.F2 R) (fun w r => ∀ A : G2, E2 w R A → E2 w r ((2 : ℤ) • A)) :=
  fun s => (ecDouble_sound bnLaws2 g2B bnLaws2_ecFits curveOk_g2 R s).weaken fun w r _ h A hA => by
    rw [two_zsmul, ← two_nsmul]
    exact h A hA

theorem ecAdd2 (R Q : EcPt bnCfg.F2) : Sound bnTbl (ecAddUnequal bnCfg.F2 (.nonStrict R) (.nonStrict Q) false) (fun w r =>
    ∀ A B : G2, E2 w R A → E2 w Q B → A ≠ B → A ≠ -B → E2 w r (A + B)) :=
  fun s => (ecAddUnequal_sound bnLaws2 g2B bnLaws2_ecFits _ _ _ s).weaken fun w r _ h A B hA hB => (h A B hA hB).2

theorem digit_cases {d : ℤ} (h : (decide (d ≤ 1) && decide (-1 ≤ d)) = true) (h0 : d ≠ 0) : d = 1 ∨ d = -1 := by
  simp only [Bool.and_eq_true, decide_eq_true_eq] at h
  omega

theorem loop_bound {n d r : ℤ} {k : ℕ} (hn : 1 ≤ n) (hb : (n + 1) * 2 ^ (k + 1) ≤ r) (hd : d = 1 ∨ d = -1 ∨ d = 0) :
    1 ≤ 2 * n + d ∧ (2 * n + d + 1) * 2 ^ k ≤ r ∧ 0 < 2 * n - d ∧ 2 * n - d < r ∧ 2 * n + d < r := by
  have h1 : (1 : ℤ) ≤ 2 ^ k := one_le_pow₀ (by norm_num)
  rw [pow_succ] at hb
  have h2 : (2 * n + d + 1) * 2 ^ k ≤ r := by
    have : (2 * n + d + 1) * 2 ^ k ≤ (2 * n + 2) * 2 ^ k := mul_le_mul_of_nonneg_right (by omega) (by omega)
    calc _ ≤ _ := this
      _ = (n + 1) * (2 ^ k * 2) := by ring
      _ ≤ r := hb
  have h3 : (2 * n + 2) * 1 ≤ r := by
    have : (2 * n + 2) * 1 ≤ (2 * n + 2) * 2 ^ k := mul_le_mul_of_nonneg_left h1 (by omega)
    calc _ ≤ _ := this
      _ = (n + 1) * (2 ^ k * 2) := by ring
      _ ≤ r := hb
  refine ⟨by omega, h2, by omega, by omega, by omega⟩

/-- A conditional block in the middle of a `do` block. -/
theorem Snd.jp2 {p : ℕ} [Fact p.Prime] {α β γ : Type} {tbl : ZMod p → Prop} {s : Ctx p} {c : Prop} [Decidable c] {m1 : M p α} {m2 : M p γ}
    {g : γ → M p α} {f : α → M p β} {Q : (Cell → ZMod p) → α → Ctx p → Prop} {R : (Cell → ZMod p) → β → Ctx p → Prop}
    (h : Snd tbl s (if c then m1 else m2 >>= g) Q)
    (k : ∀ a s1, Ext s s1 → Snd tbl s1 (f a) (fun w r s2 => Q w a s1 → R w r s2)) :
    Snd tbl s (if c then m1 >>= f else m2 >>= fun x => g x >>= f) R := by
  split
  · rename_i hc
    rw [if_pos hc] at h
    exact Snd.bind h k
  · rename_i hc
    rw [if_neg hc] at h
    rw [← bind_assoc]
    exact Snd.bind h k

theorem millerRounds_sound (Q negQ : EcPt bnCfg.F2) (P : EcPt bnCfg.F) : ∀ (ds : List ℤ) (first : Bool) (f : List (CrtInt bn254R))
    (R : EcPt bnCfg.F2), Sound bnTbl (bnCfg.millerRounds Q negQ P ds first f R) (fun w r => ∀ (A : G2) (C : G1) (X : Fq12) (n : ℤ),
      A ≠ 0 → bn254R • A = 0 → E2 w Q A → E2 w negQ (-A) → E1 w P C → E2 w R (n • A) → (first = true → ds ≠ []) →
      R12 w f (if first = true then X ^ 2 * tangent (n • A) C else X) → 1 ≤ n → (n + 1) * 2 ^ ds.length ≤ (bn254R : ℤ) →
      R12 w r.1 (ds.foldl (millerStep A C) (X, n • A)).1 ∧ E2 w r.2 (digitsFrom n ds • A)) := by
  intro ds
  induction ds with
  | nil =>
    intro first f R s
    refine Snd.pure ?_
    intro w _ A C X n _ _ _ _ _ hR hf hX _ _
    cases first
    · exact ⟨hX, hR⟩
    · exact absurd rfl (hf rfl)
  | cons d ds ih =>
    intro first f R s
    unfold millerRounds
    have h1 : Sound bnTbl (if first = true then pure f else do
        let fsq ← bnCfg.F12.mul f f
        bnCfg.mulLineEqual fsq R P) (fun w r => ∀ (A : G2) (C : G1) (X : Fq12) (n : ℤ), E1 w P C → E2 w R (n • A) →
          R12 w f (if first = true then X ^ 2 * tangent (n • A) C else X) → R12 w r (X ^ 2 * tangent (n • A) C)) := by
      intro s
      refine Snd.ite (fun hc => ?_) fun hc => ?_
      · refine Snd.pure fun w _ A C X n _ _ h => ?_
        rwa [if_pos hc] at h
      · refine Snd.bind (f12_mul f f s) fun fsq s1 _ => (mulLineEqual_sound fsq R P s1).weaken ?_
        intro w r _ h2 h1 A C X n hC hR h
        rw [if_neg hc] at h
        have := h2 _ _ _ (h1 _ _ h h) hR hC
        rwa [← sq] at this
    refine Snd.jp2 (h1 s) fun f1 s1 _ => ?_
    beta_reduce
    refine Snd.bind (ecDouble2 R s1) fun R1 s2 _ => Snd.assert fun hd => Snd.ite (fun h0 => ?_) fun h0 => ?_
    · dsimp only
      refine Snd.bind (mulLineUnequal_sound f1 R1 _ P s2) fun f2 s3 _ => Snd.bind (ecAdd2 R1 _ s3) fun R2' s4 _ =>
        (ih false f2 R2' s4).weaken ?_
      intro w r _ hr hadd hline hdbl hf1 A C X n hA hord hQ hnQ hP hR hfirst hf hn hb
      rw [List.length_cons] at hb
      have hd' := digit_cases hd h0
      obtain ⟨b1, b2, b3, b4, b5⟩ := loop_bound hn hb (d := d) (by omega)
      have hsQ : E2 w (if d = 1 then Q else negQ) (d • A) := by
        rcases hd' with rfl | rfl
        · rw [if_pos rfl, one_smul]
          exact hQ
        · rw [if_neg (by decide), neg_smul, one_smul]
          exact hnQ
      have hR1 := hdbl _ hR
      have e2 : (2 : ℤ) • n • A = (2 * n) • A := (mul_smul _ _ _).symm
      have hR2 := hadd _ _ hR1 hsQ (by rw [e2]; exact zsmul_ne hA hord (not_dvd_of_lt b3 b4))
        (by rw [e2]; exact zsmul_ne_neg hA hord (not_dvd_of_lt (by omega) b5))
      have hF := hline _ _ _ _ (hf1 A C X n hP hR hf) hR1 hsQ hP
      rw [e2, ← add_smul] at hR2
      have := hr A C _ _ hA hord hQ hnQ hP hR2 (by simp) (by rw [if_neg (by decide)]; exact hF) b1 b2
      rw [List.foldl_cons]
      have e : millerStep A C (X, n • A) d = (X ^ 2 * tangent (n • A) C * chord ((2 : ℤ) • n • A) (d • A) C, (2 * n + d) • A) := by
        unfold millerStep
        dsimp only
        rw [if_neg h0, e2, ← add_smul]
      rw [e]
      exact this
    · refine (ih false f1 R1 s2).weaken ?_
      intro w r _ hr hdbl hf1 A C X n hA hord hQ hnQ hP hR hfirst hf hn hb
      rw [List.length_cons] at hb
      have hd0 : d = 0 := not_not.1 h0
      obtain ⟨b1, b2, b3, b4, b5⟩ := loop_bound hn hb (d := d) (by omega)
      have hR1 := hdbl _ hR
      have e2 : (2 : ℤ) • n • A = (2 * n + d) • A := by rw [hd0, add_zero]; exact (mul_smul _ _ _).symm
      rw [e2] at hR1
      have := hr A C _ _ hA hord hQ hnQ hP hR1 (by simp) (by rw [if_neg (by decide)]; exact hf1 A C X n hP hR hf) b1 b2
      rw [List.foldl_cons]
      have e : millerStep A C (X, n • A) d = (X ^ 2 * tangent (n • A) C, (2 * n + d) • A) := by
        unfold millerStep
        dsimp only
        rw [if_pos hd0, e2]
      rw [e]
      exact this

/-! ### The last two lines -/

/-- The conditions for the addition in the last step. -/
theorem end_not_dvd : ¬ (bn254R : ℤ) ∣ (6 * (bnX : ℤ) + 2) - bn254Q ∧ ¬ (bn254R : ℤ) ∣ (6 * (bnX : ℤ) + 2) + bn254Q := by decide +kernel

theorem millerEnd_sound (Q : EcPt bnCfg.F2) (P : EcPt bnCfg.F) (c2 c3 f : List (CrtInt bn254R)) (R : EcPt bnCfg.F2) :
    Sound bnTbl (bnCfg.millerEnd Q P c2 c3 f R) (fun w r => R2 w c2 (frobC 1 ^ 2) → R2 w c3 (frobC 1 ^ 3) → ∀ (A : G2) (C : G1) (X : Fq12),
      InG2 A → E2 w Q A → E1 w P C → E2 w R ((6 * (bnX : ℤ) + 2) • A) → R12 w f X →
      R12 w r (X * chord ((6 * (bnX : ℤ) + 2) • A) (frobPt A) C *
        chord ((6 * (bnX : ℤ) + 2) • A + frobPt A) (-frobPt (frobPt A)) C)) := by
  intro s
  refine Snd.bind (twistedFrob_sound Q c2 c3 s) fun Q1 s1 _ => Snd.bind (negTwistedFrob_sound Q1 c2 c3 s1) fun nQ2 s2 _ =>
    Snd.bind (mulLineUnequal_sound f R Q1 P s2) fun f1 s3 _ => Snd.bind (ecAdd2 R Q1 s3) fun R1 s4 _ =>
    (mulLineUnequal_sound f1 R1 nQ2 P s4).weaken ?_
  intro w r _ h5 h4 h3 h2 h1 hc2 hc3 A C X hA hQ hP hR hf
  have hQ1 := h1 hc2 hc3 _ hQ
  have hQ2 := h2 hc2 hc3 _ hQ1
  have hf1 := h3 _ _ _ _ hf hR hQ1 hP
  have e : frobPt A = (bn254Q : ℤ) • A := by rw [hA.frob, natCast_zsmul]
  have hR1 := h4 _ _ hR hQ1 (by rw [e]; exact zsmul_ne hA.ne hA.ord end_not_dvd.1)
    (by rw [e]; exact zsmul_ne_neg hA.ne hA.ord end_not_dvd.2)
  exact h5 _ _ _ _ hf1 hR1 hQ2 hP

theorem naf_digits : sixUPlus2Naf.reverse.dropWhile (fun d => d == 0) = 1 :: ateDigits := by decide +kernel

theorem ateDigits_from : digitsFrom 1 ateDigits = 6 * (bnX : ℤ) + 2 := by decide +kernel

theorem fAte_eq (A : G2) (C : G1) : fAte A C = (miller A C ateDigits).1 * chord ((6 * (bnX : ℤ) + 2) • A) (frobPt A) C *
    chord ((6 * (bnX : ℤ) + 2) • A + frobPt A) (-frobPt (frobPt A)) C := by
  have := miller_snd A C ateDigits 1 1
  rw [ateDigits_from, one_smul] at this
  unfold fAte ateMiller
  dsimp only
  rw [show (miller A C ateDigits).2 = (6 * (bnX : ℤ) + 2) • A from this]

theorem ate_bound : ((1 : ℤ) + 1) * 2 ^ ateDigits.length ≤ (bn254R : ℤ) := by decide +kernel

theorem millerLoop_sound (Q : EcPt bnCfg.F2) (P : EcPt bnCfg.F) : Sound bnTbl (bnCfg.millerLoop Q P sixUPlus2Naf) (fun w r =>
    ∀ (A : G2) (C : G1), InG2 A → E2 w Q A → E1 w P C → R12 w r (fAte A C)) := by
  intro s
  unfold millerLoop
  rw [naf_digits]
  have hds : ∃ d ds, ateDigits = d :: ds := ⟨_, _, rfl⟩
  obtain ⟨d, ds, hds⟩ := hds
  rw [hds]
  dsimp only
  refine Snd.bind (ecNegate_sound bnLaws2 g2B Q s) fun negQ s1 _ => Snd.assert fun _ => ?_
  rw [if_pos rfl]
  refine Snd.bind (firstLine_sound Q P s1) fun f s2 _ => Snd.bind (millerRounds_sound Q negQ P (d :: ds) true f Q s2) fun fr s3 _ => ?_
  obtain ⟨f1, R1⟩ := fr
  dsimp only
  refine Snd.bind (load2 (frobC 1 ^ 2) s3) fun c2 s4 _ => Snd.bind (load2 (frobC 1 ^ 3) s4) fun c3 s5 _ =>
    (millerEnd_sound Q P c2 c3 f1 R1 s5).weaken ?_
  intro w r _ hend hc3 hc2 hloop hfirst hneg A C hA hQ hP
  have hb := ate_bound
  rw [hds] at hb
  have e1 : (1 : ℤ) • A = A := one_smul _ _
  obtain ⟨k1, k2⟩ := hloop A C 1 1 hA.ne hA.ord hQ ((hneg A).1 hQ) hP (by rw [e1]; exact hQ) (by simp)
    (by rw [if_pos rfl, e1, one_pow, one_mul]; exact hfirst _ _ hQ hP) le_rfl hb
  rw [← hds] at k1 k2
  rw [ateDigits_from] at k2
  rw [e1] at k1
  rw [fAte_eq]
  exact hend hc2 hc3 A C _ hA hQ hP k2 k1

end H2
