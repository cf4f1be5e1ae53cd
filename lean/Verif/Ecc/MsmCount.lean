import Verif.Ecc.CompleteMsm
import Mathlib.Data.Set.Card
import Mathlib.Tactic.Module
import Mathlib.GroupTheory.OrderOfElement

/-!
# All but a few random base points avoid the collisions of `multi_scalar_multiply`

In a group of prime order every collision is an equation `c A = D` with `c` not divisible by the order, so it excludes one `A`.
-/

set_option autoImplicit false
namespace H2

section
variable {G : Type} [AddCommGroup G]

/-- In a group of prime order `n`, `c A = D` has at most one solution if `n` does not divide `c`. -/
theorem smul_inj {n : ℕ} (hn : n.Prime) (hG : Nat.card G = n) {c : ℤ} (hc : ¬ (n : ℤ) ∣ c) {A B : G} (h : c • A = c • B) : A = B := by
  rw [← sub_eq_zero]
  have h1 : c • (A - B) = 0 := by rw [smul_sub, h, sub_self]
  have h2 : (n : ℤ) • (A - B) = 0 := by rw [natCast_zsmul, ← hG]; exact card_nsmul_eq_zero'
  have hco : IsCoprime (n : ℤ) c := (Prime.coprime_iff_not_dvd (Nat.prime_iff_prime_int.1 hn)).2 hc
  obtain ⟨u, v, huv⟩ := hco
  rw [← one_smul ℤ (A - B), ← huv, add_smul, mul_smul, mul_smul, h1, h2, smul_zero, smul_zero, add_zero]

theorem smul_ne_zero' {n : ℕ} (hn : n.Prime) (hG : Nat.card G = n) {c : ℤ} (hc : ¬ (n : ℤ) ∣ c) {A : G} (hA : A ≠ 0) : c • A ≠ 0 := by
  intro h
  exact hA (smul_inj hn hG hc (by rw [h, smul_zero]))

/-- The `A` solving one of the equations `c A = D` of a list: at most as many as the list is long. -/
theorem bad_card {n : ℕ} (hn : n.Prime) (hG : Nat.card G = n) (L : List (ℤ × G)) (hL : ∀ e ∈ L, ¬ (n : ℤ) ∣ e.1) :
    {A : G | ∃ e ∈ L, e.1 • A = e.2}.ncard ≤ L.length := by
  have hfin : Finite G := Nat.finite_of_card_ne_zero (by rw [hG]; exact hn.ne_zero)
  induction L with
  | nil => simp
  | cons e L ih =>
    have h1 : {A : G | ∃ e' ∈ e :: L, e'.1 • A = e'.2} ⊆ {A | e.1 • A = e.2} ∪ {A | ∃ e' ∈ L, e'.1 • A = e'.2} := by
      rintro A ⟨e', he, h⟩
      rcases List.mem_cons.1 he with rfl | he
      · exact .inl h
      · exact .inr ⟨e', he, h⟩
    have h2 : {A : G | e.1 • A = e.2}.ncard ≤ 1 := by
      rw [Set.ncard_le_one_iff (Set.toFinite _)]
      intro A B hA hB
      exact smul_inj hn hG (hL e List.mem_cons_self) (hA.trans hB.symm)
    have h3 := ih fun e' he => hL e' (List.mem_cons_of_mem _ he)
    have h4 := Set.ncard_le_ncard h1 (Set.toFinite _)
    have h5 := Set.ncard_union_le {A : G | e.1 • A = e.2} {A | ∃ e' ∈ L, e'.1 • A = e'.2}
    rw [List.length_cons]
    omega

/-- The coefficient of `A` in the accumulator before the addition number `idx` of a window. -/
def accCoef (wb k idx : ℕ) : ℤ := 2 ^ (wb + k) - 2 ^ (wb + idx) + 2 ^ idx - 1

/-- The equations to avoid in the additions of one window. -/
def addPairs (wb k i : ℕ) : G → ℕ → List (G × ℕ) → List (ℤ × G)
  | _, _, [] => []
  | D, idx, (q, N) :: r => (2 ^ (wb + k) - 1, (N / 2 ^ (wb * i) % 2 ^ wb) • q - D) ::
      (accCoef wb k (idx + 1), -((N / 2 ^ (wb * i) % 2 ^ wb) • q) - D) :: addPairs wb k i (D + (N / 2 ^ (wb * i) % 2 ^ wb) • q) (idx + 1) r

theorem addPairs_length (wb k i : ℕ) (r : List (G × ℕ)) : ∀ (D : G) (idx : ℕ), (addPairs wb k i D idx r).length = 2 * r.length := by
  induction r with
  | nil => intros; rfl
  | cons x r ih =>
    obtain ⟨q, N⟩ := x
    intro D idx
    rw [addPairs, List.length_cons, List.length_cons, ih, List.length_cons]
    ring

theorem addPairs_coef {n wb k i : ℕ} (hk : 2 ^ (wb + k) < n) (hwk : 1 ≤ wb + k) (r : List (G × ℕ)) : ∀ (D : G) (idx : ℕ), idx + r.length ≤ k →
    ∀ e ∈ addPairs wb k i D idx r, ¬ (n : ℤ) ∣ e.1 := by
  have hk' : (2 : ℤ) ^ (wb + k) < n := by exact_mod_cast hk
  induction r with
  | nil => intro D idx _ e he; simp [addPairs] at he
  | cons x r ih =>
    obtain ⟨q, N⟩ := x
    intro D idx hi e he
    rw [List.length_cons] at hi
    rw [addPairs] at he
    rcases List.mem_cons.1 he with rfl | he
    · intro hd
      have h1 : (2 : ℤ) ^ 1 ≤ 2 ^ (wb + k) := pow_le_pow_right₀ (by norm_num) hwk
      have := Int.le_of_dvd (by norm_num at h1 ⊢; linarith) hd
      simp only at this
      linarith
    rcases List.mem_cons.1 he with rfl | he
    · intro hd
      have h1 : (2 : ℤ) ^ (wb + (idx + 1)) ≤ 2 ^ (wb + k) := pow_le_pow_right₀ (by norm_num) (by omega)
      have h2 : (2 : ℤ) ^ 1 ≤ 2 ^ (idx + 1) := pow_le_pow_right₀ (by norm_num) (by omega)
      have h3 : (2 : ℤ) ^ (idx + 1) ≤ 2 ^ (wb + (idx + 1)) := pow_le_pow_right₀ (by norm_num) (by omega)
      have := Int.le_of_dvd (by unfold accCoef; norm_num at h2 ⊢; linarith) hd
      simp only [accCoef] at this
      linarith
    · exact ih _ _ (by omega) e he

/-- Avoiding the equations, the additions of one window succeed. -/
theorem sumOk_of_pairs (wb k i : ℕ) (A : G) (r : List (G × ℕ)) : ∀ (D : G) (idx : ℕ) (g : G), g = accCoef wb k idx • A + D →
    (∀ e ∈ addPairs wb k i D idx r, e.1 • A ≠ e.2) →
    SumOk g (msmAdds wb i (((r.map Prod.fst).zipIdx idx).zip (r.map Prod.snd) |>.map fun x =>
      (2 ^ x.1.2 • A - 2 ^ (x.1.2 + wb) • A, x.1.1, x.2))) := by
  induction r with
  | nil => intros; exact trivial
  | cons x r ih =>
    obtain ⟨q, N⟩ := x
    intro D idx g hg h
    rw [addPairs] at h
    rw [List.map_cons, List.map_cons, List.zipIdx_cons, List.zip_cons_cons, List.map_cons, msmAdds, List.map_cons]
    generalize N / 2 ^ (wb * i) % 2 ^ wb = t at h ⊢
    have h1 := h _ List.mem_cons_self
    have h2 := h _ (List.mem_cons_of_mem _ List.mem_cons_self)
    have hB : ((2 ^ idx : ℕ) • A - (2 ^ (idx + wb) : ℕ) • A : G) = ((2 : ℤ) ^ idx - 2 ^ (idx + wb)) • A := by
      rw [sub_smul, ← natCast_zsmul, ← natCast_zsmul]
      push_cast
      rfl
    have e1 : accCoef wb k idx - ((2 : ℤ) ^ idx - 2 ^ (idx + wb)) = 2 ^ (wb + k) - 1 := by
      unfold accCoef
      rw [add_comm idx wb]
      ring
    have e2 : accCoef wb k idx + ((2 : ℤ) ^ idx - 2 ^ (idx + wb)) = accCoef wb k (idx + 1) := by
      unfold accCoef
      rw [add_comm idx wb, ← add_assoc wb idx 1, pow_succ, pow_succ]
      ring
    refine ⟨?_, ?_, ?_⟩
    · intro he
      apply h1
      simp only [hB] at he
      rw [← e1, sub_smul, eq_sub_iff_add_eq, sub_add_eq_add_sub, ← hg, he]
      abel
    · intro he
      apply h2
      simp only [hB] at he
      rw [← e2, add_smul, eq_sub_iff_add_eq, add_right_comm, ← hg, he]
      abel
    · refine ih (D + t • q) (idx + 1) _ ?_ fun e he => h e (List.mem_cons_of_mem _ (List.mem_cons_of_mem _ he))
      simp only [hB]
      rw [hg, ← e2, add_smul]
      abel

end

section
variable {K : Type} [Field K] [DecidableEq K] {b : K}

/-- The points with first coordinate `X`. -/
theorem xPts (b X : K) : ∃ L : List (ECurve b), L.length ≤ 2 ∧ ∀ g, HasX b X g → g ∈ L := by
  by_cases h : ∃ g, HasX b X g
  · obtain ⟨g, Y, hg⟩ := h
    refine ⟨[g, -g], by simp, ?_⟩
    rintro g' ⟨Y', hg'⟩
    rcases hg'.x_eq hg with h | h
    · simp [h.2]
    · simp [h.2]
  · exact ⟨[], by simp, fun g hg => absurd ⟨g, hg⟩ h⟩

/-- The number of base points which `multi_scalar_multiply` of `k` points with `nw` windows of `wb` bits must avoid, at most. -/
def msmBadBound (wb nw k : ℕ) : ℕ := 4 + k * (2 * (2 ^ wb - 1)) + nw * (2 * k + 1)

theorem coef_aux {n wb k : ℕ} (hn : n.Prime) (hk1 : 1 ≤ k) (hwb : 1 ≤ wb) (hk : 2 ^ (wb + k) < n) :
    (∀ i : ℕ, ¬ (n : ℤ) ∣ 2 ^ i) ∧ ¬ (n : ℤ) ∣ 2 ^ wb - 1 ∧ ¬ (n : ℤ) ∣ 2 ^ wb + 1 ∧ ¬ (n : ℤ) ∣ 2 ^ k - 1 ∧ ¬ (n : ℤ) ∣ 2 ^ k + 1 := by
  have hk' : (2 : ℤ) ^ (wb + k) < n := by exact_mod_cast hk
  have hp := Nat.prime_iff_prime_int.1 hn
  have a1 : (2 : ℤ) ^ 1 ≤ 2 ^ wb := pow_le_pow_right₀ (by norm_num) hwb
  have a2 : (2 : ℤ) ^ 1 ≤ 2 ^ k := pow_le_pow_right₀ (by norm_num) hk1
  have a3 : (2 : ℤ) ^ (wb + 1) ≤ 2 ^ (wb + k) := pow_le_pow_right₀ (by norm_num) (by omega)
  have a4 : (2 : ℤ) ^ (k + 1) ≤ 2 ^ (wb + k) := pow_le_pow_right₀ (by norm_num) (by omega)
  rw [pow_succ] at a3 a4
  rw [pow_one] at a1 a2
  refine ⟨fun i hd => ?_, fun hd => ?_, fun hd => ?_, fun hd => ?_, fun hd => ?_⟩
  · have := Int.le_of_dvd (by norm_num) (hp.dvd_of_dvd_pow hd)
    linarith
  all_goals
    have := Int.le_of_dvd (by linarith) hd
    linarith

theorem msm_bad_card {n : ℕ} (hn : n.Prime) (hG : Nat.card (ECurve b) = n) (X : K) {wb nw : ℕ} {qs : List (ECurve b)} {Ns : List ℕ}
    (hk1 : 1 ≤ qs.length) (hl : qs.length = Ns.length) (hwb : 1 ≤ wb) (hk : 2 ^ (wb + qs.length) < n) :
    {A : ECurve b | ¬ MsmOk b X A wb nw qs Ns}.ncard ≤ msmBadBound wb nw qs.length := by
  classical
  have hfin : Finite (ECurve b) := Nat.finite_of_card_ne_zero (by rw [hG]; exact hn.ne_zero)
  obtain ⟨c2, c3, c4, c5, c6⟩ := coef_aux hn hk1 hwb hk
  have hp := Nat.prime_iff_prime_int.1 hn
  obtain ⟨L0, hL0, hx0⟩ := xPts b 0
  obtain ⟨LX, hLX, hxX⟩ := xPts b X
  set k := qs.length with hkdef
  -- the part of the accumulator which does not depend on `A`
  set S : ℕ → ECurve b := fun i => ((Ns.zip qs).map fun x => (x.1 / 2 ^ (wb * i)) • x.2).sum with hS
  have hacc : ∀ (A : ECurve b) i, msmAcc wb i (2 ^ k • A - A) (msmData A wb qs Ns) = ((2 : ℤ) ^ k - 1) • A + S i := by
    intro A i
    unfold msmAcc
    rw [hS]
    congr 1
    · rw [sub_smul, one_smul, ← natCast_zsmul]
      push_cast
      rfl
    · congr 1
      unfold msmData
      rw [List.map_map]
      generalize 0 = idx
      clear * -
      induction qs generalizing Ns idx with
      | nil => simp
      | cons q qs ih =>
        cases Ns with
        | nil => simp
        | cons N Ns =>
          rw [List.zipIdx_cons, List.zip_cons_cons, List.map_cons, List.zip_cons_cons, List.map_cons, ih]
          rfl
  -- the equations
  let cacheP : ECurve b × ℕ → List (ℤ × ECurve b) := fun qi =>
    if qi.1 = 0 then L0.map fun g => ((2 : ℤ) ^ qi.2 * (-(2 ^ wb - 1)), g)
    else (List.range (2 ^ wb - 1)).flatMap fun j => [((2 : ℤ) ^ qi.2 * (-(2 ^ wb - 1)), qi.1 - j • qi.1), ((2 : ℤ) ^ qi.2 * (-(2 ^ wb - 1)), -qi.1 - j • qi.1)]
  let loopP : ℕ → List (ℤ × ECurve b) := fun i => ((2 : ℤ) ^ k - 1, -S (i + 1)) :: addPairs wb k i (2 ^ wb • S (i + 1)) 0 (qs.zip Ns)
  let L : List (ℤ × ECurve b) := (1, 0) :: (2 * ((2 : ℤ) ^ k - 1), -S 0) :: (LX.map fun g => ((2 : ℤ) ^ k - 1, g)) ++
    qs.zipIdx.flatMap cacheP ++ (List.range nw).flatMap loopP
  have hLlen : L.length ≤ msmBadBound wb nw k := by
    have l1 : (qs.zipIdx.flatMap cacheP).length ≤ k * (2 * (2 ^ wb - 1)) := by
      have h1 : ∀ qi ∈ qs.zipIdx, (cacheP qi).length ≤ 2 * (2 ^ wb - 1) := by
        intro qi _
        have : 2 ^ 1 ≤ 2 ^ wb := Nat.pow_le_pow_right (by norm_num) hwb
        simp only [cacheP]
        split
        · rw [List.length_map]
          omega
        · rw [List.length_flatMap]
          simp
          omega
      rw [List.length_flatMap]
      have := List.sum_le_card_nsmul (qs.zipIdx.map fun qi => (cacheP qi).length) (2 * (2 ^ wb - 1)) (by
        intro x hx
        obtain ⟨qi, hqi, rfl⟩ := List.mem_map.1 hx
        exact h1 qi hqi)
      simpa using this
    have l2 : ((List.range nw).flatMap loopP).length ≤ nw * (2 * k + 1) := by
      rw [List.length_flatMap]
      have := List.sum_le_card_nsmul ((List.range nw).map fun i => (loopP i).length) (2 * k + 1) (by
        intro x hx
        obtain ⟨i, hi, rfl⟩ := List.mem_map.1 hx
        simp only [loopP, List.length_cons, addPairs_length, List.length_zip]
        omega)
      simpa using this
    simp only [L, List.length_append, List.length_cons, List.length_map]
    unfold msmBadBound
    omega
  have hLc : ∀ e ∈ L, ¬ (n : ℤ) ∣ e.1 := by
    intro e he
    have cB : ∀ i : ℕ, ¬ (n : ℤ) ∣ 2 ^ i * (-(2 ^ wb - 1)) := by
      intro i hd
      rcases hp.dvd_or_dvd hd with hd | hd
      · exact c2 i hd
      · exact c3 ((dvd_neg).1 hd)
    simp only [L, List.mem_append, List.mem_cons, List.mem_map, List.mem_flatMap] at he
    rcases he with ((rfl | rfl | ⟨g, _, rfl⟩) | ⟨qi, _, he⟩) | ⟨i, _, he⟩
    · simpa using c2 0
    · intro hd
      rcases hp.dvd_or_dvd hd with hd | hd
      · exact c2 1 (by simpa using hd)
      · exact c5 hd
    · exact c5
    · simp only [cacheP] at he
      split at he
      · obtain ⟨g, _, rfl⟩ := List.mem_map.1 he
        exact cB _
      · obtain ⟨j, _, he⟩ := List.mem_flatMap.1 he
        simp only [List.mem_cons, List.not_mem_nil, or_false] at he
        rcases he with rfl | rfl <;> exact cB _
    · simp only [loopP] at he
      rcases List.mem_cons.1 he with rfl | he
      · exact c5
      · exact addPairs_coef hk (by omega) _ _ _ (by rw [List.length_zip]; omega) e he
  refine le_trans (Set.ncard_le_ncard ?_ (Set.toFinite _)) ((bad_card hn hG L hLc).trans hLlen)
  intro A hbad
  by_contra hgood
  simp only [Set.mem_setOf_eq, not_exists, not_and] at hgood hbad
  apply hbad
  have m1 : ∀ e ∈ qs.zipIdx.flatMap cacheP, e ∈ L := fun e he => List.mem_append_left _ (List.mem_append_right _ he)
  have m2 : ∀ e ∈ (List.range nw).flatMap loopP, e ∈ L := fun e he => List.mem_append_right _ he
  have hA : A ≠ 0 := by
    have := hgood (1, 0) (by simp [L])
    simpa using this
  have nz : ∀ (c : ℤ) (g : ECurve b), ¬ (n : ℤ) ∣ c → g ≠ 0 → c • g ≠ 0 := fun c g h hg => smul_ne_zero' hn hG h hg
  have npow : ∀ (i : ℕ) (g : ECurve b), g ≠ 0 → (2 ^ i : ℕ) • g ≠ 0 := by
    intro i g hg
    have := nz (2 ^ i) g (c2 i) hg
    rw [← natCast_zsmul]
    push_cast
    exact this
  have hBase : ∀ i : ℕ, (2 ^ i • A - 2 ^ (i + wb) • A : ECurve b) = ((2 : ℤ) ^ i * (-(2 ^ wb - 1))) • A := by
    intro i
    rw [← natCast_zsmul, ← natCast_zsmul, ← sub_smul]
    congr 1
    push_cast
    ring
  have hstart : (2 ^ k • A - A : ECurve b) = ((2 : ℤ) ^ k - 1) • A := by
    rw [sub_smul, one_smul, ← natCast_zsmul]
    push_cast
    rfl
  have hne : ∀ i < nw, msmAcc wb (i + 1) (2 ^ k • A - A) (msmData A wb qs Ns) ≠ 0 := by
    intro i hi h0
    rw [hacc] at h0
    exact hgood _ (m2 _ (List.mem_flatMap.2 ⟨i, List.mem_range.2 hi, List.mem_cons_self⟩)) (eq_neg_of_add_eq_zero_left h0)
  refine ⟨fun j _ => npow _ A hA, ?_, ?_, ?_, fun i hi j _ => npow _ _ (hne i hi), ?_, ?_, ?_⟩
  · rintro ⟨q, i⟩ hqi
    have hmem : ∀ e ∈ cacheP (q, i), e.1 • A ≠ e.2 := fun e he => hgood e (m1 e (List.mem_flatMap.2 ⟨(q, i), hqi, he⟩))
    refine ⟨?_, ?_, ?_, ?_⟩
    · intro h
      have h := sub_eq_zero.2 h
      rw [hBase] at h
      refine nz _ A ?_ hA h
      intro hd
      rcases hp.dvd_or_dvd hd with hd | hd
      · exact c2 i hd
      · exact c3 ((dvd_neg).1 hd)
    · intro h
      have h' : ((2 : ℤ) ^ i * (2 ^ wb + 1)) • A = 0 := by
        have h := eq_neg_iff_add_eq_zero.1 h
        rw [← natCast_zsmul, ← natCast_zsmul, ← add_smul] at h
        rw [← h]
        congr 1
        push_cast
        ring
      refine nz _ A ?_ hA h'
      intro hd
      rcases hp.dvd_or_dvd hd with hd | hd
      · exact c2 i hd
      · exact c4 hd
    · intro hq hX
      simp only at hq
      refine hmem ((2 : ℤ) ^ i * (-(2 ^ wb - 1)), 2 ^ i • A - 2 ^ (i + wb) • A) ?_ (hBase i).symm
      simp only [cacheP, if_pos hq]
      exact List.mem_map.2 ⟨_, hx0 _ hX, rfl⟩
    · intro hq j hj
      simp only at hq
      rw [hBase]
      constructor
      · intro h
        refine hmem ((2 : ℤ) ^ i * (-(2 ^ wb - 1)), q - j • q) ?_ (eq_sub_of_add_eq h)
        simp only [cacheP, if_neg hq]
        exact List.mem_flatMap.2 ⟨j, List.mem_range.2 hj, by simp⟩
      · intro h
        refine hmem ((2 : ℤ) ^ i * (-(2 ^ wb - 1)), -q - j • q) ?_ (eq_sub_of_add_eq h)
        simp only [cacheP, if_neg hq]
        exact List.mem_flatMap.2 ⟨j, List.mem_range.2 hj, by simp⟩
  · intro h
    have h := sub_eq_zero.2 h
    rw [hstart] at h
    exact nz _ A c5 hA h
  · intro h
    have h := eq_neg_iff_add_eq_zero.1 h
    have h' : ((2 : ℤ) ^ k + 1) • A = 0 := by
      rw [add_smul, one_smul, ← h, ← natCast_zsmul]
      push_cast
      rfl
    exact nz _ A c6 hA h'
  · intro i hi
    have := sumOk_of_pairs wb k i A (qs.zip Ns) (2 ^ wb • S (i + 1)) 0
      (2 ^ wb • msmAcc wb (i + 1) (2 ^ k • A - A) (msmData A wb qs Ns)) ?_
      (fun e he => hgood e (m2 e (List.mem_flatMap.2 ⟨i, List.mem_range.2 hi, List.mem_cons_of_mem _ he⟩)))
    · rwa [List.map_fst_zip (by omega), List.map_snd_zip (by omega)] at this
    · rw [hacc, smul_add]
      congr 1
      rw [← natCast_zsmul, ← mul_smul]
      congr 1
      unfold accCoef
      push_cast
      rw [Nat.add_zero, pow_add]
      ring
  · intro h
    exfalso
    rw [hacc, hstart] at h
    refine hgood (2 * ((2 : ℤ) ^ k - 1), -S 0) (by simp [L]) ?_
    simp only
    rw [two_mul, add_smul]
    nth_rewrite 1 [eq_sub_of_add_eq h]
    abel
  · intro h
    exact hgood ((2 : ℤ) ^ k - 1, 2 ^ k • A - A) (List.mem_append_left _ (List.mem_append_left _ (by
      simp only [List.cons_append, List.mem_cons, List.mem_append, List.mem_map]
      exact .inr (.inr ⟨_, hxX _ h, rfl⟩)))) hstart.symm

end
end H2
