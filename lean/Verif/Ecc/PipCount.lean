import Verif.Ecc.CompletePar
import Verif.Ecc.MsmCount

/-!
# How many random points make `multi_exp_par` or `fixed_base::msm_par` fail

The exceptional cases of the two algorithms are linear equations in the random point; they are counted here.
-/

set_option autoImplicit false
set_option linter.unusedSectionVars false
namespace H2

section
variable {G : Type} [AddCommGroup G] {n : ℕ}

/-- `P` holds of every point that avoids at most `m` linear equations, none of which is degenerate in a group of order `n`. -/
def Cov (n : ℕ) (P : G → Prop) (m : ℕ) : Prop :=
  ∃ L : List (ℤ × G), L.length ≤ m ∧ (∀ e ∈ L, ¬ (n : ℤ) ∣ e.1) ∧ ∀ A, (∀ e ∈ L, e.1 • A ≠ e.2) → P A

theorem Cov.one {c : ℤ} (hc : ¬ (n : ℤ) ∣ c) (B : G) : Cov n (fun A => c • A ≠ B) 1 :=
  ⟨[(c, B)], by simp, by simpa using hc, fun A h => h (c, B) (by simp)⟩

theorem Cov.true {P : G → Prop} (h : ∀ A, P A) (m : ℕ) : Cov n P m := ⟨[], by simp, by simp, fun A _ => h A⟩

theorem Cov.imp {P Q : G → Prop} {m m' : ℕ} (h : Cov n P m) (k : ∀ A, P A → Q A) (hm : m ≤ m') : Cov n Q m' := by
  obtain ⟨L, h1, h2, h3⟩ := h
  exact ⟨L, h1.trans hm, h2, fun A hA => k A (h3 A hA)⟩

theorem Cov.and {P Q : G → Prop} {m m' : ℕ} (h : Cov n P m) (k : Cov n Q m') : Cov n (fun A => P A ∧ Q A) (m + m') := by
  obtain ⟨L, h1, h2, h3⟩ := h
  obtain ⟨L', k1, k2, k3⟩ := k
  refine ⟨L ++ L', by rw [List.length_append]; omega, fun e he => ?_, fun A hA => ⟨h3 A fun e he => hA e (by simp [he]),
    k3 A fun e he => hA e (by simp [he])⟩⟩
  rcases List.mem_append.1 he with he | he
  · exact h2 e he
  · exact k2 e he

theorem Cov.all {α : Type} {P : α → G → Prop} {m : ℕ} (l : List α) (h : ∀ x ∈ l, Cov n (P x) m) :
    Cov n (fun A => ∀ x ∈ l, P x A) (l.length * m) := by
  induction l with
  | nil => exact Cov.true (by simp) _
  | cons a l ih =>
    refine ((h a (by simp)).and (ih fun x hx => h x (by simp [hx]))).imp (fun A hA => ?_) ?_
    · intro x hx
      rcases List.mem_cons.1 hx with rfl | hx
      · exact hA.1
      · exact hA.2 x hx
    · rw [List.length_cons, Nat.add_one_mul]
      omega

theorem Cov.lt {P : ℕ → G → Prop} {m : ℕ} (N : ℕ) (h : ∀ i < N, Cov n (P i) m) : Cov n (fun A => ∀ i < N, P i A) (N * m) := by
  have := Cov.all (List.range N) fun i hi => h i (List.mem_range.1 hi)
  rw [List.length_range] at this
  exact this.imp (fun A hA i hi => hA i (List.mem_range.2 hi)) le_rfl

theorem Cov.card {P : G → Prop} {m : ℕ} (hn : n.Prime) (hG : Nat.card G = n) (h : Cov n P m) : {A : G | ¬ P A}.ncard ≤ m := by
  obtain ⟨L, h1, h2, h3⟩ := h
  have hfin : Finite G := Nat.finite_of_card_ne_zero (by rw [hG]; exact hn.ne_zero)
  refine le_trans (Set.ncard_le_ncard ?_ (Set.toFinite _)) ((bad_card hn hG L h2).trans h1)
  intro A hbad
  by_contra hgood
  simp only [Set.mem_setOf_eq, not_exists, not_and] at hgood hbad
  exact hbad (h3 A hgood)

/-- Two of the small multiples of powers of two that `multi_exp_par` meets never vanish modulo `n`. -/
structure TwoGen (n N : ℕ) : Prop where
  sub1 : ∀ i, 1 ≤ i → i ≤ N → ¬ (n : ℤ) ∣ 2 ^ i - 1
  add1 : ∀ i, 1 ≤ i → i ≤ N → ¬ (n : ℤ) ∣ 2 ^ i + 1
  sub3 : ∀ i, 2 ≤ i → i ≤ N → ¬ (n : ℤ) ∣ 2 ^ i - 3

theorem not_dvd_two_pow (hn : n.Prime) (h2 : n ≠ 2) (i : ℕ) : ¬ (n : ℤ) ∣ 2 ^ i := by
  intro hd
  have hd : (n : ℤ) ∣ 2 := (Nat.prime_iff_prime_int.1 hn).dvd_of_dvd_pow hd
  have hd : n ∣ 2 := by exact_mod_cast hd
  rcases (Nat.dvd_prime Nat.prime_two).1 hd with h | h
  · exact hn.one_lt.ne' h
  · exact h2 h

theorem not_dvd_mul (hn : n.Prime) {a c : ℤ} (ha : ¬ (n : ℤ) ∣ a) (hc : ¬ (n : ℤ) ∣ c) : ¬ (n : ℤ) ∣ a * c := by
  intro hd
  rcases (Nat.prime_iff_prime_int.1 hn).dvd_or_dvd hd with h | h
  · exact ha h
  · exact hc h

/-- The sums over the clumps. -/
theorem cov_sumOk {N : ℕ} (hg : TwoGen n N) (hn : n.Prime) (Ds : List G) : ∀ (idx : ℕ) (acc : G), 1 ≤ idx → idx + Ds.length ≤ N →
    Cov n (fun A => SumOk (((2 : ℤ) ^ idx - 1) • A + acc) ((Ds.zipIdx idx).map fun x => 2 ^ x.2 • A + x.1)) (2 * Ds.length) := by
  induction Ds with
  | nil => intro idx acc _ _; exact Cov.true (fun A => trivial) _
  | cons D Ds ih =>
    intro idx acc hi hN
    rw [List.length_cons] at hN
    have c1 : ¬ (n : ℤ) ∣ -1 := by
      rw [dvd_neg]
      intro hd
      exact hn.one_lt.ne' (by have := Int.natCast_dvd_natCast.1 (by simpa using hd : (n : ℤ) ∣ ((1 : ℕ) : ℤ)); simpa using this)
    refine (((Cov.one c1 (D - acc)).and (Cov.one (hg.sub1 (idx + 1) (by omega) (by omega)) (-D - acc))).and (ih (idx + 1) (acc + D) (by omega) (by omega))).imp
      (fun A hA => ?_) (by rw [List.length_cons]; omega)
    obtain ⟨⟨h1, h2⟩, h3⟩ := hA
    rw [List.zipIdx_cons, List.map_cons]
    have e : (2 ^ idx : ℕ) • A = ((2 : ℤ) ^ idx) • A := by rw [← natCast_zsmul]; push_cast; rfl
    refine ⟨fun h => h1 ?_, fun h => h2 ?_, ?_⟩
    · simp only [e] at h
      have h := sub_eq_zero.2 h
      rw [eq_sub_iff_add_eq, ← sub_eq_zero, ← h]
      module
    · simp only [e] at h
      have h := eq_neg_iff_add_eq_zero.1 h
      rw [eq_sub_iff_add_eq, eq_neg_iff_add_eq_zero, ← h]
      module
    · have e2 : ((2 : ℤ) ^ idx - 1) • A + acc + (2 ^ idx • A + D) = ((2 : ℤ) ^ (idx + 1) - 1) • A + (acc + D) := by
        rw [e]
        module
      rw [e2]
      exact h3

/-- The final sum over the bits. -/
theorem cov_pipSumOk {N : ℕ} (hg : TwoGen n N) (hn : n.Prime) (h2 : n ≠ 2) {c : ℤ} (hc : ¬ (n : ℤ) ∣ c) (Ds : List G) : ∀ (t : ℕ) (E : G),
    t + Ds.length + 1 ≤ N →
    Cov n (fun A => PipSumOk ((c * (2 ^ (t + 1) - 1)) • A + E) ((c * 2 ^ t) • A) (Ds.map fun D => c • A + D)) (4 * Ds.length) := by
  induction Ds with
  | nil => intro t E _; exact Cov.true (fun A => trivial) _
  | cons D Ds ih =>
    intro t E hN
    rw [List.length_cons] at hN
    have k1 : ¬ (n : ℤ) ∣ c * 2 ^ (t + 1) := not_dvd_mul hn hc (not_dvd_two_pow hn h2 _)
    have k2 : ¬ (n : ℤ) ∣ (c * (2 ^ (t + 1) - 1)) * 2 ^ 1 := not_dvd_mul hn (not_dvd_mul hn hc (hg.sub1 _ (by omega) (by omega))) (not_dvd_two_pow hn h2 1)
    have k3 : ¬ (n : ℤ) ∣ c * (2 ^ (t + 2) - 3) := not_dvd_mul hn hc (hg.sub3 _ (by omega) (by omega))
    have k4 : ¬ (n : ℤ) ∣ c * (2 ^ (t + 2) - 1) := not_dvd_mul hn hc (hg.sub1 _ (by omega) (by omega))
    refine (((((Cov.one k1 0).and (Cov.one k2 (-(2 • E)))).and (Cov.one k3 (D - 2 • E))).and (Cov.one k4 (-D - 2 • E))).and
      (ih (t + 1) (2 • E + D) (by omega))).imp (fun A hA => ?_) (by rw [List.length_cons]; omega)
    obtain ⟨⟨⟨⟨h1, h2⟩, h3⟩, h4⟩, h5⟩ := hA
    rw [List.map_cons]
    refine ⟨fun h => h1 ?_, fun h => h2 ?_, fun h => h3 ?_, fun h => h4 ?_, ?_⟩
    · rw [← h]
      module
    · rw [eq_neg_iff_add_eq_zero, ← h]
      module
    · have h := sub_eq_zero.2 h
      rw [eq_sub_iff_add_eq, ← sub_eq_zero, ← h]
      module
    · have h := eq_neg_iff_add_eq_zero.1 h
      rw [eq_sub_iff_add_eq, eq_neg_iff_add_eq_zero, ← h]
      module
    · have e1 : (2 : ℕ) • ((c * (2 ^ (t + 1) - 1)) • A + E) + (c • A + D) = (c * (2 ^ (t + 1 + 1) - 1)) • A + (2 • E + D) := by module
      have e2 : (2 : ℕ) • ((c * 2 ^ t) • A) = (c * 2 ^ (t + 1)) • A := by module
      rw [e1, e2]
      exact h5

end

section
variable {K : Type} [Field K] [DecidableEq K] {b : K} {n : ℕ}

theorem cov_notX (X : K) {c : ℤ} (hc : ¬ (n : ℤ) ∣ c) (D : ECurve b) : Cov n (fun A => ¬ HasX b X (c • A + D)) 2 := by
  obtain ⟨L, hL, hx⟩ := xPts b X
  have := (Cov.all (n := n) (P := fun g A => c • A ≠ g - D) (m := 1) L fun g _ => Cov.one hc _)
  refine this.imp (fun A hA hX => ?_) (by omega)
  exact hA _ (hx _ hX) (by abel)

/-- The buckets of a clump. -/
theorem cov_bucketOk (hn : n.Prime) (h2 : n ≠ 2) (i : ℕ) (qs : List (ECurve b)) : ∀ Ds : List (ECurve b),
    Cov n (fun A => BucketOk b (Ds.map fun D => 2 ^ i • A + D) qs) (2 * (Ds.length * (2 ^ qs.length - 1))) := by
  induction qs with
  | nil => intro Ds; exact Cov.true (fun A => trivial) _
  | cons q qs ih =>
    intro Ds
    have hc := not_dvd_two_pow hn h2 i
    have h1 : Cov n (fun A => ∀ D ∈ Ds, BucketStep b q (2 ^ i • A + D)) (Ds.length * 2) := by
      refine Cov.all Ds fun D _ => ?_
      have e : ∀ A : ECurve b, (2 ^ i : ℕ) • A = ((2 : ℤ) ^ i) • A := fun A => by rw [← natCast_zsmul]; push_cast; rfl
      by_cases hq : q = 0
      · refine (cov_notX 0 hc D).imp (fun A hA => ⟨fun _ => ?_, fun h => absurd hq h⟩) le_rfl
        rw [e]
        exact hA
      · refine ((Cov.one hc (q - D)).and (Cov.one hc (-q - D))).imp (fun A hA => ⟨fun h => absurd h hq, fun _ => ?_⟩) le_rfl
        rw [e]
        exact ⟨fun h => hA.1 (eq_sub_of_add_eq h), fun h => hA.2 (eq_sub_of_add_eq h)⟩
    refine (h1.and (ih (Ds ++ Ds.map (· + q)))).imp (fun A hA => ?_) ?_
    · refine ⟨fun g hg => ?_, ?_⟩
      · obtain ⟨D, hD, rfl⟩ := List.mem_map.1 hg
        exact hA.1 D hD
      · have := hA.2
        rw [List.map_append, List.map_map] at this
        rw [List.map_map]
        convert this using 2
        apply List.map_congr_left
        intro D _
        simp only [Function.comp]
        abel
    · rw [List.length_append, List.length_map, List.length_cons, pow_succ]
      have : 1 ≤ 2 ^ qs.length := Nat.one_le_two_pow
      obtain ⟨t, ht⟩ := Nat.exists_eq_add_of_le this
      rw [ht, show 1 + t - 1 = t by omega, show (1 + t) * 2 - 1 = 2 * t + 1 by omega]
      nlinarith

/-- How many of the random points can make `multi_exp_par` fail. -/
def pipBadBound (c R tot : ℕ) : ℕ := 2 * R * (2 ^ c - 1) + 2 * tot * R + 4 * tot + R + 9

theorem pip_cov (hn : n.Prime) (h2 : n ≠ 2) (X : K) {c tot N : ℕ} {qs : List (ECurve b)} {Ns : List ℕ} (hc : 1 ≤ c) (htot : 1 ≤ tot)
    (hq1 : 1 ≤ qs.length) (hl : Ns.length = qs.length) (hg : TwoGen n N) (hR : (qs.length + c - 1) / c ≤ N) (htN : tot ≤ N) :
    Cov n (fun A => PipOk b X A c tot qs Ns) (pipBadBound c ((qs.length + c - 1) / c) tot) := by
  have hlch : (chunksOf c qs).length = (qs.length + c - 1) / c := (chunksOf_spec hc qs).2.2
  set R := (qs.length + c - 1) / c with hRd
  have hR1 : 1 ≤ R := Nat.div_pos (by omega) (by omega)
  have pw2 : ∀ i, ¬ (n : ℤ) ∣ 2 ^ i := not_dvd_two_pow hn h2
  have e : ∀ (i : ℕ) (A : ECurve b), (2 ^ i : ℕ) • A = ((2 : ℤ) ^ i) • A := fun i A => by rw [← natCast_zsmul]; push_cast; rfl
  have d1 : Cov n (fun A : ECurve b => ∀ j < R - 1, 2 ^ (j + 1) • A ≠ 0) ((R - 1) * 1) :=
    Cov.lt _ fun j _ => (Cov.one (pw2 (j + 1)) 0).imp (fun A h => by rw [e]; exact h) le_rfl
  have d2 : Cov n (fun A : ECurve b => ∀ x ∈ (chunksOf c qs).zipIdx, BucketOk b [2 ^ x.2 • A] x.1)
      ((chunksOf c qs).zipIdx.length * (2 * (2 ^ c - 1))) := by
    refine Cov.all _ fun x hx => ?_
    have hlen : x.1.length ≤ c := (chunksOf_spec hc qs).1 _ (by
      obtain ⟨x1, x2⟩ := x
      exact List.mem_of_getElem? (List.mk_mem_zipIdx_iff_getElem?.1 hx))
    have hpw : 2 ^ x.1.length ≤ 2 ^ c := Nat.pow_le_pow_right (by norm_num) hlen
    refine (cov_bucketOk hn h2 x.2 x.1 [0]).imp (fun A hA => by simpa using hA) ?_
    simp only [List.length_singleton, Nat.one_mul]
    omega
  have d3 : Cov n (fun A : ECurve b => ∀ j < tot, ∀ g gs, pipCol A c qs Ns j = g :: gs → SumOk g gs) (tot * (2 * R)) := by
    refine Cov.lt _ fun j _ => ?_
    obtain ⟨D, Ds, hD⟩ : ∃ D Ds, (((chunksOf c qs).zipIdx 0).map fun x => dotG (((colBits Ns j).drop (x.2 * c)).take x.1.length) x.1) = D :: Ds := by
      cases h : (((chunksOf c qs).zipIdx 0).map fun x => dotG (((colBits Ns j).drop (x.2 * c)).take x.1.length) x.1) with
      | nil =>
        have := congrArg List.length h
        rw [List.length_map, List.length_zipIdx, hlch] at this
        simp at this
        omega
      | cons D Ds => exact ⟨D, Ds, rfl⟩
    have hDl : Ds.length + 1 = R := by
      have := congrArg List.length hD
      rw [List.length_map, List.length_zipIdx, hlch, List.length_cons] at this
      exact this.symm
    have hcol : ∀ A : ECurve b, pipCol A c qs Ns j = (2 ^ 0 • A + D) :: (Ds.zipIdx 1).map fun x => 2 ^ x.2 • A + x.1 := by
      intro A
      have h1 : pipCol A c qs Ns j = ((D :: Ds).zipIdx 0).map fun x => 2 ^ x.2 • A + x.1 := by
        rw [← hD]
        apply List.ext_getElem
        · simp [pipCol]
        · intro i _ _
          simp [pipCol]
      rw [h1, List.zipIdx_cons, List.map_cons]
    refine (cov_sumOk hg hn Ds 1 D le_rfl (by omega)).imp (fun A hA g gs he => ?_) (by omega)
    rw [hcol] at he
    obtain ⟨rfl, rfl⟩ := List.cons.inj he
    convert hA using 1
    norm_num
  set B : ℤ := 2 ^ R - 1 with hB
  have cB : ¬ (n : ℤ) ∣ B := hg.sub1 R hR1 hR
  have eB : ∀ A : ECurve b, (2 ^ R • A - A : ECurve b) = B • A := fun A => by rw [e, hB, sub_smul, one_smul]
  have hps : ∀ (A : ECurve b) (j : ℕ), pipSum A c qs Ns j = B • A + dotG (colBits Ns j) qs := fun A j => by rw [pipSum, ← hRd, eB]
  have hmap : ∀ A : ECurve b, (List.range (tot - 1)).map (pipSum A c qs Ns) =
      ((List.range (tot - 1)).map fun j => dotG (colBits Ns j) qs).map fun D => B • A + D := by
    intro A
    rw [List.map_map]
    exact List.map_congr_left fun j _ => hps A j
  set E := sumPow (((List.range (tot - 1)).map fun j => dotG (colBits Ns j) qs) ++ [dotG (colBits Ns (tot - 1)) qs]) with hE
  have hsum : ∀ A : ECurve b, sumPow ((List.range (tot - 1)).map (pipSum A c qs Ns) ++ [pipSum A c qs Ns (tot - 1)]) = (B * (2 ^ tot - 1)) • A + E := by
    intro A
    have h1 : (List.range (tot - 1)).map (pipSum A c qs Ns) ++ [pipSum A c qs Ns (tot - 1)] = (List.range tot).map fun j => B • A + dotG (colBits Ns j) qs := by
      conv_rhs => rw [← Nat.sub_add_cancel htot, List.range_succ, List.map_append, List.map_singleton]
      rw [hps]
      congr 1
      exact List.map_congr_left fun j _ => hps A j
    have h2 : ((List.range (tot - 1)).map fun j => dotG (colBits Ns j) qs) ++ [dotG (colBits Ns (tot - 1)) qs] = (List.range tot).map fun j => dotG (colBits Ns j) qs := by
      conv_rhs => rw [← Nat.sub_add_cancel htot, List.range_succ, List.map_append, List.map_singleton]
    rw [hE, h1, h2, sumPow_map_add, List.map_const', List.length_range, sumPow_const, e]
    module
  have d4 : Cov n (fun A : ECurve b => PipEndOk b X A R ((List.range (tot - 1)).map (pipSum A c qs Ns)) (pipSum A c qs Ns (tot - 1)))
      (4 * tot + 9) := by
    have c1 := cov_pipSumOk hg hn h2 cB (((List.range (tot - 1)).map fun j => dotG (colBits Ns j) qs).reverse) 0 (dotG (colBits Ns (tot - 1)) qs)
      (by simp; omega)
    have k3 := hg.sub1 tot htot htN
    have k4 := hg.add1 tot htot htN
    have c2 := (((((((c1.and (Cov.one (pw2 R) 0)).and (Cov.one cB 0)).and (Cov.one (hg.add1 R hR1 hR) 0)).and (Cov.one (not_dvd_mul hn cB (pw2 tot)) 0)).and
      (Cov.one (not_dvd_mul hn cB k3) 0)).and (Cov.one (not_dvd_mul hn cB k4) 0)).and (Cov.one (not_dvd_mul hn (not_dvd_mul hn cB k3) (pw2 1)) (-E))).and
      (cov_notX X (not_dvd_mul hn cB k3) 0)
    refine c2.imp ?_ (by simp <;> omega)
    rintro A ⟨⟨⟨⟨⟨⟨⟨⟨a1, a2⟩, a3⟩, a4⟩, a5⟩, a6⟩, a7⟩, a8⟩, a9⟩
    have hlen : ((List.range (tot - 1)).map (pipSum A c qs Ns)).length + 1 = tot := by simp; omega
    have eT : (2 ^ tot • (2 ^ R • A - A) : ECurve b) = (B * 2 ^ tot) • A := by rw [eB, e]; module
    have eX : (2 ^ tot • (2 ^ R • A - A) - (2 ^ R • A - A) : ECurve b) = (B * (2 ^ tot - 1)) • A := by rw [eT, eB]; module
    refine ⟨?_, ?_, ?_, ?_, ?_, ?_, ?_, ?_, ?_⟩
    · rw [e]; exact a2
    · intro h
      exact a3 (by rw [← eB, h, sub_self])
    · intro h
      have h := eq_neg_iff_add_eq_zero.1 h
      refine a4 ?_
      rw [← h, e]
      module
    · rw [eB, hmap, ← List.map_reverse, hps]
      have e1 : B * (2 ^ (0 + 1) - 1) = B := by norm_num
      have e2 : B * 2 ^ 0 = B := by norm_num
      rw [e1, e2] at a1
      exact a1
    · rw [hlen, eT]
      exact a5
    · rw [hlen]
      intro h
      exact a6 (by rw [← eX, h, sub_self])
    · rw [hlen]
      intro h
      have h := eq_neg_iff_add_eq_zero.1 h
      rw [eT, eB] at h
      refine a7 ?_
      rw [← h]
      module
    · rw [hlen, eX, hsum]
      intro h
      refine absurd ?_ a8
      have h := eq_neg_iff_add_eq_zero.1 h
      rw [eq_neg_iff_add_eq_zero, ← h]
      module
    · rw [hlen, eX]
      simpa using a9
  refine (((d1.and d2).and d3).and d4).imp (fun A h => ⟨h.1.1.1, h.1.1.2, h.1.2, h.2⟩) ?_
  rw [List.length_zipIdx, hlch]
  unfold pipBadBound
  have e1 : R * (2 * (2 ^ c - 1)) = 2 * R * (2 ^ c - 1) := by ring
  have e2 : tot * (2 * R) = 2 * tot * R := by ring
  omega

theorem pip_bad_card (hn : n.Prime) (h2 : n ≠ 2) (hG : Nat.card (ECurve b) = n) (X : K) {c tot N : ℕ} {qs : List (ECurve b)} {Ns : List ℕ}
    (hc : 1 ≤ c) (htot : 1 ≤ tot) (hq1 : 1 ≤ qs.length) (hl : Ns.length = qs.length) (hg : TwoGen n N) (hR : (qs.length + c - 1) / c ≤ N)
    (htN : tot ≤ N) : {A : ECurve b | ¬ PipOk b X A c tot qs Ns}.ncard ≤ pipBadBound c ((qs.length + c - 1) / c) tot :=
  (pip_cov hn h2 X hc htot hq1 hl hg hR htN).card hn hG

/-- The pairs of random points that can make `fixed_base::msm_par` fail, for each point of the first coordinate. -/
def fbMsmBadBound (nw k : ℕ) : ℕ := 2 * nw * k + 4 * k + 3

theorem cov_fbTasks (hn : n.Prime) (wb nw : ℕ) (Qs : List (ECurve b)) (Ns : List ℕ) :
    Cov n (fun A => ∀ x ∈ Qs.zip Ns, FbAddOk A (fbData wb nw x.1 x.2).reverse) ((Qs.zip Ns).length * (2 * nw)) := by
  refine Cov.all _ fun x _ => ⟨fbPairs 0 (fbData wb nw x.1 x.2).reverse, ?_, fun e he => ?_, fun A hA => ?_⟩
  · rw [fbPairs_length, List.length_reverse, fbData_length]
  · rw [fbPairs_coef _ _ e he]
    intro hd
    exact hn.one_lt.ne' (by have := Int.natCast_dvd_natCast.1 (by simpa using hd : (n : ℤ) ∣ ((1 : ℕ) : ℤ)); simpa using this)
  · have := fbAddOk_of_pairs A _ 0 hA
    rwa [add_zero] at this

theorem cov_fbAcc {G : Type} [AddCommGroup G] (hn : n.Prime) (A : G) (ds : List G) : ∀ D : G,
    Cov n (fun A2 => FbAccOk A (A2 + D) ds) (4 * ds.length) := by
  have c1 : ¬ (n : ℤ) ∣ 1 := by
    intro hd
    exact hn.one_lt.ne' (by have := Int.natCast_dvd_natCast.1 (by simpa using hd : (n : ℤ) ∣ ((1 : ℕ) : ℤ)); simpa using this)
  induction ds with
  | nil => intro D; exact Cov.true (fun _ => trivial) _
  | cons d ds ih =>
    intro D
    refine (((((Cov.one c1 (A + d - D)).and (Cov.one c1 (-(A + d) - D))).and (Cov.one c1 (-d - D))).and (Cov.one c1 (-A - (A + d) - D))).and
      (ih (D + d))).imp ?_ (by rw [List.length_cons]; omega)
    rintro A2 ⟨⟨⟨⟨h1, h2⟩, h3⟩, h4⟩, h5⟩
    rw [one_smul] at h1 h2 h3 h4
    refine ⟨fun h => h1 (eq_sub_of_add_eq h), fun h => h2 (eq_sub_of_add_eq h), fun h => h3 ?_, fun h => h4 ?_, ?_⟩
    · rw [eq_sub_iff_add_eq, eq_neg_iff_add_eq_zero]
      have h := sub_eq_zero.2 h
      rw [← h]
      abel
    · rw [eq_sub_iff_add_eq, eq_sub_iff_add_eq, h]
    · rw [add_assoc]
      exact h5

theorem cov_fbMsm (hn : n.Prime) (h2 : n ≠ 2) (X : K) {A : ECurve b} {wb nw : ℕ} {Qs : List (ECurve b)} {Ns : List ℕ}
    (hA : ∀ x ∈ Qs.zip Ns, FbAddOk A (fbData wb nw x.1 x.2).reverse) :
    Cov n (fun A2 => FbMsmOk b X A A2 wb nw Qs Ns) (4 * (fbMults Qs Ns).length + 3) := by
  have c1 := not_dvd_two_pow hn h2 0
  refine (((cov_fbAcc hn A (fbMults Qs Ns) 0).and (Cov.one (not_dvd_two_pow hn h2 1) (-(fbMults Qs Ns).sum))).and (cov_notX X c1 0)).imp ?_ (by omega)
  rintro A2 ⟨⟨h1, h2⟩, h3⟩
  refine ⟨hA, by simpa using h1, fun h => absurd ?_ h2, by simpa using h3⟩
  have h := eq_neg_iff_add_eq_zero.1 h
  rw [eq_neg_iff_add_eq_zero, ← h]
  module

theorem fbMsm_bad_card (hn : n.Prime) (h2 : n ≠ 2) (hG : Nat.card (ECurve b) = n) (X : K) {wb nw : ℕ} {Qs : List (ECurve b)} {Ns : List ℕ}
    (hl : Qs.length = Ns.length) :
    {AA : ECurve b × ECurve b | ¬ FbMsmOk b X AA.1 AA.2 wb nw Qs Ns}.ncard ≤ n * fbMsmBadBound nw Qs.length := by
  classical
  have hfin : Finite (ECurve b) := Nat.finite_of_card_ne_zero (by rw [hG]; exact hn.ne_zero)
  have := Fintype.ofFinite (ECurve b)
  set T : ECurve b → Prop := fun A => ∀ x ∈ Qs.zip Ns, FbAddOk A (fbData wb nw x.1 x.2).reverse with hT
  have h1 : {A : ECurve b | ¬ T A}.ncard ≤ Qs.length * (2 * nw) := by
    have := (cov_fbTasks hn wb nw Qs Ns).card hn hG
    rwa [List.length_zip, ← hl, min_self] at this
  have h3 : ({AA : ECurve b × ECurve b | ¬ T AA.1}).ncard ≤ Qs.length * (2 * nw) * n := by
    have e : {AA : ECurve b × ECurve b | ¬ T AA.1} = {A : ECurve b | ¬ T A} ×ˢ Set.univ := by
      ext AA
      simp
    rw [e, Set.ncard_prod, Set.ncard_univ, hG]
    exact Nat.mul_le_mul_right _ h1
  have h4 : ({AA : ECurve b × ECurve b | T AA.1 ∧ ¬ FbMsmOk b X AA.1 AA.2 wb nw Qs Ns}).ncard ≤ (4 * Qs.length + 3) * n := by
    rw [Set.ncard_eq_toFinset_card']
    refine le_trans (Finset.card_le_mul_card_image (f := Prod.fst) _ (4 * Qs.length + 3) ?_) ?_
    · intro A hA
      rw [Finset.mem_image] at hA
      obtain ⟨AA, hAA, rfl⟩ := hA
      rw [Set.mem_toFinset] at hAA
      have hc := (cov_fbMsm (n := n) hn h2 X hAA.1).card hn hG
      rw [fbMults, List.length_zipWith, ← hl, min_self] at hc
      refine le_trans ?_ hc
      rw [Set.ncard_eq_toFinset_card']
      refine Finset.card_le_card_of_injOn Prod.snd ?_ ?_
      · rintro ⟨A', A2⟩ h
        simp only [Finset.coe_filter, Set.mem_toFinset, Set.mem_setOf_eq] at h
        simp only [Set.coe_toFinset, Set.mem_setOf_eq]
        rw [← h.2]
        exact h.1.2
      · rintro ⟨A', A2⟩ h ⟨A'', A2'⟩ h' e
        simp only [Finset.coe_filter, Set.mem_toFinset, Set.mem_setOf_eq] at h h'
        simp only at e
        rw [e, h.2, h'.2]
    · refine Nat.mul_le_mul_left _ ((Finset.card_le_univ _).trans ?_)
      rw [← Nat.card_eq_fintype_card, hG]
  have hsub : {AA : ECurve b × ECurve b | ¬ FbMsmOk b X AA.1 AA.2 wb nw Qs Ns} ⊆
      {AA : ECurve b × ECurve b | ¬ T AA.1} ∪ {AA : ECurve b × ECurve b | T AA.1 ∧ ¬ FbMsmOk b X AA.1 AA.2 wb nw Qs Ns} := by
    intro AA hAA
    by_cases h : T AA.1
    · exact .inr ⟨h, hAA⟩
    · exact .inl h
  refine (Set.ncard_le_ncard hsub (Set.toFinite _)).trans ((Set.ncard_union_le _ _).trans ((add_le_add h3 h4).trans ?_))
  unfold fbMsmBadBound
  apply le_of_eq
  ring

end
end H2
