import Verif.Kec.Look

/-!
# The rho step: a rotated word in uniform parts
-/

set_option autoImplicit false
set_option linter.unusedSectionVars false
namespace H2.Kec
open H2.Sha (Z Z_append Z_gate Z_cond Z_gate1 Z_reqEq Z_reqZero Z_reqBool Z_flatMap ind_eq_zero)

theorem sum_const {n : ℕ} {l : List (ℕ × ℕ)} (h : ∀ q ∈ l, q.1 = n) : (l.map (·.1)).sum = n * l.length := by
  induction l with
  | nil => simp
  | cons q l ih => rw [List.map_cons, List.sum_cons, ih fun q hq => h q (by simp [hq]), h q (by simp), List.length_cons]; ring

/-- The parts of the input of a rotation by `n * c + ρ`, in the order of the input word: `o t` is the value of the target part `t`; the target part `c` is
`av + bv * 8 ^ ρ`. -/
def rhoParts (n m c ρ : ℕ) (o : ℕ → ℕ) (av bv : ℕ) : List (ℕ × ℕ) :=
  (n - ρ, bv) :: (((List.range (m - c - 1)).map fun u => (n, o (c + 1 + u))) ++ (((List.range c).map fun t => (n, o t)) ++ if ρ = 0 then [] else [(ρ, av)]))

theorem range_split {α : Type} (f : ℕ → α) {m t : ℕ} (ht : t < m) :
    (List.range m).map f = (List.range t).map f ++ f t :: (List.range (m - t - 1)).map fun u => f (t + 1 + u) := by
  obtain ⟨d, rfl⟩ : ∃ d, m = t + (d + 1) := ⟨m - t - 1, by omega⟩
  rw [List.range_add, List.map_append, show t + (d + 1) - t - 1 = d by omega, List.range_succ_eq_map]
  simp only [List.map_cons, List.map_map, Nat.add_zero]
  congr 2
  refine List.map_congr_left fun u _ => ?_
  show f (t + (u + 1)) = f (t + 1 + u)
  congr 1; omega

theorem rho_nat {n m c ρ : ℕ} (hn : 1 ≤ n) (hρ : ρ < n) (hm : n * m = 64) (hc : c < m) {o : ℕ → ℕ} {av bv X : ℕ} (hX : X < 8 ^ 64)
    (ho : ∀ t, t < m → (∀ j, dig (o t) j ≤ 3) ∧ o t < 8 ^ (n + 1) ∧ dig (o t) n % 2 = 0)
    (ha : ∀ j, dig av j ≤ 3) (hb : ∀ j, dig bv j ≤ 3) (hoc : o c = av + bv * 8 ^ ρ) (hρ0 : ρ = 0 → av = 0)
    (hdec : decN (rhoParts n m c ρ o av bv) = X) {t j : ℕ} (ht : t < m) (hj : j < n) :
    dig (o t) j % 2 = dig X ((n * t + j + 64 - (n * c + ρ)) % 64) % 2 := by
  have hcm : n * c + n ≤ 64 := by rw [← hm, ← Nat.mul_succ]; exact Nat.mul_le_mul_left n hc
  -- the top part has no overflow
  have hav : av < 8 ^ ρ := by
    by_cases h0 : ρ = 0
    · rw [hρ0 h0]; positivity
    · have h1 : decN (rhoParts n m c ρ o av bv) = decN ((n - ρ, bv) :: (((List.range (m - c - 1)).map fun u => (n, o (c + 1 + u))) ++ ((List.range c).map fun t => (n, o t)))) +
          av * 8 ^ (64 - ρ) := by
        rw [rhoParts, if_neg h0, ← List.append_assoc, ← List.cons_append, decN_append]
        congr 1
        rw [decN_cons, decN_nil, zero_mul, zero_add]
        congr 2
        rw [List.map_cons, List.sum_cons, sum_const (n := n) (by
          intro q hq
          rcases List.mem_append.mp hq with hq | hq <;> obtain ⟨_, _, rfl⟩ := List.mem_map.mp hq <;> rfl)]
        simp only [List.length_append, List.length_map, List.length_range]
        have : n * (m - c - 1 + c) = n * m - n := by
          rw [show m - c - 1 + c = m - 1 by omega, Nat.mul_sub, mul_one]
        omega
      have h2 : av * 8 ^ (64 - ρ) < 8 ^ ρ * 8 ^ (64 - ρ) := by
        rw [← pow_add, show ρ + (64 - ρ) = 64 by omega]
        omega
      exact lt_of_mul_lt_mul_right h2 (Nat.zero_le _)
  have hbv : bv < 8 ^ (n - ρ + 1) := by
    have h2 : bv * 8 ^ ρ < 8 ^ (n - ρ + 1) * 8 ^ ρ := by
      rw [← pow_add, show n - ρ + 1 + ρ = n + 1 by omega]
      have := (ho c hc).2.1
      omega
    exact lt_of_mul_lt_mul_right h2 (Nat.zero_le _)
  have hocd : ∀ j, dig (o c) j = if j < ρ then dig av j else dig bv (j - ρ) := fun j => by rw [hoc, dig_concat hav]
  -- overflow digits
  have over : ∀ {v i : ℕ}, v < 8 ^ (i + 1) → v / 8 ^ i = dig v i := by
    intro v i hv
    unfold dig
    rw [Nat.mod_eq_of_lt]
    rw [Nat.div_lt_iff_lt_mul (by positivity), ← pow_succ']
    exact hv
  have hok : ∀ q ∈ rhoParts n m c ρ o av bv, 1 ≤ q.1 ∧ q.2 / 8 ^ q.1 ≤ 3 ∧ q.2 / 8 ^ q.1 % 2 = 0 ∧ ∀ j, dig q.2 j ≤ 3 := by
    have hof : ∀ t, t < m → 1 ≤ n ∧ o t / 8 ^ n ≤ 3 ∧ o t / 8 ^ n % 2 = 0 ∧ ∀ j, dig (o t) j ≤ 3 := by
      intro t ht
      obtain ⟨h1, h2, h3⟩ := ho t ht
      rw [over h2]
      exact ⟨hn, h1 n, h3, h1⟩
    intro q hq
    rw [rhoParts, List.mem_cons, List.mem_append, List.mem_append] at hq
    rcases hq with rfl | hq | hq | hq
    · refine ⟨by show 1 ≤ n - ρ; omega, ?_, ?_, hb⟩
      · show bv / 8 ^ (n - ρ) ≤ 3
        rw [over hbv]; exact hb _
      · show bv / 8 ^ (n - ρ) % 2 = 0
        rw [over hbv]
        have h3 := (ho c hc).2.2
        rw [hocd, if_neg (by omega)] at h3
        exact h3
    · obtain ⟨u, hu, rfl⟩ := List.mem_map.mp hq
      rw [List.mem_range] at hu
      exact hof _ (by omega)
    · obtain ⟨u, hu, rfl⟩ := List.mem_map.mp hq
      rw [List.mem_range] at hu
      exact hof _ (by omega)
    · by_cases h0 : ρ = 0
      · rw [if_pos h0] at hq; simp at hq
      · rw [if_neg h0, List.mem_singleton] at hq
        subst hq
        refine ⟨by show 1 ≤ ρ; omega, ?_, ?_, ha⟩
        · show av / 8 ^ ρ ≤ 3
          rw [Nat.div_eq_of_lt hav]; omega
        · show av / 8 ^ ρ % 2 = 0
          rw [Nat.div_eq_of_lt hav]
  have chain := chain_par (rhoParts n m c ρ o av bv) 0 X (by omega) rfl hok (by rw [zero_add, hdec])
  have hsz : ∀ (l : List ℕ) (f : ℕ → ℕ), (((l.map fun u => (n, f u)) : List (ℕ × ℕ)).map (·.1)).sum = n * l.length := by
    intro l f
    rw [sum_const (n := n) (by intro q hq; obtain ⟨_, _, rfl⟩ := List.mem_map.mp hq; rfl), List.length_map]
  have htn : n * t + n ≤ 64 := by rw [← hm, ← Nat.mul_succ]; exact Nat.mul_le_mul_left n ht
  rcases lt_trichotomy t c with htc | rfl | htc
  · -- before the split part
    have h1 := range_split (fun t => (n, o t)) htc
    have hmul : n * t + n ≤ n * c := by rw [← Nat.mul_succ]; exact Nat.mul_le_mul_left n htc
    have := chain ((n - ρ, bv) :: (((List.range (m - c - 1)).map fun u => (n, o (c + 1 + u))) ++ (List.range t).map fun t => (n, o t))) (n, o t)
      (((List.range (c - t - 1)).map fun u => (n, o (t + 1 + u))) ++ if ρ = 0 then [] else [(ρ, av)]) (by
        rw [rhoParts, h1]; simp) j hj
    rw [← this]
    congr 2
    rw [List.map_cons, List.sum_cons, List.map_append, List.sum_append, hsz, hsz, List.length_range, List.length_range]
    have : n * (m - c - 1) = 64 - n * c - n := by rw [Nat.sub_sub, Nat.mul_sub, hm, Nat.mul_succ]; omega
    rw [this, Nat.mod_eq_of_lt (by omega)]
    show n - ρ + _ + j = _
    omega
  · rw [hocd]
    split
    · rename_i hjr
      have h0 : ρ ≠ 0 := by omega
      have := chain ((n - ρ, bv) :: (((List.range (m - t - 1)).map fun u => (n, o (t + 1 + u))) ++ (List.range t).map fun t => (n, o t))) (ρ, av) []
        (by rw [rhoParts, if_neg h0]; simp) j hjr
      rw [← this]
      congr 2
      rw [List.map_cons, List.sum_cons, List.map_append, List.sum_append, hsz, hsz, List.length_range, List.length_range]
      have : n * (m - t - 1) = 64 - n * t - n := by rw [Nat.sub_sub, Nat.mul_sub, hm, Nat.mul_succ]; omega
      rw [this, Nat.mod_eq_of_lt (by omega)]
      show n - ρ + _ + j = _
      omega
    · rename_i hjr
      have := chain [] (n - ρ, bv) _ rfl (j - ρ) (by show j - ρ < n - ρ; omega)
      rw [← this]
      congr 2
      simp only [List.map_nil, List.sum_nil, zero_add]
      rw [show n * t + j + 64 - (n * t + ρ) = j - ρ + 64 by omega, Nat.add_mod_right, Nat.mod_eq_of_lt (by omega)]
  · have h1 := range_split (fun u => (n, o (c + 1 + u))) (show t - c - 1 < m - c - 1 by omega)
    rw [show c + 1 + (t - c - 1) = t by omega] at h1
    have hmul : n * c + n ≤ n * t := by rw [← Nat.mul_succ]; exact Nat.mul_le_mul_left n htc
    have := chain ((n - ρ, bv) :: ((List.range (t - c - 1)).map fun u => (n, o (c + 1 + u)))) (n, o t) _ (by
        rw [rhoParts, h1, List.cons_append, List.append_assoc, List.cons_append]) j hj
    rw [← this]
    congr 2
    rw [List.map_cons, List.sum_cons, hsz, List.length_range]
    have : n * (t - c - 1) = n * t - n * c - n := by rw [Nat.sub_sub, Nat.mul_sub, Nat.mul_succ]; omega
    rw [this, show n * t + j + 64 - (n * c + ρ) = n * t + j - (n * c + ρ) + 64 by omega, Nat.add_mod_right, Nat.mod_eq_of_lt (by omega)]
    show n - ρ + _ + j = _
    omega

/-! ### The parts in the circuit -/

variable {p : ℕ} [Fact p.Prime]

/-- The value of the target part `t`. -/
def outV (v : Cell → ℕ) (us : List UPart) (t : ℕ) : ℕ := v ((us.map UPart.out).getD t (0, 0))

theorem rhoShape_at {n rot : ℕ} {us : List UPart} (hs : rhoShape n rot us = true) :
    us.length = 64 / n ∧ ∀ t, t < 64 / n → (∃ c, us[t]? = some (.same n c) ∧ (t ≠ rot / n ∨ rot % n = 0)) ∨
      ∃ a b c, us[t]? = some (.two (rot % n) a (n - rot % n) b c) ∧ t = rot / n ∧ rot % n ≠ 0 := by
  unfold rhoShape at hs
  rw [Bool.and_eq_true, beq_iff_eq, List.all_eq_true] at hs
  refine ⟨hs.1, fun t ht => ?_⟩
  have := hs.2 t (List.mem_range.mpr ht)
  rcases hu : us[t]? with _ | u
  · rw [hu] at this; simp at this
  · rw [hu] at this
    cases u with
    | same n' c =>
      simp only [Bool.and_eq_true, Bool.or_eq_true, beq_iff_eq, bne_iff_ne] at this
      exact .inl ⟨c, by rw [this.1], this.2⟩
    | two na a nb b c =>
      simp only [Bool.and_eq_true, beq_iff_eq, bne_iff_ne] at this
      obtain ⟨⟨⟨h1, h2⟩, h3⟩, h4⟩ := this
      exact .inr ⟨a, b, c, by rw [h3, h4], h1, h2⟩

/-- Whole parts contribute themselves. -/
theorem same_inputs (v : Cell → ℕ) {n : ℕ} {us : List UPart} (h : ∀ u ∈ us, ∃ c, u = .same n c) :
    (us.flatMap UPart.inputs).map (fun q => (q.1, v q.2)) = (List.range us.length).map fun t => (n, outV v us t) := by
  induction us with
  | nil => rfl
  | cons u us ih =>
    obtain ⟨c, rfl⟩ := h u (by simp)
    rw [List.flatMap_cons, List.map_append, ih fun u hu => h u (by simp [hu]), List.length_cons, List.range_succ_eq_map, List.map_cons, List.map_map]
    rfl

/-- The order of the parts in the input word. -/
theorem parts_order (v : Cell → ℕ) {n rot : ℕ} (hn : 1 ≤ n) (hrot : rot < 64) (hm : 64 % n = 0) {us : List UPart} (hs : rhoShape n rot us = true) :
    ∃ av bv : ℕ, rotPartsRev ((us.flatMap UPart.inputs).map fun q => (q.1, v q.2)) rot n =
        rhoParts n (64 / n) (rot / n) (rot % n) (outV v us) av bv ∧ (rot % n = 0 → av = 0 ∧ bv = outV v us (rot / n)) ∧
        (rot % n ≠ 0 → ∃ ca cb cc, us[rot / n]? = some (.two (rot % n) ca (n - rot % n) cb cc) ∧ av = v ca ∧ bv = v cb ∧ outV v us (rot / n) = v cc) := by
  obtain ⟨hlen, hat⟩ := rhoShape_at hs
  have hcm : rot / n < 64 / n := by
    rw [Nat.div_lt_iff_lt_mul (by omega), Nat.div_mul_cancel (Nat.dvd_of_mod_eq_zero hm)]; exact hrot
  set c := rot / n with hc
  set ρ := rot % n with hρ
  have hsplit : us = us.take c ++ us[c]'(by omega) :: us.drop (c + 1) := by
    rw [← List.drop_eq_getElem_cons, List.take_append_drop]
  have hpre : ∀ u ∈ us.take c, ∃ c, u = UPart.same n c := by
    intro u hu
    obtain ⟨t, ht, rfl⟩ := List.mem_iff_getElem.mp hu
    rw [List.length_take] at ht
    rcases hat t (by omega) with ⟨cc, h1, _⟩ | ⟨_, _, _, _, h2, _⟩
    · rw [List.getElem?_eq_getElem (by omega)] at h1
      exact ⟨cc, by rw [List.getElem_take]; exact Option.some.inj h1⟩
    · omega
  have hpost : ∀ u ∈ us.drop (c + 1), ∃ c, u = UPart.same n c := by
    intro u hu
    obtain ⟨t, ht, rfl⟩ := List.mem_iff_getElem.mp hu
    rw [List.length_drop] at ht
    rcases hat (c + 1 + t) (by omega) with ⟨cc, h1, _⟩ | ⟨_, _, _, _, h2, _⟩
    · rw [List.getElem?_eq_getElem (by omega)] at h1
      exact ⟨cc, by rw [List.getElem_drop]; exact Option.some.inj h1⟩
    · omega
  have lpre : (us.take c).length = c := by rw [List.length_take]; omega
  have lpost : (us.drop (c + 1)).length = 64 / n - c - 1 := by rw [List.length_drop]; omega
  have e1 := same_inputs v hpre
  have e2 := same_inputs v hpost
  rw [lpre] at e1
  rw [lpost] at e2
  have o1 : ∀ t, t < c → outV v (us.take c) t = outV v us t := by
    intro t ht
    unfold outV
    congr 1
    rw [List.getD_eq_getElem?_getD, List.getD_eq_getElem?_getD, List.getElem?_map, List.getElem?_map, List.getElem?_take, if_pos ht]
  have o2 : ∀ t, outV v (us.drop (c + 1)) t = outV v us (c + 1 + t) := by
    intro t
    unfold outV
    congr 1
    rw [List.getD_eq_getElem?_getD, List.getD_eq_getElem?_getD, List.getElem?_map, List.getElem?_map, List.getElem?_drop]
  have e1' : ((us.take c).flatMap UPart.inputs).map (fun q => (q.1, v q.2)) = (List.range c).map fun t => (n, outV v us t) := by
    rw [e1]; exact List.map_congr_left fun t ht => by rw [o1 t (List.mem_range.mp ht)]
  have e2' : ((us.drop (c + 1)).flatMap UPart.inputs).map (fun q => (q.1, v q.2)) = (List.range (64 / n - c - 1)).map fun u => (n, outV v us (c + 1 + u)) := by
    rw [e2]; exact List.map_congr_left fun t _ => by rw [o2 t]
  have hall : (us.flatMap UPart.inputs).map (fun q => (q.1, v q.2)) =
      ((List.range c).map fun t => (n, outV v us t)) ++ ((UPart.inputs (us[c]'(by omega))).map (fun q => (q.1, v q.2)) ++
        (List.range (64 / n - c - 1)).map fun u => (n, outV v us (c + 1 + u))) := by
    conv_lhs => rw [hsplit]
    rw [List.flatMap_append, List.flatMap_cons, List.map_append, List.map_append, e1', e2']
  have hrn : rot = n * c + ρ := by rw [hc, hρ]; exact (Nat.div_add_mod rot n).symm
  have hρn : ρ < n := Nat.mod_lt _ (by omega)
  have houtc : outV v us c = v (us[c]'(by omega)).out := by
    unfold outV
    congr 1
    rw [getD_lt (by rw [List.length_map]; omega), List.getElem_map]
  rcases hat c hcm with ⟨cc, h1, h2⟩ | ⟨ca, cb, cc, h1, _, h2⟩
  · have h0 : ρ = 0 := h2.resolve_left (by simp)
    rw [List.getElem?_eq_getElem (by omega)] at h1
    have h1 := Option.some.inj h1
    refine ⟨0, outV v us c, ?_, fun _ => ⟨rfl, rfl⟩, fun h => absurd h0 h⟩
    have hcnt : rotateCount rot n = c := by
      unfold rotateCount
      rw [hrn, h0, show n * c + 0 + n - 1 = n - 1 + n * c by omega, Nat.add_mul_div_left _ _ (by omega), Nat.div_eq_of_lt (by omega), zero_add]
    rw [rotPartsRev, hcnt, hall, rotL, List.drop_left' (by simp), List.take_left' (by simp), h1, rhoParts, if_pos h0, h0]
    rw [houtc, h1]
    simp [UPart.inputs, UPart.out]
  · rw [List.getElem?_eq_getElem (by omega)] at h1
    have h1' := Option.some.inj h1
    refine ⟨v ca, v cb, ?_, fun h => absurd h h2, fun _ => ⟨ca, cb, cc, by rw [List.getElem?_eq_getElem (by omega), h1'], rfl, rfl, by rw [houtc, h1']; rfl⟩⟩
    have hcnt : rotateCount rot n = c + 1 := by
      unfold rotateCount
      rw [hrn, show n * c + ρ + n - 1 = ρ - 1 + n * (c + 1) by rw [Nat.mul_succ]; omega, Nat.add_mul_div_left _ _ (by omega), Nat.div_eq_of_lt (by omega), zero_add]
    rw [rotPartsRev, hcnt, hall, rotL, h1', rhoParts, if_neg h2]
    have : ((List.range c).map fun t => (n, outV v us t)) ++ ((UPart.inputs (UPart.two ρ ca (n - ρ) cb cc)).map (fun q => (q.1, v q.2)) ++
        (List.range (64 / n - c - 1)).map fun u => (n, outV v us (c + 1 + u))) =
        (((List.range c).map fun t => (n, outV v us t)) ++ [(ρ, v ca)]) ++ ((n - ρ, v cb) :: (List.range (64 / n - c - 1)).map fun u => (n, outV v us (c + 1 + u))) := by
      simp [UPart.inputs]
    rw [this, List.drop_left' (by simp), List.take_left' (by simp)]
    simp

variable {k h n : ℕ} {a : Adv (ZMod p)}

theorem range4_mem (hs : KecSat k h n a) (hk : Sizes k) (hp : 8 ^ 82 ≤ p) {c : Cell} (hc : c.2 < h) (ho : Look.range4 c.1 ∈ (layout k h).looks) {R : ℕ}
    (hR : R < 1 + n * 25) : nv a (bs h R) c < 8 ^ 17 ∧ ∀ j, dig (nv a (bs h R) c) j ≤ 3 := by
  obtain ⟨e, he, e1⟩ := (hs _ (row_lt hR hc)).2 _ ho
  have hb := table_lt hk he
  have h17 : (8 : ℕ) ^ 17 ≤ p := le_trans (Nat.pow_le_pow_right (by norm_num) (by norm_num)) hp
  have v1 : nv a (bs h R) c = e.1 := by
    unfold nv
    exact val_of_cast (by omega) (by rw [val_row]; exact e1)
  rw [v1]
  refine ⟨hb.1, fun j => ?_⟩
  rcases (norm_entry (by norm_num) he).2.2.1 j with h | h <;> omega

/-- The rho step of one word: the normalised target parts hold the bits of the rotated word, provided that their overflow digits are 0. -/
theorem rho_step (hs : KecSat k h n a) (hk : Sizes k) (hp : 8 ^ 82 ≤ p) {us : List UPart} {rot : ℕ} (hrot : rot < 64) (hsh : rhoShape (ps5 k) rot us = true)
    (hrg : rangeOk (layout k h).looks h us = true) {out : List Cell} (ho : transOk (layout k h).looks h .norm4 (us.map UPart.out) out = true)
    {R : ℕ} (hR : R < 1 + n * 25) {X : ℕ} (hX : X < 8 ^ 64) (hZ : Z (splitUniGates (a.val (bs h R)) us rot (ps5 k) ((X : ℕ) : ZMod p)))
    (hev : ∀ t, t < 64 / ps5 k → dig (nv a (bs h R) (out.getD t (0, 0))) (ps5 k) = 0) {t : ℕ} (ht : t < 64 / ps5 k) :
    nv a (bs h R) (out.getD t (0, 0)) < 8 ^ ps5 k ∧ ∀ j, j < ps5 k →
      dig (nv a (bs h R) (out.getD t (0, 0))) j = dig X ((ps5 k * t + j + 64 - rot) % 64) % 2 := by
  set N := ps5 k with hN
  set v := nv a (bs h R) with hv
  have hn : 1 ≤ N := hk.h5.1
  obtain ⟨hlen, hmem⟩ := trans_mem hs hk hp ho hR
  obtain ⟨hul, hat⟩ := rhoShape_at hsh
  rw [List.length_map] at hlen hmem
  have hent : ∀ t, t < 64 / N → outV v us t < 8 ^ (N + 1) ∧ (∀ j, dig (outV v us t) j ≤ 3) ∧ v (out.getD t (0, 0)) < 8 ^ (N + 1) ∧
      (∀ j, dig (v (out.getD t (0, 0))) j = dig (outV v us t) j % 2) ∧ outV v us t < 8 ^ 17 := by
    intro t ht
    have h1 := hmem t (by omega)
    rw [getD_map v (by rw [List.length_map]; omega) 0 (0, 0), getD_map v (by omega) 0 (0, 0)] at h1
    obtain ⟨g1, g2, g3, g4⟩ := norm_entry (by norm_num) h1
    have hle : (8 : ℕ) ^ numBits 4 k ≤ 8 ^ (N + 1) := Nat.pow_le_pow_right (by norm_num) hk.h4.2
    refine ⟨lt_of_lt_of_le g1 hle, fun j => ?_, lt_of_lt_of_le g2 hle, g4, (table_lt hk h1).1⟩
    rcases g3 j with h | h
    · exact Nat.le_of_lt_succ h
    · show dig _ j ≤ 3
      have : dig (outV v us t) j = 0 := h
      omega
  rw [splitUniGates, H2.Sha.Z_append, Z_flatMap, Z_reqEq] at hZ
  obtain ⟨hZ1, hZ2⟩ := hZ
  obtain ⟨av, bv, hord, hz, hnz⟩ := parts_order v hn hrot hk.div hsh
  have hm : N * (64 / N) = 64 := Nat.mul_div_cancel' (Nat.dvd_of_mod_eq_zero hk.div)
  have hcm : rot / N < 64 / N := by
    rw [Nat.div_lt_iff_lt_mul (by omega), mul_comm, hm]; exact hrot
  have h17 : (8 : ℕ) ^ 17 < 8 ^ 82 := Nat.pow_lt_pow_right (by norm_num) (by norm_num)
  -- the split part
  have habv : (∀ j, dig av j ≤ 3) ∧ (∀ j, dig bv j ≤ 3) ∧ outV v us (rot / N) = av + bv * 8 ^ (rot % N) ∧ av < 8 ^ 17 ∧ bv < 8 ^ 17 := by
    by_cases h0 : rot % N = 0
    · obtain ⟨rfl, rfl⟩ := hz h0
      refine ⟨fun j => by rw [dig_zero_left]; omega, (hent _ hcm).2.1, by rw [h0]; simp, by positivity, (hent _ hcm).2.2.2.2⟩
    · obtain ⟨ca, cb, cc, hu, rfl, rfl, hoc⟩ := hnz h0
      have hum := List.mem_of_getElem? hu
      unfold rangeOk at hrg
      rw [List.all_eq_true] at hrg
      have hr := hrg _ hum
      simp only [Bool.and_eq_true, decide_eq_true_eq, List.contains_iff_mem] at hr
      obtain ⟨⟨⟨r1, r2⟩, r3⟩, r4⟩ := hr
      have ra := range4_mem hs hk hp r1 r3 hR
      have rb := range4_mem hs hk hp r2 r4 hR
      refine ⟨ra.2, rb.2, ?_, ra.1, rb.1⟩
      have h1 := hZ1 _ hum
      simp only [upartGate, Z_reqEq] at h1
      rw [hoc]
      have hρ : rot % N < N := Nat.mod_lt _ (by omega)
      have hN16 := hk.h5.2
      have hb2 : v cb * 8 ^ (rot % N) < 8 ^ 33 := by
        calc v cb * 8 ^ (rot % N) < 8 ^ 17 * 8 ^ (rot % N) := Nat.mul_lt_mul_of_pos_right rb.1 (by positivity)
          _ ≤ 8 ^ 17 * 8 ^ 16 := Nat.mul_le_mul_left _ (Nat.pow_le_pow_right (by norm_num) (by omega))
          _ = 8 ^ 33 := by rw [← pow_add]
      have h33 : (8 : ℕ) ^ 17 + 8 ^ 33 < 8 ^ 82 := by norm_num
      have hcc : v cc < p := ZMod.val_lt _
      refine nat_eq (p := p) hcc (by have h7 : v ca < 8 ^ 17 := ra.1; omega) ?_
      push_cast
      rw [cast_nv, cast_nv, cast_nv]
      exact h1.symm
  obtain ⟨ha, hb, hoc, ha17, hb17⟩ := habv
  -- the whole word
  have hdecN : decN (rhoParts N (64 / N) (rot / N) (rot % N) (outV v us) av bv) = X := by
    have hsum : ((rhoParts N (64 / N) (rot / N) (rot % N) (outV v us) av bv).map (·.1)).sum = 64 := by
      have hρ : rot % N < N := Nat.mod_lt _ (by omega)
      rw [rhoParts, List.map_cons, List.sum_cons, List.map_append, List.sum_append, List.map_append, List.sum_append,
        sum_const (n := N) (by intro q hq; obtain ⟨_, _, rfl⟩ := List.mem_map.mp hq; rfl),
        sum_const (n := N) (by intro q hq; obtain ⟨_, _, rfl⟩ := List.mem_map.mp hq; rfl)]
      simp only [List.length_map, List.length_range]
      have e3 : ((if rot % N = 0 then ([] : List (ℕ × ℕ)) else [(rot % N, av)]).map (·.1)).sum = rot % N := by
        split
        · rename_i h; simp [h]
        · simp
      rw [e3]
      have e4 : N * (64 / N - rot / N - 1) + N * (rot / N) + N = 64 := by
        rw [← Nat.mul_add, ← Nat.mul_succ, show (64 / N - rot / N - 1 + rot / N).succ = 64 / N by omega, hm]
      omega
    have h1 : ∀ q ∈ rhoParts N (64 / N) (rot / N) (rot % N) (outV v us) av bv, q.2 < 8 ^ 17 ∧ 1 ≤ q.1 := by
      have hρ : rot % N < N := Nat.mod_lt _ (by omega)
      intro q hq
      rw [rhoParts, List.mem_cons, List.mem_append, List.mem_append] at hq
      rcases hq with rfl | hq | hq | hq
      · exact ⟨hb17, by show 1 ≤ N - rot % N; omega⟩
      · obtain ⟨u, hu, rfl⟩ := List.mem_map.mp hq
        rw [List.mem_range] at hu
        exact ⟨(hent _ (by omega)).2.2.2.2, hn⟩
      · obtain ⟨u, hu, rfl⟩ := List.mem_map.mp hq
        rw [List.mem_range] at hu
        exact ⟨(hent _ (by omega)).2.2.2.2, hn⟩
      · by_cases h0 : rot % N = 0
        · rw [if_pos h0] at hq; simp at hq
        · rw [if_neg h0, List.mem_singleton] at hq
          subst hq
          exact ⟨ha17, by show 1 ≤ rot % N; omega⟩
    have hbound := decN_le (M := 17) (fun q hq => (h1 q hq).1) (fun q hq => (h1 q hq).2)
    rw [hsum] at hbound
    have h81 : (8 : ℕ) ^ (64 + 17) < p := lt_of_lt_of_le (Nat.pow_lt_pow_right (by norm_num) (by norm_num)) hp
    have h64 : (8 : ℕ) ^ 64 ≤ 8 ^ (64 + 17) := Nat.pow_le_pow_right (by norm_num) (by norm_num)
    refine nat_eq (p := p) (by omega) (by omega) ?_
    rw [← hZ2, ← hord, ← decode_cast]
    congr 1
    unfold rotPartsRev rotL
    rw [List.map_append, List.map_drop, List.map_take, List.map_map]
    have : (us.flatMap UPart.inputs).map ((fun q : ℕ × ℕ => (q.1, ((q.2 : ℕ) : ZMod p))) ∘ fun q => (q.1, v q.2)) =
        (us.flatMap UPart.inputs).map fun q => (q.1, a.val (bs h R) q.2) :=
      List.map_congr_left fun q _ => by simp only [Function.comp_apply, hv, cast_nv]
    rw [this]
  have key := fun {t j : ℕ} (ht : t < 64 / N) (hj : j < N) => rho_nat (m := 64 / N) (c := rot / N) (ρ := rot % N) hn (Nat.mod_lt _ (by omega)) hm hcm hX
    (fun t ht => ⟨(hent t ht).2.1, (hent t ht).1, by rw [← (hent t ht).2.2.2.1, hev t ht]⟩) ha hb hoc (fun h0 => (hz h0).1) hdecN ht hj
  refine ⟨lt_of_dig fun j hj => ?_, fun j hj => ?_⟩
  · rcases Nat.lt_or_ge N j with h | h
    · exact dig_of_lt (hent t ht).2.2.1 (by omega)
    · rw [show j = N by omega]; exact hev t ht
  · rw [(hent t ht).2.2.2.1, key ht hj, Nat.div_add_mod]

end H2.Kec
