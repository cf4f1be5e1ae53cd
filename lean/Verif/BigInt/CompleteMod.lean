import Verif.BigInt.CompleteCarry

/-! # Completeness of `carry_mod` and `check_carry_mod_to_zero` -/

set_option autoImplicit false
set_option linter.unusedSectionVars false
namespace H2
variable {p : ℕ} [Fact p.Prime] {tbl : ZMod p → Prop} {ext : Cell → ZMod p} {s s' : Ctx p} {L n k : ℕ}

theorem Cmp.withRun {α : Type} {m : M p α} {Q P : α → Ctx p → Prop} (h : Cmp tbl ext s m Q)
    (hr : Inv s → ∀ r s', m s = some (r, s') → P r s') : Cmp tbl ext s m (fun r s' => Q r s' ∧ P r s') := by
  intro hg
  obtain ⟨r, s', h1, h2, h3, h4⟩ := h hg
  exact ⟨r, s', h1, h2, h3, h4, hr hg.inv r s' h1⟩

/-- A region whose gates may use the cell assigned just before it. -/
theorem regionBack_cmp {qs : List (QCell p)} {gs : List ℤ} {vs : List (ZMod p)} {last : AV p} {v : ZMod p}
    (hl : IsLast s last) (hv : Con ext s last v) (hq : QsConT ext s qs vs) (hgate : ∀ o ∈ gs, GateL (v :: vs) (o + 1)) :
    Cmp tbl ext s (assignRegion qs gs) (fun _ s' => s'.advice = s.advice ++ vs.map .trivial) := by
  have hlast : valAt s (s.advice.length - 1) = v := by
    obtain ⟨-, c, h1, -, h3⟩ := hv
    rw [hl.2, Option.some.injEq] at h1
    rw [← h1, hw_cellAt] at h3
    exact h3
  have hne : s.advice ≠ [] := by
    intro h; have := hl.1; rw [h] at this; simp at this
  have hsplit : s.advice.map Assigned.eval = (s.advice.map Assigned.eval).dropLast ++ [v] := by
    have h0 : s.advice.map Assigned.eval ≠ [] := by simpa using hne
    rw [← List.dropLast_append_getLast h0]
    simp only [List.dropLast_concat]
    congr 2
    rw [← hlast, List.getLast_eq_getElem]
    simp [valAt, List.getElem?_eq_getElem (show s.advice.length - 1 < s.advice.length from by have := hl.1; omega)]
  have hlen : (s.advice.map Assigned.eval).dropLast.length = s.advice.length - 1 := by simp
  refine (assignRegion_cmp' hq.qsCon ?_).weaken fun _ _ h => by rw [h, hq.assigned]
  intro o ho
  obtain ⟨h1, h2, h3⟩ := hgate o ho
  have h1' := hl.1
  refine ⟨s.advice.length - 1 + (o + 1).toNat, by omega, ?_, ?_⟩
  · simp only [List.length_cons] at h2; omega
  · rw [hsplit, List.append_assoc, List.singleton_append]
    have g : ∀ j, ((s.advice.map Assigned.eval).dropLast ++ (v :: vs)).getD (s.advice.length - 1 + j) 0 = (v :: vs).getD j 0 := by
      intro j
      rw [List.getD_append_right _ _ _ _ (by rw [hlen]; omega), hlen, Nat.add_sub_cancel_left]
    rw [Nat.add_assoc, Nat.add_assoc, Nat.add_assoc, g, g, g, g]
    exact h3

theorem AvsCon.snoc {as : List (AV p)} {xs : List (ZMod p)} {a : AV p} {x : ZMod p} (h : AvsCon ext s as xs)
    (h2 : Con ext s a x) : AvsCon ext s (as ++ [a]) (xs ++ [x]) :=
  List.rel_append h (.cons h2 .nil)

theorem cmRegion_cmp {prod a : AV p} {pv av o : ZMod p} (hl : IsLast s prod) (hp : Con ext s prod pv) (ha : Con ext s a av) :
    Cmp tbl ext s (do
      assignRegion [.constant (-1), .existing a, .witness (pv - av), .constant 1, .witness o, .witness (pv - av + o)] [-1, 2]
      let check ← lastM
      let oc ← getM (-2)
      pure (check, oc)) (fun r s' => Con ext s' r.1 (pv - av + o) ∧ Con ext s' r.2 o) := by
  refine Cmp.bind (regionBack_cmp (vs := [-1, av, pv - av, 1, o, pv - av + o]) hl hp
    (.cons rfl (.cons ha (.cons rfl (.cons rfl (.cons rfl (.cons rfl .nil)))))) ?_) fun _ s1 _ h1 => ?_
  · intro o' ho
    simp only [List.mem_cons, List.not_mem_nil, or_false] at ho
    rcases ho with rfl | rfl
    · exact ⟨by norm_num, by simp, by simp; ring⟩
    · exact ⟨by norm_num, by simp, by simp⟩
  refine Cmp.bind (lastM_con h1 rfl) fun c s2 _ ⟨e2, hc⟩ => ?_
  subst e2
  refine Cmp.bind (getM_con (i := s.advice.length + 4) (x := o) ?_ ?_) fun c2 s3 _ ⟨e3, hc2⟩ => ?_
  · rw [if_pos (by omega), h1]; simp; omega
  · rw [h1]; simp
  subst e3
  exact Cmp.pure ⟨hc, hc2⟩

theorem carryModLoop_cmp {modLimbs : List (ZMod p)} {l : List (AV p × ZMod p × ZMod p)} {qs : List (AV p)}
    {avs qvs : List (ZMod p)} (hq : AvsCon ext s qs qvs) (ha : AvsCon ext s (l.map Prod.fst) avs)
    (hl : qs.length + l.length ≤ modLimbs.length) :
    Cmp tbl ext s (carryModLoop modLimbs l qs) (fun r s' => AvsCon ext s' r.1 (qvs ++ l.map (fun e => e.2.1)) ∧
      AvsCon ext s' r.2.1 (l.map (fun e => e.2.2)) ∧ AvsW ext s' r.2.2) := by
  induction l generalizing s qs qvs avs with
  | nil => exact Cmp.pure ⟨by simpa using hq, .nil, by simp [AvsW]⟩
  | cons e l ih =>
    obtain ⟨a, q, o⟩ := e
    rcases ha with _ | ⟨ha1, ha2⟩
    rename_i av avs
    have ha2 : AvsCon ext s (l.map Prod.fst) avs := ha2
    rw [List.length_cons] at hl
    unfold carryModLoop
    rw [sliceTo_pure (by omega), pure_bind]
    have hlen : (qs.map .existing ++ [.witness q] : List (QCell p)).length =
        ((modLimbs.take (qs.length + 1)).reverse.map (.constant : ZMod p → QCell p)).length := by simp; omega
    have hqs : QsConT ext s (qs.map .existing ++ [.witness q]) (qvs ++ [q]) :=
      List.rel_append (QsConT.existing hq) (.cons rfl .nil)
    refine Cmp.bind ((innerProductLeftLast_cmp hqs (QsConT.constants _) hlen (xl := q) (by simp)).withRun
      (innerProductLeftLast_last _ _ hlen)) fun pq s1 e1 hpq => ?_
    obtain ⟨prod, qc⟩ := pq
    obtain ⟨⟨hprod, hqc⟩, hlast⟩ := hpq
    dsimp only at hprod hqc hlast ⊢
    refine Cmp.unwrap hprod.val (Cmp.unwrap ha1.val ?_)
    set pv := dot (qvs ++ [q]) (modLimbs.take (qs.length + 1)).reverse
    have key := cmRegion_cmp (tbl := tbl) (o := o) hlast hprod (ha1.mono e1)
    have : (do
      assignRegion [.constant (-1), .existing a, .witness (pv - av), .constant 1, .witness o, .witness (pv - av + o)] [-1, 2]
      let check ← lastM
      let oc ← getM (-2)
      let (qs', os, cs) ← carryModLoop modLimbs l (qs ++ [qc])
      pure (qs', oc :: os, check :: cs) : M p _) = ((do
        assignRegion [.constant (-1), .existing a, .witness (pv - av), .constant 1, .witness o, .witness (pv - av + o)] [-1, 2]
        let check ← lastM
        let oc ← getM (-2)
        pure (check, oc)) >>= fun co => carryModLoop modLimbs l (qs ++ [qc]) >>= fun r =>
          pure (r.1, co.2 :: r.2.1, co.1 :: r.2.2)) := by
      simp only [bind_assoc, pure_bind]
    rw [this]
    refine Cmp.bind key fun co s2 e2 hco => ?_
    refine Cmp.bind (ih (s := s2) (qs := qs ++ [qc]) (qvs := qvs ++ [q]) (((hq.mono e1).mono e2).snoc (hqc.mono e2))
      ((ha2.mono e1).mono e2) (by simp; omega)) fun r s3 e3 hr => Cmp.pure ?_
    obtain ⟨r1, r2, r3⟩ := hr
    refine ⟨?_, .cons (hco.2.mono e3) r2, .cons (hco.1.w.mono e3) r3⟩
    simpa using r1

/-! ### Limbs of a signed integer -/

/-- The limbs of the absolute value, with the sign of the integer. -/
def sgnLimbs (e : ℤ) (k n : ℕ) : List ℤ := (limbsOf e.natAbs k n).map (fun d : ℕ => if e < 0 then -(d : ℤ) else d)

theorem sgnLimbs_length (e : ℤ) (k n : ℕ) : (sgnLimbs e k n).length = k := by simp [sgnLimbs, limbsOf_length]

theorem decomposeBigint_eq (hn : 64 ≤ n) (hn' : n < 128) (hk : k ≠ 0) (e : ℤ) :
    Utils.decomposeBigint p false e k n = some ((sgnLimbs e k n).map (fun x : ℤ => (x : ZMod p))) := by
  unfold Utils.decomposeBigint Utils.decomposeBiguint sgnLimbs
  rw [Utils.decomposeBigLimbs_eq hn hn' hk]
  split
  · simp [Function.comp_def]
  · simp [Function.comp_def]

theorem sgnLimbs_val {e : ℤ} (h : e.natAbs < 2 ^ (n * k)) : limbVal n (sgnLimbs e k n) = e := by
  unfold sgnLimbs
  have h1 : limbVal n ((limbsOf e.natAbs k n).map (fun d : ℕ => (d : ℤ))) = e.natAbs := by
    rw [limbVal_map_nat, ofDigits_limbsOf _ _ _ h]
  by_cases he : e < 0
  · simp only [if_pos he]
    have : (limbsOf e.natAbs k n).map (fun d : ℕ => -(d : ℤ)) = ((limbsOf e.natAbs k n).map (fun d : ℕ => (d : ℤ))).map (fun x => -x) := by
      rw [List.map_map]; rfl
    rw [this, limbVal_map_neg, h1]; omega
  · simp only [if_neg he]
    rw [h1]; omega

theorem sgnLimbs_abs {e : ℤ} : ∀ x ∈ sgnLimbs e k n, |x| < 2 ^ n := by
  intro x hx
  unfold sgnLimbs at hx
  rw [List.mem_map] at hx
  obtain ⟨d, hd, rfl⟩ := hx
  have : (d : ℤ) < 2 ^ n := by exact_mod_cast limbsOf_lt' hd
  split
  · rwa [abs_neg, abs_of_nonneg (Int.natCast_nonneg d)]
  · rwa [abs_of_nonneg (Int.natCast_nonneg d)]

theorem limbsOf_last {v last : ℕ} (hk : 1 ≤ k) : (limbsOf v k n).getLast? = some (v / 2 ^ (n * (k - 1)) % 2 ^ n) := by
  rw [List.getLast?_eq_getElem?, limbsOf_length, limbsOf_get (by omega)]

/-! ### Range checks -/

theorem ceilDiv_ok (hL : RangeOk p L) {b : ℕ} (hb : 2 ^ b ≤ p) : ceilDiv b L ≤ capacity p / L + 1 := by
  have h3 := lt_numBits_of_pow_le hb
  refine (Nat.div_le_div_right (c := L) (?_ : _ ≤ capacity p + L)).trans ?_
  · rw [capacity]; have := hL.pos; omega
  · rw [Nat.add_div_right _ hL.pos]

theorem rangeChecksLast_cmp (hL : RangeOk p L) {last : ℕ} (hn : 2 ^ n ≤ p) (hln : last ≤ n) {as : List (AV p)} {ds : List ℕ}
    (h : AvsCon ext s as (ds.map (fun d : ℕ => (d : ZMod p)))) (hd : ∀ d ∈ ds, d < 2 ^ n)
    (hlast : ∀ d, ds.getLast? = some d → d < 2 ^ last) :
    Cmp (RangeTable p L) ext s (rangeChecksLast L n last as) (fun _ _ => True) := by
  have hl2 : 2 ^ last ≤ p := (Nat.pow_le_pow_right (by norm_num) hln).trans hn
  induction ds generalizing s as with
  | nil => rcases h with _ | _; exact Cmp.pure trivial
  | cons d ds ih =>
    rcases h with _ | ⟨h1, h2⟩
    rename_i a as
    have h2 : AvsCon ext s as _ := h2
    have hdp : d < p := (hd d (by simp)).trans_le hn
    cases ds with
    | nil =>
      rcases h2 with _ | _
      exact rangeCheck_cmp hL h1 (ceilDiv_ok hL hl2) (by rw [ZMod.val_natCast_of_lt hdp]; exact hlast d rfl)
    | cons d2 ds =>
      cases as with
      | nil => exact absurd (List.Forall₂.length_eq h2) (by simp)
      | cons a2 as =>
        refine Cmp.bind (rangeCheck_cmp hL h1 (ceilDiv_ok hL hn) (by rw [ZMod.val_natCast_of_lt hdp]; exact hd d (by simp)))
          fun _ s1 e1 _ => ?_
        exact ih (s := s1) (h2.mono e1) (fun x hx => hd x (by simp at hx ⊢; tauto)) (fun x hx => hlast x (by simpa using hx))

theorem quotCheck_cmp (hL : RangeOk p L) {bits : ℕ} (hb : 2 ^ (bits + 1) ≤ p) {a : AV p} {z : ℤ}
    (h : Con ext s a (z : ZMod p)) (h1 : -2 ^ bits ≤ z) (h2 : z < 2 ^ bits) :
    Cmp (RangeTable p L) ext s (quotCheck L bits (2 ^ bits) a) (fun _ _ => True) := by
  refine Cmp.bind (add_cmp (b := .constant (2 ^ bits)) (show QCon ext s (.existing a) _ from h) rfl) fun sh s2 e2 hsh => ?_
  have hval : (z : ZMod p) + 2 ^ bits = (((2 ^ bits + z).toNat : ℕ) : ZMod p) := by
    have : ((2 ^ bits + z).toNat : ℤ) = 2 ^ bits + z := Int.toNat_of_nonneg (by linarith)
    rw [← Int.cast_natCast, this]; push_cast; ring
  have hlt : (2 ^ bits + z).toNat < 2 ^ (bits + 1) := by
    zify
    rw [Int.toNat_of_nonneg (by linarith), pow_succ]; linarith
  refine rangeCheck_cmp hL hsh (ceilDiv_ok hL hb) ?_
  rw [hval, ZMod.val_natCast_of_lt (lt_of_lt_of_le hlt hb)]; exact hlt

theorem quotChecks_cmp (hL : RangeOk p L) {last : ℕ} (hn : 2 ^ (n + 1) ≤ p) (hln : last ≤ n) {base : List (ZMod p)}
    (hb : base[1]? = some (2 ^ n)) {as : List (AV p)} {zs : List ℤ}
    (h : AvsCon ext s as (zs.map (fun d : ℤ => (d : ZMod p)))) (hd : ∀ d ∈ zs, |d| < 2 ^ n)
    (hlast : ∀ d, zs.getLast? = some d → -2 ^ last ≤ d ∧ d < 2 ^ last) :
    Cmp (RangeTable p L) ext s (quotChecks L n last base as) (fun _ _ => True) := by
  have hl2 : 2 ^ (last + 1) ≤ p := (Nat.pow_le_pow_right (by norm_num) (by omega)).trans hn
  induction zs generalizing s as with
  | nil => rcases h with _ | _; exact Cmp.pure trivial
  | cons d ds ih =>
    rcases h with _ | ⟨h1, h2⟩
    rename_i a as
    have h2 : AvsCon ext s as _ := h2
    cases ds with
    | nil =>
      rcases h2 with _ | _
      unfold quotChecks
      rw [pow2At_pure (lt_numBits_of_pow_le ((Nat.pow_le_pow_right (by norm_num) (by omega)).trans hl2)), pure_bind]
      exact quotCheck_cmp hL hl2 h1 (hlast d rfl).1 (hlast d rfl).2
    | cons d2 ds =>
      cases as with
      | nil => exact absurd (List.Forall₂.length_eq h2) (by simp)
      | cons a2 as =>
        unfold quotChecks
        refine Cmp.unwrap hb ?_
        have := abs_lt.1 (hd d (by simp))
        refine Cmp.bind (quotCheck_cmp hL hn h1 this.1.le this.2) fun _ s1 e1 _ => ?_
        exact ih (s := s1) (h2.mono e1) (fun x hx => hd x (by simp at hx ⊢; tauto)) (fun x hx => hlast x (by simpa using hx))

/-! ### `carry_mod` -/

/-- The sizes under which `carry_mod` and `check_carry_mod_to_zero` accept: besides `CarryOk`, at least two limbs, and the
modulus reaches the last limb. -/
structure CarryCmp (c : FpChip p) : Prop where
  ok : CarryOk c
  p32 : p ≤ 256 ^ 32
  k2 : 2 ≤ c.k
  top : c.n * (c.k - 1) ≤ Nat.size c.modulus

theorem carryBits_ge (hL : 1 ≤ L) (m : ℕ) : m - n + 1 ≤ carryBits L m n := by
  unfold carryBits
  have := Nat.lt_div_mul_add (a := m - n + 1 + L) (b := L) (by omega)
  omega

/-- The carries of a chain of limbs below `1.5 * 2 ^ m` or so stay below `2 ^ carryBits`. -/
theorem carry_room {m rb : ℕ} {bnd : ℤ} (hn : 2 ≤ n) (hm : n ≤ m) (hrb : m - n + 1 ≤ rb)
    (hb : bnd + 2 ^ (m - n + 1) + 2 ^ n ≤ 2 ^ (m + 1)) :
    bnd + (2 ^ rb - 1) ≤ (2 ^ rb - 1) * 2 ^ n := by
  obtain ⟨e, rfl⟩ := Nat.exists_eq_add_of_le hrb
  have hN : (1 : ℤ) ≤ 2 ^ n := one_le_pow₀ (by norm_num)
  have hE : (1 : ℤ) ≤ 2 ^ e := one_le_pow₀ (by norm_num)
  have e1 : (2 : ℤ) ^ (m + 1) = 2 ^ (m - n + 1) * 2 ^ n := by rw [← pow_add]; congr 1; omega
  have hM : (0 : ℤ) < 2 ^ (m - n + 1) := by positivity
  rw [e1] at hb
  rw [pow_add]
  have : (2 : ℤ) ^ (m - n + 1) * (2 ^ n - 1) ≤ 2 ^ (m - n + 1) * 2 ^ e * (2 ^ n - 1) := by
    refine mul_le_mul_of_nonneg_right ?_ (by linarith)
    nlinarith
  nlinarith

theorem modLimbs_bound {c : FpChip p} (hc : ChipOk c) : (c.k : ℤ) * 2 ^ (2 * c.n) + 2 ^ (2 * c.n) ≤ 2 ^ (2 * c.n + c.kBits) := by
  have : (c.k : ℤ) + 1 ≤ 2 ^ c.kBits := by exact_mod_cast hc.kBits
  rw [pow_add]
  have hpos : (0 : ℤ) < 2 ^ (2 * c.n) := by positivity
  nlinarith

theorem natAbs_ediv_le {A m : ℤ} {M : ℕ} (hm : 0 < m) (hA : |A| < m * 2 ^ M) :
    -2 ^ M ≤ A / m ∧ A / m < 2 ^ M := by
  rw [abs_lt] at hA
  constructor
  · rw [Int.le_ediv_iff_mul_le hm]; nlinarith
  · rw [Int.ediv_lt_iff_lt_mul hm]; nlinarith

/-- The quotient fits. -/
theorem quot_bounds {c : FpChip p} (hc : ChipOk c) (ho : CarryOk c) {A : ℤ} (hA : |A| < 2 ^ (c.n * c.k + numBits p - 3)) :
    quotLast p c.n c.k (Nat.size c.modulus) + 1 ≤ c.n ∧ (A / (c.modulus : ℤ)).natAbs < 2 ^ (c.n * c.k) ∧
    ∀ d, (sgnLimbs (A / (c.modulus : ℤ)) c.k c.n).getLast? = some d →
      -2 ^ quotLast p c.n c.k (Nat.size c.modulus) ≤ d ∧ d < 2 ^ quotLast p c.n c.k (Nat.size c.modulus) := by
  set m := c.modulus
  set last := quotLast p c.n c.k (Nat.size m) with hl
  have hk : c.n * c.k = c.n * (c.k - 1) + c.n := by
    have : c.k = c.k - 1 + 1 := by have := hc.k1; omega
    conv_lhs => rw [this, Nat.mul_succ]
  have h1 : numBits p ≤ Nat.size m + 1 := ho.quot
  have h2 : Nat.size m + 5 ≤ c.n + numBits p := ho.crt
  have h3 := ho.field
  have hn := hc.n64
  have hmb : Nat.size m ≤ c.n * c.k := size_le_of_lt hc.lt
  have hs0 : 0 < Nat.size m := Nat.size_pos.2 (by have := hc.pos; omega)
  have hlast : last + 1 ≤ c.n := by rw [hl, quotLast]; omega
  have hsum : c.n * (c.k - 1) + last + Nat.size m = c.n * c.k + numBits p - 2 := by rw [hl, quotLast]; omega
  have hm : (2 : ℤ) ^ (Nat.size m - 1) ≤ m := by
    have : 2 ^ (Nat.size m - 1) ≤ m := Nat.lt_size.1 (by omega)
    exact_mod_cast this
  have hmpos : (0 : ℤ) < m := by have := hc.pos; exact_mod_cast this
  have hA' : |A| < m * 2 ^ (c.n * (c.k - 1) + last) := by
    refine hA.trans_le ?_
    calc (2 : ℤ) ^ (c.n * c.k + numBits p - 3) = 2 ^ (Nat.size m - 1) * 2 ^ (c.n * (c.k - 1) + last) := by
          rw [← pow_add]; congr 1; omega
      _ ≤ _ := mul_le_mul_of_nonneg_right hm (by positivity)
  obtain ⟨q1, q2⟩ := natAbs_ediv_le hmpos hA'
  set q := A / (m : ℤ)
  have hq : q.natAbs ≤ 2 ^ (c.n * (c.k - 1) + last) := by zify; rw [abs_le]; exact ⟨q1, q2.le⟩
  refine ⟨hlast, lt_of_le_of_lt hq (Nat.pow_lt_pow_right (by norm_num) (by omega)), ?_⟩
  intro d hd
  unfold sgnLimbs at hd
  rw [List.getLast?_map, limbsOf_last (last := 0) hc.k1, Option.map_some, Option.some.injEq] at hd
  have hlim : q.natAbs / 2 ^ (c.n * (c.k - 1)) ≤ 2 ^ last := by
    rw [pow_add] at hq
    exact Nat.div_le_of_le_mul hq
  have hmodle := Nat.mod_le (q.natAbs / 2 ^ (c.n * (c.k - 1))) (2 ^ c.n)
  set v := q.natAbs / 2 ^ (c.n * (c.k - 1)) % 2 ^ c.n with hv
  have hpos : (0 : ℤ) < 2 ^ last := by positivity
  rw [← hd]
  split
  · have : (v : ℤ) ≤ 2 ^ last := by exact_mod_cast hmodle.trans hlim
    have : (0 : ℤ) ≤ v := Int.natCast_nonneg v
    constructor <;> linarith
  · rename_i hneg
    have hq2 : q.natAbs < 2 ^ (c.n * (c.k - 1) + last) := by zify; rw [abs_of_nonneg (by omega)]; exact q2
    have hlim : q.natAbs / 2 ^ (c.n * (c.k - 1)) < 2 ^ last := by
      rw [pow_add] at hq2
      exact Nat.div_lt_of_lt_mul hq2
    have : (v : ℤ) < 2 ^ last := by exact_mod_cast hmodle.trans_lt hlim
    have : (0 : ℤ) ≤ v := Int.natCast_nonneg v
    constructor <;> linarith

theorem carryFits_facts {c : FpChip p} (hc : ChipOk c) {rb : ℕ} {b : ℕ} (hf : b + (2 ^ c.n + 1) * 2 ^ rb < p) (hrb : 1 ≤ rb) :
    2 ^ (c.n + 1) ≤ p ∧ 2 ^ (rb + 1) ≤ p := by
  have h1 : 2 ≤ 2 ^ c.n := by
    calc 2 = 2 ^ 1 := rfl
      _ ≤ 2 ^ c.n := Nat.pow_le_pow_right (by norm_num) (by have := hc.n64; omega)
  have h2 : 2 ≤ 2 ^ rb := by
    calc 2 = 2 ^ 1 := rfl
      _ ≤ 2 ^ rb := Nat.pow_le_pow_right (by norm_num) hrb
  constructor
  · rw [pow_succ]; nlinarith
  · rw [pow_succ]; nlinarith

theorem finalRegion_cmp {on q a : AV p} {c vo vq va : ZMod p} (hl : IsLast s on) (ho : Con ext s on vo) (hq : Con ext s q vq)
    (ha : Con ext s a va) (hg : vo + c * vq = va) :
    Cmp tbl ext s (assignRegion [.constant c, .existing q, .existing a] [-1]) (fun _ _ => True) := by
  refine (regionBack_cmp (qs := [.constant c, .existing q, .existing a]) (vs := [c, vq, va]) hl ho (.cons rfl (.cons hq (.cons ha .nil))) ?_).weaken fun _ _ _ => trivial
  intro o ho
  simp only [List.mem_singleton] at ho
  subst ho
  exact ⟨by norm_num, by simp, by simpa using hg⟩

theorem AvsW.of_casts {as : List (AV p)} (h : AvsW ext s as) {xs : List ℤ}
    (hx : as.map (at' (hw ext s)) = xs.map (fun x : ℤ => (x : ZMod p))) :
    AvsCon ext s as (xs.map (fun x : ℤ => (x : ZMod p))) := hx ▸ h.con

theorem zip3_fst {α β γ : Type} {a : List α} {b : List β} {c : List γ} (h1 : a.length = b.length) (h2 : b.length = c.length) :
    (a.zip (b.zip c)).map Prod.fst = a ∧ (a.zip (b.zip c)).map (fun e => e.2.1) = b ∧
      (a.zip (b.zip c)).map (fun e => e.2.2) = c := by
  induction a generalizing b c with
  | nil => cases b <;> cases c <;> simp_all
  | cons x a ih =>
    cases b with
    | nil => simp at h1
    | cons y b => cases c with
      | nil => simp at h2
      | cons z c =>
        obtain ⟨i1, i2, i3⟩ := ih (b := b) (c := c) (by simpa using h1) (by simpa using h2)
        simp [i1, i2, i3]

theorem carryModCrt_cmp {c : FpChip p} (hc : ChipOk c) (hL : RangeOk p c.L) (ho : CarryCmp c) {a : CrtInt p}
    (hf : CarryFits c a.trunc.maxBits) {A : ℤ} (ha : CrtW c.n c.k ext s a A) (hA : |A| < 2 ^ (c.n * c.k + numBits p - 3)) :
    Cmp (RangeTable p c.L) ext s (carryModCrt c a) (fun r s' => ProperW c.n c.k ext s' r (A % c.modulus).toNat) := by
  have hmpos : (0 : ℤ) < c.modulus := by have := hc.pos; exact_mod_cast this
  have hn := hc.n64
  have hk2 := ho.k2
  obtain ⟨hql, hq1, hq2⟩ := quot_bounds hc ho.ok hA
  have hk : c.n * c.k = c.n * (c.k - 1) + c.n := by
    have : c.k = c.k - 1 + 1 := by omega
    conv_lhs => rw [this, Nat.mul_succ]
  have hmb : Nat.size c.modulus ≤ c.n * c.k := size_le_of_lt hc.lt
  have hal := ha.ok.length
  have htop := ho.top
  have h2 := ho.ok.crt
  set mb := max (max c.n a.trunc.maxBits + 1) (2 * c.n + c.kBits) with hmbdef
  have hcb := carryBits_ge (n := c.n) hL.pos mb
  obtain ⟨hp1, hp2⟩ := carryFits_facts hc (rb := carryBits c.L mb c.n) (b := c.k * 2 ^ (2 * c.n) + 2 ^ a.trunc.maxBits + 2 ^ c.n) hf (by omega)
  have hpn : 2 ^ c.n ≤ p := (Nat.pow_le_pow_right (by norm_num) (by omega)).trans hp1
  set q := A / (c.modulus : ℤ) with hqdef
  set o := A % (c.modulus : ℤ) with hodef
  have ho0 : 0 ≤ o := Int.emod_nonneg _ hmpos.ne'
  have hom : o < c.modulus := Int.emod_lt_of_pos _ hmpos
  have hosz : o.toNat < 2 ^ Nat.size c.modulus := by
    have : o.toNat < c.modulus := by omega
    exact this.trans (Nat.lt_size_self _)
  have hobig : o.toNat < 2 ^ (c.n * c.k) := by
    have : o.toNat < c.modulus := by omega
    exact this.trans hc.lt
  have hosg : sgnLimbs o c.k c.n = (limbsOf o.toNat c.k c.n).map (fun d : ℕ => (d : ℤ)) := by
    unfold sgnLimbs
    rw [show o.natAbs = o.toNat by omega]
    exact List.map_congr_left fun _ _ => if_neg (by omega)
  have hocast : (sgnLimbs o c.k c.n).map (fun x : ℤ => (x : ZMod p)) = (limbsOf o.toNat c.k c.n).map (fun d : ℕ => (d : ZMod p)) := by
    rw [hosg, List.map_map]; exact List.map_congr_left fun _ _ => by simp
  unfold carryModCrt
  refine Cmp.assert ?_ ?_
  · rw [decide_eq_true_eq, hal]
    exact ⟨by omega, by nlinarith, by omega⟩
  have e1 : (subU (c.n * a.trunc.limbs.length - 1 + numBits p - 1 - Nat.size c.modulus) (c.n * (a.trunc.limbs.length - 1)) : M p ℕ) =
      pure (c.n * a.trunc.limbs.length - 1 + numBits p - 1 - Nat.size c.modulus - c.n * (a.trunc.limbs.length - 1)) := by
    rw [subU, if_pos (by rw [hal]; omega)]
  have e2 : (subU (Nat.size c.modulus) (c.n * (a.trunc.limbs.length - 1)) : M p ℕ) =
      pure (Nat.size c.modulus - c.n * (a.trunc.limbs.length - 1)) := by
    rw [subU, if_pos (by rw [hal]; omega)]
  rw [e1, pure_bind, e2, pure_bind]
  refine Cmp.assert (by rw [decide_eq_true_eq]; have := hc.pos; omega) ?_
  rw [ha.value, hal]
  refine Cmp.unwrap (decomposeBigint_eq hc.n64 hc.n128 (by omega) o) (Cmp.unwrap (decomposeBigint_eq hc.n64 hc.n128 (by omega) q) ?_)
  have hmll : c.modLimbs.length = c.k := by rw [modInts_casts hc, List.length_map, modInts_length]
  refine Cmp.assert (by rw [decide_eq_true_eq]; exact hmll) ?_
  set qv := (sgnLimbs q c.k c.n).map (fun x : ℤ => (x : ZMod p)) with hqv
  set ov := (sgnLimbs o c.k c.n).map (fun x : ℤ => (x : ZMod p)) with hov
  have hqvl : qv.length = c.k := by simp [hqv, sgnLimbs_length]
  have hovl : ov.length = c.k := by simp [hov, sgnLimbs_length]
  obtain ⟨z1, z2, z3⟩ := zip3_fst (a := a.trunc.limbs) (b := qv) (c := ov) (by omega) (by omega)
  have hzl : (a.trunc.limbs.zip (qv.zip ov)).length = c.k := by simp [hal, hovl, hqvl]
  refine Cmp.bind ((carryModLoop_cmp (tbl := RangeTable p c.L) (modLimbs := c.modLimbs) (qs := []) (qvs := []) .nil
    (z1.symm ▸ ha.limbs.con) (by simp [hal, hovl, hqvl, hmll])).withSnd (carryModLoop_sound _ _ _)) fun r s1 x1 hr => ?_
  obtain ⟨qs, os, cs⟩ := r
  obtain ⟨⟨r1, r2, r3⟩, -, new, -, -, hol, hcs⟩ := hr
  dsimp only at r1 r2 r3 hcs hol ⊢
  rw [z2, List.nil_append] at r1
  rw [z3, hocast] at r2
  have hqsl : qs.length = c.k := by rw [List.Forall₂.length_eq r1, hqvl]
  have hosl : os.length = c.k := by rw [List.Forall₂.length_eq r2]; simp [limbsOf_length]
  obtain ⟨xs, hxl, hox, hcx, hnx⟩ := (ha.mono x1).ok
  set zs := sgnLimbs q c.k c.n with hzs
  have hzsl : zs.length = c.k := sgnLimbs_length _ _ _
  set ds := limbsOf o.toNat c.k c.n with hds
  have hdsl : ds.length = c.k := limbsOf_length _ _ _
  set chk : List ℤ := (List.range c.k).map (fun i => conv zs (modInts c) i - xs.getD i 0 +
    (ds.map (fun d : ℕ => (d : ℤ))).getD i 0) with hchk
  have hcsz : cs.map (at' (hw ext s1)) = chk.map (fun x : ℤ => (x : ZMod p)) := by
    rw [hcs, hzl, hchk, List.map_map]
    refine List.map_congr_left fun i _ => ?_
    have ea : (a.trunc.limbs.zip (qv.zip ov)).map (fun e => at' (hw ext s1) e.1) = a.trunc.limbs.map (at' (hw ext s1)) := by
      rw [show (fun e : AV p × ZMod p × ZMod p => at' (hw ext s1) e.1) = at' (hw ext s1) ∘ Prod.fst from rfl, ← List.map_map, z1]
    have hos : os.map (at' (hw ext s1)) = (ds.map (fun d : ℕ => (d : ℤ))).map (fun x : ℤ => (x : ZMod p)) := by
      rw [r2.map_at, List.map_map]; exact List.map_congr_left fun _ _ => by simp
    rw [ea, r1.map_at, hqv, modInts_casts hc, hox.limbs, hos, getD_casts, getD_casts, List.length_nil, Nat.zero_add, conv_casts]
    simp
  have hbnd : ∀ x ∈ chk, |x| ≤ c.k * 2 ^ (2 * c.n) + 2 ^ a.trunc.maxBits + 2 ^ c.n := by
    intro x hx
    rw [hchk, List.mem_map] at hx
    obtain ⟨i, hi, rfl⟩ := hx
    rw [List.mem_range] at hi
    have b1 := conv_bound c (qs := zs) (fun z hz => (sgnLimbs_abs z hz).le) hi
    have b2 := abs_getD_le (l := xs) (C := 2 ^ a.trunc.maxBits) (by positivity) (fun x hx => (hox.bound x hx).le) i
    have b3 := abs_getD_le (l := ds.map (fun d : ℕ => (d : ℤ))) (C := 2 ^ c.n) (by positivity) (fun x hx => by
      rw [List.mem_map] at hx
      obtain ⟨d, hd, rfl⟩ := hx
      rw [abs_of_nonneg (Int.natCast_nonneg d)]
      exact_mod_cast (limbsOf_lt' hd).le) i
    have t1 := abs_add_le (conv zs (modInts c) i - xs.getD i 0) ((ds.map (fun d : ℕ => (d : ℤ))).getD i 0)
    have t2 := abs_sub (conv zs (modInts c) i) (xs.getD i 0)
    linarith
  have hAqo : c.modulus * q + o = A := Int.mul_ediv_add_emod A c.modulus
  have hchkl : chk.length = c.k := by simp [hchk]
  have hdiv : (2 : ℤ) ^ (c.n * chk.length) ∣ limbVal c.n chk := by
    have hmod := limbVal_check c.n c.k zs (modInts c) xs (ds.map (fun d : ℕ => (d : ℤ))) hzsl modInts_length hxl (by simpa using hdsl)
    rw [modInts_val hc, limbVal_map_nat, hds, ofDigits_limbsOf _ _ _ hobig, hzs, sgnLimbs_val hq1] at hmod
    rw [hchkl]
    refine Int.modEq_zero_iff_dvd.1 (hmod.trans ((hcx.sub_left _).add_right _ |>.trans ?_))
    rw [Int.toNat_of_nonneg ho0, ← hAqo]
    rw [show q * c.modulus - (c.modulus * q + o) + o = 0 by ring]
  refine Cmp.bind (rangeChecksLast_cmp hL hpn (by omega) r2 (fun d hd => limbsOf_lt' hd) ?_) fun _ s2 x2 _ => ?_
  · intro d hd
    rw [hds, limbsOf_last (last := 0) (by omega), Option.some.injEq] at hd
    rw [← hd]
    refine (Nat.mod_le _ _).trans_lt (Nat.div_lt_of_lt_mul ?_)
    rw [← pow_add, Nat.add_sub_cancel' htop]; exact hosz
  refine Cmp.bind (quotChecks_cmp hL hp1 (by omega) (base1_get hc hk2) (r1.mono x2) (fun d hd => sgnLimbs_abs d hd) hq2)
    fun _ s3 x3 _ => ?_
  refine Cmp.unwrap (base1_get hc hk2) ?_
  have hrbpos : (1 : ℤ) ≤ 2 ^ carryBits c.L mb c.n := one_le_pow₀ (by norm_num)
  refine Cmp.bind (checkCarryToZero_cmp (xs := chk) (bnd := c.k * 2 ^ (2 * c.n) + 2 ^ a.trunc.maxBits + 2 ^ c.n)
    (C := 2 ^ carryBits c.L mb c.n - 1) (a := ⟨cs, mb⟩) ho.p32 hL (show c.n ≤ mb by omega) hp2 (by linarith) (by show _ - _ < _; linarith) ?_ ?_
    (((r3.of_casts hcsz).mono x2).mono x3) hbnd hdiv) fun _ s4 x4 _ => ?_
  · refine carry_room (m := mb) (by omega) (by omega) hcb ?_
    have m1 := modLimbs_bound hc
    have m2 : (2 : ℤ) ^ (2 * c.n + c.kBits) ≤ 2 ^ mb := pow_le_pow_right₀ (by norm_num) (le_max_right _ _)
    have m3 : (2 : ℤ) ^ a.trunc.maxBits * 2 ≤ 2 ^ mb := by
      rw [← pow_succ]; exact pow_le_pow_right₀ (by norm_num) (by omega)
    have m4 : (2 : ℤ) ^ (mb - c.n + 1) * 2 ≤ 2 ^ mb := by
      rw [← pow_succ]; exact pow_le_pow_right₀ (by norm_num) (by omega)
    have m5 : (2 : ℤ) ^ c.n * 2 ≤ 2 ^ (2 * c.n) := by
      rw [← pow_succ]; exact pow_le_pow_right₀ (by norm_num) (by omega)
    have m6 : (2 : ℤ) ^ (mb + 1) = 2 ^ mb * 2 := pow_succ _ _
    linarith
  · have h3 : c.k * 2 ^ (2 * c.n) + 2 ^ a.trunc.maxBits + 2 ^ c.n + (2 ^ c.n + 1) * 2 ^ carryBits c.L mb c.n < p := hf
    have h3 : (c.k : ℤ) * 2 ^ (2 * c.n) + 2 ^ a.trunc.maxBits + 2 ^ c.n + (2 ^ c.n + 1) * 2 ^ carryBits c.L mb c.n < p := by
      exact_mod_cast h3
    refine lt_of_le_of_lt ?_ h3
    have h4 := carry_room (n := c.n) (m := mb) (rb := carryBits c.L mb c.n)
      (bnd := c.k * 2 ^ (2 * c.n) + 2 ^ a.trunc.maxBits + 2 ^ c.n) (by omega) (by omega) hcb ?_
    · have : (0 : ℤ) ≤ 2 ^ c.n := by positivity
      linarith
    · have m1 := modLimbs_bound hc
      have m2 : (2 : ℤ) ^ (2 * c.n + c.kBits) ≤ 2 ^ mb := pow_le_pow_right₀ (by norm_num) (le_max_right _ _)
      have m3 : (2 : ℤ) ^ a.trunc.maxBits * 2 ≤ 2 ^ mb := by
        rw [← pow_succ]; exact pow_le_pow_right₀ (by norm_num) (by omega)
      have m4 : (2 : ℤ) ^ (mb - c.n + 1) * 2 ≤ 2 ^ mb := by
        rw [← pow_succ]; exact pow_le_pow_right₀ (by norm_num) (by omega)
      have m5 : (2 : ℤ) ^ c.n * 2 ≤ 2 ^ (2 * c.n) := by
        rw [← pow_succ]; exact pow_le_pow_right₀ (by norm_num) (by omega)
      have m6 : (2 : ℤ) ^ (mb + 1) = 2 ^ mb * 2 := pow_succ _ _
      linarith
  have hbl : c.bases.length = c.k := by rw [hc.bases]; simp
  have r1' := ((r1.mono x2).mono x3).mono x4
  have r2' := ((r2.mono x2).mono x3).mono x4
  refine Cmp.bind (innerProduct_cmp (QsConT.existing r1') (QsConT.constants c.bases) (by simp [hqsl, hbl])) fun qn s5 x5 hqn => ?_
  refine Cmp.bind ((innerProduct_cmp (QsConT.existing (r2'.mono x5)) (QsConT.constants c.bases) (by simp [hosl, hbl])).withRun
    (innerProduct_last _ _ (by simp [hosl, hbl]))) fun on s6 x6 ⟨hon, hlst⟩ => ?_
  rw [hqv, dot_bases_int zs hzsl hc.bases, hzs, sgnLimbs_val hq1] at hqn
  rw [dot_bases ds hdsl hc.bases, hds, ofDigits_limbsOf _ _ _ hobig] at hon
  have hnat : Con ext s6 a.native (A : ZMod p) := by
    have h1 := (ha.mono x1).mono x2 |>.mono x3 |>.mono x4 |>.mono x5 |>.mono x6
    have h2 := h1.native
    unfold AvW at h2
    obtain ⟨_, -, -, -, h3⟩ := h1.ok
    rwa [h3] at h2
  refine Cmp.bind (finalRegion_cmp hlst hon (hqn.mono x6) hnat ?_) fun _ s7 x7 _ => Cmp.pure ?_
  · rw [hc.native, ← Int.cast_natCast, Int.toNat_of_nonneg ho0]
    conv_rhs => rw [← hAqo]
    push_cast; ring
  have r2'' := ((r2'.mono x5).mono x6).mono x7
  refine ⟨⟨ds, hdsl, rfl, r2''.map_at, fun d hd => limbsOf_lt' hd, (ofDigits_limbsOf _ _ _ hobig).symm, (hon.mono x7).at⟩,
    r2''.w, (hon.mono x7).w, ?_⟩
  exact (Int.toNat_of_nonneg ho0).symm

end H2
