import Verif.BigInt.SoundOps

/-! # Soundness of the carry routines -/

set_option autoImplicit false
set_option linter.unusedSectionVars false
namespace H2
variable {p : ℕ} [Fact p.Prime] {tbl : ZMod p → Prop} {n k L : ℕ}

/-! ### `check_carry_to_zero` -/

theorem carries_rd {s : Ctx p} (base prev : ℤ) (as : List (AV p)) :
    Rd s (carries base prev as) (fun cs => cs.length = as.length) := by
  induction as generalizing prev with
  | nil => exact Rd.pure rfl
  | cons a as ih =>
    exact Rd.bind (unwrap_rd _) fun v _ => Rd.bind (ih _) fun r hr => Rd.pure (by simp [hr])

/-- One step of the carry chain: `a + d * base = prev` with `d` the cell three before the end. -/
theorem carryStep_snd {s : Ctx p} (a : AV p) (d base : ZMod p) (prev : QCell p) :
    Snd tbl s (do assignRegion [.existing a, .witness d, .constant base, prev] [0]; getM (-3)) (fun w r _ =>
      ∃ v, QOk w prev v ∧ at' w a + at' w r * base = v) := by
  refine (regionGet_snd _ _ (-3) (by omega) (by simp)).weaken ?_
  rintro w r _ ⟨V, hq, hg, hr⟩
  obtain ⟨h0, -, h2, h3, -⟩ := hq
  have g := hg 0 (by simp)
  simp only [gateV, zero_add] at g
  have h0 : V 0 = at' w a := h0
  have h2 : V 2 = base := h2
  have er : at' w r = V 1 := by rw [hr]; congr 1
  exact ⟨V 3, h3, by rw [er, ← g, h0, h2]⟩

theorem carryLoop_sound (hL : RangeOk p L) (rb n : ℕ) (bnd : ℤ) (prev : QCell p) (l : List (AV p × ℤ)) :
    Sound (RangeTable p L) (carryLoop L rb (2 ^ n) (2 ^ rb) prev l) (fun w _ => bnd + (2 ^ n + 1) * 2 ^ rb < p → ∀ (D0 : ℤ) (xs : List ℤ),
      (∀ v, QOk w prev v → v = (D0 : ZMod p)) → |D0| ≤ 2 ^ rb →
      (l.map Prod.fst).map (at' w) = xs.map (fun x : ℤ => (x : ZMod p)) → (∀ x ∈ xs, |x| ≤ bnd) →
      ∃ D : ℤ, limbVal n xs = D0 - 2 ^ (n * xs.length) * D) := by
  induction l generalizing prev with
  | nil =>
    refine fun s => Snd.pure ?_
    intro w _ _ D0 xs _ _ hx _
    cases xs with
    | nil => exact ⟨D0, by simp [limbVal]⟩
    | cons x xs => simp at hx
  | cons ac l ih =>
    obtain ⟨a, c⟩ := ac
    intro s
    show Snd _ s (do
      let d ← unwrap (Utils.bigintToFe p (-c))
      assignRegion [.existing a, .witness d, .constant (2 ^ n), prev] [0]
      let nc ← getM (-3)
      let sh ← add (.existing nc) (.constant (2 ^ rb))
      rangeCheck L sh (rb + 1)
      carryLoop L rb (2 ^ n) (2 ^ rb) (.existing nc) l) _
    refine Snd.rd (unwrap_rd _) fun d _ => ?_
    have key := carryStep_snd (tbl := RangeTable p L) (s := s) a d (2 ^ n) prev
    rw [← bind_assoc]
    refine Snd.bind key fun nc s1 _ => ?_
    refine Snd.bind (addc_ex nc _ s1) fun sh s2 _ => ?_
    refine Snd.bind (rangeCheck_sound sh (rb + 1) hL s2) fun _ s3 _ => ?_
    refine (ih (.existing nc) s3).weaken ?_
    rintro w _ _ hrec ⟨m, hm, hsh⟩ hsh2 ⟨v, hv, hgate⟩ hb D0 xs hprev hD0 hxs hbnd
    cases xs with
    | nil => simp at hxs
    | cons x xs =>
      simp only [List.map_cons, List.cons.injEq] at hxs
      obtain ⟨hx0, hxs⟩ := hxs
      set D1 : ℤ := (m : ℤ) - 2 ^ rb with hD1
      have hnc : at' w nc = (D1 : ZMod p) := by
        have : at' w nc = at' w sh - 2 ^ rb := by rw [hsh2]; ring
        rw [this, hsh, hD1]; push_cast; ring
      have hm' : (m : ℤ) < 2 ^ (rb + 1) := by exact_mod_cast hm
      rw [pow_succ] at hm'
      have hpos : (0 : ℤ) < 2 ^ rb := by positivity
      have hDb : |D1| ≤ 2 ^ rb := by
        rw [abs_le]; constructor
        · rw [hD1]; have : (0 : ℤ) ≤ m := Int.natCast_nonneg m; linarith
        · rw [hD1]; linarith
      have hx := hbnd x (by simp)
      have eqz : x + D1 * 2 ^ n = D0 := by
        refine intCast_eq_of_abs (p := p) ?_ ?_
        · push_cast
          rw [← hx0, ← hnc, hgate, hprev v hv]
        · have hn : (0 : ℤ) < 2 ^ n := by positivity
          have h1 : |D1 * 2 ^ n| ≤ 2 ^ rb * 2 ^ n := by
            rw [abs_mul, abs_of_pos hn]; exact mul_le_mul_of_nonneg_right hDb hn.le
          calc |x + D1 * 2 ^ n - D0| ≤ |x + D1 * 2 ^ n| + |D0| := abs_sub _ _
            _ ≤ |x| + |D1 * 2 ^ n| + |D0| := by have := abs_add_le x (D1 * 2 ^ n); linarith
            _ ≤ bnd + 2 ^ rb * 2 ^ n + 2 ^ rb := by linarith
            _ = bnd + (2 ^ n + 1) * 2 ^ rb := by ring
            _ < p := hb
      obtain ⟨D, hD⟩ := hrec hb D1 xs (fun v hv => by rw [show v = _ from hv, hnc]) hDb hxs (fun y hy => hbnd y (by simp [hy]))
      refine ⟨D, ?_⟩
      rw [limbVal, hD, List.length_cons, Nat.mul_succ, Nat.add_comm (n * _), pow_add, ← eqz]; ring

/-- If the limbs are at most `bnd` in absolute value and the chain cannot wrap around `p`, the integer is divisible by
`2 ^ (n k)`. -/
theorem checkCarryToZero_sound (hL : RangeOk p L) (a : OvInt p) (n : ℕ) (bnd : ℤ) :
    Sound (RangeTable p L) (checkCarryToZero L a n (2 ^ n)) (fun w _ =>
      bnd + (2 ^ n + 1) * 2 ^ carryBits L a.maxBits n < p → ∀ xs : List ℤ,
      a.limbs.map (at' w) = xs.map (fun x : ℤ => (x : ZMod p)) → (∀ x ∈ xs, |x| ≤ bnd) →
      (2 : ℤ) ^ (n * a.limbs.length) ∣ limbVal n xs) := by
  intro s
  refine Snd.rd (carries_rd _ _ _) fun cs hcs => ?_
  refine Snd.rd (Q := fun _ => True) ?_ fun _ _ => ?_
  · unfold subU
    exact Rd.ite (fun _ => Rd.pure trivial) fun _ => Rd.panic
  refine Snd.rd (pow2At_rd _) fun shift hsh => ?_
  obtain ⟨-, rfl⟩ := hsh
  refine (carryLoop_sound hL _ n bnd (.constant 0) _ s).weaken ?_
  intro w _ _ h hb xs hxs hbnd
  have h := h hb
  have hz : (a.limbs.zip cs).map Prod.fst = a.limbs := by
    rw [List.map_fst_zip]; omega
  obtain ⟨D, hD⟩ := h 0 xs (fun v hv => by rw [show v = _ from hv]; simp) (by simp) (by rw [hz]; exact hxs) hbnd
  have hl : a.limbs.length = xs.length := by simpa using congrArg List.length hxs
  refine ⟨-D, ?_⟩
  rw [hD, hl]; ring

/-! ### the last assigned cell -/

/-- `r` is the cell assigned last in `s`. -/
def IsLast (s : Ctx p) (r : AV p) : Prop := 1 ≤ s.advice.length ∧ r.cell = some (s.cellAt (s.advice.length - 1))

theorem bindLast {α β : Type} {s : Ctx p} {m : M p α} {f : α → M p β} {g : β → AV p}
    {Q : (Cell → ZMod p) → α → Ctx p → Prop} (h : Snd tbl s m Q)
    (k : ∀ (a : α) (s1 : Ctx p), Inv s1 → ∀ r s', f a s1 = some (r, s') → IsLast s' (g r)) :
    Inv s → ∀ r s', (m >>= f) s = some (r, s') → IsLast s' (g r) := by
  intro hi r s' hr
  obtain ⟨a, s1, h1, h2⟩ := bind_some.1 hr
  exact k a s1 (h hi a s1 h1).1 r s' h2

theorem lastM_last {s : Ctx p} : Inv s → ∀ r s', (lastM : M p (AV p)) s = some (r, s') → IsLast s' r := by
  intro hi r s' h
  obtain ⟨rfl, h1, h2, -⟩ := lastM_rd (s := s) hi r s' h
  exact ⟨h1, h2⟩

theorem innerProduct_last {s : Ctx p} (a b : List (QCell p)) (hlen : a.length = b.length) :
    Inv s → ∀ r s', innerProduct a b s = some (r, s') → IsLast s' r :=
  bindLast (tbl := fun _ => True) (g := id) (innerProductSimple_snd a b hlen) fun _ _ hi r s' h => lastM_last hi r s' h

theorem ipLastCell_rd {s : Ctx p} (row len : ℕ) (one : Bool) : Rd s (ipLastCell row len one) (fun _ => True) := by
  unfold ipLastCell
  exact Rd.ite (fun _ => Rd.ite (fun _ => (getM_rd _).weaken fun _ _ => trivial) fun _ => Rd.ite (fun _ => Rd.panic)
    fun _ => (getM_rd _).weaken fun _ _ => trivial) fun _ => Rd.ite (fun _ => Rd.panic)
      fun _ => (getM_rd _).weaken fun _ _ => trivial

theorem innerProductLeftLast_last {s : Ctx p} (a b : List (QCell p)) (hlen : a.length = b.length) :
    Inv s → ∀ r s', innerProductLeftLast a b s = some (r, s') → IsLast s' r.1 := by
  unfold innerProductLeftLast
  refine bindLast (tbl := fun _ => True) (Q := fun _ _ _ => True) (g := Prod.fst)
    (show Snd _ s adviceLen _ from ?_) fun row s1 hi1 => ?_
  · intro hi r s' h
    simp only [adviceLen, Option.some.injEq, Prod.mk.injEq] at h
    obtain ⟨-, rfl⟩ := h
    exact ⟨hi, Ext.refl _, fun _ _ => trivial⟩
  · refine bindLast (tbl := fun _ => True) (g := Prod.fst) (innerProductSimple_snd a b hlen) (fun one s2 hi2 => ?_) hi1
    refine bindLast (tbl := fun _ => True) (g := Prod.fst) (ipLastCell_rd _ _ _).snd (fun al s3 hi3 => ?_) hi2
    intro r s' h
    obtain ⟨x, s4, h1, h2⟩ := bind_some.1 h
    simp only [pure_apply, Option.some.injEq, Prod.mk.injEq] at h2
    obtain ⟨rfl, rfl⟩ := h2
    exact lastM_last hi3 x _ h1

theorem IsLast.rowV {s : Ctx p} {r : AV p} (h : IsLast s r) (w : Cell → ZMod p) :
    H2.rowV w s s.advice.length (-1) = at' w r := by
  obtain ⟨h1, h2⟩ := h
  exact (rowV_of_cell h2 (by push_cast [h1]; ring)).symm

/-! ### `carry_mod` -/

theorem conv_append {R : Type} [CommRing R] (xs zs ys : List R) (i : ℕ) (h : i < xs.length) :
    conv (xs ++ zs) ys i = conv xs ys i := by
  unfold conv
  refine Finset.sum_congr rfl fun j hj => ?_
  rw [Finset.mem_range] at hj
  congr 1
  simp only [List.getD_eq_getElem?_getD, List.getElem?_append_left (show j < xs.length by omega)]

theorem QOks_quot {w : Cell → ZMod p} {qs : List (AV p)} {q : ZMod p} {xs : List (ZMod p)} {qc : AV p}
    (h : QOks w (qs.map .existing ++ [.witness q]) xs) (hl : xs.getLast? = some (at' w qc)) :
    xs = (qs ++ [qc]).map (at' w) := by
  induction qs generalizing xs with
  | nil =>
    cases h with
    | cons h1 h2 => cases h2; simpa using hl
  | cons a as ih =>
    cases h with
    | @cons _ x _ xs h1 h2 =>
      have hne : xs ≠ [] := by
        intro e; subst e; simpa using List.Forall₂.length_eq h2
      rw [List.getLast?_cons_of_ne_nil hne] at hl
      rw [ih h2 hl, show x = at' w a from h1]; rfl

theorem prod_eq {w : Cell → ZMod p} {qs : List (AV p)} {qc : AV p} {ms : List (ZMod p)} {ys : List (ZMod p)}
    (hl : qs.length + 1 ≤ ms.length) (hy : QOks w ((ms.take (qs.length + 1)).reverse.map .constant) ys) :
    dot ((qs ++ [qc]).map (at' w)) ys = conv ((qs ++ [qc]).map (at' w)) ms qs.length := by
  have h := dot_conv ((qs ++ [qc]).map (at' w)) ms qs.length (by simp) (by omega)
  rw [List.take_of_length_le (l := (qs ++ [qc]).map (at' w)) (by simp)] at h
  rw [QOks_constants hy, h]

theorem cmRegion_snd {s : Ctx p} {prod : AV p} (hp : IsLast s prod) (a : AV p) (x o y : ZMod p) :
    Snd tbl s (do
      assignRegion [.constant (-1), .existing a, .witness x, .constant 1, .witness o, .witness y] [-1, 2]
      let check ← lastM
      let oc ← getM (-2)
      pure (check, oc)) (fun w r _ => at' w r.1 = at' w prod - at' w a + at' w r.2) := by
  refine Snd.bind (assignRegion_snd _ _) fun _ s1 e1 => ?_
  refine Snd.rd lastM_rd fun check hc => Snd.rd (getM_rd _) fun oc ho => Snd.pure ?_
  rintro w - ⟨hl, hq, hg⟩
  simp only [List.length_cons, List.length_nil] at hl
  obtain ⟨hc1, hc2, -⟩ := hc
  obtain ⟨i, hi, -, ho, -⟩ := ho
  rw [getRow, if_pos (by norm_num)] at hi
  have e5 : at' w check = rowV w s s.advice.length 5 := by
    rw [← e1.rowV]; exact rowV_of_cell hc2 (by omega)
  have e4 : at' w oc = rowV w s s.advice.length 4 := by
    rw [← e1.rowV]; exact rowV_of_cell ho (by omega)
  have em := hp.rowV w
  generalize rowV w s s.advice.length = V at *
  have g1 := hg (-1) (by simp)
  have g2 := hg 2 (by simp)
  simp only [QsOk, QOk, and_true, true_and] at hq
  obtain ⟨q0, q1, q3⟩ := hq
  norm_num [gateV] at g1 g2 q0 q1 q3
  rw [e5, e4, ← g2, ← g1, em, q0, q1, q3]
  ring

theorem carryModLoop_sound (modLimbs : List (ZMod p)) (l : List (AV p × ZMod p × ZMod p)) (qs : List (AV p)) :
    Sound tbl (carryModLoop modLimbs l qs) (fun w r => qs.length + l.length ≤ max qs.length modLimbs.length ∧
      ∃ new, r.1 = qs ++ new ∧ new.length = l.length ∧ r.2.1.length = l.length ∧
      r.2.2.map (at' w) = (List.range l.length).map (fun i => conv (r.1.map (at' w)) modLimbs (qs.length + i)
        - (l.map (fun e => at' w e.1)).getD i 0 + (r.2.1.map (at' w)).getD i 0)) := by
  induction l generalizing qs with
  | nil => exact fun s => Snd.pure fun w _ => ⟨by simp, [], by simp, rfl, rfl, rfl⟩
  | cons e l ih =>
    obtain ⟨a, q, o⟩ := e
    intro s
    refine Snd.rd (sliceTo_rd _ _) fun ms hms => ?_
    obtain ⟨hml, rfl⟩ := hms
    have hlen : (qs.map .existing ++ [.witness q] : List (QCell p)).length =
        ((modLimbs.take (qs.length + 1)).reverse.map (.constant : ZMod p → QCell p)).length := by simp; omega
    refine Snd.bindP (innerProductLeftLast_sound _ _ hlen s) (innerProductLeftLast_last _ _ hlen) fun pq s1 _ hlast => ?_
    obtain ⟨prod, qc⟩ := pq
    refine Snd.unwrap fun pv _ => Snd.unwrap fun av _ => ?_
    have key := cmRegion_snd (tbl := tbl) hlast a (pv - av) o (pv - av + o)
    show Snd tbl s1 (do
      assignRegion [.constant (-1), .existing a, .witness (pv - av), .constant 1, .witness o, .witness (pv - av + o)] [-1, 2]
      let check ← lastM
      let oc ← getM (-2)
      let (qs', os, cs) ← carryModLoop modLimbs l (qs ++ [qc])
      pure (qs', oc :: os, check :: cs)) _
    have e : (do
      assignRegion [.constant (-1), .existing a, .witness (pv - av), .constant 1, .witness o, .witness (pv - av + o)] [-1, 2]
      let check ← lastM
      let oc ← getM (-2)
      let (qs', os, cs) ← carryModLoop modLimbs l (qs ++ [qc])
      pure (qs', oc :: os, check :: cs)) = ((do
      assignRegion [.constant (-1), .existing a, .witness (pv - av), .constant 1, .witness o, .witness (pv - av + o)] [-1, 2]
      let check ← lastM
      let oc ← getM (-2)
      pure (check, oc)) >>= fun co : AV p × AV p => do
        let (qs', os, cs) ← carryModLoop modLimbs l (qs ++ [qc])
        pure (qs', co.2 :: os, co.1 :: cs)) := by simp only [bind_assoc, pure_bind]
    rw [e]
    refine Snd.bind key fun co s2 _ => ?_
    obtain ⟨check, oc⟩ := co
    refine Snd.bind (ih (qs ++ [qc]) s2) fun r s3 _ => ?_
    obtain ⟨qs', os, cs⟩ := r
    refine Snd.pure ?_
    rintro w - ⟨hle, new, h1, h2, h3, h4⟩ hco ⟨xs, ys, hx, hy, hp, hlst⟩
    dsimp only at h1 h2 h3 h4 hco hp hlst ⊢
    have hxs := QOks_quot hx hlst
    subst hxs
    rw [prod_eq hml hy] at hp
    refine ⟨by rw [List.length_append, List.length_singleton] at hle; simp only [List.length_cons]; omega,
      qc :: new, by rw [h1]; simp, by simp [h2], by simp [h3], ?_⟩
    rw [List.map_cons, h4, List.length_cons, List.range_succ_eq_map, List.map_cons, List.map_map]
    refine List.cons_eq_cons.2 ⟨?_, ?_⟩
    · have hc := conv_append ((qs ++ [qc]).map (at' w)) (new.map (at' w)) modLimbs qs.length (by simp)
      rw [← List.map_append, ← h1] at hc
      rw [hco, hp, ← hc]
      simp
    · refine List.map_congr_left fun i _ => ?_
      simp only [Function.comp, Nat.succ_eq_add_one, List.map_cons, List.getD_cons_succ, List.length_append,
        List.length_singleton]
      rw [show qs.length + 1 + i = qs.length + (i + 1) by ring]

end H2
