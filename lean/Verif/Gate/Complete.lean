import Verif.Gate.Model
import Verif.Core.Complete
import Mathlib.Tactic.NormNum
import Mathlib.Tactic.FieldSimp

/-! # Completeness of the arithmetic gate routines -/

set_option autoImplicit false
namespace H2
variable {p : ℕ} [Fact p.Prime] {tbl : ZMod p → Prop} {ext : Cell → ZMod p} {s : Ctx p}

/-- Build `QsCon` for explicit lists. -/
theorem QsCon.cons {q : QCell p} {v : ZMod p} {qs : List (QCell p)} {vs : List (ZMod p)}
    (h : QConF ext s q v) (k : QsCon ext s qs vs) : QsCon ext s (q :: qs) (v :: vs) :=
  List.Forall₂.cons h k

theorem QsCon.nil : QsCon ext s [] [] := List.Forall₂.nil

theorem QsCon.append {qs qs' : List (QCell p)} {vs vs' : List (ZMod p)}
    (h : QsCon ext s qs vs) (k : QsCon ext s qs' vs') : QsCon ext s (qs ++ qs') (vs ++ vs') :=
  List.rel_append h k

/-- Reading an assigned value at a row written as `Trivial x`. -/
theorem getM_con {o : ℤ} {i : ℕ} {x : ZMod p}
    (hi : (i : ℤ) = (if o < 0 then (s.advice.length : ℤ) + o else o))
    (hv : s.advice[i]? = some (.trivial x)) :
    Cmp tbl ext s (getM o) (fun r s' => s' = s ∧ Con ext s' r x) := by
  refine (getM_cmp hi hv).weaken ?_
  rintro r s' ⟨rfl, rfl⟩
  exact ⟨rfl, con_cellAt hv rfl rfl⟩

/-- `assign_region` then `get(o)` with a negative offset inside the region. -/
theorem regionGet_cmp {qs : List (QCell p)} {gs : List ℤ} (vs : List (ZMod p)) {x : ZMod p} {o : ℤ}
    (j : ℕ) (hq : QsCon ext s qs vs) (hgate : ∀ o ∈ gs, GateL vs o)
    (hj : (j : ℤ) = qs.length + o) (ho : o < 0)
    (hx : qs[j]?.map QCell.assigned = some (.trivial x)) :
    Cmp tbl ext s (do assignRegion qs gs; getM o) (fun r s' => Con ext s' r x) := by
  refine Cmp.bind (assignRegion_cmp vs hq hgate) fun _ s1 e1 h1 => ?_
  refine (getM_con (i := s.advice.length + j) (x := x) ?_ ?_).weaken fun _ _ h => h.2
  · rw [if_pos ho, h1]; simp; omega
  · rw [h1, List.getElem?_append_right (by omega), Nat.add_sub_cancel_left, List.getElem?_map]
    exact hx

theorem assignRegionSmart_cmp {qs : List (QCell p)} {gs : List ℤ} {eo : List (ℕ × ℕ)}
    (vs : List (ZMod p)) (hq : QsCon ext s qs vs) (hgate : ∀ o ∈ gs, GateL vs o)
    (he : ∀ e ∈ eo, e.1 < vs.length ∧ e.2 < vs.length ∧ vs.getD e.1 0 = vs.getD e.2 0) :
    Cmp tbl ext s (assignRegionSmart qs gs eo [])
      (fun _ s' => s'.advice = s.advice ++ qs.map QCell.assigned) := by
  intro hg
  have key : Cmp tbl ext s (do assignRegion qs gs; if false then Pure.pure () else smartEqs s.advice.length eo [])
      (fun _ s' => s'.advice = s.advice ++ qs.map QCell.assigned) := by
    refine Cmp.bind (assignRegion_cmp vs hq hgate) fun _ s1 e1 h1 => ?_
    have hv : ∀ j, valAt s1 (s.advice.length + j) = vs.getD j 0 := by
      intro j
      rw [valAt, h1, List.getElem?_append_right (by omega), Nat.add_sub_cancel_left, ← hq.evals,
        List.getD_eq_getElem?_getD, List.getElem?_map (f := Assigned.eval)]
    refine (smartEqs_cmp ?_ (by simp)).weaken fun _ _ h => h.trans h1
    intro e h
    obtain ⟨k1, k2, k3⟩ := he e h
    refine ⟨?_, ?_, by rw [hv, hv, k3]⟩ <;> simp [h1, hq.length] <;> omega
  have h := key hg
  simp only [assignRegionSmart, hg.inv.wgo]
  exact h

theorem regionSmartGet_cmp {qs : List (QCell p)} {gs : List ℤ} {eo : List (ℕ × ℕ)}
    (vs : List (ZMod p)) {x : ZMod p} {o : ℤ} (j : ℕ) (hq : QsCon ext s qs vs)
    (hgate : ∀ o ∈ gs, GateL vs o)
    (he : ∀ e ∈ eo, e.1 < vs.length ∧ e.2 < vs.length ∧ vs.getD e.1 0 = vs.getD e.2 0)
    (hj : (j : ℤ) = qs.length + o) (ho : o < 0)
    (hx : qs[j]?.map QCell.assigned = some (.trivial x)) :
    Cmp tbl ext s (do assignRegionSmart qs gs eo []; getM o) (fun r s' => Con ext s' r x) := by
  refine Cmp.bind (assignRegionSmart_cmp vs hq hgate he) fun _ s1 e1 h1 => ?_
  refine (getM_con (i := s.advice.length + j) (x := x) ?_ ?_).weaken fun _ _ h => h.2
  · rw [if_pos ho, h1]; simp; omega
  · rw [h1, List.getElem?_append_right (by omega), Nat.add_sub_cancel_left, List.getElem?_map]
    exact hx

theorem regionSmartLast_cmp {qs : List (QCell p)} {gs : List ℤ} {eo : List (ℕ × ℕ)}
    (vs : List (ZMod p)) {x : ZMod p} (hq : QsCon ext s qs vs)
    (hgate : ∀ o ∈ gs, GateL vs o)
    (he : ∀ e ∈ eo, e.1 < vs.length ∧ e.2 < vs.length ∧ vs.getD e.1 0 = vs.getD e.2 0)
    (hx : qs.getLast?.map QCell.assigned = some (.trivial x)) :
    Cmp tbl ext s (do assignRegionSmart qs gs eo []; lastM) (fun r s' => Con ext s' r x) := by
  refine Cmp.bind (assignRegionSmart_cmp vs hq hgate he) fun _ s1 e1 h1 => ?_
  rw [Option.map_eq_some_iff] at hx
  obtain ⟨q, hq1, hq2⟩ := hx
  obtain ⟨qs', rfl⟩ : ∃ l, qs = l ++ [q] := by
    have := List.dropLast_append_getLast? q (by simpa using hq1)
    exact ⟨_, this.symm⟩
  refine (lastM_cmp (l := s.advice ++ qs'.map QCell.assigned) (a := .trivial x)
    (by simp [h1, hq2])).weaken ?_
  rintro r s2 ⟨rfl, h2, h3⟩
  refine con_cellAt ?_ h2 h3
  rw [h1, List.map_append, ← List.append_assoc, List.getElem?_append_right (le_refl _)]
  simp [hq2]

theorem qcon_witness (x : ZMod p) : QConF ext s (.witness x) x := rfl
theorem qcon_constant (x : ZMod p) : QConF ext s (.constant x) x := rfl

variable {a b c : QCell p} {x y z : ZMod p}

theorem add_cmp (ha : QCon ext s a x) (hb : QCon ext s b y) :
    Cmp tbl ext s (add a b) (fun r s' => Con ext s' r (x + y)) := by
  refine Cmp.unwrap ha.val (Cmp.unwrap hb.val ?_)
  refine assignRegionLast_cmp [x, y, 1, x + y]
    (.cons ha.qConF (.cons hb.qConF (.cons rfl (.cons rfl .nil)))) ?_ rfl
  simp [GateL]

theorem inc_cmp (ha : QCon ext s a x) :
    Cmp tbl ext s (inc a) (fun r s' => Con ext s' r (x + 1)) := add_cmp ha rfl

theorem sub_cmp (ha : QCon ext s a x) (hb : QCon ext s b y) :
    Cmp tbl ext s (sub a b) (fun r s' => Con ext s' r (x - y)) := by
  refine Cmp.unwrap ha.val (Cmp.unwrap hb.val ?_)
  refine regionGet_cmp [x - y, y, 1, x] 0
    (.cons rfl (.cons hb.qConF (.cons rfl (.cons ha.qConF .nil)))) ?_ (by simp) (by simp) rfl
  simp [GateL]

theorem dec_cmp (ha : QCon ext s a x) :
    Cmp tbl ext s (dec a) (fun r s' => Con ext s' r (x - 1)) := sub_cmp ha rfl

theorem subMul_cmp (ha : QCon ext s a x) (hb : QCon ext s b y) (hc : QCon ext s c z) :
    Cmp tbl ext s (subMul a b c) (fun r s' => Con ext s' r (x - y * z)) := by
  refine Cmp.unwrap ha.val (Cmp.unwrap hb.val (Cmp.unwrap hc.val ?_))
  simp only [assignRegionLast, bind_assoc]
  refine Cmp.bind (assignRegion_cmp [x - y * z, y, z, x]
    (.cons rfl (.cons hb.qConF (.cons hc.qConF (.cons ha.qConF .nil)))) (by simp [GateL]))
    fun _ s1 e1 h1 => ?_
  refine Cmp.bind (lastM_cmp (l := s.advice ++ [.trivial (x - y * z), b.assigned, c.assigned])
    (a := a.assigned) (by rw [h1]; simp [QCell.assigned])) fun _ s2 e2 h2 => ?_
  obtain ⟨rfl, -, -⟩ := h2
  refine (getM_con (i := s.advice.length) (x := x - y * z) ?_ ?_).weaken fun _ _ h => h.2
  · rw [h1]; simp
  · rw [h1]; simp [QCell.assigned]

theorem neg_cmp (ha : QCon ext s a x) :
    Cmp tbl ext s (neg a) (fun r s' => Con ext s' r (-x)) := by
  refine Cmp.unwrap ha.val ?_
  refine regionGet_cmp [x, -x, 1, 0] 1
    (.cons ha.qConF (.cons rfl (.cons rfl (.cons rfl .nil)))) ?_ (by simp) (by simp) rfl
  simp [GateL]

theorem mul_cmp (ha : QCon ext s a x) (hb : QCon ext s b y) :
    Cmp tbl ext s (mul a b) (fun r s' => Con ext s' r (x * y)) := by
  refine Cmp.unwrap ha.val (Cmp.unwrap hb.val ?_)
  refine assignRegionLast_cmp [0, x, y, x * y]
    (.cons rfl (.cons ha.qConF (.cons hb.qConF (.cons rfl .nil)))) ?_ rfl
  simp [GateL]

theorem and_cmp (ha : QCon ext s a x) (hb : QCon ext s b y) :
    Cmp tbl ext s (and a b) (fun r s' => Con ext s' r (x * y)) := mul_cmp ha hb

theorem mulAdd_cmp (ha : QCon ext s a x) (hb : QCon ext s b y) (hc : QCon ext s c z) :
    Cmp tbl ext s (mulAdd a b c) (fun r s' => Con ext s' r (x * y + z)) := by
  refine Cmp.unwrap ha.val (Cmp.unwrap hb.val (Cmp.unwrap hc.val ?_))
  refine assignRegionLast_cmp [z, x, y, x * y + z]
    (.cons hc.qConF (.cons ha.qConF (.cons hb.qConF (.cons rfl .nil)))) ?_ rfl
  simp [GateL, add_comm]

theorem mulNot_cmp (ha : QCon ext s a x) (hb : QCon ext s b y) :
    Cmp tbl ext s (mulNot a b) (fun r s' => Con ext s' r ((1 - x) * y)) := by
  refine Cmp.unwrap ha.val (Cmp.unwrap hb.val ?_)
  refine regionSmartGet_cmp [(1 - x) * y, x, y, y] 0
    (.cons rfl (.cons ha.qConF (.cons hb.qConF (.cons hb.qConF .nil)))) ?_ ?_ (by simp) (by simp) rfl
  · simp [GateL]; ring
  · simp

theorem assertBit_cmp {a : AV p} (ha : Con ext s a x) (hx : x = 0 ∨ x = 1) :
    Cmp tbl ext s (assertBit a) (fun _ _ => True) := by
  refine Cmp.weaken (m := assertBit a) (Q := fun _ s' => s'.advice = s.advice ++
    [QCell.constant 0, .existing a, .existing a, .existing a].map QCell.assigned) ?_
    fun _ _ _ => trivial
  refine assignRegion_cmp [0, x, x, x]
    (.cons rfl (.cons ha.conF (.cons ha.conF (.cons ha.conF .nil)))) ?_
  rcases hx with rfl | rfl <;> simp [GateL]

theorem divUnsafe_cmp (ha : QCon ext s a x) (hb : QCon ext s b y) (hy : y ≠ 0) :
    Cmp tbl ext s (divUnsafe a b) (fun r s' => Con ext s' r (x / y)) := by
  refine Cmp.unwrap hb.val ?_
  have : (invertUnwrap y : M p _) = pure y⁻¹ := by simp [invertUnwrap, hy]
  rw [this, pure_bind]
  refine Cmp.unwrap ha.val ?_
  rw [div_eq_inv_mul]
  refine regionGet_cmp [0, y⁻¹ * x, y, x] 1
    (.cons rfl (.cons rfl (.cons hb.qConF (.cons ha.qConF .nil)))) ?_ (by simp) (by simp) rfl
  simp [GateL]; field_simp

theorem or_cmp (ha : QCon ext s a x) (hb : QCon ext s b y) :
    Cmp tbl ext s (or a b) (fun r s' => Con ext s' r (x + y - x * y)) := by
  refine Cmp.unwrap hb.val (Cmp.unwrap ha.val ?_)
  refine regionSmartLast_cmp [1 - y, 1, y, 1, y, x, 1 - y, x + y - x * y]
    (.cons rfl (.cons rfl (.cons hb.qConF (.cons rfl (.cons hb.qConF (.cons ha.qConF
      (.cons rfl (.cons rfl .nil)))))))) ?_ ?_ rfl
  · simp [GateL]; ring
  · simp

theorem xor_cmp (ha : QCon ext s a x) (hb : QCon ext s b y) :
    Cmp tbl ext s (xor a b) (fun r s' => Con ext s' r (x + y - 2 * x * y)) := by
  refine Cmp.unwrap hb.val (Cmp.unwrap ha.val ?_)
  refine regionSmartLast_cmp [1 - 2 * y, 2, y, 1, y, x, 1 - 2 * y, x + y - 2 * x * y]
    (.cons rfl (.cons rfl (.cons hb.qConF (.cons rfl (.cons hb.qConF (.cons ha.qConF
      (.cons rfl (.cons rfl .nil)))))))) ?_ ?_ rfl
  · simp [GateL]; ring
  · simp

theorem not_cmp (ha : QCon ext s a x) :
    Cmp tbl ext s (not a) (fun r s' => Con ext s' r (1 - x)) := sub_cmp rfl ha

theorem select_cmp (ha : QCon ext s a x) (hb : QCon ext s b y) (hc : QCon ext s c z) :
    Cmp tbl ext s (select a b c) (fun r s' => Con ext s' r ((x - y) * z + y)) := by
  refine Cmp.unwrap ha.val (Cmp.unwrap hb.val (Cmp.unwrap hc.val ?_))
  refine regionSmartLast_cmp [x - y, 1, y, x, y, z, x - y, (x - y) * z + y]
    (.cons rfl (.cons rfl (.cons hb.qConF (.cons ha.qConF (.cons hb.qConF (.cons hc.qConF
      (.cons rfl (.cons rfl .nil)))))))) ?_ ?_ rfl
  · simp [GateL]; ring
  · simp

theorem orAnd_cmp (ha : QCon ext s a x) (hb : QCon ext s b y) (hc : QCon ext s c z) :
    Cmp tbl ext s (orAnd a b c) (fun r s' => Con ext s' r (y * z + x - y * z * x)) := by
  refine Cmp.unwrap hb.val (Cmp.unwrap hc.val (Cmp.unwrap ha.val ?_))
  refine regionSmartGet_cmp
    [1 - y * z, y, z, 1, x - 1, 1 - y * z, y * z + x - y * z * x, x - 1, 1, 1, x] 6
    (.cons rfl (.cons hb.qConF (.cons hc.qConF (.cons rfl (.cons rfl (.cons rfl (.cons rfl
      (.cons rfl (.cons rfl (.cons rfl (.cons ha.qConF .nil))))))))))) ?_ ?_ (by simp) (by simp) rfl
  · simp [GateL]; ring
  · simp

theorem isZeroWitness_eval (x : ZMod p) :
    (isZeroWitness x).1 = (if x = 0 then 1 else 0) ∧
    (isZeroWitness x).1 + x * (isZeroWitness x).2.eval = 1 ∧ x * (isZeroWitness x).1 = 0 := by
  unfold isZeroWitness
  split <;> simp_all [Assigned.eval]

theorem isZero_cmp {a : AV p} (ha : Con ext s a x) :
    Cmp tbl ext s (isZero a) (fun r s' => Con ext s' r (if x = 0 then 1 else 0)) := by
  refine Cmp.unwrap ha.val ?_
  obtain ⟨h1, h2, h3⟩ := isZeroWitness_eval x
  rw [← h1]
  refine regionSmartGet_cmp
    [(isZeroWitness x).1, x, (isZeroWitness x).2.eval, 1, 0, x, (isZeroWitness x).1, 0] 6
    (.cons rfl (.cons ha.conF (.cons rfl (.cons rfl (.cons rfl (.cons ha.conF (.cons rfl
      (.cons rfl .nil)))))))) ?_ ?_ (by simp) (by simp) rfl
  · have := mul_eq_zero.1 h3
    simp [GateL, h2, this]
  · simp

theorem isEqual_cmp (ha : QCon ext s a x) (hb : QCon ext s b y) :
    Cmp tbl ext s (isEqual a b) (fun r s' => Con ext s' r (if x = y then 1 else 0)) := by
  refine Cmp.bind (sub_cmp ha hb) fun d s1 _ h1 => ?_
  refine (isZero_cmp h1).weaken fun r s' h => ?_
  simpa only [sub_eq_zero] using h

end H2
