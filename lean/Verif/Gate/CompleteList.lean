import Verif.Gate.Complete
import Verif.Gate.SoundList

/-! # Completeness of sums and inner products, for every length -/

set_option autoImplicit false
namespace H2
variable {p : ℕ} [Fact p.Prime] {tbl : ZMod p → Prop} {ext : Cell → ZMod p} {s : Ctx p}

/-- Quantum cells (no fractions) evaluating to `vs`. -/
def QsConT (ext : Cell → ZMod p) (s : Ctx p) (qs : List (QCell p)) (vs : List (ZMod p)) : Prop :=
  List.Forall₂ (QCon ext s) qs vs

theorem QsConT.mono {qs : List (QCell p)} {vs : List (ZMod p)} {s s' : Ctx p} (h : QsConT ext s qs vs)
    (e : Ext s s') : QsConT ext s' qs vs :=
  List.Forall₂.imp (fun _ _ hq => hq.mono e) h

theorem QsConT.length {qs : List (QCell p)} {vs : List (ZMod p)} (h : QsConT ext s qs vs) :
    qs.length = vs.length := List.Forall₂.length_eq h

theorem QsConT.qsCon {qs : List (QCell p)} {vs : List (ZMod p)} (h : QsConT ext s qs vs) :
    QsCon ext s qs vs := List.Forall₂.imp (fun _ _ hq => hq.qConF) h

theorem QCon.assigned {q : QCell p} {x : ZMod p} (h : QCon ext s q x) : q.assigned = .trivial x := by
  cases q
  · exact h.1
  · exact congrArg _ h
  · exact h.elim
  · exact congrArg _ h

theorem QsConT.assigned {qs : List (QCell p)} {vs : List (ZMod p)} (h : QsConT ext s qs vs) :
    qs.map QCell.assigned = vs.map .trivial := by
  induction h with
  | nil => rfl
  | cons h1 _ ih => simp only [List.map_cons, ih, h1.assigned]

theorem QsConT.existing {as : List (AV p)} {xs : List (ZMod p)} (h : AvsCon ext s as xs) :
    QsConT ext s (as.map .existing) xs := by
  induction h with
  | nil => exact .nil
  | cons h1 _ ih => exact .cons h1 ih

theorem QsConT.constants (xs : List (ZMod p)) : QsConT ext s (xs.map .constant) xs := by
  induction xs with
  | nil => exact .nil
  | cons x xs ih => exact .cons rfl ih

theorem QsConT.witnesses (xs : List (ZMod p)) : QsConT ext s (xs.map .witness) xs := by
  induction xs with
  | nil => exact .nil
  | cons x xs ih => exact .cons rfl ih

theorem region_cmpT {qs : List (QCell p)} {gs : List ℤ} {vs : List (ZMod p)}
    (hq : QsConT ext s qs vs) (hgate : ∀ o ∈ gs, GateL vs o) :
    Cmp tbl ext s (assignRegion qs gs)
      (fun _ s' => s'.advice = s.advice ++ vs.map .trivial) :=
  (assignRegion_cmp vs hq.qsCon hgate).weaken fun _ _ h => by rw [h, hq.assigned]

theorem regionLast_cmpT {qs : List (QCell p)} {gs : List ℤ} {vs : List (ZMod p)} {x : ZMod p}
    (hq : QsConT ext s qs vs) (hgate : ∀ o ∈ gs, GateL vs o) (hx : vs.getLast? = some x) :
    Cmp tbl ext s (assignRegionLast qs gs) (fun r s' => Con ext s' r x) := by
  refine assignRegionLast_cmp vs hq.qsCon hgate ?_
  rw [← List.getLast?_map, hq.assigned, List.getLast?_map, hx]
  rfl

/-- `lastM` when the last row is trivial. -/
theorem lastM_con {vs : List (ZMod p)} {l : List (Assigned p)} {x : ZMod p}
    (h : s.advice = l ++ vs.map .trivial) (hx : vs.getLast? = some x) :
    Cmp tbl ext s lastM (fun r s' => s' = s ∧ Con ext s' r x) := by
  obtain ⟨l', rfl⟩ : ∃ l', vs = l' ++ [x] :=
    ⟨_, (List.dropLast_append_getLast? x (by simpa using hx)).symm⟩
  refine (lastM_cmp (l := l ++ l'.map .trivial) (a := .trivial x) (by simp [h])).weaken ?_
  rintro r s' ⟨rfl, h2, h3⟩
  exact ⟨rfl, con_cellAt (by rw [h]; simp) h2 h3⟩

theorem getsM_cmp {os : List ℤ} {xs : List (ZMod p)}
    (h : List.Forall₂ (fun o x => ∃ i : ℕ, (i : ℤ) = getRow s.advice.length o ∧
      s.advice[i]? = some (.trivial x)) os xs) :
    Cmp tbl ext s (getsM os) (fun rs s' => s' = s ∧ AvsCon ext s rs xs) := by
  induction h with
  | nil => exact Cmp.pure ⟨rfl, .nil⟩
  | cons h1 _ ih =>
    obtain ⟨i, hi, hv⟩ := h1
    refine Cmp.bind (getM_con hi hv) fun a s1 _ ⟨e, ha⟩ => ?_
    subst e
    refine Cmp.bind ih fun as s2 _ ⟨e, has⟩ => ?_
    subst e
    exact Cmp.pure ⟨rfl, .cons ha has⟩

/-- Values of a chain `(x, y, sum)*`. -/
def chainVals (v : ZMod p) : List (ZMod p × ZMod p) → List (ZMod p)
  | [] => []
  | (x, y) :: zs => x :: y :: (v + x * y) :: chainVals (v + x * y) zs

theorem chainVals_length (v : ZMod p) (zs : List (ZMod p × ZMod p)) :
    (chainVals v zs).length = 3 * zs.length := by
  induction zs generalizing v with
  | nil => rfl
  | cons z zs ih => simp only [chainVals, List.length_cons, ih]; omega

theorem chainVals_x (v : ZMod p) (zs : List (ZMod p × ZMod p)) (i : ℕ) :
    (v :: chainVals v zs)[3 * i + 1]? = (zs[i]?).map Prod.fst := by
  induction zs generalizing v i with
  | nil => simp [chainVals]
  | cons z zs ih =>
    obtain ⟨x, y⟩ := z
    cases i with
    | zero => simp [chainVals]
    | succ i =>
      have := ih (v + x * y) i
      simp only [chainVals, List.getElem?_cons_succ] at this ⊢
      rw [← this, show 3 * (i + 1) = 3 * i + 1 + 1 + 1 by ring]
      simp

theorem chainVals_y (v : ZMod p) (zs : List (ZMod p × ZMod p)) (i : ℕ) :
    (v :: chainVals v zs)[3 * i + 2]? = (zs[i]?).map Prod.snd := by
  induction zs generalizing v i with
  | nil => simp [chainVals]
  | cons z zs ih =>
    obtain ⟨x, y⟩ := z
    cases i with
    | zero => simp [chainVals]
    | succ i =>
      have := ih (v + x * y) i
      simp only [chainVals, List.getElem?_cons_succ] at this ⊢
      rw [← this, show 3 * (i + 1) = 3 * i + 1 + 1 + 1 by ring]
      simp

theorem chainVals_sum (v : ZMod p) (zs : List (ZMod p × ZMod p)) (i : ℕ) (hi : i ≤ zs.length) :
    (v :: chainVals v zs)[3 * i]? = some (v + ((zs.take i).map (fun z => z.1 * z.2)).sum) := by
  induction zs generalizing v i with
  | nil => simp at hi; subst hi; simp
  | cons z zs ih =>
    obtain ⟨x, y⟩ := z
    cases i with
    | zero => simp
    | succ i =>
      have := ih (v + x * y) i (by simpa using hi)
      rw [show 3 * (i + 1) = 3 * i + 1 + 1 + 1 by ring]
      simp only [chainVals, List.getElem?_cons_succ, this, List.take_succ_cons, List.map_cons,
        List.sum_cons]
      congr 1; ring

omit [Fact p.Prime] in
theorem zip_take {α β : Type} (n : ℕ) (xs : List α) (ys : List β) :
    (xs.zip ys).take n = (xs.take n).zip (ys.take n) := by
  induction n generalizing xs ys with
  | zero => simp
  | succ n ih => cases xs <;> cases ys <;> simp [ih]

theorem dot_zip (xs ys : List (ZMod p)) : dot xs ys = ((xs.zip ys).map (fun z => z.1 * z.2)).sum := by
  induction xs generalizing ys with
  | nil => simp
  | cons x xs ih => cases ys with
    | nil => simp
    | cons y ys => simp [ih]

theorem chainVals_gate (v : ZMod p) (zs : List (ZMod p × ZMod p)) :
    ∀ o ∈ offs3 zs.length, GateL (v :: chainVals v zs) o := by
  intro o ho
  obtain ⟨i, hi, rfl⟩ := mem_offs3.1 ho
  have e : (3 * (i : ℤ)).toNat = 3 * i := by omega
  refine ⟨by omega, ?_, ?_⟩
  · rw [e, List.length_cons, chainVals_length]; omega
  · rw [e]
    simp only [List.getD_eq_getElem?_getD]
    rw [chainVals_sum v zs i (by omega), chainVals_x, chainVals_y,
      show 3 * i + 3 = 3 * (i + 1) by ring, chainVals_sum v zs (i + 1) (by omega),
      List.getElem?_eq_getElem hi, List.take_succ_eq_append_getElem hi]
    simp only [Option.map_some, Option.getD_some, List.map_append, List.sum_append, List.map_cons,
      List.map_nil, List.sum_cons, List.sum_nil, add_zero, add_assoc]

/-- Pairs of quantum cells evaluating to pairs of values. -/
def PsCon (ext : Cell → ZMod p) (s : Ctx p) (l : List (QCell p × QCell p))
    (zs : List (ZMod p × ZMod p)) : Prop :=
  List.Forall₂ (fun ab xy => QCon ext s ab.1 xy.1 ∧ QCon ext s ab.2 xy.2) l zs

theorem PsCon.zip {a b : List (QCell p)} {xs ys : List (ZMod p)} (ha : QsConT ext s a xs)
    (hb : QsConT ext s b ys) : PsCon ext s (a.zip b) (xs.zip ys) := by
  induction ha generalizing b ys with
  | nil => simp; exact .nil
  | cons h1 _ ih =>
    cases hb with
    | nil => exact .nil
    | cons h2 h3 => exact .cons ⟨h1, h2⟩ (ih h3)

/-- The cells laid out by a chain, given the values. -/
theorem ipBody_pure {l : List (QCell p × QCell p)} {zs : List (ZMod p × ZMod p)}
    (h : PsCon ext s l zs) (v : ZMod p) :
    ∃ cells, (ipBody v l : M p _) = pure cells ∧ QsConT ext s cells (chainVals v zs) := by
  induction h generalizing v with
  | nil => exact ⟨[], rfl, .nil⟩
  | @cons ab xy l zs h1 _ ih =>
    obtain ⟨a, b⟩ := ab
    obtain ⟨x, y⟩ := xy
    obtain ⟨cells, h, hc⟩ := ih (v + x * y)
    refine ⟨a :: b :: .witness (v + x * y) :: cells, ?_, .cons h1.1 (.cons h1.2 (.cons rfl hc))⟩
    have e1 : (unwrap a.val? : M p _) = pure x := by rw [h1.1.val]; rfl
    have e2 : (unwrap b.val? : M p _) = pure y := by rw [h1.2.val]; rfl
    simp only [ipBody, e1, e2, pure_bind, h]

theorem sumBody_pure {l : List (QCell p)} {xs : List (ZMod p)}
    (h : QsConT ext s l xs) (v : ZMod p) :
    ∃ cells, (sumBody v l : M p _) = pure cells ∧
      QsConT ext s cells (chainVals v (xs.map (·, 1))) := by
  induction h generalizing v with
  | nil => exact ⟨[], rfl, .nil⟩
  | @cons a x l xs h1 _ ih =>
    obtain ⟨cells, h, hc⟩ := ih (v + x)
    refine ⟨a :: .constant 1 :: .witness (v + x) :: cells, ?_,
      .cons h1 (.cons rfl (.cons ?_ ?_))⟩
    · have e1 : (unwrap a.val? : M p _) = pure x := by rw [h1.val]; rfl
      simp only [sumBody, e1, pure_bind, h]
    · show v + x = v + x * 1
      ring
    · rw [mul_one]; exact hc

theorem chainVals_last (v : ZMod p) (zs : List (ZMod p × ZMod p)) :
    (v :: chainVals v zs).getLast? = some (v + (zs.map (fun z => z.1 * z.2)).sum) := by
  rw [List.getLast?_eq_getElem?]
  have : (v :: chainVals v zs).length - 1 = 3 * zs.length := by simp [chainVals_length]
  rw [this, chainVals_sum v zs _ le_rfl, List.take_length]

theorem sum_ones (xs : List (ZMod p)) :
    ((xs.map (·, (1 : ZMod p))).map (fun z => z.1 * z.2)).sum = xs.sum := by
  simp [List.map_map, Function.comp_def]

theorem sum_cmp {l : List (QCell p)} {xs : List (ZMod p)} (h : QsConT ext s l xs) :
    Cmp tbl ext s (sum l) (fun r s' => Con ext s' r xs.sum) := by
  match l, xs, h with
  | [], _, .nil => exact loadZero_cmp
  | [a], [x], .cons h1 .nil =>
    simp only [List.sum_singleton]
    exact regionLast_cmpT (vs := [x]) (.cons h1 .nil) (by simp) rfl
  | a :: b :: l, x :: y :: xs, .cons h1 h2 =>
    unfold sum
    refine Cmp.unwrap h1.val ?_
    obtain ⟨cells, hc, hv⟩ := sumBody_pure h2 x
    rw [hc, pure_bind]
    refine regionLast_cmpT (.cons h1 hv) ?_ ?_
    · have := chainVals_gate x ((y :: xs).map (·, (1 : ZMod p)))
      rwa [List.length_map, ← QsConT.length h2] at this
    · rw [chainVals_last, sum_ones]; rfl

theorem partialSums_cmp {l : List (QCell p)} {xs : List (ZMod p)} (h : QsConT ext s l xs) :
    Cmp tbl ext s (partialSums l)
      (fun rs s' => AvsCon ext s' rs (if l = [] then [0] else psums xs)) := by
  match l, xs, h with
  | [], _, .nil =>
    refine Cmp.bind loadZero_cmp fun z s1 _ h => Cmp.pure ?_
    exact .cons h .nil
  | [a], [x], .cons h1 .nil =>
    refine Cmp.bind (regionLast_cmpT (vs := [x]) (x := x) (.cons h1 .nil) (by simp) rfl)
      fun r s1 _ h => Cmp.pure ?_
    simp only [psums]
    exact List.Forall₂.cons (by simpa using h) .nil
  | a :: b :: l, x :: y :: xs, .cons h1 h2 =>
    unfold partialSums
    refine Cmp.unwrap h1.val ?_
    obtain ⟨cells, hc, hv⟩ := sumBody_pure h2 x
    rw [hc, pure_bind]
    have hlen : (b :: l).length = (y :: xs).length := QsConT.length h2
    refine Cmp.bind (region_cmpT (.cons h1 hv) ?_) fun _ s1 e1 ha => ?_
    · have := chainVals_gate x ((y :: xs).map (·, (1 : ZMod p)))
      rwa [List.length_map, ← QsConT.length h2] at this
    · rw [if_neg (by simp)]
      refine (getsM_cmp (xs := psums (x :: y :: xs)) ?_).weaken fun rs s' h => h.1 ▸ h.2
      rw [List.forall₂_iff_get]
      have hl1 : s1.advice.length = s.advice.length + (3 * (y :: xs).length + 1) := by
        rw [ha]; simp [chainVals_length]
      refine ⟨by simp [psums] at hlen ⊢; omega, ?_⟩
      intro i hi1 hi2
      simp only [List.length_map, List.length_reverse, List.length_range] at hi1
      refine ⟨s.advice.length + 3 * i, ?_, ?_⟩
      · simp only [List.get_eq_getElem, List.getElem_map, List.getElem_reverse,
          List.getElem_range, List.length_range]
        rw [getRow, if_pos (by omega), hl1, ← hlen]
        push_cast
        omega
      · rw [ha, List.getElem?_append_right (by omega), Nat.add_sub_cancel_left, List.getElem?_map,
          chainVals_sum _ _ _ (by simp at hi1 hlen ⊢; omega), Option.map_some]
        congr 2
        simp only [psums, List.get_eq_getElem, List.getElem_map, List.getElem_range,
          List.take_succ_cons, List.sum_cons, ← List.map_take]
        rw [sum_ones]

theorem accProdLoop_cmp {x : AV p} {l : List (QCell p × QCell p)} {v : ZMod p}
    {zs : List (ZMod p × ZMod p)} (hx : Con ext s x v) (h : PsCon ext s l zs) :
    Cmp tbl ext s (accProdLoop x l) (fun rs s' => AvsCon ext s' rs (accProd v zs)) := by
  induction l generalizing x v zs s with
  | nil => cases h; exact Cmp.pure .nil
  | cons ab l ih =>
    cases h with
    | @cons _ xy _ zs h1 h2 =>
      obtain ⟨a, b⟩ := ab
      obtain ⟨u, w⟩ := xy
      refine Cmp.bind (mulAdd_cmp (a := .existing x) hx h1.1 h1.2) fun y s1 e1 hy => ?_
      refine Cmp.bind (ih hy (List.Forall₂.imp (fun _ _ h => ⟨h.1.mono e1, h.2.mono e1⟩) h2))
        fun rest s2 e2 hr => Cmp.pure ?_
      exact .cons (hy.mono e2) hr

theorem accumulatedProduct_cmp {a b : List (QCell p)} {xs ys : List (ZMod p)}
    (ha : QsConT ext s a xs) (hb : QsConT ext s b ys) :
    Cmp tbl ext s (accumulatedProduct a b) (fun rs s' => AvsCon ext s' rs (match ys with
      | [] => []
      | y0 :: ys => y0 :: accProd y0 (xs.zip ys))) := by
  cases hb with
  | nil => exact Cmp.pure .nil
  | @cons b0 y0 bs ys h1 h2 =>
    refine Cmp.bind (regionLast_cmpT (vs := [y0]) (x := y0) (.cons h1 .nil) (by simp) rfl)
      fun x s1 e1 hx => ?_
    refine Cmp.bind (accProdLoop_cmp hx (PsCon.zip (ha.mono e1) (QsConT.mono h2 e1)))
      fun rest s2 e2 hr => Cmp.pure ?_
    exact .cons (hx.mono e2) hr

/-- Values of the region laid out by `inner_product_simple`. -/
def ipVals (one : Bool) (xs ys : List (ZMod p)) : List (ZMod p) :=
  if one then xs.headD 0 :: chainVals (xs.headD 0) (xs.tail.zip ys.tail)
  else 0 :: chainVals 0 (xs.zip ys)

theorem ipVals_sum {one : Bool} {xs ys : List (ZMod p)} (hl : xs.length = ys.length)
    (hone : one = true → ys.head? = some 1) {i : ℕ} (hi : i < xs.length) :
    (ipVals one xs ys)[sumRow one i]? = some (dot (xs.take (i + 1)) (ys.take (i + 1))) := by
  unfold ipVals sumRow
  cases one with
  | false =>
    simp only [Bool.false_eq_true, if_false]
    rw [chainVals_sum _ _ _ (by simp; omega), dot_zip, zero_add, ← zip_take]
  | true =>
    simp only [if_true]
    match xs, ys with
    | [], _ => simp at hi
    | _ :: _, [] => simp at hl
    | x :: xs, y :: ys =>
      have : y = 1 := by simpa using hone rfl
      subst this
      simp only [List.headD_cons, List.tail_cons]
      rw [chainVals_sum _ _ _ (by simp at hi hl ⊢; omega), List.take_succ_cons, List.take_succ_cons,
        dot_cons, dot_zip, ← zip_take, mul_one]

theorem ipVals_x {one : Bool} {xs ys : List (ZMod p)} (hl : xs.length = ys.length)
    {i : ℕ} (hi : i < xs.length) :
    (ipVals one xs ys)[ipRow one i]? = xs[i]? := by
  unfold ipVals ipRow
  have hz : ∀ (as bs : List (ZMod p)) (j : ℕ), j < as.length → as.length ≤ bs.length →
      ((as.zip bs)[j]?).map Prod.fst = as[j]? := by
    intro as bs j h1 h2
    rw [← List.getElem?_map, zip_fst, List.take_of_length_le h2]
  cases one with
  | false =>
    simp only [Bool.false_eq_true, if_false]
    rw [Nat.add_comm 1, chainVals_x, hz _ _ _ hi (by omega)]
  | true =>
    simp only [if_true]
    match xs, ys with
    | [], _ => simp at hi
    | _ :: _, [] => simp at hl
    | x :: xs, y :: ys =>
      cases i with
      | zero => simp
      | succ i =>
        rw [if_neg (by omega), Nat.add_sub_cancel, Nat.add_comm 1, chainVals_x]
        simp only [List.tail_cons, List.getElem?_cons_succ]
        simp at hi hl
        exact hz _ _ _ hi (by omega)

theorem ipVals_length {one : Bool} {xs ys : List (ZMod p)} (hl : xs.length = ys.length)
    (hone : one = true → 1 ≤ xs.length) : (ipVals one xs ys).length = ipLen one xs.length := by
  unfold ipVals ipLen
  cases one
  · simp [chainVals_length, hl]
  · have := hone rfl
    simp [chainVals_length]
    omega

theorem ipVals_last {one : Bool} {xs ys : List (ZMod p)} (hl : xs.length = ys.length)
    (hone : one = true → ys.head? = some 1) :
    (ipVals one xs ys).getLast? = some (dot xs ys) := by
  unfold ipVals
  cases one with
  | false =>
    simp only [Bool.false_eq_true, if_false]
    rw [chainVals_last, dot_zip, zero_add]
  | true =>
    have h1 := hone rfl
    match xs, ys with
    | [], [] => simp at h1
    | [], _ :: _ => simp at hl
    | _ :: _, [] => simp at hl
    | x :: xs, y :: ys =>
      have : y = 1 := by simpa using h1
      subst this
      simp only [if_true, List.headD_cons, List.tail_cons]
      rw [chainVals_last, dot_cons, dot_zip, mul_one]

theorem innerProductSimple_cmp {a b : List (QCell p)} {xs ys : List (ZMod p)}
    (ha : QsConT ext s a xs) (hb : QsConT ext s b ys) (hlen : a.length = b.length) :
    Cmp tbl ext s (innerProductSimple a b) (fun one s' => one = startsWithOne b ∧
      (one = true → ys.head? = some 1) ∧
      s'.advice = s.advice ++ (ipVals one xs ys).map .trivial) := by
  have hl : xs.length = ys.length := by rw [← ha.length, ← hb.length, hlen]
  have hone : startsWithOne b = true → ys.head? = some 1 := by
    intro h
    obtain ⟨t, rfl⟩ := (startsWithOne_iff b).1 h
    cases hb with
    | cons h1 _ => simp [show (1 : ZMod p) = _ from h1]
  have key : ∃ cells, (ipCells a b : M p _) = pure cells ∧
      QsConT ext s cells (ipVals (startsWithOne b) xs ys) := by
    unfold ipCells ipVals
    cases h : startsWithOne b with
    | false =>
      obtain ⟨cells, hc, hv⟩ := ipBody_pure (PsCon.zip ha hb) 0
      exact ⟨.constant 0 :: cells, by simp [hc], .cons rfl hv⟩
    | true =>
      obtain ⟨t, rfl⟩ := (startsWithOne_iff b).1 h
      cases ha with
      | nil => simp at hlen
      | @cons a0 x0 as xs h1 h2 =>
        cases hb with
        | @cons _ y0 _ ys h3 h4 =>
          obtain ⟨cells, hc, hv⟩ := ipBody_pure (PsCon.zip h2 h4) x0
          refine ⟨a0 :: cells, ?_, .cons h1 hv⟩
          have e1 : (unwrap a0.val? : M p _) = pure x0 := by rw [h1.val]; rfl
          have e2 : (unwrap ((a0 :: as).head?) : M p _) = pure a0 := rfl
          simp only [if_true, e1, e2, hc, pure_bind, List.tail_cons]
  obtain ⟨cells, hc, hv⟩ := key
  have hg : ∀ o ∈ offs3 (cells.length / 3), GateL (ipVals (startsWithOne b) xs ys) o := by
    rw [hv.length]
    unfold ipVals
    cases startsWithOne b with
    | false =>
      have := chainVals_gate 0 (xs.zip ys)
      simp only [Bool.false_eq_true, if_false, List.length_cons, chainVals_length]
      rwa [show (3 * (xs.zip ys).length + 1) / 3 = (xs.zip ys).length by omega]
    | true =>
      have := chainVals_gate (xs.headD 0) (xs.tail.zip ys.tail)
      simp only [if_true, List.length_cons, chainVals_length]
      rwa [show (3 * (xs.tail.zip ys.tail).length + 1) / 3 = (xs.tail.zip ys.tail).length by omega]
  unfold innerProductSimple
  rw [hc, pure_bind]
  refine getWgo_bind_cmp ?_
  simp only [ipRegion, Bool.false_eq_true, if_false]
  refine Cmp.bind (region_cmpT hv hg) fun _ s1 _ h1 => ?_
  exact Cmp.pure ⟨rfl, hone, h1⟩

theorem innerProduct_cmp {a b : List (QCell p)} {xs ys : List (ZMod p)}
    (ha : QsConT ext s a xs) (hb : QsConT ext s b ys) (hlen : a.length = b.length) :
    Cmp tbl ext s (innerProduct a b) (fun r s' => Con ext s' r (dot xs ys)) := by
  have hl : xs.length = ys.length := by rw [← ha.length, ← hb.length, hlen]
  refine Cmp.bind (innerProductSimple_cmp ha hb hlen) fun one s1 _ ⟨_, h2, h3⟩ => ?_
  exact (lastM_con h3 (ipVals_last hl h2)).weaken fun _ _ h => h.2

/-- All the results of `inner_product_simple` in one go: used by its callers. -/
theorem ipGets_cmp {one : Bool} {xs ys : List (ZMod p)} {row : ℕ} {l : List (Assigned p)}
    (hl : xs.length = ys.length) (hrow : row = l.length)
    (h3 : s.advice = l ++ (ipVals one xs ys).map .trivial) :
    Cmp tbl ext s (getsM ((List.range xs.length).map (fun i : ℕ => ((row + ipRow one i : ℕ) : ℤ))))
      (fun rs s' => s' = s ∧ AvsCon ext s rs xs) := by
  refine getsM_cmp ?_
  rw [List.forall₂_iff_get]
  refine ⟨by simp, fun i hi1 hi2 => ⟨row + ipRow one i, ?_, ?_⟩⟩
  · simp only [List.get_eq_getElem, List.getElem_map, List.getElem_range]
    rw [getRow, if_neg (by omega)]
  · rw [h3, List.getElem?_append_right (by omega), hrow, Nat.add_sub_cancel_left, List.getElem?_map,
      ipVals_x hl (by simpa using hi1), List.getElem?_eq_getElem hi2]
    rfl

theorem adviceLen_cmp {β : Type} {f : ℕ → M p β} {R : β → Ctx p → Prop}
    (k : Cmp tbl ext s (f s.advice.length) R) : Cmp tbl ext s (adviceLen >>= f) R := k

theorem innerProductLeft_cmp {a b : List (QCell p)} {xs ys : List (ZMod p)}
    (ha : QsConT ext s a xs) (hb : QsConT ext s b ys) (hlen : a.length = b.length) :
    Cmp tbl ext s (innerProductLeft a b) (fun r s' => Con ext s' r.1 (dot xs ys) ∧
      AvsCon ext s' r.2 xs) := by
  have hl : xs.length = ys.length := by rw [← ha.length, ← hb.length, hlen]
  refine adviceLen_cmp ?_
  refine Cmp.bind (innerProductSimple_cmp ha hb hlen) fun one s1 _ ⟨_, h2, h3⟩ => ?_
  rw [ha.length]
  refine Cmp.bind (ipGets_cmp hl rfl h3) fun as s2 _ ⟨e, has⟩ => ?_
  subst e
  refine Cmp.bind (lastM_con h3 (ipVals_last hl h2)) fun r s3 _ ⟨e, hr⟩ => ?_
  subst e
  exact Cmp.pure ⟨hr, has⟩

theorem innerProductLeftLast_cmp {a b : List (QCell p)} {xs ys : List (ZMod p)} {xl : ZMod p}
    (ha : QsConT ext s a xs) (hb : QsConT ext s b ys) (hlen : a.length = b.length)
    (hxl : xs.getLast? = some xl) :
    Cmp tbl ext s (innerProductLeftLast a b) (fun r s' => Con ext s' r.1 (dot xs ys) ∧
      Con ext s' r.2 xl) := by
  have hl : xs.length = ys.length := by rw [← ha.length, ← hb.length, hlen]
  have hn : 1 ≤ xs.length := by
    cases xs with
    | nil => simp at hxl
    | cons _ _ => simp
  refine adviceLen_cmp ?_
  refine Cmp.bind (innerProductSimple_cmp ha hb hlen) fun one s1 _ ⟨_, h2, h3⟩ => ?_
  have hrow : s1.advice[s.advice.length + ipRow one (xs.length - 1)]? = some (.trivial xl) := by
    rw [h3, List.getElem?_append_right (by omega), Nat.add_sub_cancel_left, List.getElem?_map,
      ipVals_x hl (by omega), ← List.getLast?_eq_getElem?, hxl]
    rfl
  have key : Cmp tbl ext s1 (ipLastCell s.advice.length a.length one)
      (fun r s' => s' = s1 ∧ Con ext s1 r xl) := by
    have hal : a.length = xs.length := ha.length
    have fin : ∀ o : ℤ, o = ((s.advice.length + ipRow one (xs.length - 1) : ℕ) : ℤ) →
        Cmp tbl ext s1 (getM o) (fun r s' => s' = s1 ∧ Con ext s1 r xl) := by
      rintro o rfl
      refine (getM_con (i := s.advice.length + ipRow one (xs.length - 1)) ?_ hrow).weaken
        fun _ _ h => ⟨h.1, h.1 ▸ h.2⟩
      rw [if_neg (by omega)]
    unfold ipLastCell
    cases one with
    | true =>
      simp only [if_true]
      split
      · exact fin _ (by simp [ipRow]; omega)
      · rw [if_neg (by omega)]
        refine fin _ ?_
        simp only [ipRow, if_true]
        rw [if_neg (by omega)]
        push_cast; omega
    | false =>
      simp only [Bool.false_eq_true, if_false]
      rw [if_neg (by omega)]
      refine fin _ ?_
      simp only [ipRow, Bool.false_eq_true, if_false]
      push_cast; omega
  refine Cmp.bind key fun al s2 _ ⟨e, hal⟩ => ?_
  subst e
  refine Cmp.bind (lastM_con h3 (ipVals_last hl h2)) fun r s3 _ ⟨e, hr⟩ => ?_
  subst e
  exact Cmp.pure ⟨hr, hal⟩

theorem innerProductWithSums_cmp {a b : List (QCell p)} {xs ys : List (ZMod p)}
    (ha : QsConT ext s a xs) (hb : QsConT ext s b ys) (hlen : a.length = b.length) :
    Cmp tbl ext s (innerProductWithSums a b) (fun rs s' => AvsCon ext s' rs
      ((List.range xs.length).map (fun i => dot (xs.take (i + 1)) (ys.take (i + 1))))) := by
  have hl : xs.length = ys.length := by rw [← ha.length, ← hb.length, hlen]
  refine adviceLen_cmp ?_
  refine Cmp.bind (innerProductSimple_cmp ha hb hlen) fun one s1 _ ⟨_, h2, h3⟩ => ?_
  refine adviceLen_cmp ?_
  have hn : one = true → 1 ≤ xs.length := by
    intro h
    have := h2 h
    cases ys with
    | nil => simp at this
    | cons _ _ => simp [hl]
  have hlen1 : s1.advice.length = s.advice.length + ipLen one xs.length := by
    rw [h3]; simp [ipVals_length hl hn]
  have fin : ∀ os : List ℤ, os = (List.range xs.length).map
      (fun i : ℕ => ((s.advice.length + sumRow one i : ℕ) : ℤ)) →
      Cmp tbl ext s1 (getsM os) (fun rs s' => AvsCon ext s' rs
        ((List.range xs.length).map (fun i => dot (xs.take (i + 1)) (ys.take (i + 1))))) := by
    rintro os rfl
    refine (getsM_cmp (xs := (List.range xs.length).map
      (fun i => dot (xs.take (i + 1)) (ys.take (i + 1)))) ?_).weaken fun _ _ h => h.1 ▸ h.2
    rw [List.forall₂_iff_get]
    refine ⟨by simp, fun i hi1 hi2 => ⟨s.advice.length + sumRow one i, ?_, ?_⟩⟩
    · simp only [List.get_eq_getElem, List.getElem_map, List.getElem_range]
      rw [getRow, if_neg (by omega)]
    · rw [h3, List.getElem?_append_right (by omega), Nat.add_sub_cancel_left, List.getElem?_map,
        ipVals_sum hl h2 (by simpa using hi1)]
      simp
  cases one with
  | true =>
    simp only [if_true]
    refine fin _ ?_
    have := hn rfl
    simp only [stepBy3, hlen1, ipLen, if_true, List.map_map, sumRow]
    rw [show (s.advice.length + (3 * xs.length - 2) - s.advice.length + 2) / 3 = xs.length by omega]
    rfl
  | false =>
    simp only [Bool.false_eq_true, if_false]
    refine fin _ ?_
    simp only [stepBy3, hlen1, ipLen, if_false, List.map_map, sumRow, Bool.false_eq_true]
    rw [show (s.advice.length + (3 * xs.length + 1) - s.advice.length + 2) / 3 = xs.length + 1 by omega,
      List.range_succ_eq_map]
    simp [Function.comp_def]

end H2
