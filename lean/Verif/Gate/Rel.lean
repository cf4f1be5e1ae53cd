import Verif.Core.Rel
import Verif.Gate.Model

/-! # Relational lemmas for the gate chip (prover mode = keygen mode; shape independent of witnesses) -/

set_option autoImplicit false
namespace H2
variable {p : ℕ} [Fact p.Prime] {k : Bool}

theorem add_rel {a b a' b' : QCell p} (ha : RQ k a a') (hb : RQ k b b') :
    Rel k (add a b) (add a' b') (RA k) := by unfold add; rel
macro_rules | `(tactic| rel_lem) => `(tactic| with_reducible refine add_rel ?_ ?_)

theorem inc_rel {a a' : QCell p} (ha : RQ k a a') : Rel k (inc a) (inc a') (RA k) := by unfold inc; rel
macro_rules | `(tactic| rel_lem) => `(tactic| with_reducible refine inc_rel ?_)

theorem sub_rel {a b a' b' : QCell p} (ha : RQ k a a') (hb : RQ k b b') :
    Rel k (sub a b) (sub a' b') (RA k) := by unfold sub; rel
macro_rules | `(tactic| rel_lem) => `(tactic| with_reducible refine sub_rel ?_ ?_)

theorem dec_rel {a a' : QCell p} (ha : RQ k a a') : Rel k (dec a) (dec a') (RA k) := by unfold dec; rel
macro_rules | `(tactic| rel_lem) => `(tactic| with_reducible refine dec_rel ?_)

theorem subMul_rel {a b c a' b' c' : QCell p} (ha : RQ k a a') (hb : RQ k b b') (hc : RQ k c c') :
    Rel k (subMul a b c) (subMul a' b' c') (RA k) := by unfold subMul; rel
macro_rules | `(tactic| rel_lem) => `(tactic| with_reducible refine subMul_rel ?_ ?_ ?_)

theorem neg_rel {a a' : QCell p} (ha : RQ k a a') : Rel k (neg a) (neg a') (RA k) := by unfold neg; rel
macro_rules | `(tactic| rel_lem) => `(tactic| with_reducible refine neg_rel ?_)

theorem mul_rel {a b a' b' : QCell p} (ha : RQ k a a') (hb : RQ k b b') :
    Rel k (mul a b) (mul a' b') (RA k) := by unfold mul; rel
macro_rules | `(tactic| rel_lem) => `(tactic| with_reducible refine mul_rel ?_ ?_)

theorem mulAdd_rel {a b c a' b' c' : QCell p} (ha : RQ k a a') (hb : RQ k b b') (hc : RQ k c c') :
    Rel k (mulAdd a b c) (mulAdd a' b' c') (RA k) := by unfold mulAdd; rel
macro_rules | `(tactic| rel_lem) => `(tactic| with_reducible refine mulAdd_rel ?_ ?_ ?_)

theorem mulNot_rel {a b a' b' : QCell p} (ha : RQ k a a') (hb : RQ k b b') :
    Rel k (mulNot a b) (mulNot a' b') (RA k) := by unfold mulNot; rel
macro_rules | `(tactic| rel_lem) => `(tactic| with_reducible refine mulNot_rel ?_ ?_)

theorem assertBit_rel {a a' : AV p} (ha : RA k a a') :
    Rel k (assertBit a) (assertBit a') (fun _ _ => True) := by unfold assertBit; rel
macro_rules | `(tactic| rel_lem) => `(tactic| with_reducible refine assertBit_rel ?_)

theorem invertUnwrap_rel {x y : ZMod p} (h : RV k x y) :
    Rel k (invertUnwrap x) (invertUnwrap y) (RV k) := by
  unfold invertUnwrap
  by_cases hx : x = 0
  · rw [if_pos hx]; exact Rel.panic
  · rw [if_neg hx]
    by_cases hy : y = 0
    · rw [if_pos hy]
      intro s t hs r s' hr
      refine ⟨fun hk => absurd ((h hk).trans hy) hx, ?_⟩
      intro r' t' h'; simp [H2.panic] at h'
    · rw [if_neg hy]; exact Rel.pure (h.map _)
macro_rules | `(tactic| rel_lem) => `(tactic| with_reducible refine invertUnwrap_rel ?_)

theorem divUnsafe_rel {a b a' b' : QCell p} (ha : RQ k a a') (hb : RQ k b b') :
    Rel k (divUnsafe a b) (divUnsafe a' b') (RA k) := by unfold divUnsafe; rel
macro_rules | `(tactic| rel_lem) => `(tactic| with_reducible refine divUnsafe_rel ?_ ?_)

omit [Fact p.Prime] in
theorem offs3_ok {n m : ℕ} (h : m = 3 * n + 1) : GOk m (offs3 n) := by
  subst h
  refine ⟨fun g hg => ?_, fun g hg => ?_, fun g hg g' hg' => ?_⟩
  all_goals
    simp only [offs3, List.mem_map, List.mem_range] at hg
    obtain ⟨i, hi, rfl⟩ := hg
  · omega
  · push_cast; omega
  · simp only [offs3, List.mem_map, List.mem_range] at hg'
    obtain ⟨j, hj, rfl⟩ := hg'
    omega

theorem sumBody_rel {x x' : ZMod p} {l l' : List (QCell p)} (hx : RV k x x') (hl : RQs k l l') :
    Rel k (sumBody x l) (sumBody x' l') (fun c c' => RQs k c c' ∧ c.length = 3 * l.length) := by
  induction hl generalizing x x' with
  | nil => exact Rel.pure ⟨.nil, rfl⟩
  | cons h _ ih =>
    unfold sumBody
    refine (unwrapQ_rel h).bind fun y y' hy => (ih (hx.map2 _ hy)).bind fun _ _ h2 => Rel.pure ?_
    exact ⟨.cons h (.cons rfl (.cons (hx.map2 _ hy) h2.1)), by simp only [List.length_cons, h2.2]; omega⟩

theorem sum_rel {l l' : List (QCell p)} (hl : RQs k l l') : Rel k (sum l) (sum l') (RA k) := by
  rcases hl with _ | ⟨h, _ | ⟨h2, h3⟩⟩
  · unfold sum; rel
  · unfold sum; rel
  · unfold sum
    refine (unwrapQ_rel h).bind fun y y' hy => (sumBody_rel hy (.cons h2 h3)).bind fun c c' hc => ?_
    exact assignRegionLast_rel (.cons h hc.1) (fun _ => by simp [h3.length_eq]) fun _ _ => offs3_ok (by simp [hc.2])
macro_rules | `(tactic| rel_lem) => `(tactic| with_reducible refine sum_rel ?_)

theorem getsM_rel (os : List ℤ) : Rel k (getsM os : M p _) (getsM os) (RAs k) := by
  induction os with
  | nil => exact Rel.pure .nil
  | cons o os ih => exact (getM_rel o).bind fun _ _ h => ih.bind fun _ _ h2 => Rel.pure (.cons h h2)
macro_rules | `(tactic| rel_lem) => `(tactic| with_reducible exact getsM_rel _)

theorem partialSums_rel {l l' : List (QCell p)} (hl : RQs k l l') :
    Rel k (partialSums l) (partialSums l') (RAs k) := by
  rcases hl with _ | ⟨h, _ | ⟨h2, h3⟩⟩
  · unfold partialSums; rel
  · unfold partialSums; rel
  · unfold partialSums
    refine (unwrapQ_rel h).bind fun y y' hy => (sumBody_rel hy (.cons h2 h3)).bind fun c c' hc => ?_
    simp only [List.length_cons, h3.length_eq]
    exact (assignRegion_rel (.cons h hc.1) (fun _ => rfl) fun _ _ => offs3_ok (by simp [hc.2, h3.length_eq])).bind fun _ _ _ => getsM_rel _
macro_rules | `(tactic| rel_lem) => `(tactic| with_reducible refine partialSums_rel ?_)

/-- Related pairs of quantum cells. -/
def RQ2 (k : Bool) (x y : QCell p × QCell p) : Prop := RQ k x.1 y.1 ∧ RQ k x.2 y.2

theorem zip_rel {α β γ δ : Type} {R : α → β → Prop} {S : γ → δ → Prop} {a : List α} {a' : List β}
    {b : List γ} {b' : List δ} (ha : List.Forall₂ R a a') (hb : List.Forall₂ S b b') :
    List.Forall₂ (fun x y => R x.1 y.1 ∧ S x.2 y.2) (a.zip b) (a'.zip b') := by
  induction ha generalizing b b' with
  | nil => simp
  | cons h _ ih => cases hb with
    | nil => simp
    | cons h2 h3 => exact .cons ⟨h, h2⟩ (ih h3)

theorem accProdLoop_rel {x x' : AV p} {l l' : List (QCell p × QCell p)} (hx : RA k x x')
    (hl : List.Forall₂ (fun x y => RQ k x.1 y.1 ∧ RQ k x.2 y.2) l l') :
    Rel k (accProdLoop x l) (accProdLoop x' l') (RAs k) := by
  induction hl generalizing x x' with
  | nil => exact Rel.pure .nil
  | cons h _ ih =>
    unfold accProdLoop
    refine (mulAdd_rel hx.q h.1 h.2).bind fun y y' hy => (ih hy).bind fun _ _ h2 => Rel.pure (.cons hy h2)

theorem accumulatedProduct_rel {a a' b b' : List (QCell p)} (ha : RQs k a a') (hb : RQs k b b') :
    Rel k (accumulatedProduct a b) (accumulatedProduct a' b') (RAs k) := by
  cases hb with
  | nil => exact Rel.pure .nil
  | cons h h2 =>
    unfold accumulatedProduct
    refine (assignRegionLast_rel (.cons h .nil) (fun _ => rfl) fun _ _ => gok_nil _).bind fun x x' hx => ?_
    exact (accProdLoop_rel hx (zip_rel ha h2)).bind fun _ _ h3 => Rel.pure (.cons hx h3)
macro_rules | `(tactic| rel_lem) => `(tactic| with_reducible refine accumulatedProduct_rel ?_ ?_)

theorem or_rel {a b a' b' : QCell p} (ha : RQ k a a') (hb : RQ k b b') :
    Rel k (or a b) (or a' b') (RA k) := by unfold or; rel
macro_rules | `(tactic| rel_lem) => `(tactic| with_reducible refine or_rel ?_ ?_)

theorem and_rel {a b a' b' : QCell p} (ha : RQ k a a') (hb : RQ k b b') :
    Rel k (and a b) (and a' b') (RA k) := by unfold and; rel
macro_rules | `(tactic| rel_lem) => `(tactic| with_reducible refine and_rel ?_ ?_)

theorem xor_rel {a b a' b' : QCell p} (ha : RQ k a a') (hb : RQ k b b') :
    Rel k (xor a b) (xor a' b') (RA k) := by unfold xor; rel
macro_rules | `(tactic| rel_lem) => `(tactic| with_reducible refine xor_rel ?_ ?_)

theorem not_rel {a a' : QCell p} (ha : RQ k a a') : Rel k (not a) (not a') (RA k) := by unfold not; rel
macro_rules | `(tactic| rel_lem) => `(tactic| with_reducible refine not_rel ?_)

theorem select_rel {a b c a' b' c' : QCell p} (ha : RQ k a a') (hb : RQ k b b') (hc : RQ k c c') :
    Rel k (select a b c) (select a' b' c') (RA k) := by unfold select; rel
macro_rules | `(tactic| rel_lem) => `(tactic| with_reducible refine select_rel ?_ ?_ ?_)

theorem orAnd_rel {a b c a' b' c' : QCell p} (ha : RQ k a a') (hb : RQ k b b') (hc : RQ k c c') :
    Rel k (orAnd a b c) (orAnd a' b' c') (RA k) := by unfold orAnd; rel
macro_rules | `(tactic| rel_lem) => `(tactic| with_reducible refine orAnd_rel ?_ ?_ ?_)

theorem isZero_rel {a a' : AV p} (ha : RA k a a') : Rel k (isZero a) (isZero a') (RA k) := by
  unfold isZero; rel
macro_rules | `(tactic| rel_lem) => `(tactic| with_reducible refine isZero_rel ?_)

theorem isEqual_rel {a b a' b' : QCell p} (ha : RQ k a a') (hb : RQ k b b') :
    Rel k (isEqual a b) (isEqual a' b') (RA k) := by unfold isEqual; rel
macro_rules | `(tactic| rel_lem) => `(tactic| with_reducible refine isEqual_rel ?_ ?_)

theorem indicatorInner_rel {bit bit' : AV p} (hb : RA k bit bit') (offset : ℕ) (os : List ℕ)
    {ind ind' : List (AV p)} (hi : RAs k ind ind') :
    Rel k (indicatorInner bit offset os ind) (indicatorInner bit' offset os ind')
      (fun r r' => RAs k r r' ∧ r.length = ind.length + 2 * os.length) := by
  induction os generalizing ind ind' with
  | nil => exact Rel.pure ⟨hi, rfl⟩
  | cons o os ih =>
    unfold indicatorInner
    refine (unwrapO_rel (hi.get? _)).bind fun e e' he => ?_
    refine (unwrapA_rel hb).bind fun bv bv' hbv => (unwrapA_rel he).bind fun ev ev' hev => ?_
    refine (assignRegion_rel ?_ (fun _ => rfl) (by gok)).bind fun _ _ _ => (getM_rel _).bind fun x x' hx => ?_
    · rel_side
    have hi2 : RAs k (ind ++ [x]) (ind' ++ [x']) := List.rel_append hi (.cons hx .nil)
    refine (unwrapO_rel (hi2.get? _)).bind fun e e' he => (mul_rel he.q hb.q).bind fun y y' hy => ?_
    exact (ih (List.rel_append hi2 (.cons hy .nil))).weaken fun _ _ h => ⟨h.1, by rw [h.2]; simp; omega⟩

theorem indicatorOuter_rel {bits bits' : List (AV p)} (hb : RAs k bits bits') (idx offset : ℕ)
    {ind ind' : List (AV p)} (hi : RAs k ind ind') :
    Rel k (indicatorOuter bits idx offset ind) (indicatorOuter bits' idx offset ind')
      (fun r r' => RAs k r r' ∧ r.length + 2 ^ (idx + 1) = ind.length + 2 ^ (idx + 1 + bits.length)) := by
  induction hb generalizing idx offset ind ind' with
  | nil => exact Rel.pure ⟨hi, rfl⟩
  | cons h _ ih =>
    unfold indicatorOuter
    refine (indicatorInner_rel h _ _ hi).bind fun _ _ h2 => (ih _ _ h2.1).weaken fun _ _ h3 => ⟨h3.1, ?_⟩
    have e1 := h3.2
    rw [h2.2, List.length_range] at e1
    rw [List.length_cons, show ∀ n : ℕ, idx + 1 + (n + 1) = idx + 1 + 1 + n from by omega]
    have e2 : 2 ^ (idx + 1 + 1) = 2 * 2 ^ (idx + 1) := by ring
    have e3 : 2 ^ (idx + 1) = 2 * 2 ^ idx := by ring
    omega

omit [Fact p.Prime] in
theorem indLen {n x : ℕ} (h : x + 2 ^ (1 + 1) = 2 + 2 ^ (1 + 1 + n)) : x - (2 ^ (n + 1) - 2) = 2 ^ (n + 1) := by
  have e1 : 2 ^ (1 + 1 + n) = 4 * 2 ^ n := by ring
  have e2 : 2 ^ (n + 1) = 2 * 2 ^ n := by ring
  have := Nat.one_le_two_pow (n := n)
  omega

theorem bitsToIndicator_rel {bits bits' : List (AV p)} (hb : RAs k bits bits') :
    Rel k (bitsToIndicator bits) (bitsToIndicator bits')
      (fun r r' => RAs k r r' ∧ r.length = 2 ^ bits.length) := by
  have hr : RAs k bits.reverse bits'.reverse := List.rel_reverse hb
  unfold bitsToIndicator
  have hlen : bits.reverse.length = bits.length := List.length_reverse
  have hlen' : bits.length = bits'.length := hb.length_eq
  rw [hlen'] at hlen ⊢
  generalize bits.reverse = u at hr hlen
  generalize bits'.reverse = v at hr
  cases hr with
  | nil => exact Rel.panic
  | cons h h2 =>
    refine (unwrapA_rel h).bind fun x x' hx => ?_
    refine (assignRegion_rel ?_ (fun _ => rfl) (by gok)).bind fun _ _ _ => (getM_rel _).bind fun _ _ h3 =>
      (getM_rel _).bind fun _ _ h4 => ?_
    · rel_side
    exact (indicatorOuter_rel h2 _ _ (.cons h3 (.cons h4 .nil))).bind fun _ _ h5 =>
      Rel.pure ⟨List.forall₂_drop _ h5.1, by
        rw [List.length_drop, ← hlen, List.length_cons]
        exact indLen h5.2⟩
macro_rules | `(tactic| rel_lem) => `(tactic| with_reducible refine bitsToIndicator_rel ?_)

theorem idxToIndicatorLoop_rel {a a' : AV p} (ha : RA k a a') (is : List ℕ) :
    Rel k (idxToIndicatorLoop a is) (idxToIndicatorLoop a' is) (fun r r' => RAs k r r' ∧ r.length = is.length) := by
  induction is with
  | nil => exact Rel.pure ⟨.nil, rfl⟩
  | cons i is ih =>
    unfold idxToIndicatorLoop
    exact (isEqual_rel (RA.q ha) (RQ.constant_rfl _)).bind fun _ _ h1 => ih.bind fun _ _ h2 =>
      Rel.pure ⟨.cons h1 h2.1, by simp [h2.2]⟩
macro_rules | `(tactic| rel_lem) => `(tactic| with_reducible refine idxToIndicatorLoop_rel ?_ _)

theorem idxToIndicator_rel {a a' : QCell p} (ha : RQ k a a') (len : ℕ) :
    Rel k (idxToIndicator a len) (idxToIndicator a' len) (fun r r' => RAs k r r' ∧ r.length = len) := by
  cases len with
  | zero => exact Rel.pure ⟨.nil, rfl⟩
  | succ n =>
    unfold idxToIndicator
    repeat (apply Rel.bind; (focus (first | assumption | rel_lem <;> rel_side)); (intro _ _ _))
    rename_i h
    exact Rel.pure ⟨.cons (by assumption) h.1, by simp [h.2]⟩
macro_rules | `(tactic| rel_lem) => `(tactic| with_reducible refine idxToIndicator_rel ?_ _)

theorem selStep_rel {x x' y y' : ZMod p} {a a' : QCell p} (hx : RV k x x') (hy : RV k y y')
    (ha : RQ k a a') {l : Prop} : Rel k (selStep x y a) (selStep x' y' a') (RV k) l := by
  have st : ∀ (x y : ZMod p) (a : QCell p) (s : Ctx p) r s', selStep x y a s = some (r, s') → s' = s := by
    intro x y a s r s' h
    unfold selStep at h
    split at h
    · simp at h; exact h.2.symm
    · exact (unwrap_state h).2
  refine Rel.read (st _ _ _) (st _ _ _) ?_
  intro s t hs r hr
  cases k with
  | false => exact ⟨by simp, fun _ _ => by simp [RV]⟩
  | true =>
    rw [← hx rfl, ← hy rfl]
    unfold selStep at hr ⊢
    split at hr
    · simp only [pure_apply, Option.some.injEq, Prod.mk.injEq, and_true] at hr
      rw [if_pos ‹_›]
      exact ⟨fun _ => ⟨x, rfl⟩, fun r' h' hk => by
        simp only [pure_apply, Option.some.injEq, Prod.mk.injEq, and_true] at h'; rw [← hr, ← h']⟩
    · rw [if_neg ‹_›]
      have h1 := (unwrap_state hr).1
      rw [ha.val rfl] at h1
      exact ⟨fun _ => ⟨r, by simp [unwrap, h1]⟩, fun r' h' _ => by
        have := (unwrap_state h').1
        rw [h1] at this; exact Option.some.inj this⟩
macro_rules | `(tactic| rel_lem) => `(tactic| with_reducible refine selStep_rel ?_ ?_ ?_)

theorem selBody_rel {x x' : ZMod p} {l l' : List (QCell p × AV p)} (hx : RV k x x')
    (hl : List.Forall₂ (fun x y => RQ k x.1 y.1 ∧ RA k x.2 y.2) l l') {P : Prop} :
    Rel k (selBody x l) (selBody x' l') (fun c c' => RQs k c c' ∧ c.length = 3 * l.length) P := by
  induction hl generalizing x x' with
  | nil => exact Rel.pure ⟨.nil, rfl⟩
  | cons h _ ih =>
    unfold selBody
    refine (unwrapA_rel h.2).bind fun y y' hy => (selStep_rel hx hy h.1).bind fun z z' hz =>
      (ih hz).bind fun _ _ h2 => Rel.pure ?_
    exact ⟨.cons h.1 (.cons h.2 (.cons hz h2.1)), by simp only [List.length_cons, h2.2]; omega⟩

/-- The thread stays layable when there are as many indicators as candidates (otherwise see
`C76_select_dangling`). -/
theorem selectByIndicator_rel {a a' : List (QCell p)} {ind ind' : List (AV p)} {l : Prop} (ha : RQs k a a')
    (hi : RAs k ind ind') (hl : k = true → l → a.length = ind.length) :
    Rel k (selectByIndicator a ind) (selectByIndicator a' ind') (RA k) l := by
  unfold selectByIndicator
  refine (selBody_rel (RV.refl 0) (zip_rel ha hi)).bind fun c c' hc => ?_
  exact assignRegionLast_rel (.cons rfl hc.1) (fun _ => by simp [ha.length_eq])
    fun hk h => offs3_ok (by simp [hc.2, hl hk h])

theorem selectFromIdx_rel {a a' : List (QCell p)} {i i' : QCell p} (ha : RQs k a a') (hi : RQ k i i') :
    Rel k (selectFromIdx a i) (selectFromIdx a' i') (RA k) := by
  unfold selectFromIdx
  rw [ha.length_eq]
  exact (idxToIndicator_rel hi _).bind fun _ _ h =>
    selectByIndicator_rel ha h.1 fun _ _ => ha.length_eq.trans h.2.symm
macro_rules | `(tactic| rel_lem) => `(tactic| with_reducible refine selectFromIdx_rel ?_ ?_)

theorem column_rel {a a' : List (List (AV p))} (ha : List.Forall₂ (RAs k) a a') (j : ℕ) {l : Prop} :
    Rel k (column a j) (column a' j) (fun c c' => RQs k c c' ∧ c.length = a.length) l := by
  induction ha with
  | nil => exact Rel.pure ⟨.nil, rfl⟩
  | cons h _ ih =>
    unfold column
    exact (unwrapO_rel (RAs.get? h _)).bind fun _ _ h1 => ih.bind fun _ _ h2 => Rel.pure ⟨.cons h1 h2.1, by simp [h2.2]⟩

theorem selectArrayLoop_rel {a a' : List (List (AV p))} {ind ind' : List (AV p)} {l : Prop}
    (ha : List.Forall₂ (RAs k) a a') (hi : RAs k ind ind') (hl : k = true → l → a.length = ind.length) (js : List ℕ) :
    Rel k (selectArrayLoop a ind js) (selectArrayLoop a' ind' js) (RAs k) l := by
  induction js with
  | nil => exact Rel.pure .nil
  | cons j js ih =>
    unfold selectArrayLoop
    exact (column_rel ha j).bind fun _ _ h1 =>
      (selectByIndicator_rel h1.1 hi fun hk h => h1.2.trans (hl hk h)).bind fun _ _ h2 =>
      ih.bind fun _ _ h3 => Rel.pure (.cons h2 h3)

theorem selectArrayByIndicator_rel {a a' : List (List (AV p))} {ind ind' : List (AV p)} {l : Prop}
    (ha : List.Forall₂ (RAs k) a a') (hi : RAs k ind ind') (hl : k = true → l → a.length = ind.length) :
    Rel k (selectArrayByIndicator a ind) (selectArrayByIndicator a' ind') (RAs k) l := by
  cases ha with
  | nil => exact Rel.panic
  | cons h h2 =>
    unfold selectArrayByIndicator
    simp only [List.Forall₂.length_eq h]
    exact selectArrayLoop_rel (.cons h h2) hi hl _

theorem ipBody_rel {x x' : ZMod p} {l l' : List (QCell p × QCell p)} (hx : RV k x x')
    (hl : List.Forall₂ (fun x y => RQ k x.1 y.1 ∧ RQ k x.2 y.2) l l') :
    Rel k (ipBody x l) (ipBody x' l') (fun c c' => RQs k c c' ∧ c.length = 3 * l.length) := by
  induction hl generalizing x x' with
  | nil => exact Rel.pure ⟨.nil, rfl⟩
  | cons h _ ih =>
    unfold ipBody
    refine (unwrapQ_rel h.1).bind fun y y' hy => (unwrapQ_rel h.2).bind fun z z' hz => ?_
    have hs : RV k (x + y * z) (x' + y' * z') := fun hk => by rw [hx hk, hy hk, hz hk]
    exact (ih hs).bind fun _ _ h2 => Rel.pure ⟨.cons h.1 (.cons h.2 (.cons hs h2.1)), by
      simp only [List.length_cons, h2.2]; omega⟩

theorem startsWithOne_rel {b b' : List (QCell p)} (hb : RQs k b b') : startsWithOne b = startsWithOne b' := by
  cases hb with
  | nil => rfl
  | @cons q q' _ _ h _ =>
    cases q <;> cases q' <;> simp only [RQ, startsWithOne] at h ⊢
    rw [h]

theorem ipCells_rel {a a' b b' : List (QCell p)} (ha : RQs k a a') (hb : RQs k b b') :
    Rel k (ipCells a b) (ipCells a' b') (fun c c' => RQs k c c' ∧ ∃ n : ℕ, c.length = 3 * n + 1) := by
  unfold ipCells
  rw [startsWithOne_rel hb]
  refine Rel.ite Iff.rfl (fun _ => ?_) (fun _ => ?_)
  · have htb : RQs k b.tail b'.tail := by cases hb <;> simp_all
    cases ha with
    | nil => exact (unwrap_rel (Q := fun _ _ => False) (by simp) (by simp)).bind (by simp)
    | cons h h2 =>
      refine Rel.bind (Q := fun a b => RQ k a b) (unwrap_rel (by simp) ?_) fun q q' hq => ?_
      · rintro a b ⟨rfl⟩ ⟨rfl⟩; exact h
      refine (unwrapQ_rel hq).bind fun y y' hy => (ipBody_rel hy (zip_rel h2 htb)).bind fun _ _ h3 => ?_
      exact Rel.pure ⟨.cons hq h3.1, _, by rw [List.length_cons, h3.2]⟩
  · exact (ipBody_rel (RV.refl 0) (zip_rel ha hb)).bind fun _ _ h3 =>
      Rel.pure ⟨.cons rfl h3.1, _, by rw [List.length_cons, h3.2]⟩

theorem ipRegion_rel {c c' : List (QCell p)} (hc : RQs k c c') (hn : ∃ n : ℕ, c.length = 3 * n + 1) :
    Rel k (ipRegion c false) (ipRegion c' k) (fun _ _ => True) := by
  cases k with
  | false =>
    simp only [ipRegion, Bool.false_eq_true, if_false]
    exact assignRegion_rel hc (fun _ => by rw [hc.length_eq]) (by simp)
  | true =>
    simp only [ipRegion, Bool.false_eq_true, if_false, if_true]
    exact assignRegion_rel hc (by simp) fun _ _ => offs3_ok (by obtain ⟨n, hn⟩ := hn; omega)

theorem innerProductSimple_rel {a a' b b' : List (QCell p)} (ha : RQs k a a') (hb : RQs k b b') :
    Rel k (innerProductSimple a b) (innerProductSimple a' b') (fun x y => x = y) := by
  unfold innerProductSimple
  refine (ipCells_rel ha hb).bind fun c c' hc => getWgo_rel.bind ?_
  rintro w w' ⟨rfl, rfl⟩
  exact (ipRegion_rel hc.1 hc.2).bind fun _ _ _ => Rel.pure (startsWithOne_rel hb)

theorem innerProduct_rel {a a' b b' : List (QCell p)} (ha : RQs k a a') (hb : RQs k b b') :
    Rel k (innerProduct a b) (innerProduct a' b') (RA k) :=
  (innerProductSimple_rel ha hb).bind fun _ _ _ => lastM_rel
macro_rules | `(tactic| rel_lem) => `(tactic| with_reducible refine innerProduct_rel ?_ ?_)

theorem ipLastCell_rel (row len : ℕ) (one : Bool) :
    Rel k (ipLastCell row len one : M p _) (ipLastCell row len one) (RA k) := by
  unfold ipLastCell
  refine Rel.ite Iff.rfl (fun _ => ?_) (fun _ => ?_)
  · refine Rel.ite Iff.rfl (fun _ => getM_rel _) (fun _ => ?_)
    exact Rel.ite Iff.rfl (fun _ => Rel.panic) (fun _ => getM_rel _)
  · exact Rel.ite Iff.rfl (fun _ => Rel.panic) (fun _ => getM_rel _)

/-- Related pairs of assigned values. -/
abbrev RA2 (k : Bool) (x y : AV p × AV p) : Prop := RA k x.1 y.1 ∧ RA k x.2 y.2

theorem innerProductLeftLast_rel {a a' b b' : List (QCell p)} (ha : RQs k a a') (hb : RQs k b b') :
    Rel k (innerProductLeftLast a b) (innerProductLeftLast a' b') (RA2 k) := by
  unfold innerProductLeftLast
  refine adviceLen_rel.bind ?_
  rintro n _ rfl
  refine (innerProductSimple_rel ha hb).bind ?_
  rintro one _ rfl
  rw [ha.length_eq]
  exact (ipLastCell_rel _ _ _).bind fun _ _ h1 => lastM_rel.bind fun _ _ h2 => Rel.pure ⟨h2, h1⟩

theorem innerProductLeft_rel {a a' b b' : List (QCell p)} (ha : RQs k a a') (hb : RQs k b b') :
    Rel k (innerProductLeft a b) (innerProductLeft a' b') (fun x y => RA k x.1 y.1 ∧ RAs k x.2 y.2) := by
  unfold innerProductLeft
  refine adviceLen_rel.bind ?_
  rintro n _ rfl
  refine (innerProductSimple_rel ha hb).bind ?_
  rintro one _ rfl
  rw [ha.length_eq]
  exact (getsM_rel _).bind fun _ _ h1 => lastM_rel.bind fun _ _ h2 => Rel.pure ⟨h2, h1⟩

theorem innerProductWithSums_rel {a a' b b' : List (QCell p)} (ha : RQs k a a') (hb : RQs k b b') :
    Rel k (innerProductWithSums a b) (innerProductWithSums a' b') (RAs k) := by
  unfold innerProductWithSums
  refine adviceLen_rel.bind ?_
  rintro n _ rfl
  refine (innerProductSimple_rel ha hb).bind ?_
  rintro one _ rfl
  refine adviceLen_rel.bind ?_
  rintro m _ rfl
  exact Rel.ite Iff.rfl (fun _ => getsM_rel _) (fun _ => getsM_rel _)
macro_rules | `(tactic| rel_lem) => `(tactic| with_reducible refine innerProductWithSums_rel ?_ ?_)

/-- Related triples (coefficient, cell, cell). -/
abbrev RT (k : Bool) (x y : ZMod p × QCell p × QCell p) : Prop :=
  x.1 = y.1 ∧ RQ k x.2.1 y.2.1 ∧ RQ k x.2.2 y.2.2

theorem spBody_rel {l l' : List (ZMod p × QCell p × QCell p)} (hl : List.Forall₂ (RT k) l l') :
    Rel k (spBody l) (spBody l') (List.Forall₂ (fun x y => RQ k x.1 y.1 ∧ RQ k x.2 y.2)) := by
  induction hl with
  | nil => exact Rel.pure .nil
  | @cons x y _ _ h _ ih =>
    obtain ⟨c, va, vb⟩ := x
    obtain ⟨c', va', vb'⟩ := y
    obtain ⟨rfl, h1, h2⟩ := h
    unfold spBody
    refine Rel.ite Iff.rfl (fun _ => ih.bind fun _ _ h3 => Rel.pure (.cons ⟨h1, h2⟩ h3)) (fun _ => ?_)
    refine Rel.ite Iff.rfl (fun _ => ?_) (fun _ => ih)
    exact (mul_rel h1 h2).bind fun _ _ h4 => ih.bind fun _ _ h3 => Rel.pure (.cons ⟨h4, rfl⟩ h3)

omit [Fact p.Prime] in
theorem map_fst_rel {l l' : List (QCell p × QCell p)}
    (h : List.Forall₂ (fun x y => RQ k x.1 y.1 ∧ RQ k x.2 y.2) l l') :
    RQs k (l.map Prod.fst) (l'.map Prod.fst) ∧ RQs k (l.map Prod.snd) (l'.map Prod.snd) := by
  induction h with
  | nil => exact ⟨.nil, .nil⟩
  | cons h _ ih => exact ⟨.cons h.1 ih.1, .cons h.2 ih.2⟩

theorem sumProductsWithCoeffAndVar_rel {l l' : List (ZMod p × QCell p × QCell p)} {v v' : QCell p}
    (hl : List.Forall₂ (RT k) l l') (hv : RQ k v v') :
    Rel k (sumProductsWithCoeffAndVar l v) (sumProductsWithCoeffAndVar l' v') (RA k) := by
  unfold sumProductsWithCoeffAndVar
  refine (spBody_rel hl).bind fun _ _ h => ?_
  exact innerProduct_rel (.cons hv (map_fst_rel h).1) (.cons rfl (map_fst_rel h).2)

theorem assertBits_rel {l l' : List (AV p)} (h : RAs k l l') :
    Rel k (assertBits l) (assertBits l') (fun _ _ => True) := by
  induction h with
  | nil => exact Rel.pure trivial
  | cons h _ ih => unfold assertBits; rel
macro_rules | `(tactic| rel_lem) => `(tactic| with_reducible refine assertBits_rel ?_)

theorem sliceTo_rel {α : Type} (l : List α) (n : ℕ) :
    Rel k (sliceTo l n : M p _) (sliceTo l n) (fun x y => x = y) := by
  unfold sliceTo
  exact Rel.ite Iff.rfl (fun _ => Rel.pure rfl) (fun _ => Rel.panic)

theorem limbs_rel {x x' : ZMod p} (h : RV k x x') (n b : ℕ) :
    RQs k ((limbsOf x.val n b).map (fun b : ℕ => QCell.witness (b : ZMod p)))
      ((limbsOf x'.val n b).map (fun b : ℕ => QCell.witness (b : ZMod p))) := by
  unfold limbsOf
  induction (List.range n) with
  | nil => exact .nil
  | cons i l ih => exact .cons (fun hk => by rw [h hk]) ih

omit [Fact p.Prime] in
theorem consts_rel (l : List (ZMod p)) : RQs k (l.map QCell.constant) (l.map QCell.constant) := by
  induction l with
  | nil => exact .nil
  | cons i l ih => exact .cons rfl ih

omit [Fact p.Prime] in
theorem exist_rel {l l' : List (AV p)} (h : RAs k l l') :
    RQs k (l.map QCell.existing) (l'.map QCell.existing) := by
  induction h with
  | nil => exact .nil
  | cons h _ ih => exact .cons h ih

theorem numToBits_rel {a a' : AV p} (ha : RA k a a') (n : ℕ) :
    Rel k (numToBits a n) (numToBits a' n) (RAs k) := by
  unfold numToBits
  refine (unwrapA_rel ha).bind fun x x' hx => adviceLen_rel.bind ?_
  rintro row _ rfl
  refine (sliceTo_rel _ _).bind ?_
  rintro pows _ rfl
  refine (innerProduct_rel (limbs_rel hx _ _) (consts_rel _)).bind fun _ _ h1 => ?_
  rel
macro_rules | `(tactic| rel_lem) => `(tactic| with_reducible refine numToBits_rel ?_ _)

theorem bitsToNum_rel {l l' : List (AV p)} (h : RAs k l l') :
    Rel k (bitsToNum l) (bitsToNum l') (RA k) := by
  unfold bitsToNum
  rw [h.length_eq]
  refine (assertM_rel fun _ => rfl).bind fun _ _ _ => (sliceTo_rel _ _).bind ?_
  rintro pows _ rfl
  exact innerProduct_rel (exist_rel h) (consts_rel _)
macro_rules | `(tactic| rel_lem) => `(tactic| with_reducible refine bitsToNum_rel ?_)

theorem powVarLoop_rel {a a' : AV p} (ha : RA k a a') (first : Bool) {acc acc' : AV p} (hc : RA k acc acc')
    {l l' : List (AV p)} (h : RAs k l l') :
    Rel k (powVarLoop a first acc l) (powVarLoop a' first acc' l') (RA k) := by
  induction h generalizing first acc acc' with
  | nil => exact Rel.pure hc
  | cons h _ ih =>
    unfold powVarLoop
    have : Rel k (powSquare first acc) (powSquare first acc') (RA k) := by
      unfold powSquare
      exact Rel.ite Iff.rfl (fun _ => Rel.pure hc) (fun _ => mul_rel hc.q hc.q)
    refine this.bind fun _ _ h1 => (mul_rel h1.q ha.q).bind fun _ _ h2 => (select_rel h2.q h1.q (RA.q h)).bind
      fun _ _ h3 => ih _ h3

theorem powVar_rel {a a' e e' : AV p} (ha : RA k a a') (he : RA k e e') (n : ℕ) :
    Rel k (powVar a e n) (powVar a' e' n) (RA k) := by
  unfold powVar
  exact (numToBits_rel he n).bind fun _ _ h1 => (loadConstant_rel 1).bind fun _ _ h2 =>
    powVarLoop_rel ha _ h2 (List.rel_reverse h1)
macro_rules | `(tactic| rel_lem) => `(tactic| with_reducible refine powVar_rel ?_ ?_ _)

theorem lagrangeZ_rel {x x' z z' : AV p} (hx : RA k x x') (hz : RA k z z') {l l' : List (AV p × AV p)}
    (h : List.Forall₂ (RA2 k) l l') : Rel k (lagrangeZ x z l) (lagrangeZ x' z' l') (RA k) := by
  induction h generalizing z z' with
  | nil => exact Rel.pure hz
  | cons h _ ih =>
    unfold lagrangeZ
    exact (sub_rel hx.q h.1.q).bind fun _ _ h1 => (mul_rel hz.q h1.q).bind fun _ _ h2 => ih h2

theorem lagrangeDenom_rel {x x' d d' : AV p} (hx : RA k x x') (i : ℕ) (hd : RA k d d')
    {l l' : List (ℕ × AV p)} (h : List.Forall₂ (fun a b => a.1 = b.1 ∧ RA k a.2 b.2) l l') :
    Rel k (lagrangeDenom x i d l) (lagrangeDenom x' i d' l') (RA k) := by
  induction h generalizing d d' with
  | nil => exact Rel.pure hd
  | @cons u v _ _ h _ ih =>
    obtain ⟨j, xj⟩ := u
    obtain ⟨j', xj'⟩ := v
    obtain ⟨rfl, h⟩ := h
    unfold lagrangeDenom
    refine Rel.ite Iff.rfl (fun _ => ih hd) (fun _ => ?_)
    exact (sub_rel hx.q (RA.q h)).bind fun _ _ h1 => (mul_rel hd.q h1.q).bind fun _ _ h2 => ih h2

omit [Fact p.Prime] in
theorem range_rel (n : ℕ) : List.Forall₂ (fun a b : ℕ => a = b) (List.range n) (List.range n) := by
  induction (List.range n) with
  | nil => exact .nil
  | cons i l ih => exact .cons rfl ih

omit [Fact p.Prime] in
theorem enumX_rel {l l' : List (AV p × AV p)} (h : List.Forall₂ (RA2 k) l l') :
    List.Forall₂ (fun a b => a.1 = b.1 ∧ RA k a.2 b.2) (enumX l) (enumX l') := by
  unfold enumX
  rw [h.length_eq]
  have : RAs k (l.map Prod.fst) (l'.map Prod.fst) := by
    induction h with
    | nil => exact .nil
    | cons h _ ih => exact .cons h.1 ih
  exact zip_rel (range_rel _) this

theorem lagrangeEval_rel {cs cs' : List (AV p × AV p)} {x x' : AV p} (hc : List.Forall₂ (RA2 k) cs cs')
    (hx : RA k x x') {l l' : List (ℕ × AV p × AV p)}
    (h : List.Forall₂ (fun a b => a.1 = b.1 ∧ RA2 k a.2 b.2) l l') {e e' : Option (AV p)} (he : RO k e e') :
    Rel k (lagrangeEval cs x l e) (lagrangeEval cs' x' l' e') (RO k) := by
  induction h generalizing e e' with
  | nil => exact Rel.pure he
  | @cons u v _ _ h _ ih =>
    obtain ⟨j, xj, yj⟩ := u
    obtain ⟨j', xj', yj'⟩ := v
    obtain ⟨rfl, h, hy⟩ := h
    unfold lagrangeEval
    refine (sub_rel hx.q (RA.q h)).bind fun _ _ h1 => (lagrangeDenom_rel h _ h1 (enumX_rel hc)).bind fun _ _ h2 => ?_
    refine (isZero_rel h2).bind fun _ _ h3 => (assertIsConst_rel h3 _).bind fun _ _ _ =>
      (divUnsafe_rel (RA.q hy) h2.q).bind fun _ _ h4 => ?_
    refine Rel.bind (Q := RA k) ?_ fun _ _ h5 => ih (.some h5)
    unfold lagrangeAcc
    cases he with
    | none => exact Rel.pure h4
    | some he => exact add_rel he.q h4.q

theorem lagrangeAndEval_rel {cs cs' : List (AV p × AV p)} {x x' : AV p}
    (hc : List.Forall₂ (RA2 k) cs cs') (hx : RA k x x') :
    Rel k (lagrangeAndEval cs x) (lagrangeAndEval cs' x') (RA2 k) := by
  have hz : List.Forall₂ (fun a b => a.1 = b.1 ∧ RA2 k a.2 b.2) ((List.range cs.length).zip cs)
      ((List.range cs'.length).zip cs') := by
    rw [hc.length_eq]; exact zip_rel (range_rel _) hc
  cases hc with
  | nil => exact Rel.panic
  | cons h h2 =>
    unfold lagrangeAndEval
    refine (sub_rel hx.q h.1.q).bind fun _ _ h3 => (lagrangeZ_rel hx h3 h2).bind fun _ _ h4 => ?_
    refine (lagrangeEval_rel (.cons h h2) hx hz .none).bind fun _ _ h5 => (unwrapO_rel h5).bind
      fun _ _ h6 => (mul_rel h6.q h4.q).bind fun _ _ h7 => Rel.pure ⟨h7, h4⟩

end H2
