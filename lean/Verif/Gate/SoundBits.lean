import Verif.Gate.SoundList
import Mathlib.Data.Nat.Digits.Lemmas

/-! # Soundness of the bit, indicator, power and interpolation routines -/

set_option autoImplicit false
namespace H2
variable {p : ℕ} [Fact p.Prime] {tbl : ZMod p → Prop}

theorem QOk.exists (w : Cell → ZMod p) (q : QCell p) : ∃ x, QOk w q x := by
  cases q
  · exact ⟨_, rfl⟩
  · exact ⟨0, trivial⟩
  · exact ⟨0, trivial⟩
  · exact ⟨_, rfl⟩

theorem spBody_sound (vs : List (ZMod p × QCell p × QCell p)) : Sound tbl (spBody vs) (fun w l =>
    ∀ us ts, QOks w (l.map Prod.fst) us → QOks w (l.map Prod.snd) ts →
      ∃ xs ys, QOks w (vs.map (·.2.1)) xs ∧ QOks w (vs.map (·.2.2)) ys ∧
        dot us ts = sumCoeff (vs.map (·.1)) xs ys) := by
  induction vs with
  | nil =>
    exact fun s => Snd.pure fun w _ us ts hu ht => by
      cases hu; cases ht
      exact ⟨[], [], .nil, .nil, by simp [sumCoeff]⟩
  | cons v vs ih =>
    obtain ⟨c, a, b⟩ := v
    intro s
    unfold spBody
    refine Snd.ite (fun h1 => ?_) fun h1 => Snd.ite (fun h2 => ?_) fun h2 => ?_
    · refine Snd.bind (ih s) fun rest s1 _ => Snd.pure ?_
      intro w _ h us ts hu ht
      cases hu with
      | cons hu0 hu =>
        cases ht with
        | cons ht0 ht =>
          obtain ⟨xs, ys, hx, hy, hd⟩ := h _ _ hu ht
          refine ⟨_, _, .cons hu0 hx, .cons ht0 hy, ?_⟩
          simp only [dot_cons, hd, sumCoeff, List.map_cons, List.zipWith_cons_cons, List.sum_cons, h1]
          ring
    · refine Snd.bind (mul_sound a b s) fun prod s1 _ => ?_
      refine Snd.bind (ih s1) fun rest s2 _ => Snd.pure ?_
      rintro w - h ⟨x, y, hx0, hy0, hp⟩ us ts hu ht
      cases hu with
      | @cons _ u0 _ _ hu0 hu =>
        cases ht with
        | @cons _ t0 _ _ ht0 ht =>
          obtain ⟨xs, ys, hx, hy, hd⟩ := h _ _ hu ht
          refine ⟨_, _, .cons hx0 hx, .cons hy0 hy, ?_⟩
          have e1 : u0 = at' w prod := hu0
          have e2 : t0 = c := ht0
          simp only [dot_cons, hd, sumCoeff, List.map_cons, List.zipWith_cons_cons, List.sum_cons, e1, e2,
            hp]
          ring
    · refine (ih s).weaken ?_
      intro w l _ h us ts hu ht
      obtain ⟨xs, ys, hx, hy, hd⟩ := h _ _ hu ht
      obtain ⟨x0, hx0⟩ := QOk.exists w a
      obtain ⟨y0, hy0⟩ := QOk.exists w b
      refine ⟨_, _, .cons hx0 hx, .cons hy0 hy, ?_⟩
      have : c = 0 := by simpa using h2
      simp [hd, sumCoeff, this]

theorem sumProductsWithCoeffAndVar_sound (vs : List (ZMod p × QCell p × QCell p)) (var : QCell p) :
    Sound tbl (sumProductsWithCoeffAndVar vs var) (fun w r =>
      ∃ v xs ys, QOk w var v ∧ QOks w (vs.map (·.2.1)) xs ∧ QOks w (vs.map (·.2.2)) ys ∧
        at' w r = v + sumCoeff (vs.map (·.1)) xs ys) := by
  intro s
  refine Snd.bind (spBody_sound vs s) fun l s1 _ => ?_
  refine (innerProduct_sound _ _ (by simp) s1).weaken ?_
  rintro w r _ ⟨us, ts, hu, ht, hr⟩ h
  cases hu with
  | cons hu0 hu =>
    cases ht with
    | @cons _ t0 _ _ ht0 ht =>
      obtain ⟨xs, ys, hx, hy, hd⟩ := h _ _ hu ht
      have e2 : t0 = 1 := ht0
      exact ⟨_, xs, ys, hu0, hx, hy, by rw [hr, dot_cons, hd, e2]; ring⟩

/-! ### bits -/

theorem QOks.constants {w : Cell → ZMod p} {cs xs : List (ZMod p)}
    (h : QOks w (cs.map .constant) xs) : xs = cs := by
  induction cs generalizing xs with
  | nil => cases h; rfl
  | cons c cs ih =>
    cases h with
    | cons h1 h2 => rw [ih h2, show _ = c from h1]

theorem QOks_constants {w : Cell → ZMod p} {cs xs : List (ZMod p)}
    (h : QOks w (cs.map .constant) xs) : xs = cs := by
  induction cs generalizing xs with
  | nil => cases h; rfl
  | cons a as ih =>
    cases h with
    | cons h1 h2 => rw [ih h2, show _ = a from h1]

theorem QOks.existing {w : Cell → ZMod p} {as : List (AV p)} {xs : List (ZMod p)}
    (h : QOks w (as.map .existing) xs) : xs = as.map (at' w) := by
  induction as generalizing xs with
  | nil => cases h; rfl
  | cons c cs ih =>
    cases h with
    | cons h1 h2 => rw [ih h2, show _ = at' w c from h1]; rfl

/-- Powers of `B`, starting at `B^k`. -/
theorem dot_pows (B : ZMod p) (ns : List ℕ) (k : ℕ) :
    dot (ns.map (fun n : ℕ => (n : ZMod p))) ((List.range ns.length).map (fun i => B ^ (k + i)))
      = B ^ k * Nat.ofDigits B ns := by
  induction ns generalizing k with
  | nil => simp [Nat.ofDigits]
  | cons n ns ih =>
    have hc : Nat.ofDigits B (n :: ns) = (n : ZMod p) + B * Nat.ofDigits B ns := rfl
    simp only [List.length_cons, List.map_cons, List.range_succ_eq_map, dot_cons, List.map_map, hc]
    have : (List.map ((fun i => B ^ (k + i)) ∘ Nat.succ) (List.range ns.length))
        = (List.range ns.length).map (fun i => B ^ (k + 1 + i)) := by
      apply List.map_congr_left
      intro i _
      simp only [Function.comp, Nat.succ_eq_add_one]
      congr 1; omega
    rw [this, ih (k + 1)]
    simp only [add_zero, pow_succ]
    ring

theorem dot_pow2 (ns : List ℕ) :
    dot (ns.map (fun n : ℕ => (n : ZMod p))) ((List.range ns.length).map (fun i : ℕ => (2 : ZMod p) ^ i))
      = ((Nat.ofDigits 2 ns : ℕ) : ZMod p) := by
  have := dot_pows (2 : ZMod p) ns 0
  simp only [zero_add, pow_zero, one_mul] at this
  rw [this, Nat.coe_ofDigits]
  simp

/-- A list of field elements each 0 or 1 is the image of a list of bits. -/
theorem bits_of_bool {xs : List (ZMod p)} (h : ∀ x ∈ xs, x = 0 ∨ x = 1) :
    ∃ bs : List ℕ, (∀ b ∈ bs, b < 2) ∧ xs = bs.map (fun b : ℕ => (b : ZMod p)) := by
  induction xs with
  | nil => exact ⟨[], by simp, rfl⟩
  | cons x xs ih =>
    obtain ⟨bs, h1, h2⟩ := ih fun y hy => h y (by simp [hy])
    rcases h x (by simp) with hx | hx
    · exact ⟨0 :: bs, by simpa using h1, by simp [hx, h2]⟩
    · exact ⟨1 :: bs, by simpa using h1, by simp [hx, h2]⟩

theorem sliceTo_rd {s : Ctx p} {α : Type} (l : List α) (n : ℕ) :
    Rd s (sliceTo l n : M p (List α)) (fun r => n ≤ l.length ∧ r = l.take n) := by
  unfold sliceTo
  exact Rd.ite (fun h => Rd.pure ⟨h, rfl⟩) fun _ => Rd.panic

theorem powOfTwo_take {n : ℕ} (h : n ≤ (powOfTwo p).length) :
    (powOfTwo p).take n = (List.range n).map (fun i : ℕ => (2 : ZMod p) ^ i) := by
  simp only [powOfTwo, List.length_map, List.length_range] at h
  rw [powOfTwo, ← List.map_take, List.take_range, Nat.min_eq_left h]

theorem assertBits_sound (xs : List (AV p)) :
    Sound tbl (assertBits xs) (fun w _ => ∀ x ∈ xs, at' w x = 0 ∨ at' w x = 1) := by
  induction xs with
  | nil => exact fun s => Snd.pure (by simp)
  | cons x xs ih =>
    intro s
    refine Snd.bind (assertBit_sound x s) fun _ s1 _ => ?_
    refine (ih s1).weaken ?_
    intro w _ _ h1 h2
    simpa using ⟨h2, h1⟩

/-- `num_to_bits` returns boolean cells whose weighted sum is `a`. -/
theorem numToBits_sound (a : AV p) (n : ℕ) : Sound tbl (numToBits a n) (fun w rs =>
    ∃ bs : List ℕ, (∀ b ∈ bs, b < 2) ∧ rs.map (at' w) = bs.map (fun b : ℕ => (b : ZMod p)) ∧
      rs.length = max n 1 ∧ Nat.ofDigits 2 bs < 2 ^ n ∧
      at' w a = ((Nat.ofDigits 2 bs : ℕ) : ZMod p)) := by
  intro s
  refine Snd.unwrap fun x _ => adviceLen_snd ?_
  refine Snd.rd (sliceTo_rd _ _) fun pows hp => ?_
  obtain ⟨hn, rfl⟩ := hp
  rw [powOfTwo_take hn]
  unfold innerProduct
  simp only [bind_assoc]
  have hlen : ((limbsOf x.val n 1).map (fun b : ℕ => (.witness (b : ZMod p) : QCell p))).length
      = (((List.range n).map (fun i : ℕ => (2 : ZMod p) ^ i)).map (QCell.constant (p := p))).length := by
    simp [limbsOf]
  refine Snd.bind (innerProductSimple_snd _ _ hlen) fun one s1 e1 => ?_
  refine Snd.rd lastM_rd fun acc hacc => ?_
  refine Snd.bind (constrainEqual_sound a acc s1) fun _ s2 e2 => ?_
  refine Snd.rd (getM_rd _) fun b0 hb0 => ?_
  refine Snd.rd (getsM_rd _) fun bs' hbs => ?_
  refine Snd.bind (assertBits_sound (b0 :: bs') s2) fun _ s3 e3 => Snd.pure ?_
  rintro w - hbit heq ⟨h1, hone, hl, xs, ys, hx, hy, hv, hs, h0⟩
  have hn' : ((limbsOf x.val n 1).map (fun b : ℕ => (.witness (b : ZMod p) : QCell p))).length = n := by
    simp [limbsOf]
  have hacc' : at' w acc = dot xs ys := by
    rw [← ip_last hone hlen hx hy hs h0, ← e1.rowV]
    exact rowV_of_cell hacc.2.1 (by omega)
  have hxl := hx.length
  rw [hn'] at *
  have hy' := QOks.constants hy
  -- the bit cells are the cells of `a` in the inner product
  obtain ⟨i0, hi0, -, hc0, -⟩ := hb0
  rw [getRow, if_neg (by omega)] at hi0
  have hb0' : at' w b0 = rowV w s s.advice.length 0 := by
    rw [← (e1.trans e2).rowV]; exact rowV_of_cell hc0 (by omega)
  have hbl := List.Forall₂.length_eq hbs
  simp only [List.length_map, List.length_range] at hbl
  cases n with
  | zero =>
    have hbs0 : bs' = [] := List.length_eq_zero_iff.1 (by omega)
    subst hbs0
    have hx0 : xs = [] := List.length_eq_zero_iff.1 (by omega)
    subst hx0
    refine ⟨[0], by simp, ?_, by simp, by simp, ?_⟩
    · simp [hb0', h0 rfl]
    · rw [heq, hacc']; simp
  | succ n =>
    have hone1 : one = true := by
      rw [h1, startsWithOne_iff, List.range_succ_eq_map]
      simp
    have hcells : (b0 :: bs').map (at' w) = xs := by
      apply List.ext_getElem?
      intro i
      by_cases hi : i < n + 1
      · rw [hv i (by simpa [limbsOf] using hi)]
        cases i with
        | zero => simp [ipRow, hone1, hb0']
        | succ i =>
          have hi' : i < bs'.length := by omega
          have := (List.forall₂_iff_get.1 hbs).2 i (by simp; omega) hi'
          simp only [List.get_eq_getElem, List.getElem_map, List.getElem_range] at this
          obtain ⟨j, hj, -, hj3, -⟩ := this
          rw [getRow, if_neg (by omega)] at hj
          simp only [List.map_cons, List.getElem?_cons_succ, List.getElem?_map,
            List.getElem?_eq_getElem hi', Option.map_some, Option.some.injEq]
          rw [← (e1.trans e2).rowV]
          refine rowV_of_cell hj3 ?_
          simp only [hone1, ipRow, if_true]
          rw [if_neg (by omega)]
          omega
      · rw [List.getElem?_eq_none (by simp; omega), List.getElem?_eq_none (by omega)]
    have hbool : ∀ x ∈ xs, x = 0 ∨ x = 1 := by
      rw [← hcells]
      intro y hy
      obtain ⟨b, hb, rfl⟩ := List.mem_map.1 hy
      exact hbit b hb
    obtain ⟨bs, hb2, hbx⟩ := bits_of_bool hbool
    have hbsl : bs.length = n + 1 := by rw [hbx] at hxl; simpa using hxl.symm
    refine ⟨bs, hb2, by rw [hcells, hbx], by simp; omega, ?_, ?_⟩
    · rw [← hbsl]
      exact Nat.ofDigits_lt_base_pow_length (by norm_num) hb2
    · rw [heq, hacc', hy', hbx, ← hbsl, dot_pow2]

theorem bitsToNum_sound (bits : List (AV p)) : Sound tbl (bitsToNum bits) (fun w r =>
    ∀ bs : List ℕ, bits.map (at' w) = bs.map (fun b : ℕ => (b : ZMod p)) →
      at' w r = ((Nat.ofDigits 2 bs : ℕ) : ZMod p)) := by
  intro s
  refine Snd.assert fun _ => ?_
  refine Snd.rd (sliceTo_rd _ _) fun pows hp => ?_
  obtain ⟨hn, rfl⟩ := hp
  rw [powOfTwo_take hn]
  refine (innerProduct_sound _ _ (by simp) s).weaken ?_
  rintro w r _ ⟨xs, ys, hx, hy, hr⟩ bs hbs
  have hl : bits.length = bs.length := by simpa using congrArg List.length hbs
  rw [hr, QOks.existing hx, QOks.constants hy, hbs, hl, dot_pow2]

/-! ### powers -/

theorem powSquare_sound (first : Bool) (acc : AV p) : Sound tbl (powSquare first acc) (fun w r =>
    at' w r = if first then at' w acc else at' w acc * at' w acc) := by
  intro s
  unfold powSquare
  cases first
  · refine (mul_sound _ _ s).weaken ?_
    rintro w r _ ⟨x, y, hx, hy, h⟩
    rw [h, show x = at' w acc from hx, show y = at' w acc from hy]; simp
  · exact Snd.pure fun w _ => by simp

theorem powVarLoop_sound (a : AV p) (first : Bool) (acc : AV p) (bits : List (AV p)) :
    Sound tbl (powVarLoop a first acc bits) (fun w r => ∀ (bs : List ℕ) (v : ℕ),
      (∀ b ∈ bs, b < 2) → bits.map (at' w) = bs.map (fun b : ℕ => (b : ZMod p)) →
      at' w acc = at' w a ^ v → (first = true → v = 0) →
      at' w r = at' w a ^ (v * 2 ^ bs.length + Nat.ofDigits 2 bs.reverse)) := by
  induction bits generalizing first acc with
  | nil =>
    intro s
    refine Snd.pure ?_
    intro w _ bs v _ hbs hacc _
    have : bs = [] := by simpa using hbs.symm
    subst this
    simpa using hacc
  | cons bit bits ih =>
    intro s
    refine Snd.bind (powSquare_sound first acc s) fun acc1 s1 _ => ?_
    refine Snd.bind (mul_sound _ _ s1) fun m s2 _ => ?_
    refine Snd.bind (select_sound _ _ _ s2) fun acc2 s3 _ => ?_
    refine (ih false acc2 s3).weaken ?_
    rintro w r _ h ⟨x, y, z, hx, hy, hz, hsel⟩ ⟨x', y', hx', hy', hm⟩ hsq bs v hb hbs hacc hfirst
    cases bs with
    | nil => simp at hbs
    | cons b bs =>
      simp only [List.map_cons, List.cons.injEq] at hbs
      have e1 : x = at' w m := hx
      have e2 : y = at' w acc1 := hy
      have e3 : z = at' w bit := hz
      have e4 : x' = at' w acc1 := hx'
      have e5 : y' = at' w a := hy'
      have hacc1 : at' w acc1 = at' w a ^ (2 * v) := by
        rw [hsq]
        cases first
        · simp [hacc]; ring
        · simp [hacc, hfirst rfl]
      have hb2 : b < 2 := hb b (by simp)
      have hacc2 : at' w acc2 = at' w a ^ (2 * v + b) := by
        rw [hsel, e1, e2, e3, hm, e4, e5, hbs.1, hacc1]
        interval_cases b
        · simp
        · simp [pow_succ]
      have := h bs (2 * v + b) (fun b' hb' => hb b' (by simp [hb'])) hbs.2 hacc2 (by simp)
      rw [this]
      congr 1
      rw [List.reverse_cons, Nat.ofDigits_append, Nat.ofDigits_singleton, List.length_cons,
        List.length_reverse]
      ring

theorem powVar_sound (a exp : AV p) (n : ℕ) : Sound tbl (powVar a exp n) (fun w r =>
    ∃ e : ℕ, e < 2 ^ n ∧ at' w exp = (e : ZMod p) ∧ at' w r = at' w a ^ e) := by
  intro s
  refine Snd.bind (numToBits_sound exp n s) fun bits s1 _ => ?_
  refine Snd.bind (loadConstant_sound 1 s1) fun acc s2 _ => ?_
  refine (powVarLoop_sound a true acc bits.reverse s2).weaken ?_
  rintro w r _ h hacc ⟨bs, hb, hbs, -, hlt, hexp⟩
  refine ⟨_, hlt, hexp, ?_⟩
  have := h bs.reverse 0 (by simpa using hb) (by simp [List.map_reverse, hbs]) (by simpa using hacc)
    (by simp)
  simpa using this

/-! ### indicators -/

/-- One-hot vector of length `n` with the one at `i`. -/
def oneHot (n i : ℕ) : List (ZMod p) := (List.range n).map (fun j => if j = i then 1 else 0)

/-- One more bit of an indicator vector. -/
def expandBit (b : ZMod p) (cur : List (ZMod p)) : List (ZMod p) :=
  cur.flatMap (fun x => [(1 - b) * x, b * x])

theorem indicatorInner_sound (bit : AV p) (offset : ℕ) (olds : List ℕ) (ind : List (AV p)) :
    Sound tbl (indicatorInner bit offset olds ind) (fun w ind' =>
      ∃ new : List (AV p), ind' = ind ++ new ∧
        ∃ vals : List (ZMod p), (List.Forall₂ (fun o v => ((ind ++ new)[offset + o]?.map (at' w)) = some v) olds vals) ∧
        new.map (at' w) = expandBit (at' w bit) vals) := by
  induction olds generalizing ind with
  | nil => exact fun s => Snd.pure fun w _ => ⟨[], by simp, [], .nil, rfl⟩
  | cons o olds ih =>
    intro s
    refine Snd.unwrap fun e he => Snd.unwrap fun bv _ => Snd.unwrap fun ev _ => ?_
    rw [← bind_assoc]
    refine Snd.bind (regionGet_snd _ _ _ (by simp) (by simp)) fun x s1 _ => ?_
    refine Snd.unwrap fun e' he' => ?_
    have : e' = e := by
      rw [List.getElem?_append_left (List.getElem?_eq_some_iff.1 he).1, he] at he'
      exact (Option.some.inj he').symm
    subst this
    refine Snd.bind (mul_sound _ _ s1) fun y s2 _ => ?_
    refine (ih _ s2).weaken ?_
    rintro w ind' _ ⟨new, hn, vals, hv, hm⟩ ⟨u, v, hu, hv', hy⟩ ⟨V, h1, h2, h3⟩
    have e1 : u = at' w e' := hu
    have e2 : v = at' w bit := hv'
    simp [QsOk, QOk, gateV] at h1 h2 h3
    obtain ⟨k1, k2, k3⟩ := h1
    refine ⟨x :: y :: new, by simp [hn], at' w e' :: vals, ?_, ?_⟩
    · refine .cons ?_ ?_
      · rw [List.getElem?_append_left (List.getElem?_eq_some_iff.1 he).1, he]; rfl
      · simpa using hv
    · simp only [List.map_cons, hm, expandBit, List.flatMap_cons, List.cons_append, List.nil_append]
      rw [hy, e1, e2, h3]
      congr 1
      · linear_combination h2 + k3 - V 2 * k1 - at' w e' * k2
      · rw [mul_comm]

theorem expandBit_oneHot (b n v : ℕ) (hb : b < 2) :
    expandBit (b : ZMod p) (oneHot n v) = oneHot (2 * n) (2 * v + b) := by
  induction n with
  | zero => simp [expandBit, oneHot]
  | succ n ih =>
    have e : oneHot (2 * (n + 1)) (2 * v + b) = oneHot (p := p) (2 * n) (2 * v + b) ++
        [if 2 * n = 2 * v + b then 1 else 0, if 2 * n + 1 = 2 * v + b then 1 else 0] := by
      simp only [oneHot]
      rw [show 2 * (n + 1) = 2 * n + 1 + 1 by ring, List.range_succ, List.range_succ]
      simp
    rw [e, ← ih]
    simp only [expandBit, oneHot, List.range_succ, List.map_append, List.flatMap_append]
    congr 1
    by_cases hn : n = v
    · subst hn
      interval_cases b
      · simp
      · simp
    · have : ¬ (2 * n = 2 * v + b) := by omega
      have h2 : ¬ (2 * n + 1 = 2 * v + b) := by omega
      simp [hn, this, h2]

theorem oneHot_length (n v : ℕ) : (oneHot (p := p) n v).length = n := by simp [oneHot]

/-- Values selected by consecutive indices. -/
theorem forall₂_range {α β : Type} {l : List α} {f : α → β} {offset n : ℕ} {vals : List β}
    (h : List.Forall₂ (fun o v => l[offset + o]?.map f = some v) (List.range n) vals) :
    vals = ((l.drop offset).take n).map f := by
  have hl := List.Forall₂.length_eq h
  simp only [List.length_range] at hl
  apply List.ext_getElem?
  intro i
  by_cases hi : i < n
  · have := (List.forall₂_iff_get.1 h).2 i (by simpa using hi) (by omega)
    simp only [List.get_eq_getElem, List.getElem_range] at this
    rw [List.getElem?_eq_getElem (by omega), ← this, List.getElem?_map, List.getElem?_take, if_pos hi,
      List.getElem?_drop]
  · rw [List.getElem?_eq_none (by omega), List.getElem?_eq_none]
    simp; omega

theorem indicatorOuter_sound (bits : List (AV p)) (idx offset : ℕ) (ind : List (AV p)) :
    Sound tbl (indicatorOuter bits idx offset ind) (fun w ind' =>
      ∀ (bs : List ℕ) (v : ℕ), (∀ b ∈ bs, b < 2) →
        bits.map (at' w) = bs.map (fun b : ℕ => (b : ZMod p)) →
        ind.length = offset + 2 ^ idx →
        (ind.drop offset).map (at' w) = oneHot (2 ^ idx) v →
        ind'.length + 2 * 2 ^ idx = ind.length + 2 * 2 ^ (idx + bits.length) ∧
        (ind'.drop (offset + 2 ^ (idx + bits.length) - 2 ^ idx)).map (at' w)
          = oneHot (2 ^ (idx + bits.length)) (v * 2 ^ bs.length + Nat.ofDigits 2 bs.reverse)) := by
  induction bits generalizing idx offset ind with
  | nil =>
    intro s
    refine Snd.pure ?_
    intro w _ bs v _ hbs hl hoh
    have : bs = [] := by simpa using hbs.symm
    subst this
    simpa using hoh
  | cons bit bits ih =>
    intro s
    refine Snd.bind (indicatorInner_sound bit offset _ ind s) fun ind1 s1 _ => ?_
    refine (ih (idx + 1) (offset + 2 ^ idx) ind1 s1).weaken ?_
    rintro w ind' _ h ⟨new, hn, vals, hv, hm⟩ bs v hb hbs hl hoh
    cases bs with
    | nil => simp at hbs
    | cons b bs =>
      simp only [List.map_cons, List.cons.injEq] at hbs
      have hb2 : b < 2 := hb b (by simp)
      have hvals : vals = oneHot (2 ^ idx) v := by
        rw [forall₂_range hv, ← hoh]
        congr 1
        have hle : offset ≤ ind.length := by rw [hl]; exact Nat.le_add_right _ _
        have hdl : (ind.drop offset).length = 2 ^ idx := by rw [List.length_drop, hl]; simp
        rw [List.drop_append_of_le_length hle, List.take_append_of_le_length (by rw [hdl])]
        exact List.take_of_length_le (by rw [hdl])
      rw [hvals, hbs.1, expandBit_oneHot _ _ _ hb2] at hm
      have hnl : new.length = 2 * 2 ^ idx := by
        have := congrArg List.length hm
        simpa [oneHot_length] using this
      have h2 := h bs (2 * v + b) (fun b' hb' => hb b' (by simp [hb'])) hbs.2 (by
        rw [hn, List.length_append, hl, hnl, pow_succ]; ring) (by
        rw [hn, List.drop_append_of_le_length (by rw [hl]), List.drop_of_length_le (by rw [hl]),
          List.nil_append, hm, pow_succ, mul_comm 2 (2 ^ idx)])
      have e3 : idx + 1 + bits.length = idx + (bit :: bits).length := by simp; omega
      have e4 : 2 ^ (idx + 1) = 2 * 2 ^ idx := by rw [pow_succ]; ring
      have e5 : 2 ^ (idx + 1) ≤ 2 ^ (idx + 1 + bits.length) := Nat.pow_le_pow_right (by norm_num) (by omega)
      rw [e3] at h2 e5
      refine ⟨?_, ?_⟩
      · have := h2.1
        have hle : ind1.length = ind.length + 2 * 2 ^ idx := by rw [hn, List.length_append, hnl]
        omega
      · have := h2.2
        convert this using 2
        · congr 1; omega
        · rw [List.reverse_cons, Nat.ofDigits_append, Nat.ofDigits_singleton, List.length_cons,
            List.length_reverse]
          ring

/-- `bits_to_indicator` returns the one-hot vector of the number encoded by the (boolean) bits. -/
theorem bitsToIndicator_sound (bits : List (AV p)) : Sound tbl (bitsToIndicator bits) (fun w rs =>
    ∀ bs : List ℕ, (∀ b ∈ bs, b < 2) → bits.map (at' w) = bs.map (fun b : ℕ => (b : ZMod p)) →
      rs.map (at' w) = oneHot (2 ^ bits.length) (Nat.ofDigits 2 bs)) := by
  intro s
  unfold bitsToIndicator
  split
  · exact Snd.panic
  · rename_i last rest hrev
    refine Snd.unwrap fun x _ => ?_
    refine Snd.bind (assignRegion_snd _ _) fun _ s1 e1 => ?_
    refine Snd.rd (getM_rd _) fun inv hinv => ?_
    refine Snd.rd (getM_rd _) fun lb hlb => ?_
    refine Snd.bind (indicatorOuter_sound rest 1 0 [inv, lb] s1) fun ind s2 _ => Snd.pure ?_
    rintro w - h ⟨hl, h1, h2⟩ bs hb hbs
    simp [QsOk, QOk, gateV] at h1 h2 hl
    obtain ⟨k1, k2, k3⟩ := h1
    obtain ⟨i, hi, -, hic, -⟩ := hinv
    obtain ⟨j, hj, -, hjc, -⟩ := hlb
    rw [getRow, if_pos (by omega)] at hi hj
    have hinv' : at' w inv = rowV w s s.advice.length 0 := by
      rw [← e1.rowV]; exact rowV_of_cell hic (by omega)
    have hlb' : at' w lb = rowV w s s.advice.length 1 := by
      rw [← e1.rowV]; exact rowV_of_cell hjc (by omega)
    have hbl : bits.length = bs.length := by simpa using congrArg List.length hbs
    have hbits : bits = rest.reverse ++ [last] := by
      rw [← List.reverse_reverse bits, hrev, List.reverse_cons]
    obtain ⟨bt, bl, rfl⟩ : ∃ bt bl, bs = bt ++ [bl] := by
      have : bs ≠ [] := by
        rintro rfl; rw [hbits] at hbl; simp at hbl
      exact ⟨_, _, (List.dropLast_append_getLast this).symm⟩
    rw [hbits, List.map_append, List.map_append] at hbs
    have := List.append_inj' hbs (by simp)
    obtain ⟨hr, hlast⟩ := this
    simp only [List.map_cons, List.map_nil, List.cons.injEq, and_true] at hlast
    have hb2 : bl < 2 := hb bl (by simp)
    have := h bt.reverse bl (by
      intro b hb'; exact hb b (by simp at hb'; simp [hb'])) (by
      rw [← List.reverse_inj, ← List.map_reverse, hr, List.map_reverse, List.reverse_reverse]) rfl (by
      simp only [List.drop_zero, List.map_cons, List.map_nil, hinv', hlb', k1, hlast, pow_one, oneHot]
      have e0 : rowV w s s.advice.length 0 = 1 - (bl : ZMod p) := by
        rw [k3, k2, k1, hlast] at h2; linear_combination h2
      rw [e0]
      interval_cases bl <;> simp [List.range_succ])
    simp only [zero_add] at this
    have e6 : 1 + rest.length = bits.length := by rw [hbits]; simp; omega
    rw [e6] at this
    rw [pow_one] at this
    rw [this.2, List.reverse_reverse, List.length_reverse, Nat.ofDigits_append,
      Nat.ofDigits_singleton, add_comm, mul_comm]

theorem idxToIndicatorLoop_sound (idx : AV p) (is : List ℕ) :
    Sound tbl (idxToIndicatorLoop idx is) (fun w rs =>
      rs.map (at' w) = is.map (fun i : ℕ => if at' w idx = (i : ZMod p) then 1 else 0)) := by
  induction is with
  | nil => exact fun s => Snd.pure fun _ _ => rfl
  | cons i is ih =>
    intro s
    refine Snd.bind (isEqual_sound _ _ s) fun r s1 _ => ?_
    refine Snd.bind (ih s1) fun rest s2 _ => Snd.pure ?_
    rintro w - h ⟨x, y, hx, hy, hr⟩
    simp only [List.map_cons, h, hr, show x = at' w idx from hx, show y = (i : ZMod p) from hy]

theorem idxToIndicator_sound (idx : QCell p) (len : ℕ) :
    Sound tbl (idxToIndicator idx len) (fun w rs => ∃ x, QOk w idx x ∧
      rs.map (at' w) = (List.range len).map (fun i : ℕ => if x = (i : ZMod p) then 1 else 0)) := by
  intro s
  cases len with
  | zero =>
    exact Snd.pure fun w _ => by
      obtain ⟨x, hx⟩ := QOk.exists w idx
      exact ⟨x, hx, rfl⟩
  | succ n =>
    refine Snd.unwrap fun x _ => ?_
    refine Snd.bind (assignRegionSmart_snd _ _ _ _) fun _ s1 e1 => ?_
    refine Snd.rd (getM_rd _) fun idx' hidx => ?_
    refine Snd.rd (getM_rd _) fun r hr => ?_
    refine Snd.bind (idxToIndicatorLoop_sound idx' _ s1) fun rest s2 _ => Snd.pure ?_
    rintro w - h ⟨hl, h1, h2, h4, -⟩
    simp [QsOk, QOk, gateV] at h1 h2 hl h4
    obtain ⟨i, hi, -, hic, -⟩ := hidx
    obtain ⟨j, hj, -, hjc, -⟩ := hr
    rw [getRow, if_pos (by omega)] at hi hj
    have hidx' : at' w idx' = rowV w s s.advice.length 5 := by
      rw [← e1.rowV]; exact rowV_of_cell hic (by omega)
    have hr' : at' w r = rowV w s s.advice.length 6 := by
      rw [← e1.rowV]; exact rowV_of_cell hjc (by omega)
    obtain ⟨k1, k2, k3, k4, k5⟩ := h1
    refine ⟨_, k4, ?_⟩
    rw [List.map_cons, h, List.range_succ_eq_map, List.map_cons]
    congr 1
    · rw [hr']
      obtain ⟨g1, g2⟩ := h2
      obtain ⟨q1, q2⟩ := h4
      have := isZero_alg (out := rowV w s s.advice.length 6) (a := rowV w s s.advice.length 5)
        (inv := rowV w s s.advice.length 2) (by rw [← q1, ← q2, g1, k2]) (by
          rw [k3, k5] at g2; linear_combination g2)
      simpa using this
    · simp only [List.map_map, hidx']

theorem selBody_rd {s : Ctx p} (sum : ZMod p) (l : List (QCell p × AV p)) :
    Rd s (selBody sum l) (fun cells => Chain (l.map (fun e => (e.1, .existing e.2))) cells) := by
  induction l generalizing sum with
  | nil => exact Rd.pure .nil
  | cons e l ih =>
    obtain ⟨a, ind⟩ := e
    refine Rd.bind (unwrap_rd _) fun y _ => Rd.bind (Q := fun _ => True) ?_ fun s' _ =>
      Rd.bind (ih _) fun rest h => Rd.pure (.cons _ h)
    unfold selStep
    exact Rd.ite (fun _ => Rd.pure trivial) fun _ => (unwrap_rd _).weaken fun _ _ => trivial

theorem selectByIndicator_sound (a : List (QCell p)) (ind : List (AV p))
    (hlen : a.length = ind.length) : Sound tbl (selectByIndicator a ind) (fun w r =>
      ∃ xs, QOks w a xs ∧ at' w r = dot xs (ind.map (at' w))) := by
  intro s
  refine Snd.rd (selBody_rd 0 (a.zip ind)) fun cells hc => ?_
  refine (assignRegionLast_snd _ _ (by simp)).weaken ?_
  rintro w r _ ⟨V, h1, h2, h3⟩
  have hz : ((a.zip ind).map (fun e => (e.1, (.existing e.2 : QCell p)))).length = a.length := by
    simp [hlen]
  rw [← hz] at h2
  obtain ⟨x0, xs, ys, k1, k2, k3, -, k4, -⟩ := chain_region hc h1 h2
  have e1 : ((a.zip ind).map (fun e => (e.1, (.existing e.2 : QCell p)))).map Prod.fst = a := by
    rw [List.map_map]
    change (a.zip ind).map Prod.fst = a
    exact List.map_fst_zip (by omega)
  have e2 : ((a.zip ind).map (fun e => (e.1, (.existing e.2 : QCell p)))).map Prod.snd
      = ind.map .existing := by
    rw [List.map_map]
    change (a.zip ind).map (QCell.existing ∘ Prod.snd) = _
    rw [← List.map_map, List.map_snd_zip (by omega)]
  rw [e1] at k2
  rw [e2] at k3
  have hx0 : x0 = 0 := k1
  have := k4 _ le_rfl
  have l1 := k2.length
  have l2 := k3.length
  simp only [List.length_map] at l2
  rw [hz, List.take_of_length_le (by omega), List.take_of_length_le (by omega), hx0, zero_add] at this
  refine ⟨xs, k2, ?_⟩
  rw [← QOks.existing k3, ← this, h3]
  congr 1
  simp only [List.length_cons, hc.length, hz]
  push_cast; ring

theorem idxToIndicator_length {s : Ctx p} {idx : QCell p} {len : ℕ} (hi : Inv s) (r : List (AV p)) (s' : Ctx p)
    (h : idxToIndicator idx len s = some (r, s')) : r.length = len := by
  have key : ∀ (x : AV p) (is : List ℕ) (s : Ctx p) (r : List (AV p)) (s' : Ctx p),
      idxToIndicatorLoop x is s = some (r, s') → r.length = is.length := by
    intro x is
    induction is with
    | nil => intro s r s' h; simp [idxToIndicatorLoop] at h; simp [← h.1]
    | cons i is ih =>
      intro s r s' h
      obtain ⟨_, _, _, h⟩ := bind_some.1 h
      obtain ⟨_, _, h1, h⟩ := bind_some.1 h
      simp at h
      simp [← h.1, ih _ _ _ h1]
  cases len with
  | zero => simp [idxToIndicator] at h; simp [← h.1]
  | succ n =>
    obtain ⟨_, _, _, h⟩ := bind_some.1 h
    obtain ⟨_, _, _, h⟩ := bind_some.1 h
    obtain ⟨_, _, _, h⟩ := bind_some.1 h
    obtain ⟨_, _, _, h⟩ := bind_some.1 h
    obtain ⟨_, _, h1, h⟩ := bind_some.1 h
    simp at h
    simp [← h.1, key _ _ _ _ _ h1]

theorem selectFromIdx_sound (cells : List (QCell p)) (idx : QCell p) :
    Sound tbl (selectFromIdx cells idx) (fun w r => ∃ x xs, QOk w idx x ∧ QOks w cells xs ∧
      at' w r = dot xs ((List.range cells.length).map (fun i : ℕ => if x = (i : ZMod p) then 1 else 0))) := by
  intro s
  refine Snd.bindP (idxToIndicator_sound idx cells.length s) idxToIndicator_length
    fun ind s1 _ hl => ?_
  refine (selectByIndicator_sound cells ind hl.symm s1).weaken ?_
  rintro w r _ ⟨xs, hx, hr⟩ ⟨x, hx0, hi⟩
  exact ⟨x, xs, hx0, hx, by rw [hr, hi]⟩

theorem column_rd {s : Ctx p} (arr : List (List (AV p))) (j : ℕ) :
    Rd s (column arr j) (fun c => ∃ col : List (AV p), c = col.map .existing ∧
      List.Forall₂ (fun (r : List (AV p)) x => r[j]? = some x) arr col) := by
  induction arr with
  | nil => exact Rd.pure ⟨[], rfl, .nil⟩
  | cons r rs ih =>
    refine Rd.bind (unwrap_rd _) fun x hx => Rd.bind ih fun xs hxs => Rd.pure ?_
    obtain ⟨col, rfl, hc⟩ := hxs
    exact ⟨x :: col, rfl, .cons hx hc⟩

theorem selectArrayLoop_sound (arr : List (List (AV p))) (ind : List (AV p))
    (hlen : arr.length = ind.length) (js : List ℕ) :
    Sound tbl (selectArrayLoop arr ind js) (fun w rs => List.Forall₂ (fun j v =>
      ∃ col : List (AV p), List.Forall₂ (fun (r : List (AV p)) x => r[j]? = some x) arr col ∧
        v = dot (col.map (at' w)) (ind.map (at' w))) js (rs.map (at' w))) := by
  induction js with
  | nil => exact fun s => Snd.pure fun _ _ => .nil
  | cons j js ih =>
    intro s
    refine Snd.rd (column_rd arr j) fun c hc => ?_
    obtain ⟨col, rfl, hcol⟩ := hc
    refine Snd.bind (selectByIndicator_sound _ ind (by
      rw [List.length_map, ← List.Forall₂.length_eq hcol, hlen]) s) fun r s1 _ => ?_
    refine Snd.bind (ih s1) fun rest s2 _ => Snd.pure ?_
    rintro w - h ⟨xs, hx, hr⟩
    refine .cons ⟨col, hcol, ?_⟩ h
    rw [hr, QOks.existing hx]

theorem selectArrayByIndicator_sound (arr : List (List (AV p))) (ind : List (AV p))
    (hlen : arr.length = ind.length) :
    Sound tbl (selectArrayByIndicator arr ind) (fun w rs => ∃ r0 t, arr = r0 :: t ∧
      List.Forall₂ (fun j v =>
      ∃ col : List (AV p), List.Forall₂ (fun (r : List (AV p)) x => r[j]? = some x) arr col ∧
        v = dot (col.map (at' w)) (ind.map (at' w))) (List.range r0.length) (rs.map (at' w))) := by
  intro s
  cases arr with
  | nil => exact Snd.panic
  | cons r rs =>
    exact (selectArrayLoop_sound _ _ hlen _ s).weaken fun w rs' _ h => ⟨r, rs, rfl, h⟩

end H2
