import Verif.Gate.Sound

/-! # Soundness of the list routines: sums, inner products, indicators -/

set_option autoImplicit false
namespace H2
variable {p : ℕ} [Fact p.Prime] {tbl : ZMod p → Prop}

/-- Inner product of two lists of field elements. -/
def dot (xs ys : List (ZMod p)) : ZMod p := (List.zipWith (· * ·) xs ys).sum

@[simp] theorem dot_nil (ys : List (ZMod p)) : dot [] ys = 0 := by simp [dot]
@[simp] theorem dot_nil' (xs : List (ZMod p)) : dot xs [] = 0 := by simp [dot]
@[simp] theorem dot_cons (x y : ZMod p) (xs ys : List (ZMod p)) :
    dot (x :: xs) (y :: ys) = x * y + dot xs ys := by simp [dot]

/-- The values `xs` are admissible for the quantum cells `qs`. -/
abbrev QOks (w : Cell → ZMod p) (qs : List (QCell p)) (xs : List (ZMod p)) : Prop :=
  List.Forall₂ (QOk w) qs xs

/-- Cells `a, b, running sum` repeated. -/
inductive Chain : List (QCell p × QCell p) → List (QCell p) → Prop
  | nil : Chain [] []
  | cons {a b l cs} (v : ZMod p) : Chain l cs → Chain ((a, b) :: l) (a :: b :: .witness v :: cs)

theorem Chain.length {l : List (QCell p × QCell p)} {cs : List (QCell p)} (h : Chain l cs) :
    cs.length = 3 * l.length := by
  induction h with
  | nil => rfl
  | cons v _ ih => simp only [List.length_cons, ih]; omega

/-- Running sums of a chain of vertical gates. -/
theorem Chain.value {l : List (QCell p × QCell p)} {cs : List (QCell p)} (h : Chain l cs)
    {w : Cell → ZMod p} {V : ℤ → ZMod p} {j : ℤ} (hq : QsOk w V (j + 1) cs)
    (hg : ∀ i < l.length, gateV V (j + 3 * (i : ℤ))) :
    ∃ xs ys, QOks w (l.map Prod.fst) xs ∧ QOks w (l.map Prod.snd) ys ∧
      (∀ i ≤ l.length, V (j + 3 * (i : ℤ)) = V j + dot (xs.take i) (ys.take i)) ∧
      (∀ i < l.length, xs[i]? = some (V (j + 3 * (i : ℤ) + 1))) := by
  induction h generalizing j with
  | nil =>
    refine ⟨[], [], .nil, .nil, ?_, by simp⟩
    intro i hi
    obtain rfl : i = 0 := by simpa using hi
    simp
  | @cons a b l cs v hc ih =>
    obtain ⟨h1, h2, -, h3⟩ := hq
    obtain ⟨xs, ys, hx, hy, hv, hw⟩ := ih (j := j + 3) (by
      convert h3 using 1; ring) (by
      intro i hi
      have := hg (i + 1) (by simpa using hi)
      convert this using 1; push_cast; ring)
    have h2' : QOk w b (V (j + 2)) := by
      convert h2 using 2; ring
    have g0 := hg 0 (by simp)
    simp only [Nat.cast_zero, mul_zero, add_zero, gateV] at g0
    refine ⟨V (j + 1) :: xs, V (j + 2) :: ys, .cons h1 hx, .cons h2' hy, ?_, ?_⟩
    · intro i hi
      cases i with
      | zero => simp
      | succ i =>
        have := hv i (by simpa using hi)
        simp only [List.take_succ_cons, dot_cons]
        rw [show j + 3 * ((i + 1 : ℕ) : ℤ) = j + 3 + 3 * (i : ℤ) by push_cast; ring, this, ← g0]
        ring
    · intro i hi
      cases i with
      | zero => simp
      | succ i =>
        have := hw i (by simpa using hi)
        simp only [List.getElem?_cons_succ, this]
        congr 2; push_cast; ring

theorem mem_offs3 {n : ℕ} {o : ℤ} : o ∈ offs3 n ↔ ∃ i < n, o = 3 * (i : ℤ) := by
  simp only [offs3, List.mem_map, List.mem_range]
  constructor
  · rintro ⟨i, hi, rfl⟩; exact ⟨i, hi, rfl⟩
  · rintro ⟨i, hi, rfl⟩; exact ⟨i, hi, rfl⟩

/-- A region `start, (a, b, sum)*` with gates at `0, 3, 6, ..`. -/
theorem chain_region {l : List (QCell p × QCell p)} {cs : List (QCell p)} (h : Chain l cs)
    {start : QCell p} {w : Cell → ZMod p} {V : ℤ → ZMod p} (hq : QsOk w V 0 (start :: cs))
    (hg : ∀ o ∈ offs3 l.length, gateV V o) :
    ∃ x0 xs ys, QOk w start x0 ∧ QOks w (l.map Prod.fst) xs ∧ QOks w (l.map Prod.snd) ys ∧
      V 0 = x0 ∧
      (∀ i ≤ l.length, V (3 * (i : ℤ)) = x0 + dot (xs.take i) (ys.take i)) ∧
      (∀ i < l.length, xs[i]? = some (V (3 * (i : ℤ) + 1))) := by
  obtain ⟨xs, ys, hx, hy, hv, hw⟩ := h.value (V := V) (j := 0) hq.2 (by
    intro i hi
    have := hg (3 * (i : ℤ)) (mem_offs3.2 ⟨i, hi, rfl⟩)
    simpa using this)
  refine ⟨_, xs, ys, hq.1, hx, hy, rfl, ?_, ?_⟩
  · intro i hi; simpa using hv i hi
  · intro i hi; simpa using hw i hi

/-! ### sums -/

theorem sumBody_rd {s : Ctx p} (sum : ZMod p) (l : List (QCell p)) :
    Rd s (sumBody sum l) (fun cells => Chain (l.map (·, .constant 1)) cells) := by
  induction l generalizing sum with
  | nil => exact Rd.pure .nil
  | cons a l ih =>
    exact Rd.bind (unwrap_rd _) fun x _ => Rd.bind (ih _) fun rest h => Rd.pure (.cons _ h)

theorem dot_ones {w : Cell → ZMod p} {l : List (QCell p)} {xs ys : List (ZMod p)}
    (hx : xs.length = l.length)
    (hy : QOks w (l.map (fun _ => (.constant 1 : QCell p))) ys) : dot xs ys = xs.sum := by
  induction l generalizing xs ys with
  | nil => simp at hx; subst hx; simp
  | cons a l ih =>
    cases xs with
    | nil => simp at hx
    | cons x xs =>
      cases hy with
      | cons h1 h2 =>
        rw [dot_cons, ih (by simpa using hx) h2, show _ = (1 : ZMod p) from h1]
        simp

theorem offs3_map {α : Type} (l : List α) {β : Type} (f : α → β) :
    offs3 (l.map f).length = offs3 l.length := by simp

theorem sum_sound (l : List (QCell p)) : Sound tbl (sum l) (fun w r =>
    ∃ xs, QOks w l xs ∧ at' w r = xs.sum) := by
  intro s
  match l with
  | [] => exact (loadZero_sound s).weaken fun w r _ h => ⟨[], .nil, by simpa using h⟩
  | [a] =>
    refine (assignRegionLast_snd _ _ (by simp)).weaken ?_
    rintro w r _ ⟨V, h1, -, h3⟩
    exact ⟨[V 0], .cons h1.1 .nil, by simpa using h3⟩
  | start :: b :: l =>
    refine Snd.unwrap fun x _ => ?_
    refine Snd.rd (sumBody_rd x (b :: l)) fun cells hc => ?_
    refine (assignRegionLast_snd _ _ (by simp)).weaken ?_
    rintro w r _ ⟨V, h1, h2, h3⟩
    rw [← offs3_map (b :: l) (·, (.constant 1 : QCell p))] at h2
    obtain ⟨x0, xs, ys, k1, k2, k3, -, k4, -⟩ := chain_region hc h1 h2
    simp only [List.map_map, Function.comp_def] at k2 k3
    rw [List.map_id'] at k2
    refine ⟨x0 :: xs, .cons k1 k2, ?_⟩
    have := k4 (b :: l).length (by simp)
    have hl := List.Forall₂.length_eq k2
    have hl2 := List.Forall₂.length_eq k3
    have hcl := hc.length
    rw [List.take_of_length_le (by omega), List.take_of_length_le (by simp at hl2; simp; omega),
      dot_ones hl.symm k3] at this
    rw [h3, List.sum_cons, ← this]
    congr 1
    simp only [List.length_cons, hcl, List.length_map]
    push_cast; ring

theorem getsM_rd {s : Ctx p} (os : List ℤ) : Rd s (getsM os) (fun rs =>
    List.Forall₂ (fun o (r : AV p) => ∃ i : ℕ, (i : ℤ) = getRow s.advice.length o ∧
      i < s.advice.length ∧ r.cell = some (s.cellAt i) ∧ s.advice[i]? = some r.value) os rs) := by
  induction os with
  | nil => exact Rd.pure .nil
  | cons o os ih =>
    exact Rd.bind (getM_rd o) fun a ha => Rd.bind ih fun as has => Rd.pure (.cons ha has)

theorem QOks.length {w : Cell → ZMod p} {qs : List (QCell p)} {xs : List (ZMod p)}
    (h : QOks w qs xs) : qs.length = xs.length := List.Forall₂.length_eq h

/-- Partial sums of a list. -/
def psums (xs : List (ZMod p)) : List (ZMod p) :=
  (List.range xs.length).map (fun i => (xs.take (i + 1)).sum)

theorem partialSums_sound (l : List (QCell p)) : Sound tbl (partialSums l) (fun w rs =>
    ∃ xs, QOks w l xs ∧ rs.map (at' w) = if l = [] then [0] else psums xs) := by
  intro s
  match l with
  | [] =>
    refine Snd.bind (loadZero_sound s) fun z s1 _ => Snd.pure ?_
    intro w _ h
    exact ⟨[], .nil, by simp [h]⟩
  | [a] =>
    refine Snd.bind (assignRegionLast_snd _ _ (by simp)) fun z s1 _ => Snd.pure ?_
    rintro w - ⟨V, h1, -, h3⟩
    exact ⟨[V 0], .cons h1.1 .nil, by simpa [psums] using h3⟩
  | start :: b :: l =>
    refine Snd.unwrap fun x _ => ?_
    refine Snd.rd (sumBody_rd x (b :: l)) fun cells hc => ?_
    refine Snd.bind (assignRegion_snd _ _) fun _ s1 e1 => ?_
    refine (getsM_rd _).snd.weaken ?_
    rintro w rs _ ⟨rfl, hf⟩ ⟨hl, h1, h2⟩
    rw [← offs3_map (b :: l) (·, (.constant 1 : QCell p))] at h2
    obtain ⟨x0, xs, ys, k1, k2, k3, -, k4, -⟩ := chain_region hc h1 h2
    simp only [List.map_map, Function.comp_def] at k2 k3
    rw [List.map_id'] at k2
    refine ⟨x0 :: xs, .cons k1 k2, ?_⟩
    have hxl := QOks.length k2
    have hyl := QOks.length k3
    have hcl := hc.length
    rw [if_neg (by simp)]
    apply List.ext_getElem?
    intro i
    have hrl := List.Forall₂.length_eq hf
    simp only [List.length_map, List.length_reverse, List.length_range] at hrl
    by_cases hi : i < (b :: l).length + 1
    · have hi' : i < rs.length := by omega
      have hfi := List.forall₂_iff_get.1 hf
      have := hfi.2 i (by simpa using hi) hi'
      simp only [List.get_eq_getElem, List.getElem_map, List.getElem_reverse,
        List.getElem_range, List.length_range] at this
      obtain ⟨j, hj, hj2, hj3, -⟩ := this
      simp only [psums, List.getElem?_map, List.getElem?_eq_getElem hi', Option.map_some]
      rw [List.getElem?_range (by simp; simp at hxl hi; omega)]
      simp only [Option.map_some, Option.some.injEq]
      have hlx : i ≤ (List.map (fun x => (x, (.constant 1 : QCell p))) (b :: l)).length := by
        simp at hi ⊢; omega
      have := k4 i hlx
      rw [List.take_succ_cons, List.sum_cons]
      have ht : QOks w ((b :: l).take i |>.map (fun _ => (.constant 1 : QCell p))) (ys.take i) := by
        rw [List.map_take]; exact List.forall₂_take i k3
      rw [dot_ones (l := (b :: l).take i) (by simp [hxl]) ht] at this
      rw [← this, ← e1.rowV]
      refine rowV_of_cell hj3 ?_
      rw [hj, getRow, if_pos (by omega), hl]
      simp only [List.length_cons, hcl, List.length_map]
      simp only [List.length_cons] at hi
      omega
    · rw [List.getElem?_eq_none (by simp only [List.length_map]; omega), List.getElem?_eq_none]
      simp only [psums, List.length_map, List.length_range, List.length_cons]
      simp only [List.length_cons] at hi hxl
      omega

/-- Specification of `accumulated_product`: `x_0 = b_0`, `x_{i+1} = x_i * a_i + b_{i+1}`. -/
def accProd (x : ZMod p) : List (ZMod p × ZMod p) → List (ZMod p)
  | [] => []
  | (a, b) :: l => (x * a + b) :: accProd (x * a + b) l

theorem accProdLoop_sound (x : AV p) (l : List (QCell p × QCell p)) :
    Sound tbl (accProdLoop x l) (fun w rs => ∃ xs ys, QOks w (l.map Prod.fst) xs ∧
      QOks w (l.map Prod.snd) ys ∧ rs.map (at' w) = accProd (at' w x) (xs.zip ys)) := by
  induction l generalizing x with
  | nil => exact fun s => Snd.pure fun w _ => ⟨[], [], .nil, .nil, rfl⟩
  | cons ab l ih =>
    obtain ⟨a, b⟩ := ab
    intro s
    refine Snd.bind (mulAdd_sound _ _ _ s) fun y s1 _ => ?_
    refine Snd.bind (ih y s1) fun rest s2 _ => Snd.pure ?_
    rintro w - ⟨xs, ys, hx, hy, h⟩ ⟨u, v, t, hu, hv, ht, hr⟩
    refine ⟨v :: xs, t :: ys, .cons hv hx, .cons ht hy, ?_⟩
    have hu' : u = at' w x := hu
    simp only [List.map_cons, h, hr, List.zip_cons_cons, accProd, hu']

theorem zip_fst {α β : Type} (a : List α) (b : List β) :
    (a.zip b).map Prod.fst = a.take b.length := by
  induction a generalizing b with
  | nil => simp
  | cons x a ih => cases b with
    | nil => simp
    | cons y b => simp [ih]

theorem zip_snd {α β : Type} (a : List α) (b : List β) :
    (a.zip b).map Prod.snd = b.take a.length := by
  induction a generalizing b with
  | nil => simp
  | cons x a ih => cases b with
    | nil => simp
    | cons y b => simp [ih]

theorem accumulatedProduct_sound (a b : List (QCell p)) :
    Sound tbl (accumulatedProduct a b) (fun w rs => match b with
      | [] => rs = []
      | b0 :: bs => ∃ y0 xs ys, QOk w b0 y0 ∧ QOks w (a.take bs.length) xs ∧
          QOks w (bs.take a.length) ys ∧ rs.map (at' w) = y0 :: accProd y0 (xs.zip ys)) := by
  intro s
  cases b with
  | nil => exact Snd.pure fun _ _ => rfl
  | cons b0 bs =>
    refine Snd.bind (assignRegionLast_snd _ _ (by simp)) fun x s1 _ => ?_
    refine Snd.bind (accProdLoop_sound x _ s1) fun rest s2 _ => Snd.pure ?_
    rintro w - ⟨xs, ys, hx, hy, h⟩ ⟨V, h1, -, h3⟩
    rw [zip_fst] at hx
    rw [zip_snd] at hy
    have h3' : at' w x = V 0 := by simpa using h3
    exact ⟨V 0, xs, ys, h1.1, hx, hy, by simp [h, h3']⟩

/-! ### inner products -/

theorem ipBody_rd {s : Ctx p} (sum : ZMod p) (l : List (QCell p × QCell p)) :
    Rd s (ipBody sum l) (fun cells => Chain l cells) := by
  induction l generalizing sum with
  | nil => exact Rd.pure .nil
  | cons ab l ih =>
    obtain ⟨a, b⟩ := ab
    exact Rd.bind (unwrap_rd _) fun x _ => Rd.bind (unwrap_rd _) fun y _ =>
      Rd.bind (ih _) fun rest h => Rd.pure (.cons _ h)

/-- Row of the `i`-th running sum in the region laid out by `inner_product_simple`. -/
def sumRow (one : Bool) (i : ℕ) : ℕ := if one then 3 * i else 3 * (i + 1)

/-- Number of cells of the region laid out by `inner_product_simple`. -/
def ipLen (one : Bool) (n : ℕ) : ℕ := if one then 3 * n - 2 else 3 * n + 1

theorem startsWithOne_iff (b : List (QCell p)) :
    startsWithOne b = true ↔ ∃ t, b = .constant 1 :: t := by
  cases b with
  | nil => simp [startsWithOne]
  | cons q t => cases q <;> simp [startsWithOne]

theorem innerProductSimple_snd {s : Ctx p} (a b : List (QCell p)) (hlen : a.length = b.length) :
    Snd tbl s (innerProductSimple a b) (fun w one s' => one = startsWithOne b ∧
      (one = true → 1 ≤ a.length) ∧
      s'.advice.length = s.advice.length + ipLen one a.length ∧
      ∃ xs ys, QOks w a xs ∧ QOks w b ys ∧
        (∀ i < a.length, xs[i]? = some (rowV w s s.advice.length (ipRow one i))) ∧
        (∀ i < a.length, rowV w s s.advice.length (sumRow one i)
          = dot (xs.take (i + 1)) (ys.take (i + 1))) ∧
        (a.length = 0 → rowV w s s.advice.length 0 = 0)) := by
  unfold innerProductSimple ipCells ipRegion
  by_cases hone : startsWithOne b = true
  · obtain ⟨bt, rfl⟩ := (startsWithOne_iff b).1 hone
    obtain ⟨a0, at_, rfl⟩ : ∃ a0 t, a = a0 :: t := by
      cases a with
      | nil => simp at hlen
      | cons a0 t => exact ⟨a0, t, rfl⟩
    simp only [hone, if_true]
    have hl : at_.length = bt.length := by simpa using hlen
    refine Snd.rd (Q := fun cells => ∃ cs, cells = a0 :: cs ∧ Chain (at_.zip bt) cs) ?_ ?_
    · refine Rd.bind (unwrap_rd _) fun x hx => ?_
      simp only [List.head?_cons, Option.some.injEq] at hx
      subst hx
      exact Rd.bind (unwrap_rd _) fun y _ => Rd.bind (ipBody_rd _ _) fun rest h =>
        Rd.pure ⟨rest, rfl, h⟩
    · rintro _ ⟨cs, rfl, hc⟩
      refine getWgo_bind ?_
      simp only [Bool.false_eq_true, if_false]
      refine Snd.bind (assignRegion_snd _ _) fun _ s1 e1 => Snd.pure ?_
      rintro w - ⟨h0, h1, h2⟩
      have hcl := hc.length
      have hz : (at_.zip bt).length = at_.length := by simp [hl]
      have : (a0 :: cs).length / 3 = (at_.zip bt).length := by simp only [List.length_cons, hcl]; omega
      rw [this] at h2
      obtain ⟨x0, xs, ys, k1, k2, k3, k0, k4, k5⟩ := chain_region hc h1 h2
      rw [List.map_fst_zip (by omega)] at k2
      rw [List.map_snd_zip (by omega)] at k3
      refine ⟨rfl, fun _ => by simp, ?_, x0 :: xs, 1 :: ys, .cons k1 k2, .cons rfl k3, ?_, ?_, ?_⟩
      · simp only [h0, ipLen, if_true, List.length_cons, hcl, hz]; omega
      · intro i hi
        cases i with
        | zero => simp [ipRow, k0]
        | succ i =>
          simp only [List.length_cons] at hi
          simp only [List.getElem?_cons_succ, ipRow, if_true, Nat.add_sub_cancel]
          rw [k5 i (by omega)]
          simp; ring_nf
      · intro i hi
        simp only [List.length_cons] at hi
        simp only [sumRow, if_true, List.take_succ_cons, dot_cons, mul_one]
        have := k4 i (by omega)
        push_cast
        exact this
      · simp
  · simp only [hone, Bool.false_eq_true, if_false]
    simp only [Bool.not_eq_true] at hone
    refine Snd.rd (Q := fun cells => ∃ cs, cells = .constant 0 :: cs ∧ Chain (a.zip b) cs) ?_ ?_
    · exact Rd.bind (ipBody_rd _ _) fun rest h => Rd.pure ⟨rest, rfl, h⟩
    · rintro _ ⟨cs, rfl, hc⟩
      refine getWgo_bind ?_
      simp only [Bool.false_eq_true, if_false]
      refine Snd.bind (assignRegion_snd _ _) fun _ s1 e1 => Snd.pure ?_
      rintro w - ⟨h0, h1, h2⟩
      have hcl := hc.length
      have hz : (a.zip b).length = a.length := by simp [hlen]
      have : ((.constant 0 : QCell p) :: cs).length / 3 = (a.zip b).length := by
        simp only [List.length_cons, hcl]; omega
      rw [this] at h2
      obtain ⟨x0, xs, ys, k1, k2, k3, k0, k4, k5⟩ := chain_region hc h1 h2
      rw [List.map_fst_zip (by omega)] at k2
      rw [List.map_snd_zip (by omega)] at k3
      have hx0 : x0 = 0 := k1
      refine ⟨rfl, by simp, ?_, xs, ys, k2, k3, ?_, ?_, ?_⟩
      · simp only [h0, ipLen, Bool.false_eq_true, if_false, List.length_cons, hcl, hz]
      · intro i hi
        simp only [ipRow, Bool.false_eq_true, if_false]
        rw [k5 i (by omega)]
        push_cast
        rw [add_comm]
      · intro i hi
        simp only [sumRow, Bool.false_eq_true, if_false]
        have := k4 (i + 1) (by omega)
        rw [hx0, zero_add] at this
        rw [← this]
        push_cast
        rfl
      · intro _; rw [k0, hx0]

/-- The last running sum is the whole inner product. -/
theorem ip_last {w : Cell → ZMod p} {a b : List (QCell p)} {xs ys : List (ZMod p)} {V : ℤ → ZMod p}
    {one : Bool} (hone : one = true → 1 ≤ a.length) (hlen : a.length = b.length)
    (hx : QOks w a xs) (hy : QOks w b ys)
    (hs : ∀ i < a.length, V (sumRow one i) = dot (xs.take (i + 1)) (ys.take (i + 1)))
    (h0 : a.length = 0 → V 0 = 0) : V ((ipLen one a.length : ℕ) - 1) = dot xs ys := by
  have hxl := hx.length
  have hyl := hy.length
  cases hn : a.length with
  | zero =>
    cases one with
    | true => have := hone rfl; omega
    | false =>
      have : xs = [] := List.length_eq_zero_iff.1 (by omega)
      subst this
      simp [ipLen, h0 hn]
  | succ n =>
    have := hs n (by omega)
    rw [List.take_of_length_le (by omega), List.take_of_length_le (by omega)] at this
    rw [← this]
    cases one
    · simp only [sumRow, ipLen, Bool.false_eq_true, if_false]; push_cast; congr 1; ring
    · simp only [sumRow, ipLen, if_true]
      congr 1
      have : 3 * (n + 1) - 2 = 3 * n + 1 := by omega
      rw [this]; push_cast; ring

theorem innerProduct_sound (a b : List (QCell p)) (hlen : a.length = b.length) :
    Sound tbl (innerProduct a b) (fun w r =>
      ∃ xs ys, QOks w a xs ∧ QOks w b ys ∧ at' w r = dot xs ys) := by
  intro s
  refine Snd.bind (innerProductSimple_snd a b hlen) fun one s1 e1 => ?_
  refine lastM_rd.snd.weaken ?_
  rintro w r _ ⟨rfl, hr1, hr2, -⟩ ⟨-, hone, hl, xs, ys, hx, hy, -, hs, h0⟩
  refine ⟨xs, ys, hx, hy, ?_⟩
  rw [← ip_last hone hlen hx hy hs h0, ← e1.rowV]
  exact rowV_of_cell hr2 (by omega)

theorem innerProductLeft_sound (a b : List (QCell p)) (hlen : a.length = b.length) :
    Sound tbl (innerProductLeft a b) (fun w r =>
      ∃ xs ys, QOks w a xs ∧ QOks w b ys ∧ at' w r.1 = dot xs ys ∧ r.2.map (at' w) = xs) := by
  intro s
  refine adviceLen_snd ?_
  refine Snd.bind (innerProductSimple_snd a b hlen) fun one s1 e1 => ?_
  refine Snd.rd (getsM_rd _) fun as hf => ?_
  refine Snd.rd lastM_rd fun r hr => Snd.pure ?_
  rintro w - ⟨-, hone, hl, xs, ys, hx, hy, hv, hs, h0⟩
  obtain ⟨hr1, hr2, -⟩ := hr
  refine ⟨xs, ys, hx, hy, ?_, ?_⟩
  · rw [← ip_last hone hlen hx hy hs h0, ← e1.rowV]
    exact rowV_of_cell hr2 (by omega)
  · have hxl := hx.length
    have hrl := List.Forall₂.length_eq hf
    simp only [List.length_map, List.length_range] at hrl
    apply List.ext_getElem?
    intro i
    by_cases hi : i < a.length
    · have hi' : i < as.length := by omega
      have := (List.forall₂_iff_get.1 hf).2 i (by simpa using hi) hi'
      simp only [List.get_eq_getElem, List.getElem_map, List.getElem_range] at this
      obtain ⟨j, hj, hj2, hj3, -⟩ := this
      rw [hv i hi, List.getElem?_map, List.getElem?_eq_getElem hi', Option.map_some,
        Option.some.injEq, ← e1.rowV]
      refine rowV_of_cell hj3 ?_
      rw [hj, getRow, if_neg (by omega)]
      push_cast; rfl
    · rw [List.getElem?_eq_none (by simp only [List.length_map]; omega),
        List.getElem?_eq_none (by omega)]

theorem innerProductLeftLast_sound (a b : List (QCell p)) (hlen : a.length = b.length) :
    Sound tbl (innerProductLeftLast a b) (fun w r =>
      ∃ xs ys, QOks w a xs ∧ QOks w b ys ∧ at' w r.1 = dot xs ys ∧
        xs.getLast? = some (at' w r.2)) := by
  intro s
  refine adviceLen_snd ?_
  refine Snd.bind (innerProductSimple_snd a b hlen) fun one s1 e1 => ?_
  refine Snd.rd (Q := fun r : AV p => 1 ≤ a.length ∧ ∃ j : ℕ, j = s.advice.length + ipRow one (a.length - 1) ∧
    r.cell = some (s1.cellAt j)) ?_ fun al hal => Snd.rd lastM_rd fun r hr => Snd.pure ?_
  · unfold ipLastCell
    refine Rd.ite (fun h1 => Rd.ite (fun h2 => ?_) fun h2 => Rd.ite (fun _ => Rd.panic) fun h3 => ?_)
      fun h1 => Rd.ite (fun _ => Rd.panic) fun h3 => ?_
    · refine (getM_rd _).weaken ?_
      rintro r ⟨i, hi, _, hc, -⟩
      refine ⟨by omega, i, ?_, hc⟩
      rw [getRow, if_neg (by omega)] at hi
      simp only [h1, ipRow, if_true, h2]
      simpa using hi
    · refine (getM_rd _).weaken ?_
      rintro r ⟨i, hi, _, hc, -⟩
      refine ⟨by omega, i, ?_, hc⟩
      rw [getRow, if_neg (by omega)] at hi
      simp only [h1, ipRow, if_true]
      rw [if_neg (by omega)]
      omega
    · refine (getM_rd _).weaken ?_
      rintro r ⟨i, hi, _, hc, -⟩
      refine ⟨by omega, i, ?_, hc⟩
      rw [getRow, if_neg (by omega)] at hi
      simp only [h1, ipRow, Bool.false_eq_true, if_false]
      omega
  · rintro w - ⟨-, hone, hl, xs, ys, hx, hy, hv, hs, h0⟩
    obtain ⟨hr1, hr2, -⟩ := hr
    obtain ⟨ha, j, hj, hc⟩ := hal
    refine ⟨xs, ys, hx, hy, ?_, ?_⟩
    · rw [← ip_last hone hlen hx hy hs h0, ← e1.rowV]
      exact rowV_of_cell hr2 (by omega)
    · have hxl := hx.length
      rw [List.getLast?_eq_getElem?, ← hxl, hv _ (by omega), Option.some.injEq, ← e1.rowV]
      exact (rowV_of_cell hc (by rw [hj]; push_cast; rfl)).symm

theorem stepBy3_length (lo hi : ℕ) : (stepBy3 lo hi).length = (hi - lo + 2) / 3 := by
  simp [stepBy3]

theorem innerProductWithSums_sound (a b : List (QCell p)) (hlen : a.length = b.length) :
    Sound tbl (innerProductWithSums a b) (fun w rs =>
      ∃ xs ys, QOks w a xs ∧ QOks w b ys ∧
        rs.map (at' w) = (List.range a.length).map
          (fun i => dot (xs.take (i + 1)) (ys.take (i + 1)))) := by
  intro s
  refine adviceLen_snd ?_
  refine Snd.bind (innerProductSimple_snd a b hlen) fun one s1 e1 => ?_
  refine adviceLen_snd ?_
  have key : ∀ (os : List ℤ) (n : ℕ), (n = if one then (s1.advice.length - s.advice.length + 2) / 3
      else (s1.advice.length - s.advice.length + 2) / 3 - 1) →
      os = (List.range n).map (fun i : ℕ => ((s.advice.length + sumRow one i : ℕ) : ℤ)) →
      Snd tbl s1 (getsM os) (fun w rs _ => (one = startsWithOne b ∧
      (one = true → 1 ≤ a.length) ∧
      s1.advice.length = s.advice.length + ipLen one a.length ∧
      ∃ xs ys, QOks w a xs ∧ QOks w b ys ∧
        (∀ i < a.length, xs[i]? = some (rowV w s s.advice.length (ipRow one i))) ∧
        (∀ i < a.length, rowV w s s.advice.length (sumRow one i)
          = dot (xs.take (i + 1)) (ys.take (i + 1))) ∧
        (a.length = 0 → rowV w s s.advice.length 0 = 0)) → ∃ xs ys, QOks w a xs ∧ QOks w b ys ∧
        rs.map (at' w) = (List.range a.length).map
          (fun i => dot (xs.take (i + 1)) (ys.take (i + 1)))) := by
    intro os n hn hos
    subst hos
    refine (getsM_rd _).snd.weaken ?_
    rintro w rs _ ⟨rfl, hf⟩ ⟨-, hone, hl, xs, ys, hx, hy, hv, hs, h0⟩
    refine ⟨xs, ys, hx, hy, ?_⟩
    have hn' : n = a.length := by
      rw [hn, hl]
      cases one
      · simp [ipLen]; omega
      · have := hone rfl; simp [ipLen]; omega
    have hrl := List.Forall₂.length_eq hf
    simp only [List.length_map, List.length_range] at hrl
    apply List.ext_getElem?
    intro i
    by_cases hi : i < a.length
    · have hi' : i < rs.length := by omega
      have := (List.forall₂_iff_get.1 hf).2 i (by simpa [hn'] using hi) hi'
      simp only [List.get_eq_getElem, List.getElem_map, List.getElem_range] at this
      obtain ⟨j, hj, hj2, hj3, -⟩ := this
      rw [List.getElem?_map, List.getElem?_eq_getElem hi', Option.map_some,
        List.getElem?_map, List.getElem?_range hi, Option.map_some,
        Option.some.injEq, ← hs i hi, ← e1.rowV]
      refine rowV_of_cell hj3 ?_
      rw [hj, getRow, if_neg (by omega)]
      push_cast; rfl
    · rw [List.getElem?_eq_none (by simp only [List.length_map]; omega),
        List.getElem?_eq_none (by simpa using hi)]
  refine Snd.ite (fun h1 => ?_) fun h1 => ?_
  · subst h1
    refine key _ _ rfl ?_
    simp [stepBy3, sumRow]
  · simp only [Bool.not_eq_true] at h1
    subst h1
    refine key _ _ rfl ?_
    simp only [stepBy3, sumRow, Bool.false_eq_true, if_false]
    apply List.ext_getElem?
    intro i
    simp only [List.getElem?_map, List.getElem?_drop]
    by_cases hi : i < (s1.advice.length - s.advice.length + 2) / 3 - 1
    · rw [List.getElem?_range hi, List.getElem?_range (by omega)]
      simp; ring
    · rw [List.getElem?_eq_none (by simp; omega), List.getElem?_eq_none (by simp; omega)]
      rfl

/-- Specification of `sum_products_with_coeff_and_var`. -/
def sumCoeff (cs xs ys : List (ZMod p)) : ZMod p :=
  (List.zipWith (· * ·) cs (List.zipWith (· * ·) xs ys)).sum

end H2
