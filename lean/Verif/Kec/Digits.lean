import Verif.Kec.Model
import Verif.Kec.Spec
import Mathlib.Tactic.Linarith
import Mathlib.Tactic.Ring
import Mathlib.Algebra.Order.Ring.Nat

/-!
# Digits in base 8
-/

set_option autoImplicit false
namespace H2.Kec

theorem getD_ge {α : Type} {l : List α} {i : ℕ} {d : α} (h : l.length ≤ i) : l.getD i d = d := by
  rw [List.getD_eq_getElem?_getD, List.getElem?_eq_none h]; rfl

/-- Digit `j` of `v` in base 8. -/
def dig (v j : ℕ) : ℕ := v / 8 ^ j % 8

theorem dig_lt (v j : ℕ) : dig v j < 8 := Nat.mod_lt _ (by norm_num)
theorem dig_zero_left (j : ℕ) : dig 0 j = 0 := by simp [dig]
theorem dig_at_zero (v : ℕ) : dig v 0 = v % 8 := by simp [dig]
theorem dig_succ (v j : ℕ) : dig v (j + 1) = dig (v / 8) j := by
  unfold dig
  rw [pow_succ', Nat.div_div_eq_div_mul]
theorem dig_add_idx (v n j : ℕ) : dig v (n + j) = dig (v / 8 ^ n) j := by
  unfold dig
  rw [pow_add, Nat.div_div_eq_div_mul]
theorem dig_cons_zero (d v : ℕ) (hd : d < 8) : dig (d + 8 * v) 0 = d := by rw [dig_at_zero]; omega
theorem dig_cons_succ (d v j : ℕ) (hd : d < 8) : dig (d + 8 * v) (j + 1) = dig v j := by
  rw [dig_succ, show (d + 8 * v) / 8 = v by omega]
theorem cons_dig (v : ℕ) : v = dig v 0 + 8 * (v / 8) := by rw [dig_at_zero]; omega

theorem dig_of_lt {v n j : ℕ} (hv : v < 8 ^ n) (hj : n ≤ j) : dig v j = 0 := by
  unfold dig
  rw [Nat.div_eq_of_lt (lt_of_lt_of_le hv (Nat.pow_le_pow_right (by norm_num) hj))]

/-- Numbers with the same digits are equal. -/
theorem eq_of_dig {x y : ℕ} (h : ∀ j, dig x j = dig y j) : x = y := by
  induction x using Nat.strong_induction_on generalizing y with
  | _ x ih =>
    have h0 := h 0
    rw [dig_at_zero, dig_at_zero] at h0
    by_cases hx : x = 0
    · subst hx
      by_contra hy
      -- `y` has a non-zero digit
      have : ∀ n : ℕ, ∀ y : ℕ, y ≤ n → (∀ j, dig y j = 0) → y = 0 := by
        intro n
        induction n with
        | zero => intro y hy _; omega
        | succ n ihn =>
          intro y hy hd
          have h0 := hd 0
          rw [dig_at_zero] at h0
          have := ihn (y / 8) (by omega) (fun j => by rw [← dig_succ]; exact hd _)
          omega
      exact hy (this y y le_rfl fun j => by rw [← h j, dig_zero_left]).symm
    · have := ih (x / 8) (by omega) (y := y / 8) (fun j => by rw [← dig_succ, ← dig_succ]; exact h _)
      omega

/-- A number whose digits vanish from `n` on is below `8 ^ n`. -/
theorem lt_of_dig {x n : ℕ} (h : ∀ j, n ≤ j → dig x j = 0) : x < 8 ^ n := by
  have : x / 8 ^ n = 0 := eq_of_dig fun j => by rw [← dig_add_idx, dig_zero_left]; exact h _ (by omega)
  rcases Nat.div_eq_zero_iff.mp this with h | h
  · exact absurd h (by positivity)
  · exact h

/-- Addition without carries. -/
theorem dig_add {x y : ℕ} (h : ∀ j, dig x j + dig y j < 8) (j : ℕ) : dig (x + y) j = dig x j + dig y j := by
  induction j generalizing x y with
  | zero =>
    have := h 0
    simp only [dig_at_zero] at *
    omega
  | succ j ih =>
    have h0 := h 0
    simp only [dig_at_zero] at h0
    rw [dig_succ, dig_succ, dig_succ, show (x + y) / 8 = x / 8 + y / 8 by omega]
    exact ih fun j => by rw [← dig_succ, ← dig_succ]; exact h _

/-- Multiplication of all digits. -/
theorem dig_mul {x c : ℕ} (h : ∀ j, c * dig x j < 8) (j : ℕ) : dig (c * x) j = c * dig x j := by
  induction j generalizing x with
  | zero =>
    have := h 0
    simp only [dig_at_zero] at *
    rw [Nat.mul_mod]
    conv_lhs => rw [Nat.mod_eq_of_lt (a := c % 8 * (x % 8)) (by
      refine lt_of_le_of_lt (Nat.mul_le_mul_right _ (Nat.mod_le c 8)) this)]
    by_cases hx : x % 8 = 0
    · rw [hx]; simp
    · rw [Nat.mod_eq_of_lt]
      exact lt_of_le_of_lt (Nat.le_mul_of_pos_right c (by omega)) this
  | succ j ih =>
    have h0 := h 0
    simp only [dig_at_zero] at h0
    have hx : x = x % 8 + 8 * (x / 8) := by omega
    rw [dig_succ, dig_succ, show c * x / 8 = c * (x / 8) by
      conv_lhs => rw [hx]
      rw [mul_add, show c * (8 * (x / 8)) = 8 * (c * (x / 8)) by ring]
      omega]
    exact ih fun j => by rw [← dig_succ]; exact h _

/-- Shifted numbers. -/
theorem dig_shift (x n j : ℕ) : dig (x * 8 ^ n) j = if j < n then 0 else dig x (j - n) := by
  split
  · rename_i h
    obtain ⟨d, rfl⟩ : ∃ d, n = j + 1 + d := ⟨n - (j + 1), by omega⟩
    unfold dig
    rw [show x * 8 ^ (j + 1 + d) = 8 ^ j * (8 * (x * 8 ^ d)) by rw [pow_add, pow_add]; ring,
      Nat.mul_div_cancel_left _ (by positivity)]
    omega
  · rename_i h
    obtain ⟨d, rfl⟩ : ∃ d, j = n + d := ⟨j - n, by omega⟩
    rw [dig_add_idx, Nat.mul_div_cancel _ (by positivity), Nat.add_sub_cancel_left]

/-- Low part plus shifted high part. -/
theorem dig_concat {x y n : ℕ} (hx : x < 8 ^ n) (j : ℕ) : dig (x + y * 8 ^ n) j = if j < n then dig x j else dig y (j - n) := by
  have key : ∀ j, dig (x + y * 8 ^ n) j = dig x j + dig (y * 8 ^ n) j := by
    intro j
    refine dig_add (fun j => ?_) j
    rw [dig_shift]
    split
    · have := dig_lt x j; omega
    · rw [dig_of_lt hx (by omega)]
      have := dig_lt y (j - n); omega
  rw [key, dig_shift]
  split
  · rfl
  · rw [dig_of_lt hx (by omega), zero_add]

theorem dig_packL (l : List ℕ) (h : ∀ d ∈ l, d < 8) (j : ℕ) : dig (packL l) j = l.getD j 0 := by
  induction l generalizing j with
  | nil => simp [packL, dig_zero_left]
  | cons d l ih =>
    rw [packL, show packL l * 8 + d = d + 8 * packL l by ring]
    cases j with
    | zero => rw [dig_cons_zero _ _ (h d (by simp))]; simp
    | succ j =>
      rw [dig_cons_succ _ _ _ (h d (by simp)), ih (fun d hd => h d (by simp [hd]))]
      simp

/-! ### Tables -/

/-- What a row of a table says. -/
theorem mem_tblRows {f : ℕ → ℕ} {range : ℕ} (hr : range ≤ 8) (hf : ∀ d, d < range → f d < 8) {n : ℕ} {e : ℕ × ℕ} (he : e ∈ tblRows f range n) :
    e.1 < 8 ^ n ∧ e.2 < 8 ^ n ∧ (∀ j, j < n → dig e.1 j < range) ∧ ∀ j, j < n → dig e.2 j = f (dig e.1 j) := by
  induction n generalizing e with
  | zero =>
    rw [tblRows, List.mem_singleton] at he
    subst he
    simp
  | succ n ih =>
    rw [tblRows, List.mem_flatMap] at he
    obtain ⟨d, hd, he⟩ := he
    rw [List.mem_range] at hd
    obtain ⟨e', he', rfl⟩ := List.mem_map.mp he
    obtain ⟨h1, h2, h3, h4⟩ := ih he'
    have hfd := hf d hd
    refine ⟨by rw [pow_succ']; show d + 8 * e'.1 < _; omega, by rw [pow_succ']; show f d + 8 * e'.2 < _; omega, ?_, ?_⟩
    · intro j hj
      cases j with
      | zero => rw [dig_cons_zero _ _ (by omega)]; exact hd
      | succ j => rw [dig_cons_succ _ _ _ (by omega)]; exact h3 j (by omega)
    · intro j hj
      cases j with
      | zero => rw [dig_cons_zero _ _ hfd, dig_cons_zero _ _ (by omega)]
      | succ j => rw [dig_cons_succ _ _ _ hfd, dig_cons_succ _ _ _ (by omega)]; exact h4 j (by omega)

/-- Which rows a table has. -/
theorem tblRows_mem {f : ℕ → ℕ} {range : ℕ} (hr : range ≤ 8) (hf : ∀ d, d < range → f d < 8) {n : ℕ} {v w : ℕ} (hv : v < 8 ^ n) (hw : w < 8 ^ n)
    (h : ∀ j, j < n → dig v j < range ∧ dig w j = f (dig v j)) : (v, w) ∈ tblRows f range n := by
  induction n generalizing v w with
  | zero => simp only [pow_zero, Nat.lt_one_iff] at hv hw; simp [tblRows, hv, hw]
  | succ n ih =>
    rw [tblRows, List.mem_flatMap]
    have h0 := h 0 (by omega)
    refine ⟨dig v 0, List.mem_range.mpr h0.1, List.mem_map.mpr ⟨(v / 8, w / 8), ih ?_ ?_ ?_, ?_⟩⟩
    · rw [pow_succ'] at hv; omega
    · rw [pow_succ'] at hw; omega
    · intro j hj
      rw [← dig_succ, ← dig_succ]
      exact h (j + 1) (by omega)
    · rw [← h0.2, ← cons_dig, ← cons_dig]

/-! ### Parts -/

/-- `decode` in the natural numbers. -/
def decN (parts : List (ℕ × ℕ)) : ℕ := parts.foldr (fun q acc => acc * 8 ^ q.1 + q.2) 0

theorem decN_nil : decN [] = 0 := rfl
theorem decN_cons (q : ℕ × ℕ) (l : List (ℕ × ℕ)) : decN (q :: l) = decN l * 8 ^ q.1 + q.2 := rfl

theorem decode_cast {F : Type} [Field F] (parts : List (ℕ × ℕ)) :
    decode (parts.map fun q => (q.1, (q.2 : F))) = (decN parts : F) := by
  induction parts with
  | nil => simp [decode, decN]
  | cons q l ih =>
    rw [decN_cons, List.map_cons]
    unfold decode at ih ⊢
    rw [List.foldr_cons, ih]
    push_cast
    ring

theorem decN_append (l l' : List (ℕ × ℕ)) : decN (l ++ l') = decN l + decN l' * 8 ^ (l.map (·.1)).sum := by
  induction l with
  | nil => simp [decN]
  | cons q l ih => rw [List.cons_append, decN_cons, decN_cons, ih, List.map_cons, List.sum_cons, pow_add]; ring

theorem decN_le {parts : List (ℕ × ℕ)} {M : ℕ} (h : ∀ q ∈ parts, q.2 < 8 ^ M) (h1 : ∀ q ∈ parts, 1 ≤ q.1) :
    decN parts + 8 ^ M ≤ 8 ^ ((parts.map (·.1)).sum + M) := by
  induction parts with
  | nil => simp [decN]
  | cons q l ih =>
    rw [decN_cons, List.map_cons, List.sum_cons]
    have h2 := ih (fun q hq => h q (by simp [hq])) (fun q hq => h1 q (by simp [hq]))
    have h3 := h q (by simp)
    have h4 := h1 q (by simp)
    have h6 : (8 : ℕ) ^ 1 ≤ 8 ^ q.1 := Nat.pow_le_pow_right (by norm_num) h4
    have h5 := Nat.mul_le_mul_right (8 ^ q.1) h2
    have h7 : 8 ^ M * 8 ^ 1 ≤ 8 ^ M * 8 ^ q.1 := Nat.mul_le_mul_left _ h6
    have h8 : (8 : ℕ) ^ ((l.map (·.1)).sum + M) * 8 ^ q.1 = 8 ^ (q.1 + (l.map (·.1)).sum + M) := by rw [← pow_add]; congr 1; ring
    rw [add_mul, h8] at h5
    omega

/-- Parts of size `ps` except for the last one: the digits of the whole are the digits of the parts. -/
theorem dig_decN {ps : ℕ} (hps : 1 ≤ ps) {parts : List (ℕ × ℕ)} (hd : ∀ q ∈ parts.dropLast, q.1 = ps) (h : ∀ q ∈ parts, q.2 < 8 ^ ps) (j : ℕ) :
    dig (decN parts) j = dig (parts.getD (j / ps) (0, 0)).2 (j % ps) := by
  induction parts generalizing j with
  | nil => simp [decN, dig_zero_left]
  | cons q l ih =>
    rw [decN_cons]
    cases l with
    | nil =>
      rw [decN_nil, zero_mul, zero_add]
      by_cases hj : j < ps
      · rw [Nat.div_eq_of_lt hj, Nat.mod_eq_of_lt hj]; simp
      · have h1 : j / ps ≠ 0 := by
          intro h0
          rcases Nat.div_eq_zero_iff.mp h0 with h0 | h0 <;> omega
        obtain ⟨d, hd'⟩ := Nat.exists_eq_succ_of_ne_zero h1
        rw [hd', List.getD_cons_succ, List.getD_nil, dig_zero_left, dig_of_lt (h q (by simp)) (by omega)]
    | cons q' l =>
      have hq := hd q (by simp)
      rw [hq, add_comm, dig_concat (h q (by simp))]
      split
      · rename_i hj
        rw [Nat.div_eq_of_lt hj, Nat.mod_eq_of_lt hj]; simp
      · rename_i hj
        have hj : ps ≤ j := by omega
        rw [ih (fun q'' hq'' => hd q'' (by rw [List.dropLast_cons_of_ne_nil (by simp)]; exact List.mem_cons_of_mem _ hq''))
          (fun q'' hq'' => h q'' (List.mem_cons_of_mem _ hq''))]
        have e1 : j / ps = (j - ps) / ps + 1 := by
          conv_lhs => rw [show j = (j - ps) + ps by omega]
          rw [Nat.add_div_right _ (by omega)]
        have e2 : j % ps = (j - ps) % ps := by
          conv_lhs => rw [show j = (j - ps) + ps by omega]
          rw [Nat.add_mod_right]
        rw [e1, e2, List.getD_cons_succ]

theorem zip_getD_snd (sz vs : List ℕ) (hl : sz.length = vs.length) (i : ℕ) : ((sz.zip vs).getD i (0, 0)).2 = vs.getD i 0 := by
  induction sz generalizing vs i with
  | nil => cases vs with
    | nil => simp
    | cons v vs => simp at hl
  | cons s sz ih => cases vs with
    | nil => simp at hl
    | cons v vs => cases i with
      | zero => simp
      | succ i => simpa using ih vs (by simpa using hl) i

theorem zip_dropLast (sz vs : List ℕ) (hl : sz.length = vs.length) : (sz.zip vs).dropLast = sz.dropLast.zip vs.dropLast := by
  rw [List.dropLast_eq_take, List.dropLast_eq_take, List.dropLast_eq_take, List.length_zip, List.zip_eq_zipWith, List.take_zipWith, hl, Nat.min_self,
    List.zip_eq_zipWith]

/-- Parts of size `ps` except for the last one: the digits of the whole are the digits of the parts. -/
theorem dig_decZ {ps : ℕ} (hps : 1 ≤ ps) {sz vs : List ℕ} (hl : sz.length = vs.length)
    (hd : ∀ s ∈ sz.dropLast, s = ps) (hv : ∀ v ∈ vs, v < 8 ^ ps) (j : ℕ) :
    dig (decN (sz.zip vs)) j = dig (vs.getD (j / ps) 0) (j % ps) := by
  rw [dig_decN hps (ps := ps) ?_ ?_, zip_getD_snd sz vs hl]
  · intro q hq
    rw [zip_dropLast sz vs hl] at hq
    exact hd _ (List.of_mem_zip hq).1
  · intro q hq
    exact hv _ (List.of_mem_zip hq).2

/-- Two lists of parts related digit by digit. -/
theorem dig_decZ_map {ps : ℕ} (hps : 1 ≤ ps) {sz vs ws : List ℕ} (f : ℕ → ℕ) (hf0 : f 0 = 0) (h1 : sz.length = vs.length) (h2 : sz.length = ws.length)
    (hd : ∀ s ∈ sz.dropLast, s = ps) (hv : ∀ v ∈ vs, v < 8 ^ ps) (hw : ∀ w ∈ ws, w < 8 ^ ps)
    (h : ∀ i, i < sz.length → ∀ j, j < ps → dig (ws.getD i 0) j = f (dig (vs.getD i 0) j)) (j : ℕ) :
    dig (decN (sz.zip ws)) j = f (dig (decN (sz.zip vs)) j) := by
  rw [dig_decZ hps h1 hd hv, dig_decZ hps h2 hd hw]
  by_cases hi : j / ps < sz.length
  · exact h _ hi _ (Nat.mod_lt _ hps)
  · rw [getD_ge (by omega), getD_ge (by omega), dig_zero_left, hf0]

/-- Parts with one even overflow digit each, and an even carry `ε` into the first part: the parities of the digits of the whole are those of the parts. -/
theorem chain_par (parts : List (ℕ × ℕ)) : ∀ (ε X : ℕ), ε ≤ 3 → ε % 2 = 0 →
    (∀ q ∈ parts, 1 ≤ q.1 ∧ q.2 / 8 ^ q.1 ≤ 3 ∧ q.2 / 8 ^ q.1 % 2 = 0 ∧ ∀ j, dig q.2 j ≤ 3) → ε + decN parts = X →
    ∀ (pre : List (ℕ × ℕ)) (q : ℕ × ℕ) (post : List (ℕ × ℕ)), parts = pre ++ q :: post → ∀ j, j < q.1 →
      dig X ((pre.map (·.1)).sum + j) % 2 = dig q.2 j % 2 := by
  induction parts with
  | nil =>
    intro ε X _ _ _ _ pre q post h
    simp at h
  | cons q0 l ih =>
    intro ε X he1 he2 hp hX pre q post h j hj
    obtain ⟨hn, ho, hev, hd⟩ := hp q0 (by simp)
    rw [decN_cons] at hX
    -- digits of `v + ε`
    have hε : ∀ j, dig ε j = if j = 0 then ε else 0 := by
      intro j
      cases j with
      | zero => rw [dig_at_zero]; simp; omega
      | succ j => rw [dig_of_lt (n := 1) (by omega) (by omega)]; simp
    have hsum : ∀ j, dig (ε + q0.2) j = dig ε j + dig q0.2 j := fun j => dig_add (fun j => by
      have := hd j
      rw [hε]; split <;> omega) j
    have hlow : (ε + q0.2) % 8 ^ q0.1 < 8 ^ q0.1 := Nat.mod_lt _ (by positivity)
    have hdiv : (ε + q0.2) / 8 ^ q0.1 = q0.2 / 8 ^ q0.1 := by
      refine eq_of_dig fun j => ?_
      rw [← dig_add_idx, ← dig_add_idx, hsum, hε, if_neg (by omega), zero_add]
    have hX2 : X = (ε + q0.2) % 8 ^ q0.1 + (q0.2 / 8 ^ q0.1 + decN l) * 8 ^ q0.1 := by
      have := Nat.mod_add_div (ε + q0.2) (8 ^ q0.1)
      rw [hdiv] at this
      rw [← hX, add_mul, mul_comm (q0.2 / 8 ^ q0.1)]
      omega
    have hlowd : ∀ j, j < q0.1 → dig ((ε + q0.2) % 8 ^ q0.1) j = dig (ε + q0.2) j := by
      intro j hj
      conv_rhs => rw [← Nat.mod_add_div (ε + q0.2) (8 ^ q0.1), mul_comm (8 ^ q0.1)]
      rw [dig_concat hlow, if_pos hj]
    cases pre with
    | nil =>
      simp only [List.nil_append, List.cons.injEq] at h
      obtain ⟨rfl, rfl⟩ := h
      rw [List.map_nil, List.sum_nil, zero_add, hX2, dig_concat hlow, if_pos hj, hlowd j hj, hsum, hε]
      split <;> omega
    | cons q1 pre =>
      simp only [List.cons_append, List.cons.injEq] at h
      obtain ⟨rfl, rfl⟩ := h
      have := ih (q0.2 / 8 ^ q0.1) _ ho hev (fun q hq => hp q (by simp [hq])) rfl pre q post rfl j hj
      rw [List.map_cons, List.sum_cons, hX2, dig_concat hlow, if_neg (by omega), show q0.1 + (pre.map (·.1)).sum + j - q0.1 = (pre.map (·.1)).sum + j by omega]
      exact this

/-! ### Lanes -/

/-- The bits of a lane as digits in base 8. -/
def spread (w : Lane) : ℕ := packL ((List.range 64).map fun b => (w.getLsbD b).toNat)

theorem dig_spread (w : Lane) (b : ℕ) : dig (spread w) b = (w.getLsbD b).toNat := by
  unfold spread
  rw [dig_packL _ (by
    intro d hd
    obtain ⟨b, _, rfl⟩ := List.mem_map.mp hd
    have := Bool.toNat_le (w.getLsbD b)
    omega)]
  by_cases hb : b < 64
  · simp [List.getD_eq_getElem?_getD, hb]
  · rw [getD_ge (by simp; omega), BitVec.getLsbD_of_ge _ _ (by omega)]; rfl

theorem spread_lt (w : Lane) : spread w < 8 ^ 64 := lt_of_dig fun j hj => by rw [dig_spread, BitVec.getLsbD_of_ge _ _ hj]; rfl

/-- A number is the spread form of a lane when its digits are the lane's bits. -/
theorem eq_spread {x : ℕ} {w : Lane} (h : ∀ b, dig x b = (w.getLsbD b).toNat) : x = spread w := eq_of_dig fun b => by rw [h, dig_spread]

theorem spread_inj {v w : Lane} (h : spread v = spread w) : v = w := by
  apply BitVec.eq_of_getLsbD_eq
  intro b hb
  have := congrArg (fun x => dig x b) h
  simp only [dig_spread] at this
  revert this
  cases v.getLsbD b <;> cases w.getLsbD b <;> simp

end H2.Kec
