import Mathlib.Tactic.Linarith
import Mathlib.Tactic.Ring
import Mathlib.Tactic.LinearCombination
import Mathlib.Tactic.NormNum
import Mathlib.Tactic.IntervalCases
import Mathlib.Algebra.BigOperators.Group.List.Basic
import Mathlib.Data.Nat.Digits.Defs

/-!
# `get_naf` (halo2-ecc/src/ecc/mod.rs:765-806)

Native code (used by the final exponentiation).  `u64` values are natural numbers below `2 ^ 64`.
-/

set_option autoImplicit false
namespace H2.Naf

/-- The loop over the 64 bits of a limb (mod.rs:774-786), `n` more rounds: the digits and the final `e`.
`e / 2 + 1` does not overflow. -/
def word : ℕ → ℕ → List ℤ × ℕ
  | 0, e => ([], e)
  | n + 1, e =>
    if e % 2 = 1 then
      let z : ℤ := 2 - (e % 4 : ℕ)
      let e' := if z = -1 then e / 2 + 1 else e / 2
      let r := word n e'
      (z :: r.1, r.2)
    else
      let r := word n (e / 2)
      (0 :: r.1, r.2)

/-- The carry into the following limbs (mod.rs:789-797). -/
def carry : List ℕ → List ℕ
  | [] => [1]
  | x :: xs => if x = 2 ^ 64 - 1 then 0 :: carry xs else (x + 1) :: xs

/-- The loop over the limbs (mod.rs:772-799), `n` limbs to go, `exp` the limbs from the current one on: the digits, and what is
left of `exp` after the first `n` limbs.  `none`: the assertion (mod.rs:788) fails. -/
def loop : ℕ → List ℕ → Option (List ℤ × List ℕ)
  | 0, exp => some ([], exp)
  | n + 1, exp => match exp with
    | [] => none
    | x :: xs =>
      let r := word 64 x
      if r.2 ≠ 0 then
        if r.2 = 1 then (loop n (carry xs)).map fun t => (r.1 ++ t.1, t.2) else none
      else (loop n xs).map fun t => (r.1 ++ t.1, t.2)

/-- `get_naf` (mod.rs:765-806). -/
def getNaf (exp : List ℕ) : Option (List ℤ) := do
  let (naf, rest) ← loop exp.length exp
  if exp.length + rest.length ≠ exp.length then
    if exp.length = exp.length + rest.length + 1 then
      if rest[0]? = some 1 then some (naf ++ [1]) else none
    else none
  else some naf

/-! ### Proofs -/

/-- The integer with the given digits in base `b`, least significant first. -/
def value (b : ℤ) : List ℤ → ℤ
  | [] => 0
  | d :: ds => d + b * value b ds

theorem value_append (b : ℤ) (as bs : List ℤ) : value b (as ++ bs) = value b as + b ^ as.length * value b bs := by
  induction as with
  | nil => simp [value]
  | cons a as ih => rw [List.cons_append, value, value, ih, List.length_cons, pow_succ]; ring

/-- No two neighbouring digits are nonzero. -/
def NonAdjacent : List ℤ → Prop
  | [] => True
  | [_] => True
  | a :: b :: l => (a = 0 ∨ b = 0) ∧ NonAdjacent (b :: l)

theorem word_length (n : ℕ) : ∀ e, (word n e).1.length = n := by
  induction n with
  | zero => intro e; rfl
  | succ n ih => intro e; rw [word]; split <;> simp [ih]

theorem word_value (n : ℕ) : ∀ e, value 2 (word n e).1 + 2 ^ n * ((word n e).2 : ℤ) = e := by
  induction n with
  | zero => intro e; simp [word, value]
  | succ n ih =>
    intro e
    rw [word]
    split
    · rename_i h
      have h4 : e % 4 = 1 ∨ e % 4 = 3 := by omega
      rcases h4 with h4 | h4
      · have := ih (e / 2)
        simp only [h4, value]
        norm_num at *
        rw [pow_succ]
        have he : (e : ℤ) = 2 * (e / 2 : ℕ) + 1 := by omega
        push_cast at he
        rw [he]
        linear_combination 2 * this
      · have := ih (e / 2 + 1)
        simp only [h4, value]
        norm_num at *
        rw [pow_succ]
        have he : (e : ℤ) = 2 * ((e / 2 : ℕ) + 1) - 1 := by omega
        push_cast at he
        rw [he]
        linear_combination 2 * this
    · have := ih (e / 2)
      simp only [value]
      rw [pow_succ]
      have he : (e : ℤ) = 2 * (e / 2 : ℕ) := by omega
      rw [he]
      linear_combination 2 * this

theorem word_digit (n : ℕ) : ∀ e, ∀ d ∈ (word n e).1, d = -1 ∨ d = 0 ∨ d = 1 := by
  induction n with
  | zero => intro e; simp [word]
  | succ n ih =>
    intro e d hd
    rw [word] at hd
    split at hd
    · rename_i h
      simp only [List.mem_cons] at hd
      rcases hd with rfl | hd
      · have h4 : e % 4 = 1 ∨ e % 4 = 3 := by omega
        rcases h4 with h4 | h4 <;> rw [h4] <;> norm_num
      · exact ih _ d hd
    · simp only [List.mem_cons] at hd
      rcases hd with rfl | hd
      · simp
      · exact ih _ d hd

theorem word_head (n : ℕ) (e : ℕ) (he : e % 2 = 0) : ∀ d l, (word n e).1 = d :: l → d = 0 := by
  intro d l h
  cases n with
  | zero => simp [word] at h
  | succ n =>
    rw [word, if_neg (by omega)] at h
    simp only [List.cons.injEq] at h
    exact h.1.symm

theorem word_nonAdjacent (n : ℕ) : ∀ e, NonAdjacent (word n e).1 := by
  induction n with
  | zero => intro e; trivial
  | succ n ih =>
    intro e
    rw [word]
    split
    · rename_i h
      set e' := if (2 - ((e % 4 : ℕ) : ℤ)) = -1 then e / 2 + 1 else e / 2 with he'
      have heven : e' % 2 = 0 := by
        have h4 : e % 4 = 1 ∨ e % 4 = 3 := by omega
        rcases h4 with h4 | h4
        · rw [he', h4, if_neg (by norm_num)]; omega
        · rw [he', h4, if_pos (by norm_num)]; omega
      have h1 := ih e'
      have h2 := word_head n e' heven
      simp only
      generalize (word n e').1 = l at h1 h2 ⊢
      cases l with
      | nil => trivial
      | cons a l => exact ⟨.inr (h2 a l rfl), h1⟩
    · have h1 := ih (e / 2)
      simp only
      generalize (word n (e / 2)).1 = l at h1 ⊢
      cases l with
      | nil => trivial
      | cons a l => exact ⟨.inl rfl, h1⟩

/-- The final `e` is at most one. -/
theorem word_final (n : ℕ) : ∀ e, e ≤ 2 ^ n → (word n e).2 ≤ 1 := by
  induction n with
  | zero => intro e h; simpa [word] using h
  | succ n ih =>
    intro e h
    rw [pow_succ] at h
    rw [word]
    split
    · simp only
      split
      · exact ih _ (by omega)
      · exact ih _ (by omega)
    · exact ih _ (by omega)

/-- For limbs of at most half of the range there is no carry. -/
theorem word_half (n : ℕ) : ∀ e, e ≤ 2 ^ n → (word (n + 1) e).2 = 0 := by
  induction n with
  | zero =>
    intro e h
    have : e = 0 ∨ e = 1 := by omega
    rcases this with rfl | rfl <;> simp [word]
  | succ n ih =>
    intro e h
    rw [pow_succ] at h
    rw [word]
    split
    · simp only
      split
      · exact ih _ (by omega)
      · exact ih _ (by omega)
    · exact ih _ (by omega)

theorem carry_spec (xs : List ℕ) (h : ∀ x ∈ xs, x < 2 ^ 64) : Nat.ofDigits (2 ^ 64) (carry xs) = Nat.ofDigits (2 ^ 64) xs + 1 ∧
    (∀ x ∈ carry xs, x < 2 ^ 64) ∧ xs.length ≤ (carry xs).length := by
  induction xs with
  | nil => simp [carry]
  | cons x xs ih =>
    obtain ⟨h1, h2, h3⟩ := ih fun y hy => h y (List.mem_cons_of_mem _ hy)
    have hx := h x List.mem_cons_self
    rw [carry]
    split
    · rename_i e
      subst e
      refine ⟨?_, ?_, by simpa using h3⟩
      · rw [Nat.ofDigits_cons, Nat.ofDigits_cons, h1]; ring
      · intro y hy
        rcases List.mem_cons.1 hy with rfl | hy
        · norm_num
        · exact h2 y hy
    · rename_i e
      refine ⟨by rw [Nat.ofDigits_cons, Nat.ofDigits_cons]; push_cast; ring, ?_, by simp⟩
      intro y hy
      rcases List.mem_cons.1 hy with rfl | hy
      · omega
      · exact h y (List.mem_cons_of_mem _ hy)

theorem loop_spec (n : ℕ) : ∀ exp : List ℕ, n ≤ exp.length → (∀ x ∈ exp, x < 2 ^ 64) → ∃ naf rest, loop n exp = some (naf, rest) ∧
    value 2 naf + 2 ^ (64 * n) * (Nat.ofDigits (2 ^ 64) rest : ℕ) = (Nat.ofDigits (2 ^ 64) exp : ℕ) ∧ naf.length = 64 * n ∧
    ∀ d ∈ naf, d = -1 ∨ d = 0 ∨ d = 1 := by
  induction n with
  | zero => intro exp _ _; exact ⟨[], exp, rfl, by simp [value], rfl, by simp⟩
  | succ n ih =>
    intro exp hl hx
    match exp, hl with
    | x :: xs, hl =>
      have hxs : ∀ y ∈ xs, y < 2 ^ 64 := fun y hy => hx y (List.mem_cons_of_mem _ hy)
      have hv := word_value 64 x
      have hf := word_final 64 x (hx x List.mem_cons_self).le
      have hd := word_digit 64 x
      have hlen := word_length 64 x
      rw [loop]
      generalize word 64 x = r at *
      obtain ⟨ds, f⟩ := r
      simp only at *
      have hn : n ≤ xs.length := by simpa using hl
      split
      · have : f = 1 := by omega
        subst this
        obtain ⟨c1, c2, c3⟩ := carry_spec xs hxs
        obtain ⟨naf, rest, h1, h2, h3, h4⟩ := ih (carry xs) (hn.trans c3) c2
        refine ⟨ds ++ naf, rest, by rw [if_pos rfl, h1]; rfl, ?_, by simp [hlen, h3]; ring, ?_⟩
        · rw [value_append, hlen, Nat.ofDigits_cons]
          rw [c1] at h2
          push_cast at h2 hv ⊢
          rw [show (2 : ℤ) ^ (64 * (n + 1)) = 2 ^ 64 * 2 ^ (64 * n) by rw [← pow_add]; ring_nf]
          linear_combination hv + 2 ^ 64 * h2
        · intro d h
          rcases List.mem_append.1 h with h | h
          · exact hd d h
          · exact h4 d h
      · have : f = 0 := by omega
        subst this
        obtain ⟨naf, rest, h1, h2, h3, h4⟩ := ih xs hn hxs
        refine ⟨ds ++ naf, rest, by rw [h1]; rfl, ?_, by simp [hlen, h3]; ring, ?_⟩
        · rw [value_append, hlen, Nat.ofDigits_cons]
          push_cast at h2 hv ⊢
          rw [show (2 : ℤ) ^ (64 * (n + 1)) = 2 ^ 64 * 2 ^ (64 * n) by rw [← pow_add]; ring_nf]
          linear_combination hv + 2 ^ 64 * h2
        · intro d h
          rcases List.mem_append.1 h with h | h
          · exact hd d h
          · exact h4 d h

/-- If the last limb is below `2 ^ 63`, nothing is carried out of it. -/
theorem loop_rest (n : ℕ) : ∀ (exp : List ℕ) (x : ℕ), exp.length = n → (∀ y ∈ exp ++ [x], y < 2 ^ 64) → x ≤ 2 ^ 63 →
    (x = 2 ^ 63 → ∀ y ∈ exp, y = 0) → ∃ naf, loop (n + 1) (exp ++ [x]) = some (naf, []) := by
  induction n with
  | zero =>
    intro exp x hl h1 h2 _
    have := word_half 63 x h2
    obtain rfl := List.length_eq_zero_iff.1 hl
    refine ⟨(word 64 x).1 ++ [], ?_⟩
    simp [loop, this]
  | succ n ih =>
    intro exp x hl h1 h2 h0
    obtain ⟨y, ys, rfl⟩ : ∃ y ys, exp = y :: ys := by
      cases exp with
      | nil => simp at hl
      | cons y ys => exact ⟨y, ys, rfl⟩
    have hl' : ys.length = n := by simpa using hl
    have hys : ∀ z ∈ ys ++ [x], z < 2 ^ 64 := fun z hz => h1 z (List.mem_cons_of_mem _ hz)
    have hf := word_final 64 y (h1 y List.mem_cons_self).le
    rw [List.cons_append, loop]
    by_cases h : (word 64 y).2 = 0
    · obtain ⟨naf, hn⟩ := ih ys x hl' hys h2 fun e z hz => h0 e z (List.mem_cons_of_mem _ hz)
      rw [if_neg (by simpa using h), hn]
      exact ⟨_, rfl⟩
    · have h1' : (word 64 y).2 = 1 := by omega
      have hx : x ≠ 2 ^ 63 := by
        intro e
        have : y = 0 := h0 e y List.mem_cons_self
        subst this
        exact h (by decide +kernel)
      -- the carry either stops before the last limb, or turns all of `ys` into zeros
      have hc : ∃ ys' x', carry (ys ++ [x]) = ys' ++ [x'] ∧ ys'.length = ys.length ∧ x' ≤ 2 ^ 63 ∧ (x' = 2 ^ 63 → ∀ z ∈ ys', z = 0) := by
        clear * - h2 hx
        induction ys with
        | nil =>
          refine ⟨[], x + 1, ?_, rfl, by omega, by simp⟩
          rw [List.nil_append, carry, if_neg (by omega)]
          rfl
        | cons z zs ih =>
          obtain ⟨ys', x', e1, e2, e3, e4⟩ := ih
          rw [List.cons_append, carry]
          split
          · refine ⟨0 :: ys', x', by rw [e1]; rfl, by simp [e2], e3, fun h => ?_⟩
            intro z hz
            rcases List.mem_cons.1 hz with rfl | hz
            · rfl
            · exact e4 h z hz
          · exact ⟨(z + 1) :: zs, x, rfl, by simp, h2, fun h => absurd h hx⟩
      obtain ⟨ys', x', e1, e2, e3, e4⟩ := hc
      have hb := (carry_spec _ hys).2.1
      rw [e1] at hb
      obtain ⟨naf, hn⟩ := ih ys' x' (e2.trans hl') hb e3 e4
      rw [if_pos (by simpa using h), if_pos h1', e1, hn]
      exact ⟨_, rfl⟩

/-! ### Properties -/

/-- **C60** When `get_naf` returns, it returns `64` digits per limb, each `-1`, `0` or `1`, whose value in base two is the exponent. -/
theorem C60_get_naf {exp : List ℕ} {naf : List ℤ} (hx : ∀ x ∈ exp, x < 2 ^ 64) (h : getNaf exp = some naf) :
    value 2 naf = (Nat.ofDigits (2 ^ 64) exp : ℕ) ∧ naf.length = 64 * exp.length ∧ ∀ d ∈ naf, d = -1 ∨ d = 0 ∨ d = 1 := by
  obtain ⟨naf', rest, h1, h2, h3, h4⟩ := loop_spec exp.length exp le_rfl hx
  simp only [getNaf, h1, Option.bind_eq_bind, Option.bind_some] at h
  split at h
  · rw [if_neg (by omega)] at h
    simp at h
  · rename_i h0
    have : rest = [] := List.length_eq_zero_iff.1 (by omega)
    subst this
    simp only [Option.some.injEq] at h
    subst h
    refine ⟨by simpa using h2, h3, h4⟩

/-- **C60** It returns whenever the most significant limb is below `2 ^ 63`. -/
theorem C60_get_naf_returns (exp : List ℕ) (x : ℕ) (hx : ∀ y ∈ exp, y < 2 ^ 64) (h : x < 2 ^ 63) :
    ∃ naf, getNaf (exp ++ [x]) = some naf := by
  obtain ⟨naf, hn⟩ := loop_rest exp.length exp x rfl (by
    intro y hy
    rcases List.mem_append.1 hy with hy | hy
    · exact hx y hy
    · rw [List.mem_singleton.1 hy]; omega) h.le (fun h => by omega)
  refine ⟨naf, ?_⟩
  have hl : (exp ++ [x]).length = exp.length + 1 := by simp
  simp [getNaf, hn]

/-- **C60** For a single limb the digits are a non-adjacent form. -/
theorem C60_get_naf_nonadjacent {x : ℕ} {naf : List ℤ} (h : getNaf [x] = some naf) : NonAdjacent naf := by
  have := word_nonAdjacent 64 x
  have e : naf = (word 64 x).1 := by
    rw [getNaf] at h
    simp only [List.length_singleton, loop] at h
    generalize word 64 x = r at h ⊢
    obtain ⟨ds, f⟩ := r
    simp only at h
    split at h
    · split at h
      · simp [loop, carry] at h
      · simp at h
    · simpa [loop] using h.symm
  rw [e]
  exact this

/-- **C60**, finding: when a digit is carried out of the last limb, the assertion `assert_eq!(len, exp.len() + 1)` (its two sides
are interchanged) panics instead of one more digit being returned. -/
theorem C60_get_naf_carry_out_panics {exp : List ℕ} {naf : List ℤ} {rest : List ℕ} (h : loop exp.length exp = some (naf, rest))
    (hr : rest ≠ []) : getNaf exp = none := by
  have : rest.length ≠ 0 := fun e => hr (List.length_eq_zero_iff.1 e)
  simp only [getNaf, h, Option.bind_eq_bind, Option.bind_some]
  rw [if_pos (by omega), if_neg (by omega)]

/-- So it panics on `u64::MAX`. -/
theorem C60_get_naf_max_panics : getNaf [2 ^ 64 - 1] = none := by
  obtain ⟨naf, h⟩ : ∃ naf, loop 1 [2 ^ 64 - 1] = some (naf, [1]) := by
    have : (loop 1 [2 ^ 64 - 1]).map Prod.snd = some [1] := by decide +kernel
    obtain ⟨⟨a, b⟩, h1, h2⟩ := Option.map_eq_some_iff.1 this
    exact ⟨a, by rw [h1, ← h2]⟩
  exact C60_get_naf_carry_out_panics (exp := [2 ^ 64 - 1]) h (by simp)

/-- **C60**, finding: across limbs the digits need not be non-adjacent (the last digit of a limb does not look at the next limb). -/
theorem C60_get_naf_adjacent : ∃ naf, getNaf [2 ^ 63, 1] = some naf ∧ naf[63]? = some 1 ∧ naf[64]? = some 1 := by
  have : (getNaf [2 ^ 63, 1]).map (fun naf => (naf[63]?, naf[64]?)) = some (some 1, some 1) := by decide +kernel
  obtain ⟨naf, h1, h2⟩ := Option.map_eq_some_iff.1 this
  simp only [Prod.mk.injEq] at h2
  exact ⟨naf, h1, h2.1, h2.2⟩

/-- The exponent which the repository uses (`BN_X`, bn254/mod.rs) is in the domain. -/
example : ∃ naf, getNaf [4965661367192848881] = some naf := C60_get_naf_returns [] _ (by simp) (by norm_num)

end H2.Naf
