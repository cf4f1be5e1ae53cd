import Verif.Utils.Model
import Mathlib.Tactic.Ring
import Mathlib.Tactic.NormNum
import Mathlib.Data.Nat.Digits.Lemmas
import Mathlib.Data.Nat.Log

/-! # Correctness of the machine-word decompositions -/

set_option autoImplicit false
namespace H2.Utils
open H2

theorem shlW_eq {w x k : ℕ} {chk : Bool} (hk : k < w) (h : x * 2 ^ k < 2 ^ w) : shlW w chk x k = some (x * 2 ^ k) := by
  rw [shlW, if_pos hk, Nat.mod_eq_of_lt h]

theorem shrW_eq {w x k : ℕ} {chk : Bool} (hk : k < w) : shrW w chk x k = some (x / 2 ^ k) := by
  rw [shrW, if_pos hk]

theorem maskW_eq {k : ℕ} {chk : Bool} (hk : k < 64) : maskW chk k = some (2 ^ k - 1) := by
  rw [maskW, shlW_eq hk (by rw [one_mul]; exact Nat.pow_lt_pow_right (by norm_num) hk)]; simp

theorem and_mask (d k : ℕ) : d &&& (2 ^ k - 1) = d % 2 ^ k := Nat.and_two_pow_sub_one_eq_mod d k

theorem or_hi {d k v : ℕ} (h : d < 2 ^ k) : d ||| (v * 2 ^ k) = d + 2 ^ k * v := by
  rw [Nat.mul_comm v, Nat.lor_comm, ← Nat.two_pow_add_eq_or_of_lt h]; omega

/-- Value of a little-endian digit stream. -/
def dval (e : List ℕ) : ℕ := Nat.ofDigits (2 ^ 64) e

theorem dval_next (e : List ℕ) : dval e = next e + 2 ^ 64 * dval e.tail := by
  cases e <;> simp [dval, next, Nat.ofDigits_cons]

theorem next_lt {e : List ℕ} (h : ∀ d ∈ e, d < 2 ^ 64) : next e < 2 ^ 64 := by
  cases e with
  | nil => simp [next]
  | cons a t => exact h a (by simp)

theorem limbsOf_succ (v n b : ℕ) : limbsOf v (n + 1) b = (v % 2 ^ b) :: limbsOf (v / 2 ^ b) n b := by
  unfold limbsOf
  rw [List.range_succ_eq_map, List.map_cons, List.map_map]
  simp only [Nat.mul_zero, pow_zero, Nat.div_one]
  congr 1
  refine List.map_congr_left fun i _ => ?_
  simp only [Function.comp, Nat.div_div_eq_div_mul, ← pow_add]
  congr 3
  rw [Nat.succ_eq_add_one]; ring

/-- Splitting off `k ≤ r` low bits of `d + 2^r * v`. -/
theorem split_low {d v k r : ℕ} (hk : k ≤ r) :
    (d + 2 ^ r * v) % 2 ^ k = d % 2 ^ k ∧ (d + 2 ^ r * v) / 2 ^ k = d / 2 ^ k + 2 ^ (r - k) * v := by
  have e : 2 ^ r = 2 ^ k * 2 ^ (r - k) := by rw [← pow_add]; congr 1; omega
  rw [e, mul_assoc]
  exact ⟨by rw [Nat.add_mul_mod_self_left], by rw [Nat.add_mul_div_left _ _ (by positivity)]⟩

/-- Splitting off `k ≥ r` bits of `d + 2^r * v` when `d < 2^r`. -/
theorem split_high {d v k r : ℕ} (hd : d < 2 ^ r) (hk : r ≤ k) :
    (d + 2 ^ r * v) % 2 ^ k = d + 2 ^ r * (v % 2 ^ (k - r)) ∧ (d + 2 ^ r * v) / 2 ^ k = v / 2 ^ (k - r) := by
  have e : 2 ^ k = 2 ^ r * 2 ^ (k - r) := by rw [← pow_add]; congr 1; omega
  have hdiv : (d + 2 ^ r * v) / 2 ^ r = v := by
    rw [Nat.add_mul_div_left _ _ (by positivity), Nat.div_eq_of_lt hd, zero_add]
  have hmod : (d + 2 ^ r * v) % 2 ^ r = d := by
    rw [Nat.add_mul_mod_self_left, Nat.mod_eq_of_lt hd]
  rw [e]
  refine ⟨?_, by rw [← Nat.div_div_eq_div_mul, hdiv]⟩
  rw [Nat.mod_mul, hmod, hdiv]

theorem u64Loop_eq {chk : Bool} {b : ℕ} (hb : b < 64) (n : ℕ) : ∀ (e : List ℕ) (d rem : ℕ),
    (∀ d ∈ e, d < 2 ^ 64) → rem ≤ 64 → 0 < rem → d < 2 ^ rem →
    u64Loop chk (2 ^ b - 1) b n e d rem = some (limbsOf (d + 2 ^ rem * dval e) n b) := by
  induction n with
  | zero => intros; simp [u64Loop, limbsOf]
  | succ n ih =>
    intro e d rem he hr h0 hd
    have htail : ∀ d ∈ e.tail, d < 2 ^ 64 := fun x hx => he x (List.mem_of_mem_tail hx)
    rw [limbsOf_succ, u64Loop]
    rcases lt_trichotomy b rem with h | h | h
    · rw [if_pos h]
      obtain ⟨h1, h2⟩ := split_low (d := d) (v := dval e) h.le
      have hd' : d / 2 ^ b < 2 ^ (rem - b) := by
        rw [Nat.div_lt_iff_lt_mul (by positivity), ← pow_add]
        rwa [show rem - b + b = rem by omega]
      rw [shrW_eq hb]
      simp only [Option.bind_eq_bind, Option.bind_some]
      rw [ih e _ _ he (by omega) (by omega) hd', h1, h2, and_mask]
      rfl
    · subst h
      rw [if_neg (lt_irrefl _), if_pos rfl]
      obtain ⟨h1, h2⟩ := split_low (d := d) (v := dval e) (le_refl b)
      rw [ih e.tail _ _ htail le_rfl (by norm_num) (next_lt he), h1, h2, and_mask, dval_next e,
        Nat.div_eq_of_lt hd, Nat.sub_self, pow_zero, one_mul, zero_add]
      rfl
    · rw [if_neg (by omega), if_neg (by omega)]
      obtain ⟨h1, h2⟩ := split_high (d := d) (v := dval e) hd h.le
      have hk : b - rem < 64 := by omega
      have hn := next_lt he
      have hlt : next e % 2 ^ (b - rem) * 2 ^ rem < 2 ^ 64 := by
        calc next e % 2 ^ (b - rem) * 2 ^ rem < 2 ^ (b - rem) * 2 ^ rem :=
              Nat.mul_lt_mul_of_pos_right (Nat.mod_lt _ (by positivity)) (by positivity)
          _ = 2 ^ b := by rw [← pow_add]; congr 1; omega
          _ ≤ 2 ^ 64 := Nat.pow_le_pow_right (by norm_num) hb.le
      have hd' : next e / 2 ^ (b - rem) < 2 ^ (rem + (64 - b)) := by
        rw [Nat.div_lt_iff_lt_mul (by positivity), ← pow_add]
        rwa [show rem + (64 - b) + (b - rem) = 64 by omega]
      simp only
      rw [maskW_eq hk, shrW_eq hk]
      simp only [Option.bind_eq_bind, Option.bind_some]
      rw [and_mask, shlW_eq (by omega) hlt]
      simp only [Option.bind_some]
      rw [ih e.tail _ _ htail (by omega) (by omega) hd', h1, h2, or_hi hd, dval_next e,
        (split_low (d := next e) (v := dval e.tail) (k := b - rem) (r := 64) (by omega)).1,
        (split_low (d := next e) (v := dval e.tail) (k := b - rem) (r := 64) (by omega)).2,
        show 64 - (b - rem) = rem + (64 - b) by omega]
      rfl

theorem decomposeU64Digits_eq {chk : Bool} {e : List ℕ} {n b : ℕ} (hb : b < 64) (he : ∀ d ∈ e, d < 2 ^ 64) :
    decomposeU64Digits chk e n b = some (limbsOf (Nat.ofDigits (2 ^ 64) e) n b) := by
  unfold decomposeU64Digits
  have hne : ¬ (chk = true ∧ ¬ b < 64) := by omega
  simp only [hne, if_false, Option.bind_eq_bind, maskW_eq hb, Option.bind_some]
  rw [u64Loop_eq hb n e.tail _ 64 (fun x hx => he x (List.mem_of_mem_tail hx)) le_rfl (by norm_num) (next_lt he)]
  rw [← dval_next]; rfl

theorem u64Digits_lt {e : ℕ} : ∀ d ∈ u64Digits e, d < 2 ^ 64 :=
  fun _ h => Nat.digits_lt_base (by norm_num) h

theorem ofDigits_u64Digits (e : ℕ) : Nat.ofDigits (2 ^ 64) (u64Digits e) = e := Nat.ofDigits_digits _ _

theorem div_lt_pow {x k r s : ℕ} (hk : s + k = r) (h : x < 2 ^ r) : x / 2 ^ k < 2 ^ s := by
  rw [Nat.div_lt_iff_lt_mul (by positivity), ← pow_add, hk]; exact h

theorem mod_mul_lt {x k r m : ℕ} (h : k + r ≤ m) : x % 2 ^ k * 2 ^ r < 2 ^ m := by
  calc _ < 2 ^ k * 2 ^ r := Nat.mul_lt_mul_of_pos_right (Nat.mod_lt _ (by positivity)) (by positivity)
    _ = 2 ^ (k + r) := by rw [pow_add]
    _ ≤ 2 ^ m := Nat.pow_le_pow_right (by norm_num) h

theorem mul_lt_pow {x k r m : ℕ} (hx : x < 2 ^ k) (h : k + r ≤ m) : x * 2 ^ r < 2 ^ m := by
  have := mod_mul_lt (x := x) h
  rwa [Nat.mod_eq_of_lt hx] at this

theorem low_lt {d x r k : ℕ} (hd : d < 2 ^ r) (hx : x < 2 ^ k) : d + 2 ^ r * x < 2 ^ (r + k) := by
  rw [pow_add]
  calc d + 2 ^ r * x < 2 ^ r + 2 ^ r * x := by omega
    _ = 2 ^ r * (x + 1) := by ring
    _ ≤ 2 ^ r * 2 ^ k := Nat.mul_le_mul_left _ hx

theorem val_shift (d v t r k : ℕ) : d + 2 ^ r * (v + 2 ^ k * t) = (d + 2 ^ r * v) + 2 ^ (r + k) * t := by
  rw [pow_add]; ring

theorem bind_ite_none {α : Type} {c : Prop} [Decidable c] (h : ¬ c) (x : Option α) :
    ((if c then none else some PUnit.unit : Option PUnit) >>= fun _ => x) = x := by
  rw [if_neg h]; rfl

theorem bigLoop_eq {chk : Bool} {b : ℕ} (hb : 64 ≤ b) (hb' : b < 128) (n : ℕ) : ∀ (e : List ℕ) (d rem : ℕ),
    (∀ d ∈ e, d < 2 ^ 64) → rem ≤ 64 → 0 < rem → d < 2 ^ rem →
    bigLoop chk b n e d rem = some (limbsOf (d + 2 ^ rem * dval e) n b) := by
  induction n with
  | zero => intros; simp [bigLoop, limbsOf]
  | succ n ih =>
    intro e d rem he hr h0 hd
    have htail : ∀ d ∈ e.tail, d < 2 ^ 64 := fun x hx => he x (List.mem_of_mem_tail hx)
    have htail2 : ∀ d ∈ e.tail.tail, d < 2 ^ 64 := fun x hx => htail x (List.mem_of_mem_tail hx)
    rw [limbsOf_succ, bigLoop]
    have hn := next_lt he
    have hn2 := next_lt htail
    have hv := dval_next e
    have hv2 := dval_next e.tail
    generalize next e = x at hn hv ⊢
    generalize next e.tail = y at hn2 hv2 ⊢
    by_cases h : 64 + rem ≤ b
    · have r1 : rem < 128 := by omega
      have r2 : rem + 64 < 128 := by omega
      have r3 : rem + 64 ≤ b := by omega
      have hk : b - (rem + 64) < 64 := by omega
      have hne : ¬ b < rem + 64 := by omega
      have hne2 : ¬ 64 < b - (rem + 64) := by omega
      have k1 : 64 + rem ≤ 128 := by omega
      have k2 : b - (rem + 64) + (rem + 64) ≤ 128 := by omega
      have k3 : 64 - (b - (rem + 64)) + (b - (rem + 64)) = 64 := by omega
      have k4 : 64 - (b - (rem + 64)) ≤ 64 := by omega
      have k5 : 0 < 64 - (b - (rem + 64)) := by omega
      have hs := mul_lt_pow hn k1
      have hlow := low_lt hd hn
      have hs2 := mod_mul_lt (x := y) k2
      have hd' := div_lt_pow k3 hn2
      obtain ⟨h1, h2⟩ := split_high (v := dval e.tail) hlow r3
      have s1 := split_low (d := y) (v := dval e.tail.tail) (k := b - (rem + 64)) (r := 64) hk.le
      have ih' := ih _ _ _ htail2 k4 k5 hd'
      rw [← val_shift, ← hv] at h1 h2
      rw [hv2] at h1 h2
      rw [s1.1] at h1
      rw [s1.2] at h2
      simp only [if_pos h, shlW_eq (w := 128) (chk := chk) r1 hs, Option.bind_eq_bind,
        Option.bind_some, Option.pure_def, if_neg hne, maskW_eq hk, and_mask,
        shlW_eq (w := 128) (chk := chk) r2 hs2, shrW_eq hk, if_neg hne2]
      rw [ih', h1, h2, or_hi hd, or_hi hlow]
      rfl
    · have hk : b - rem < 64 := by omega
      have hne : ¬ b < rem := by omega
      have hne2 : ¬ 64 < b - rem := by omega
      have r1 : rem < 128 := by omega
      have r2 : rem ≤ b := by omega
      have k2 : b - rem + rem ≤ 128 := by omega
      have k3 : 64 - (b - rem) + (b - rem) = 64 := by omega
      have k4 : 64 - (b - rem) ≤ 64 := by omega
      have k5 : 0 < 64 - (b - rem) := by omega
      have hs2 := mod_mul_lt (x := x) k2
      have hd' := div_lt_pow k3 hn
      obtain ⟨h1, h2⟩ := split_high (v := dval e) hd r2
      have s1 := split_low (d := x) (v := dval e.tail) (k := b - rem) (r := 64) hk.le
      have ih' := ih _ _ _ htail k4 k5 hd'
      rw [hv, s1.1] at h1
      rw [hv, s1.2] at h2
      simp only [if_neg h, Option.bind_eq_bind,
        Option.bind_some, Option.pure_def, if_neg hne, maskW_eq hk, and_mask,
        shlW_eq (w := 128) (chk := chk) r1 hs2, shrW_eq hk, if_neg hne2]
      rw [ih', hv, h1, h2, or_hi hd]
      rfl

theorem decomposeBigLimbs_loop {chk : Bool} {e n b : ℕ} (hb : 64 ≤ b) (hb' : b < 128) :
    decomposeBigLimbs chk e (n + 1) b = bigLoop chk b (n + 1) (u64Digits e).tail (next (u64Digits e)) 64 := by
  have hne : ¬ (chk = true ∧ ¬ (64 ≤ b ∧ b < 128)) := by omega
  have hne1 : ¬ b < 64 := by omega
  have hne2 : ¬ 64 + 64 ≤ b := by omega
  rw [decomposeBigLimbs, bigLoop]
  simp only [if_neg hne, if_neg hne1, if_neg hne2, Nat.add_sub_cancel, Option.bind_eq_bind, Option.pure_def,
    Option.bind_some]

theorem decomposeBigLimbs_eq {chk : Bool} {e n b : ℕ} (hb : 64 ≤ b) (hb' : b < 128) (hn : n ≠ 0) :
    decomposeBigLimbs chk e n b = some (limbsOf e n b) := by
  obtain ⟨n, rfl⟩ := Nat.exists_eq_succ_of_ne_zero hn
  have he := u64Digits_lt (e := e)
  rw [decomposeBigLimbs_loop hb hb', bigLoop_eq hb hb' _ _ _ _ (fun x hx => he x (List.mem_of_mem_tail hx)) le_rfl
    (by norm_num) (next_lt he), ← dval_next, dval, ofDigits_u64Digits]

theorem foldl_compose (b : ℕ) (l : List ℕ) : ∀ acc, (l.foldl (fun acc v => acc * 2 ^ b + v) acc) =
    acc * 2 ^ (b * l.length) + l.foldl (fun acc v => acc * 2 ^ b + v) 0 := by
  induction l with
  | nil => simp
  | cons a t ih =>
    intro acc
    rw [List.foldl_cons, ih, List.foldl_cons, ih (0 * 2 ^ b + a), List.length_cons, mul_add, mul_one, pow_add]
    ring

theorem compose_cons (a : ℕ) (t : List ℕ) (b : ℕ) : compose (a :: t) b = a + 2 ^ b * compose t b := by
  unfold compose
  rw [List.reverse_cons, List.foldl_append]
  simp; ring

theorem compose_limbsOf (n b : ℕ) : ∀ v, compose (limbsOf v n b) b = v % 2 ^ (b * n) := by
  induction n with
  | zero => intro v; simp [limbsOf, compose, Nat.mod_one]
  | succ n ih =>
    intro v
    rw [limbsOf_succ, compose_cons, ih, mul_add, mul_one, pow_add, Nat.mul_comm (2 ^ (b * n)), Nat.mod_mul]

end H2.Utils
