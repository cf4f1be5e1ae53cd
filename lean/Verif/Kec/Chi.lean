import Verif.Kec.Rho

/-!
# The chi step
-/

set_option autoImplicit false
set_option linter.unusedSectionVars false
namespace H2.Kec
open H2.Sha (Z Z_append Z_gate Z_cond Z_gate1 Z_reqEq Z_reqZero Z_reqBool Z_flatMap ind_eq_zero)

variable {p : ℕ} [Fact p.Prime] {k h n : ℕ} {a : Adv (ZMod p)}

theorem dig_three (N j : ℕ) : dig (packL (List.replicate N 3)) j = if j < N then 3 else 0 := by
  rw [dig_packL _ (by intro d hd; rw [List.eq_of_mem_replicate hd]; norm_num)]
  split
  · rename_i hj; simp [List.getD_eq_getElem?_getD, hj]
  · rename_i hj; exact getD_ge (by simp; omega)

theorem chi_entry {e : ℕ × ℕ} (he : e ∈ chiTable k) :
    e.1 < 8 ^ ps5 k ∧ e.2 < 8 ^ ps5 k ∧ (∀ j, dig e.1 j ≤ 4) ∧ ∀ j, j < ps5 k → dig e.2 j = CHI_BASE.getD (dig e.1 j) 0 := by
  obtain ⟨h1, h2, h3, h4⟩ := mem_tblRows (f := fun d => CHI_BASE.getD d 0) (by decide) (by decide) he
  refine ⟨h1, h2, fun j => ?_, h4⟩
  by_cases hj : j < ps5 k
  · exact Nat.le_of_lt_succ (h3 j hj)
  · rw [dig_of_lt h1 (by omega)]; omega

/-- The chi table computes `a ^ (¬b & c)`. -/
theorem chi_bits (x y z e : ℕ) (hx : x ≤ 1) (hy : y ≤ 1) (hz : z ≤ 1) (h : 3 + y = e + 2 * x + z) :
    CHI_BASE.getD e 0 = (x + (1 - y) * z) % 2 := by
  have he : e = 3 + y - 2 * x - z := by omega
  subst he
  rcases (by omega : x = 0 ∨ x = 1) with rfl | rfl <;> rcases (by omega : y = 0 ∨ y = 1) with rfl | rfl <;>
    rcases (by omega : z = 0 ∨ z = 1) with rfl | rfl <;> rfl

/-- The chi step of one part: the overflow digit of the input vanishes, and the output has the bits `a ^ (¬b & c)`. -/
theorem chi_step (hs : KecSat k h n a) (hk : Sizes k) (hp : 8 ^ 82 ≤ p) {inp out : List Cell} (ho : chiOk (layout k h).looks h inp out = true)
    {R : ℕ} (hR : R < 1 + n * 25)
    (hin : ∀ i, i < 5 → nv a (bs h R) (inp.getD i (0, 0)) < 8 ^ (ps5 k + 1) ∧ ∀ j, dig (nv a (bs h R) (inp.getD i (0, 0))) j ≤ 1) {i : ℕ} (hi : i < 5) :
    dig (nv a (bs h R) (inp.getD i (0, 0))) (ps5 k) = 0 ∧ nv a (bs h R) (out.getD i (0, 0)) < 8 ^ ps5 k ∧ ∀ j, j < ps5 k →
      dig (nv a (bs h R) (out.getD i (0, 0))) j = (dig (nv a (bs h R) (inp.getD i (0, 0))) j +
        (1 - dig (nv a (bs h R) (inp.getD ((i + 1) % 5) (0, 0))) j) * dig (nv a (bs h R) (inp.getD ((i + 2) % 5) (0, 0))) j) % 2 := by
  unfold chiOk at ho
  rw [List.all_eq_true] at ho
  have h1 := ho i (List.mem_range.mpr hi)
  simp only [Bool.and_eq_true, beq_iff_eq, decide_eq_true_eq, List.contains_iff_mem] at h1
  obtain ⟨⟨⟨⟨hlt, r1⟩, r2⟩, r3⟩, hlk⟩ := h1
  obtain ⟨e, he, e1, e2⟩ := (hs _ (row_lt hR hlt)).2 _ hlk
  obtain ⟨b1, b2, b3, b4⟩ := chi_entry he
  obtain ⟨hx, hxd⟩ := hin i hi
  obtain ⟨hy, hyd⟩ := hin ((i + 1) % 5) (Nat.mod_lt _ (by norm_num))
  obtain ⟨hz, hzd⟩ := hin ((i + 2) % 5) (Nat.mod_lt _ (by norm_num))
  have h17 : ∀ x : ℕ, x < 8 ^ (ps5 k + 1) → x < 8 ^ 17 := fun x hx =>
    lt_of_lt_of_le hx (Nat.pow_le_pow_right (by norm_num) (by have := hk.h5.2; omega))
  have h16 : ∀ x : ℕ, x < 8 ^ (ps5 k) → x < 8 ^ 17 := fun x hx =>
    lt_of_lt_of_le hx (Nat.pow_le_pow_right (by norm_num) (by have := hk.h5.2; omega))
  have c1 : nv a (bs h R) (out.getD i (0, 0)) = e.2 := by
    unfold nv
    refine val_of_cast ?_ (by rw [val_row, r3]; exact e2)
    have := h16 _ b2
    have : (8 : ℕ) ^ 17 < 8 ^ 82 := Nat.pow_lt_pow_right (by norm_num) (by norm_num)
    omega
  rw [← val_row a h R, show ((R * h + (inp.getD i (0, 0)).2 : ℕ) : ℤ) = ((R * h + (inp.getD ((i + 1) % 5) (0, 0)).2 : ℕ) : ℤ) by rw [r1], ← val_row a h R,
    show ((R * h + (inp.getD ((i + 1) % 5) (0, 0)).2 : ℕ) : ℤ) = ((R * h + (inp.getD ((i + 2) % 5) (0, 0)).2 : ℕ) : ℤ) by rw [r1, r2], ← val_row a h R,
    ← cast_nv, ← cast_nv, ← cast_nv] at e1
  rw [c1]
  generalize nv a (bs h R) (inp.getD i (0, 0)) = x at *
  generalize nv a (bs h R) (inp.getD ((i + 1) % 5) (0, 0)) = y at *
  generalize nv a (bs h R) (inp.getD ((i + 2) % 5) (0, 0)) = z at *
  have hthree : packL (List.replicate (ps5 k) 3) < 8 ^ ps5 k := lt_of_dig fun j hj => by rw [dig_three, if_neg (by omega)]
  have heq : packL (List.replicate (ps5 k) 3) + y = e.1 + 2 * x + z := by
    have g1 := h17 x hx
    have g2 := h17 y hy
    have g3 := h17 z hz
    have g4 := h16 _ hthree
    have g5 := h16 _ b1
    have g6 : (8 : ℕ) ^ 18 < 8 ^ 82 := Nat.pow_lt_pow_right (by norm_num) (by norm_num)
    have g7 : (8 : ℕ) ^ 18 = 8 * 8 ^ 17 := by rw [pow_succ']
    refine nat_eq (p := p) (by omega) (by omega) ?_
    push_cast
    rw [← e1]
    ring
  have hL : ∀ j, dig (packL (List.replicate (ps5 k) 3) + y) j = (if j < ps5 k then 3 else 0) + dig y j := fun j => by
    rw [dig_add (fun j => ?_), dig_three]
    rw [dig_three]
    have := hyd j
    split <;> omega
  have h2x : ∀ j, dig (2 * x) j = 2 * dig x j := fun j => dig_mul (fun j => by have := hxd j; omega) j
  have h2e : ∀ j, dig (e.1 + 2 * x) j = dig e.1 j + 2 * dig x j := fun j => by
    rw [dig_add (fun j => ?_), h2x]
    rw [h2x]
    have := hxd j
    have := b3 j
    omega
  have hRR : ∀ j, dig (e.1 + 2 * x + z) j = dig e.1 j + 2 * dig x j + dig z j := fun j => by
    rw [dig_add (fun j => ?_), h2e]
    rw [h2e]
    have := hxd j
    have := hzd j
    have := b3 j
    omega
  have hd : ∀ j, (if j < ps5 k then 3 else 0) + dig y j = dig e.1 j + 2 * dig x j + dig z j := fun j => by rw [← hL, heq, hRR]
  refine ⟨?_, b2, fun j hj => ?_⟩
  · have := hd (ps5 k)
    rw [if_neg (by omega), dig_of_lt b1 le_rfl] at this
    have := hyd (ps5 k)
    omega
  · have := hd j
    rw [if_pos hj] at this
    rw [b4 j hj]
    exact chi_bits _ _ _ _ (hxd j) (hyd j) (hzd j) this

end H2.Kec
