import Verif.Sha.HonGates

/-!
# A closed form of the generated rows
-/

set_option autoImplicit false
namespace H2.Sha

section
variable (m : List Byte) (i : ℕ)

/-- The chaining value before block `i`. -/
def hv : St := chain (pad m) i
/-- The message schedule of block `i`. -/
def sch (t : ℕ) : W := schedule (fun t => beWord (pad m) (16 * i + t)) t
/-- The working variables of block `i` after `t` rounds. -/
def S (t : ℕ) : St := rounds (sch m i) (hv m i) t

def pa (s : St) : ℕ → W
  | 0 => s.d
  | 1 => s.c
  | 2 => s.b
  | _ => s.a
def pe (s : St) : ℕ → W
  | 0 => s.h
  | 1 => s.g
  | 2 => s.f
  | _ => s.e

/-- `T1` as a 64-bit sum. -/
def t1U (t : ℕ) : U64 :=
  z (S m i t).h + z (bigSigma1 (S m i t).e) + z (Ch (S m i t).e (S m i t).f (S m i t).g) + z (K.getD t 0) + z (sch m i t)
def t2U (t : ℕ) : U64 := z (bigSigma0 (S m i t).a) + z (Maj (S m i t).a (S m i t).b (S m i t).c)

/-- The columns in row `k` of block `i`. -/
def hW (k : ℕ) : U64 :=
  if k < 4 then 0 else if k < 20 then z (sch m i (k - 4)) else if k < 68 then
    z (sch m i (k - 20)) + z (smallSigma0 (sch m i (k - 19))) + z (sch m i (k - 11)) + z (smallSigma1 (sch m i (k - 6))) else 0
def hA (k : ℕ) : U64 :=
  if k < 4 then z (pa (hv m i) k) else if k < 68 then t1U m i (k - 4) + t2U m i (k - 4) else z (pa (hv m i) (k - 68)) + z (pa (S m i 64) (k - 68))
def hE (k : ℕ) : U64 :=
  if k < 4 then z (pe (hv m i) k) else if k < 68 then z (S m i (k - 4)).d + t1U m i (k - 4) else z (pe (hv m i) (k - 68)) + z (pe (S m i 64) (k - 68))
def hP (k q : ℕ) : Bool :=
  if k < 4 then q = 3 ∧ m.length < 64 * i else if k < 20 then m.length ≤ 64 * i + 4 * (k - 4) + q else k = 71 ∧ q = 3 ∧ m.length < 64 * (i + 1)
/-- The number of blocks. -/
def nb : ℕ := (pad m).length / 64
def hFin (k : ℕ) : Bool := if k < 4 then i = 0 else k = 71 ∧ i = nb m - 1
def hLen (k : ℕ) : ℕ :=
  if k < 4 then min m.length (64 * i) else if k < 20 then min m.length (64 * i + 4 * (k - 3)) else if k = 71 then min m.length (64 * (i + 1)) else 0
def hLimb (k : ℕ) : ℕ :=
  if i = nb m - 1 then
    (if k = 70 then (((hv m i).a + (S m i 64).a) ++ ((hv m i).b + (S m i 64).b) ++ ((hv m i).c + (S m i 64).c) ++ ((hv m i).d + (S m i 64).d)).toNat
    else if k = 71 then (((hv m i).e + (S m i 64).e) ++ ((hv m i).f + (S m i 64).f) ++ ((hv m i).g + (S m i 64).g) ++ ((hv m i).h + (S m i 64).h)).toNat
    else 0) else 0

/-- Row `k` of block `i`. -/
def hrow (k : ℕ) : VRow :=
  mkRow (hW m i k) (hA m i k) (hE m i k) (hFin m i k) (hLen m i k) ((List.range 4).map (hP m i k)) (hLimb m i k) (4 ≤ k ∧ k < 20)
end

theorem padRow_eq (total len : ℕ) (h : len ≤ total) :
    padRow total len = ((List.range 4).map fun q => decide (total ≤ len + q), min total (len + 4)) := by
  unfold padRow
  simp only [List.range_succ, List.range_zero, List.nil_append, List.cons_append, List.foldl_cons, List.foldl_nil, List.map_cons, List.map_nil]
  rcases Nat.lt_or_ge len total with h0 | h0
  swap
  · obtain rfl : len = total := by omega
    simp
  rcases Nat.lt_or_ge (len + 1) total with h1 | h1
  swap
  · obtain rfl : total = len + 1 := by omega
    simp
  rcases Nat.lt_or_ge (len + 2) total with h2 | h2
  swap
  · obtain rfl : total = len + 2 := by omega
    simp
  rcases Nat.lt_or_ge (len + 3) total with h3 | h3
  swap
  · obtain rfl : total = len + 3 := by omega
    simp
  simp only [show ¬ len = total by omega, show ¬ len + 1 = total by omega, show ¬ len + 1 + 1 = total by omega, show ¬ len + 1 + 1 + 1 = total by omega, if_false,
    List.nil_append, List.cons_append, Prod.mk.injEq, List.cons.injEq, and_true]
  refine ⟨⟨?_, ?_, ?_, ?_⟩, ?_⟩
  · symm; apply decide_eq_false; omega
  · symm; apply decide_eq_false; omega
  · symm; apply decide_eq_false; omega
  · symm; apply decide_eq_false; omega
  · omega

theorem sch_lt (m : List Byte) (i t : ℕ) (ht : t < 16) : sch m i t = beWord (pad m) (16 * i + t) := by
  unfold sch; rw [schedule, if_pos ht]
theorem sch_ge (m : List Byte) (i t : ℕ) (ht : 16 ≤ t) :
    sch m i t = smallSigma1 (sch m i (t - 2)) + sch m i (t - 7) + smallSigma0 (sch m i (t - 15)) + sch m i (t - 16) := by
  unfold sch; conv_lhs => rw [schedule, if_neg (by omega)]

/-- The state of the witness generation before round `t` of block `i`. -/
def RInv (m : List Byte) (i : ℕ) (rows : List VRow) (t : ℕ) : RSt :=
  let s := S m i t
  ⟨z s.a, z s.b, z s.c, z s.d, z s.e, z s.f, z s.g, z s.h, min m.length (64 * i + 4 * min t 16), decide (m.length < 64 * i + 4 * min t 16),
    (List.range t).map fun u => z (sch m i u), rows ++ (List.range t).map fun u => hrow m i (u + 4)⟩

theorem wExtV_eq (m : List Byte) (i t : ℕ) (ht : t < 64) (hi : 64 * (i + 1) ≤ (pad m).length) :
    wExtV (((intoBeBits (pad m)).drop (512 * i)).take 512) t ((List.range t).map fun u => z (sch m i u)) = hW m i (t + 4) := by
  unfold wExtV hW
  rw [if_neg (show ¬ t + 4 < 4 by omega)]
  by_cases h : t < 16
  · rw [if_pos h, if_pos (by omega), chunk_word _ _ _ h hi, Nat.add_sub_cancel, sch_lt m i t h]
  · rw [if_neg h, if_neg (by omega), if_pos (by omega)]
    have g : ∀ o, 1 ≤ o → o ≤ t → ((List.range t).map fun u => z (sch m i u)).getD (((List.range t).map fun u => z (sch m i u)).length - o) 0 = z (sch m i (t - o)) := by
      intro o h1 h2
      simp only [List.length_map, List.length_range, List.getD, List.getElem?_map]
      rw [List.getElem?_range (by omega)]
      simp
    simp only [g 15 (by omega) (by omega), g 2 (by omega) (by omega), g 7 (by omega) (by omega), g 16 (by omega) (by omega), mask32_z, rotV_z, shrV_z, z_xor]
    rw [show t + 4 - 20 = t - 16 by omega, show t + 4 - 19 = t - 15 by omega, show t + 4 - 11 = t - 7 by omega, show t + 4 - 6 = t - 2 by omega]
    rfl

theorem hW_trunc (m : List Byte) (i t : ℕ) (ht : t < 64) : (hW m i (t + 4)).setWidth 32 = sch m i t := by
  unfold hW
  rw [if_neg (show ¬ t + 4 < 4 by omega)]
  by_cases h : t < 16
  · rw [if_pos (by omega), z_trunc, Nat.add_sub_cancel]
  · rw [if_neg (by omega), if_pos (by omega), trunc_add, trunc_add, trunc_add, z_trunc, z_trunc, z_trunc, z_trunc, sch_ge m i t (by omega)]
    rw [show t + 4 - 20 = t - 16 by omega, show t + 4 - 19 = t - 15 by omega, show t + 4 - 11 = t - 7 by omega, show t + 4 - 6 = t - 2 by omega]
    generalize sch m i (t - 16) = a
    generalize sch m i (t - 7) = b
    generalize smallSigma0 _ = c
    generalize smallSigma1 _ = d
    apply BitVec.eq_of_toNat_eq
    simp only [BitVec.toNat_add, Nat.add_mod_mod, Nat.mod_add_mod]
    congr 1; ring

theorem t1U_trunc (m : List Byte) (i t : ℕ) : (t1U m i t).setWidth 32 = (S m i t).h + bigSigma1 (S m i t).e + Ch (S m i t).e (S m i t).f (S m i t).g + K.getD t 0 + sch m i t := by
  unfold t1U; simp only [trunc_add, z_trunc]
theorem t2U_trunc (m : List Byte) (i t : ℕ) : (t2U m i t).setWidth 32 = bigSigma0 (S m i t).a + Maj (S m i t).a (S m i t).b (S m i t).c := by
  unfold t2U; simp only [trunc_add, z_trunc]

theorem genRound_eq (m : List Byte) (i : ℕ) (rows : List VRow) (t : ℕ) (ht : t < 64) (hi : 64 * (i + 1) ≤ (pad m).length) :
    genRound m.length (((intoBeBits (pad m)).drop (512 * i)).take 512) (RInv m i rows t) t = RInv m i rows (t + 1) := by
  have hT1 : (z (S m i t).h + (rotV (z (S m i t).e) 6 ^^^ rotV (z (S m i t).e) 11 ^^^ rotV (z (S m i t).e) 25) +
      ((z (S m i t).e &&& z (S m i t).f) ^^^ (~~~z (S m i t).e &&& z (S m i t).g)) + BitVec.ofNat 64 (ROUND_CST.getD t 0) +
      mask32 (hW m i (t + 4))) = t1U m i t := by
    rw [mask32_eq, hW_trunc m i t ht, z_ofNat _ (ROUND_CST_lt t), ← K_eq]
    simp only [rotV_z, z_xor, z_and, z_not_and]
    rfl
  have hT2 : ((rotV (z (S m i t).a) 2 ^^^ rotV (z (S m i t).a) 13 ^^^ rotV (z (S m i t).a) 22) +
      ((z (S m i t).a &&& z (S m i t).b) ^^^ (z (S m i t).a &&& z (S m i t).c) ^^^ (z (S m i t).b &&& z (S m i t).c))) = t2U m i t := by
    simp only [rotV_z, z_xor, z_and]
    rfl
  have hS : S m i (t + 1) = round (K.getD t 0) (sch m i t) (S m i t) := rfl
  have hAeq : hA m i (t + 4) = t1U m i t + t2U m i t := by
    unfold hA; rw [if_neg (by omega), if_pos (by omega), Nat.add_sub_cancel]
  have hEeq : hE m i (t + 4) = z (S m i t).d + t1U m i t := by
    unfold hE; rw [if_neg (by omega), if_pos (by omega), Nat.add_sub_cancel]
  have hpl : (if t < 16 then padRow m.length (min m.length (64 * i + 4 * min t 16)) else (List.replicate 4 false, min m.length (64 * i + 4 * min t 16))) =
      ((List.range 4).map (hP m i (t + 4)), min m.length (64 * i + 4 * min (t + 1) 16)) := by
    by_cases h : t < 16
    · rw [if_pos h, padRow_eq _ _ (by omega)]
      refine Prod.ext ?_ (by simp only; omega)
      refine List.map_congr_left fun q hq => ?_
      have hq := List.mem_range.mp hq
      unfold hP
      rw [if_neg (by omega), if_pos (by omega)]
      apply Bool.decide_congr; omega
    · rw [if_neg h]
      refine Prod.ext ?_ (by simp only; omega)
      simp only
      have : ∀ q, hP m i (t + 4) q = false := by
        intro q; unfold hP; rw [if_neg (by omega), if_neg (by omega)]; apply decide_eq_false; omega
      simp only [List.range_succ, List.range_zero, List.map_append, List.map_cons, List.map_nil, this]; rfl
  unfold genRound
  simp only [RInv]
  rw [hpl]
  simp only [wExtV_eq m i t ht hi, hT1, hT2]
  rw [RSt.mk.injEq]
  refine ⟨?_, ?_, ?_, ?_, ?_, ?_, ?_, ?_, rfl, ?_, ?_, ?_⟩
  · rw [mask32_eq, trunc_add, t1U_trunc, t2U_trunc, hS]; rfl
  · rw [hS]; rfl
  · rw [hS]; rfl
  · rw [hS]; rfl
  · rw [mask32_eq, trunc_add, t1U_trunc, z_trunc, hS]; rfl
  · rw [hS]; rfl
  · rw [hS]; rfl
  · rw [hS]; rfl
  · by_cases h : t < 16
    · rw [if_pos h]
      simp only [List.getD, List.getElem?_map, List.getElem?_range (show 3 < 4 by omega), Option.map_some, Option.getD_some]
      unfold hP
      rw [if_neg (by omega), if_pos (by omega)]
      apply Bool.decide_congr; omega
    · rw [if_neg h]
      apply Bool.decide_congr; omega
  · rw [List.range_succ, List.map_append, List.map_cons, List.map_nil, mask32_eq, hW_trunc m i t ht]
  · conv_rhs => rw [List.range_succ, List.map_append, List.map_cons, List.map_nil]
    rw [List.append_assoc]
    congr 2
    simp only [List.cons.injEq, and_true]
    unfold hrow
    rw [hAeq, hEeq]
    have e1 : hFin m i (t + 4) = false := by unfold hFin; rw [if_neg (by omega)]; apply decide_eq_false; omega
    have e2 : hLimb m i (t + 4) = 0 := by unfold hLimb; rw [if_neg (show ¬ t + 4 = 70 by omega), if_neg (show ¬ t + 4 = 71 by omega), ite_self]
    have e3 : hLen m i (t + 4) = if t < 16 then min m.length (64 * i + 4 * min (t + 1) 16) else 0 := by
      unfold hLen; rw [if_neg (by omega)]
      by_cases h : t < 16
      · rw [if_pos (by omega), if_pos h]; omega
      · rw [if_neg (by omega), if_neg h, if_neg (by omega)]
    rw [e1, e2, e3]
    congr 1
    apply Bool.decide_congr; omega

theorem rounds_eq (m : List Byte) (i : ℕ) (rows : List VRow) (hi : 64 * (i + 1) ≤ (pad m).length) (t : ℕ) (ht : t ≤ 64) :
    (List.range t).foldl (genRound m.length (((intoBeBits (pad m)).drop (512 * i)).take 512)) (RInv m i rows 0) = RInv m i rows t := by
  induction t with
  | zero => rfl
  | succ t ih => rw [List.range_succ, List.foldl_append, ih (by omega), List.foldl_cons, List.foldl_nil, genRound_eq m i rows t (by omega) hi]

/-- The chaining value as in the code. -/
def stz (s : St) : List U64 := [z s.a, z s.b, z s.c, z s.d, z s.e, z s.f, z s.g, z s.h]

/-- The state of the witness generation before block `i`. -/
def BInv (m : List Byte) (i : ℕ) : BSt :=
  ⟨stz (hv m i), min m.length (64 * i), decide (m.length < 64 * i), (List.range i).flatMap fun j => (List.range 72).map (hrow m j)⟩

theorem range72 {α : Type} (f : ℕ → α) : (List.range 72).map f = [f 0, f 1, f 2, f 3] ++ ((List.range 64).map fun u => f (u + 4)) ++ [f 68, f 69, f 70, f 71] := by
  have e1 : List.range 72 = [0, 1, 2, 3] ++ (List.range 64).map (· + 4) ++ [68, 69, 70, 71] := by decide +kernel
  rw [e1, List.map_append, List.map_append, List.map_map]
  rfl

theorem hv_succ (m : List Byte) (i : ℕ) : hv m (i + 1) = (S m i 64).add (hv m i) := by
  show compress (chain (pad m) i) (fun t => beWord (pad m) (16 * i + t)) = _
  rw [compress]
  congr 1

theorem genBlock_eq (m : List Byte) (i : ℕ) (hi : i < nb m) :
    genBlock m.length (nb m) (BInv m i) (((intoBeBits (pad m)).drop (512 * i)).take 512, i) = BInv m (i + 1) := by
  have hi' : 64 * (i + 1) ≤ (pad m).length := by unfold nb at hi; omega
  have sr : ∀ k < 4, hrow m i k = mkRow 0 (z (pa (hv m i) k)) (z (pe (hv m i) k)) (i == 0) (min m.length (64 * i))
      [false, false, false, decide (m.length < 64 * i)] 0 false := by
    intro k hk
    have e1 : hW m i k = 0 := by unfold hW; rw [if_pos hk]
    have e2 : hA m i k = z (pa (hv m i) k) := by unfold hA; rw [if_pos hk]
    have e3 : hE m i k = z (pe (hv m i) k) := by unfold hE; rw [if_pos hk]
    have e4 : hFin m i k = (i == 0) := by unfold hFin; rw [if_pos hk]; rfl
    have e5 : hLen m i k = min m.length (64 * i) := by unfold hLen; rw [if_pos hk]
    have e6 : (List.range 4).map (hP m i k) = [false, false, false, decide (m.length < 64 * i)] := by
      simp [List.range_succ, hP, hk]
    have e7 : hLimb m i k = 0 := by unfold hLimb; rw [if_neg (show ¬ k = 70 by omega), if_neg (show ¬ k = 71 by omega), ite_self]
    unfold hrow
    rw [e1, e2, e3, e4, e5, e6, e7]
    congr 1
    apply decide_eq_false; omega
  have er : ∀ k, 68 ≤ k → k < 72 → hrow m i k = mkRow 0 (z (pa (hv m i) (k - 68)) + z (pa (S m i 64) (k - 68))) (z (pe (hv m i) (k - 68)) + z (pe (S m i 64) (k - 68)))
      (decide (k = 71) && (i == nb m - 1)) (if k = 71 then min m.length (64 * (i + 1)) else 0)
      [false, false, false, decide (k = 71) && decide (m.length < 64 * (i + 1))] (hLimb m i k) false := by
    intro k hk hk2
    have e1 : hW m i k = 0 := by unfold hW; rw [if_neg (by omega), if_neg (by omega), if_neg (by omega)]
    have e2 : hA m i k = z (pa (hv m i) (k - 68)) + z (pa (S m i 64) (k - 68)) := by unfold hA; rw [if_neg (by omega), if_neg (by omega)]
    have e3 : hE m i k = z (pe (hv m i) (k - 68)) + z (pe (S m i 64) (k - 68)) := by unfold hE; rw [if_neg (by omega), if_neg (by omega)]
    have e4 : hFin m i k = (decide (k = 71) && (i == nb m - 1)) := by unfold hFin; rw [if_neg (by omega), Bool.decide_and]; rfl
    have e5 : hLen m i k = if k = 71 then min m.length (64 * (i + 1)) else 0 := by unfold hLen; rw [if_neg (by omega), if_neg (by omega)]
    have e6 : (List.range 4).map (hP m i k) = [false, false, false, decide (k = 71) && decide (m.length < 64 * (i + 1))] := by
      simp [List.range_succ, hP, show ¬ k < 4 by omega, show ¬ k < 20 by omega]
    unfold hrow
    rw [e1, e2, e3, e4, e5, e6]
    congr 1
    apply decide_eq_false; omega
  unfold genBlock
  simp only [BInv, stz, List.getD_cons_zero, List.getD_cons_succ]
  have hR := rounds_eq m i (((List.range i).flatMap fun j => (List.range 72).map (hrow m j)) ++ [hrow m i 0, hrow m i 1, hrow m i 2, hrow m i 3]) hi' 64 (le_refl _)
  have hR0 : RInv m i (((List.range i).flatMap fun j => (List.range 72).map (hrow m j)) ++ [hrow m i 0, hrow m i 1, hrow m i 2, hrow m i 3]) 0 =
      ⟨z (hv m i).a, z (hv m i).b, z (hv m i).c, z (hv m i).d, z (hv m i).e, z (hv m i).f, z (hv m i).g, z (hv m i).h, min m.length (64 * i), decide (m.length < 64 * i), [],
        (((List.range i).flatMap fun j => (List.range 72).map (hrow m j)) ++ [mkRow 0 (z (hv m i).d) (z (hv m i).h) (i == 0) (min m.length (64 * i)) [false, false, false, decide (m.length < 64 * i)] 0 false,
          mkRow 0 (z (hv m i).c) (z (hv m i).g) (i == 0) (min m.length (64 * i)) [false, false, false, decide (m.length < 64 * i)] 0 false,
          mkRow 0 (z (hv m i).b) (z (hv m i).f) (i == 0) (min m.length (64 * i)) [false, false, false, decide (m.length < 64 * i)] 0 false,
          mkRow 0 (z (hv m i).a) (z (hv m i).e) (i == 0) (min m.length (64 * i)) [false, false, false, decide (m.length < 64 * i)] 0 false])⟩ := by
    simp only [RInv]
    rw [sr 0 (by omega), sr 1 (by omega), sr 2 (by omega), sr 3 (by omega)]
    simp only [S, rounds, List.range_zero, List.map_nil, List.append_nil]
    rfl
  rw [← hR0, hR]
  simp only [RInv]
  have hc := hv_succ m i
  have hL : hLimb m i 68 = 0 ∧ hLimb m i 69 = 0 := by unfold hLimb; simp
  have hm : ∀ x y : W, mask32 (z x + z y) = z (y + x) := by intro x y; rw [mask32_eq, trunc_add, z_trunc, z_trunc, BitVec.add_comm]
  rw [BSt.mk.injEq]
  refine ⟨?_, ?_, ?_, ?_⟩
  · simp only [List.map_cons, List.map_nil, hm, hc]; rfl
  · omega
  · apply Bool.decide_congr; omega
  · have ht : ∀ x y : W, (z x + z y).setWidth 32 = x + y := by intro x y; rw [trunc_add, z_trunc, z_trunc]
    have hl : hashLimbs (i == nb m - 1) [z (hv m i).a + z (S m i 64).a, z (hv m i).b + z (S m i 64).b, z (hv m i).c + z (S m i 64).c, z (hv m i).d + z (S m i 64).d,
        z (hv m i).e + z (S m i 64).e, z (hv m i).f + z (S m i 64).f, z (hv m i).g + z (S m i 64).g, z (hv m i).h + z (S m i 64).h] = (hLimb m i 70, hLimb m i 71) := by
      unfold hashLimbs hLimb
      simp only [List.getD_cons_zero, List.getD_cons_succ, ht, beq_iff_eq]
      by_cases h : i = nb m - 1
      · rw [if_pos h, if_pos h, if_pos h, if_pos trivial, if_neg (show ¬ (71 : ℕ) = 70 by decide), if_pos trivial]
      · rw [if_neg h, if_neg h, if_neg h]
    rw [hl]
    conv_rhs => rw [List.range_succ (n := i), List.flatMap_append, List.flatMap_cons, List.flatMap_nil, List.append_nil, range72, er 68 (by omega) (by omega),
      er 69 (by omega) (by omega), er 70 (by omega) (by omega), er 71 (by omega) (by omega), hL.1, hL.2]
    generalize S m i 64 = s64
    generalize hLimb m i 70 = l70
    generalize hLimb m i 71 = l71
    simp only [List.append_assoc]
    rfl

theorem genSha256_eq (m : List Byte) : genSha256 m = (List.range (nb m)).flatMap fun i => (List.range 72).map (hrow m i) := by
  unfold genSha256
  simp only
  rw [paddedBits_eq, chunksOf_length, intoBeBits_length, show 8 * (pad m).length / 512 = nb m by unfold nb; omega]
  have h0 : (⟨HINIT.map (BitVec.ofNat 64), 0, false, []⟩ : BSt) = BInv m 0 := by
    rw [BInv, BSt.mk.injEq]
    refine ⟨?_, by simp, by simp, rfl⟩
    show _ = stz iv
    decide
  rw [h0]
  have key : ∀ k ≤ nb m, (((chunksOf 512 (nb m) (intoBeBits (pad m))).zipIdx).take k).foldl (genBlock m.length (nb m)) (BInv m 0) = BInv m k := by
    intro k hk
    induction k with
    | zero => rfl
    | succ k ih =>
      have hlen : k < (chunksOf 512 (nb m) (intoBeBits (pad m))).zipIdx.length := by simp [chunksOf_length]; omega
      rw [List.take_succ_eq_append_getElem hlen, List.foldl_append, ih (by omega), List.foldl_cons, List.foldl_nil]
      have e : (chunksOf 512 (nb m) (intoBeBits (pad m))).zipIdx[k] = (((intoBeBits (pad m)).drop (512 * k)).take 512, k) := by
        rw [List.getElem_zipIdx]
        have := chunksOf_get 512 (nb m) (intoBeBits (pad m)) k (by omega)
        rw [List.getElem?_eq_some_iff] at this
        obtain ⟨_, h⟩ := this
        rw [h]; simp
      rw [e, genBlock_eq m k (by omega)]
  have := key (nb m) (le_refl _)
  rw [List.take_of_length_le (by simp [chunksOf_length])] at this
  rw [this]
  rfl

end H2.Sha
