import Verif.Sha.HonBlock

/-!
# The generated witness satisfies the circuit
-/

set_option autoImplicit false
namespace H2.Sha
variable {F : Type} [Field F]

/-- The blocks of a list of messages: (message, number of the block). -/
def blks (msgs : List (List Byte)) : List (List Byte × ℕ) := msgs.flatMap fun m => (List.range (nb m)).map fun i => (m, i)

theorem nb_pos (m : List Byte) : 1 ≤ nb m := by rw [nb_eq]; unfold numSha2Blocks; omega

theorem gen_blks (msgs : List (List Byte)) : msgs.flatMap genSha256 = (blks msgs).flatMap fun x => (List.range 72).map (hrow x.1 x.2) := by
  unfold blks
  rw [List.flatMap_assoc]
  congr 1; funext m
  rw [genSha256_eq, List.flatMap_map]

theorem flatMap_get {α β : Type} (f : α → List β) (c : ℕ) (hf : ∀ x, (f x).length = c) (l : List α) (b k : ℕ) (hk : k < c) :
    (l.flatMap f)[c * b + k]? = l[b]?.bind fun x => (f x)[k]? := by
  induction l generalizing b with
  | nil => simp
  | cons x l ih =>
    rw [List.flatMap_cons]
    cases b with
    | zero => rw [Nat.mul_zero, Nat.zero_add, List.getElem?_append_left (by rw [hf]; exact hk)]; simp
    | succ b =>
      rw [List.getElem?_append_right (by rw [hf, Nat.mul_succ]; omega), hf, List.getElem?_cons_succ, ← ih]
      congr 1
      rw [show c * (b + 1) + k = c + (c * b + k) by ring, Nat.add_sub_cancel_left]

theorem flatMap_len {α β : Type} (f : α → List β) (c : ℕ) (hf : ∀ x, (f x).length = c) (l : List α) : (l.flatMap f).length = c * l.length := by
  induction l with
  | nil => simp
  | cons x l ih => rw [List.flatMap_cons, List.length_append, hf, ih, List.length_cons]; ring

theorem rows_get (msgs : List (List Byte)) {b k : ℕ} {x : List Byte × ℕ} (hb : (blks msgs)[b]? = some x) (hk : k < 72) :
    (msgs.flatMap genSha256)[72 * b + k]? = some (hrow x.1 x.2 k) := by
  rw [gen_blks, flatMap_get _ 72 (by intro x; simp) _ _ _ hk, hb]
  simp [hk]

theorem rows_len (msgs : List (List Byte)) : (msgs.flatMap genSha256).length = 72 * (blks msgs).length := by
  rw [gen_blks, flatMap_len _ 72 (by intro x; simp)]

theorem blks_mem {msgs : List (List Byte)} {b : ℕ} {x : List Byte × ℕ} (h : (blks msgs)[b]? = some x) : x.1 ∈ msgs ∧ x.2 < nb x.1 := by
  have := List.mem_of_getElem? h
  simp only [blks, List.mem_flatMap, List.mem_map, List.mem_range] at this
  obtain ⟨m, hm, i, hi, rfl⟩ := this
  exact ⟨hm, hi⟩

theorem blks_zero {msgs : List (List Byte)} {x : List Byte × ℕ} (h : (blks msgs)[0]? = some x) : x.2 = 0 := by
  cases msgs with
  | nil => simp [blks] at h
  | cons m l =>
    rw [blks, List.flatMap_cons, List.getElem?_append_left (by simp; exact nb_pos m)] at h
    simp [List.getElem?_range (nb_pos m)] at h
    rw [← h]

/-- Consecutive blocks: the next block of the same message, or the first block of another one. -/
theorem blks_succ {msgs : List (List Byte)} {b : ℕ} {x y : List Byte × ℕ} (hx : (blks msgs)[b]? = some x) (hy : (blks msgs)[b + 1]? = some y) :
    (y = (x.1, x.2 + 1) ∧ x.2 + 1 < nb x.1) ∨ (y.2 = 0 ∧ x.2 + 1 = nb x.1) := by
  induction msgs generalizing b with
  | nil => simp [blks] at hx
  | cons m l ih =>
    have hc : blks (m :: l) = ((List.range (nb m)).map fun i => (m, i)) ++ blks l := rfl
    rw [hc] at hx hy
    by_cases h : b + 1 < nb m
    · rw [List.getElem?_append_left (by simp; omega)] at hx hy
      simp only [List.getElem?_map, List.getElem?_range (show b < nb m by omega), List.getElem?_range h, Option.map_some, Option.some.injEq] at hx hy
      left; rw [← hx, ← hy]; exact ⟨rfl, h⟩
    · by_cases h2 : b < nb m
      · rw [List.getElem?_append_left (by simp; omega)] at hx
        rw [List.getElem?_append_right (by simp; omega)] at hy
        simp only [List.getElem?_map, List.getElem?_range h2, Option.map_some, Option.some.injEq] at hx
        simp only [List.length_map, List.length_range, show b + 1 - nb m = 0 by omega] at hy
        right; rw [← hx]; exact ⟨blks_zero hy, by simp only; omega⟩
      · rw [List.getElem?_append_right (by simp; omega)] at hx hy
        simp only [List.length_map, List.length_range] at hx hy
        exact ih hx (by rw [← hy]; congr 1; omega)

section
variable (msgs : List (List Byte)) (blind : ℤ → Row F)

def G (b : ℕ) : List Byte × ℕ := (blks msgs).getD b ([], 0)

theorem G_get {b : ℕ} (hb : b < (blks msgs).length) : (blks msgs)[b]? = some (G msgs b) := by
  unfold G; simp [List.getD, hb]

theorem adv_eq {b k : ℕ} (hb : b < (blks msgs).length) (hk : k < 72) :
    advOf (msgs.flatMap genSha256) blind (72 * b + k : ℕ) = setRow (72 * b + k) (hrow (G msgs b).1 (G msgs b).2 k) := by
  unfold advOf
  rw [if_pos (by omega), Int.toNat_natCast, rows_get msgs (G_get msgs hb) hk]

theorem bl_bits {n : ℕ} (x : BitVec n) : ((List.range n).map fun i => (b2f ((bl x).getD i false) : F)) = bitsOf x := by
  unfold bitsOf
  refine List.map_congr_left fun i hi => ?_
  rw [List.getD, bl_getElem?, if_pos (List.mem_range.mp hi)]; rfl

theorem hPat (m : List Byte) (i k q : ℕ) (hq : q < 4) : ((List.range 4).map (hP m i k)).getD q false = hP m i k q := by
  simp [List.getD, hq]

/-- The generated rows are honest. -/
def hon (h8 : ∀ m ∈ msgs, 8 * m.length < 2 ^ 32) : Hon (blks msgs).length (advOf (msgs.flatMap genSha256) blind) where
  w b k := hW (G msgs b).1 (G msgs b).2 k
  a b k := hA (G msgs b).1 (G msgs b).2 k
  e b k := hE (G msgs b).1 (G msgs b).2 k
  P b k q := hP (G msgs b).1 (G msgs b).2 k q
  fin b k := hFin (G msgs b).1 (G msgs b).2 k
  len b k := hLen (G msgs b).1 (G msgs b).2 k
  io b k := if 4 ≤ k ∧ k < 20 then wordValueOf (hW (G msgs b).1 (G msgs b).2 k) ((List.range 4).map (hP (G msgs b).1 (G msgs b).2 k))
    else if 70 ≤ k then hLimb (G msgs b).1 (G msgs b).2 k else 0
  hw b hb k hk := by
    rw [wExt, adv_eq msgs blind hb hk]
    simp only [setRow, hrow, mkRow, wordToBits_34]
    exact bl_bits _
  ha b hb k hk := by
    rw [aExt, adv_eq msgs blind hb hk]
    simp only [setRow, hrow, mkRow, wordToBits_35]
    exact bl_bits _
  he b hb k hk := by
    rw [eExt, adv_eq msgs blind hb hk]
    simp only [setRow, hrow, mkRow, wordToBits_35]
    exact bl_bits _
  hP b hb k hk q hq := by
    rw [adv_eq msgs blind hb hk]
    simp only [setRow, hrow, mkRow]
    rw [hPat _ _ _ _ hq]
  hfin b hb k hk := by rw [adv_eq msgs blind hb hk]; rfl
  hlen b hb k hk := by rw [adv_eq msgs blind hb hk]; rfl
  hio b hb k hk := by
    rw [adv_eq msgs blind hb hk]
    simp only [setRow, hrow, mkRow]
    rw [show (72 * b + k) % 72 = k by omega]
    by_cases h : 4 ≤ k ∧ k < 20
    · rw [if_pos h, if_pos h, if_pos (by simpa using h)]
    · rw [if_neg h, if_neg h]
      split <;> simp
  wb b hb k hk := hW_lt _ _ k hk
  ab b hb k hk := hA_lt _ _ k hk
  eb b hb k hk := hE_lt _ _ k hk
  extend b hb k h1 h2 := h_extend _ _ k h1 h2
  compA b hb k h1 h2 := h_compA _ _ k h1 h2
  compE b hb k h1 h2 := h_compE _ _ k h1 h2
  startI b hb k hk hf := by
    unfold hFin at hf
    rw [if_pos hk, decide_eq_true_eq] at hf
    rw [hf]; exact h_startI _ k hk
  startC b hb k hk hf := by
    unfold hFin at hf
    rw [if_pos hk, decide_eq_false_iff_not] at hf
    have h0 : b ≠ 0 := by
      rintro rfl
      exact hf (blks_zero (G_get msgs hb))
    obtain ⟨b, rfl⟩ : ∃ c, b = c + 1 := ⟨b - 1, by omega⟩
    refine ⟨h0, ?_⟩
    rcases blks_succ (G_get msgs (show b < _ by omega)) (G_get msgs hb) with ⟨h, _⟩ | ⟨h, _⟩
    · rw [h, Nat.add_sub_cancel]
      exact ⟨h_startA _ _ k hk, h_startE _ _ k hk⟩
    · exact absurd h hf
  end_ b hb k h1 h2 := ⟨h_endA _ _ k h1 h2, h_endE _ _ k h1 h2⟩
  fin0 k hk := by
    by_cases hb : 0 < (blks msgs).length
    · unfold hFin; rw [if_pos hk, decide_eq_true_eq]; exact blks_zero (G_get msgs hb)
    · have : G msgs 0 = ([], 0) := by unfold G; rw [List.getD, List.getElem?_eq_none (by omega)]; rfl
      rw [this]; unfold hFin; rw [if_pos hk]; rfl
  finS b hb h0 k hk := by
    obtain ⟨b, rfl⟩ : ∃ c, b = c + 1 := ⟨b - 1, by omega⟩
    rw [Nat.add_sub_cancel]
    have hc := blks_succ (G_get msgs (show b < _ by omega)) (G_get msgs hb)
    unfold hFin
    rw [if_pos hk, if_neg (by omega)]
    apply Bool.decide_congr
    rcases hc with ⟨h, h'⟩ | ⟨h, h'⟩
    · rw [h]; exact ⟨fun h0 => absurd h0 (Nat.succ_ne_zero _), fun h0 => by omega⟩
    · rw [h]; exact ⟨fun _ => ⟨rfl, by omega⟩, fun _ => rfl⟩
  fin71 b hb := h_fin _ _ (blks_mem (G_get msgs hb)).2
  padMono b hb k h1 h2 q hq h := by
    rw [hP_prev _ _ k q h1 h2 hq, decide_eq_true_eq] at h
    rw [hP_in _ _ k q h1 h2, decide_eq_true_eq]; omega
  padByte b hb k h1 h2 q hq hp hk := by
    have hm := blks_mem (G_get msgs hb)
    exact h_padByte _ _ hm.2 (h8 _ hm.1) k h1 h2 q hq hp hk
  padLen b hb hp := by
    have hm := blks_mem (G_get msgs hb)
    exact h_padLen _ _ hm.2 (h8 _ hm.1) hp
  word b hb k h1 h2 := by rw [if_pos ⟨h1, h2⟩, wordValueOf_eq]
  length b hb k h1 h2 := h_length _ _ k h1 h2
  cross71 b hb := by
    unfold hLen
    rw [if_neg (by omega), if_neg (by omega), if_pos rfl, if_neg (by omega), if_pos (by omega), hP_out _ _ _ _ (by omega), hP_in _ _ _ _ (by omega) (by omega)]
    refine ⟨by omega, Bool.decide_congr (by omega)⟩
  crossI b hb k hk hf := by
    unfold hFin at hf
    rw [if_pos hk, decide_eq_true_eq] at hf
    rw [hf, hP_start _ _ _ _ hk]
    unfold hLen
    rw [if_pos hk]
    simp
  crossC b hb k hk hf := by
    unfold hFin at hf
    rw [if_pos hk, decide_eq_false_iff_not] at hf
    split
    · have h0 : b ≠ 0 := by
        rintro rfl
        exact hf (blks_zero (G_get msgs hb))
      obtain ⟨b, rfl⟩ : ∃ c, b = c + 1 := ⟨b - 1, by omega⟩
      rcases blks_succ (G_get msgs (show b < _ by omega)) (G_get msgs hb) with ⟨h, _⟩ | ⟨h, _⟩
      · rw [h, Nat.add_sub_cancel, hP_start _ _ _ _ hk, hP_out _ _ _ _ (by omega)]
        unfold hLen
        rw [if_pos hk, if_neg (by omega), if_neg (by omega), if_pos rfl]
        exact ⟨rfl, Bool.decide_congr (by simp)⟩
      · exact absurd h hf
    · rw [hP_start _ _ _ _ hk, hP_start _ _ _ _ (by omega)]
      unfold hLen
      rw [if_pos hk, if_pos (by omega)]
      exact ⟨rfl, rfl⟩
  finK b hb k hk := by unfold hFin; rw [if_pos (by omega), if_pos (by omega)]
  squeeze b hb hf d hd := by
    have hi : (G msgs b).2 = nb (G msgs b).1 - 1 := by
      unfold hFin at hf
      rw [if_neg (by omega), decide_eq_true_eq] at hf; exact hf.2
    rw [if_neg (by omega), if_pos (by omega), if_neg (by omega), if_pos (by omega)]
    exact h_squeeze _ _ hi d hd
  unW b hb k hk h := hW_lt32 _ _ k hk h
  unW0 b hb k hk h := by
    unfold hW
    by_cases h1 : k < 4
    · rw [if_pos h1]
    · rw [if_neg h1, if_neg (by omega), if_neg (by omega)]
  unFin b hb k h1 h2 := by unfold hFin; rw [if_neg (by omega)]; apply decide_eq_false; omega
  unPad b hb k hk h q hq := by
    by_cases h1 : k < 4
    · rw [hP_start _ _ _ _ h1]; apply decide_eq_false; omega
    · rw [hP_out _ _ _ _ (by omega)]; apply decide_eq_false; omega
  unPad3 b hb k h1 h2 := by
    rw [hP_out _ _ _ _ (by omega)]
    unfold hLen
    rw [if_neg (by omega), if_neg (by omega), if_neg (by omega)]
    exact ⟨by apply decide_eq_false; omega, rfl⟩
  unIo b hb k hk h := by rw [if_neg h, if_neg (by omega)]

end

theorem genMulti_msgs {inputs : List (List Byte)} {cap : Option ℕ} {rows : List VRow} (h : genMulti inputs cap = some rows) :
    ∃ k, rows = (inputs ++ List.replicate k []).flatMap genSha256 ∧ (∀ c, cap = some c → rows.length ≤ c * 72) ∧ (cap = none → k = 0) := by
  unfold genMulti at h
  cases cap with
  | none =>
    simp only [Option.some.injEq] at h
    exact ⟨0, by simp [h], by simp, by simp⟩
  | some c =>
    simp only at h
    split at h
    · simp at h
    · rename_i hlt
      simp only [Option.some.injEq] at h
      have e : ∀ k : ℕ, (List.replicate k ()).flatMap (fun _ => genSha256 []) = (List.replicate k ([] : List Byte)).flatMap genSha256 := by
        intro k
        induction k with
        | zero => rfl
        | succ k ih => simp only [List.replicate_succ, List.flatMap_cons, ih]
      rw [e, ← List.flatMap_append] at h
      rw [e, ← List.flatMap_append] at hlt
      refine ⟨_, h.symm, ?_, by simp⟩
      intro c' hc; simp only [Option.some.injEq] at hc; subst hc; rw [← h]; omega

end H2.Sha
