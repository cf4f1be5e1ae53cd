import Verif.Kec.Congr

/-!
# Assignments with forged hash cells, for parameters without the lookups of the squeezed bytes
-/

set_option autoImplicit false
set_option linter.unusedSectionVars false
namespace H2.Kec
open H2.Sha (Z Z_append Z_gate Z_cond Z_gate1 Z_reqEq Z_reqZero Z_reqBool Z_flatMap ind_eq_zero ind b2f bool_cases b2f_inj notE selE sumE andE
  fromBytes fromBytes_cons reqEq reqZero reqBool gate cond)

/-- The columns of a lookup. -/
def Look.cols : Look → List ℕ
  | .trans _ x y => [x, y]
  | .range4 c => [c]
  | .chi x y z o => [x, y, z, o]

/-- The cell of byte `x` of the squeezed word occurs in no gate but the squeeze gate, and its column in no lookup. -/
def sqFree (h : ℕ) (L : Layout) (x : ℕ) : Bool :=
  let c := L.squeezeBytes.getD x (0, 0)
  decide (1 ≤ h) && decide (x < 8) && L.squeezeBytes.length == 8 && decide (c.2 < h) && (L.used.all fun d => d != c && decide (d.2 < h)) &&
    ((List.range 8).all fun y => decide ((L.squeezeBytes.getD y (0, 0)).2 < h) && (y == x || L.squeezeBytes.getD y (0, 0) != c)) &&
    (L.looks.all fun l => !(l.cols.contains c.1))

section
variable {F : Type} [Field F] {k h n : ℕ}

theorem fromBytes_set (l : List F) (e : ℕ) (v : F) (he : e < l.length) : fromBytes (l.set e v) = fromBytes (l.set e 0) + v * 256 ^ e := by
  induction l generalizing e with
  | nil => simp at he
  | cons x l ih =>
    cases e with
    | zero => rw [List.set_cons_zero, List.set_cons_zero, fromBytes_cons, fromBytes_cons]; ring
    | succ e =>
      rw [List.set_cons_succ, List.set_cons_succ, fromBytes_cons, fromBytes_cons, ih e (by simpa using he)]
      ring

theorem fromBytes_solve (h2 : (2 : F) ≠ 0) (l : List F) (e : ℕ) (he : e < l.length) (w : F) : ∃ v, fromBytes (l.set e v) = w := by
  refine ⟨(w - fromBytes (l.set e 0)) / 256 ^ e, ?_⟩
  have : (256 : F) ^ e ≠ 0 := by
    have : (256 : F) = 2 ^ 8 := by norm_num
    rw [this]; exact pow_ne_zero _ (pow_ne_zero _ h2)
  rw [fromBytes_set _ _ _ he, div_mul_cancel₀ _ this]
  ring

theorem rev_take (l : List F) (hl : l.length = 32) {x : ℕ} (hx : x < 8) (v1 v2 : F) :
    ((l.set (24 + x) v1).set (8 + x) v2).reverse.take 16 = (l.reverse.take 16).set (7 - x) v1 := by
  refine List.ext_getElem (by simp) fun q h1 h2 => ?_
  have hq : q < 16 := by simp at h1; omega
  simp only [List.getElem_take, List.getElem_reverse, List.getElem_set, List.length_set, hl]
  rw [if_neg (by omega)]
  by_cases h : q = 7 - x
  · rw [if_pos (by omega), if_pos (by omega)]
  · rw [if_neg (by omega), if_neg (by omega)]

theorem rev_drop (l : List F) (hl : l.length = 32) {x : ℕ} (hx : x < 8) (v1 v2 : F) :
    ((l.set (24 + x) v1).set (8 + x) v2).reverse.drop 16 = (l.reverse.drop 16).set (7 - x) v2 := by
  refine List.ext_getElem (by simp) fun q h1 h2 => ?_
  have hq : q < 16 := by simp [hl] at h1; omega
  simp only [List.getElem_drop, List.getElem_reverse, List.getElem_set, List.length_set, hl]
  by_cases h : q = 7 - x
  · rw [if_pos (by omega), if_pos (by omega)]
  · rw [if_neg (by omega), if_neg (by omega), if_neg (by omega)]

/-- Byte `x` is set to `v1` in round `R - 4` and to `v2` in round `R - 2`, and the hash cells of round `R`. -/
def forgeH (h : ℕ) (c : Cell) (R : ℕ) (v1 v2 lo hi : F) (a : Adv F) : Adv F :=
  { a with
    cell := fun col r => if col = c.1 ∧ r = bs h (R - 4) + c.2 then v1 else if col = c.1 ∧ r = bs h (R - 2) + c.2 then v2 else a.cell col r
    hashLo := fun r => if r = bs h R then lo else a.hashLo r
    hashHi := fun r => if r = bs h R then hi else a.hashHi r }

theorem mod_eq {h : ℕ} {z z' : ℤ} {i j : ℕ} (hi : i < h) (hj : j < h) (e : z * h + i = z' * h + j) : i = j := by
  have := congrArg (· % (h : ℤ)) e
  simp only [add_comm _ (i : ℤ), add_comm _ (j : ℤ), Int.add_mul_emod_self_right] at this
  rw [Int.emod_eq_of_lt (by omega) (by omega), Int.emod_eq_of_lt (by omega) (by omega)] at this
  exact_mod_cast this

theorem bs_mul (h R : ℕ) : bs h R = (R : ℤ) * h := by unfold bs; push_cast; ring

theorem forgeH_val {c d : Cell} {R : ℕ} {v1 v2 lo hi : F} {a : Adv F} (hc : c.2 < h) (hd : d.2 < h) (hne : d ≠ c) (z : ℤ) :
    (forgeH h c R v1 v2 lo hi a).val (z * h) d = a.val (z * h) d := by
  have : ∀ z' : ℤ, ¬(d.1 = c.1 ∧ z * h + d.2 = z' * h + c.2) := by
    rintro z' ⟨e1, e2⟩
    exact hne (Prod.ext e1 (mod_eq hd hc e2))
  simp only [Adv.val, forgeH, bs_mul, this, if_false]

theorem hashBytes_map {L : Layout} (hl : L.squeezeBytes.length = 8) (a : Adv F) (r : ℤ) :
    hashBytes h L a r = (List.range 32).map fun q => a.val (r - (((q / 8 : ℕ) : ℤ) + 1) * h) (L.squeezeBytes.getD (q % 8) (0, 0)) := by
  have e : ∀ i : ℕ, (L.squeezeBytes.map fun c => a.val (r - (((i : ℕ) : ℤ) + 1) * h) c) =
      (List.range 8).map fun j => a.val (r - (((i : ℕ) : ℤ) + 1) * h) (L.squeezeBytes.getD j (0, 0)) := by
    intro i
    refine List.ext_getElem (by simp [hl]) fun j h1 h2 => ?_
    have hj : j < L.squeezeBytes.length := by simpa using h1
    simp [List.getD_eq_getElem?_getD, List.getElem?_eq_getElem hj]
  unfold hashBytes
  simp only [e]
  rfl

section
variable {L : Layout} {x : ℕ} (hf : sqFree h L x = true)
include hf

theorem sqFree_cases : 1 ≤ h ∧ x < 8 ∧ L.squeezeBytes.length = 8 ∧ (L.squeezeBytes.getD x (0, 0)).2 < h ∧
    (∀ d ∈ L.used, d ≠ L.squeezeBytes.getD x (0, 0) ∧ d.2 < h) ∧
    (∀ y < 8, (L.squeezeBytes.getD y (0, 0)).2 < h ∧ (y = x ∨ L.squeezeBytes.getD y (0, 0) ≠ L.squeezeBytes.getD x (0, 0))) ∧
    ∀ l ∈ L.looks, (L.squeezeBytes.getD x (0, 0)).1 ∉ l.cols := by
  unfold sqFree at hf
  simp only [Bool.and_eq_true, decide_eq_true_eq, beq_iff_eq, List.all_eq_true, bne_iff_ne, List.mem_range, Bool.or_eq_true, Bool.not_eq_true',
    List.contains_eq_mem, decide_eq_false_iff_not] at hf
  tauto

theorem forgeH_hash {R : ℕ} (hR : 4 ≤ R) {v1 v2 lo hi : F} {a : Adv F} :
    hashBytes h L (forgeH h (L.squeezeBytes.getD x (0, 0)) R v1 v2 lo hi a) (bs h R) = ((hashBytes h L a (bs h R)).set (24 + x) v1).set (8 + x) v2 := by
  obtain ⟨hh, hx, hl, hc, -, hy, -⟩ := sqFree_cases hf
  rw [hashBytes_map hl, hashBytes_map hl]
  refine List.ext_getElem (by simp) fun q h1 h2 => ?_
  have hq : q < 32 := by simpa using h1
  rw [List.getElem_set, List.getElem_set]
  simp only [List.getElem_map, List.getElem_range]
  have hrow : bs h R - (((q / 8 : ℕ) : ℤ) + 1) * h = ((R - (q / 8 + 1) : ℕ) : ℤ) * h := by
    rw [bs_mul, Nat.cast_sub (by omega)]; push_cast; ring
  rw [hrow]
  by_cases hqx : q % 8 = x
  · have hcol : ∀ m : ℕ, m ≤ R → (((R - (q / 8 + 1) : ℕ) : ℤ) * h + (L.squeezeBytes.getD x (0, 0)).2 = bs h m + (L.squeezeBytes.getD x (0, 0)).2 ↔ R - (q / 8 + 1) = m) := by
      intro m _
      rw [add_left_inj, ← bs_mul, bs_eq hh]
    simp only [Adv.val, forgeH, hqx, true_and, hcol (R - 4) (by omega), hcol (R - 2) (by omega)]
    by_cases h3 : q / 8 = 3
    · rw [if_pos (by omega), if_neg (by omega), if_pos (by omega)]
    · rw [if_neg (by omega)]
      by_cases h4 : q / 8 = 1
      · rw [if_pos (by omega), if_pos (by omega)]
      · rw [if_neg (by omega), if_neg (by omega), if_neg (by omega)]
  · rw [forgeH_val hc (hy (q % 8) (by omega)).1 ((hy (q % 8) (by omega)).2.resolve_left hqx), if_neg (by omega), if_neg (by omega)]

theorem forgeH_other {R R' : ℕ} (hR : 4 ≤ R) (hR' : 4 ≤ R') (hd : R' + 4 ≤ R ∨ R + 4 ≤ R') {v1 v2 lo hi : F} {a : Adv F} :
    hashBytes h L (forgeH h (L.squeezeBytes.getD x (0, 0)) R v1 v2 lo hi a) (bs h R') = hashBytes h L a (bs h R') := by
  obtain ⟨hh, hx, hl, hc, -, hy, -⟩ := sqFree_cases hf
  rw [hashBytes_map hl, hashBytes_map hl]
  refine List.map_congr_left fun q hq => ?_
  have hq := List.mem_range.mp hq
  have hrow : bs h R' - (((q / 8 : ℕ) : ℤ) + 1) * h = ((R' - (q / 8 + 1) : ℕ) : ℤ) * h := by
    rw [bs_mul, Nat.cast_sub (by omega)]; push_cast; ring
  rw [hrow]
  by_cases hqx : q % 8 = x
  · have hcol : ∀ m : ℕ, (((R' - (q / 8 + 1) : ℕ) : ℤ) * h + (L.squeezeBytes.getD x (0, 0)).2 = bs h m + (L.squeezeBytes.getD x (0, 0)).2 ↔ R' - (q / 8 + 1) = m) := by
      intro m
      rw [add_left_inj, ← bs_mul, bs_eq hh]
    simp only [Adv.val, forgeH, hqx, true_and, hcol]
    rw [if_neg (by omega), if_neg (by omega)]
  · rw [forgeH_val hc (hy (q % 8) (by omega)).1 ((hy (q % 8) (by omega)).2.resolve_left hqx)]

end

theorem forgeH_sat {a : Adv F} (hs : KecSat k h n a) {x : ℕ} (hf : sqFree h (layout k h) x = true) {b : ℕ} {v1 v2 lo hi : F}
    (hlo : fromBytes ((((hashBytes h (layout k h) a (bs h (25 * (b + 1)))).set (24 + x) v1).set (8 + x) v2).reverse.take 16) = lo)
    (hhi : fromBytes ((((hashBytes h (layout k h) a (bs h (25 * (b + 1)))).set (24 + x) v1).set (8 + x) v2).reverse.drop 16) = hi) :
    KecSat k h n (forgeH h ((layout k h).squeezeBytes.getD x (0, 0)) (25 * (b + 1)) v1 v2 lo hi a) := by
  obtain ⟨hh, hx, hl, hc, hu, hy, hlk⟩ := sqFree_cases hf
  intro r hr
  obtain ⟨hg, hk⟩ := hs r hr
  have hg : Z (gates k h (layout k h) (fixedCols h n) a r) := hg
  constructor
  · show Z (gates k h (layout k h) (fixedCols h n) (forgeH h ((layout k h).squeezeBytes.getD x (0, 0)) (25 * (b + 1)) v1 v2 lo hi a) r)
    have same : ∀ z : ℤ, SameAt (layout k h) a (forgeH h ((layout k h).squeezeBytes.getD x (0, 0)) (25 * (b + 1)) v1 v2 lo hi a) (z * h) :=
      fun z d hd => forgeH_val hc (hu d hd).2 (hu d hd).1 z
    obtain ⟨R, j, hR, hj, rfl⟩ := row_cases hr
    by_cases h0 : j = 0
    · subst h0
      have e : ((R * h + 0 : ℕ) : ℤ) = bs h R := by simp [bs]
      rw [e, gates_first hh] at hg ⊢
      obtain ⟨g1, g2, g3, g4, g5, g6, g7, g8, g9⟩ := hg
      have sR := same R
      have sA : ∀ d : ℤ, SameAt (layout k h) a (forgeH h ((layout k h).squeezeBytes.getD x (0, 0)) (25 * (b + 1)) v1 v2 lo hi a) (bs h R + d * h) := by
        intro d
        rw [bs_mul, ← add_mul]; exact same _
      rw [← bs_mul] at sR
      have sp := sA 1
      rw [one_mul] at sp
      have sm := sA (-1)
      rw [neg_one_mul, ← sub_eq_add_neg] at sm
      refine ⟨by rw [sR.gRound sp]; exact g1, by rw [gAbsorb_same sR (fun d => sA _) rfl]; exact g2, ?_, g4, g5, by rw [sR.gWordValue rfl]; exact g6,
        by rw [sR.gBytesLeft rfl rfl rfl]; exact g7, ?_, by rw [sR.gPadding sm]; exact g9⟩
      · unfold gSqueeze at g3 ⊢
        rw [Z_gate] at g3 ⊢
        by_cases hq : (fixedCols h n (bs h R) : Fix F).qRoundLast = 0
        · exact .inl hq
        · right
          have g3 := g3.resolve_left hq
          have hR25 : 1 ≤ R ∧ (R - 1) % 25 = 24 := by
            by_cases hz : R = 0
            · subst hz; rw [fix_zero hh] at hq; exact absurd rfl hq
            · rw [fix_bs hh (by omega) hR, fr_last, ind_eq_zero] at hq
              refine ⟨by omega, ?_⟩
              by_contra hne
              exact hq (by simp [hne])
          obtain ⟨b', hb'⟩ : ∃ b', R = 25 * (b' + 1) := ⟨(R - 1) / 25, by omega⟩
          simp only [Z_append, Z_flatMap, Z_cond, Z_reqEq, List.mem_range] at g3 ⊢
          refine ⟨fun idx hi => ?_, ?_⟩
          · have := g3.1 idx hi
            have s4 := sA (-((idx : ℤ) + 1))
            rw [neg_mul, ← sub_eq_add_neg] at s4
            rw [sR.sAt, s4.squeezeFrom]
            exact this
          · by_cases hbb : b' = b
            · subst hbb
              right
              rw [hb', forgeH_hash hf (by omega)]
              simp only [forgeH, if_true]
              exact ⟨hlo, hhi⟩
            · have hne : bs h R ≠ bs h (25 * (b + 1)) := by rw [Ne, bs_eq hh]; omega
              have := g3.2
              rw [hb'] at this ⊢
              rw [forgeH_other hf (by omega) (by omega) (by omega)]
              rw [hb'] at hne
              simp only [forgeH, if_neg hne]
              exact this
      · have s8 := sA (-8)
        rw [neg_mul, ← sub_eq_add_neg] at s8
        rw [s8.padAt]
        exact g8
    · rw [gates_quiet_iff _ _ _ _ (off_row hR hj h0)] at hg ⊢
      exact hg
  · intro l hm
    have h1 := hk l hm
    have h2 := hlk l hm
    have hcell : ∀ col ∈ l.cols, ∀ r, (forgeH h ((layout k h).squeezeBytes.getD x (0, 0)) (25 * (b + 1)) v1 v2 lo hi a).cell col r = a.cell col r := by
      intro col hcol r
      have hne : col ≠ ((layout k h).squeezeBytes.getD x (0, 0)).1 := fun e => h2 (e ▸ hcol)
      simp only [forgeH, hne, false_and, if_false]
    cases l with
    | trans t ci co =>
      simp only [lookOk]
      rw [hcell ci (by simp [Look.cols]), hcell co (by simp [Look.cols])]; exact h1
    | range4 c =>
      simp only [lookOk]
      rw [hcell c (by simp [Look.cols])]; exact h1
    | chi xx yy zz oo =>
      simp only [lookOk]
      rw [hcell xx (by simp [Look.cols]), hcell yy (by simp [Look.cols]), hcell zz (by simp [Look.cols]), hcell oo (by simp [Look.cols])]; exact h1

theorem forgeH_exists (h2 : (2 : F) ≠ 0) {a : Adv F} (hs : KecSat k h n a) {x : ℕ} (hf : sqFree h (layout k h) x = true) (b : ℕ) (lo hi : F) :
    ∃ v1 v2, KecSat k h n (forgeH h ((layout k h).squeezeBytes.getD x (0, 0)) (25 * (b + 1)) v1 v2 lo hi a) := by
  obtain ⟨hh, hx, hl, -⟩ := sqFree_cases hf
  have hlen : (hashBytes h (layout k h) a (bs h (25 * (b + 1)))).length = 32 := by rw [hashBytes_map hl]; simp
  obtain ⟨v1, e1⟩ := fromBytes_solve h2 ((hashBytes h (layout k h) a (bs h (25 * (b + 1)))).reverse.take 16) (7 - x) (by simp [hlen]; omega) lo
  obtain ⟨v2, e2⟩ := fromBytes_solve h2 ((hashBytes h (layout k h) a (bs h (25 * (b + 1)))).reverse.drop 16) (7 - x) (by simp [hlen]; omega) hi
  exact ⟨v1, v2, forgeH_sat hs hf (by rw [rev_take _ hlen hx]; exact e1) (by rw [rev_drop _ hlen hx]; exact e2)⟩

theorem sqFree_14_25 : sqFree 25 (layout 14 25) 7 = true := by decide +kernel
theorem sqFree_12_5 : sqFree 5 (layout 12 5) 7 = true := by decide +kernel
theorem sqFree_18_977 : sqFree 977 (layout 18 977) 7 = true := by decide +kernel
theorem sqFree_20_50 : sqFree 50 (layout 20 50) 7 = true := by decide +kernel

end

end H2.Kec
