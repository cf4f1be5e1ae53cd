import Verif.Kec.ForgeHash

/-!
# Assignments with forged words, for parameters without the lookups of the input bytes
-/

set_option autoImplicit false
set_option linter.unusedSectionVars false
namespace H2.Kec
open H2.Sha (Z Z_append Z_gate Z_cond Z_gate1 Z_reqEq Z_reqZero Z_reqBool Z_flatMap ind_eq_zero ind b2f bool_cases b2f_inj notE selE sumE andE
  fromBytes fromBytes_cons reqEq reqZero reqBool gate cond)

/-- The layout without the cells of the input bytes. -/
def noIn (L : Layout) : Layout := { L with inputBytes := [] }

/-- The cell of input byte `x` occurs in no gate but the gates of the words and of the padding, and its column in no lookup. -/
def inFree (h : ℕ) (L : Layout) (x : ℕ) : Bool :=
  let c := L.inputBytes.getD x (0, 0)
  decide (1 ≤ h) && decide (x < 8) && decide (c.2 < h) && ((noIn L).used.all fun d => d != c && decide (d.2 < h)) &&
    (L.squeezeBytes.all fun d => d != c && decide (d.2 < h)) &&
    ((List.range 8).all fun y => decide ((L.inputBytes.getD y (0, 0)).2 < h) && (y == x || L.inputBytes.getD y (0, 0) != c)) &&
    (L.looks.all fun l => !(l.cols.contains c.1))

section
variable {F : Type} [Field F] {k h n : ℕ}

/-- Byte `x` of round `R` is set to `v` and the word of the round to `w`. -/
def forgeI (h : ℕ) (c : Cell) (R : ℕ) (v w : F) (a : Adv F) : Adv F :=
  { a with
    cell := fun col r => if col = c.1 ∧ r = bs h R + c.2 then v else a.cell col r
    wordValue := fun r => if r = bs h R then w else a.wordValue r }

theorem forgeI_val {c d : Cell} {R : ℕ} {v w : F} {a : Adv F} (hc : c.2 < h) (hd : d.2 < h) (hne : d ≠ c) (z : ℤ) :
    (forgeI h c R v w a).val (z * h) d = a.val (z * h) d := by
  have : ∀ z' : ℤ, ¬(d.1 = c.1 ∧ z * h + d.2 = z' * h + c.2) := by
    rintro z' ⟨e1, e2⟩
    exact hne (Prod.ext e1 (mod_eq hd hc e2))
  simp only [Adv.val, forgeI, bs_mul, this, if_false]

section
variable {L : Layout} {x : ℕ} (hf : inFree h L x = true)
include hf

theorem inFree_cases : 1 ≤ h ∧ x < 8 ∧ (L.inputBytes.getD x (0, 0)).2 < h ∧
    (∀ d ∈ (noIn L).used, d ≠ L.inputBytes.getD x (0, 0) ∧ d.2 < h) ∧ (∀ d ∈ L.squeezeBytes, d ≠ L.inputBytes.getD x (0, 0) ∧ d.2 < h) ∧
    (∀ y < 8, (L.inputBytes.getD y (0, 0)).2 < h ∧ (y = x ∨ L.inputBytes.getD y (0, 0) ≠ L.inputBytes.getD x (0, 0))) ∧
    ∀ l ∈ L.looks, (L.inputBytes.getD x (0, 0)).1 ∉ l.cols := by
  unfold inFree at hf
  simp only [Bool.and_eq_true, decide_eq_true_eq, beq_iff_eq, List.all_eq_true, bne_iff_ne, List.mem_range, Bool.or_eq_true, Bool.not_eq_true',
    List.contains_eq_mem, decide_eq_false_iff_not] at hf
  tauto

/-- The bytes after the change. -/
theorem forgeI_byte {R R' y : ℕ} (hy : y < 8) {v w : F} {a : Adv F} :
    byteAt L (forgeI h (L.inputBytes.getD x (0, 0)) R v w a) (bs h R') y = if R' = R ∧ y = x then v else byteAt L a (bs h R') y := by
  obtain ⟨hh, hx, hc, -, -, hb, -⟩ := inFree_cases hf
  by_cases hyx : y = x
  · subst hyx
    by_cases hR : R' = R
    · subst hR
      simp [byteAt, Adv.val, forgeI]
    · rw [if_neg (by tauto)]
      have : ¬ bs h R' + ((L.inputBytes.getD y (0, 0)).2 : ℤ) = bs h R + (L.inputBytes.getD y (0, 0)).2 := by
        rw [add_left_inj, bs_eq hh]; exact hR
      simp only [byteAt, Adv.val, forgeI, this, and_false, if_false]
  · rw [if_neg (by tauto), bs_mul]
    exact forgeI_val hc (hb y hy).1 ((hb y hy).2.resolve_left hyx) _

theorem forgeI_pad {R R' i : ℕ} {v w : F} {a : Adv F} :
    padAt L (forgeI h (L.inputBytes.getD x (0, 0)) R v w a) (bs h R') i = padAt L a (bs h R') i := by
  obtain ⟨hh, hx, hc, hu, -⟩ := inFree_cases hf
  have same : SameAt (noIn L) a (forgeI h (L.inputBytes.getD x (0, 0)) R v w a) ((R' : ℤ) * h) :=
    fun d hd => forgeI_val hc (hu d hd).2 (hu d hd).1 _
  rw [bs_mul]
  exact same.padAt i

theorem gSqueeze_forgeI {fx : ℤ → Fix F} {R R' : ℕ} {v w : F} {a : Adv F} :
    gSqueeze h L fx (forgeI h (L.inputBytes.getD x (0, 0)) R v w a) (bs h R') = gSqueeze h L fx a (bs h R') := by
  obtain ⟨hh, hx, hc, hu, hq, -, -⟩ := inFree_cases hf
  have same : ∀ z : ℤ, SameAt (noIn L) a (forgeI h (L.inputBytes.getD x (0, 0)) R v w a) (z * h) := fun z d hd => forgeI_val hc (hu d hd).2 (hu d hd).1 z
  have hrow : ∀ i : ℕ, bs h R' - ((i : ℤ) + 1) * h = ((R' : ℤ) - ((i : ℤ) + 1)) * h := fun i => by rw [bs_mul]; ring
  have e1 : hashBytes h L (forgeI h (L.inputBytes.getD x (0, 0)) R v w a) (bs h R') = hashBytes h L a (bs h R') := by
    unfold hashBytes
    refine List.flatMap_congr fun i _ => List.map_congr_left fun d hd => ?_
    rw [hrow]
    exact forgeI_val hc (hq d hd).2 (hq d hd).1 _
  have e2 : ∀ idx : ℕ, sAt L (forgeI h (L.inputBytes.getD x (0, 0)) R v w a) (bs h R') idx 0 = sAt L a (bs h R') idx 0 := fun idx => by
    rw [bs_mul]; exact (same R').sAt idx 0
  have e3 : ∀ idx : ℕ, (forgeI h (L.inputBytes.getD x (0, 0)) R v w a).val (bs h R' - ((idx : ℤ) + 1) * h) L.squeezeFrom =
      a.val (bs h R' - ((idx : ℤ) + 1) * h) L.squeezeFrom := fun idx => by
    rw [hrow]; exact (same _).squeezeFrom
  unfold gSqueeze
  simp only [e1, e2, e3]
  rfl

theorem gates_forgeI {R R' : ℕ} {v w : F} {a : Adv F} (hp : padAt L a (bs h R) x = 0)
    (hw : fromBytes (((List.range 8).map fun i => byteAt L a (bs h R) i * notE (padAt L a (bs h R) i)).set x v) = w)
    (hg : Z (gates k h L (fixedCols h n) a (bs h R'))) :
    Z (gates k h L (fixedCols h n) (forgeI h (L.inputBytes.getD x (0, 0)) R v w a) (bs h R')) := by
  obtain ⟨hh, hx, hc, hu, hq, hb, -⟩ := inFree_cases hf
  have same : ∀ z : ℤ, SameAt (noIn L) a (forgeI h (L.inputBytes.getD x (0, 0)) R v w a) (z * h) := fun z d hd => forgeI_val hc (hu d hd).2 (hu d hd).1 z
  have sR := same R'
  have sA : ∀ d : ℤ, SameAt (noIn L) a (forgeI h (L.inputBytes.getD x (0, 0)) R v w a) (bs h R' + d * h) := by
    intro d
    rw [bs_mul, ← add_mul]; exact same _
  rw [← bs_mul] at sR
  have sp := sA 1
  rw [one_mul] at sp
  have sm := sA (-1)
  rw [neg_one_mul, ← sub_eq_add_neg] at sm
  have s8 := sA (-8)
  rw [neg_mul, ← sub_eq_add_neg] at s8
  have pR : ∀ i, padAt L (forgeI h (L.inputBytes.getD x (0, 0)) R v w a) (bs h R') i = padAt L a (bs h R') i := fun i => sR.padAt i
  have pm : ∀ i, padAt L (forgeI h (L.inputBytes.getD x (0, 0)) R v w a) (bs h R' - h) i = padAt L a (bs h R' - h) i := fun i => sm.padAt i
  have p8 : ∀ i, padAt L (forgeI h (L.inputBytes.getD x (0, 0)) R v w a) (bs h R' - 8 * h) i = padAt L a (bs h R' - 8 * h) i := fun i => s8.padAt i
  have e1 : gRound k h L (fixedCols h n) (forgeI h (L.inputBytes.getD x (0, 0)) R v w a) (bs h R') = gRound k h L (fixedCols h n) a (bs h R') := by
    have := SameAt.gRound (k := k) (fx := fixedCols h n) sR sp
    exact this
  have e2 : gAbsorb h L (fixedCols h n) (forgeI h (L.inputBytes.getD x (0, 0)) R v w a) (bs h R') = gAbsorb h L (fixedCols h n) a (bs h R') := by
    have := gAbsorb_same (fx := fixedCols h n) sR (fun d => sA _) rfl
    exact this
  have e7 : gBytesLeft h L (fixedCols h n) (forgeI h (L.inputBytes.getD x (0, 0)) R v w a) (bs h R') = gBytesLeft h L (fixedCols h n) a (bs h R') := by
    have := SameAt.gBytesLeft (h := h) (fx := fixedCols h n) sR rfl rfl rfl
    exact this
  rw [gates_first hh] at hg ⊢
  obtain ⟨g1, g2, g3, g4, g5, g6, g7, g8, g9⟩ := hg
  refine ⟨by rw [e1]; exact g1, by rw [e2]; exact g2, by rw [gSqueeze_forgeI hf]; exact g3, g4, g5, ?_, by rw [e7]; exact g7, by rw [p8]; exact g8, ?_⟩
  · unfold gWordValue at g6 ⊢
    rw [Z_gate, Z_reqEq] at g6 ⊢
    refine g6.imp_right fun g6 => ?_
    by_cases hR : R' = R
    · subst hR
      have : (forgeI h (L.inputBytes.getD x (0, 0)) R' v w a).wordValue (bs h R') = w := by simp [forgeI]
      rw [this]
      refine Eq.trans ?_ hw
      congr 1
      refine List.ext_getElem (by simp) fun i h1 h2 => ?_
      have hi : i < 8 := by simpa using h1
      simp only [List.getElem_map, List.getElem_range, List.getElem_set, forgeI_byte hf hi, pR, true_and]
      by_cases hix : i = x
      · subst hix
        simp [hp, notE]
      · rw [if_neg hix, if_neg (Ne.symm hix)]
    · have : (forgeI h (L.inputBytes.getD x (0, 0)) R v w a).wordValue (bs h R') = a.wordValue (bs h R') := by
        simp only [forgeI]; rw [if_neg (by rw [bs_eq hh]; exact hR)]
      rw [this, ← g6]
      congr 1
      refine List.map_congr_left fun i hi => ?_
      rw [forgeI_byte hf (List.mem_range.mp hi), if_neg (by tauto), pR]
  · have hpa : ∀ i < 8, Z (gPaddingAt h L (fixedCols h n) a (bs h R') i) →
        Z (gPaddingAt h L (fixedCols h n) (forgeI h (L.inputBytes.getD x (0, 0)) R v w a) (bs h R') i) := by
      intro i hi hz
      by_cases hs : R' = R ∧ i = x
      · obtain ⟨rfl, rfl⟩ := hs
        unfold gPaddingAt at hz ⊢
        simp only [pR, pm, Z_append, Z_cond] at hz ⊢
        refine ⟨hz.1, ?_⟩
        have : ∀ q : F, andE [q, padAt L a (bs h R') i] = 0 := fun q => by rw [hp]; simp [andE]
        by_cases h7 : i = 7
        · rw [if_pos h7, Z_append, Z_cond, Z_cond]; exact ⟨.inl (this _), .inl (this _)⟩
        · rw [if_neg h7, Z_cond]; exact .inl (this _)
      · have : gPaddingAt h L (fixedCols h n) (forgeI h (L.inputBytes.getD x (0, 0)) R v w a) (bs h R') i = gPaddingAt h L (fixedCols h n) a (bs h R') i := by
          unfold gPaddingAt
          simp only [pR, pm, forgeI_byte hf hi, if_neg hs]
        rw [this]; exact hz
    unfold gPadding at g9 ⊢
    simp only [Z_gate, Z_append, Z_flatMap, List.mem_range, pR] at g9 ⊢
    exact g9.imp_right fun g => ⟨g.1, fun i hi => hpa i hi (g.2 i hi)⟩

end

theorem forgeI_sat {a : Adv F} (hs : KecSat k h n a) {x : ℕ} (hf : inFree h (layout k h) x = true) {R : ℕ} {v w : F}
    (hp : padAt (layout k h) a (bs h R) x = 0)
    (hw : fromBytes (((List.range 8).map fun i => byteAt (layout k h) a (bs h R) i * notE (padAt (layout k h) a (bs h R) i)).set x v) = w) :
    KecSat k h n (forgeI h ((layout k h).inputBytes.getD x (0, 0)) R v w a) := by
  obtain ⟨hh, hx, hc, hu, hq, hb, hlk⟩ := inFree_cases hf
  intro r hr
  obtain ⟨hg, hk⟩ := hs r hr
  have hg : Z (gates k h (layout k h) (fixedCols h n) a r) := hg
  constructor
  · show Z (gates k h (layout k h) (fixedCols h n) (forgeI h ((layout k h).inputBytes.getD x (0, 0)) R v w a) r)
    obtain ⟨R', j, hR, hj, rfl⟩ := row_cases hr
    by_cases h0 : j = 0
    · subst h0
      have e : ((R' * h + 0 : ℕ) : ℤ) = bs h R' := by simp [bs]
      rw [e] at hg ⊢
      exact gates_forgeI hf hp hw hg
    · rw [gates_quiet_iff _ _ _ _ (off_row hR hj h0)] at hg ⊢
      exact hg
  · intro l hm
    have h1 := hk l hm
    have h2 := hlk l hm
    have hcell : ∀ col ∈ l.cols, ∀ r, (forgeI h ((layout k h).inputBytes.getD x (0, 0)) R v w a).cell col r = a.cell col r := by
      intro col hcol r
      have hne : col ≠ ((layout k h).inputBytes.getD x (0, 0)).1 := fun e => h2 (e ▸ hcol)
      simp only [forgeI, hne, false_and, if_false]
    cases l with
    | trans t ci co =>
      simp only [lookOk]
      rw [hcell ci (by simp [Look.cols]), hcell co (by simp [Look.cols])]; exact h1
    | range4 c =>
      simp only [lookOk]
      rw [hcell c (by simp [Look.cols])]; exact h1
    | chi xx yy zz oo =>
      simp only [lookOk]
      rw [hcell xx (by simp [Look.cols]), hcell yy (by simp [Look.cols]), hcell zz (by simp [Look.cols]), hcell oo (by simp [Look.cols])]; exact h1

/-- All words of rounds in which byte `x` is no padding are changed to `W`. -/
theorem forgeI_all (h2 : (2 : F) ≠ 0) {a : Adv F} (hs : KecSat k h n a) {x : ℕ} (hf : inFree h (layout k h) x = true) (W : ℕ → F) (T : ℕ) :
    ∃ a' : Adv F, KecSat k h n a' ∧ a'.bytesLeft = a.bytesLeft ∧ a'.isFinal = a.isFinal ∧ a'.hashLo = a.hashLo ∧ a'.hashHi = a.hashHi ∧
      (∀ R, padAt (layout k h) a' (bs h R) x = padAt (layout k h) a (bs h R) x) ∧
      (∀ R < T, padAt (layout k h) a (bs h R) x = 0 → a'.wordValue (bs h R) = W R) ∧
      ∀ R, T ≤ R ∨ padAt (layout k h) a (bs h R) x ≠ 0 → a'.wordValue (bs h R) = a.wordValue (bs h R) := by
  have hh := (inFree_cases hf).1
  have hx := (inFree_cases hf).2.1
  induction T with
  | zero => exact ⟨a, hs, rfl, rfl, rfl, rfl, fun _ => rfl, fun R hR => absurd hR (by omega), fun _ _ => rfl⟩
  | succ T ih =>
    obtain ⟨a', k1, k2, k3, k4, k5, k6, k7, k8⟩ := ih
    by_cases hp : padAt (layout k h) a (bs h T) x = 0
    · obtain ⟨v, hv⟩ := fromBytes_solve h2 ((List.range 8).map fun i => byteAt (layout k h) a' (bs h T) i * notE (padAt (layout k h) a' (bs h T) i)) x
        (by simpa using hx) (W T)
      have hw : ∀ R, (forgeI h ((layout k h).inputBytes.getD x (0, 0)) T v (W T) a').wordValue (bs h R) =
          if R = T then W T else a'.wordValue (bs h R) := by
        intro R
        simp only [forgeI, bs_eq hh]
      refine ⟨_, forgeI_sat k1 hf (R := T) (by rw [k6]; exact hp) hv, k2, k3, k4, k5, fun R => ?_, fun R hR hR0 => ?_, fun R hR => ?_⟩
      · rw [← k6 R]
        exact forgeI_pad hf
      · rw [hw]
        by_cases hRT : R = T
        · rw [if_pos hRT, hRT]
        · rw [if_neg hRT]; exact k7 R (by omega) hR0
      · have hRT : R ≠ T := by
          rintro rfl
          rcases hR with hR | hR
          · omega
          · exact hR hp
        rw [hw, if_neg hRT]
        exact k8 R (hR.imp_left fun h => by omega)
    · refine ⟨a', k1, k2, k3, k4, k5, k6, fun R hR hR0 => ?_, fun R hR => ?_⟩
      · refine k7 R ?_ hR0
        rcases Nat.lt_succ_iff_lt_or_eq.mp hR with h | h
        · exact h
        · subst h; exact absurd hR0 hp
      · by_cases hRT : R = T
        · subst hRT; exact k8 R (.inr hp)
        · exact k8 R (hR.imp_left fun h => by omega)

end

theorem inFree0_14_25 : inFree 25 (layout 14 25) 0 = true := by decide +kernel
theorem inFree0_18_977 : inFree 977 (layout 18 977) 0 = true := by decide +kernel
theorem inFree0_20_50 : inFree 50 (layout 20 50) 0 = true := by decide +kernel

end H2.Kec
