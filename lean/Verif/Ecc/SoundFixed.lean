import Verif.Ecc.ModelPar
import Verif.Ecc.SoundMsm

/-!
# Soundness of the fixed-base multiplications
-/

set_option autoImplicit false
set_option linter.unusedSectionVars false
namespace H2
variable {p : ℕ} [Fact p.Prime]
variable {F : FieldOps p} {K : Type} [Field K] [DecidableEq K] {tbl : ZMod p → Prop}
variable (l : FieldLaws F K tbl) (b : K)

/-- The native curve type `C` implements the group of the curve `y² = x³ + b`. -/
structure NativeLaws (C : NativeCurve F) (φ : C.G → ECurve b) : Prop where
  add : ∀ g h, φ (C.add g h) = φ g + φ h
  ident : ∀ g, C.isIdentity g = true ↔ φ g = 0
  coords : ∀ g, IsPt0 b (l.val (C.coords g).1) (l.val (C.coords g).2) (φ g)

variable {l b}

theorem fbSteps_fst {C : NativeCurve F} {φ : C.G → ECurve b} (hC : NativeLaws l b C φ) (inc : C.G) (n : ℕ) : ∀ curr,
    (fbSteps C inc curr n).1.map φ = (List.range n).map (fun j => φ curr + j • φ inc) ∧
    φ (fbSteps C inc curr n).2 = φ curr + n • φ inc := by
  induction n with
  | zero => intro curr; simp [fbSteps]
  | succ n ih =>
    intro curr
    obtain ⟨h1, h2⟩ := ih (C.add curr inc)
    refine ⟨?_, ?_⟩
    · rw [fbSteps, List.map_cons, h1, List.range_succ_eq_map, List.map_cons, List.map_map, hC.add]
      congr 1
      · simp
      · apply List.map_congr_left
        intro j _
        simp only [Function.comp_apply, Nat.succ_eq_add_one]
        rw [add_smul j 1 (φ inc), one_smul, add_assoc, add_comm (φ inc)]
    · rw [fbSteps, h2, hC.add, add_smul n 1 (φ inc), one_smul, add_assoc, add_comm (φ inc)]

/-- The points `[Q, Q, 2 Q, ..., (n - 1) Q]`. -/
def winMult {G : Type} [AddCommGroup G] (Q : G) (n : ℕ) : List G := (List.range n).map fun j => if j = 0 then Q else j • Q

theorem fbWindow_spec {C : NativeCurve F} {φ : C.G → ECurve b} (hC : NativeLaws l b C φ) (inc : C.G) (k : ℕ) :
    (inc :: (fbSteps C inc inc (2 ^ k - 1)).1).map φ = winMult (φ inc) (2 ^ k) ∧
    φ (fbSteps C inc inc (2 ^ k - 1)).2 = 2 ^ k • φ inc := by
  obtain ⟨h1, h2⟩ := fbSteps_fst hC inc (2 ^ k - 1) inc
  obtain ⟨n, hn⟩ : ∃ n, 2 ^ k = n + 1 := ⟨2 ^ k - 1, by have := Nat.one_le_two_pow (n := k); omega⟩
  rw [hn, Nat.add_sub_cancel] at h1 h2 ⊢
  refine ⟨?_, ?_⟩
  · rw [List.map_cons, h1, winMult, List.range_succ_eq_map, List.map_cons, List.map_map]
    congr 1
    apply List.map_congr_left
    intro j _
    simp only [Function.comp_apply, Nat.succ_eq_add_one, Nat.add_eq_zero_iff, one_ne_zero, and_false, if_false]
    rw [add_smul j 1 (φ inc), one_smul, add_comm]
  · rw [h2, add_smul n 1 (φ inc), one_smul, add_comm]

theorem winMult_mem {G : Type} [AddCommGroup G] {Q g : G} {k : ℕ} (h : g ∈ winMult Q (2 ^ k)) :
    ∃ j, 0 < j ∧ (j < 2 ^ k ∨ j = 1) ∧ g = j • Q := by
  obtain ⟨j, hj, rfl⟩ := List.mem_map.1 h
  rw [List.mem_range] at hj
  split
  · exact ⟨1, by norm_num, .inr rfl, by simp⟩
  · exact ⟨j, by omega, .inl hj, rfl⟩

theorem fbCache_mem {C : NativeCurve F} {φ : C.G → ECurve b} (hC : NativeLaws l b C φ) {wb tot : ℕ} (hwb : wb ≠ 0) (n : ℕ) :
    ∀ (inc : C.G) (i : ℕ), ∀ g ∈ fbCache C wb tot inc i n, ∃ j t, 0 < j ∧ j < 2 ^ wb ∧ φ g = (j * 2 ^ t) • φ inc := by
  induction n with
  | zero => intro inc i g hg; simp [fbCache] at hg
  | succ n ih =>
    intro inc i g hg
    set k := min wb (tot - i * wb) with hk
    obtain ⟨h1, h2⟩ := fbWindow_spec hC inc k
    rw [fbCache] at hg
    rcases List.mem_append.1 hg with hg | hg
    · have : φ g ∈ winMult (φ inc) (2 ^ k) := by
        rw [← h1]
        exact List.mem_map_of_mem hg
      obtain ⟨j, j1, j2, j3⟩ := winMult_mem this
      refine ⟨j, 0, j1, ?_, by rw [j3, pow_zero, mul_one]⟩
      have h2 : 2 ^ k ≤ 2 ^ wb := Nat.pow_le_pow_right (by norm_num) (min_le_left _ _)
      rcases j2 with j2 | rfl
      · omega
      · exact Nat.one_lt_two_pow hwb
    · obtain ⟨j, t, j1, j2, j3⟩ := ih _ _ g hg
      refine ⟨j, t + k, j1, j2, ?_⟩
      rw [j3, h2, ← mul_smul, mul_assoc, ← pow_add]

variable (l b)

theorem fbLoad_sound (vs : List (F.V × F.V)) : Sound tbl (fbLoad F vs) (fun w r =>
    vs.Forall₂ (fun v P => l.RRep w P.x (l.val v.1) ∧ l.RRep w P.y (l.val v.2)) r) := by
  induction vs with
  | nil => exact fun s => Snd.pure fun w _ => .nil
  | cons v vs ih =>
    intro s
    refine Snd.bind (assignConstantPoint_sound l v s) fun P s1 _ => Snd.bind (ih s1) fun Ps s2 _ => Snd.pure ?_
    intro w _ h2 h1
    exact .cons h1 h2

theorem fbLoad_rep {C : NativeCurve F} {φ : C.G → ECurve b} (hC : NativeLaws l b C φ) {w : Cell → ZMod p} {gs : List C.G}
    (hne : ∀ g ∈ gs, φ g ≠ 0) : ∀ {Ps : List (EcPt F)},
    (gs.map C.coords).Forall₂ (fun v P => l.RRep w P.x (l.val v.1) ∧ l.RRep w P.y (l.val v.2)) Ps →
    Ps.Forall₂ (EcRep l b w) (gs.map φ) := by
  induction gs with
  | nil => intro Ps h; rw [List.map_nil] at h; cases h; exact .nil
  | cons g gs ih =>
    intro Ps h
    rw [List.map_cons] at h
    rcases h with _ | ⟨h1, h2⟩
    refine .cons ⟨_, _, ⟨l.r_p _ _ _ h1.1, l.r_p _ _ _ h1.2⟩, ?_⟩ (ih (fun g' hg => hne g' (List.mem_cons_of_mem _ hg)) h2)
    exact (hC.coords g).resolve_right fun h => hne g List.mem_cons_self h.1

theorem chunksOf_one {α : Type} {n : ℕ} (hn : 1 ≤ n) {a : List α} (ha : a.length ≤ n) (h0 : a ≠ []) : chunksOf n a = [a] := by
  rw [chunksOf_cons hn h0, List.take_of_length_le ha, List.drop_eq_nil_of_le ha, chunksOf_nil]

/-- A row of cached multiples of `Q` and the bits `bs` of a window. -/
structure FbRow (w : Cell → ZMod p) (wb : ℕ) (row : List (EcPt F) × List (AV p)) (d : ECurve b × List ℕ) : Prop where
  cache : row.1.Forall₂ (EcRep l b w) (winMult d.1 (2 ^ d.2.length))
  bits : BitsRep w row.2 d.2
  len : d.2.length ≤ wb

theorem fb_windows {C : NativeCurve F} {φ : C.G → ECurve b} (hC : NativeLaws l b C φ) {w : Cell → ZMod p} {wb tot : ℕ} (hwb : wb ≠ 0)
    (n : ℕ) : ∀ {Ps : List (EcPt F)} {inc : C.G} {i : ℕ} {bits : List (AV p)} {bs : List ℕ},
    Ps.Forall₂ (EcRep l b w) ((fbCache C wb tot inc i n).map φ) → BitsRep w bits bs → bs.length = tot - i * wb →
    n = (bs.length + wb - 1) / wb →
    (chunksOf (2 ^ wb) Ps).length = (chunksOf wb bits).length ∧
    ∃ ds, ((chunksOf (2 ^ wb) Ps).zip (chunksOf wb bits)).Forall₂ (FbRow l b w wb) ds ∧
      (ds.map fun d => Nat.ofDigits 2 d.2 • d.1).sum = Nat.ofDigits 2 bs • φ inc := by
  induction n with
  | zero =>
    intro Ps inc i bits bs hP hb hl hn
    have h0 : bs.length = 0 := by
      have := (Nat.div_eq_zero_iff.1 hn.symm).resolve_left hwb
      omega
    obtain rfl := List.length_eq_zero_iff.1 h0
    have : bits = [] := List.length_eq_zero_iff.1 (by rw [hb.length]; rfl)
    subst this
    rw [fbCache, List.map_nil] at hP
    cases hP
    exact ⟨rfl, [], .nil, by simp⟩
  | succ n ih =>
    intro Ps inc i bits bs hP hb hl hn
    have hpos : 0 < bs.length := by
      by_contra h0
      have h0 : bs.length = 0 := by omega
      rw [h0, Nat.zero_add, Nat.div_eq_of_lt (by omega)] at hn
      omega
    set k := min wb (tot - i * wb) with hk
    obtain ⟨h1, h2⟩ := fbWindow_spec hC inc k
    rw [fbCache, List.map_append, h1] at hP
    obtain ⟨P1, P2, hP1, hP2, rfl⟩ : ∃ P1 P2, P1.Forall₂ (EcRep l b w) (winMult (φ inc) (2 ^ k)) ∧
        P2.Forall₂ (EcRep l b w) ((fbCache C wb tot (fbSteps C inc inc (2 ^ k - 1)).2 (i + 1) n).map φ) ∧ P1 ++ P2 = Ps :=
      ⟨_, _, List.forall₂_take_append _ _ _ hP, List.forall₂_drop_append _ _ _ hP, List.take_append_drop _ _⟩
    have hP1l : P1.length = 2 ^ k := by simpa [winMult] using hP1.length_eq
    by_cases hfull : wb < bs.length
    · have hkw : k = wb := by rw [hk, ← hl]; omega
      rw [hkw] at hP1 hP1l h2
      have e : bits = bits.take wb ++ bits.drop wb := (List.take_append_drop _ _).symm
      have hl1 : (bits.take wb).length = wb := by rw [List.length_take, hb.length]; omega
      have hl2 : (bs.take wb).length = wb := by rw [List.length_take]; omega
      have hb1 : BitsRep w (bits.take wb) (bs.take wb) := by simpa using hb.slice 0 wb
      have hb2 : BitsRep w (bits.drop wb) (bs.drop wb) := by
        have := hb.slice wb (bs.length - wb)
        rwa [List.take_of_length_le (by rw [List.length_drop, hb.length]), List.take_of_length_le (by rw [List.length_drop])] at this
      obtain ⟨i1, ds, i2, i3⟩ := ih (bits := bits.drop wb) (bs := bs.drop wb) hP2 hb2
        (by rw [List.length_drop, hl, Nat.add_mul]; omega) (by
          rw [List.length_drop]
          have : bs.length + wb - 1 = (bs.length - wb + wb - 1) + wb := by omega
          rw [this, Nat.add_div_right _ (by omega)] at hn
          omega)
      rw [chunksOf_append Nat.one_le_two_pow hP1l, e, chunksOf_append (by omega) hl1]
      refine ⟨by simp [i1], (φ inc, bs.take wb) :: ds, .cons ⟨?_, hb1, hl2.le⟩ i2, ?_⟩
      · show List.Forall₂ _ P1 (winMult (φ inc) (2 ^ (bs.take wb).length))
        rw [hl2]
        exact hP1
      · rw [List.map_cons, List.sum_cons, i3, hkw, h2]
        conv_rhs => rw [← List.take_append_drop wb bs]
        rw [Nat.ofDigits_append, hl2, add_smul, ← mul_smul, mul_comm (2 ^ wb)]
    · have hkw : k = bs.length := by rw [hk, ← hl]; omega
      have hn0 : n = 0 := by
        have : (bs.length + wb - 1) / wb < 2 := by
          rw [Nat.div_lt_iff_lt_mul (by omega)]
          omega
        omega
      subst hn0
      rw [fbCache, List.map_nil] at hP2
      cases hP2
      rw [List.append_nil]
      have hP0 : P1 ≠ [] := by
        intro h
        rw [h] at hP1l
        have := Nat.one_le_two_pow (n := k)
        simp at hP1l
        omega
      have hb0 : bits ≠ [] := by
        intro h
        have := hb.length
        rw [h] at this
        simp at this
        omega
      rw [chunksOf_one Nat.one_le_two_pow (by rw [hP1l]; exact Nat.pow_le_pow_right (by norm_num) (by omega)) hP0,
        chunksOf_one (by omega) (by rw [hb.length]; omega) hb0]
      refine ⟨rfl, [(φ inc, bs)], .cons ⟨?_, hb, by show bs.length ≤ wb; omega⟩ .nil, by simp⟩
      show List.Forall₂ _ P1 (winMult (φ inc) (2 ^ bs.length))
      rw [← hkw]
      exact hP1

theorem bits_sum_zero {bs : List ℕ} (hb : ∀ x ∈ bs, x < 2) (hl : bs.length < p) :
    (bs.map (fun n : ℕ => (n : ZMod p))).sum = 0 ↔ Nat.ofDigits 2 bs = 0 := by
  have h1 : (bs.map (fun n : ℕ => (n : ZMod p))).sum = ((bs.sum : ℕ) : ZMod p) := by
    induction bs with
    | nil => simp
    | cons a bs ih =>
      rw [List.map_cons, List.sum_cons, List.sum_cons, ih (fun x hx => hb x (List.mem_cons_of_mem _ hx)) (by simp at hl; omega)]
      push_cast
      rfl
  have h2 : bs.sum ≤ bs.length := by
    clear h1 hl
    induction bs with
    | nil => simp
    | cons a bs ih =>
      have := ih fun x hx => hb x (List.mem_cons_of_mem _ hx)
      have := hb a List.mem_cons_self
      simp
      omega
  have h3 : bs.sum = 0 ↔ Nat.ofDigits 2 bs = 0 := by
    clear h1 h2 hl hb
    induction bs with
    | nil => simp
    | cons a bs ih =>
      rw [List.sum_cons, Nat.ofDigits_cons, Nat.add_eq_zero_iff, ih]
      simp
  rw [h1, ZMod.natCast_eq_zero_iff, ← h3]
  constructor
  · intro hd
    exact Nat.eq_zero_of_dvd_of_lt hd (by omega)
  · intro h
    rw [h]
    exact dvd_zero _

theorem fbLoop_sound (hf : EcFits l) {wb : ℕ} (hwb : wb < p) (rows : List (List (EcPt F) × List (AV p))) : ∀ curr,
    Sound tbl (fbLoop F curr rows) (fun w r => ∀ (g : ECurve b) ds, EcRep l b w curr g →
      rows.Forall₂ (FbRow l b w wb) ds → EcRep l b w r (g + (ds.map fun d => Nat.ofDigits 2 d.2 • d.1).sum)) := by
  induction rows with
  | nil =>
    intro curr s
    refine Snd.pure fun w _ g ds hg hd => ?_
    cases hd
    simpa using hg
  | cons row rows ih =>
    obtain ⟨cached, bits⟩ := row
    intro curr s
    refine Snd.bind (sum_sound _ s) fun bsum s1 _ => Snd.bind (isZero_sound bsum s1) fun iz s2 _ =>
      Snd.bind (ecSelectFromBits_sound l b cached bits s2) fun add s3 _ => Snd.bind (ecAddUnequal_sound l b hf _ _ true s3) fun sm s4 _ =>
      Snd.bind (ecSelect_xy l curr sm iz s4) fun curr' s5 _ => (ih curr' s5).weaken ?_
    rintro w r _ h6 h5 h4 h3 hiz ⟨xs, hxs, hsum⟩ g ds hg hd
    rcases hd with _ | ⟨h, hd⟩
    rename_i d ds
    have hxs' : xs = bits.map (at' w) := by
      clear * - hxs
      induction bits generalizing xs with
      | nil => rw [List.map_nil] at hxs; cases hxs; rfl
      | cons a bits ih =>
        rw [List.map_cons] at hxs
        rcases hxs with _ | ⟨h1, h2⟩
        rw [List.map_cons, ih _ h2]
        congr 1
    rw [hsum, hxs', h.bits.1] at hiz
    have hz := bits_sum_zero (p := p) h.bits.2 (lt_of_le_of_lt h.len hwb)
    have hlt : Nat.ofDigits 2 d.2 < 2 ^ d.2.length := Nat.ofDigits_lt_base_pow_length (by norm_num) h.bits.2
    have hadd := h3 _ h.cache _ h.bits _ (by
      rw [winMult, List.getElem?_map, List.getElem?_range hlt]
      rfl)
    obtain ⟨c1, c2⟩ := h4 _ _ hg.cmp hadd.cmp
    obtain ⟨n1, n2⟩ := c1 rfl
    have hs := c2 n1 n2
    have key : EcRep l b w curr' (g + Nat.ofDigits 2 d.2 • d.1) := by
      obtain ⟨X1, Y1, hX, i1⟩ := hg
      obtain ⟨X2, Y2, hX2, i2⟩ := hs
      obtain ⟨e1, e0⟩ := h5 _ _ _ _ hX hX2
      by_cases h0 : Nat.ofDigits 2 d.2 = 0
      · rw [if_pos (hz.2 h0)] at hiz
        rw [h0, zero_smul, add_zero]
        exact ⟨_, _, e1 hiz, i1⟩
      · rw [if_neg (fun h => h0 (hz.1 h))] at hiz
        have i2 : IsPt b X2 Y2 (g + if Nat.ofDigits 2 d.2 = 0 then d.1 else Nat.ofDigits 2 d.2 • d.1) := i2
        rw [if_neg h0] at i2
        exact ⟨_, _, e0 hiz, i2⟩
    have := h6 _ _ key hd
    rwa [List.map_cons, List.sum_cons, ← add_assoc]

/-- The multiples of the point which are cached are not infinity. -/
def FbSafe {G : Type} [AddCommGroup G] (wb : ℕ) (g : G) : Prop := ∀ j t, 0 < j → j < 2 ^ wb → (j * 2 ^ t) • g ≠ 0

/-- This is so for points of prime order above the size of the window. -/
theorem fbSafe_of_prime {G : Type} [AddCommGroup G] {wb : ℕ} {g : G} {n : ℕ} (hn : n.Prime) (hw : 2 ^ wb ≤ n) (h2 : n ≠ 2)
    (hg : g ≠ 0) (ho : n • g = 0) : FbSafe wb g := by
  intro j t h1 h2' h
  have hord : addOrderOf g = n := by
    have := addOrderOf_dvd_of_nsmul_eq_zero ho
    rcases (Nat.dvd_prime hn).1 this with h | h
    · exact absurd (AddMonoid.addOrderOf_eq_one_iff.1 h) hg
    · exact h
  have hd := addOrderOf_dvd_of_nsmul_eq_zero h
  rw [hord] at hd
  rcases hn.dvd_mul.1 hd with h | h
  · exact absurd (Nat.le_of_dvd h1 h) (by omega)
  · exact h2 ((Nat.prime_dvd_prime_iff_eq hn Nat.prime_two).1 (hn.dvd_of_dvd_pow h))

theorem zip_reverse' {α β : Type} (as : List α) : ∀ (bs : List β), as.length = bs.length → (as.zip bs).reverse = as.reverse.zip bs.reverse := by
  induction as with
  | nil => intro bs h; simp
  | cons a as ih =>
    intro bs h
    cases bs with
    | nil => simp at h
    | cons b bs =>
      have h : as.length = bs.length := by simpa using h
      rw [List.zip_cons_cons, List.reverse_cons, List.reverse_cons, List.reverse_cons, ih bs h, List.zip_append (by simpa using h)]
      rfl

/-- The windows of a scalar, processed from the top (fixed_base.rs:87-100). -/
theorem fbWindows_sound (hf : EcFits l) {C : NativeCurve F} {φ : C.G → ECurve b} (hC : NativeLaws l b C φ) {m wb : ℕ}
    (hwb0 : wb ≠ 0) (hwb : wb < p) (point : C.G) (hs : FbSafe wb (φ point)) (n : ℕ) (cached : List (EcPt F)) (bits : List (AV p))
    (anyPoint : EcPt F) :
    Sound tbl (fbLoop F anyPoint ((chunksOf (2 ^ wb) cached).reverse.zip (chunksOf wb bits).reverse)) (fun w r =>
      ∀ (A : ECurve b) (bs : List ℕ), EcRep l b w anyPoint A → BitsRep w bits bs → bs.length = m * n →
      ((fbCache C wb (m * n) point 0 ((m * n + wb - 1) / wb)).map C.coords).Forall₂
        (fun v P => l.RRep w P.x (l.val v.1) ∧ l.RRep w P.y (l.val v.2)) cached →
      EcRep l b w r (A + Nat.ofDigits 2 bs • φ point)) := by
  intro s
  refine (fbLoop_sound l b hf hwb _ anyPoint s).weaken ?_
  intro w r _ h A bs hA hb hl hc
  have hc' := fbLoad_rep l b hC (fun g hg => by
    obtain ⟨j, t, j1, j2, j3⟩ := fbCache_mem hC hwb0 _ _ _ g hg
    rw [j3]
    exact hs j t j1 j2) hc
  obtain ⟨i1, ds, i2, i3⟩ := fb_windows l b hC hwb0 _ hc' hb (by rw [hl]; simp) (by rw [hl])
  have := h A ds.reverse hA (by
    rw [← zip_reverse' _ _ i1]
    exact List.forall₂_reverse_iff.2 i2)
  rwa [List.map_reverse, List.sum_reverse, i3] at this

/-- **`fixed_base::scalar_multiply`**. -/
theorem fixedScalarMultiply_sound (hf : EcFits l) (bv : F.V) (hb : CurveOk (l.val bv)) (rand : MsmRand F)
    {C : NativeCurve F} {φ : C.G → ECurve (l.val bv)} (hC : NativeLaws l (l.val bv) C φ) (point : C.G)
    (scalar : List (AV p)) {m wb : ℕ} (hm : 1 ≤ m) (hwb : wb < p) (hs : φ point ≠ 0 → FbSafe wb (φ point)) :
    Sound tbl (fixedScalarMultiply F C bv rand point scalar m wb) (fun w r =>
      (φ point = 0 → EcRep0 l (l.val bv) w r 0) ∧
      (φ point ≠ 0 → ∃ Ns, NumsRep m w scalar Ns ∧ EcRep0 l (l.val bv) w r (Nat.ofDigits (2 ^ m) Ns • φ point))) := by
  intro s
  unfold fixedScalarMultiply
  split
  · rename_i h0
    rw [hC.ident] at h0
    refine Snd.bind (l.loadConstant _ s) fun z s1 _ => Snd.pure ?_
    intro w _ hz
    rw [l.val_zero] at hz
    have hz := l.r_p _ _ _ hz
    exact ⟨fun _ => ⟨0, 0, ⟨hz, hz⟩, .inr ⟨rfl, rfl, rfl⟩⟩, fun h => absurd h0 h⟩
  · rename_i h0
    rw [hC.ident] at h0
    refine Snd.assert fun h1 => Snd.assert fun h2 => Snd.assert fun h3 => ?_
    simp only [bne_iff_ne, ne_eq] at h1 h3
    refine Snd.bind (fbLoad_sound l _ s) fun cached s1 _ => Snd.bind (chunkBits_sound hm scalar s1) fun bits s2 _ =>
      Snd.bind (loadPoint_sound l hf bv hb rand.base s2) fun any s3 _ =>
      Snd.bind (fbWindows_sound l (l.val bv) hf hC (m := m) h3 hwb point (hs h0) scalar.length cached bits any s3) fun curr s4 _ =>
      (ecSubStrict_sound l (l.val bv) hf rand.pair curr any s4).weaken ?_
    rintro w r _ h8 h7 ⟨A, hA⟩ ⟨Ns, bs, n1, n2, n3, n4⟩ h5
    refine ⟨fun h => absurd h h0, fun _ => ⟨Ns, n1, ?_⟩⟩
    have hcurr := h7 A bs hA n2 n3 h5
    have := (h8 _ _ hcurr hA).1
    rwa [add_sub_cancel_left, n4] at this

/-! ### `msm_par` -/

theorem fbSteps_length (C : NativeCurve F) (inc : C.G) (n : ℕ) : ∀ curr, (fbSteps C inc curr n).1.length = n := by
  induction n with
  | zero => intro _; rfl
  | succ n ih => intro curr; simp [fbSteps, ih]

theorem fbCache_length (C : NativeCurve F) (wb tot n : ℕ) : ∀ (inc inc' : C.G) (i : ℕ),
    (fbCache C wb tot inc i n).length = (fbCache C wb tot inc' i n).length := by
  induction n with
  | zero => intro _ _ _; rfl
  | succ n ih =>
    intro inc inc' i
    simp only [fbCache, List.length_append, List.length_cons, fbSteps_length]
    rw [ih]

theorem fbTask_sound (hf : EcFits l) {C : NativeCurve F} {φ : C.G → ECurve b} (hC : NativeLaws l b C φ) {m wb : ℕ} (hm : 1 ≤ m)
    (hwb0 : wb ≠ 0) (hwb : wb < p) (point : C.G) (hs : FbSafe wb (φ point)) (n : ℕ) (scalar : List (AV p)) (anyPoint : EcPt F) :
    Sound tbl (fbTask F anyPoint n m wb ((fbCache C wb (m * n) point 0 ((m * n + wb - 1) / wb)).map C.coords, scalar)) (fun w r =>
      ∀ A : ECurve b, EcRep l b w anyPoint A → ∃ Ns, NumsRep m w scalar Ns ∧
        EcRep l b w r (A + Nat.ofDigits (2 ^ m) Ns • φ point)) := by
  intro s
  refine Snd.bind (fbLoad_sound l _ s) fun cached s1 _ => Snd.assert fun h1 => Snd.bind (chunkBits_sound hm scalar s1) fun bits s2 _ =>
    (fbWindows_sound l b hf hC (m := m) hwb0 hwb point hs n cached bits anyPoint s2).weaken ?_
  rintro w r _ h7 ⟨Ns, bs, n1, n2, n3, n4⟩ h5 A hA
  have h1 : scalar.length = n := by simpa using h1
  refine ⟨Ns, n1, ?_⟩
  rw [← n4]
  exact h7 A bs hA n2 (by rw [n3, h1]) h5

theorem fbAccLoop_sound (hf : EcFits l) (anyPoint : EcPt F) (Ps : List (EcPt F)) : ∀ acc,
    Sound tbl (fbAccLoop F anyPoint acc Ps) (fun w r => ∀ (A B : ECurve b) gs, EcRep l b w anyPoint A → EcRep l b w acc B →
      Ps.Forall₂ (fun P g => EcRep l b w P (A + g)) gs → EcRep l b w r (B + gs.sum)) := by
  induction Ps with
  | nil =>
    intro acc s
    refine Snd.pure fun w _ A B gs hA hB hg => ?_
    cases hg
    simpa using hB
  | cons P Ps ih =>
    intro acc s
    refine Snd.bind (ecAddUnequal_sound l b hf _ _ true s) fun a s1 _ => Snd.bind (ecSubUnequal_sound l b hf _ _ true s1) fun acc' s2 _ =>
      (ih acc' s2).weaken ?_
    intro w r _ h3 h2 h1 A B gs hA hB hg
    rcases hg with _ | ⟨hP, hg⟩
    rename_i g gs
    obtain ⟨c1, c2⟩ := h1 _ _ hB.cmp hP.cmp
    obtain ⟨n1, n2⟩ := c1 rfl
    obtain ⟨d1, d2⟩ := h2 _ _ (c2 n1 n2).cmp hA.cmp
    obtain ⟨n3, n4⟩ := d1 rfl
    have := h3 A _ gs hA (d2 n3 n4) hg
    rw [List.sum_cons]
    have e : B + (A + g) - A + gs.sum = B + (g + gs.sum) := by abel
    rwa [e] at this

theorem fbEnd_sound (hf : EcFits l) (bv : F.V) (hb : CurveOk (l.val bv)) (base pair : F.V × F.V) (anyPoint : EcPt F) (mults : List (EcPt F)) :
    Sound tbl (fbEnd F bv base pair anyPoint mults) (fun w r => ∀ (A : ECurve (l.val bv)) gs, EcRep l (l.val bv) w anyPoint A →
      mults.Forall₂ (fun P g => EcRep l (l.val bv) w P (A + g)) gs → EcRep0 l (l.val bv) w r gs.sum) := by
  intro s
  refine Snd.bind (loadPoint_sound l hf bv hb base s) fun any s1 _ =>
    Snd.bind (fbAccLoop_sound l (l.val bv) hf anyPoint mults any s1) fun acc s2 _ =>
    (ecSubStrict_sound l (l.val bv) hf pair acc any s2).weaken ?_
  rintro w r _ h3 h2 ⟨B, hB⟩ A gs hA hg
  have := (h3 _ _ (h2 A B gs hA hB hg) hB).1
  rwa [add_sub_cancel_left] at this

/-- **`fixed_base::msm_par`**. -/
theorem fixedMsmPar_sound (hf : EcFits l) (bv : F.V) (hb : CurveOk (l.val bv)) (rand : FbRand F)
    {C : NativeCurve F} {φ : C.G → ECurve (l.val bv)} (hC : NativeLaws l (l.val bv) C φ) (points : List C.G)
    (scalars : List (List (AV p))) {m wb : ℕ} (hm : 1 ≤ m) (hwb : wb < p) (hs : ∀ g ∈ points, FbSafe wb (φ g)) :
    PSound tbl (fixedMsmPar F C bv rand points scalars m wb) (fun w r =>
      (points = [] → EcRep0 l (l.val bv) w r 0) ∧
      (points ≠ [] → ∃ Nss, scalars.Forall₂ (NumsRep m w) Nss ∧
        EcRep0 l (l.val bv) w r ((Nss.zip points).map fun x => Nat.ofDigits (2 ^ m) x.1 • φ x.2).sum)) := by
  unfold fixedMsmPar
  split
  · rename_i h0
    have h0 := List.length_eq_zero_iff.1 h0
    refine (onMain_sound (assignConstantPoint_sound l _)).weaken ?_
    rintro w r ⟨hx, hy⟩
    rw [l.val_zero] at hx hy
    exact ⟨fun _ => ⟨0, 0, ⟨l.r_p _ _ _ hx, l.r_p _ _ _ hy⟩, .inr ⟨rfl, rfl, rfl⟩⟩, fun h => absurd h0 h⟩
  · rename_i h0
    refine PSound.assert fun h1 => PSound.assert fun h2 => PSound.unwrap fun s0 hs0 => PSound.assert fun h3 => ?_
    simp only [bne_iff_ne, ne_eq, beq_iff_eq] at h2 h3
    set nw := (m * s0.length + wb - 1) / wb with hnw
    obtain ⟨pt0, hpt0⟩ : ∃ g, g ∈ points := List.exists_mem_of_length_pos (by omega)
    set Lc := (fbCache C wb (m * s0.length) pt0 0 nw).length with hLc
    have hlen : (points.flatMap fun pt => (fbCache C wb (m * s0.length) pt 0 nw).map C.coords).length = points.length * Lc := by
      rw [List.length_flatMap]
      have : (points.map fun pt => ((fbCache C wb (m * s0.length) pt 0 nw).map C.coords).length) = points.map fun _ => Lc := by
        apply List.map_congr_left
        intro g _
        rw [List.length_map, fbCache_length C wb _ nw g pt0]
      rw [this]
      simp
    change PSound tbl (onMain (loadPoint F bv rand.base) >>= fun anyPoint => (assertP ((points.flatMap fun pt => (fbCache C wb (m * s0.length) pt 0 nw).map C.coords).length / points.length != 0) >>= fun _ =>
      (assertP ((chunksOf ((points.flatMap fun pt => (fbCache C wb (m * s0.length) pt 0 nw).map C.coords).length / points.length) (points.flatMap fun pt => (fbCache C wb (m * s0.length) pt 0 nw).map C.coords)).length == scalars.length) >>= fun _ =>
      (parallelize ((chunksOf ((points.flatMap fun pt => (fbCache C wb (m * s0.length) pt 0 nw).map C.coords).length / points.length) (points.flatMap fun pt => (fbCache C wb (m * s0.length) pt 0 nw).map C.coords)).zip scalars) (fbTask F anyPoint s0.length m wb) >>= fun mults =>
      onMain (fbEnd F bv rand.base2 rand.pair anyPoint mults))))) _
    rw [hlen, Nat.mul_div_cancel_left _ (Nat.pos_of_ne_zero h0)]
    refine PSound.bind (onMain_sound (loadPoint_sound l hf bv hb rand.base)) fun any => PSound.assert fun h4 => PSound.assert fun h5 => ?_
    simp only [bne_iff_ne, ne_eq, beq_iff_eq] at h4 h5
    have hch : chunksOf Lc (points.flatMap fun pt => (fbCache C wb (m * s0.length) pt 0 nw).map C.coords) =
        points.map fun pt => (fbCache C wb (m * s0.length) pt 0 nw).map C.coords := by
      rw [List.flatMap_def]
      refine chunksOf_flatten (by omega) _ fun r hr => ?_
      obtain ⟨g, _, rfl⟩ := List.mem_map.1 hr
      rw [List.length_map, fbCache_length C wb _ nw g pt0]
    have hzip : (points.map fun pt => (fbCache C wb (m * s0.length) pt 0 nw).map C.coords).zip scalars =
        (points.zip scalars).map fun x => ((fbCache C wb (m * s0.length) x.1 0 nw).map C.coords, x.2) := by
      rw [List.zip_map_left]
      rfl
    rw [hch, hzip, parallelize_map]
    refine PSound.bind (parallelize_sound (Q := fun x w r => ∀ A : ECurve (l.val bv), EcRep l (l.val bv) w any A →
        ∃ Ns, NumsRep m w x.2 Ns ∧ EcRep l (l.val bv) w r (A + Nat.ofDigits (2 ^ m) Ns • φ x.1)) _ ?_) fun mults => ?_
    · intro x hx
      exact fbTask_sound l (l.val bv) hf hC hm h3 hwb x.1 (hs x.1 (List.of_mem_zip hx).1) _ x.2 any
    · refine PSound.weaken (onMain_sound (fbEnd_sound l hf bv hb rand.base2 rand.pair any mults)) ?_
      rintro w r h2' hm' ⟨A, hA⟩
      refine ⟨fun h => absurd (by rw [h]; rfl) h0, fun _ => ?_⟩
      have key : ∃ Nss, scalars.Forall₂ (NumsRep m w) Nss ∧
          mults.Forall₂ (fun P g => EcRep l (l.val bv) w P (A + g)) ((Nss.zip points).map fun x => Nat.ofDigits (2 ^ m) x.1 • φ x.2) := by
        clear * - hm' hA h2
        induction points generalizing scalars mults with
        | nil =>
          have : scalars = [] := List.length_eq_zero_iff.1 h2.symm
          subst this
          rw [List.zip_nil_left, List.forall₂_nil_left_iff] at hm'
          subst hm'
          exact ⟨[], .nil, .nil⟩
        | cons g points ih =>
          cases scalars with
          | nil => simp at h2
          | cons s scalars =>
            rw [List.zip_cons_cons] at hm'
            rcases hm' with _ | ⟨hP, hm'⟩
            obtain ⟨Ns, n1, n2⟩ := hP A hA
            obtain ⟨Nss, n3, n4⟩ := ih _ (by simpa using h2) _ hm'
            exact ⟨Ns :: Nss, .cons n1 n3, .cons n2 n4⟩
      obtain ⟨Nss, k1, k2⟩ := key
      exact ⟨Nss, k1, h2' A _ hA k2⟩

end H2
