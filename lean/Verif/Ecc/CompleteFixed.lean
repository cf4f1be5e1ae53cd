import Verif.Ecc.CompleteMsm
import Verif.Ecc.MsmCount
import Verif.Ecc.SoundFixed

/-!
# Completeness of `fixed_base::scalar_multiply`, and how many random points make it fail
-/

set_option autoImplicit false
set_option linter.unusedSectionVars false
namespace H2
variable {p : ℕ} [Fact p.Prime]
variable {F : FieldOps p} {K : Type} [Field K] [DecidableEq K] {tbl : ZMod p → Prop} {l : FieldLaws F K tbl}
variable {k : FieldCmp l} [SelIndCmp k] {b : K} {ext : Cell → ZMod p} {s s' : Ctx p}

/-- The windows of `wb` bits of the number `N`, least significant first, each with the multiple of the base it stands for. -/
def fbData {G : Type} [AddCommGroup G] (wb : ℕ) : ℕ → G → ℕ → List (G × ℕ)
  | 0, _, _ => []
  | n + 1, Q, N => (Q, N % 2 ^ wb) :: fbData wb n (2 ^ wb • Q) (N / 2 ^ wb)

theorem fbData_length {G : Type} [AddCommGroup G] (wb n : ℕ) : ∀ (Q : G) (N : ℕ), (fbData wb n Q N).length = n := by
  induction n with
  | zero => intro _ _; rfl
  | succ n ih => intro Q N; rw [fbData, List.length_cons, ih]

theorem fbData_sum {G : Type} [AddCommGroup G] (wb n : ℕ) : ∀ (Q : G) (N : ℕ), N < 2 ^ (wb * n) →
    ((fbData wb n Q N).map fun d => d.2 • d.1).sum = N • Q := by
  induction n with
  | zero =>
    intro Q N h
    have : N = 0 := by simpa using h
    rw [this]
    simp [fbData]
  | succ n ih =>
    intro Q N h
    rw [fbData, List.map_cons, List.sum_cons, ih, ← mul_smul, ← add_smul]
    · congr 1
      rw [mul_comm]
      exact Nat.mod_add_div _ _
    · rw [Nat.div_lt_iff_lt_mul (by positivity), ← pow_add]
      exact h.trans_eq (by ring)

/-- A row of cached multiples, and the bits of a window. -/
structure FbRowW (k : FieldCmp l) (b : K) (ext : Cell → ZMod p) (s : Ctx p) (wb : ℕ) (row : List (EcPt F) × List (AV p))
    (d : ECurve b × ℕ) : Prop where
  ex : ∃ len, 1 ≤ len ∧ len ≤ wb ∧ row.1.Forall₂ (EcW k b ext s) (winMult d.1 (2 ^ len)) ∧ BitsW ext s row.2 len d.2

theorem FbRowW.mono {wb : ℕ} {row : List (EcPt F) × List (AV p)} {d : ECurve b × ℕ} (h : FbRowW k b ext s wb row d) (e : Ext s s') :
    FbRowW k b ext s' wb row d := by
  obtain ⟨len, h1, h2, h3, h4⟩ := h.ex
  exact ⟨len, h1, h2, h3.imp fun _ _ h => h.mono e, h4.mono e⟩

theorem BitsW.lt {as : List (AV p)} {len N : ℕ} (h : BitsW ext s as len N) : N < 2 ^ len := by
  obtain ⟨bs, -, h2, rfl, rfl⟩ := h
  exact Nat.ofDigits_lt_base_pow_length (by norm_num) h2

theorem fbLoad_cmp {C : NativeCurve F} {φ : C.G → ECurve b} (hC : NativeLaws l b C φ) (gs : List C.G) : ∀ {s : Ctx p},
    (∀ g ∈ gs, φ g ≠ 0) → Cmp tbl ext s (fbLoad F (gs.map C.coords)) (fun r s' => r.Forall₂ (EcW k b ext s') (gs.map φ)) := by
  induction gs with
  | nil => exact fun _ => Cmp.pure .nil
  | cons g gs ih =>
    intro s hne
    refine Cmp.bind (assignConstantPoint_cmp (k := k) (hC.coords g)) fun P s1 e1 h1 => ?_
    refine Cmp.bind (ih fun g' h => hne g' (List.mem_cons_of_mem _ h)) fun Ps s2 e2 h2 => Cmp.pure ?_
    exact .cons ((h1.mono e2).finite (hne g List.mem_cons_self)) h2

theorem fb_windows_cmp {C : NativeCurve F} {φ : C.G → ECurve b} (hC : NativeLaws l b C φ) {wb tot : ℕ} (hwb : wb ≠ 0)
    (n : ℕ) : ∀ {Ps : List (EcPt F)} {inc : C.G} {i : ℕ} {bits : List (AV p)} {len N : ℕ},
    Ps.Forall₂ (EcW k b ext s) ((fbCache C wb tot inc i n).map φ) → BitsW ext s bits len N → len = tot - i * wb →
    n = (len + wb - 1) / wb →
    (chunksOf (2 ^ wb) Ps).length = (chunksOf wb bits).length ∧
    ((chunksOf (2 ^ wb) Ps).zip (chunksOf wb bits)).Forall₂ (FbRowW k b ext s wb) (fbData wb n (φ inc) N) := by
  induction n with
  | zero =>
    intro Ps inc i bits len N hP hb hl hn
    have h0 : len = 0 := by
      have := (Nat.div_eq_zero_iff.1 hn.symm).resolve_left hwb
      omega
    have : bits = [] := List.length_eq_zero_iff.1 (by rw [hb.length, h0])
    subst this
    rw [fbCache, List.map_nil] at hP
    cases hP
    exact ⟨rfl, .nil⟩
  | succ n ih =>
    intro Ps inc i bits len N hP hb hl hn
    have hpos : 0 < len := by
      by_contra h0
      have h0 : len = 0 := by omega
      rw [h0, Nat.zero_add, Nat.div_eq_of_lt (by omega)] at hn
      omega
    set kk := min wb (tot - i * wb) with hk
    obtain ⟨h1, h2⟩ := fbWindow_spec hC inc kk
    rw [fbCache, List.map_append, h1] at hP
    obtain ⟨P1, P2, hP1, hP2, rfl⟩ : ∃ P1 P2, P1.Forall₂ (EcW k b ext s) (winMult (φ inc) (2 ^ kk)) ∧
        P2.Forall₂ (EcW k b ext s) ((fbCache C wb tot (fbSteps C inc inc (2 ^ kk - 1)).2 (i + 1) n).map φ) ∧ P1 ++ P2 = Ps :=
      ⟨_, _, List.forall₂_take_append _ _ _ hP, List.forall₂_drop_append _ _ _ hP, List.take_append_drop _ _⟩
    have hP1l : P1.length = 2 ^ kk := by simpa [winMult] using hP1.length_eq
    by_cases hfull : wb < len
    · have hkw : kk = wb := by rw [hk, ← hl]; omega
      rw [hkw] at hP1 hP1l h2
      have e : bits = bits.take wb ++ bits.drop wb := (List.take_append_drop _ _).symm
      have hl1 : (bits.take wb).length = wb := by rw [List.length_take, hb.length]; omega
      have hb1 : BitsW ext s (bits.take wb) wb (N % 2 ^ wb) := by simpa using hb.slice 0 wb (by omega)
      have hb2 : BitsW ext s (bits.drop wb) (len - wb) (N / 2 ^ wb) := by
        have := hb.slice wb (len - wb) (by omega)
        rw [List.take_of_length_le (by rw [List.length_drop, hb.length])] at this
        rwa [Nat.mod_eq_of_lt] at this
        rw [Nat.div_lt_iff_lt_mul (by positivity), ← pow_add]
        exact hb.lt.trans_eq (by congr 1; omega)
      obtain ⟨i1, i2⟩ := ih hP2 hb2
        (by rw [hl, Nat.add_mul]; omega) (by
          have : len + wb - 1 = (len - wb + wb - 1) + wb := by omega
          rw [this, Nat.add_div_right _ (by omega)] at hn
          omega)
      rw [chunksOf_append Nat.one_le_two_pow hP1l, e, chunksOf_append (by omega) hl1]
      rw [hkw, h2] at i2
      exact ⟨by simp [i1], .cons ⟨wb, by omega, le_rfl, hP1, hb1⟩ i2⟩
    · have hkw : kk = len := by rw [hk, ← hl]; omega
      have hn0 : n = 0 := by
        have : (len + wb - 1) / wb < 2 := by
          rw [Nat.div_lt_iff_lt_mul (by omega)]
          omega
        omega
      subst hn0
      rw [fbCache, List.map_nil] at hP2
      cases hP2
      rw [List.append_nil]
      have hP0 : P1 ≠ [] := by
        intro h
        rw [h] at hP1l
        have := Nat.one_le_two_pow (n := kk)
        simp at hP1l
        omega
      have hb0 : bits ≠ [] := by
        intro h
        have := hb.length
        rw [h] at this
        simp at this
        omega
      rw [chunksOf_one Nat.one_le_two_pow (by rw [hP1l]; exact Nat.pow_le_pow_right (by norm_num) (by omega)) hP0,
        chunksOf_one (by omega) (by rw [hb.length]; omega) hb0]
      refine ⟨rfl, .cons ⟨len, hpos, by omega, hkw ▸ hP1, ?_⟩ .nil⟩
      show BitsW ext s bits len (N % 2 ^ wb)
      rw [Nat.mod_eq_of_lt (hb.lt.trans_le (Nat.pow_le_pow_right (by norm_num) (by omega)))]
      exact hb

/-- The point which the step for a window adds (before discarding the sum for the digit zero). -/
def fbAdd {G : Type} [AddCommGroup G] (d : G × ℕ) : G := if d.2 = 0 then d.1 else d.2 • d.1

/-- No addition of the loop meets equal or opposite points. -/
def FbAddOk {G : Type} [AddCommGroup G] : G → List (G × ℕ) → Prop
  | _, [] => True
  | g, d :: ds => g ≠ fbAdd d ∧ g ≠ -fbAdd d ∧ FbAddOk (g + d.2 • d.1) ds

theorem fbLoop_cmp (hf : EcFitsC k) {wb : ℕ} (hwb : wb < p) (rows : List (List (EcPt F) × List (AV p))) :
    ∀ {s : Ctx p} {curr : EcPt F} {g : ECurve b} {ds : List (ECurve b × ℕ)}, EcW k b ext s curr g →
    rows.Forall₂ (FbRowW k b ext s wb) ds → FbAddOk g ds →
    Cmp tbl ext s (fbLoop F curr rows) (fun r s' => EcW k b ext s' r (g + (ds.map fun d => d.2 • d.1).sum)) := by
  induction rows with
  | nil =>
    intro s curr g ds hg hd _
    cases hd
    exact Cmp.pure (by simpa using hg)
  | cons row rows ih =>
    obtain ⟨cached, bits⟩ := row
    intro s curr g ds hg hd ho
    rcases hd with _ | ⟨h, hd⟩
    rename_i d ds
    obtain ⟨len, l1, l2, hc, hb⟩ := h.ex
    obtain ⟨bs, b1, b2, b3, b4⟩ := id hb
    obtain ⟨n1, n2, ho⟩ := ho
    have hq : QsConT ext s (bits.map .existing) (bs.map fun n : ℕ => (n : ZMod p)) := QsConT.existing b1
    refine Cmp.bind (sum_cmp hq) fun bitSum s1 e1 h1 => ?_
    refine Cmp.bind (isZero_cmp h1) fun z s2 e2 h2 => ?_
    have hz : (bs.map (fun n : ℕ => (n : ZMod p))).sum = 0 ↔ d.2 = 0 := by
      rw [bits_sum_zero b2 (by rw [b3]; omega), b4]
    have e12 := e1.trans e2
    have hlt : d.2 < 2 ^ len := hb.lt
    refine Cmp.bind (ecSelectFromBits_cmp (g := fbAdd d) (hc.imp fun _ _ h => h.mono e12) l1 (hb.mono e12)
      (by simpa [winMult] using hc.length_eq) (by
        rw [winMult, List.getElem?_map, List.getElem?_range hlt]
        rfl)) fun add s3 e3 h3 => ?_
    have e13 := e12.trans e3
    refine Cmp.bind (ecAddUnequal_cmp hf (P := .nonStrict curr) (Q := .nonStrict add) (hg.mono e13) h3 n1 n2) fun sm s4 e4 h4 => ?_
    refine Cmp.bind (ecSelect_cmp (t := d.2 = 0) (hg.mono (e13.trans e4)) h4 (by
      have := (h2.mono (e3.trans e4))
      simpa only [bit, hz] using this)) fun curr' s5 e5 h5 => ?_
    have e15 := (e13.trans e4).trans e5
    have h6 : EcW k b ext s5 curr' (g + d.2 • d.1) := by
      by_cases h0 : d.2 = 0
      · simpa [h0] using h5
      · simpa [h0, fbAdd] using h5
    refine (ih h6 (hd.imp fun _ _ h => h.mono e15) ho).weaken fun r s' h => ?_
    simpa [add_assoc] using h

/-- The random choices avoid all exceptional cases of `fixed_base::scalar_multiply` for the base `Q` and the scalar `N`. -/
structure FbOk (b X : K) (A : ECurve b) (wb nw : ℕ) (Q : ECurve b) (N : ℕ) : Prop where
  adds : FbAddOk A (fbData wb nw Q N).reverse
  final : A + N • Q = -A → A + N • Q = A
  pair : ¬ HasX b X A

theorem fbCache_ne {C : NativeCurve F} {φ : C.G → ECurve b} (hC : NativeLaws l b C φ) {wb tot : ℕ} (hwb : wb ≠ 0) {point : C.G}
    (hs : FbSafe wb (φ point)) (n : ℕ) : ∀ g ∈ fbCache C wb tot point 0 n, φ g ≠ 0 := by
  intro g hg
  obtain ⟨j, t, h1, h2, h3⟩ := fbCache_mem hC hwb n point 0 g hg
  rw [h3]
  exact hs j t h1 h2

/-- Windows of one base: the loop from a point `A` adds the multiple. -/
theorem fbWindows_cmp (hf : EcFitsC k) {C : NativeCurve F} {φ : C.G → ECurve b} (hC : NativeLaws l b C φ) {tot wb : ℕ}
    (hwb0 : wb ≠ 0) (hwb : wb < p) {point : C.G} {cached : List (EcPt F)} {bits : List (AV p)} {N : ℕ}
    {anyPoint : EcPt F} {A : ECurve b} (hA : EcW k b ext s anyPoint A) (hbits : BitsW ext s bits tot N)
    (hc : cached.Forall₂ (EcW k b ext s) ((fbCache C wb tot point 0 ((tot + wb - 1) / wb)).map φ))
    (hok : FbAddOk A (fbData wb ((tot + wb - 1) / wb) (φ point) N).reverse) :
    Cmp tbl ext s (fbLoop F anyPoint ((chunksOf (2 ^ wb) cached).reverse.zip (chunksOf wb bits).reverse)) (fun r s' =>
      EcW k b ext s' r (A + N • φ point)) := by
  obtain ⟨h1, h2⟩ := fb_windows_cmp hC hwb0 _ hc hbits (by omega) rfl
  have h3 := List.rel_reverse h2
  rw [zip_reverse' _ _ h1] at h3
  refine (fbLoop_cmp hf hwb _ hA h3 hok).weaken fun r s' h => ?_
  rw [List.map_reverse, List.sum_reverse, fbData_sum] at h
  · exact h
  · refine hbits.lt.trans_le (Nat.pow_le_pow_right (by norm_num) ?_)
    have := Nat.div_add_mod (tot + wb - 1) wb
    have h4 := Nat.mod_lt (tot + wb - 1) (Nat.pos_of_ne_zero hwb0)
    omega

theorem fixedScalarMultiply_cmp (hf : EcFitsC k) (bv : F.V) (rand : MsmRand F) {C : NativeCurve F}
    {φ : C.G → ECurve (l.val bv)} (hC : NativeLaws l (l.val bv) C φ) (point : C.G) {scalar : List (AV p)} {m wb : ℕ} (hm : 1 ≤ m)
    (hm' : m ≤ numBits p) (hwb0 : 1 ≤ wb) (hwb : wb < p) (h0 : φ point ≠ 0) (hs : FbSafe wb (φ point)) (hne : scalar ≠ [])
    {Ns : List ℕ} (hN : NumsW m ext s scalar Ns) {A : ECurve (l.val bv)} (hA : IsPt (l.val bv) (l.val rand.base.1) (l.val rand.base.2) A)
    (hok : FbOk (l.val bv) (l.val rand.pair.1) A wb ((m * scalar.length + wb - 1) / wb) (φ point) (Nat.ofDigits (2 ^ m) Ns)) :
    Cmp tbl ext s (fixedScalarMultiply F C bv rand point scalar m wb) (fun r s' =>
      EcW0 k (l.val bv) ext s' r (Nat.ofDigits (2 ^ m) Ns • φ point)) := by
  unfold fixedScalarMultiply
  rw [if_neg (by rw [hC.ident]; exact h0)]
  have hl : scalar.length ≠ 0 := fun h => hne (List.length_eq_zero_iff.1 h)
  refine Cmp.assert (by simpa using hl) (Cmp.assert (by simpa using hm') (Cmp.assert (by simp; omega) ?_))
  refine Cmp.bind (fbLoad_cmp (k := k) hC _ (fbCache_ne hC (by omega) hs _)) fun cached s1 e1 h1 => ?_
  refine Cmp.bind (chunkBits_cmp hm hm' scalar (hN.mono e1)) fun bits s2 e2 h2 => ?_
  refine Cmp.bind (loadPoint_cmp hf bv hA) fun any s3 e3 h3 => ?_
  refine Cmp.bind (fbWindows_cmp hf hC (by omega) hwb h3 (h2.mono e3) (h1.imp fun _ _ h => h.mono (e2.trans e3)) hok.adds)
    fun curr s4 e4 h4 => ?_
  refine (ecSubStrict_cmp hf h4 (h3.mono e4) hok.final fun Y h => hok.pair ⟨Y, h⟩).weaken fun r s' h => ?_
  rwa [add_sub_cancel_left] at h

/-- For the point at infinity the constant `(0, 0)` is returned. -/
theorem fixedScalarMultiply_cmp_zero (bv : F.V) (rand : MsmRand F) {C : NativeCurve F}
    {φ : C.G → ECurve (l.val bv)} (hC : NativeLaws l (l.val bv) C φ) (point : C.G) {scalar : List (AV p)} {m wb : ℕ}
    (h0 : φ point = 0) : Cmp tbl ext s (fixedScalarMultiply F C bv rand point scalar m wb) (fun r s' => EcW0 k (l.val bv) ext s' r 0) := by
  unfold fixedScalarMultiply
  rw [if_pos (by rw [hC.ident]; exact h0)]
  refine Cmp.bind (k.loadConstant F.vzero) fun z s1 e1 h1 => Cmp.pure ?_
  rw [l.val_zero] at h1
  exact ⟨0, 0, ⟨h1, h1⟩, .inr ⟨rfl, rfl, rfl⟩⟩

/-! ### Counting -/

/-- The number of base points which `fixed_base::scalar_multiply` with `nw` windows must avoid, at most. -/
def fbBadBound (nw : ℕ) : ℕ := 2 * nw + 3

def fbPairs {G : Type} [AddCommGroup G] : G → List (G × ℕ) → List (ℤ × G)
  | _, [] => []
  | D, d :: ds => (1, fbAdd d - D) :: (1, -fbAdd d - D) :: fbPairs (D + d.2 • d.1) ds

theorem fbPairs_length {G : Type} [AddCommGroup G] (ds : List (G × ℕ)) : ∀ D : G, (fbPairs D ds).length = 2 * ds.length := by
  induction ds with
  | nil => intro _; rfl
  | cons d ds ih => intro D; rw [fbPairs, List.length_cons, List.length_cons, ih, List.length_cons]; ring

theorem fbPairs_coef {G : Type} [AddCommGroup G] (ds : List (G × ℕ)) : ∀ D : G, ∀ e ∈ fbPairs D ds, e.1 = 1 := by
  induction ds with
  | nil => intro _ e he; cases he
  | cons d ds ih =>
    intro D e he
    rw [fbPairs, List.mem_cons, List.mem_cons] at he
    rcases he with rfl | rfl | he
    · rfl
    · rfl
    · exact ih _ e he

theorem fbAddOk_of_pairs {G : Type} [AddCommGroup G] (A : G) (ds : List (G × ℕ)) : ∀ D : G,
    (∀ e ∈ fbPairs D ds, e.1 • A ≠ e.2) → FbAddOk (A + D) ds := by
  induction ds with
  | nil => intro _ _; trivial
  | cons d ds ih =>
    intro D h
    have h1 := h (1, fbAdd d - D) (by simp [fbPairs])
    have h2 := h (1, -fbAdd d - D) (by simp [fbPairs])
    rw [one_smul] at h1 h2
    refine ⟨fun e => h1 (eq_sub_of_add_eq e), fun e => h2 (eq_sub_of_add_eq e), ?_⟩
    rw [add_assoc]
    exact ih _ fun e he => h e (by rw [fbPairs]; exact List.mem_cons_of_mem _ (List.mem_cons_of_mem _ he))

theorem fb_bad_card {n : ℕ} (hn : n.Prime) (hn2 : n ≠ 2) (hG : Nat.card (ECurve b) = n) (X : K) {wb nw : ℕ} {Q : ECurve b} {N : ℕ} :
    {A : ECurve b | ¬ FbOk b X A wb nw Q N}.ncard ≤ fbBadBound nw := by
  have hfin : Finite (ECurve b) := Nat.finite_of_card_ne_zero (by rw [hG]; exact hn.ne_zero)
  obtain ⟨L0, hL0, hL0'⟩ := xPts b X
  let L : List (ℤ × ECurve b) := (2, -(N • Q)) :: (L0.map (fun g => ((1 : ℤ), g)) ++ fbPairs 0 (fbData wb nw Q N).reverse)
  have hLlen : L.length ≤ fbBadBound nw := by
    simp only [L, List.length_cons, List.length_append, List.length_map, fbPairs_length, List.length_reverse, fbData_length, fbBadBound]
    omega
  have c1 : ¬ (n : ℤ) ∣ 1 := by
    intro h
    have := Int.le_of_dvd (by norm_num) h
    have := hn.two_le
    omega
  have c2 : ¬ (n : ℤ) ∣ 2 := by
    intro h
    have := Int.le_of_dvd (by norm_num) h
    have := hn.two_le
    omega
  have hLc : ∀ e ∈ L, ¬ (n : ℤ) ∣ e.1 := by
    intro e he
    simp only [L, List.mem_cons, List.mem_append, List.mem_map] at he
    rcases he with rfl | ⟨g, -, rfl⟩ | he
    · exact c2
    · exact c1
    · rw [fbPairs_coef _ _ e he]
      exact c1
  refine le_trans (Set.ncard_le_ncard ?_ (Set.toFinite _)) ((bad_card hn hG L hLc).trans hLlen)
  intro A hbad
  by_contra hgood
  simp only [Set.mem_setOf_eq, not_exists, not_and] at hgood hbad
  apply hbad
  refine ⟨?_, ?_, ?_⟩
  · have := fbAddOk_of_pairs A (fbData wb nw Q N).reverse 0 fun e he => hgood e (by simp [L, he])
    rwa [add_zero] at this
  · intro h
    exfalso
    refine hgood (2, -(N • Q)) (by simp [L]) ?_
    show (2 : ℤ) • A = -(N • Q)
    rw [two_smul, ← sub_eq_zero, sub_neg_eq_add]
    rw [eq_neg_iff_add_eq_zero] at h
    rw [← h]
    abel
  · intro h
    have := hgood (1, A) (by simp [L, hL0' A h])
    exact this (one_smul _ _)

end H2
