import Verif.Ecc.Sound
import Verif.Gate.SoundBits
import Verif.Poseidon.Sponge
import Verif.BigInt.Spec

/-!
# Soundness of `multi_scalar_multiply` and `scalar_multiply`
-/

set_option autoImplicit false
set_option linter.unusedSectionVars false
namespace H2
variable {p : ℕ} [Fact p.Prime]
variable {F : FieldOps p} {K : Type} [Field K] [DecidableEq K] {tbl : ZMod p → Prop}

/-! ### Bits of scalars -/

/-- In the assignment `w`, the cells `as` hold the numbers `Ns`, of at most `maxBits` bits. -/
def NumsRep (maxBits : ℕ) (w : Cell → ZMod p) (as : List (AV p)) (Ns : List ℕ) : Prop :=
  as.map (at' w) = Ns.map (fun n : ℕ => (n : ZMod p)) ∧ ∀ n ∈ Ns, n < 2 ^ maxBits

/-- In the assignment `w`, the cells `as` hold the bits `bs`. -/
def BitsRep (w : Cell → ZMod p) (as : List (AV p)) (bs : List ℕ) : Prop :=
  as.map (at' w) = bs.map (fun n : ℕ => (n : ZMod p)) ∧ ∀ b ∈ bs, b < 2

theorem BitsRep.length {w : Cell → ZMod p} {as : List (AV p)} {bs : List ℕ} (h : BitsRep w as bs) : as.length = bs.length := by
  simpa using congrArg List.length h.1

theorem BitsRep.append {w : Cell → ZMod p} {as as' : List (AV p)} {bs bs' : List ℕ} (h : BitsRep w as bs)
    (h' : BitsRep w as' bs') : BitsRep w (as ++ as') (bs ++ bs') := by
  refine ⟨by rw [List.map_append, List.map_append, h.1, h'.1], fun b hb => ?_⟩
  rcases List.mem_append.1 hb with hb | hb
  · exact h.2 b hb
  · exact h'.2 b hb

theorem BitsRep.slice {w : Cell → ZMod p} {as : List (AV p)} {bs : List ℕ} (h : BitsRep w as bs) (a n : ℕ) :
    BitsRep w ((as.drop a).take n) ((bs.drop a).take n) := by
  refine ⟨by rw [List.map_take, List.map_drop, h.1, List.map_take, List.map_drop], fun b hb => ?_⟩
  exact h.2 b (List.mem_of_mem_drop (List.mem_of_mem_take hb))

theorem BitsRep.zeros {w : Cell → ZMod p} {z : AV p} (h : at' w z = 0) (n : ℕ) :
    BitsRep w (List.replicate n z) (List.replicate n 0) := by
  refine ⟨by simp [h], fun b hb => ?_⟩
  rw [List.eq_of_mem_replicate hb]
  norm_num

theorem chunkBits_sound {m : ℕ} (hm : 1 ≤ m) (as : List (AV p)) : Sound tbl (chunkBits m as) (fun w r =>
    ∃ Ns bs, NumsRep m w as Ns ∧ BitsRep w r bs ∧ bs.length = m * as.length ∧ Nat.ofDigits 2 bs = Nat.ofDigits (2 ^ m) Ns) := by
  induction as with
  | nil =>
    intro s
    exact Snd.pure fun w _ => ⟨[], [], ⟨rfl, by simp⟩, ⟨rfl, by simp⟩, by simp, by simp⟩
  | cons a as ih =>
    intro s
    refine Snd.bind (numToBits_sound a m s) fun bits s1 _ => Snd.bind (ih s1) fun rest s2 _ => Snd.pure ?_
    rintro w - ⟨Ns, bs, h1, h2, h3, h4⟩ ⟨cs, c1, c2, c3, c4, c5⟩
    have hl : cs.length = m := by
      have := congrArg List.length c2
      simp only [List.length_map] at this
      omega
    refine ⟨Nat.ofDigits 2 cs :: Ns, cs ++ bs, ⟨?_, ?_⟩, BitsRep.append ⟨c2, c1⟩ h2, ?_, ?_⟩
    · rw [List.map_cons, List.map_cons, h1.1, c5]
    · intro n hn
      rcases List.mem_cons.1 hn with rfl | hn
      · exact c4
      · exact h1.2 n hn
    · rw [List.length_append, h3, hl, List.length_cons]
      ring
    · rw [Nat.ofDigits_append, hl, h4, Nat.ofDigits_cons]

/-- What a row of `rounded_bits` holds: the scalar's bits, zero-padded to length `len`. -/
def RowBits (m len : ℕ) (w : Cell → ZMod p) (scalar row : List (AV p)) : Prop :=
  ∃ Ns bs, NumsRep m w scalar Ns ∧ BitsRep w row bs ∧ bs.length = len ∧ Nat.ofDigits 2 bs = Nat.ofDigits (2 ^ m) Ns

theorem msmBits_sound {m : ℕ} (hm : 1 ≤ m) (pad : ℕ) (z : AV p) (ss : List (List (AV p))) :
    Sound tbl (msmBits m pad z ss) (fun w r => at' w z = 0 → ∃ rows, r = rows.flatten ∧
      ss.Forall₂ (fun s row => RowBits m (m * s.length + pad) w s row) rows) := by
  induction ss with
  | nil =>
    intro s
    exact Snd.pure fun w _ _ => ⟨[], rfl, .nil⟩
  | cons sc ss ih =>
    intro s
    refine Snd.bind (chunkBits_sound hm sc s) fun bits s1 _ => Snd.bind (ih s1) fun rest s2 _ => Snd.pure ?_
    rintro w - h ⟨Ns, bs, h1, h2, h3, h4⟩ hz
    obtain ⟨rows, rfl, hr⟩ := h hz
    refine ⟨(bits ++ List.replicate pad z) :: rows, by simp, .cons ⟨Ns, bs ++ List.replicate pad 0, h1,
      h2.append (BitsRep.zeros hz pad), by simp [h3], ?_⟩ hr⟩
    rw [Nat.ofDigits_append_replicate_zero, h4]

theorem chunksOf_flatten {α : Type} {n : ℕ} (hn : 1 ≤ n) (rows : List (List α)) (h : ∀ r ∈ rows, r.length = n) :
    chunksOf n rows.flatten = rows := by
  induction rows with
  | nil => rfl
  | cons r rows ih =>
    rw [List.flatten_cons, chunksOf_append hn (h r List.mem_cons_self), ih fun r' hr => h r' (List.mem_cons_of_mem _ hr)]

/-! ### Selecting a cached point -/

variable (l : FieldLaws F K tbl) (b : K)

theorem forall₂_ec {w : Cell → ZMod p} {Ps : List (EcPt F)} {gs : List (ECurve b)} (h : Ps.Forall₂ (EcRep l b w) gs) :
    ∃ XY : List (K × K), (Ps.map (·.x)).Forall₂ (l.PRep w) (XY.map (·.1)) ∧
      (Ps.map (·.y)).Forall₂ (l.PRep w) (XY.map (·.2)) ∧ XY.Forall₂ (fun xy g => IsPt b xy.1 xy.2 g) gs := by
  induction h with
  | nil => exact ⟨[], .nil, .nil, .nil⟩
  | cons h _ ih =>
    obtain ⟨X, Y, h1, h2⟩ := h
    obtain ⟨XY, i1, i2, i3⟩ := ih
    exact ⟨(X, Y) :: XY, .cons h1.1 i1, .cons h1.2 i2, .cons h2 i3⟩

/-- `ec_select_by_indicator` on a one-hot indicator. -/
theorem ecSelectByIndicator_sound (Ps : List (EcPt F)) (coeffs : List (AV p)) :
    Sound tbl (ecSelectByIndicator F Ps coeffs) (fun w r => ∀ gs : List (ECurve b), Ps.Forall₂ (EcRep l b w) gs →
      ∀ idx, coeffs.map (at' w) = oneHot Ps.length idx → ∀ g, gs[idx]? = some g → EcRep l b w r g) := by
  intro s
  refine Snd.bind (l.selectByIndicator _ _ s) fun rx s1 _ => Snd.bind (l.selectByIndicator _ _ s1) fun ry s2 _ => Snd.pure ?_
  intro w _ h2 h1 gs hgs idx hidx g hg
  obtain ⟨XY, i1, i2, i3⟩ := forall₂_ec l b hgs
  have hlt : idx < gs.length := (List.getElem?_eq_some_iff.1 hg).1
  have hl := i3.length_eq
  have hi := (List.forall₂_iff_get.1 i3).2 idx (by omega) hlt
  rw [List.get_eq_getElem, List.get_eq_getElem, (List.getElem?_eq_some_iff.1 hg).2] at hi
  have e : XY[idx]? = some XY[idx] := List.getElem?_eq_getElem (by omega)
  refine ⟨_, _, ⟨h1 _ i1 idx (by rw [List.length_map]; exact hidx) _ (by rw [List.getElem?_map, e]; rfl),
    h2 _ i2 idx (by rw [List.length_map]; exact hidx) _ (by rw [List.getElem?_map, e]; rfl)⟩, hi⟩

/-- `ec_select_from_bits`. -/
theorem ecSelectFromBits_sound (Ps : List (EcPt F)) (sel : List (AV p)) :
    Sound tbl (ecSelectFromBits F Ps sel) (fun w r => ∀ gs : List (ECurve b), Ps.Forall₂ (EcRep l b w) gs →
      ∀ bs, BitsRep w sel bs → ∀ g, gs[Nat.ofDigits 2 bs]? = some g → EcRep l b w r g) := by
  intro s
  refine Snd.assert fun hc => Snd.bind (bitsToIndicator_sound sel s) fun cs s1 _ =>
    (ecSelectByIndicator_sound l b Ps cs s1).weaken ?_
  intro w r _ h2 h1 gs hgs bs hbs g hg
  have hc : 2 ^ sel.length = Ps.length := by simpa using hc
  have := h1 bs hbs.2 hbs.1
  rw [hc] at this
  exact h2 gs hgs _ this g hg

/-- `strict_ec_select_from_bits` keeps the first coordinate canonical. -/
theorem ecSelectFromBits_strict (Ps : List (EcPt F)) (sel : List (AV p)) :
    Sound tbl (ecSelectFromBits F Ps sel) (fun w r => ∀ gs : List (ECurve b),
      Ps.Forall₂ (fun P g => CmpRep l b w (.strict P) g) gs →
      ∀ bs, BitsRep w sel bs → ∀ g, gs[Nat.ofDigits 2 bs]? = some g → CmpRep l b w (.strict r) g) := by
  intro s
  refine Snd.assert fun hc => Snd.bind (bitsToIndicator_sound sel s) fun cs s1 _ =>
    Snd.bind (l.selectByIndicatorR _ _ s1) fun rx s2 _ => Snd.bind (l.selectByIndicator _ _ s2) fun ry s3 _ => Snd.pure ?_
  intro w _ h3 h2 h1 gs hgs bs hbs g hg
  have hc : 2 ^ sel.length = Ps.length := by simpa using hc
  have hidx := h1 bs hbs.2 hbs.1
  rw [hc] at hidx
  obtain ⟨XY, i1, i2, i3⟩ : ∃ XY : List (K × K), (Ps.map (·.x)).Forall₂ (l.RRep w) (XY.map (·.1)) ∧
      (Ps.map (·.y)).Forall₂ (l.PRep w) (XY.map (·.2)) ∧ XY.Forall₂ (fun xy g => IsPt b xy.1 xy.2 g) gs := by
    clear * - hgs
    induction hgs with
    | nil => exact ⟨[], .nil, .nil, .nil⟩
    | cons h _ ih =>
      obtain ⟨X, Y, h1, h2⟩ := h
      obtain ⟨XY, i1, i2, i3⟩ := ih
      exact ⟨(X, Y) :: XY, .cons h1.1 i1, .cons h1.2 i2, .cons h2 i3⟩
  have hlt : Nat.ofDigits 2 bs < gs.length := (List.getElem?_eq_some_iff.1 hg).1
  have hl := i3.length_eq
  have hi := (List.forall₂_iff_get.1 i3).2 _ (by omega) hlt
  rw [List.get_eq_getElem, List.get_eq_getElem, (List.getElem?_eq_some_iff.1 hg).2] at hi
  have e : XY[Nat.ofDigits 2 bs]? = some (XY[Nat.ofDigits 2 bs]'(by omega)) := List.getElem?_eq_getElem (by omega)
  refine ⟨_, _, ⟨h2 _ i1 _ (by rw [List.length_map]; exact hidx) _ (by rw [List.getElem?_map, e]; rfl),
    h3 _ i2 _ (by rw [List.length_map]; exact hidx) _ (by rw [List.getElem?_map, e]; rfl)⟩, hi⟩

/-! ### Doublings and the cache -/

theorem doubleN_sound (hf : EcFits l) (hb : CurveOk b) (n : ℕ) : ∀ P : EcPt F, Sound tbl (doubleN F P n) (fun w r =>
    ∀ g : ECurve b, EcRep l b w P g → EcRep l b w r (2 ^ n • g)) := by
  induction n with
  | zero => exact fun P s => Snd.pure fun w _ g h => by simpa using h
  | succ n ih =>
    intro P s
    refine Snd.bind (ecDouble_sound l b hf hb P s) fun d s1 _ => (ih d s1).weaken ?_
    intro w r _ h2 h1 g hg
    have := h2 _ (h1 g hg)
    rwa [← mul_smul, ← pow_succ] at this

theorem doublings_sound (hf : EcFits l) (hb : CurveOk b) (n : ℕ) : ∀ P : EcPt F, Sound tbl (doublings F P n) (fun w r =>
    r.length = n ∧ ∀ g : ECurve b, EcRep l b w P g → ∀ (i : ℕ) Q, (P :: r)[i]? = some Q → EcRep l b w Q (2 ^ i • g)) := by
  induction n with
  | zero =>
    intro P s
    refine Snd.pure fun w _ => ⟨rfl, fun g hg i Q hQ => ?_⟩
    match i, hQ with
    | 0, hQ =>
      simp only [List.getElem?_cons_zero, Option.some.injEq] at hQ
      subst hQ
      simpa using hg
    | i + 1, hQ => simp at hQ
  | succ n ih =>
    intro P s
    refine Snd.bind (ecDouble_sound l b hf hb P s) fun d s1 _ => Snd.bind (ih d s1) fun rest s2 _ => Snd.pure ?_
    rintro w - ⟨hl, h2⟩ h1
    refine ⟨by simp [hl], fun g hg i Q hQ => ?_⟩
    match i, hQ with
    | 0, hQ =>
      simp only [List.getElem?_cons_zero, Option.some.injEq] at hQ
      subst hQ
      simpa using hg
    | i + 1, hQ =>
      rw [List.getElem?_cons_succ] at hQ
      have := h2 _ (h1 g hg) i Q hQ
      rwa [← mul_smul, ← pow_succ] at this

/-- The multiples `[g + 1 q, ..., g + n q]`. -/
def multiples {G : Type} [AddCommGroup G] (g q : G) (n : ℕ) : List G := (List.range n).map fun j => g + (j + 1) • q

theorem multiples_succ {G : Type} [AddCommGroup G] (g q : G) (n : ℕ) :
    multiples g q (n + 1) = (g + q) :: multiples (g + q) q n := by
  unfold multiples
  rw [List.range_succ_eq_map, List.map_cons, List.map_map]
  congr 1
  · simp
  · apply List.map_congr_left
    intro j _
    simp only [Function.comp_apply, Nat.succ_eq_add_one]
    rw [add_smul (j + 1) 1 q, one_smul, add_assoc, add_comm q]

theorem multiples_cons {G : Type} [AddCommGroup G] (g q : G) (n : ℕ) (hn : 1 ≤ n) :
    g :: multiples g q (n - 1) = (List.range n).map fun j => g + j • q := by
  obtain ⟨m, rfl⟩ : ∃ m, n = m + 1 := ⟨n - 1, by omega⟩
  rw [List.range_succ_eq_map, List.map_cons, List.map_map]
  simp [multiples, Function.comp_def]

/-- `P` represents `q`, and its flag `isInf` says whether `q` is infinity. -/
structure InfRep (w : Cell → ZMod p) (isInf : AV p) (P : EcPt F) (q : ECurve b) : Prop where
  rep : ∃ X Y, CXYRep l w (.strict P) X Y ∧ IsPt0 b X Y q
  inf : at' w isInf = if q = 0 then 1 else 0

theorem cacheRow_sound (hf : EcFits l) (isInf : AV p) (point : EcPt F) (n : ℕ) : ∀ prev : EcPt F,
    Sound tbl (cacheRow F isInf point prev n) (fun w r => ∀ g q : ECurve b, CmpRep l b w (.strict prev) g →
      InfRep l b w isInf point q → r.Forall₂ (fun P g => CmpRep l b w (.strict P) g) (multiples g q n)) := by
  induction n with
  | zero => exact fun prev s => Snd.pure fun w _ g q _ _ => .nil
  | succ n ih =>
    intro prev s
    refine Snd.bind (ecAddUnequal_xy l hf _ _ true s) fun a s1 _ => Snd.bind (ecSelect_xy l _ _ _ s1) fun a' s2 _ =>
      Snd.bind (intoStrictPoint_xy l a' s2) fun a'' s3 _ => Snd.bind (ih a'' s3) fun rest s4 _ => Snd.pure ?_
    intro w _ h4 h3 h2 h1 g q hg hq
    have key : CmpRep l b w (.strict a'') (g + q) := by
      obtain ⟨X1, Y1, hP, i1⟩ := hg
      obtain ⟨⟨X2, Y2, hQ, i2⟩, hinf⟩ := hq
      obtain ⟨hx, L, hL, hr⟩ := h1 _ _ _ _ hP hQ
      obtain ⟨e1, e0⟩ := h2 _ _ _ _ hP.xy hr
      by_cases hq0 : q = 0
      · rw [if_pos hq0] at hinf
        rw [hq0, add_zero]
        exact ⟨X1, Y1, h3 _ _ (e1 hinf), i1⟩
      · rw [if_neg hq0] at hinf
        have i2 := i2.resolve_right fun h => hq0 h.1
        exact ⟨_, _, h3 _ _ (e0 hinf), i1.add i2 (hx rfl) hL rfl rfl⟩
    rw [multiples_succ]
    exact .cons key (h4 _ _ key hq)

/-- The cached points of one row. -/
def RowCache (w : Cell → ZMod p) (row : List (EcPt F)) (B q : ECurve b) (n : ℕ) : Prop :=
  row.Forall₂ (fun P g => CmpRep l b w (.strict P) g) ((List.range n).map fun j => B + j • q)

theorem cacheLoop_sound (hf : EcFits l) (hb : CurveOk b) (rands : List (EcPt F)) (wb : ℕ) (Ps : List (EcPt F)) :
    ∀ idx, Sound tbl (cacheLoop F rands wb idx Ps) (fun w r => ∀ (A : ECurve b) (qs : List (ECurve b)),
      (∀ (i : ℕ) Q, rands[i]? = some Q → EcRep l b w Q (2 ^ i • A)) → Ps.Forall₂ (EcRep0 l b w) qs →
      (∀ q ∈ qs, 2 • q = 0 → q = 0) → ∃ rows : List (List (EcPt F)), r = rows.flatten ∧
        rows.Forall₂ (fun row Bq => RowCache l b w row Bq.1 Bq.2 (2 ^ wb))
          ((qs.zipIdx idx).map fun qi => (2 ^ qi.2 • A - 2 ^ (qi.2 + wb) • A, qi.1))) := by
  induction Ps with
  | nil =>
    intro idx s
    refine Snd.pure fun w _ A qs _ hq _ => ?_
    cases hq
    exact ⟨[], rfl, .nil⟩
  | cons P Ps ih =>
    intro idx s
    refine Snd.bind (l.isZero _ s) fun inf s1 _ => Snd.unwrap fun r0 hr0 => Snd.unwrap fun r1 hr1 =>
      Snd.bind (ecSubUnequal_sound l b hf _ _ true s1) fun neg s2 _ => Snd.bind (intoStrictPoint_xy l P s2) fun pt s3 _ =>
      Snd.bind (intoStrictPoint_sound l b neg s3) fun neg' s4 _ => Snd.bind (cacheRow_sound l b hf inf pt _ neg' s4) fun row s5 _ =>
      Snd.bind (ih (idx + 1) s5) fun rest s6 _ => Snd.pure ?_
    intro w _ h6 h5 h4 h3 h2 h1 A qs hrands hqs htor
    rcases hqs with _ | ⟨hq, hqs⟩
    rename_i q qs
    obtain ⟨rows, rfl, hrows⟩ := h6 A qs hrands hqs fun q' hq' => htor q' (List.mem_cons_of_mem _ hq')
    obtain ⟨X, Y, hXY, i⟩ := hq
    have hinf : InfRep l b w inf pt q := by
      refine ⟨⟨X, Y, h3 _ _ hXY, i⟩, ?_⟩
      rw [h1 _ hXY.2]
      congr 1
      rw [eq_iff_iff]
      rcases i with i | ⟨rfl, rfl, rfl⟩
      · constructor
        · rintro rfl
          have h0 := i.neg
          rw [neg_zero] at h0
          have := i.unique h0
          refine htor q List.mem_cons_self ?_
          rw [two_nsmul]
          nth_rewrite 1 [this]
          exact neg_add_cancel q
        · exact fun h => absurd h i.ne_zero
      · simp
    obtain ⟨c1, c2⟩ := h2 _ _ (hrands idx r0 hr0).cmp (hrands _ r1 hr1).cmp
    obtain ⟨n1, n2⟩ := c1 rfl
    have hB := h4 _ (c2 n1 n2)
    refine ⟨(neg' :: row) :: rows, by simp, ?_⟩
    rw [List.zipIdx_cons, List.map_cons]
    refine .cons ?_ hrows
    unfold RowCache
    rw [← multiples_cons _ _ _ Nat.one_le_two_pow]
    exact .cons hB (h5 _ _ hB hinf)

/-! ### The main loop -/

/-- A row of cached points and bits: `[B + j q]` and the bits `bs`. -/
structure MsmRow (w : Cell → ZMod p) (n len : ℕ) (row : List (EcPt F) × List (AV p)) (d : ECurve b × ECurve b × List ℕ) : Prop where
  cache : row.1.Forall₂ (EcRep l b w) ((List.range n).map fun j => d.1 + j • d.2.1)
  bits : BitsRep w row.2 d.2.2
  len : d.2.2.length = len

theorem msmAddLoop_sound (hf : EcFits l) {wb n len : ℕ} (rows : List (List (EcPt F) × List (AV p))) : ∀ curr,
    Sound tbl (msmAddLoop F (wb * n) (wb * (n + 1)) curr rows) (fun w r => ∀ (g : ECurve b) ds, EcRep l b w curr g →
      rows.Forall₂ (MsmRow l b w (2 ^ wb) len) ds →
      EcRep l b w r (g + (ds.map fun d => d.1 + Nat.ofDigits 2 ((d.2.2.drop (wb * n)).take wb) • d.2.1).sum)) := by
  induction rows with
  | nil =>
    intro curr s
    refine Snd.pure fun w _ g ds hg hd => ?_
    cases hd
    simpa using hg
  | cons row rows ih =>
    obtain ⟨cached, bits⟩ := row
    intro curr s
    refine Snd.bind (Q := fun _ sel _ => sel = (bits.drop (wb * n)).take wb) ?_ fun sel s1 _ => Snd.bind (ecSelectFromBits_sound l b cached sel s1) fun add s2 _ =>
      Snd.bind (ecAddUnequal_sound l b hf _ _ true s2) fun curr' s3 _ => (ih curr' s3).weaken ?_
    · unfold sliceM
      split
      · refine Snd.pure fun w _ => ?_
        congr 1
        rw [Nat.mul_succ]
        omega
      · exact Snd.panic
    intro w r _ h4 h3 h2 hsel g ds hg hd
    rcases hd with _ | ⟨h, hd⟩
    rename_i d ds
    have hb := h.bits.slice (wb * n) wb
    rw [← hsel] at hb
    have hlt : Nat.ofDigits 2 ((d.2.2.drop (wb * n)).take wb) < 2 ^ wb := by
      refine lt_of_lt_of_le (Nat.ofDigits_lt_base_pow_length (by norm_num) hb.2) (Nat.pow_le_pow_right (by norm_num) ?_)
      rw [List.length_take]
      exact min_le_left _ _
    have hadd := h2 _ h.cache _ hb _ (by
      rw [List.getElem?_map, List.getElem?_range hlt]
      rfl)
    obtain ⟨c1, c2⟩ := h3 _ _ hg.cmp hadd.cmp
    obtain ⟨n1, n2⟩ := c1 rfl
    have := h4 _ _ (c2 n1 n2) hd
    rwa [List.map_cons, List.sum_cons, ← add_assoc]

theorem ofDigits_drop_step (bs : List ℕ) (wb n : ℕ) (hl : wb * (n + 1) ≤ bs.length) :
    Nat.ofDigits 2 (bs.drop (wb * n)) =
      Nat.ofDigits 2 ((bs.drop (wb * n)).take wb) + 2 ^ wb * Nat.ofDigits 2 (bs.drop (wb * (n + 1))) := by
  conv_lhs => rw [← List.take_append_drop wb (bs.drop (wb * n))]
  rw [Nat.ofDigits_append, List.length_take, List.length_drop, List.drop_drop, min_eq_left (by rw [Nat.mul_succ] at hl; omega),
    Nat.mul_succ]

theorem msmLoop_sound (hf : EcFits l) (hb : CurveOk b) {wb : ℕ} (rows : List (List (EcPt F) × List (AV p))) (n len : ℕ)
    (hlen : wb * n ≤ len) : ∀ curr, Sound tbl (msmLoop F wb rows curr n) (fun w r => ∀ (C : ECurve b) ds,
      rows.Forall₂ (MsmRow l b w (2 ^ wb) len) ds → 2 ^ wb • C + (ds.map fun d => d.1).sum = C →
      EcRep l b w curr (C + (ds.map fun d => Nat.ofDigits 2 (d.2.2.drop (wb * n)) • d.2.1).sum) →
      EcRep l b w r (C + (ds.map fun d => Nat.ofDigits 2 d.2.2 • d.2.1).sum)) := by
  induction n with
  | zero => exact fun curr s => Snd.pure fun w _ C ds _ _ h => by simpa using h
  | succ n ih =>
    intro curr s
    refine Snd.bind (doubleN_sound l b hf hb wb curr s) fun d s1 _ =>
      Snd.bind (msmAddLoop_sound l b hf (wb := wb) (n := n) (len := len) rows d s1) fun curr' s2 _ =>
      (ih (by rw [Nat.mul_succ] at hlen; omega) curr' s2).weaken ?_
    intro w r _ h3 h2 h1 C ds hrows hC hcurr
    refine h3 C ds hrows hC ?_
    have := h2 _ ds (h1 _ hcurr) hrows
    have e : 2 ^ wb • (C + (ds.map fun d => Nat.ofDigits 2 (d.2.2.drop (wb * (n + 1))) • d.2.1).sum) +
        (ds.map fun d => d.1 + Nat.ofDigits 2 ((d.2.2.drop (wb * n)).take wb) • d.2.1).sum =
        C + (ds.map fun d => Nat.ofDigits 2 (d.2.2.drop (wb * n)) • d.2.1).sum := by
      have e1 : (ds.map fun d => Nat.ofDigits 2 (d.2.2.drop (wb * n)) • d.2.1).sum =
          (ds.map fun d => Nat.ofDigits 2 ((d.2.2.drop (wb * n)).take wb) • d.2.1).sum +
          2 ^ wb • (ds.map fun d => Nat.ofDigits 2 (d.2.2.drop (wb * (n + 1))) • d.2.1).sum := by
        have hl : ∀ d ∈ ds, wb * (n + 1) ≤ d.2.2.length := by
          intro d hd
          obtain ⟨i, hi, rfl⟩ := List.getElem_of_mem hd
          have hl' := hrows.length_eq
          have := (List.forall₂_iff_get.1 hrows).2 i (by omega) hi
          rw [List.get_eq_getElem, List.get_eq_getElem] at this
          rw [this.len]
          exact hlen
        clear this hrows hC hcurr h1 h2 h3
        induction ds with
        | nil => simp
        | cons d ds ihd =>
          rw [List.map_cons, List.sum_cons, List.map_cons, List.sum_cons, List.map_cons, List.sum_cons,
            ihd fun d' hd' => hl d' (List.mem_cons_of_mem _ hd'),
            ofDigits_drop_step d.2.2 wb n (hl d List.mem_cons_self), add_smul, mul_smul, smul_add]
          abel
      have e2 : (ds.map fun d => d.1 + Nat.ofDigits 2 ((d.2.2.drop (wb * n)).take wb) • d.2.1).sum =
          (ds.map fun d => d.1).sum + (ds.map fun d => Nat.ofDigits 2 ((d.2.2.drop (wb * n)).take wb) • d.2.1).sum :=
        List.sum_map_add
      rw [e2, e1, smul_add]
      nth_rewrite 2 [← hC]
      abel
    rwa [e] at this

/-! ### The whole function -/

theorem zip_rows {w : Cell → ZMod p} {n len m : ℕ} {crows : List (List (EcPt F))} {Bqs : List (ECurve b × ECurve b)}
    (hc : crows.Forall₂ (fun row Bq => RowCache l b w row Bq.1 Bq.2 n) Bqs) : ∀ {scalars rowsB : List (List (AV p))},
    scalars.Forall₂ (fun s row => RowBits m len w s row) rowsB → Bqs.length = scalars.length →
    ∃ (ds : List (ECurve b × ECurve b × List ℕ)) (Nss : List (List ℕ)),
      (crows.zip rowsB).Forall₂ (MsmRow l b w n len) ds ∧ scalars.Forall₂ (NumsRep m w) Nss ∧
      (ds.map fun d => d.1) = Bqs.map (·.1) ∧
      (ds.map fun d => Nat.ofDigits 2 d.2.2 • d.2.1) =
        (Nss.zip (Bqs.map (·.2))).map fun x : List ℕ × ECurve b => Nat.ofDigits (2 ^ m) x.1 • x.2 := by
  induction hc with
  | nil =>
    intro scalars rowsB hs hl
    cases hs with
    | nil => exact ⟨[], [], .nil, .nil, rfl, rfl⟩
    | cons _ _ => simp at hl
  | @cons row Bq crows Bqs h _ ih =>
    intro scalars rowsB hs hl
    cases hs with
    | nil => simp at hl
    | @cons sc rb scalars rowsB hs1 hs2 =>
      obtain ⟨Ns, bs, h1, h2, h3, h4⟩ := hs1
      obtain ⟨ds, Nss, i1, i2, i3, i4⟩ := ih hs2 (by simpa using hl)
      refine ⟨(Bq.1, Bq.2, bs) :: ds, Ns :: Nss, .cons ⟨?_, h2, h3⟩ i1, .cons h1 i2, ?_, ?_⟩
      · show List.Forall₂ _ row _
        exact h.imp fun P g hP => hP.ec
      · rw [List.map_cons, List.map_cons, i3]
      · rw [List.map_cons, List.map_cons, List.zip_cons_cons, List.map_cons, i4, h4]

theorem abel_aux {G : Type} [AddCommGroup G] (u v x y : G) : (u - v) + ((x - (u + u)) - (y - (v + v))) = (x - u) - (y - v) := by
  abel

theorem sum_zipIdx {G : Type} [AddCommGroup G] (A : G) (wb : ℕ) (qs : List G) : ∀ idx,
    (((qs.zipIdx idx).map fun qi => (2 ^ qi.2 • A - 2 ^ (qi.2 + wb) • A, qi.1)).map (·.1)).sum =
      (2 ^ (idx + qs.length) • A - 2 ^ idx • A) - 2 ^ wb • (2 ^ (idx + qs.length) • A - 2 ^ idx • A) := by
  induction qs with
  | nil => intro idx; simp
  | cons q qs ih =>
    intro idx
    rw [List.zipIdx_cons, List.map_cons, List.map_cons, List.sum_cons, ih (idx + 1), List.length_cons]
    rw [show idx + (qs.length + 1) = idx + 1 + qs.length by ring, smul_sub, smul_sub, ← mul_smul, ← mul_smul, ← mul_smul]
    rw [← pow_add, ← pow_add, ← pow_add]
    have e1 : (2 : ℕ) ^ (idx + 1) • A = 2 ^ idx • A + 2 ^ idx • A := by rw [pow_succ, mul_smul, two_nsmul, smul_add]
    have e2 : (2 : ℕ) ^ (wb + (idx + 1)) • A = 2 ^ (wb + idx) • A + 2 ^ (wb + idx) • A := by
      rw [← add_assoc, pow_succ, mul_smul, two_nsmul, smul_add]
    rw [e1, e2, add_comm idx wb]
    exact abel_aux _ _ _ _

theorem forall₂_of_mem_left {α β : Type} {R : α → β → Prop} {S : α → Prop} (hRS : ∀ a b, R a b → S a) {as : List α} {bs : List β}
    (h : as.Forall₂ R bs) : ∀ a ∈ as, S a := by
  induction h with
  | nil => simp
  | cons h _ ih => exact List.forall_mem_cons.2 ⟨hRS _ _ h, ih⟩

theorem forall₂_of_mem_right {α β : Type} {R : α → β → Prop} {S : β → Prop} (hRS : ∀ a b, R a b → S b) {as : List α} {bs : List β}
    (h : as.Forall₂ R bs) : ∀ b ∈ bs, S b := by
  induction h with
  | nil => simp
  | cons h _ ih => exact List.forall_mem_cons.2 ⟨hRS _ _ h, ih⟩

theorem forall₂_imp_mem {α β : Type} {R S : α → β → Prop} {as : List α} {bs : List β} (h : as.Forall₂ R bs)
    (hRS : ∀ a ∈ as, ∀ b, R a b → S a b) : as.Forall₂ S bs := by
  induction h with
  | nil => exact .nil
  | cons h _ ih =>
    exact .cons (hRS _ List.mem_cons_self _ h) (ih fun a ha => hRS a (List.mem_cons_of_mem _ ha))

/-- **`multi_scalar_multiply`**: whatever points and scalars, and whatever random base the prover picked, the result is the
sum of the multiples. -/
theorem multiScalarMultiply_sound (hf : EcFits l) (bv : F.V) (hb : CurveOk (l.val bv)) (rand : MsmRand F)
    (P : List (EcPt F)) (scalars : List (List (AV p))) (m wb : ℕ) (hm : 1 ≤ m) (n : ℕ) (hn : ∀ s ∈ scalars, s.length = n) :
    Sound tbl (multiScalarMultiply F bv rand P scalars m wb) (fun w r => ∀ qs : List (ECurve (l.val bv)),
      P.Forall₂ (EcRep0 l (l.val bv) w) qs → (∀ q ∈ qs, 2 • q = 0 → q = 0) →
      ∃ Nss : List (List ℕ), scalars.Forall₂ (NumsRep m w) Nss ∧
        EcRep0 l (l.val bv) w r ((Nss.zip qs).map fun x => Nat.ofDigits (2 ^ m) x.1 • x.2).sum) := by
  intro s
  refine Snd.assert fun h1 => Snd.assert fun h2 => Snd.unwrap fun s0 hs0 => Snd.assert fun h3 => Snd.assert fun h4 =>
    Snd.assert fun h5 => ?_
  simp only [beq_iff_eq, bne_iff_ne, ne_eq] at h1 h2 h3 h5
  have hs0n : s0.length = n := hn s0 (List.mem_of_getElem? hs0)
  rw [hs0n] at h3 ⊢
  set tot := m * n with htot
  set nw := (tot + wb - 1) / wb with hnw
  have htot1 : 1 ≤ tot := Nat.one_le_iff_ne_zero.2 (Nat.mul_ne_zero (by omega) h3)
  have hle : tot ≤ nw * wb := by
    have h := Nat.div_add_mod (tot + wb - 1) wb
    have h' := Nat.mod_lt (tot + wb - 1) (Nat.pos_of_ne_zero h5)
    rw [← hnw, mul_comm] at h
    omega
  refine Snd.bind (loadZero_sound s) fun z s1 _ => Snd.bind (msmBits_sound hm _ z scalars s1) fun bits s2 _ =>
    Snd.bind (loadPoint_sound l hf bv hb rand.base s2) fun base s3 _ =>
    Snd.bind (doublings_sound l (l.val bv) hf hb _ base s3) fun ds s4 _ =>
    Snd.bind (cacheLoop_sound l (l.val bv) hf hb (base :: ds) wb P 0 s4) fun cached s5 _ =>
    Snd.unwrap fun rk hrk => Snd.unwrap fun r0 hr0 =>
    Snd.bind (ecSubUnequal_sound l (l.val bv) hf _ _ true s5) fun start s6 _ =>
    Snd.bind (msmLoop_sound l (l.val bv) hf hb _ nw (nw * wb) (by rw [mul_comm]) start s6) fun curr s7 _ =>
    (ecSubStrict_sound l (l.val bv) hf rand.pair curr start s7).weaken ?_
  rintro w r _ hsub hloop hstart hcache ⟨-, hds⟩ ⟨A, hA⟩ hbits hz qs hqs htor
  obtain ⟨crows, rfl, hcr⟩ := hcache A qs (fun i Q hQ => hds A hA i Q hQ) hqs htor
  obtain ⟨brows, rfl, hbr⟩ := hbits hz
  have hbr' : scalars.Forall₂ (fun s row => RowBits m (nw * wb) w s row) brows := by
    refine forall₂_imp_mem hbr ?_
    intro sc hsc row h
    rw [hn sc hsc, ← htot, Nat.add_sub_cancel' hle] at h
    exact h
  have hlq : qs.length = P.length := hqs.length_eq.symm
  obtain ⟨dd, Nss, i1, i2, i3, i4⟩ := zip_rows l (l.val bv) hcr hbr' (by simp [hlq, h1])
  have hch1 : chunksOf (2 ^ wb) crows.flatten = crows := by
    refine chunksOf_flatten Nat.one_le_two_pow _ (forall₂_of_mem_left (fun row Bq h => ?_) hcr)
    simpa using h.length_eq
  have hch2 : chunksOf (nw * wb) brows.flatten = brows := by
    refine chunksOf_flatten (by omega) _ (forall₂_of_mem_right (fun sc row h => ?_) hbr')
    obtain ⟨_, bs, _, h2, h3, _⟩ := h
    rw [h2.length, h3]
  rw [hch1, hch2] at hloop
  obtain ⟨c1, c2⟩ := hstart _ _ (hds A hA _ _ hrk).cmp (hds A hA _ _ hr0).cmp
  obtain ⟨n1, n2⟩ := c1 rfl
  have hC := c2 n1 n2
  have hqs2 : ((qs.zipIdx 0).map fun qi => (2 ^ qi.2 • A - 2 ^ (qi.2 + wb) • A, qi.1)).map (·.2) = qs := by
    rw [List.map_map]
    exact List.zipIdx_map_fst 0 qs
  have := hloop (2 ^ P.length • A - 2 ^ 0 • A) dd i1 (by
    rw [i3, sum_zipIdx, Nat.zero_add, hlq]
    exact add_sub_cancel _ _) (by
    have hz : (dd.map fun d => Nat.ofDigits 2 (d.2.2.drop (wb * nw)) • d.2.1).sum = 0 := by
      refine List.sum_eq_zero ?_
      intro x hx
      obtain ⟨d, hd, rfl⟩ := List.mem_map.1 hx
      have := forall₂_of_mem_right (S := fun d => d.2.2.length = nw * wb) (fun row d h => h.len) i1 d hd
      rw [List.drop_eq_nil_of_le (by rw [this, mul_comm]), Nat.ofDigits_nil, zero_smul]
    rw [hz, add_zero]
    exact hC)
  refine ⟨Nss, i2, ?_⟩
  have h := (hsub _ _ this hC).1
  rwa [add_sub_cancel_left, i4, hqs2] at h

end H2
