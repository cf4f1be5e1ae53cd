import Verif.Ecc.Complete
import Verif.Ecc.SoundMsm
import Verif.Gate.CompleteBits

/-!
# Completeness of `multi_scalar_multiply`

`MsmOk` lists the collisions which the random base point must avoid; under it the honest prover succeeds and gets the sum.
-/

set_option autoImplicit false
set_option linter.unusedSectionVars false
namespace H2
variable {p : ℕ} [Fact p.Prime]
variable {F : FieldOps p} {K : Type} [Field K] [DecidableEq K] {tbl : ZMod p → Prop} {l : FieldLaws F K tbl}
variable {k : FieldCmp l} [SelIndCmp k] {b : K} {ext : Cell → ZMod p} {s s' : Ctx p}

/-! ### Bits -/

/-- The cells hold the numbers `Ns`, each of at most `m` bits and below the native modulus. -/
def NumsW (m : ℕ) (ext : Cell → ZMod p) (s : Ctx p) (as : List (AV p)) (Ns : List ℕ) : Prop :=
  AvsCon ext s as (Ns.map fun n : ℕ => (n : ZMod p)) ∧ ∀ n ∈ Ns, n < 2 ^ m ∧ n < p

theorem NumsW.mono {m : ℕ} {as : List (AV p)} {Ns : List ℕ} (h : NumsW m ext s as Ns) (e : Ext s s') : NumsW m ext s' as Ns :=
  ⟨h.1.mono e, h.2⟩

/-- The cells hold `len` bits, the little-endian binary form of `N`. -/
def BitsW (ext : Cell → ZMod p) (s : Ctx p) (as : List (AV p)) (len N : ℕ) : Prop :=
  ∃ bs : List ℕ, AvsCon ext s as (bs.map fun n : ℕ => (n : ZMod p)) ∧ (∀ x ∈ bs, x < 2) ∧ bs.length = len ∧ Nat.ofDigits 2 bs = N

theorem BitsW.mono {as : List (AV p)} {len N : ℕ} (h : BitsW ext s as len N) (e : Ext s s') : BitsW ext s' as len N := by
  obtain ⟨bs, h1, h2⟩ := h
  exact ⟨bs, h1.mono e, h2⟩

theorem BitsW.length {as : List (AV p)} {len N : ℕ} (h : BitsW ext s as len N) : as.length = len := by
  obtain ⟨bs, h1, _, h3, _⟩ := h
  rw [← h3]
  simpa using List.Forall₂.length_eq h1

theorem BitsW.append {as as' : List (AV p)} {len len' N N' : ℕ} (h : BitsW ext s as len N) (h' : BitsW ext s as' len' N') :
    BitsW ext s (as ++ as') (len + len') (N + 2 ^ len * N') := by
  obtain ⟨bs, h1, h2, h3, h4⟩ := h
  obtain ⟨bs', h1', h2', h3', h4'⟩ := h'
  refine ⟨bs ++ bs', by rw [List.map_append]; exact h1.append h1', ?_, by rw [List.length_append, h3, h3'], ?_⟩
  · intro x hx
    rcases List.mem_append.1 hx with hx | hx
    · exact h2 x hx
    · exact h2' x hx
  · rw [Nat.ofDigits_append, h3, h4, h4']

theorem BitsW.zeros {z : AV p} (h : Con ext s z 0) (n : ℕ) : BitsW ext s (List.replicate n z) n 0 := by
  refine ⟨List.replicate n 0, ?_, ?_, List.length_replicate, ?_⟩
  · rw [List.map_replicate, Nat.cast_zero]
    induction n with
    | zero => exact .nil
    | succ n ih => exact .cons h ih
  · intro x hx
    rw [List.eq_of_mem_replicate hx]
    norm_num
  · simpa using Nat.ofDigits_append_replicate_zero 2 n []

theorem BitsW.slice {as : List (AV p)} {len N : ℕ} (h : BitsW ext s as len N) (a n : ℕ) (hl : a + n ≤ len) :
    BitsW ext s ((as.drop a).take n) n (N / 2 ^ a % 2 ^ n) := by
  obtain ⟨bs, h1, h2, h3, h4⟩ := h
  refine ⟨(bs.drop a).take n, ?_, fun x hx => h2 x (List.mem_of_mem_drop (List.mem_of_mem_take hx)), ?_, ?_⟩
  · rw [List.map_take, List.map_drop]
    exact List.forall₂_take n (List.forall₂_drop a h1)
  · rw [List.length_take, List.length_drop]
    omega
  · rw [← Nat.ofDigits_mod_pow_eq_ofDigits_take n (by norm_num) _ fun x hx => h2 x (List.mem_of_mem_drop hx),
      ← Nat.ofDigits_div_pow_eq_ofDigits_drop a (by norm_num) _ h2, h4]

theorem chunkBits_cmp {m : ℕ} (hm : 1 ≤ m) (hm' : m ≤ numBits p) (as : List (AV p)) : ∀ {s : Ctx p} {Ns : List ℕ},
    NumsW m ext s as Ns → Cmp tbl ext s (chunkBits m as) (fun r s' => BitsW ext s' r (m * as.length) (Nat.ofDigits (2 ^ m) Ns)) := by
  induction as with
  | nil =>
    intro s Ns h
    have : Ns = [] := by
      have := List.Forall₂.length_eq h.1
      simpa using this.symm
    subst this
    exact Cmp.pure ⟨[], .nil, by simp, by simp, by simp⟩
  | cons a as ih =>
    intro s Ns ⟨h1, h2⟩
    match Ns, h1, h2 with
    | N :: Ns, .cons h1 h1', h2 =>
      obtain ⟨h3, h4⟩ := h2 N List.mem_cons_self
      have hv : ((N : ℕ) : ZMod p).val = N := ZMod.val_natCast_of_lt h4
      refine Cmp.bind (numToBits_cmp (n := m) h1 hm hm' (by rw [hv]; exact h3)) fun bits s1 e1 hb => ?_
      rw [hv] at hb
      refine Cmp.bind (ih (NumsW.mono ⟨h1', fun n hn => h2 n (List.mem_cons_of_mem _ hn)⟩ e1)) fun rest s2 e2 hr => Cmp.pure ?_
      have hb' : BitsW ext s2 bits m N := by
        refine BitsW.mono ⟨_, hb, fun x hx => by simpa using limbsOf_lt N m 1 x hx, limbsOf_length _ _ _, ?_⟩ e2
        have := limbsOf_ofDigits N m 1
        rw [pow_one, one_mul, Nat.mod_eq_of_lt h3] at this
        exact this
      have := hb'.append hr
      rw [Nat.ofDigits_cons, List.length_cons, Nat.mul_succ, Nat.add_comm (m * as.length)]
      exact this

theorem msmBits_cmp {m : ℕ} (hm : 1 ≤ m) (hm' : m ≤ numBits p) (pad : ℕ) (z : AV p) (ss : List (List (AV p))) :
    ∀ {s : Ctx p} {Nss : List (List ℕ)}, Con ext s z 0 → ss.Forall₂ (NumsW m ext s) Nss →
    Cmp tbl ext s (msmBits m pad z ss) (fun r s' => ∃ rows, r = rows.flatten ∧ rows.length = ss.length ∧
      (ss.zip rows).Forall₂ (fun sr N => BitsW ext s' sr.2 (m * sr.1.length + pad) N) (Nss.map (Nat.ofDigits (2 ^ m)))) := by
  induction ss with
  | nil =>
    intro s Nss hz h
    cases h
    exact Cmp.pure ⟨[], rfl, rfl, .nil⟩
  | cons sc ss ih =>
    intro s Nss hz h
    rcases h with _ | ⟨h, hs⟩
    rename_i Ns Nss
    refine Cmp.bind (chunkBits_cmp hm hm' sc h) fun bits s1 e1 h1 => ?_
    refine Cmp.bind (ih (hz.mono e1) (hs.imp fun _ _ h => h.mono e1)) fun rest s2 e2 h2 => Cmp.pure ?_
    obtain ⟨rows, rfl, hl, hr⟩ := h2
    refine ⟨(bits ++ List.replicate pad z) :: rows, by simp, by simp [hl], .cons ?_ hr⟩
    have := (h1.mono e2).append (BitsW.zeros (hz.mono (e1.trans e2)) pad)
    rwa [Nat.mul_zero, Nat.add_zero] at this

/-! ### Selecting a cached point -/

theorem forall₂_ecW {Ps : List (EcPt F)} {gs : List (ECurve b)} (h : Ps.Forall₂ (EcW k b ext s) gs) :
    ∃ XY : List (K × K), (Ps.map (·.x)).Forall₂ (k.PW ext s) (XY.map (·.1)) ∧
      (Ps.map (·.y)).Forall₂ (k.PW ext s) (XY.map (·.2)) ∧ XY.Forall₂ (fun xy g => IsPt b xy.1 xy.2 g) gs := by
  induction h with
  | nil => exact ⟨[], .nil, .nil, .nil⟩
  | cons h _ ih =>
    obtain ⟨X, Y, h1, h2⟩ := h
    obtain ⟨XY, i1, i2, i3⟩ := ih
    exact ⟨(X, Y) :: XY, .cons h1.1 i1, .cons h1.2 i2, .cons h2 i3⟩

theorem ecSelectByIndicator_cmp {Ps : List (EcPt F)} {coeffs : List (AV p)} {gs : List (ECurve b)} {idx : ℕ} {g : ECurve b}
    (h : Ps.Forall₂ (EcW k b ext s) gs) (hi : AvsCon ext s coeffs (oneHot Ps.length idx)) (hg : gs[idx]? = some g) :
    Cmp tbl ext s (ecSelectByIndicator F Ps coeffs) (fun r s' => EcW k b ext s' r g) := by
  obtain ⟨XY, i1, i2, i3⟩ := forall₂_ecW h
  have hlt : idx < gs.length := (List.getElem?_eq_some_iff.1 hg).1
  have hl := i3.length_eq
  have hi' := (List.forall₂_iff_get.1 i3).2 _ (by omega) hlt
  rw [List.get_eq_getElem, List.get_eq_getElem, (List.getElem?_eq_some_iff.1 hg).2] at hi'
  have e : XY[idx]? = some (XY[idx]'(by omega)) := List.getElem?_eq_getElem (by omega)
  refine Cmp.bind (SelIndCmp.selectByIndicator (k := k) i1 (by rw [List.length_map]; exact hi) (by rw [List.getElem?_map, e]; rfl)) fun rx s1 e1 h1 => ?_
  refine Cmp.bind (SelIndCmp.selectByIndicator (k := k) (i2.imp fun _ _ h => k.p_mono h e1) (by rw [List.length_map]; exact hi.mono e1)
    (by rw [List.getElem?_map, e]; rfl)) fun ry s2 e2 h2 => Cmp.pure ⟨_, _, ⟨k.p_mono h1 e2, h2⟩, hi'⟩

theorem ecSelectFromBits_cmp {Ps : List (EcPt F)} {sel : List (AV p)} {gs : List (ECurve b)} {n N : ℕ} {g : ECurve b}
    (h : Ps.Forall₂ (EcW k b ext s) gs) (hn : 1 ≤ n) (hs : BitsW ext s sel n N) (hl : Ps.length = 2 ^ n) (hg : gs[N]? = some g) :
    Cmp tbl ext s (ecSelectFromBits F Ps sel) (fun r s' => EcW k b ext s' r g) := by
  have hlen := hs.length
  obtain ⟨bs, h1, h2, h3, rfl⟩ := hs
  refine Cmp.assert (by simp [hlen, hl]) ?_
  refine Cmp.bind (bitsToIndicator_cmp (by rintro rfl; simp at hlen; omega) h1 h2) fun co s1 e1 hc => ?_
  rw [hlen, ← hl] at hc
  exact ecSelectByIndicator_cmp (h.imp fun _ _ h => h.mono e1) hc hg

/-! ### Doublings and the cache -/

theorem doubleN_cmp (hf : EcFitsC k) (hb : CurveOk b) (n : ℕ) : ∀ {s : Ctx p} {P : EcPt F} {g : ECurve b}, EcW k b ext s P g →
    (∀ j < n, 2 ^ (j + 1) • g ≠ 0) → Cmp tbl ext s (doubleN F P n) (fun r s' => EcW k b ext s' r (2 ^ n • g)) := by
  induction n with
  | zero => exact fun h _ => Cmp.pure (by simpa using h)
  | succ n ih =>
    intro s P g h h0
    refine Cmp.bind (ecDouble_cmp hf hb h (by simpa using h0 0 (by omega))) fun d s1 e1 h1 => ?_
    have := ih h1 fun j hj => by
      rw [← mul_smul, ← pow_succ]
      exact h0 (j + 1) (by omega)
    rwa [← mul_smul, ← pow_succ] at this

theorem doublings_cmp (hf : EcFitsC k) (hb : CurveOk b) (n : ℕ) : ∀ {s : Ctx p} {P : EcPt F} {g : ECurve b}, EcW k b ext s P g →
    (∀ j < n, 2 ^ (j + 1) • g ≠ 0) → Cmp tbl ext s (doublings F P n) (fun r s' => r.length = n ∧
      ∀ (i : ℕ) Q, (P :: r)[i]? = some Q → EcW k b ext s' Q (2 ^ i • g)) := by
  induction n with
  | zero =>
    intro s P g h _
    refine Cmp.pure ⟨rfl, fun i Q hQ => ?_⟩
    match i, hQ with
    | 0, hQ =>
      simp only [List.getElem?_cons_zero, Option.some.injEq] at hQ
      subst hQ
      simpa using h
    | i + 1, hQ => simp at hQ
  | succ n ih =>
    intro s P g h h0
    refine Cmp.bind (ecDouble_cmp hf hb h (by simpa using h0 0 (by omega))) fun d s1 e1 h1 => ?_
    refine Cmp.bind (ih h1 fun j hj => by
      rw [← mul_smul, ← pow_succ]
      exact h0 (j + 1) (by omega)) fun rest s2 e2 ⟨hl, h2⟩ => Cmp.pure ⟨by simp [hl], fun i Q hQ => ?_⟩
    match i, hQ with
    | 0, hQ =>
      simp only [List.getElem?_cons_zero, Option.some.injEq] at hQ
      subst hQ
      simpa using h.mono (e1.trans e2)
    | i + 1, hQ =>
      rw [List.getElem?_cons_succ] at hQ
      have := h2 i Q hQ
      rwa [← mul_smul, ← pow_succ] at this

/-- The first coordinate of the finite point `g` is `X`. -/
def HasX (b X : K) (g : ECurve b) : Prop := ∃ Y, IsPt b X Y g

theorem cacheRow_cmp (hf : EcFitsC k) [DecidableEq (ECurve b)] {q : ECurve b} (n : ℕ) : ∀ {s : Ctx p} {isInf : AV p} {point prev : EcPt F}
    {g : ECurve b}, EcW k b ext s prev g → EcW0 k b ext s point q → Con ext s isInf (bit (q = 0)) → (q = 0 → ¬ HasX b 0 g) →
    (q ≠ 0 → ∀ j < n, g + j • q ≠ q ∧ g + j • q ≠ -q) →
    Cmp tbl ext s (cacheRow F isInf point prev n) (fun r s' => r.Forall₂ (EcW k b ext s') (multiples g q n)) := by
  induction n with
  | zero => exact fun _ _ _ _ _ => Cmp.pure .nil
  | succ n ih =>
    intro s isInf point prev g hg hq hi h0 h1
    rw [multiples_succ]
    have key : Cmp tbl ext s (do
        let a ← ecAddUnequal F (.strict prev) (.strict point) true
        ecSelect F prev a isInf) (fun r s' => EcW k b ext s' r (g + q)) := by
      by_cases hq0 : q = 0
      · subst hq0
        rw [bit, if_pos rfl] at hi
        obtain ⟨X1, Y1, hP, i1⟩ := hg
        obtain ⟨X2, Y2, hQ, i2⟩ := hq
        have i2' := i2.resolve_left fun h => h.ne_zero rfl
        have hx2 := i2'.2.1
        subst hx2
        have hx : X1 ≠ 0 := fun h => h0 rfl ⟨Y1, h ▸ i1⟩
        refine Cmp.bind (ecAddUnequal_cmpXY hf (P := .strict prev) (Q := .strict point) hP hQ (fun _ => hx)
          (fun h => absurd h (sub_ne_zero.2 hx.symm))) fun a s1 e1 ha => ?_
        refine (ecSelect_cmpXY (t := True) (hP.mono e1) (ha _ rfl) (by rw [bit, if_pos trivial]; exact hi.mono e1)).weaken fun r s' h => ?_
        rw [add_zero]
        exact ⟨X1, Y1, by simpa using h, i1⟩
      · rw [bit, if_neg hq0] at hi
        obtain ⟨n1, n2⟩ := h1 hq0 0 (by omega)
        rw [zero_smul, add_zero] at n1 n2
        refine Cmp.bind (ecAddUnequal_cmp hf (P := .strict prev) (Q := .strict point) hg (hq.finite hq0) n1 n2) fun a s1 e1 ha => ?_
        refine (ecSelect_cmp (t := False) (hg.mono e1) ha (by rw [bit, if_neg (fun h => h)]; exact hi.mono e1)).weaken fun r s' h => ?_
        simpa using h
    unfold cacheRow
    rw [← bind_assoc]
    refine Cmp.bind key fun a s1 e1 ha => ?_
    refine Cmp.bind (intoStrict_cmp ha) fun a' s2 e2 ha' => ?_
    have e12 := e1.trans e2
    refine Cmp.bind (ih ha' (hq.mono e12) (hi.mono e12) ?_ ?_) fun rest s3 e3 h3 => Cmp.pure (.cons (ha'.mono e3) h3)
    · intro h
      rw [h, add_zero]
      exact h0 h
    · intro h j hj
      have := h1 h (j + 1) (by omega)
      rwa [add_smul, one_smul, add_comm (j • q), ← add_assoc] at this

theorem IsPt0.y_zero {X Y : K} {q : ECurve b} (hb : CurveOk b) (i : IsPt0 b X Y q) (ht : 2 • q = 0 → q = 0) : Y = 0 ↔ q = 0 := by
  rcases i with i | ⟨rfl, rfl, rfl⟩
  · constructor
    · exact fun h => ht (i.y_zero hb (by rw [h, zero_mul]))
    · exact fun h => absurd h i.ne_zero
  · simp

/-- What the cache needs: the bases `2^i A - 2^(i + w) A` can be computed, and no collision when adding the multiples. -/
structure CacheOk (b : K) (A : ECurve b) (wb idx : ℕ) (q : ECurve b) : Prop where
  base1 : (2 ^ idx • A : ECurve b) ≠ 2 ^ (idx + wb) • A
  base2 : (2 ^ idx • A : ECurve b) ≠ -(2 ^ (idx + wb) • A : ECurve b)
  inf : q = 0 → ¬ HasX b 0 (2 ^ idx • A - 2 ^ (idx + wb) • A : ECurve b)
  fin : q ≠ 0 → ∀ j < 2 ^ wb - 1, (2 ^ idx • A - 2 ^ (idx + wb) • A : ECurve b) + j • q ≠ q ∧
    (2 ^ idx • A - 2 ^ (idx + wb) • A : ECurve b) + j • q ≠ -q

theorem cacheLoop_cmp (hf : EcFitsC k) (hb : CurveOk b) [DecidableEq (ECurve b)] {A : ECurve b} {wb : ℕ} (Ps : List (EcPt F)) :
    ∀ {s : Ctx p} {rands : List (EcPt F)} {idx : ℕ} {qs : List (ECurve b)},
      (∀ (i : ℕ) Q, rands[i]? = some Q → EcW k b ext s Q (2 ^ i • A)) → idx + Ps.length + wb ≤ rands.length → 
      Ps.Forall₂ (EcW0 k b ext s) qs → (∀ q ∈ qs, 2 • q = 0 → q = 0) → (∀ qi ∈ qs.zipIdx idx, CacheOk b A wb qi.2 qi.1) → 
      Cmp tbl ext s (cacheLoop F rands wb idx Ps) (fun r s' => ∃ rows : List (List (EcPt F)), r = rows.flatten ∧
        rows.Forall₂ (fun row Bq => row.Forall₂ (EcW k b ext s') ((List.range (2 ^ wb)).map fun j => Bq.1 + j • Bq.2))
          ((qs.zipIdx idx).map fun qi => (2 ^ qi.2 • A - 2 ^ (qi.2 + wb) • A, qi.1))) := by
  induction Ps with
  | nil =>
    intro s rands idx qs _ _ hq _ _
    cases hq
    exact Cmp.pure ⟨[], rfl, .nil⟩
  | cons P Ps ih =>
    intro s rands idx qs hr hl hq htor hok
    rcases hq with _ | ⟨hq, hqs⟩
    rename_i q qs
    obtain ⟨X, Y, hP, i⟩ := hq
    have hy := i.y_zero hb (htor q List.mem_cons_self)
    have hc : CacheOk b A wb idx q := hok (q, idx) (by rw [List.zipIdx_cons]; exact List.mem_cons_self)
    rw [List.length_cons] at hl
    refine Cmp.bind (k.isZero hP.2) fun inf s1 e1 hinf => ?_
    have hinf' : Con ext s1 inf (bit (q = 0)) := by
      convert hinf using 1
      simp only [bit, hy]
    refine Cmp.unwrap (List.getElem?_eq_getElem (show idx < rands.length by omega)) ?_
    refine Cmp.unwrap (List.getElem?_eq_getElem (show idx + wb < rands.length by omega)) ?_
    have hr0 := (hr idx _ (List.getElem?_eq_getElem (by omega))).mono e1
    have hr1 := (hr (idx + wb) _ (List.getElem?_eq_getElem (by omega))).mono e1
    refine Cmp.bind (ecSubUnequal_cmp hf (P := .nonStrict _) (Q := .nonStrict _) hr0 hr1 hc.base1 hc.base2) fun neg s2 e2 hn => ?_
    refine Cmp.bind (intoStrictPoint_cmp (hP.mono (e1.trans e2))) fun pt s3 e3 hpt => ?_
    refine Cmp.bind (intoStrict_cmp (hn.mono e3)) fun neg' s4 e4 hn' => ?_
    refine Cmp.bind (cacheRow_cmp hf (2 ^ wb - 1) hn' (show EcW0 k b ext s4 pt q from ⟨X, Y, hpt.mono e4, i⟩)
      (hinf'.mono ((e2.trans e3).trans e4)) hc.inf hc.fin) fun row s5 e5 hrow => ?_
    have e15 := (((e1.trans e2).trans e3).trans e4).trans e5
    refine Cmp.bind (ih (rands := rands) (idx := idx + 1) (fun i Q hQ => (hr i Q hQ).mono e15) (by omega)
      (hqs.imp fun _ _ h => h.mono e15) (fun q' hq' => htor q' (List.mem_cons_of_mem _ hq'))
      (fun qi hqi => hok qi (by rw [List.zipIdx_cons]; exact List.mem_cons_of_mem _ hqi))) fun rest s6 e6 hrest => Cmp.pure ?_
    obtain ⟨rows, rfl, hrows⟩ := hrest
    refine ⟨(neg' :: row) :: rows, by simp, ?_⟩
    rw [List.zipIdx_cons, List.map_cons]
    refine .cons ?_ hrows
    rw [← multiples_cons _ _ _ Nat.one_le_two_pow]
    exact .cons (hn'.mono (e5.trans e6)) (hrow.imp fun _ _ h => h.mono e6)

/-! ### The main loop -/

/-- A row of cached points and bits: `[B + j q]` and the bits of `N`. -/
structure MsmRowW (k : FieldCmp l) (b : K) (ext : Cell → ZMod p) (s : Ctx p) (n len : ℕ) (row : List (EcPt F) × List (AV p))
    (d : ECurve b × ECurve b × ℕ) : Prop where
  cache : row.1.Forall₂ (EcW k b ext s) ((List.range n).map fun j => d.1 + j • d.2.1)
  bits : BitsW ext s row.2 len d.2.2

theorem MsmRowW.mono {n len : ℕ} {row : List (EcPt F) × List (AV p)} {d : ECurve b × ECurve b × ℕ}
    (h : MsmRowW k b ext s n len row d) (e : Ext s s') : MsmRowW k b ext s' n len row d :=
  ⟨h.cache.imp fun _ _ h => h.mono e, h.bits.mono e⟩

/-- The points added in window number `n` (counted from the least significant one). -/
def msmAdds {G : Type} [AddCommGroup G] (wb n : ℕ) (ds : List (G × G × ℕ)) : List G :=
  ds.map fun d => d.1 + (d.2.2 / 2 ^ (wb * n) % 2 ^ wb) • d.2.1

/-- The accumulator after the windows from the top down to number `n`. -/
def msmAcc {G : Type} [AddCommGroup G] (wb n : ℕ) (C : G) (ds : List (G × G × ℕ)) : G :=
  C + (ds.map fun d => (d.2.2 / 2 ^ (wb * n)) • d.2.1).sum

theorem msmAddLoop_cmp (hf : EcFitsC k) {wb n len : ℕ} (hwb : 1 ≤ wb) (hlen : wb * (n + 1) ≤ len)
    (rows : List (List (EcPt F) × List (AV p))) : ∀ {s : Ctx p} {curr : EcPt F} {g : ECurve b} {ds : List (ECurve b × ECurve b × ℕ)},
    EcW k b ext s curr g → rows.Forall₂ (MsmRowW k b ext s (2 ^ wb) len) ds → SumOk g (msmAdds wb n ds) →
    Cmp tbl ext s (msmAddLoop F (wb * n) (wb * (n + 1)) curr rows) (fun r s' => EcW k b ext s' r (g + (msmAdds wb n ds).sum)) := by
  induction rows with
  | nil =>
    intro s curr g ds hg hd _
    cases hd
    exact Cmp.pure (by simpa [msmAdds] using hg)
  | cons row rows ih =>
    obtain ⟨cached, bits⟩ := row
    intro s curr g ds hg hd ho
    rcases hd with _ | ⟨h, hd⟩
    rename_i d ds
    have hsl : (sliceM bits (wb * n) (wb * (n + 1)) : M p _) = pure ((bits.drop (wb * n)).take wb) := by
      unfold sliceM
      have hbl : bits.length = len := h.bits.length
      rw [if_pos ⟨Nat.mul_le_mul_left _ (by omega), by rw [hbl]; exact hlen⟩]
      congr 2
      rw [Nat.mul_succ]
      omega
    unfold msmAddLoop
    rw [hsl, pure_bind]
    obtain ⟨n1, n2, ho⟩ := ho
    have hbits := h.bits.slice (wb * n) wb (by rw [Nat.mul_succ] at hlen; exact hlen)
    have hlt : d.2.2 / 2 ^ (wb * n) % 2 ^ wb < 2 ^ wb := Nat.mod_lt _ (by positivity)
    refine Cmp.bind (ecSelectFromBits_cmp h.cache hwb hbits (by simpa using h.cache.length_eq) (by
      rw [List.getElem?_map, List.getElem?_range hlt]
      rfl)) fun add s1 e1 h1 => ?_
    refine Cmp.bind (ecAddUnequal_cmp hf (P := .nonStrict curr) (Q := .nonStrict add) (hg.mono e1) h1 n1 n2) fun curr' s2 e2 h2 => ?_
    refine (ih h2 (hd.imp fun _ _ h => h.mono (e1.trans e2)) ho).weaken fun r s' h => ?_
    rwa [msmAdds, List.map_cons, List.sum_cons, ← add_assoc]

theorem div_step (N wb n : ℕ) : N / 2 ^ (wb * n) = N / 2 ^ (wb * n) % 2 ^ wb + 2 ^ wb * (N / 2 ^ (wb * (n + 1))) := by
  rw [Nat.mul_succ, pow_add, ← Nat.div_div_eq_div_mul]
  exact (Nat.mod_add_div _ _).symm

theorem msmAcc_step {G : Type} [AddCommGroup G] (wb n : ℕ) (C : G) (ds : List (G × G × ℕ))
    (hC : 2 ^ wb • C + (ds.map fun d => d.1).sum = C) :
    2 ^ wb • msmAcc wb (n + 1) C ds + (msmAdds wb n ds).sum = msmAcc wb n C ds := by
  have e1 : (ds.map fun d => (d.2.2 / 2 ^ (wb * n)) • d.2.1).sum =
      (ds.map fun d => (d.2.2 / 2 ^ (wb * n) % 2 ^ wb) • d.2.1).sum +
      2 ^ wb • (ds.map fun d => (d.2.2 / 2 ^ (wb * (n + 1))) • d.2.1).sum := by
    clear hC
    induction ds with
    | nil => simp
    | cons d ds ihd =>
      rw [List.map_cons, List.sum_cons, List.map_cons, List.sum_cons, List.map_cons, List.sum_cons, ihd]
      conv_lhs => rw [div_step d.2.2 wb n]
      rw [add_smul, mul_smul, smul_add]
      abel
  have e2 : (msmAdds wb n ds).sum = (ds.map fun d => d.1).sum + (ds.map fun d => (d.2.2 / 2 ^ (wb * n) % 2 ^ wb) • d.2.1).sum :=
    List.sum_map_add
  rw [e2, msmAcc, msmAcc, e1, smul_add]
  nth_rewrite 2 [← hC]
  abel

theorem msmLoop_cmp (hf : EcFitsC k) (hb : CurveOk b) {wb len : ℕ} (hwb : 1 ≤ wb) (rows : List (List (EcPt F) × List (AV p))) (n : ℕ)
    {C : ECurve b} {ds : List (ECurve b × ECurve b × ℕ)} (hC : 2 ^ wb • C + (ds.map fun d => d.1).sum = C) :
    ∀ {s : Ctx p} {curr : EcPt F}, wb * n ≤ len → rows.Forall₂ (MsmRowW k b ext s (2 ^ wb) len) ds →
    EcW k b ext s curr (msmAcc wb n C ds) → (∀ i < n, ∀ j < wb, 2 ^ (j + 1) • msmAcc wb (i + 1) C ds ≠ 0) →
    (∀ i < n, SumOk (2 ^ wb • msmAcc wb (i + 1) C ds) (msmAdds wb i ds)) →
    Cmp tbl ext s (msmLoop F wb rows curr n) (fun r s' => EcW k b ext s' r (msmAcc wb 0 C ds)) := by
  induction n with
  | zero => exact fun _ _ h _ _ => Cmp.pure h
  | succ n ih =>
    intro s curr hlen hrows hc h1 h2
    refine Cmp.bind (doubleN_cmp hf hb wb hc (h1 n (by omega))) fun d s1 e1 hd => ?_
    refine Cmp.bind (msmAddLoop_cmp hf hwb hlen rows hd (hrows.imp fun _ _ h => h.mono e1) (h2 n (by omega))) fun curr' s2 e2 hc' => ?_
    rw [msmAcc_step wb n C ds hC] at hc'
    exact ih (by rw [Nat.mul_succ] at hlen; omega) (hrows.imp fun _ _ h => h.mono (e1.trans e2)) hc'
      (fun i hi => h1 i (by omega)) fun i hi => h2 i (by omega)

/-! ### The whole function -/

/-- The rows `(2^i A - 2^(i + w) A, q_i, N_i)`. -/
def msmData {G : Type} [AddCommGroup G] (A : G) (wb : ℕ) (qs : List G) (Ns : List ℕ) : List (G × G × ℕ) :=
  (qs.zipIdx.zip Ns).map fun x => (2 ^ x.1.2 • A - 2 ^ (x.1.2 + wb) • A, x.1.1, x.2)

/-- The collisions which the random base point `A` (and the random pair of `ec_sub_strict`, whose first coordinate is `X`) must
avoid in `multi_scalar_multiply` of the points `qs` by the scalars `Ns` with `nw` windows of `wb` bits. -/
structure MsmOk (b X : K) (A : ECurve b) (wb nw : ℕ) (qs : List (ECurve b)) (Ns : List ℕ) : Prop where
  dbl : ∀ j < qs.length + wb - 1, 2 ^ (j + 1) • A ≠ 0
  cache : ∀ qi ∈ qs.zipIdx, CacheOk b A wb qi.2 qi.1
  start1 : 2 ^ qs.length • A ≠ A
  start2 : 2 ^ qs.length • A ≠ -A
  loopDbl : ∀ i < nw, ∀ j < wb, 2 ^ (j + 1) • msmAcc wb (i + 1) (2 ^ qs.length • A - A) (msmData A wb qs Ns) ≠ 0
  loopAdd : ∀ i < nw, SumOk (2 ^ wb • msmAcc wb (i + 1) (2 ^ qs.length • A - A) (msmData A wb qs Ns)) (msmAdds wb i (msmData A wb qs Ns))
  final : msmAcc wb 0 (2 ^ qs.length • A - A) (msmData A wb qs Ns) = -(2 ^ qs.length • A - A) →
    msmAcc wb 0 (2 ^ qs.length • A - A) (msmData A wb qs Ns) = 2 ^ qs.length • A - A
  pair : ¬ HasX b X (2 ^ qs.length • A - A)

theorem msmData_fst {G : Type} [AddCommGroup G] (A : G) (wb : ℕ) (qs : List G) (Ns : List ℕ) (h : qs.length = Ns.length) :
    (msmData A wb qs Ns).map (fun d => d.1) =
      ((qs.zipIdx 0).map fun qi => (2 ^ qi.2 • A - 2 ^ (qi.2 + wb) • A, qi.1)).map (·.1) := by
  unfold msmData
  rw [List.map_map, List.map_map]
  conv_rhs => rw [← List.map_fst_zip (l₁ := qs.zipIdx 0) (l₂ := Ns) (by simp [h])]
  rw [List.map_map]
  rfl

theorem msmData_sum {G : Type} [AddCommGroup G] (A : G) (wb : ℕ) (qs : List G) (Ns : List ℕ) :
    (msmData A wb qs Ns).map (fun d => d.2.2 • d.2.1) = (Ns.zip qs).map fun x => x.1 • x.2 := by
  unfold msmData
  rw [List.map_map]
  generalize 0 = idx
  induction qs generalizing Ns idx with
  | nil => simp
  | cons q qs ih =>
    cases Ns with
    | nil => simp
    | cons N Ns =>
      rw [List.zipIdx_cons, List.zip_cons_cons, List.map_cons, List.zip_cons_cons, List.map_cons, ih]
      rfl

theorem rows_zip {n len : ℕ} {A : ECurve b} {wb : ℕ} {qs : List (ECurve b)} : ∀ {idx : ℕ} {crows : List (List (EcPt F))}
    {brows : List (List (AV p))} {Ns : List ℕ},
    crows.Forall₂ (fun row Bq => row.Forall₂ (EcW k b ext s) ((List.range n).map fun j => Bq.1 + j • Bq.2))
      ((qs.zipIdx idx).map fun qi => (2 ^ qi.2 • A - 2 ^ (qi.2 + wb) • A, qi.1)) →
    brows.Forall₂ (fun row N => BitsW ext s row len N) Ns → 
    (crows.zip brows).Forall₂ (MsmRowW k b ext s n len)
      (((qs.zipIdx idx).zip Ns).map fun x => (2 ^ x.1.2 • A - 2 ^ (x.1.2 + wb) • A, x.1.1, x.2)) := by
  induction qs with
  | nil =>
    intro idx crows brows Ns h1 h2
    simp only [List.zipIdx_nil, List.map_nil] at h1
    cases h1
    simp
  | cons q qs ih =>
    intro idx crows brows Ns h1 h2
    rw [List.zipIdx_cons, List.map_cons] at h1
    rcases h1 with _ | ⟨h1, h1'⟩
    cases h2 with
    | nil => simp
    | cons h2 h2' =>
      rw [List.zipIdx_cons, List.zip_cons_cons, List.zip_cons_cons, List.map_cons]
      exact .cons ⟨h1, h2⟩ (ih h1' h2')

/-- **`multi_scalar_multiply` is complete** when the random base point avoids the collisions. -/
theorem multiScalarMultiply_cmp (hf : EcFitsC k) (bv : F.V) (hb : CurveOk (l.val bv)) (rand : MsmRand F)
    {P : List (EcPt F)} {scalars : List (List (AV p))} {m wb : ℕ} (hm : 1 ≤ m) (hm' : m ≤ numBits p) (hwb : 1 ≤ wb) {n : ℕ} (hn1 : 1 ≤ n)
    (hn : ∀ s ∈ scalars, s.length = n) {qs : List (ECurve (l.val bv))} {Nss : List (List ℕ)} (hP : P.Forall₂ (EcW0 k (l.val bv) ext s) qs)
    (hne : P ≠ []) (hs : scalars.Forall₂ (NumsW m ext s) Nss) (hl : P.length = scalars.length)
    (htor : ∀ q ∈ qs, 2 • q = 0 → q = 0) {A : ECurve (l.val bv)} (hA : IsPt (l.val bv) (l.val rand.base.1) (l.val rand.base.2) A)
    (hok : MsmOk (l.val bv) (l.val rand.pair.1) A wb ((m * n + wb - 1) / wb) qs (Nss.map (Nat.ofDigits (2 ^ m)))) :
    Cmp tbl ext s (multiScalarMultiply F bv rand P scalars m wb) (fun r s' =>
      EcW0 k (l.val bv) ext s' r ((Nss.zip qs).map fun x => Nat.ofDigits (2 ^ m) x.1 • x.2).sum) := by
  classical
  have hlq : P.length = qs.length := hP.length_eq
  have hls : scalars.length = Nss.length := hs.length_eq
  have hp0 : 0 < P.length := List.length_pos_iff.2 hne
  have hs0 : scalars[0]? = some (scalars[0]'(by omega)) := List.getElem?_eq_getElem (by omega)
  have hs0n : (scalars[0]'(by omega)).length = n := hn _ (List.getElem_mem _)
  unfold multiScalarMultiply
  refine Cmp.assert (by simp [hl]) (Cmp.assert (by simpa using hne) (Cmp.unwrap hs0 (Cmp.assert (by rw [hs0n]; simp; omega)
    (Cmp.assert (by simpa using hm') (Cmp.assert (by simp; omega) ?_)))))
  rw [hs0n]
  set tot := m * n with htot
  set nw := (tot + wb - 1) / wb with hnw
  have htot1 : 1 ≤ tot := Nat.one_le_iff_ne_zero.2 (Nat.mul_ne_zero (by omega) (by omega))
  have hle : tot ≤ nw * wb := by
    have h := Nat.div_add_mod (tot + wb - 1) wb
    have h' := Nat.mod_lt (tot + wb - 1) (show 0 < wb by omega)
    rw [← hnw, mul_comm] at h
    omega
  refine Cmp.bind loadZero_cmp fun z s1 e1 hz => ?_
  refine Cmp.bind (msmBits_cmp hm hm' (nw * wb - tot) z scalars hz (hs.imp fun _ _ h => h.mono e1)) fun bits s2 e2 hbits => ?_
  refine Cmp.bind (loadPoint_cmp hf bv hA) fun base s3 e3 hbase => ?_
  refine Cmp.bind (doublings_cmp hf hb (P.length + wb - 1) hbase (by rw [hlq]; exact hok.dbl)) fun ds s4 e4 ⟨hdl, hds⟩ => ?_
  have e14 := ((e1.trans e2).trans e3).trans e4
  have hrl : (base :: ds).length = P.length + wb := by rw [List.length_cons, hdl]; omega
  refine Cmp.bind (cacheLoop_cmp hf hb (A := A) (wb := wb) P (rands := base :: ds) (idx := 0) hds (by omega)
    (hP.imp fun _ _ h => h.mono e14) htor hok.cache) fun cached s5 e5 hcache => ?_
  obtain ⟨crows, rfl, hcr⟩ := hcache
  obtain ⟨brows, rfl, hbl, hbr⟩ := hbits
  have hkget : (base :: ds)[P.length]? = some ((base :: ds)[P.length]'(by omega)) := List.getElem?_eq_getElem (by omega)
  refine Cmp.unwrap hkget ?_
  refine Cmp.unwrap (show (base :: ds)[0]? = some base from rfl) ?_
  have hrk := (hds _ _ hkget).mono e5
  have hr0 := (hds 0 base rfl).mono e5
  rw [pow_zero, one_smul] at hr0
  rw [show 2 ^ P.length • A = 2 ^ qs.length • A by rw [hlq]] at hrk
  refine Cmp.bind (ecSubUnequal_cmp hf (P := .nonStrict _) (Q := .nonStrict base) hrk hr0 hok.start1 hok.start2) fun start s6 e6 hst => ?_
  have e26 := ((e3.trans e4).trans e5).trans e6
  have hbr' : brows.Forall₂ (fun row N => BitsW ext s6 row (nw * wb) N) (Nss.map (Nat.ofDigits (2 ^ m))) := by
    have h1 : (scalars.zip brows).Forall₂ (fun sr N => BitsW ext s6 sr.2 (nw * wb) N) (Nss.map (Nat.ofDigits (2 ^ m))) := by
      refine forall₂_imp_mem hbr ?_
      intro sr hsr N h
      rw [hn sr.1 (List.of_mem_zip hsr).1, ← htot, Nat.add_sub_cancel' hle] at h
      exact h.mono e26
    rw [← List.forall₂_map_left_iff (f := Prod.snd) (R := fun row N => BitsW ext s6 row (nw * wb) N)] at h1
    rwa [List.map_snd_zip (by omega)] at h1
  have hch1 : chunksOf (2 ^ wb) crows.flatten = crows := by
    refine chunksOf_flatten Nat.one_le_two_pow _ (forall₂_of_mem_left (fun row Bq h => ?_) hcr)
    simpa using h.length_eq
  have hch2 : chunksOf (nw * wb) brows.flatten = brows :=
    chunksOf_flatten (by omega) _ (forall₂_of_mem_left (fun row N h => h.length) hbr')
  rw [hch1, hch2]
  have hlen2 : qs.length = (Nss.map (Nat.ofDigits (2 ^ m))).length := by rw [List.length_map]; omega
  have hrows := rows_zip (k := k) (b := l.val bv) (A := A) (wb := wb) (qs := qs) (idx := 0)
    (hcr.imp fun _ _ h => h.imp fun _ _ h => h.mono e6) hbr'
  have hN : ∀ d ∈ msmData A wb qs (Nss.map (Nat.ofDigits (2 ^ m))), d.2.2 / 2 ^ (wb * nw) = 0 := by
    intro d hd
    have := forall₂_of_mem_right (S := fun d : ECurve (l.val bv) × ECurve (l.val bv) × ℕ => d.2.2 / 2 ^ (wb * nw) = 0) (fun row d h => ?_) hrows d hd
    · exact this
    · obtain ⟨bs, _, h2, h3, h4⟩ := h.bits
      rw [← h4, Nat.div_eq_zero_iff]
      right
      have := Nat.ofDigits_lt_base_pow_length (b := 2) (by norm_num) h2
      rwa [h3, mul_comm] at this
  have hC : 2 ^ wb • (2 ^ qs.length • A - A) + ((msmData A wb qs (Nss.map (Nat.ofDigits (2 ^ m)))).map fun d => d.1).sum =
      2 ^ qs.length • A - A := by
    rw [msmData_fst A wb qs _ hlen2, sum_zipIdx, Nat.zero_add, pow_zero, one_smul]
    exact add_sub_cancel _ _
  have hacc : msmAcc wb nw (2 ^ qs.length • A - A) (msmData A wb qs (Nss.map (Nat.ofDigits (2 ^ m)))) = 2 ^ qs.length • A - A := by
    unfold msmAcc
    rw [List.sum_eq_zero, add_zero]
    intro x hx
    obtain ⟨d, hd, rfl⟩ := List.mem_map.1 hx
    rw [hN d hd, zero_smul]
  refine Cmp.bind (msmLoop_cmp hf hb hwb _ nw hC (len := nw * wb) (by rw [mul_comm]) hrows (by rw [hacc]; exact hst) hok.loopDbl hok.loopAdd)
    fun curr s7 e7 hc => ?_
  refine (ecSubStrict_cmp hf hc (hst.mono e7) hok.final (fun Y h => hok.pair ⟨Y, h⟩)).weaken fun r s' h => ?_
  have hsum : ((Nss.zip qs).map fun x => Nat.ofDigits (2 ^ m) x.1 • x.2) =
      (msmData A wb qs (Nss.map (Nat.ofDigits (2 ^ m)))).map fun d => d.2.2 • d.2.1 := by
    rw [msmData_sum, List.zip_map_left, List.map_map]
    rfl
  rw [hsum]
  unfold msmAcc at h
  rw [add_sub_cancel_left] at h
  simpa using h

end H2
