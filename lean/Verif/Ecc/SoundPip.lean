import Verif.Ecc.SoundFixed
import Verif.SafeTypes.Complete

/-!
# Soundness of `pippenger::multi_exp_par` and `EccChip::variable_base_msm`
-/

set_option autoImplicit false
set_option linter.unusedSectionVars false
namespace H2
variable {p : ℕ} [Fact p.Prime]
variable {F : FieldOps p} {K : Type} [Field K] [DecidableEq K] {tbl : ZMod p → Prop}

/-! ### Group sums -/

section grp
variable {G : Type} [AddCommGroup G]

/-- `Σ bᵢ • qᵢ`. -/
def dotG (bs : List ℕ) (qs : List G) : G := (List.zipWith (fun b q => b • q) bs qs).sum

theorem dotG_cons (b : ℕ) (bs : List ℕ) (q : G) (qs : List G) : dotG (b :: bs) (q :: qs) = b • q + dotG bs qs := by simp [dotG]

theorem dotG_nil (bs : List ℕ) : dotG bs ([] : List G) = 0 := by simp [dotG]

theorem dotG_append {as : List ℕ} {ps : List G} (h : as.length = ps.length) (bs : List ℕ) (qs : List G) :
    dotG (as ++ bs) (ps ++ qs) = dotG as ps + dotG bs qs := by
  unfold dotG
  rw [List.zipWith_append h, List.sum_append]

/-- `Σ 2ʲ • Gⱼ`. -/
def sumPow : List G → G
  | [] => 0
  | g :: gs => g + 2 • sumPow gs

theorem sumPow_map_add {α : Type} (l : List α) (f g : α → G) :
    sumPow (l.map fun x => f x + g x) = sumPow (l.map f) + sumPow (l.map g) := by
  induction l with
  | nil => simp [sumPow]
  | cons x l ih =>
    simp only [List.map_cons, sumPow, ih, smul_add]
    abel

theorem sumPow_const (B : G) (n : ℕ) : sumPow (List.replicate n B) = 2 ^ n • B - B := by
  induction n with
  | zero => simp [sumPow]
  | succ n ih =>
    rw [List.replicate_succ, sumPow, ih, pow_succ, mul_comm, mul_smul, smul_sub, two_nsmul B]
    abel

theorem sumPow_digits (q : G) (bs : List ℕ) : sumPow (bs.map fun b => b • q) = Nat.ofDigits 2 bs • q := by
  induction bs with
  | nil => simp [sumPow]
  | cons b bs ih => rw [List.map_cons, sumPow, ih, Nat.ofDigits_cons, add_smul, mul_smul]

theorem sumPow_zero (n : ℕ) : sumPow (List.replicate n (0 : G)) = 0 := by rw [sumPow_const]; simp

theorem map_getD_range (bs : List ℕ) : (List.range bs.length).map (fun j => bs.getD j 0) = bs := by
  apply List.ext_getElem
  · simp
  · intro i h1 h2
    simp [List.getD, h2]

theorem sumPow_cols (n : ℕ) (bss : List (List ℕ)) : ∀ (qs : List G), (∀ bs ∈ bss, bs.length = n) →
    sumPow ((List.range n).map fun j => dotG (bss.map fun bs => bs.getD j 0) qs) =
      dotG (bss.map fun bs => Nat.ofDigits 2 bs) qs := by
  induction bss with
  | nil =>
    intro qs _
    have : ((List.range n).map fun j => dotG (([] : List (List ℕ)).map fun bs => bs.getD j 0) qs) = List.replicate n 0 := by
      rw [List.eq_replicate_iff]
      exact ⟨by simp, by simp [dotG]⟩
    rw [this, sumPow_zero]
    simp [dotG]
  | cons bs bss ih =>
    intro qs h
    cases qs with
    | nil =>
      simp only [dotG_nil]
      have : ((List.range n).map fun _ => (0 : G)) = List.replicate n 0 := by simp
      rw [this, sumPow_zero]
    | cons q qs =>
      simp only [List.map_cons, dotG_cons]
      rw [sumPow_map_add, ih qs fun b hb => h b (List.mem_cons_of_mem _ hb)]
      congr 1
      rw [← sumPow_digits]
      conv_rhs => rw [← map_getD_range bs]
      rw [List.map_map, h bs List.mem_cons_self]
      rfl

/-- `2 • (... 2 • (2 • S + g₀) + g₁ ...)`. -/
def horner (S : G) (gs : List G) : G := gs.foldl (fun acc g => 2 • acc + g) S

theorem horner_reverse (S : G) (gs : List G) : horner S gs.reverse = sumPow (gs ++ [S]) := by
  unfold horner
  rw [List.foldl_reverse]
  induction gs with
  | nil => simp [sumPow]
  | cons g gs ih => rw [List.foldr_cons, ih, List.cons_append, sumPow, add_comm]

/-- The bucket after adding the points `qs` (all the subset sums). -/
def bucketG (gs : List G) : List G → List G
  | [] => gs
  | q :: qs => bucketG (gs ++ gs.map (· + q)) qs

theorem bucketG_get (qs : List G) : ∀ (gs : List G) (i : ℕ), gs.length = 2 ^ i → ∀ (bs : List ℕ), bs.length = qs.length →
    (∀ b ∈ bs, b < 2) → ∀ (a : ℕ) (g : G), gs[a]? = some g →
    (bucketG gs qs)[a + 2 ^ i * Nat.ofDigits 2 bs]? = some (g + dotG bs qs) := by
  induction qs with
  | nil =>
    intro gs i _ bs hb _ a g hg
    have : bs = [] := List.length_eq_zero_iff.1 hb
    subst this
    simpa [bucketG, dotG] using hg
  | cons q qs ih =>
    intro gs i hi bs hb hb2 a g hg
    cases bs with
    | nil => simp at hb
    | cons b bs =>
      have ha : a < 2 ^ i := by rw [← hi]; exact (List.getElem?_eq_some_iff.1 hg).1
      have hstep : (gs ++ gs.map (· + q))[a + 2 ^ i * b]? = some (g + b • q) := by
        have hb' := hb2 b List.mem_cons_self
        interval_cases b
        · rw [List.getElem?_append_left (by omega)]
          simpa using hg
        · rw [List.getElem?_append_right (by omega), hi]
          simp [hg]
      have := ih (gs ++ gs.map (· + q)) (i + 1) (by simp [hi, pow_succ]; omega) bs (by simpa using hb)
        (fun b hb => hb2 b (List.mem_cons_of_mem _ hb)) _ _ hstep
      rw [bucketG, Nat.ofDigits_cons, dotG_cons, ← add_assoc, ← this]
      congr 1
      rw [pow_succ]
      ring

theorem bucketG_single (A : G) (qs : List G) (bs : List ℕ) (hl : bs.length = qs.length) (hb : ∀ b ∈ bs, b < 2) :
    (bucketG [A] qs)[Nat.ofDigits 2 bs]? = some (A + dotG bs qs) := by
  have := bucketG_get qs [A] 0 rfl bs hl hb 0 A rfl
  simpa using this

/-- The sum over the clumps. -/
theorem clump_sum {c : ℕ} (hc : 1 ≤ c) (A : G) : ∀ (n : ℕ) (qs : List G), qs.length = n → ∀ (k : ℕ) (col : List ℕ),
    (col.drop (k * c)).length = qs.length →
    (((chunksOf c qs).zipIdx k).map fun x => 2 ^ x.2 • A + dotG ((col.drop (x.2 * c)).take x.1.length) x.1).sum =
      (2 ^ (k + (chunksOf c qs).length) • A - 2 ^ k • A) + dotG (col.drop (k * c)) qs := by
  intro n
  induction n using Nat.strong_induction_on with
  | _ n ih =>
    intro qs hn k col hcol
    by_cases h0 : qs = []
    · subst h0
      simp [chunksOf_nil, dotG_nil]
    · have hpos : 0 < qs.length := List.length_pos_of_ne_nil h0
      rw [chunksOf_cons hc h0, List.zipIdx_cons, List.map_cons, List.sum_cons, List.length_cons]
      have hd : col.drop ((k + 1) * c) = (col.drop (k * c)).drop c := by rw [List.drop_drop, Nat.succ_mul]
      rw [ih (qs.drop c).length (by rw [List.length_drop]; omega) _ rfl (k + 1) col (by
        rw [hd, List.length_drop, hcol, List.length_drop])]
      have e : dotG (col.drop (k * c)) qs =
          dotG ((col.drop (k * c)).take (qs.take c).length) (qs.take c) + dotG ((col.drop (k * c)).drop c) (qs.drop c) := by
        conv_lhs => rw [← List.take_append_drop c (col.drop (k * c)), ← List.take_append_drop c qs]
        rw [dotG_append (by rw [List.length_take, List.length_take, hcol])]
        congr 2
        rw [List.length_take]
        by_cases hle : c ≤ qs.length
        · rw [min_eq_left hle]
        · rw [min_eq_right (by omega), List.take_of_length_le (by omega), List.take_of_length_le (by omega)]
      rw [e, hd, show k + ((chunksOf c (qs.drop c)).length + 1) = k + 1 + (chunksOf c (qs.drop c)).length by ring]
      have e1 : (2 : ℕ) ^ (k + 1) • A = 2 ^ k • A + 2 ^ k • A := by rw [pow_succ, mul_smul, two_nsmul, smul_add]
      rw [e1]
      abel

end grp

/-! ### The bits of the scalars, by columns -/

theorem pushBits_get (bits : List (AV p)) : ∀ (rows : List (List (AV p))), bits.length = rows.length →
    (pushBits bits rows).length = rows.length ∧ ∀ (j : ℕ) row, (pushBits bits rows)[j]? = some row →
      ∃ bit row0, bits[j]? = some bit ∧ rows[j]? = some row0 ∧ row = row0 ++ [bit] := by
  induction bits with
  | nil =>
    intro rows h
    have : rows = [] := List.length_eq_zero_iff.1 h.symm
    subst this
    exact ⟨rfl, fun j row h => by simp [pushBits] at h⟩
  | cons bit bits ih =>
    intro rows h
    cases rows with
    | nil => simp at h
    | cons row0 rows =>
      obtain ⟨h1, h2⟩ := ih rows (by simpa using h)
      refine ⟨by simp [pushBits, h1], fun j row hj => ?_⟩
      cases j with
      | zero =>
        simp only [pushBits, List.getElem?_cons_zero, Option.some.injEq] at hj
        exact ⟨bit, row0, rfl, rfl, hj.symm⟩
      | succ j =>
        rw [pushBits, List.getElem?_cons_succ] at hj
        simpa using h2 j row hj

/-- The bits of one scalar are pushed to the columns. -/
theorem boolChunkLoop_sound {m : ℕ} (hm : 1 ≤ m) (as : List (AV p)) : ∀ rows : List (List (AV p)),
    Sound tbl (boolChunkLoop m as rows) (fun w r => rows.length = m * as.length → r.length = rows.length ∧ ∃ Ns bs, NumsRep m w as Ns ∧
      bs.length = m * as.length ∧ Nat.ofDigits 2 bs = Nat.ofDigits (2 ^ m) Ns ∧
      ∀ pre : ℕ → List ℕ, (∀ (j : ℕ) row, rows[j]? = some row → BitsRep w row (pre j)) →
        ∀ (j : ℕ) row, r[j]? = some row → BitsRep w row (pre j ++ [bs.getD j 0])) := by
  induction as with
  | nil =>
    intro rows s
    refine Snd.pure fun w _ hrows => ?_
    have : rows = [] := List.length_eq_zero_iff.1 (by simpa using hrows)
    subst this
    exact ⟨rfl, [], [], ⟨rfl, by simp⟩, rfl, by simp, fun pre _ j row h => by simp at h⟩
  | cons a as ih =>
    intro rows s
    unfold boolChunkLoop
    split
    · rename_i h0
      refine Snd.pure fun w _ hrows => ?_
      rw [h0, List.length_cons, Nat.mul_succ] at hrows
      omega
    refine Snd.bind (numToBits_sound a m s) fun bits s1 _ => Snd.bind (ih (rows.drop m) s1) fun rest s2 _ => Snd.pure ?_
    rintro w - hrest ⟨cs, c1, c2, c3, c4, c5⟩ hrows
    rw [List.length_cons] at hrows
    have hle : m ≤ rows.length := by rw [hrows, Nat.mul_succ]; omega
    obtain ⟨hl, Ns, bs, h1, h2, h3, h4⟩ := hrest (by rw [List.length_drop, hrows, Nat.mul_succ]; omega)
    have hlb : bits.length = m := by omega
    have hlc : cs.length = m := by
      have := congrArg List.length c2
      simp only [List.length_map] at this
      omega
    obtain ⟨p1, p2⟩ := pushBits_get bits (rows.take m) (by rw [List.length_take]; omega)
    rw [List.length_take, min_eq_left hle] at p1
    refine ⟨by rw [List.length_append, p1, hl, List.length_drop]; omega, Nat.ofDigits 2 cs :: Ns, cs ++ bs, ⟨?_, ?_⟩, ?_, ?_, ?_⟩
    · rw [List.map_cons, List.map_cons, h1.1, c5]
    · intro n hn
      rcases List.mem_cons.1 hn with rfl | hn
      · exact c4
      · exact h1.2 n hn
    · rw [List.length_append, h2, hlc, List.length_cons]
      ring
    · rw [Nat.ofDigits_append, hlc, h3, Nat.ofDigits_cons]
    · intro pre hpre j row hj
      by_cases hjm : j < m
      · rw [List.getElem?_append_left (by omega)] at hj
        obtain ⟨bit, row0, b1, b2, rfl⟩ := p2 j row hj
        rw [List.getElem?_take_of_lt hjm] at b2
        refine (hpre j row0 b2).append ?_
        have e : (cs ++ bs).getD j 0 = cs[j] := by
          rw [List.getD_append _ _ _ _ (by omega), List.getD_eq_getElem _ _ (by omega)]
        rw [e]
        refine ⟨?_, ?_⟩
        · have := congrArg (fun l : List (ZMod p) => l[j]?) c2
          simp only [List.getElem?_map, b1, Option.map_some] at this
          rw [List.getElem?_eq_getElem (by omega)] at this
          simpa using this
        · simpa using c1 _ (List.getElem_mem (by omega))
      · rw [List.getElem?_append_right (by omega), p1] at hj
        have := h4 (fun j => pre (m + j)) (fun j row h => hpre _ row (by rwa [List.getElem?_drop] at h)) (j - m) row hj
        rw [List.getD_append_right _ _ _ _ (by omega), hlc]
        rwa [show m + (j - m) = j by omega] at this

theorem boolLoop_sound {m : ℕ} (hm : 1 ≤ m) (n : ℕ) (scalars : List (List (AV p))) (hn : ∀ s ∈ scalars, s.length = n) :
    ∀ rows : List (List (AV p)),
    Sound tbl (boolLoop m scalars rows) (fun w r => rows.length = m * n → r.length = m * n ∧ ∃ (Nss bss : List (List ℕ)), scalars.Forall₂ (NumsRep m w) Nss ∧
      (∀ bs ∈ bss, bs.length = m * n) ∧ (bss.map fun bs => Nat.ofDigits 2 bs) = (Nss.map fun Ns => Nat.ofDigits (2 ^ m) Ns) ∧
      ∀ pre : ℕ → List ℕ, (∀ (j : ℕ) row, rows[j]? = some row → BitsRep w row (pre j)) →
        ∀ (j : ℕ) row, r[j]? = some row → BitsRep w row (pre j ++ bss.map fun bs => bs.getD j 0)) := by
  induction scalars with
  | nil =>
    intro rows s
    exact Snd.pure fun w _ hrows => ⟨hrows, [], [], .nil, by simp, rfl, fun pre h j row hj => by simpa using h j row hj⟩
  | cons sc scalars ih =>
    intro rows s
    have hsc := hn sc List.mem_cons_self
    refine Snd.bind (boolChunkLoop_sound hm sc rows s) fun rows1 s1 _ =>
      (ih (fun s hs => hn s (List.mem_cons_of_mem _ hs)) rows1 s1).weaken ?_
    intro w r _ q2 q1 hrows
    obtain ⟨l1, Ns, bs, a1, a2, a3, a4⟩ := q1 (by rw [hsc, hrows])
    obtain ⟨l2, Nss, bss, b1, b2, b3, b4⟩ := q2 (by rw [l1, hrows])
    refine ⟨l2, Ns :: Nss, bs :: bss, .cons a1 b1, List.forall_mem_cons.2 ⟨by rw [a2, hsc], b2⟩, ?_, ?_⟩
    · rw [List.map_cons, List.map_cons, a3, b3]
    · intro pre hpre j row hj
      have := b4 _ (a4 pre hpre) j row hj
      rwa [List.append_assoc, List.singleton_append] at this

/-! ### The buckets -/

variable (l : FieldLaws F K tbl) (b : K)

theorem InfRep.of {w : Cell → ZMod p} {isInf : AV p} {P : EcPt F} {q : ECurve b} {X Y : K} (hxy : CXYRep l w (.strict P) X Y)
    (i : IsPt0 b X Y q) (hinf : at' w isInf = if Y = 0 then 1 else 0) (htor : 2 • q = 0 → q = 0) : InfRep l b w isInf P q := by
  refine ⟨⟨X, Y, hxy, i⟩, ?_⟩
  rw [hinf]
  congr 1
  rw [eq_iff_iff]
  rcases i with i | ⟨rfl, rfl, rfl⟩
  · constructor
    · rintro rfl
      have h0 := i.neg
      rw [neg_zero] at h0
      have := i.unique h0
      refine htor ?_
      rw [two_nsmul]
      nth_rewrite 1 [this]
      exact neg_add_cancel q
    · exact fun h => absurd h i.ne_zero
  · simp

theorem bucketRow_sound (hf : EcFits l) (isInf : AV p) (point : EcPt F) (Bs : List (EcPt F)) :
    Sound tbl (bucketRow F isInf point Bs) (fun w r => ∀ (gs : List (ECurve b)) q, Bs.Forall₂ (fun P g => CmpRep l b w (.strict P) g) gs →
      InfRep l b w isInf point q → r.Forall₂ (fun P g => CmpRep l b w (.strict P) g) (gs.map (· + q))) := by
  induction Bs with
  | nil =>
    intro s
    refine Snd.pure fun w _ gs q h _ => ?_
    cases h
    exact .nil
  | cons B Bs ih =>
    intro s
    refine Snd.bind (ecAddUnequal_xy l hf _ _ true s) fun a s1 _ => Snd.bind (ecSelect_xy l _ _ _ s1) fun a' s2 _ =>
      Snd.bind (intoStrictPoint_xy l a' s2) fun a'' s3 _ => Snd.bind (ih s3) fun rest s4 _ => Snd.pure ?_
    intro w _ h4 h3 h2 h1 gs q hgs hq
    rcases hgs with _ | ⟨hg, hgs⟩
    rename_i g gs
    have key : CmpRep l b w (.strict a'') (g + q) := by
      obtain ⟨X1, Y1, hP, i1⟩ := hg
      obtain ⟨⟨X2, Y2, hQ, i2⟩, hinf⟩ := hq
      obtain ⟨hx, L, hL, hr⟩ := h1 _ _ _ _ hP hQ
      obtain ⟨e1, e0⟩ := h2 _ _ _ _ hP.xy hr
      by_cases hq0 : q = 0
      · rw [if_pos hq0] at hinf
        rw [hq0, add_zero]
        exact ⟨X1, Y1, h3 _ _ (e1 hinf), i1⟩
      · rw [if_neg hq0] at hinf
        have i2 := i2.resolve_right fun h => hq0 h.1
        exact ⟨_, _, h3 _ _ (e0 hinf), i1.add i2 (hx rfl) hL rfl rfl⟩
    exact .cons key (h4 gs q hgs hq)

theorem bucketLoop_sound (hf : EcFits l) (Ps : List (EcPt F)) : ∀ (i : ℕ) (bucket : List (EcPt F)),
    Sound tbl (bucketLoop F i bucket Ps) (fun w r => ∀ (gs qs : List (ECurve b)), gs.length = 2 ^ i →
      bucket.Forall₂ (fun P g => CmpRep l b w (.strict P) g) gs → Ps.Forall₂ (EcRep0 l b w) qs → (∀ q ∈ qs, 2 • q = 0 → q = 0) →
      r.Forall₂ (fun P g => CmpRep l b w (.strict P) g) (bucketG gs qs)) := by
  induction Ps with
  | nil =>
    intro i bucket s
    refine Snd.pure fun w _ gs qs _ h hq _ => ?_
    cases hq
    exact h
  | cons P Ps ih =>
    intro i bucket s
    refine Snd.bind (l.isZero _ s) fun inf s1 _ => Snd.bind (intoStrictPoint_xy l P s1) fun pt s2 _ =>
      Snd.bind (bucketRow_sound l b hf inf pt _ s2) fun row s3 _ => (ih (i + 1) _ s3).weaken ?_
    intro w r _ h4 h3 h2 h1 gs qs hl hgs hqs htor
    rcases hqs with _ | ⟨hq, hqs⟩
    rename_i q qs
    obtain ⟨X, Y, hXY, hi⟩ := hq
    have hinf := InfRep.of l b (h2 _ _ hXY) hi (h1 _ hXY.2) (htor q List.mem_cons_self)
    have hrow := h3 gs q (by rw [List.take_of_length_le (by rw [hgs.length_eq, hl])]; exact hgs) hinf
    exact h4 (gs ++ gs.map (· + q)) qs (by simp [hl, pow_succ]; omega) (List.rel_append hgs hrow) hqs
      fun q' hq' => htor q' (List.mem_cons_of_mem _ hq')

theorem pipSelect_sound (lo n : ℕ) (bucket : List (EcPt F)) (rows : List (List (AV p))) :
    Sound tbl (pipSelect F lo (lo + n) bucket rows) (fun w r => ∀ (A : ECurve b) (qs : List (ECurve b)), qs.length = n →
      bucket.Forall₂ (fun P g => CmpRep l b w (.strict P) g) (bucketG [A] qs) → ∀ cols, rows.Forall₂ (BitsRep w) cols →
      r.Forall₂ (fun P g => CmpRep l b w (.strict P) g) (cols.map fun col => A + dotG ((col.drop lo).take n) qs)) := by
  induction rows with
  | nil =>
    intro s
    refine Snd.pure fun w _ A qs _ _ cols h => ?_
    cases h
    exact .nil
  | cons row rows ih =>
    intro s
    refine Snd.bind (Q := fun _ sel _ => sel = (row.drop lo).take n ∧ lo + n ≤ row.length) ?_ fun sel s1 _ =>
      Snd.bind (ecSelectFromBits_strict l b bucket sel s1) fun P s2 _ => Snd.bind (ih s2) fun Ps s3 _ => Snd.pure ?_
    · unfold sliceM
      split
      · rename_i h
        exact Snd.pure fun w _ => ⟨by congr 1; omega, h.2⟩
      · exact Snd.panic
    rintro w - h3 h2 ⟨rfl, hle⟩ A qs hl hb cols hc
    rcases hc with _ | ⟨hr, hc⟩
    rename_i col cols
    refine .cons ?_ (h3 A qs hl hb cols hc)
    have hs := hr.slice lo n
    refine h2 _ hb _ hs _ (bucketG_single A qs _ ?_ hs.2)
    rw [← hs.length, List.length_take, List.length_drop, hl]
    omega

theorem pipTask_sound (hf : EcFits l) (c : ℕ) (bools : List (List (AV p))) (x : (List (EcPt F) × EcPt F) × ℕ) :
    Sound tbl (pipTask F c bools x) (fun w r => ∀ (A : ECurve b) (qs : List (ECurve b)), EcRep l b w x.1.2 A →
      x.1.1.Forall₂ (EcRep0 l b w) qs → (∀ q ∈ qs, 2 • q = 0 → q = 0) → ∀ cols, bools.Forall₂ (BitsRep w) cols →
      r.Forall₂ (fun P g => CmpRep l b w (.strict P) g) (cols.map fun col => A + dotG ((col.drop (x.2 * c)).take qs.length) qs)) := by
  intro s
  refine Snd.bind (intoStrictPoint_sound l b _ s) fun any s1 _ => Snd.bind (bucketLoop_sound l b hf x.1.1 0 [any] s1) fun bucket s2 _ =>
    (pipSelect_sound l b _ _ bucket bools s2).weaken ?_
  intro w r _ h3 h2 h1 A qs hA hqs htor cols hc
  rw [hqs.length_eq] at h3
  exact h3 A qs rfl (h2 [A] qs rfl (.cons (h1 A hA) .nil) hqs htor) cols hc

/-! ### Aggregation -/

theorem pipAggLoop_sound (hf : EcFits l) (i : ℕ) (mps : List (List (EcPt F))) : ∀ acc,
    Sound tbl (pipAggLoop F i acc mps) (fun w r => ∀ (g : ECurve b) gs, CmpRep l b w (.strict acc) g →
      mps.Forall₂ (fun mp g => ∀ P, mp[i]? = some P → CmpRep l b w (.strict P) g) gs → CmpRep l b w (.strict r) (g + gs.sum)) := by
  induction mps with
  | nil =>
    intro acc s
    refine Snd.pure fun w _ g gs hg h => ?_
    cases h
    simpa using hg
  | cons mp mps ih =>
    intro acc s
    refine Snd.unwrap fun P hP => Snd.bind (ecAddUnequal_sound l b hf _ _ true s) fun a s1 _ =>
      Snd.bind (intoStrictPoint_sound l b a s1) fun a' s2 _ => (ih a' s2).weaken ?_
    intro w r _ h3 h2 h1 g gs hg h
    rcases h with _ | ⟨hh, h⟩
    rename_i g' gs
    obtain ⟨c1, c2⟩ := h1 _ _ hg (hh P hP)
    obtain ⟨n1, n2⟩ := c1 rfl
    have := h3 _ gs (h2 _ (c2 n1 n2)) h
    rwa [List.sum_cons, ← add_assoc]

theorem pipAgg_sound (hf : EcFits l) (mps : List (List (EcPt F))) (i : ℕ) :
    Sound tbl (pipAgg F mps i) (fun w r => ∀ gs : List (ECurve b),
      mps.Forall₂ (fun mp g => ∀ P, mp[i]? = some P → CmpRep l b w (.strict P) g) gs → CmpRep l b w (.strict r) gs.sum) := by
  intro s
  refine Snd.unwrap fun m0 hm0 => Snd.unwrap fun acc hacc => (pipAggLoop_sound l b hf i mps.tail acc s).weaken ?_
  intro w r _ h gs hgs
  cases hgs with
  | nil => simp at hm0
  | cons h1 h2 =>
    rw [List.sum_cons]
    simp only [List.getElem?_cons_zero, Option.some.injEq] at hm0
    subst hm0
    exact h _ _ (h1 acc hacc) h2

theorem pipSumLoop_sound (hf : EcFits l) (hb : CurveOk b) (agg : List (EcPt F)) : ∀ (sum : CmpPt F) (any : EcPt F),
    Sound tbl (pipSumLoop F sum any agg) (fun w r => ∀ (S T : ECurve b) gs, EcRep l b w sum.pt S → EcRep l b w any T →
      agg.Forall₂ (fun P g => CmpRep l b w (.strict P) g) gs →
      EcRep l b w r.1 (horner S gs) ∧ EcRep l b w r.2 (2 ^ agg.length • T)) := by
  induction agg with
  | nil =>
    intro sum any s
    refine Snd.pure fun w _ S T gs hS hT h => ?_
    cases h
    exact ⟨hS, by simpa using hT⟩
  | cons P agg ih =>
    intro sum any s
    refine Snd.bind (ecDouble_sound l b hf hb _ s) fun any' s1 _ => Snd.bind (ecDouble_sound l b hf hb _ s1) fun d s2 _ =>
      Snd.bind (ecAddUnequal_sound l b hf _ _ true s2) fun sum' s3 _ => (ih (.nonStrict sum') any' s3).weaken ?_
    intro w r _ h4 h3 h2 h1 S T gs hS hT hg
    rcases hg with _ | ⟨hP, hg⟩
    rename_i g gs
    obtain ⟨c1, c2⟩ := h3 _ _ (h2 _ hS).cmp hP
    obtain ⟨n1, n2⟩ := c1 rfl
    obtain ⟨a1, a2⟩ := h4 _ _ gs (c2 n1 n2) (h1 _ hT) hg
    refine ⟨a1, ?_⟩
    rwa [← mul_smul, ← pow_succ] at a2

theorem pipEnd_sound (hf : EcFits l) (hb : CurveOk b) (pair : F.V × F.V) (anys agg : List (EcPt F)) :
    Sound tbl (pipEnd F pair anys agg) (fun w r => ∀ (A : ECurve b) gs, (∀ (i : ℕ) Q, anys[i]? = some Q → EcRep l b w Q (2 ^ i • A)) →
      agg.Forall₂ (fun P g => CmpRep l b w (.strict P) g) gs →
      EcRep0 l b w r (sumPow gs - (2 ^ agg.length • (2 ^ anys.length • A - A) - (2 ^ anys.length • A - A)))) := by
  intro s
  refine Snd.unwrap fun lst hlst => Snd.unwrap fun a0 ha0 => Snd.bind (ecDouble_sound l b hf hb lst s) fun d s1 _ =>
    Snd.bind (ecSubUnequal_sound l b hf _ _ true s1) fun any s2 _ => Snd.unwrap fun top htop =>
    Snd.bind (pipSumLoop_sound l b hf hb _ (.strict top) any s2) fun r s3 _ => Snd.bind (ecDouble_sound l b hf hb _ s3) fun as s4 _ =>
    Snd.bind (ecSubUnequal_sound l b hf _ _ true s4) fun as' s5 _ => (ecSubStrict_sound l b hf pair _ _ s5).weaken ?_
  intro w res _ h6 h5 h4 h3 h2 h1 A gs hanys hagg
  have hne : 1 ≤ anys.length := by
    have := (List.getElem?_eq_some_iff.1 ha0).1
    omega
  rw [List.getLast?_eq_getElem?] at hlst
  obtain ⟨c1, c2⟩ := h2 _ _ (h1 _ (hanys _ _ hlst)).cmp (hanys _ _ ha0).cmp
  obtain ⟨n1, n2⟩ := c1 rfl
  have hB := c2 n1 n2
  rw [← mul_smul, ← pow_succ', Nat.sub_add_cancel hne, pow_zero, one_smul] at hB
  obtain ⟨init, hinit⟩ := List.getLast?_eq_some_iff.1 htop
  subst hinit
  rw [List.dropLast_concat] at h3
  obtain ⟨gi, gt, e, hgi, hgt⟩ : ∃ gi gt, gs = gi ++ [gt] ∧ init.Forall₂ (fun P g => CmpRep l b w (.strict P) g) gi ∧
      CmpRep l b w (.strict top) gt := by
    have h := List.forall₂_reverse_iff.2 hagg
    rw [List.reverse_append, List.reverse_singleton, List.singleton_append, List.forall₂_cons_left_iff] at h
    obtain ⟨gt, gi, h1, h2, h3⟩ := h
    refine ⟨gi.reverse, gt, ?_, ?_, h1⟩
    · rw [← List.reverse_reverse gs, h3, List.reverse_cons]
    · rw [← List.reverse_reverse init]
      exact List.forall₂_reverse_iff.2 h2
  subst e
  obtain ⟨s1', s2'⟩ := h3 _ _ _ hgt.ec hB (List.forall₂_reverse_iff.2 hgi)
  rw [horner_reverse] at s1'
  rw [List.length_reverse] at s2'
  have hd := h4 _ s2'
  rw [← mul_smul, ← pow_succ'] at hd
  obtain ⟨d1, d2⟩ := h5 _ _ hd.cmp hB.cmp
  obtain ⟨n3, n4⟩ := d1 rfl
  have := (h6 _ _ s1' (d2 n3 n4)).1
  rwa [List.length_append, List.length_singleton]


theorem pipStart_sound (hf : EcFits l) (bv : F.V) (hb : CurveOk (l.val bv)) (base : F.V × F.V) (scalars : List (List (AV p)))
    {m n R : ℕ} (hn : ∀ s ∈ scalars, s.length = n) (hR : 1 ≤ R) :
    Sound tbl (pipStart F bv base scalars (m * n) m R) (fun w r => r.1.length = m * n ∧ r.2.length = R ∧
      (∃ A : ECurve (l.val bv), ∀ (i : ℕ) Q, r.2[i]? = some Q → EcRep l (l.val bv) w Q (2 ^ i • A)) ∧
      ∃ (Nss bss : List (List ℕ)), scalars.Forall₂ (NumsRep m w) Nss ∧
      (∀ bs ∈ bss, bs.length = m * n) ∧ (bss.map fun bs => Nat.ofDigits 2 bs) = (Nss.map fun Ns => Nat.ofDigits (2 ^ m) Ns) ∧
      ∀ (j : ℕ) row, r.1[j]? = some row → BitsRep w row (bss.map fun bs => bs.getD j 0)) := by
  intro s
  refine Snd.assert fun h0 => ?_
  have hm : 1 ≤ m := by
    simp only [bne_iff_ne, ne_eq] at h0
    omega
  refine Snd.bind (boolLoop_sound hm n scalars hn _ s) fun bools s1 _ => Snd.bind (loadPoint_sound l hf bv hb base s1) fun any s2 _ =>
    Snd.bind (doublings_sound l _ hf hb (R - 1) any s2) fun ds s3 _ => Snd.pure ?_
  rintro w - ⟨hl, hds⟩ ⟨A, hA⟩ hbool
  obtain ⟨hl', Nss, bss, b1, b2, b3, b4⟩ := hbool (by simp)
  refine ⟨hl', ?_, ⟨A, fun i Q hQ => hds A hA i Q hQ⟩, Nss, bss, b1, b2, b3, fun j row hj => ?_⟩
  · show (any :: ds).length = R
    rw [List.length_cons, hl]
    omega
  · have := b4 (fun _ => []) (fun j row h => by
      rw [List.getElem?_replicate] at h
      split at h
      · obtain rfl : [] = row := by simpa using h
        exact ⟨rfl, by simp⟩
      · cases h) j row hj
    simpa using this

theorem forall₂_of_getElem? {α β : Type} {R : α → β → Prop} : ∀ {as : List α} {bs : List β}, as.length = bs.length →
    (∀ (i : ℕ) a b, as[i]? = some a → bs[i]? = some b → R a b) → as.Forall₂ R bs
  | [], [], _, _ => .nil
  | [], _ :: _, h, _ => by simp at h
  | _ :: _, [], h, _ => by simp at h
  | a :: as, b :: bs, h, k => .cons (k 0 a b rfl rfl)
      (forall₂_of_getElem? (by simpa using h) fun i a' b' ha hb => k (i + 1) a' b' (by simpa using ha) (by simpa using hb))

theorem forall₂_getElem? {α β : Type} {R : α → β → Prop} {as : List α} {bs : List β} (h : as.Forall₂ R bs) :
    ∀ (i : ℕ) a b, as[i]? = some a → bs[i]? = some b → R a b := by
  induction h with
  | nil => intro i a b h; simp at h
  | cons h _ ih =>
    intro i a b ha hb
    cases i with
    | zero =>
      simp only [List.getElem?_cons_zero, Option.some.injEq] at ha hb
      subst ha hb
      exact h
    | succ i => exact ih i a b (by simpa using ha) (by simpa using hb)

theorem dotG_eq_zip {G : Type} [AddCommGroup G] (Nss : List (List ℕ)) (B : ℕ) (qs : List G) :
    dotG (Nss.map fun Ns => Nat.ofDigits B Ns) qs = ((Nss.zip qs).map fun x => Nat.ofDigits B x.1 • x.2).sum := by
  unfold dotG
  congr 1
  induction Nss generalizing qs with
  | nil => simp
  | cons N Nss ih =>
    cases qs with
    | nil => simp
    | cons q qs => simp [ih]

/-- **`pippenger::multi_exp_par`**. -/
theorem multiExpPar_sound (hf : EcFits l) (bv : F.V) (hb : CurveOk (l.val bv)) (rand : MsmRand F)
    (P : List (EcPt F)) (scalars : List (List (AV p))) (m c : ℕ) (n : ℕ) (hn : ∀ s ∈ scalars, s.length = n) :
    PSound tbl (multiExpPar F bv rand P scalars m c) (fun w r => ∀ qs : List (ECurve (l.val bv)),
      P.Forall₂ (EcRep0 l (l.val bv) w) qs → (∀ q ∈ qs, 2 • q = 0 → q = 0) →
      ∃ Nss : List (List ℕ), scalars.Forall₂ (NumsRep m w) Nss ∧
        EcRep0 l (l.val bv) w r ((Nss.zip qs).map fun x => Nat.ofDigits (2 ^ m) x.1 • x.2).sum) := by
  unfold multiExpPar
  refine PSound.assert fun h1 => PSound.unwrap fun s0 hs0 => PSound.assert fun h2 => ?_
  simp only [bne_iff_ne, ne_eq, beq_iff_eq] at h1 h2
  have hs0n : s0.length = n := hn s0 (List.mem_of_getElem? hs0)
  rw [hs0n]
  have hpos : 1 ≤ P.length := by
    have := (List.getElem?_eq_some_iff.1 hs0).1
    omega
  have hc : 1 ≤ c := by omega
  have hR : 1 ≤ (P.length + c - 1) / c := Nat.div_pos (by omega) (by omega)
  refine PSound.bind (onMain_sound (pipStart_sound l hf bv hb rand.base scalars (m := m) hn hR)) fun st =>
    PSound.bind (parallelize_sound (Q := fun x w r => ∀ (A : ECurve (l.val bv)) (qs : List (ECurve (l.val bv))), EcRep l (l.val bv) w x.1.2 A →
      x.1.1.Forall₂ (EcRep0 l (l.val bv) w) qs → (∀ q ∈ qs, 2 • q = 0 → q = 0) → ∀ cols, st.1.Forall₂ (BitsRep w) cols →
      r.Forall₂ (fun P g => CmpRep l (l.val bv) w (.strict P) g)
        (cols.map fun col => A + dotG ((col.drop (x.2 * c)).take qs.length) qs)) _
      fun x _ => pipTask_sound l (l.val bv) hf c st.1 x) fun mps =>
    PSound.bind (parallelize_sound (Q := fun i w r => ∀ gs : List (ECurve (l.val bv)),
      mps.Forall₂ (fun mp g => ∀ P, mp[i]? = some P → CmpRep l (l.val bv) w (.strict P) g) gs →
      CmpRep l (l.val bv) w (.strict r) gs.sum) _ fun i _ => pipAgg_sound l (l.val bv) hf mps i) fun agg => ?_
  refine PSound.weaken (onMain_sound (pipEnd_sound l (l.val bv) hf hb rand.pair st.2 agg)) ?_
  rintro w r hend hagg hmps ⟨hl1, hl2, ⟨A, hA⟩, Nss, bss, b1, b2, b3, b4⟩ qs hqs htor
  refine ⟨Nss, b1, ?_⟩
  have hlq : P.length = qs.length := hqs.length_eq
  have hlb : bss.length = qs.length := by
    have := congrArg List.length b3
    rw [List.length_map, List.length_map] at this
    rw [this, ← b1.length_eq, ← h1, hlq]
  -- the columns
  set cols : List (List ℕ) := (List.range (m * n)).map fun j => bss.map fun bs => bs.getD j 0 with hcols
  have hbools : st.1.Forall₂ (BitsRep w) cols := by
    refine forall₂_of_getElem? (by simp [hcols, hl1]) fun i row col hr hcol => ?_
    have hlt : i < m * n := by
      have := (List.getElem?_eq_some_iff.1 hr).1
      omega
    simp only [hcols, List.getElem?_map, List.getElem?_range hlt, Option.map_some, Option.some.injEq] at hcol
    rw [← hcol]
    exact b4 i row hr
  -- the clumps
  have hchunks := chunksOf_forall₂ c hqs
  have hlch : (chunksOf c qs).length = st.2.length := by
    rw [hl2, (chunksOf_spec hc qs).2.2, hlq]
    rfl
  have hmpsl : mps.length = st.2.length := by
    rw [← hmps.length_eq, List.length_zipIdx, List.length_zip, hchunks.length_eq, hlch, min_self]
  have hcol : ∀ j < m * n, mps.Forall₂ (fun mp g => ∀ P, mp[j]? = some P → CmpRep l (l.val bv) w (.strict P) g)
      (((chunksOf c qs).zipIdx 0).map fun x => 2 ^ x.2 • A +
        dotG (((bss.map fun bs => bs.getD j 0).drop (x.2 * c)).take x.1.length) x.1) := by
    intro j hj
    refine forall₂_of_getElem? (by simp [hmpsl, hlch]) fun i mp g hmp hg T hT => ?_
    have hi : i < st.2.length := by
      have := (List.getElem?_eq_some_iff.1 hmp).1
      omega
    have hi1 : i < (chunksOf c P).length := by rw [hchunks.length_eq]; omega
    have hi2 : i < (chunksOf c qs).length := by omega
    have hx : (((chunksOf c P).zip st.2).zipIdx)[i]? = some (((chunksOf c P)[i], st.2[i]), i) := by
      rw [List.getElem?_zipIdx, List.getElem?_eq_getElem (by rw [List.length_zip]; omega), List.getElem_zip]
      simp
    have ht := forall₂_getElem? hmps i _ mp hx hmp (2 ^ i • A) (chunksOf c qs)[i]
      (hA i _ (List.getElem?_eq_getElem hi))
      (forall₂_getElem? hchunks i _ _ (List.getElem?_eq_getElem hi1) (List.getElem?_eq_getElem hi2))
      (fun q hq => htor q (by
        have : q ∈ (chunksOf c qs).flatten := List.mem_flatten.2 ⟨_, List.getElem_mem hi2, hq⟩
        rwa [(chunksOf_spec hc qs).2.1] at this)) cols hbools
    rw [List.getElem?_map, List.getElem?_zipIdx, List.getElem?_eq_getElem hi2] at hg
    simp only [Option.map_some, Option.some.injEq, Nat.zero_add] at hg
    rw [← hg]
    refine forall₂_getElem? ht j T _ hT ?_
    rw [hcols, List.map_map, List.getElem?_map, List.getElem?_range hj]
    rfl
  have haggl : agg.length = m * n := by rw [← hagg.length_eq, List.length_range]
  set B := 2 ^ st.2.length • A - A with hB
  have haggs : agg.Forall₂ (fun P g => CmpRep l (l.val bv) w (.strict P) g)
      ((List.range (m * n)).map fun j => B + dotG (bss.map fun bs => bs.getD j 0) qs) := by
    refine forall₂_of_getElem? (by simp [haggl]) fun j T g hT hg => ?_
    have hj : j < m * n := by
      have := (List.getElem?_eq_some_iff.1 hT).1
      omega
    rw [List.getElem?_map, List.getElem?_range hj, Option.map_some, Option.some.injEq] at hg
    have := forall₂_getElem? hagg j j T (List.getElem?_range hj) hT _ (hcol j hj)
    rw [clump_sum hc A _ qs rfl 0 _ (by rw [Nat.zero_mul, List.drop_zero, List.length_map, hlb]), Nat.zero_mul, List.drop_zero,
      Nat.zero_add, hlch, pow_zero, one_smul, ← hB, hg] at this
    exact this
  have := hend A _ hA haggs
  rw [sumPow_map_add, sumPow_cols _ _ _ b2, b3, haggl, List.map_const', List.length_range, sumPow_const, add_sub_cancel_left, dotG_eq_zip] at this
  exact this

/-- **`EccChip::variable_base_msm`**, whichever algorithm the number of points selects. -/
theorem variableBaseMsm_sound (hf : EcFits l) (bv : F.V) (hb : CurveOk (l.val bv)) (rand : MsmRand F)
    (P : List (EcPt F)) (scalars : List (List (AV p))) (m wb : ℕ) (hm : 1 ≤ m) (n : ℕ) (hn : ∀ s ∈ scalars, s.length = n) :
    PSound tbl (variableBaseMsm F bv rand P scalars m wb) (fun w r => ∀ qs : List (ECurve (l.val bv)),
      P.Forall₂ (EcRep0 l (l.val bv) w) qs → (∀ q ∈ qs, 2 • q = 0 → q = 0) →
      ∃ Nss : List (List ℕ), scalars.Forall₂ (NumsRep m w) Nss ∧
        EcRep0 l (l.val bv) w r ((Nss.zip qs).map fun x => Nat.ofDigits (2 ^ m) x.1 • x.2).sum) := by
  unfold variableBaseMsm
  split
  · exact onMain_sound (multiScalarMultiply_sound l hf bv hb rand P scalars m wb hm n hn)
  · exact multiExpPar_sound l hf bv hb rand P scalars m wb n hn

end H2
