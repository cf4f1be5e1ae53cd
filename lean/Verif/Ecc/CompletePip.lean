import Verif.Ecc.CompleteFixed
import Verif.Ecc.SoundPip
import Verif.Threads.PoolCmp

/-!
# Completeness of the pieces of `fixed_base::msm_par` and of `pippenger::multi_exp_par` that run in one context
-/

set_option autoImplicit false
set_option linter.unusedSectionVars false
namespace H2
variable {p : ℕ} [Fact p.Prime]
variable {F : FieldOps p} {K : Type} [Field K] [DecidableEq K] {tbl : ZMod p → Prop} {l : FieldLaws F K tbl}
variable {k : FieldCmp l} [SelIndCmp k] {b : K} {ext : Cell → ZMod p} {s s' : Ctx p}

/-! ### `fixed_base::msm_par` -/

theorem fbTask_cmp (hf : EcFitsC k) {C : NativeCurve F} {φ : C.G → ECurve b} (hC : NativeLaws l b C φ) {m wb : ℕ} (hm : 1 ≤ m)
    (hm' : m ≤ numBits p) (hwb0 : 1 ≤ wb) (hwb : wb < p) {point : C.G} (hs : FbSafe wb (φ point)) {scalar : List (AV p)} {n : ℕ}
    (hn : scalar.length = n) {Ns : List ℕ} (hN : NumsW m ext s scalar Ns) {any : EcPt F} {A : ECurve b} (hA : EcW k b ext s any A)
    (hok : FbAddOk A (fbData wb ((m * n + wb - 1) / wb) (φ point) (Nat.ofDigits (2 ^ m) Ns)).reverse) :
    Cmp tbl ext s (fbTask F any n m wb ((fbCache C wb (m * n) point 0 ((m * n + wb - 1) / wb)).map C.coords, scalar))
      (fun r s' => EcW k b ext s' r (A + Nat.ofDigits (2 ^ m) Ns • φ point)) := by
  subst hn
  refine Cmp.bind (fbLoad_cmp (k := k) hC _ (fbCache_ne hC (by omega) hs _)) fun cached s1 e1 h1 => ?_
  refine Cmp.assert (by simp) ?_
  refine Cmp.bind (chunkBits_cmp hm hm' scalar (hN.mono e1)) fun bits s2 e2 h2 => ?_
  exact fbWindows_cmp hf hC (by omega) hwb (hA.mono (e1.trans e2)) h2 (h1.imp fun _ _ h => h.mono e2) hok

/-- No addition of the accumulation of `msm_par` meets equal or opposite points. -/
def FbAccOk {G : Type} [AddCommGroup G] (A : G) : G → List G → Prop
  | _, [] => True
  | g, d :: ds => g ≠ A + d ∧ g ≠ -(A + d) ∧ g + (A + d) ≠ A ∧ g + (A + d) ≠ -A ∧ FbAccOk A (g + d) ds

theorem fbAccLoop_cmp (hf : EcFitsC k) {any : EcPt F} {A : ECurve b} (mults : List (EcPt F)) : ∀ {s : Ctx p} {acc : EcPt F} {g : ECurve b}
    {ds : List (ECurve b)}, EcW k b ext s any A → EcW k b ext s acc g → mults.Forall₂ (fun P d => EcW k b ext s P (A + d)) ds →
    FbAccOk A g ds → Cmp tbl ext s (fbAccLoop F any acc mults) (fun r s' => EcW k b ext s' r (g + ds.sum)) := by
  induction mults with
  | nil =>
    intro s acc g ds _ hg hd _
    cases hd
    exact Cmp.pure (by simpa using hg)
  | cons P Ps ih =>
    intro s acc g ds hA hg hd ho
    rcases hd with _ | ⟨hP, hd⟩
    rename_i d ds
    obtain ⟨n1, n2, n3, n4, ho⟩ := ho
    refine Cmp.bind (ecAddUnequal_cmp hf (P := .nonStrict acc) (Q := .nonStrict P) hg hP n1 n2) fun a s1 e1 h1 => ?_
    refine Cmp.bind (ecSubUnequal_cmp hf (P := .nonStrict a) (Q := .nonStrict any) h1 (hA.mono e1) n3 n4) fun acc' s2 e2 h2 => ?_
    rw [show g + (A + d) - A = g + d by abel] at h2
    have e12 := e1.trans e2
    refine (ih (hA.mono e12) h2 (hd.imp fun _ _ h => h.mono e12) ho).weaken fun r s' h => ?_
    rwa [List.sum_cons, ← add_assoc]

theorem fbEnd_cmp (hf : EcFitsC k) (bv : F.V) {base2 pair : F.V × F.V} {any : EcPt F} {A A2 : ECurve (l.val bv)}
    (hA : EcW k (l.val bv) ext s any A) (hA2 : IsPt (l.val bv) (l.val base2.1) (l.val base2.2) A2) {mults : List (EcPt F)}
    {ds : List (ECurve (l.val bv))} (hm : mults.Forall₂ (fun P d => EcW k (l.val bv) ext s P (A + d)) ds) (hok : FbAccOk A A2 ds)
    (hfin : A2 + ds.sum = -A2 → A2 + ds.sum = A2) (hp : ¬ HasX (l.val bv) (l.val pair.1) A2) :
    Cmp tbl ext s (fbEnd F bv base2 pair any mults) (fun r s' => EcW0 k (l.val bv) ext s' r ds.sum) := by
  refine Cmp.bind (loadPoint_cmp hf bv hA2) fun any2 s1 e1 h1 => ?_
  refine Cmp.bind (fbAccLoop_cmp hf mults (hA.mono e1) h1 (hm.imp fun _ _ h => h.mono e1) hok) fun acc s2 e2 h2 => ?_
  refine (ecSubStrict_cmp hf h2 (h1.mono e2) hfin fun Y h => hp ⟨Y, h⟩).weaken fun r s' h => ?_
  rwa [add_sub_cancel_left] at h

/-! ### Pippenger -/

/-- The cells of the row hold these bits. -/
def BitsL (ext : Cell → ZMod p) (s : Ctx p) (row : List (AV p)) (bs : List ℕ) : Prop :=
  AvsCon ext s row (bs.map fun n : ℕ => (n : ZMod p)) ∧ ∀ x ∈ bs, x < 2

theorem BitsL.mono {row : List (AV p)} {bs : List ℕ} (h : BitsL ext s row bs) (e : Ext s s') : BitsL ext s' row bs := ⟨h.1.mono e, h.2⟩

theorem BitsL.length {row : List (AV p)} {bs : List ℕ} (h : BitsL ext s row bs) : row.length = bs.length := by
  have := List.Forall₂.length_eq h.1
  simpa using this

theorem BitsL.snoc {row : List (AV p)} {bs : List ℕ} {a : AV p} {x : ℕ} (h : BitsL ext s row bs) (ha : Con ext s a (x : ZMod p)) (hx : x < 2) :
    BitsL ext s (row ++ [a]) (bs ++ [x]) := by
  refine ⟨?_, ?_⟩
  · rw [List.map_append]
    exact List.rel_append h.1 (.cons ha .nil)
  · intro y hy
    rcases List.mem_append.1 hy with hy | hy
    · exact h.2 y hy
    · rw [List.mem_singleton.1 hy]; exact hx

theorem BitsL.slice {row : List (AV p)} {bs : List ℕ} (h : BitsL ext s row bs) (lo n : ℕ) (hl : lo + n ≤ bs.length) :
    BitsW ext s ((row.drop lo).take n) n (Nat.ofDigits 2 ((bs.drop lo).take n)) := by
  refine ⟨(bs.drop lo).take n, ?_, fun x hx => h.2 x (List.mem_of_mem_drop (List.mem_of_mem_take hx)), ?_, rfl⟩
  · rw [List.map_take, List.map_drop]
    exact List.forall₂_take _ (List.forall₂_drop _ h.1)
  · rw [List.length_take, List.length_drop]; omega

theorem BitsW.get {as : List (AV p)} {len N : ℕ} (h : BitsW ext s as len N) {j : ℕ} {a : AV p} (ha : as[j]? = some a) :
    Con ext s a ((N / 2 ^ j % 2 : ℕ) : ZMod p) := by
  have hj : j < as.length := (List.getElem?_eq_some_iff.1 ha).1
  obtain ⟨bs, h1, h2, h3, h4⟩ := h.slice j 1 (by rw [← h.length]; omega)
  have e : (as.drop j).take 1 = [a] := by
    rw [List.drop_eq_getElem_cons hj, (List.getElem?_eq_some_iff.1 ha).2]
    rfl
  rw [e] at h1
  match bs, h3, h1, h4 with
  | [x], _, .cons h5 _, h4 =>
    rw [pow_one] at h4
    simp at h4
    rw [h4] at h5
    exact h5

theorem boolChunkLoop_cmp {m : ℕ} (hm : 1 ≤ m) (hm' : m ≤ numBits p) (as : List (AV p)) : ∀ {s : Ctx p} {rows : List (List (AV p))} {Ns : List ℕ}
    {pre : ℕ → List ℕ}, NumsW m ext s as Ns → rows.length = m * as.length → (∀ (j : ℕ) row, rows[j]? = some row → BitsL ext s row (pre j)) →
    Cmp tbl ext s (boolChunkLoop m as rows) (fun r s' => r.length = rows.length ∧
      ∀ (j : ℕ) row, r[j]? = some row → BitsL ext s' row (pre j ++ [Nat.ofDigits (2 ^ m) Ns / 2 ^ j % 2])) := by
  induction as with
  | nil =>
    intro s rows Ns pre _ hl _
    have : rows = [] := List.length_eq_zero_iff.1 (by simpa using hl)
    subst this
    exact Cmp.pure ⟨rfl, fun j row h => by simp at h⟩
  | cons a as ih =>
    intro s rows Ns pre ⟨h1, h2⟩ hl hr
    match Ns, h1, h2 with
    | N :: Ns, .cons h1 h1', h2 =>
      rw [List.length_cons, Nat.mul_succ] at hl
      unfold boolChunkLoop
      rw [if_neg (by omega)]
      obtain ⟨h3, h4⟩ := h2 N List.mem_cons_self
      have hv : ((N : ℕ) : ZMod p).val = N := ZMod.val_natCast_of_lt h4
      refine Cmp.bind (numToBits_cmp (n := m) h1 hm hm' (by rw [hv]; exact h3)) fun bits s1 e1 hb => ?_
      rw [hv] at hb
      refine Cmp.bind (ih (rows := rows.drop m) (pre := fun j => pre (m + j)) (NumsW.mono ⟨h1', fun n hn => h2 n (List.mem_cons_of_mem _ hn)⟩ e1)
        (by rw [List.length_drop]; omega) fun j row hj => (hr _ _ (by rwa [List.getElem?_drop] at hj)).mono e1) fun rest s2 e2 ⟨hrl, hrr⟩ => Cmp.pure ?_
      have hb' : BitsW ext s2 bits m N := by
        refine BitsW.mono ⟨_, hb, fun x hx => by simpa using limbsOf_lt N m 1 x hx, limbsOf_length _ _ _, ?_⟩ e2
        have := limbsOf_ofDigits N m 1
        rw [pow_one, one_mul, Nat.mod_eq_of_lt h3] at this
        exact this
      have hbl := hb'.length
      obtain ⟨p1, p2⟩ := pushBits_get bits (rows.take m) (by rw [List.length_take]; omega)
      rw [List.length_take, min_eq_left (by omega)] at p1
      rw [Nat.ofDigits_cons]
      refine ⟨by rw [List.length_append, p1, hrl, List.length_drop]; omega, fun j row hj => ?_⟩
      by_cases hjm : j < m
      · rw [List.getElem?_append_left (by omega)] at hj
        obtain ⟨bit, row0, b1, b2, rfl⟩ := p2 j row hj
        rw [List.getElem?_take_of_lt hjm] at b2
        have e : (N + 2 ^ m * Nat.ofDigits (2 ^ m) Ns) / 2 ^ j % 2 = N / 2 ^ j % 2 := by
          obtain ⟨d, rfl⟩ : ∃ d, m = j + (d + 1) := ⟨m - j - 1, by omega⟩
          rw [pow_add, mul_assoc, Nat.add_mul_div_left _ _ (by positivity), pow_succ, mul_comm (2 ^ d) 2, mul_assoc, Nat.add_mul_mod_self_left]
        rw [e]
        exact ((hr j row0 b2).mono (e1.trans e2)).snoc (hb'.get b1) (Nat.mod_lt _ (by norm_num))
      · rw [List.getElem?_append_right (by omega), p1] at hj
        have := hrr (j - m) row hj
        have e : (N + 2 ^ m * Nat.ofDigits (2 ^ m) Ns) / 2 ^ j = Nat.ofDigits (2 ^ m) Ns / 2 ^ (j - m) := by
          obtain ⟨d, rfl⟩ : ∃ d, j = m + d := ⟨j - m, by omega⟩
          rw [pow_add, ← Nat.div_div_eq_div_mul, Nat.add_mul_div_left _ _ (by positivity), Nat.div_eq_of_lt h3, zero_add, Nat.add_sub_cancel_left]
        rw [e]
        rwa [show m + (j - m) = j by omega] at this

theorem boolLoop_cmp {m : ℕ} (hm : 1 ≤ m) (hm' : m ≤ numBits p) {n : ℕ} (scalars : List (List (AV p))) : ∀ {s : Ctx p} {rows : List (List (AV p))}
    {Nss : List (List ℕ)} {pre : ℕ → List ℕ}, (∀ sc ∈ scalars, sc.length = n) → scalars.Forall₂ (NumsW m ext s) Nss → rows.length = m * n →
    (∀ (j : ℕ) row, rows[j]? = some row → BitsL ext s row (pre j)) →
    Cmp tbl ext s (boolLoop m scalars rows) (fun r s' => r.length = m * n ∧
      ∀ (j : ℕ) row, r[j]? = some row → BitsL ext s' row (pre j ++ Nss.map fun Ns => Nat.ofDigits (2 ^ m) Ns / 2 ^ j % 2)) := by
  induction scalars with
  | nil =>
    intro s rows Nss pre _ h hl hr
    cases h
    exact Cmp.pure ⟨hl, by simpa using hr⟩
  | cons sc scalars ih =>
    intro s rows Nss pre hn h hl hr
    rcases h with _ | ⟨h, hs⟩
    refine Cmp.bind (boolChunkLoop_cmp hm hm' sc h (by rw [hl, hn sc List.mem_cons_self]) hr) fun rows' s1 e1 ⟨h1, h2⟩ => ?_
    refine (ih (fun sc' h => hn sc' (List.mem_cons_of_mem _ h)) (hs.imp fun _ _ h => h.mono e1) (h1.trans hl) h2).weaken fun r s' ⟨h3, h4⟩ => ⟨h3, ?_⟩
    intro j row hj
    simpa using h4 j row hj

/-- The bits of position `j` of the scalars. -/
def colBits (Ns : List ℕ) (j : ℕ) : List ℕ := Ns.map fun N => N / 2 ^ j % 2

theorem colBits_lt (Ns : List ℕ) (j : ℕ) : ∀ x ∈ colBits Ns j, x < 2 := by
  intro x hx
  obtain ⟨N, -, rfl⟩ := List.mem_map.1 hx
  exact Nat.mod_lt _ (by norm_num)

theorem pipStart_cmp (hf : EcFitsC k) (bv : F.V) (hb : CurveOk (l.val bv)) {base : F.V × F.V} {A : ECurve (l.val bv)}
    (hA : IsPt (l.val bv) (l.val base.1) (l.val base.2) A) {scalars : List (List (AV p))} {m n R : ℕ} (hm : 1 ≤ m) (hm' : m ≤ numBits p)
    (hn : ∀ sc ∈ scalars, sc.length = n) {Nss : List (List ℕ)} (hs : scalars.Forall₂ (NumsW m ext s) Nss) (hR : 1 ≤ R)
    (hd : ∀ j < R - 1, 2 ^ (j + 1) • A ≠ 0) :
    Cmp tbl ext s (pipStart F bv base scalars (m * n) m R) (fun r s' =>
      r.1.Forall₂ (BitsL ext s') ((List.range (m * n)).map (colBits (Nss.map (Nat.ofDigits (2 ^ m))))) ∧
      r.2.Forall₂ (EcW k (l.val bv) ext s') ((List.range R).map fun i => 2 ^ i • A)) := by
  refine Cmp.assert (by simp; omega) ?_
  refine Cmp.bind (boolLoop_cmp (pre := fun _ => []) hm hm' scalars hn hs (by simp) (fun j row hj => by
    rw [List.getElem?_replicate] at hj
    split at hj
    · obtain rfl : [] = row := by simpa using hj
      exact ⟨.nil, by simp⟩
    · cases hj)) fun bools s1 e1 ⟨h1, h2⟩ => ?_
  refine Cmp.bind (loadPoint_cmp hf bv hA) fun any s2 e2 h3 => ?_
  refine Cmp.bind (doublings_cmp hf hb (R - 1) h3 hd) fun ds s3 e3 ⟨h4, h5⟩ => Cmp.pure ⟨?_, ?_⟩
  · refine forall₂_of_getElem? (by simp [h1]) fun j row bs hj hbs => ?_
    have hlt : j < m * n := by
      have := (List.getElem?_eq_some_iff.1 hj).1
      dsimp only at this
      omega
    simp only [List.getElem?_map, List.getElem?_range hlt, Option.map_some, Option.some.injEq] at hbs
    subst hbs
    have := (h2 j row hj).mono (e2.trans e3)
    rw [colBits, List.map_map]
    exact this
  · refine forall₂_of_getElem? (by simp [h4]; omega) fun j Q g hj hg => ?_
    have hlt : j < R := by
      have := (List.getElem?_eq_some_iff.1 hj).1
      simp [h4] at this
      omega
    simp only [List.getElem?_map, List.getElem?_range hlt, Option.map_some, Option.some.injEq] at hg
    subst hg
    exact h5 j Q hj

/-- The sum of `g` and `q` in a bucket meets no exceptional case. -/
def BucketStep (b : K) (q g : ECurve b) : Prop := (q = 0 → ¬ HasX b 0 g) ∧ (q ≠ 0 → g ≠ q ∧ g ≠ -q)

/-- No addition while filling the bucket meets an exceptional case. -/
def BucketOk (b : K) : List (ECurve b) → List (ECurve b) → Prop
  | _, [] => True
  | gs, q :: qs => (∀ g ∈ gs, BucketStep b q g) ∧ BucketOk b (gs ++ gs.map (· + q)) qs

theorem bucketRow_cmp (hf : EcFitsC k) [DecidableEq (ECurve b)] {q : ECurve b} (Bs : List (EcPt F)) : ∀ {s : Ctx p} {isInf : AV p} {point : EcPt F}
    {gs : List (ECurve b)}, Bs.Forall₂ (EcW k b ext s) gs → EcW0 k b ext s point q → Con ext s isInf (bit (q = 0)) → (∀ g ∈ gs, BucketStep b q g) →
    Cmp tbl ext s (bucketRow F isInf point Bs) (fun r s' => r.Forall₂ (EcW k b ext s') (gs.map (· + q))) := by
  induction Bs with
  | nil =>
    intro s isInf point gs h _ _ _
    cases h
    exact Cmp.pure .nil
  | cons B Bs ih =>
    intro s isInf point gs h hq hi h0
    rcases h with _ | ⟨hg, hgs⟩
    rename_i g gs
    obtain ⟨h1, h2⟩ := h0 g List.mem_cons_self
    have key : Cmp tbl ext s (do
        let a ← ecAddUnequal F (.strict B) (.strict point) true
        ecSelect F B a isInf) (fun r s' => EcW k b ext s' r (g + q)) := by
      by_cases hq0 : q = 0
      · subst hq0
        rw [bit, if_pos rfl] at hi
        obtain ⟨X1, Y1, hP, i1⟩ := hg
        obtain ⟨X2, Y2, hQ, i2⟩ := hq
        have i2' := i2.resolve_left fun h => h.ne_zero rfl
        have hx2 := i2'.2.1
        subst hx2
        have hx : X1 ≠ 0 := fun h => h1 rfl ⟨Y1, h ▸ i1⟩
        refine Cmp.bind (ecAddUnequal_cmpXY hf (P := .strict B) (Q := .strict point) hP hQ (fun _ => hx)
          (fun h => absurd h (sub_ne_zero.2 hx.symm))) fun a s1 e1 ha => ?_
        refine (ecSelect_cmpXY (t := True) (hP.mono e1) (ha _ rfl) (by rw [bit, if_pos trivial]; exact hi.mono e1)).weaken fun r s' h => ?_
        rw [add_zero]
        exact ⟨X1, Y1, by simpa using h, i1⟩
      · rw [bit, if_neg hq0] at hi
        obtain ⟨n1, n2⟩ := h2 hq0
        refine Cmp.bind (ecAddUnequal_cmp hf (P := .strict B) (Q := .strict point) hg (hq.finite hq0) n1 n2) fun a s1 e1 ha => ?_
        refine (ecSelect_cmp (t := False) (hg.mono e1) ha (by rw [bit, if_neg (fun h => h)]; exact hi.mono e1)).weaken fun r s' h => ?_
        simpa using h
    unfold bucketRow
    rw [← bind_assoc]
    refine Cmp.bind key fun a s1 e1 ha => ?_
    refine Cmp.bind (intoStrict_cmp ha) fun a' s2 e2 ha' => ?_
    have e12 := e1.trans e2
    exact Cmp.bind (ih (hgs.imp fun _ _ h => h.mono e12) (hq.mono e12) (hi.mono e12) fun g' hg' => h0 g' (List.mem_cons_of_mem _ hg'))
      fun rest s3 e3 h3 => Cmp.pure (.cons (ha'.mono e3) h3)

theorem bucketLoop_cmp (hf : EcFitsC k) (hb : CurveOk b) [DecidableEq (ECurve b)] (Ps : List (EcPt F)) : ∀ {s : Ctx p} {i : ℕ} {bucket : List (EcPt F)}
    {gs qs : List (ECurve b)}, gs.length = 2 ^ i → bucket.Forall₂ (EcW k b ext s) gs → Ps.Forall₂ (EcW0 k b ext s) qs →
    (∀ q ∈ qs, 2 • q = 0 → q = 0) → BucketOk b gs qs →
    Cmp tbl ext s (bucketLoop F i bucket Ps) (fun r s' => r.Forall₂ (EcW k b ext s') (bucketG gs qs)) := by
  induction Ps with
  | nil =>
    intro s i bucket gs qs _ hg hq _ _
    cases hq
    exact Cmp.pure hg
  | cons P Ps ih =>
    intro s i bucket gs qs hl hg hq htor ho
    rcases hq with _ | ⟨hq, hqs⟩
    rename_i q qs
    obtain ⟨ho1, ho2⟩ := ho
    obtain ⟨X, Y, hXY, hi⟩ := id hq
    refine Cmp.bind (k.isZero hXY.2) fun inf s1 e1 h1 => ?_
    refine Cmp.bind (intoStrictPoint_cmp (hXY.mono e1)) fun pt s2 e2 h2 => ?_
    have e12 := e1.trans e2
    have hinf : Con ext s2 inf (bit (q = 0)) := by
      have := h1.mono e2
      simpa only [bit, IsPt0.y_zero hb hi (htor q List.mem_cons_self)] using this
    refine Cmp.bind (bucketRow_cmp hf (q := q) (bucket.take (2 ^ i)) (gs := gs)
      (by rw [List.take_of_length_le (by rw [hg.length_eq, hl])]; exact hg.imp fun _ _ h => h.mono e12) ⟨X, Y, h2, hi⟩ hinf ho1) fun row s3 e3 h3 => ?_
    have e13 := e12.trans e3
    exact ih (gs := gs ++ gs.map (· + q)) (qs := qs) (by simp [hl, pow_succ]; omega) (List.rel_append (hg.imp fun _ _ h => h.mono e13) h3) (hqs.imp fun _ _ h => h.mono e13)
      (fun q' hq' => htor q' (List.mem_cons_of_mem _ hq')) ho2

theorem bucketG_length {G : Type} [AddCommGroup G] (qs : List G) : ∀ gs : List G, (bucketG gs qs).length = gs.length * 2 ^ qs.length := by
  induction qs with
  | nil => intro gs; simp [bucketG]
  | cons q qs ih => intro gs; rw [bucketG, ih]; simp [pow_succ]; ring

theorem pipSelect_cmp {A : ECurve b} {qs : List (ECurve b)} {lo n : ℕ} (hn : qs.length = n) (hn1 : 1 ≤ n) {bucket : List (EcPt F)}
    (rows : List (List (AV p))) : ∀ {s : Ctx p} {cols : List (List ℕ)}, bucket.Forall₂ (EcW k b ext s) (bucketG [A] qs) →
    rows.Forall₂ (BitsL ext s) cols → (∀ c ∈ cols, lo + n ≤ c.length) →
    Cmp tbl ext s (pipSelect F lo (lo + n) bucket rows) (fun r s' =>
      r.Forall₂ (EcW k b ext s') (cols.map fun col => A + dotG ((col.drop lo).take n) qs)) := by
  induction rows with
  | nil =>
    intro s cols _ h _
    cases h
    exact Cmp.pure .nil
  | cons row rows ih =>
    intro s cols hb h hl
    rcases h with _ | ⟨h, hrows⟩
    rename_i col cols
    have hlc := hl col List.mem_cons_self
    have hrl := h.length
    have hsl : (sliceM row lo (lo + n) : M p _) = pure ((row.drop lo).take n) := by
      unfold sliceM
      rw [if_pos ⟨by omega, by omega⟩]
      congr 2
      omega
    unfold pipSelect
    rw [hsl, pure_bind]
    have hbl : bucket.length = 2 ^ n := by rw [hb.length_eq, bucketG_length, hn]; simp
    refine Cmp.bind (ecSelectFromBits_cmp hb hn1 (h.slice lo n hlc) hbl (bucketG_single A qs _ (by
      rw [List.length_take, List.length_drop]; omega) fun x hx => h.2 x (List.mem_of_mem_drop (List.mem_of_mem_take hx)))) fun P s1 e1 h1 => ?_
    exact Cmp.bind (ih (hb.imp fun _ _ h => h.mono e1) (hrows.imp fun _ _ h => h.mono e1) fun c hc => hl c (List.mem_cons_of_mem _ hc))
      fun Ps s2 e2 h2 => Cmp.pure (.cons (h1.mono e2) h2)

theorem pipTask_cmp (hf : EcFitsC k) (hb : CurveOk b) [DecidableEq (ECurve b)] {c : ℕ} {bools : List (List (AV p))}
    {x : (List (EcPt F) × EcPt F) × ℕ} {A : ECurve b} {qs : List (ECurve b)} {cols : List (List ℕ)} (hA : EcW k b ext s x.1.2 A)
    (hq : x.1.1.Forall₂ (EcW0 k b ext s) qs) (hq1 : 1 ≤ qs.length) (htor : ∀ q ∈ qs, 2 • q = 0 → q = 0) (hok : BucketOk b [A] qs)
    (hbits : bools.Forall₂ (BitsL ext s) cols) (hl : ∀ col ∈ cols, x.2 * c + qs.length ≤ col.length) :
    Cmp tbl ext s (pipTask F c bools x) (fun r s' =>
      r.Forall₂ (EcW k b ext s') (cols.map fun col => A + dotG ((col.drop (x.2 * c)).take qs.length) qs)) := by
  refine Cmp.bind (intoStrict_cmp hA) fun any s1 e1 h1 => ?_
  refine Cmp.bind (bucketLoop_cmp hf hb x.1.1 (i := 0) (gs := [A]) rfl (.cons h1 .nil) (hq.imp fun _ _ h => h.mono e1) htor hok)
    fun bucket s2 e2 h2 => ?_
  rw [hq.length_eq]
  exact pipSelect_cmp rfl hq1 bools h2 (hbits.imp fun _ _ h => h.mono (e1.trans e2)) hl

theorem pipAggLoop_cmp (hf : EcFitsC k) {i : ℕ} (mps : List (List (EcPt F))) : ∀ {s : Ctx p} {acc : EcPt F} {g : ECurve b} {gs : List (ECurve b)},
    EcW k b ext s acc g → mps.Forall₂ (fun mp g => ∃ P, mp[i]? = some P ∧ EcW k b ext s P g) gs → SumOk g gs →
    Cmp tbl ext s (pipAggLoop F i acc mps) (fun r s' => EcW k b ext s' r (g + gs.sum)) := by
  induction mps with
  | nil =>
    intro s acc g gs hg h _
    cases h
    exact Cmp.pure (by simpa using hg)
  | cons mp mps ih =>
    intro s acc g gs hg h ho
    rcases h with _ | ⟨⟨P, hP, hPW⟩, h⟩
    rename_i g' gs
    obtain ⟨n1, n2, ho⟩ := ho
    refine Cmp.unwrap hP ?_
    refine Cmp.bind (ecAddUnequal_cmp hf (P := .strict acc) (Q := .strict P) hg hPW n1 n2) fun a s1 e1 h1 => ?_
    refine Cmp.bind (intoStrict_cmp h1) fun a' s2 e2 h2 => ?_
    refine (ih h2 (h.imp fun mp g ⟨P, hP, hW⟩ => ⟨P, hP, hW.mono (e1.trans e2)⟩) ho).weaken fun r s' h => ?_
    rwa [List.sum_cons, ← add_assoc]

theorem pipAgg_cmp (hf : EcFitsC k) {i : ℕ} {mps : List (List (EcPt F))} {g : ECurve b} {gs : List (ECurve b)}
    (h : mps.Forall₂ (fun mp g => ∃ P, mp[i]? = some P ∧ EcW k b ext s P g) (g :: gs)) (ho : SumOk g gs) :
    Cmp tbl ext s (pipAgg F mps i) (fun r s' => EcW k b ext s' r (g + gs.sum)) := by
  rcases h with _ | ⟨⟨P, hP, hPW⟩, h⟩
  exact Cmp.unwrap rfl (Cmp.unwrap hP (pipAggLoop_cmp hf _ hPW h ho))

/-- No step of the final loop of Pippenger meets an exceptional case. -/
def PipSumOk {G : Type} [AddCommGroup G] : G → G → List G → Prop
  | _, _, [] => True
  | S, T, g :: gs => 2 • T ≠ 0 ∧ 2 • S ≠ 0 ∧ 2 • S ≠ g ∧ 2 • S ≠ -g ∧ PipSumOk (2 • S + g) (2 • T) gs

theorem pipSumLoop_cmp (hf : EcFitsC k) (hb : CurveOk b) (agg : List (EcPt F)) : ∀ {s : Ctx p} {sum : CmpPt F} {any : EcPt F} {S T : ECurve b}
    {gs : List (ECurve b)}, EcW k b ext s sum.pt S → EcW k b ext s any T → agg.Forall₂ (EcW k b ext s) gs → PipSumOk S T gs →
    Cmp tbl ext s (pipSumLoop F sum any agg) (fun r s' => EcW k b ext s' r.1 (horner S gs) ∧ EcW k b ext s' r.2 (2 ^ agg.length • T)) := by
  induction agg with
  | nil =>
    intro s sum any S T gs hS hT h _
    cases h
    exact Cmp.pure ⟨hS, by simpa using hT⟩
  | cons P agg ih =>
    intro s sum any S T gs hS hT h ho
    rcases h with _ | ⟨hP, h⟩
    rename_i g gs
    obtain ⟨n1, n2, n3, n4, ho⟩ := ho
    refine Cmp.bind (ecDouble_cmp hf hb hT n1) fun any' s1 e1 h1 => ?_
    refine Cmp.bind (ecDouble_cmp hf hb (hS.mono e1) n2) fun d s2 e2 h2 => ?_
    have e12 := e1.trans e2
    refine Cmp.bind (ecAddUnequal_cmp hf (P := .nonStrict d) (Q := .strict P) h2 (hP.mono e12) n3 n4) fun sum' s3 e3 h3 => ?_
    refine (ih (sum := .nonStrict sum') h3 (h1.mono (e2.trans e3)) (h.imp fun _ _ h => h.mono (e12.trans e3)) ho).weaken fun r s' ⟨h4, h5⟩ => ⟨h4, ?_⟩
    rwa [← mul_smul, ← pow_succ] at h5

/-- The exceptional cases that the end of `multi_exp_par` must avoid: `A` the random point, `R` clumps, the aggregated points
`gs ++ [g]`, the random first coordinate `X`. -/
structure PipEndOk (b X : K) (A : ECurve b) (R : ℕ) (gs : List (ECurve b)) (g : ECurve b) : Prop where
  dbl : 2 ^ R • A ≠ 0
  sub1 : 2 ^ R • A ≠ A
  sub2 : 2 ^ R • A ≠ -A
  loop : PipSumOk g (2 ^ R • A - A) gs.reverse
  dbl2 : 2 ^ (gs.length + 1) • (2 ^ R • A - A) ≠ 0
  sub3 : 2 ^ (gs.length + 1) • (2 ^ R • A - A) ≠ 2 ^ R • A - A
  sub4 : 2 ^ (gs.length + 1) • (2 ^ R • A - A) ≠ -(2 ^ R • A - A)
  final : sumPow (gs ++ [g]) = -(2 ^ (gs.length + 1) • (2 ^ R • A - A) - (2 ^ R • A - A)) →
    sumPow (gs ++ [g]) = 2 ^ (gs.length + 1) • (2 ^ R • A - A) - (2 ^ R • A - A)
  pair : ¬ HasX b X (2 ^ (gs.length + 1) • (2 ^ R • A - A) - (2 ^ R • A - A))

theorem pipEnd_cmp (hf : EcFitsC k) (hb : CurveOk b) {pair : F.V × F.V} {A : ECurve b} {R : ℕ} (hR : 1 ≤ R) {anys agg : List (EcPt F)}
    {gs : List (ECurve b)} {g : ECurve b} (ha : anys.Forall₂ (EcW k b ext s) ((List.range R).map fun i => 2 ^ i • A))
    (hg : agg.Forall₂ (EcW k b ext s) (gs ++ [g])) (ho : PipEndOk b (l.val pair.1) A R gs g) :
    Cmp tbl ext s (pipEnd F pair anys agg) (fun r s' =>
      EcW0 k b ext s' r (sumPow (gs ++ [g]) - (2 ^ (gs.length + 1) • (2 ^ R • A - A) - (2 ^ R • A - A)))) := by
  have hal : anys.length = R := by simpa using ha.length_eq
  have hget : ∀ i : ℕ, ∀ hi : i < anys.length, EcW k b ext s anys[i] (2 ^ i • A) := fun i hi => by
    have := (List.forall₂_iff_get.1 ha).2 i hi (by simp; omega)
    simpa using this
  have hlast : anys.getLast? = some (anys[R - 1]'(by omega)) := by
    rw [List.getLast?_eq_getElem?, List.getElem?_eq_getElem (by omega)]
    simp only [hal]
  obtain ⟨init, top, rfl, hgi, hgt⟩ : ∃ init top, agg = init ++ [top] ∧ init.Forall₂ (EcW k b ext s) gs ∧ EcW k b ext s top g := by
    have h := List.forall₂_reverse_iff.2 hg
    rw [List.reverse_append, List.reverse_singleton, List.singleton_append, List.forall₂_cons_right_iff] at h
    obtain ⟨top, init, h1, h2, h3⟩ := h
    refine ⟨init.reverse, top, ?_, ?_, h1⟩
    · rw [← List.reverse_reverse agg, h3, List.reverse_cons]
    · rw [← List.reverse_reverse gs]
      exact List.forall₂_reverse_iff.2 h2
  refine Cmp.unwrap hlast (Cmp.unwrap (List.getElem?_eq_getElem (show 0 < anys.length by omega)) ?_)
  have e2 : (2 : ℕ) • 2 ^ (R - 1) • A = 2 ^ R • A := by
    rw [← mul_smul, ← pow_succ', Nat.sub_add_cancel hR]
  refine Cmp.bind (ecDouble_cmp hf hb (hget (R - 1) (by omega)) (by rw [e2]; exact ho.dbl)) fun d s1 e1 h1 => ?_
  rw [e2] at h1
  have h0 := (hget 0 (by omega)).mono e1
  rw [pow_zero, one_smul] at h0
  refine Cmp.bind (ecSubUnequal_cmp hf (P := .nonStrict d) (Q := .nonStrict _) h1 h0 ho.sub1 ho.sub2) fun any s2 e2' h2 => ?_
  have e12 := e1.trans e2'
  refine Cmp.unwrap (List.getLast?_concat ..) ?_
  rw [List.dropLast_concat]
  refine Cmp.bind (pipSumLoop_cmp hf hb _ (sum := .strict top) (hgt.mono e12) h2
    (List.forall₂_reverse_iff.2 (hgi.imp fun _ _ h => h.mono e12)) ho.loop) fun r s3 e3 ⟨h3, h4⟩ => ?_
  rw [horner_reverse] at h3
  rw [List.length_reverse, hgi.length_eq] at h4
  have e5 : (2 : ℕ) • 2 ^ gs.length • (2 ^ R • A - A) = 2 ^ (gs.length + 1) • (2 ^ R • A - A) := by
    rw [← mul_smul, ← pow_succ']
  refine Cmp.bind (ecDouble_cmp hf hb h4 (by rw [e5]; exact ho.dbl2)) fun as s4 e4 h5 => ?_
  rw [e5] at h5
  refine Cmp.bind (ecSubUnequal_cmp hf (P := .nonStrict as) (Q := .nonStrict any) h5 (h2.mono (e3.trans e4)) ho.sub3 ho.sub4) fun as' s5 e5' h6 => ?_
  exact ecSubStrict_cmp hf (h3.mono (e4.trans e5')) h6 ho.final fun Y h => ho.pair ⟨Y, h⟩

end H2
