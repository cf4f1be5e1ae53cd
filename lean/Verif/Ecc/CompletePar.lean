import Verif.Ecc.CompletePip

/-!
# Completeness of `fixed_base::msm_par`, `pippenger::multi_exp_par` and `variable_base_msm`
-/

set_option autoImplicit false
set_option linter.unusedSectionVars false
namespace H2
variable {p : ℕ} [Fact p.Prime]
variable {F : FieldOps p} {K : Type} [Field K] [DecidableEq K] {tbl : ZMod p → Prop} {l : FieldLaws F K tbl}
variable {k : FieldCmp l} [SelIndCmp k] {b : K} {ext : Cell → ZMod p} {S : Pool p}

/-- What a field point honestly holds is determined by its cells, so that it may be used in any context. -/
structure FieldMove (k : FieldCmp l) : Prop where
  pt : ∀ a : F.P, ∃ avs, ∀ X, MovA avs (fun w s => k.PW w s a X)

/-- `FpChip` points can be used in any context. -/
theorem FpChip.move {c : FpChip p} (h : FpCmp c) [Fact c.modulus.Prime] : FieldMove (FpChip.cmp h) := by
  refine ⟨fun a => ?_⟩
  change CrtInt p at a
  refine ⟨a.native :: a.trunc.limbs, fun X => ⟨?_, ?_⟩⟩
  · intro w s h v hv
    have h : ProperW c.n c.k w s a X.val := h
    rcases List.mem_cons.1 hv with rfl | hv
    · exact ⟨_, h.native⟩
    · exact ⟨_, h.limbs v hv⟩
  · intro w s w' s' h hk
    have h : ProperW c.n c.k w s a X.val := h
    have hn := hk a.native (by simp) _ h.native
    have hl : ∀ v ∈ a.trunc.limbs, Con w' s' v (at' (hw w s) v) := fun v hv => hk v (by simp [hv]) _ (h.limbs v hv)
    refine show ProperW c.n c.k w' s' a X.val from ⟨?_, fun v hv => (hl v hv).w, hn.w, h.value⟩
    obtain ⟨ds, d1, d2, d3, d4, d5, d6⟩ := h.ok
    refine ⟨ds, d1, d2, ?_, d4, d5, by rw [hn.at]; exact d6⟩
    rw [← d3]
    exact List.map_congr_left fun v hv => (hl v hv).at

theorem movA_ecW (hv : FieldMove k) (P : EcPt F) : ∃ avs, ∀ g : ECurve b, MovA avs (fun w s => EcW k b w s P g) := by
  obtain ⟨ax, hx⟩ := hv.pt P.x
  obtain ⟨ay, hy⟩ := hv.pt P.y
  refine ⟨ax ++ ay, fun g => ⟨?_, ?_⟩⟩
  · rintro w s ⟨X, Y, ⟨h1, h2⟩, -⟩ v hv
    rcases List.mem_append.1 hv with hv | hv
    · exact (hx X).con h1 v hv
    · exact (hy Y).con h2 v hv
  · rintro w s w' s' ⟨X, Y, ⟨h1, h2⟩, h3⟩ hk
    exact ⟨X, Y, ⟨(hx X).move h1 fun v hv => hk v (by simp [hv]), (hy Y).move h2 fun v hv => hk v (by simp [hv])⟩, h3⟩

theorem mov_ecW (hv : FieldMove k) (P : EcPt F) (g : ECurve b) : Mov (fun w s => EcW k b w s P g) := by
  obtain ⟨avs, h⟩ := movA_ecW (b := b) hv P
  exact ⟨avs, h g⟩

theorem mov_ecW0 (hv : FieldMove k) (P : EcPt F) (g : ECurve b) : Mov (fun w s => EcW0 k b w s P g) := by
  obtain ⟨ax, hx⟩ := hv.pt P.x
  obtain ⟨ay, hy⟩ := hv.pt P.y
  refine ⟨ax ++ ay, ⟨?_, ?_⟩⟩
  · rintro w s ⟨X, Y, ⟨h1, h2⟩, -⟩ v hv
    rcases List.mem_append.1 hv with hv | hv
    · exact (hx X).con h1 v hv
    · exact (hy Y).con h2 v hv
  · rintro w s w' s' ⟨X, Y, ⟨h1, h2⟩, h3⟩ hk
    exact ⟨X, Y, ⟨(hx X).move h1 fun v hv => hk v (by simp [hv]), (hy Y).move h2 fun v hv => hk v (by simp [hv])⟩, h3⟩

theorem mov_ecWs (hv : FieldMove k) (Ps : List (EcPt F)) (gs : List (ECurve b)) : Mov (fun w s => Ps.Forall₂ (EcW k b w s) gs) := by
  obtain ⟨avs, h⟩ := Mov.forall₂ (φ := fun w s P g => EcW k b w s P g) Ps fun P => movA_ecW hv P
  exact ⟨avs, h gs⟩

theorem movA_bitsL (row : List (AV p)) : ∃ avs, ∀ bs, MovA avs (fun w s => BitsL w s row bs) := by
  obtain ⟨avs, h⟩ := Mov.avsCon row
  refine ⟨avs, fun bs => ⟨fun hb v hv => (h _).con hb.1 v hv, fun hb hk => ⟨(h _).move hb.1 hk, hb.2⟩⟩⟩

theorem mov_bitsL (rows : List (List (AV p))) (cols : List (List ℕ)) : Mov (fun w s => rows.Forall₂ (BitsL w s) cols) := by
  obtain ⟨avs, h⟩ := Mov.forall₂ (φ := fun w s row bs => BitsL w s row bs) rows fun row => movA_bitsL row
  exact ⟨avs, h cols⟩

/-! ### `fixed_base::msm_par` -/

/-- The multiples that `fixed_base::msm_par` adds up. -/
def fbMults {G : Type} [AddCommGroup G] (Qs : List G) (Ns : List ℕ) : List G := List.zipWith (fun Q N => N • Q) Qs Ns

/-- The random points `A`, `A2` and the random first coordinate `X` avoid the exceptional cases of `fixed_base::msm_par`. -/
structure FbMsmOk (b X : K) (A A2 : ECurve b) (wb nw : ℕ) (Qs : List (ECurve b)) (Ns : List ℕ) : Prop where
  tasks : ∀ x ∈ Qs.zip Ns, FbAddOk A (fbData wb nw x.1 x.2).reverse
  acc : FbAccOk A A2 (fbMults Qs Ns)
  final : A2 + (fbMults Qs Ns).sum = -A2 → A2 + (fbMults Qs Ns).sum = A2
  pair : ¬ HasX b X A2

theorem fixedMsmPar_cmp (hf : EcFitsC k) (hv : FieldMove k) (bv : F.V) (rand : FbRand F) {C : NativeCurve F}
    {φ : C.G → ECurve (l.val bv)} (hC : NativeLaws l (l.val bv) C φ) {points : List C.G} (hne : points ≠ []) {scalars : List (List (AV p))}
    (hl : points.length = scalars.length) {m wb n : ℕ} (hm : 1 ≤ m) (hm' : m ≤ numBits p) (hwb0 : 1 ≤ wb) (hwb : wb < p) (hn1 : 1 ≤ n)
    (hn : ∀ sc ∈ scalars, sc.length = n) (hs : ∀ g ∈ points, FbSafe wb (φ g)) {Nss : List (List ℕ)}
    (hN : scalars.Forall₂ (fun sc Ns => PHolds ext S fun w s => NumsW m w s sc Ns) Nss) {A A2 : ECurve (l.val bv)}
    (hA : IsPt (l.val bv) (l.val rand.base.1) (l.val rand.base.2) A) (hA2 : IsPt (l.val bv) (l.val rand.base2.1) (l.val rand.base2.2) A2)
    (hok : FbMsmOk (l.val bv) (l.val rand.pair.1) A A2 wb ((m * n + wb - 1) / wb) (points.map φ) (Nss.map (Nat.ofDigits (2 ^ m)))) :
    PCmp tbl ext S (fixedMsmPar F C bv rand points scalars m wb) (fun r S' =>
      PHolds ext S' fun w s => EcW0 k (l.val bv) w s r (fbMults (points.map φ) (Nss.map (Nat.ofDigits (2 ^ m)))).sum) := by
  have h0 : points.length ≠ 0 := fun h => hne (List.length_eq_zero_iff.1 h)
  have hs0 : scalars[0]? = some (scalars[0]'(by omega)) := List.getElem?_eq_getElem (by omega)
  have hs0n : (scalars[0]'(by omega)).length = n := hn _ (List.getElem_mem _)
  unfold fixedMsmPar
  rw [if_neg h0]
  refine PCmp.assert (by simpa using hm') (PCmp.assert (by simpa using hl) (PCmp.unwrap hs0 (PCmp.assert (by simp; omega) ?_)))
  rw [hs0n]
  set nw := (m * n + wb - 1) / wb with hnw
  obtain ⟨pt0, hpt0⟩ : ∃ g, g ∈ points := List.exists_mem_of_length_pos (by omega)
  set Lc := (fbCache C wb (m * n) pt0 0 nw).length with hLc
  have hlen : (points.flatMap fun pt => (fbCache C wb (m * n) pt 0 nw).map C.coords).length = points.length * Lc := by
    rw [List.length_flatMap]
    have : (points.map fun pt => ((fbCache C wb (m * n) pt 0 nw).map C.coords).length) = points.map fun _ => Lc := by
      apply List.map_congr_left
      intro g _
      rw [List.length_map, fbCache_length C wb _ nw g pt0]
    rw [this]
    simp
  have hnw1 : nw ≠ 0 := by
    have h1 : 1 ≤ m * n := Nat.one_le_iff_ne_zero.2 (Nat.mul_ne_zero (by omega) (by omega))
    exact (Nat.div_pos (show wb ≤ m * n + wb - 1 by omega) (show 0 < wb by omega)).ne'
  have hLc1 : Lc ≠ 0 := by
    obtain ⟨nw', e⟩ : ∃ nw', nw = nw' + 1 := ⟨nw - 1, (Nat.succ_pred_eq_of_ne_zero hnw1).symm⟩
    rw [hLc, e, fbCache]
    simp
  change PCmp tbl ext S (onMain (loadPoint F bv rand.base) >>= fun anyPoint => (assertP ((points.flatMap fun pt => (fbCache C wb (m * n) pt 0 nw).map C.coords).length / points.length != 0) >>= fun _ =>
      (assertP ((chunksOf ((points.flatMap fun pt => (fbCache C wb (m * n) pt 0 nw).map C.coords).length / points.length) (points.flatMap fun pt => (fbCache C wb (m * n) pt 0 nw).map C.coords)).length == scalars.length) >>= fun _ =>
      (parallelize ((chunksOf ((points.flatMap fun pt => (fbCache C wb (m * n) pt 0 nw).map C.coords).length / points.length) (points.flatMap fun pt => (fbCache C wb (m * n) pt 0 nw).map C.coords)).zip scalars) (fbTask F anyPoint n m wb) >>= fun mults =>
      onMain (fbEnd F bv rand.base2 rand.pair anyPoint mults))))) _
  rw [hlen, Nat.mul_div_cancel_left _ (Nat.pos_of_ne_zero h0)]
  have hch : chunksOf Lc (points.flatMap fun pt => (fbCache C wb (m * n) pt 0 nw).map C.coords) =
      points.map fun pt => (fbCache C wb (m * n) pt 0 nw).map C.coords := by
    rw [List.flatMap_def]
    refine chunksOf_flatten (by omega) _ fun r hr => ?_
    obtain ⟨g, _, rfl⟩ := List.mem_map.1 hr
    rw [List.length_map, fbCache_length C wb _ nw g pt0]
  have hzip : (points.map fun pt => (fbCache C wb (m * n) pt 0 nw).map C.coords).zip scalars =
      (points.zip scalars).map fun x => ((fbCache C wb (m * n) x.1 0 nw).map C.coords, x.2) := by
    rw [List.zip_map_left]
    rfl
  refine PCmp.bind (onMain_cmp (Q := fun r w s => EcW k (l.val bv) w s r A) (fun r => mov_ecW hv r A)
    fun w _ s _ => loadPoint_cmp hf bv hA) fun any S1 e1 hany => ?_
  refine PCmp.assert (by simpa using hLc1) ?_
  rw [hch]
  refine PCmp.assert (by simpa using hl) ?_
  rw [hzip, parallelize_map]
  -- the tasks, together with the numbers of their scalars
  have hNl : scalars.length = Nss.length := hN.length_eq
  have hz3 : points.zip scalars = (points.zip (scalars.zip Nss)).map fun y => (y.1, y.2.1) := by
    conv_lhs => rw [← List.map_fst_zip (l₁ := scalars) (l₂ := Nss) hNl.le]
    rw [List.zip_map_right]
    rfl
  rw [hz3, parallelize_map]
  refine PCmp.bind (parallelize_cmp (Q := fun y r w s => EcW k (l.val bv) w s r (A + Nat.ofDigits (2 ^ m) y.2.2 • φ y.1))
    (points.zip (scalars.zip Nss)) (fun y r => mov_ecW hv r _) ?_) fun mults S2 e2 hmu => ?_
  · intro y hy w hw s hs'
    have h1 := List.of_mem_zip hy
    have h2 := List.of_mem_zip h1.2
    have hNy : PHolds ext S fun w s => NumsW m w s y.2.1 y.2.2 := by
      have := List.forall₂_iff_zip.1 hN
      exact this.2 h1.2
    refine fbTask_cmp hf hC hm hm' hwb0 hwb (hs _ h1.1) (hn _ h2.1) (hNy w (hw.mono e1) s (hs'.mono e1)) (hany w hw s hs') ?_
    have hmem : (φ y.1, Nat.ofDigits (2 ^ m) y.2.2) ∈ (points.map φ).zip (Nss.map (Nat.ofDigits (2 ^ m))) := by
      obtain ⟨i, hi, e⟩ := List.getElem_of_mem hy
      rw [List.length_zip, List.length_zip] at hi
      refine List.mem_of_getElem? (i := i) ?_
      rw [List.getElem?_eq_getElem (by simp; omega), ← e]
      simp
    exact hok.tasks _ hmem
  have hds : (points.zip (scalars.zip Nss)).map (fun y => Nat.ofDigits (2 ^ m) y.2.2 • φ y.1) =
      fbMults (points.map φ) (Nss.map (Nat.ofDigits (2 ^ m))) := by
    apply List.ext_getElem
    · simp [fbMults]
      omega
    · intro i h1 h2
      simp [fbMults]
  have hmu' : mults.Forall₂ (fun P d => PHolds ext S2 fun w s => EcW k (l.val bv) w s P (A + d))
      (fbMults (points.map φ) (Nss.map (Nat.ofDigits (2 ^ m)))) := by
    rw [← hds, List.forall₂_map_right_iff]
    exact hmu.flip
  refine onMain_cmp (fun r => mov_ecW0 hv r _) fun w hw s hs' => ?_
  exact fbEnd_cmp hf bv (hany w (hw.mono e2) s (hs'.mono e2)) hA2 (hmu'.imp fun _ _ h => h w hw s hs') hok.acc hok.final hok.pair


/-! ### `pippenger::multi_exp_par` -/

theorem dotG_split {G : Type} [AddCommGroup G] (Ns : List ℕ) : ∀ qs : List G,
    dotG Ns qs = dotG (Ns.map (· % 2)) qs + 2 • dotG (Ns.map (· / 2)) qs := by
  induction Ns with
  | nil => intro qs; simp [dotG]
  | cons N Ns ih =>
    intro qs
    cases qs with
    | nil => simp [dotG]
    | cons q qs =>
      rw [List.map_cons, List.map_cons, dotG_cons, dotG_cons, dotG_cons, ih qs]
      have : N • q = (N % 2) • q + 2 • ((N / 2) • q) := by
        rw [← mul_smul, ← add_smul, Nat.mod_add_div]
      rw [this, smul_add]
      abel

theorem colBits_succ (Ns : List ℕ) (j : ℕ) : colBits Ns (j + 1) = colBits (Ns.map (· / 2)) j := by
  simp [colBits, Nat.div_div_eq_div_mul, pow_succ']

/-- The columns of bits, weighted by the powers of two, recombine to the scalars. -/
theorem sumPow_colBits {G : Type} [AddCommGroup G] (qs : List G) (tot : ℕ) : ∀ Ns : List ℕ, (∀ N ∈ Ns, N < 2 ^ tot) →
    sumPow ((List.range tot).map fun j => dotG (colBits Ns j) qs) = dotG Ns qs := by
  induction tot with
  | zero =>
    intro Ns h
    have : dotG Ns qs = 0 := by
      unfold dotG
      apply List.sum_eq_zero
      intro x hx
      obtain ⟨i, hi, rfl⟩ := List.getElem_of_mem hx
      rw [List.getElem_zipWith]
      have := h _ (List.getElem_mem (l := Ns) (n := i) (by simp at hi; omega))
      simp at this
      simp [this]
    simp [sumPow, this]
  | succ tot ih =>
    intro Ns h
    rw [List.range_succ_eq_map, List.map_cons, List.map_map, sumPow]
    have e : ((fun j => dotG (colBits Ns j) qs) ∘ Nat.succ) = fun j => dotG (colBits (Ns.map (· / 2)) j) qs := by
      funext j
      simp [colBits_succ]
    rw [e, ih, dotG_split Ns]
    · simp [colBits]
    · intro N hN
      obtain ⟨M, hM, rfl⟩ := List.mem_map.1 hN
      have := h M hM
      rw [pow_succ] at this
      exact Nat.div_lt_of_lt_mul (by omega)

/-- The `i`-th chunk. -/
theorem chunk_get {α : Type} {n : ℕ} (hn : 1 ≤ n) (i : ℕ) : ∀ {l ch : List α}, (chunksOf n l)[i]? = some ch →
    ch = (l.drop (i * n)).take n ∧ i * n < l.length := by
  induction i with
  | zero =>
    intro l ch h
    rcases eq_or_ne l [] with rfl | hl
    · simp [chunksOf_nil] at h
    · rw [chunksOf_cons hn hl] at h
      simp only [List.getElem?_cons_zero, Option.some.injEq] at h
      exact ⟨by simp [← h], by simpa using List.length_pos_of_ne_nil hl⟩
  | succ i ih =>
    intro l ch h
    rcases eq_or_ne l [] with rfl | hl
    · simp [chunksOf_nil] at h
    · rw [chunksOf_cons hn hl] at h
      obtain ⟨h1, h2⟩ := ih (by simpa using h)
      rw [List.drop_drop] at h1
      rw [List.length_drop] at h2
      rw [Nat.add_one_mul, Nat.add_comm]
      exact ⟨h1, by omega⟩

/-- The points that `multi_exp_par` adds up for bit `j`: one for each clump of `c` points. -/
def pipCol {G : Type} [AddCommGroup G] (A : G) (c : ℕ) (qs : List G) (Ns : List ℕ) (j : ℕ) : List G :=
  ((chunksOf c qs).zipIdx 0).map fun x => 2 ^ x.2 • A + dotG (((colBits Ns j).drop (x.2 * c)).take x.1.length) x.1

/-- Their sum. -/
def pipSum {G : Type} [AddCommGroup G] (A : G) (c : ℕ) (qs : List G) (Ns : List ℕ) (j : ℕ) : G :=
  (2 ^ ((qs.length + c - 1) / c) • A - A) + dotG (colBits Ns j) qs

/-- The random point `A` and the random first coordinate `X` avoid the exceptional cases of `multi_exp_par`. -/
structure PipOk (b X : K) (A : ECurve b) (c tot : ℕ) (qs : List (ECurve b)) (Ns : List ℕ) : Prop where
  dbl : ∀ j < (qs.length + c - 1) / c - 1, 2 ^ (j + 1) • A ≠ 0
  bucket : ∀ x ∈ (chunksOf c qs).zipIdx, BucketOk b [2 ^ x.2 • A] x.1
  agg : ∀ j < tot, ∀ g gs, pipCol A c qs Ns j = g :: gs → SumOk g gs
  last : PipEndOk b X A ((qs.length + c - 1) / c) ((List.range (tot - 1)).map (pipSum A c qs Ns)) (pipSum A c qs Ns (tot - 1))

theorem pipCol_sum {G : Type} [AddCommGroup G] {A : G} {c : ℕ} (hc : 1 ≤ c) {qs : List G} {Ns : List ℕ} (hl : Ns.length = qs.length) (j : ℕ) :
    (pipCol A c qs Ns j).sum = pipSum A c qs Ns j := by
  unfold pipCol pipSum
  rw [clump_sum hc A _ qs rfl 0 _ (by simp [colBits, hl])]
  simp only [Nat.zero_mul, List.drop_zero, pow_zero, one_smul, Nat.zero_add]
  rw [(chunksOf_spec hc qs).2.2]
  rfl

theorem multiExpPar_cmp (hf : EcFitsC k) (hv : FieldMove k) (bv : F.V) (hb : CurveOk (l.val bv)) (rand : MsmRand F)
    {P : List (EcPt F)} (hne : P ≠ []) {scalars : List (List (AV p))} (hl : P.length = scalars.length) {m c n : ℕ} (hm : 1 ≤ m)
    (hm' : m ≤ numBits p) (hc : 1 ≤ c) (hn1 : 1 ≤ n) (hn : ∀ sc ∈ scalars, sc.length = n) {qs : List (ECurve (l.val bv))} {Nss : List (List ℕ)}
    (hP : P.Forall₂ (fun P q => PHolds ext S fun w s => EcW0 k (l.val bv) w s P q) qs)
    (hN : scalars.Forall₂ (fun sc Ns => PHolds ext S fun w s => NumsW m w s sc Ns) Nss)
    (htor : ∀ q ∈ qs, 2 • q = 0 → q = 0) {A : ECurve (l.val bv)} (hA : IsPt (l.val bv) (l.val rand.base.1) (l.val rand.base.2) A)
    (hok : PipOk (l.val bv) (l.val rand.pair.1) A c (m * n) qs (Nss.map (Nat.ofDigits (2 ^ m)))) :
    PCmp tbl ext S (multiExpPar F bv rand P scalars m c) (fun r S' => PHolds ext S' fun w s =>
      EcW0 k (l.val bv) w s r ((Nss.zip qs).map fun x => Nat.ofDigits (2 ^ m) x.1 • x.2).sum) := by
  classical
  have h0 : P.length ≠ 0 := fun h => hne (List.length_eq_zero_iff.1 h)
  have hs0 : scalars[0]? = some (scalars[0]'(by omega)) := List.getElem?_eq_getElem (by omega)
  have hs0n : (scalars[0]'(by omega)).length = n := hn _ (List.getElem_mem _)
  have hlq : P.length = qs.length := hP.length_eq
  have hlN : scalars.length = Nss.length := hN.length_eq
  set Ns := Nss.map (Nat.ofDigits (2 ^ m)) with hNs
  have hNl : Ns.length = qs.length := by rw [hNs, List.length_map]; omega
  have hR : 1 ≤ (P.length + c - 1) / c := Nat.div_pos (by omega) (by omega)
  have htot : 1 ≤ m * n := Nat.one_le_iff_ne_zero.2 (Nat.mul_ne_zero (by omega) (by omega))
  unfold multiExpPar
  refine PCmp.assert (by simpa using hl) (PCmp.unwrap hs0 (PCmp.assert (by simp; omega) ?_))
  rw [hs0n]
  set R := (P.length + c - 1) / c with hRd
  have hRq : (qs.length + c - 1) / c = R := by rw [hRd, hlq]
  obtain ⟨cols, hcols⟩ : ∃ cols, cols = (List.range (m * n)).map (colBits Ns) := ⟨_, rfl⟩
  refine PCmp.bind (onMain_cmp (Q := fun r w s => r.1.Forall₂ (BitsL w s) cols ∧
      r.2.Forall₂ (EcW k (l.val bv) w s) ((List.range R).map fun i => 2 ^ i • A)) (fun r => (mov_bitsL r.1 _).and (mov_ecWs hv r.2 _))
    fun w hw s hs => hcols ▸ pipStart_cmp hf bv hb hA hm hm' hn (hN.imp fun _ _ h => h w hw s hs) hR
      (by rw [← hRq]; exact hok.dbl)) fun st S1 e1 hst => ?_
  -- the clumps
  have hchP := chunksOf_forall₂ c hP
  have hlch : (chunksOf c qs).length = R := by
    rw [(chunksOf_spec hc qs).2.2, ← hRq]
    rfl
  have hst2 : ∀ (w : Cell → ZMod p), Hon ext S1 w → ∀ s, Member S1 s → ∀ (i : ℕ) Q, st.2[i]? = some Q → EcW k (l.val bv) w s Q (2 ^ i • A) := by
    intro w hw s hs i Q hQ
    have h := (hst w hw s hs).2
    have hi : i < R := by
      have := (List.getElem?_eq_some_iff.1 hQ).1
      rw [h.length_eq, List.length_map, List.length_range] at this
      exact this
    exact forall₂_getElem? h i Q _ hQ (by rw [List.getElem?_map, List.getElem?_range hi]; rfl)
  refine PCmp.bind (parallelize_cmp (Q := fun x r w s => r.Forall₂ (EcW k (l.val bv) w s)
      (cols.map fun col => 2 ^ x.2 • A + dotG ((col.drop (x.2 * c)).take ((chunksOf c qs).getD x.2 []).length) ((chunksOf c qs).getD x.2 [])))
    (((chunksOf c P).zip st.2).zipIdx) (fun x r => mov_ecWs hv r _) ?_) fun mps S2 e2 hmps => ?_
  · intro x hx w hw s hs
    obtain ⟨⟨ch, T⟩, i⟩ := x
    have hx' := List.mk_mem_zipIdx_iff_getElem?.1 hx
    rw [List.getElem?_zip_eq_some] at hx'
    obtain ⟨hx1, hx2⟩ := hx'
    have hi : i < (chunksOf c P).length := (List.getElem?_eq_some_iff.1 hx1).1
    have hi2 : i < (chunksOf c qs).length := by rwa [← hchP.length_eq]
    have hq2 : (chunksOf c qs)[i]? = some (chunksOf c qs)[i] := List.getElem?_eq_getElem hi2
    have hgd : (chunksOf c qs).getD i [] = (chunksOf c qs)[i] := by rw [List.getD_eq_getElem?_getD, hq2]; rfl
    have hmemch : (chunksOf c qs)[i] ∈ chunksOf c qs := List.getElem_mem _
    have hch := forall₂_getElem? hchP i _ _ hx1 hq2
    obtain ⟨hcg, hcl⟩ := chunk_get hc i hq2
    simp only [hgd]
    refine pipTask_cmp (x := ((ch, T), i)) hf hb (hst2 w hw s hs i T hx2) (hch.imp fun _ _ h => h w (hw.mono e1) s (hs.mono e1)) ?_ ?_ ?_
      (hst w hw s hs).1 ?_
    · rw [hcg, List.length_take, List.length_drop]
      omega
    · intro q hq
      refine htor q ?_
      have : q ∈ (chunksOf c qs).flatten := List.mem_flatten.2 ⟨_, hmemch, hq⟩
      rwa [(chunksOf_spec hc qs).2.1] at this
    · exact hok.bucket ((chunksOf c qs)[i], i) (List.mk_mem_zipIdx_iff_getElem?.2 hq2)
    · intro col hcol
      rw [hcols] at hcol
      obtain ⟨j, -, rfl⟩ := List.mem_map.1 hcol
      rw [hcg, colBits, List.length_map, hNl, List.length_take, List.length_drop]
      show i * c + _ ≤ _
      omega
  -- the columns
  have hmps' : ∀ j < m * n, ∀ w, Hon ext S2 w → ∀ s, Member S2 s →
      mps.Forall₂ (fun mp g => ∃ P, mp[j]? = some P ∧ EcW k (l.val bv) w s P g) (pipCol A c qs Ns j) := by
    intro j hj w hw s hs
    have hst2l : st.2.length = R := by
      rw [(hst w (hw.mono e2) s (hs.mono e2)).2.length_eq, List.length_map, List.length_range]
    have hmpl : mps.length = R := by
      rw [← hmps.length_eq, List.length_zipIdx, List.length_zip, hchP.length_eq, hlch, hst2l, min_self]
    refine forall₂_of_getElem? (by simp [pipCol, hmpl, hlch]) fun i mp g hmp hg => ?_
    have hi : i < R := by
      have := (List.getElem?_eq_some_iff.1 hmp).1
      omega
    have hi1 : i < (chunksOf c P).length := by rw [hchP.length_eq]; omega
    have hi2 : i < (chunksOf c qs).length := by omega
    have hq2 : (chunksOf c qs)[i]? = some (chunksOf c qs)[i] := List.getElem?_eq_getElem hi2
    have hgd : (chunksOf c qs).getD i [] = (chunksOf c qs)[i] := by rw [List.getD_eq_getElem?_getD, hq2]; rfl
    have hx : (((chunksOf c P).zip st.2).zipIdx)[i]? = some (((chunksOf c P)[i], st.2[i]'(by omega)), i) := by
      rw [List.getElem?_zipIdx, List.getElem?_eq_getElem (by rw [List.length_zip]; omega), List.getElem_zip]
      simp
    have ht := forall₂_getElem? hmps i _ mp hx hmp w hw s hs
    simp only [hgd] at ht
    have hjm : j < mp.length := by rw [ht.length_eq, List.length_map, hcols, List.length_map, List.length_range]; exact hj
    refine ⟨mp[j], List.getElem?_eq_getElem hjm, ?_⟩
    refine forall₂_getElem? ht j _ _ (List.getElem?_eq_getElem hjm) ?_
    rw [pipCol, List.getElem?_map, List.getElem?_zipIdx, hq2] at hg
    simp only [Option.map_some, Option.some.injEq, Nat.zero_add] at hg
    rw [← hg, hcols, List.map_map, List.getElem?_map, List.getElem?_range hj]
    rfl
  refine PCmp.bind (parallelize_cmp (Q := fun j r w s => EcW k (l.val bv) w s r (pipSum A c qs Ns j)) (List.range (m * n))
    (fun j r => mov_ecW hv r _) ?_) fun agg S3 e3 hagg => ?_
  · intro j hj w hw s hs
    have hj := List.mem_range.1 hj
    have h := hmps' j hj w hw s hs
    rw [← pipCol_sum hc hNl]
    obtain ⟨g, gs, e⟩ : ∃ g gs, pipCol A c qs Ns j = g :: gs := by
      cases e : pipCol A c qs Ns j with
      | nil =>
        have := congrArg List.length e
        simp [pipCol, hlch] at this
        omega
      | cons g gs => exact ⟨g, gs, rfl⟩
    rw [e] at h ⊢
    rw [List.sum_cons]
    exact pipAgg_cmp hf h (hok.agg j hj g gs e)
  refine onMain_cmp (fun r => mov_ecW0 hv r _) fun w hw s hs => ?_
  have hg : agg.Forall₂ (EcW k (l.val bv) w s) ((List.range (m * n - 1)).map (pipSum A c qs Ns) ++ [pipSum A c qs Ns (m * n - 1)]) := by
    have : (List.range (m * n - 1)).map (pipSum A c qs Ns) ++ [pipSum A c qs Ns (m * n - 1)] = (List.range (m * n)).map (pipSum A c qs Ns) := by
      conv_rhs => rw [← Nat.sub_add_cancel htot, List.range_succ, List.map_append, List.map_singleton]
    rw [this, List.forall₂_map_right_iff]
    exact (hagg.imp fun _ _ h => h w hw s hs).flip
  have hlast := hok.last
  rw [hRq] at hlast
  refine (pipEnd_cmp hf hb hR (hst w (hw.mono (e2.trans e3)) s (hs.mono (e2.trans e3))).2 hg hlast).weaken ?_
  intro r s' hr
  have hNlt : ∀ N ∈ Ns, N < 2 ^ (m * n) := by
    intro N hN'
    obtain ⟨ds, hds, rfl⟩ := List.mem_map.1 hN'
    obtain ⟨i, hi, e⟩ := List.getElem_of_mem hds
    have hsc := (List.forall₂_iff_get.1 hN).2 i (by omega) hi
    have hlen : ds.length = n := by
      have h1 := (hsc w (hw.mono ((e1.trans e2).trans e3)) s (hs.mono ((e1.trans e2).trans e3))).1.length_eq
      simp only [List.length_map] at h1
      rw [← e]
      simp only [List.get_eq_getElem] at h1
      rw [← h1]
      exact hn _ (List.getElem_mem _)
    rw [pow_mul, ← hlen]
    refine Nat.ofDigits_lt_base_pow_length (Nat.one_lt_two_pow (by omega)) fun x hx => ?_
    have h2 := (hsc w (hw.mono ((e1.trans e2).trans e3)) s (hs.mono ((e1.trans e2).trans e3))).2
    rw [List.get_eq_getElem, e] at h2
    exact (h2 x hx).1
  have e1 : (List.range (m * n - 1)).map (pipSum A c qs Ns) ++ [pipSum A c qs Ns (m * n - 1)] = (List.range (m * n)).map (pipSum A c qs Ns) := by
    conv_rhs => rw [← Nat.sub_add_cancel htot, List.range_succ, List.map_append, List.map_singleton]
  rw [e1, List.length_map, List.length_range, Nat.sub_add_cancel htot] at hr
  have e2 : sumPow ((List.range (m * n)).map (pipSum A c qs Ns)) - (2 ^ (m * n) • (2 ^ R • A - A) - (2 ^ R • A - A)) =
      ((Nss.zip qs).map fun x => Nat.ofDigits (2 ^ m) x.1 • x.2).sum := by
    unfold pipSum
    rw [sumPow_map_add, sumPow_colBits _ _ _ hNlt, List.map_const', List.length_range, sumPow_const, hRq, add_sub_cancel_left, hNs, dotG_eq_zip]
  rwa [e2] at hr

/-- **`EccChip::variable_base_msm`** with at most 25 points. -/
theorem variableBaseMsm_cmp_few (hf : EcFitsC k) (hv : FieldMove k) (bv : F.V) (hb : CurveOk (l.val bv)) (rand : MsmRand F)
    {P : List (EcPt F)} (hne : P ≠ []) (h25 : P.length ≤ 25) {scalars : List (List (AV p))} (hl : P.length = scalars.length) {m wb n : ℕ} (hm : 1 ≤ m)
    (hm' : m ≤ numBits p) (hwb : 1 ≤ wb) (hn1 : 1 ≤ n) (hn : ∀ sc ∈ scalars, sc.length = n) {qs : List (ECurve (l.val bv))} {Nss : List (List ℕ)}
    (hP : P.Forall₂ (fun P q => PHolds ext S fun w s => EcW0 k (l.val bv) w s P q) qs)
    (hN : scalars.Forall₂ (fun sc Ns => PHolds ext S fun w s => NumsW m w s sc Ns) Nss)
    (htor : ∀ q ∈ qs, 2 • q = 0 → q = 0) {A : ECurve (l.val bv)} (hA : IsPt (l.val bv) (l.val rand.base.1) (l.val rand.base.2) A)
    (hok : MsmOk (l.val bv) (l.val rand.pair.1) A wb ((m * n + wb - 1) / wb) qs (Nss.map (Nat.ofDigits (2 ^ m)))) :
    PCmp tbl ext S (variableBaseMsm F bv rand P scalars m wb) (fun r S' => PHolds ext S' fun w s =>
      EcW0 k (l.val bv) w s r ((Nss.zip qs).map fun x => Nat.ofDigits (2 ^ m) x.1 • x.2).sum) := by
  unfold variableBaseMsm
  rw [if_pos h25]
  exact onMain_cmp (fun r => mov_ecW0 hv r _) fun w hw s hs => multiScalarMultiply_cmp hf bv hb rand hm hm' hwb hn1 hn
    (hP.imp fun _ _ h => h w hw s hs) hne (hN.imp fun _ _ h => h w hw s hs) hl htor hA hok

/-- **`EccChip::variable_base_msm`** with more than 25 points. -/
theorem variableBaseMsm_cmp_many (hf : EcFitsC k) (hv : FieldMove k) (bv : F.V) (hb : CurveOk (l.val bv)) (rand : MsmRand F)
    {P : List (EcPt F)} (h25 : 25 < P.length) {scalars : List (List (AV p))} (hl : P.length = scalars.length) {m wb n : ℕ} (hm : 1 ≤ m)
    (hm' : m ≤ numBits p) (hwb : 1 ≤ wb) (hn1 : 1 ≤ n) (hn : ∀ sc ∈ scalars, sc.length = n) {qs : List (ECurve (l.val bv))} {Nss : List (List ℕ)}
    (hP : P.Forall₂ (fun P q => PHolds ext S fun w s => EcW0 k (l.val bv) w s P q) qs)
    (hN : scalars.Forall₂ (fun sc Ns => PHolds ext S fun w s => NumsW m w s sc Ns) Nss)
    (htor : ∀ q ∈ qs, 2 • q = 0 → q = 0) {A : ECurve (l.val bv)} (hA : IsPt (l.val bv) (l.val rand.base.1) (l.val rand.base.2) A)
    (hok : PipOk (l.val bv) (l.val rand.pair.1) A wb (m * n) qs (Nss.map (Nat.ofDigits (2 ^ m)))) :
    PCmp tbl ext S (variableBaseMsm F bv rand P scalars m wb) (fun r S' => PHolds ext S' fun w s =>
      EcW0 k (l.val bv) w s r ((Nss.zip qs).map fun x => Nat.ofDigits (2 ^ m) x.1 • x.2).sum) := by
  unfold variableBaseMsm
  rw [if_neg (by omega)]
  exact multiExpPar_cmp hf hv bv hb rand (fun h => by simp [h] at h25) hl hm hm' hwb hn1 hn hP hN htor hA hok

end H2
