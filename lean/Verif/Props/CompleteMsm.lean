import Verif.Ecc.PipCount
import Verif.Props.CompleteEcc

/-!
# Property C73 (multi-threaded multi-scalar multiplication: an honest prover succeeds)

The functions run on a `Pool` of contexts, one for each task of `parallelize_core`.  `PCompletes tbl ext S m Q`: the run of `m` from the pool
`S` does not panic, the honest assignment `poolW ext S'` of all threads of the resulting pool `S'` (every cell gets the value computed for it;
`ext` for cells of other pools) satisfies **all** constraints of **all** threads, the pool can be used further (`PGood`), and the
result satisfies `Q (poolW ext S') r`.  `PHolds ext S φ`: whatever is assigned later, `φ` holds in every context of the pool or created in it;
this is how the inputs are described, for instance after `onMain (loadPoint …)`.
-/

set_option autoImplicit false
set_option linter.unusedSectionVars false
namespace H2
variable {p : ℕ} [Fact p.Prime] {ext : Cell → ZMod p} {S : Pool p}
variable {F : FieldOps p} {K : Type} [Field K] [DecidableEq K] {tbl : ZMod p → Prop} {l : FieldLaws F K tbl} {k : FieldCmp l} [SelIndCmp k] {b : K}

theorem no_two_torsion {G : Type} [AddCommGroup G] {n : ℕ} (hn : n.Prime) (h2 : n ≠ 2) (hG : Nat.card G = n) (q : G) (hq : 2 • q = 0) : q = 0 := by
  by_contra h0
  exact smul_ne_zero' hn hG (not_dvd_two_pow hn h2 1) h0 (by rw [← natCast_zsmul] at hq; exact hq)

theorem zip_ofDigits {G : Type} [AddCommGroup G] (B : ℕ) (Nss : List (List ℕ)) (qs : List G) :
    ((Nss.zip qs).map fun x => Nat.ofDigits B x.1 • x.2) = ((Nss.map (Nat.ofDigits B)).zip qs).map fun x => x.1 • x.2 := by
  rw [List.zip_map_left, List.map_map]
  rfl

/-- **C73** `pippenger::multi_exp_par`: for every list of points (infinity included) and of scalars, and every random pair for the final
strict subtraction, all but at most `pipBadBound` random points let the honest prover produce a satisfying assignment of all threads, in which the
result is `∑ Nᵢ • qᵢ`. -/
theorem C73_multi_exp_par {n : ℕ} (hn : n.Prime) (h2 : n ≠ 2) {bv : F.V} (hG : Nat.card (ECurve (l.val bv)) = n) (hf : EcFitsC k)
    (hv : FieldMove k) (hb : CurveOk (l.val bv)) (hg : PGood tbl ext S) (hS : S.threads ≠ []) (pair : F.V × F.V)
    {Ps : List (EcPt F)} {scalars : List (List (AV p))} {m c len N : ℕ} (hm : 1 ≤ m) (hm' : m ≤ numBits p) (hc : 1 ≤ c) (hlen : 1 ≤ len)
    (hsl : ∀ sc ∈ scalars, sc.length = len) {qs : List (ECurve (l.val bv))} {Nss : List (List ℕ)}
    (hP : Ps.Forall₂ (fun P q => PHolds ext S fun w s => EcW0 k (l.val bv) w s P q) qs) (hne : Ps ≠ [])
    (hs : scalars.Forall₂ (fun sc Ns => PHolds ext S fun w s => NumsW m w s sc Ns) Nss) (hl : Ps.length = scalars.length)
    (ht : TwoGen n N) (hR : (Ps.length + c - 1) / c ≤ N) (htN : m * len ≤ N) :
    {A : ECurve (l.val bv) | ∃ base : F.V × F.V, IsPt (l.val bv) (l.val base.1) (l.val base.2) A ∧
      ¬ PCompletes tbl ext S (multiExpPar F bv ⟨base, pair⟩ Ps scalars m c) (fun w r =>
        EcRep0 l (l.val bv) w r (((Nss.map (Nat.ofDigits (2 ^ m))).zip qs).map fun x => x.1 • x.2).sum)}.ncard
      ≤ pipBadBound c ((Ps.length + c - 1) / c) (m * len) := by
  have hfin : Finite (ECurve (l.val bv)) := Nat.finite_of_card_ne_zero (by rw [hG]; exact hn.ne_zero)
  have hql : Ps.length = qs.length := hP.length_eq
  have hpos : 1 ≤ qs.length := by
    rw [← hql]
    exact Nat.one_le_iff_ne_zero.2 fun h => hne (List.length_eq_zero_iff.1 h)
  have htot : 1 ≤ m * len := Nat.one_le_iff_ne_zero.2 (Nat.mul_ne_zero (by omega) (by omega))
  rw [hql] at hR ⊢
  refine le_trans (Set.ncard_le_ncard ?_ (Set.toFinite _)) (pip_bad_card hn h2 hG (l.val pair.1)
    (qs := qs) (Ns := Nss.map (Nat.ofDigits (2 ^ m))) hc htot hpos (by rw [List.length_map, ← hs.length_eq, ← hl, hql]) ht hR htN)
  rintro A ⟨base, hA, hbad⟩ hok
  refine hbad ?_
  rw [← zip_ofDigits]
  exact (multiExpPar_cmp hf hv bv hb ⟨base, pair⟩ hne hl hm hm' hc hlen hsl hP hs (fun q _ => no_two_torsion hn h2 hG q) hA hok).run'
    (fun r w s h => h.rep) hS hg

/-- How many random points can make `variable_base_msm` fail, according to the algorithm that the number `k` of points selects. -/
def vbBadBound (wb tot k : ℕ) : ℕ :=
  if k ≤ 25 then msmBadBound wb ((tot + wb - 1) / wb) k else pipBadBound wb ((k + wb - 1) / wb) tot

/-- **C73** `EccChip::variable_base_msm`, for every number of points. -/
theorem C73_variable_base_msm {n : ℕ} (hn : n.Prime) (h2 : n ≠ 2) {bv : F.V} (hG : Nat.card (ECurve (l.val bv)) = n) (hf : EcFitsC k)
    (hv : FieldMove k) (hb : CurveOk (l.val bv)) (hg : PGood tbl ext S) (hS : S.threads ≠ []) (pair : F.V × F.V)
    {Ps : List (EcPt F)} {scalars : List (List (AV p))} {m wb len N : ℕ} (hm : 1 ≤ m) (hm' : m ≤ numBits p) (hwb : 1 ≤ wb) (hlen : 1 ≤ len)
    (hsl : ∀ sc ∈ scalars, sc.length = len) {qs : List (ECurve (l.val bv))} {Nss : List (List ℕ)}
    (hP : Ps.Forall₂ (fun P q => PHolds ext S fun w s => EcW0 k (l.val bv) w s P q) qs) (hne : Ps ≠ [])
    (hs : scalars.Forall₂ (fun sc Ns => PHolds ext S fun w s => NumsW m w s sc Ns) Nss) (hl : Ps.length = scalars.length)
    (hroom : 2 ^ (wb + 25) < n) (ht : TwoGen n N) (hR : (Ps.length + wb - 1) / wb ≤ N) (htN : m * len ≤ N) :
    {A : ECurve (l.val bv) | ∃ base : F.V × F.V, IsPt (l.val bv) (l.val base.1) (l.val base.2) A ∧
      ¬ PCompletes tbl ext S (variableBaseMsm F bv ⟨base, pair⟩ Ps scalars m wb) (fun w r =>
        EcRep0 l (l.val bv) w r (((Nss.map (Nat.ofDigits (2 ^ m))).zip qs).map fun x => x.1 • x.2).sum)}.ncard
      ≤ vbBadBound wb (m * len) Ps.length := by
  unfold vbBadBound
  split
  · rename_i h25
    have hfin : Finite (ECurve (l.val bv)) := Nat.finite_of_card_ne_zero (by rw [hG]; exact hn.ne_zero)
    have hql : Ps.length = qs.length := hP.length_eq
    have hpos : 1 ≤ qs.length := by
      rw [← hql]
      exact Nat.one_le_iff_ne_zero.2 fun h => hne (List.length_eq_zero_iff.1 h)
    have hroom' : 2 ^ (wb + qs.length) < n := lt_of_le_of_lt (Nat.pow_le_pow_right (by norm_num) (by omega)) hroom
    rw [hql]
    refine le_trans (Set.ncard_le_ncard ?_ (Set.toFinite _)) (msm_bad_card hn hG (l.val pair.1)
      (wb := wb) (nw := (m * len + wb - 1) / wb) (qs := qs) (Ns := Nss.map (Nat.ofDigits (2 ^ m))) hpos
      (by rw [List.length_map, ← hs.length_eq, ← hl, hql]) hwb hroom')
    rintro A ⟨base, hA, hbad⟩ hok
    refine hbad ?_
    rw [← zip_ofDigits]
    exact (variableBaseMsm_cmp_few hf hv bv hb ⟨base, pair⟩ hne h25 hl hm hm' hwb hlen hsl hP hs (fun q _ => no_two_torsion hn h2 hG q) hA hok).run'
      (fun r w s h => h.rep) hS hg
  · rename_i h25
    have h := C73_multi_exp_par hn h2 hG hf hv hb hg hS pair hm hm' hwb hlen hsl hP hne hs hl ht hR htN
    simp only [variableBaseMsm, h25, if_false]
    exact h

/-- **C73** `fixed_base::msm_par`: for every list of finite points and of scalars, all but at most `n * fbMsmBadBound` of the `n²` pairs of random points
let the honest prover produce a satisfying assignment of all threads, in which the result is `∑ Nᵢ • Qᵢ`. -/
theorem C73_fixed_base_msm_par {n : ℕ} (hn : n.Prime) (h2 : n ≠ 2) {bv : F.V} (hG : Nat.card (ECurve (l.val bv)) = n) (hf : EcFitsC k)
    (hv : FieldMove k) (hg : PGood tbl ext S) (hS : S.threads ≠ []) (pair : F.V × F.V)
    {C : NativeCurve F} {φ : C.G → ECurve (l.val bv)} (hC : NativeLaws l (l.val bv) C φ) {points : List C.G} (h0 : ∀ g ∈ points, φ g ≠ 0)
    (hne : points ≠ []) {scalars : List (List (AV p))} {m wb len : ℕ} (hm : 1 ≤ m) (hm' : m ≤ numBits p) (hwb : 1 ≤ wb) (hwp : wb < p)
    (hwn : 2 ^ wb ≤ n) (hlen : 1 ≤ len) (hsl : ∀ sc ∈ scalars, sc.length = len) {Nss : List (List ℕ)}
    (hs : scalars.Forall₂ (fun sc Ns => PHolds ext S fun w s => NumsW m w s sc Ns) Nss) (hl : points.length = scalars.length) :
    {AA : ECurve (l.val bv) × ECurve (l.val bv) | ∃ base base2 : F.V × F.V, IsPt (l.val bv) (l.val base.1) (l.val base.2) AA.1 ∧
      IsPt (l.val bv) (l.val base2.1) (l.val base2.2) AA.2 ∧
      ¬ PCompletes tbl ext S (fixedMsmPar F C bv ⟨base, base2, pair⟩ points scalars m wb) (fun w r =>
        EcRep0 l (l.val bv) w r (((Nss.map (Nat.ofDigits (2 ^ m))).zip points).map fun x => x.1 • φ x.2).sum)}.ncard
      ≤ n * fbMsmBadBound ((m * len + wb - 1) / wb) points.length := by
  have hfin : Finite (ECurve (l.val bv)) := Nat.finite_of_card_ne_zero (by rw [hG]; exact hn.ne_zero)
  have hb := fbMsm_bad_card hn h2 hG (l.val pair.1) (wb := wb) (nw := (m * len + wb - 1) / wb) (Qs := points.map φ)
    (Ns := Nss.map (Nat.ofDigits (2 ^ m))) (by rw [List.length_map, List.length_map, hl, hs.length_eq])
  rw [List.length_map] at hb
  refine le_trans (Set.ncard_le_ncard ?_ (Set.toFinite _)) hb
  rintro ⟨A, A2⟩ ⟨base, base2, hA, hA2, hbad⟩ hok
  refine hbad ?_
  have e : (((Nss.map (Nat.ofDigits (2 ^ m))).zip points).map fun x => x.1 • φ x.2) = fbMults (points.map φ) (Nss.map (Nat.ofDigits (2 ^ m))) := by
    apply List.ext_getElem
    · simp [fbMults, Nat.min_comm]
    · intro i _ _
      simp [fbMults]
  rw [e]
  exact (fixedMsmPar_cmp hf hv bv ⟨base, base2, pair⟩ hC hne hl hm hm' hwb hwp hlen hsl (fun g hg' => fbSafe_of_prime hn hwn h2 (h0 g hg')
    (by rw [← hG]; exact card_nsmul_eq_zero')) hs hA hA2 hok).run' (fun r w s h => h.rep) hS hg

/-! ### secp256k1 -/

/-- No power of two up to `2 ^ 1024` is `1`, `-1` or `3` modulo the order of secp256k1 (the trivial ones excepted). -/
theorem twoGen_secp : TwoGen secpN 1024 := by
  have h : ∀ i < 1025, (2 ^ i % secpN ≠ 1 ∨ i = 0) ∧ (2 ^ i + 1) % secpN ≠ 0 ∧ 2 ^ i % secpN ≠ 3 := by decide +kernel
  refine ⟨fun i h1 hi hd => ?_, fun i h1 hi hd => ?_, fun i h1 hi hd => ?_⟩
  · rcases (h i (by omega)).1 with h' | h'
    · refine h' ?_
      have h3 : ((2 ^ i : ℕ) : ℤ) ≡ ((1 : ℕ) : ℤ) [ZMOD secpN] := (Int.modEq_iff_dvd.2 (by push_cast; exact hd)).symm
      have := Int.natCast_modEq_iff.1 h3
      exact Eq.trans this (Nat.mod_eq_of_lt (by decide +kernel))
    · omega
  · refine (h i (by omega)).2.1 (Nat.mod_eq_zero_of_dvd ?_)
    exact_mod_cast hd
  · refine (h i (by omega)).2.2 ?_
    have h3 : ((2 ^ i : ℕ) : ℤ) ≡ ((3 : ℕ) : ℤ) [ZMOD secpN] := (Int.modEq_iff_dvd.2 (by push_cast; exact hd)).symm
    have := Int.natCast_modEq_iff.1 h3
    exact Eq.trans this (Nat.mod_eq_of_lt (by decide +kernel))

/-- **C73** for secp256k1 over BN254, three limbs of 88 bits, windows of 4 bits, up to 4096 points. -/
theorem C73_variable_base_msm_secp256k1 {ext : Cell → ZMod bn254R} {S : Pool bn254R} (hg : PGood (RangeTable bn254R 16) ext S) (hS : S.threads ≠ [])
    (pair : ZMod secpP × ZMod secpP) {Ps : List (EcPt secpChip.ops)} {scalars : List (List (AV bn254R))} (hsl : ∀ sc ∈ scalars, sc.length = 3)
    {qs : List (ECurve (7 : ZMod secpP))} {Nss : List (List ℕ)}
    (hP : Ps.Forall₂ (fun P q => PHolds ext S fun w s => EcW0 secpK (7 : ZMod secpP) w s P q) qs) (hne : Ps ≠ [])
    (hs : scalars.Forall₂ (fun sc Ns => PHolds ext S fun w s => NumsW 88 w s sc Ns) Nss) (hl : Ps.length = scalars.length) (h4096 : Ps.length ≤ 4096) :
    {A : ECurve (7 : ZMod secpP) | ∃ base : ZMod secpP × ZMod secpP, IsPt (7 : ZMod secpP) base.1 base.2 A ∧
      ¬ PCompletes (RangeTable bn254R 16) ext S (variableBaseMsm secpChip.ops (7 : ZMod secpP) ⟨base, pair⟩ Ps scalars 88 4) (fun w r =>
        EcRep0 (FpChip.laws secpCmp.ok) (7 : ZMod secpP) w r (((Nss.map (Nat.ofDigits (2 ^ 88))).zip qs).map fun x => x.1 • x.2).sum)}.ncard
      ≤ vbBadBound 4 264 Ps.length :=
  C73_variable_base_msm (l := FpChip.laws secpCmp.ok) (k := secpK) (n := secpN) Fact.out (by decide +kernel) (bv := (7 : ZMod secpP)) card_secp256k1
    (ecFitsC_88_3 (by decide +kernel) secpCmp) (FpChip.move secpCmp) curveOk_secp256k1 hg hS pair (m := 88) (wb := 4) (by norm_num)
    (by rw [numBits, size_bn254R]; norm_num) (by norm_num) (by norm_num) hsl hP hne hs hl (by decide +kernel) twoGen_secp (by omega) (by norm_num)

/-- For 1000 points at most 143899 of the about `2 ^ 256` random points are bad. -/
example : vbBadBound 4 264 1000 ≤ 143899 := by decide +kernel

theorem replicate_forall₂ {α β : Type} {R : α → β → Prop} {a : α} {b : β} (h : R a b) : ∀ n : ℕ, (List.replicate n a).Forall₂ R (List.replicate n b)
  | 0 => .nil
  | n + 1 => .cons h (replicate_forall₂ h n)

/-- The hypotheses of C73 are met: starting from an empty pool, load any point of the curve and any limb, and use them 26 times; then
`variable_base_msm` takes the road of `multi_exp_par`. -/
example (ext : Cell → ZMod bn254R) (x y : ZMod secpP) (q : ECurve (7 : ZMod secpP)) (hq : IsPt (7 : ZMod secpP) x y q) (a : ℕ)
    (ha : a < 2 ^ 88) :
    ∃ r S, onMain (do let P ← loadPoint secpChip.ops (7 : ZMod secpP) (x, y)
                      let l1 ← loadConstant (a : ZMod bn254R)
                      pure (P, l1)) (⟨false, 0, "", []⟩ : Pool bn254R) = some (r, S) ∧
      PGood (RangeTable bn254R 16) ext S ∧ S.threads ≠ [] ∧
      (List.replicate 26 r.1).Forall₂ (fun P q => PHolds ext S fun w s => EcW0 secpK (7 : ZMod secpP) w s P q) (List.replicate 26 q) ∧
      (List.replicate 26 [r.2, r.2, r.2]).Forall₂ (fun sc Ns => PHolds ext S fun w s => NumsW 88 w s sc Ns) (List.replicate 26 [a, a, a]) := by
  have hap : a < bn254R := ha.trans_le (by decide +kernel)
  have h : PCmp (RangeTable bn254R 16) ext (⟨false, 0, "", []⟩ : Pool bn254R) (onMain (do
      let P ← loadPoint secpChip.ops (7 : ZMod secpP) (x, y)
      let l1 ← loadConstant (a : ZMod bn254R)
      pure (P, l1))) (fun (r : EcPt secpChip.ops × AV bn254R) S' => PHolds ext S' fun w s => EcW secpK (7 : ZMod secpP) w s r.1 q ∧ Con w s r.2 (a : ZMod bn254R)) := by
    refine onMain_cmp (Q := fun (r : EcPt secpChip.ops × AV bn254R) w s => EcW secpK (7 : ZMod secpP) w s r.1 q ∧ Con w s r.2 (a : ZMod bn254R))
      (fun r => (mov_ecW (FpChip.move secpCmp) r.1 q).and (Mov.con r.2 _)) fun w _ s _ => ?_
    refine Cmp.bind (loadPoint_cmp (k := secpK) (ecFitsC_88_3 (by decide +kernel) secpCmp) (7 : ZMod secpP) hq) fun P s1 e1 hP => ?_
    exact Cmp.bind (loadConstant_cmp (a : ZMod bn254R)) fun l1 s2 e2 h1 => Cmp.pure ⟨hP.mono e2, h1⟩
  obtain ⟨r, S, h1, h2, -, h3⟩ := h (pgood_new 0 "")
  refine ⟨r, S, h1, h2, ?_, ?_, ?_⟩
  · intro h0
    unfold onMain at h1
    simp only [List.getLast?_nil, Option.map_eq_some_iff] at h1
    obtain ⟨z, -, hz⟩ := h1
    have := congrArg (fun x : _ × Pool bn254R => x.2.threads) hz
    simp only [h0] at this
    simp at this
  · have : PHolds ext S fun w s => EcW0 secpK (7 : ZMod secpP) w s r.1 q := h3.imp fun w s h => h.1.zero
    refine replicate_forall₂ ?_ 26
    exact this
  · have : PHolds ext S fun w s => NumsW 88 w s [r.2, r.2, r.2] [a, a, a] := h3.imp fun w s h =>
      ⟨.cons h.2 (.cons h.2 (.cons h.2 .nil)), fun n hn => by
        have : n = a := by simpa using hn
        exact this ▸ ⟨ha, hap⟩⟩
    refine replicate_forall₂ ?_ 26
    exact this

/-- And those of the fixed base theorem: the generator (any finite point) of secp256k1, twice, with scalars of three limbs. -/
example {ext : Cell → ZMod bn254R} {S : Pool bn254R} (hg : PGood (RangeTable bn254R 16) ext S) (hS : S.threads ≠ [])
    (pair : ZMod secpP × ZMod secpP) (g : ECurve (7 : ZMod secpP)) (h0 : g ≠ 0) {sc : List (AV bn254R)} (hsc : sc.length = 3) {Ns : List ℕ}
    (hs : PHolds ext S fun w s => NumsW 88 w s sc Ns) :
    {AA : ECurve (7 : ZMod secpP) × ECurve (7 : ZMod secpP) | ∃ base base2 : ZMod secpP × ZMod secpP, IsPt (7 : ZMod secpP) base.1 base.2 AA.1 ∧
      IsPt (7 : ZMod secpP) base2.1 base2.2 AA.2 ∧
      ¬ PCompletes (RangeTable bn254R 16) ext S (fixedMsmPar secpChip.ops (groupCurve secpChip (7 : ZMod secpP)) (7 : ZMod secpP) ⟨base, base2, pair⟩
        [g, g] [sc, sc] 88 4) (fun w r => EcRep0 (FpChip.laws secpCmp.ok) (7 : ZMod secpP) w r
          ((([Ns, Ns].map (Nat.ofDigits (2 ^ 88))).zip [g, g]).map fun x => x.1 • x.2).sum)}.ncard ≤ secpN * 275 := by
  have h := C73_fixed_base_msm_par (l := FpChip.laws secpCmp.ok) (k := secpK) (n := secpN) Fact.out (by decide +kernel) (bv := (7 : ZMod secpP))
    card_secp256k1 (ecFitsC_88_3 (by decide +kernel) secpCmp) (FpChip.move secpCmp) hg hS pair
    (groupCurve_laws secpCmp.ok (7 : ZMod secpP)) (points := [g, g]) (by
      intro x hx
      rcases List.mem_cons.1 hx with rfl | hx
      · exact h0
      · rw [List.mem_singleton.1 hx]
        exact h0) (by simp) (scalars := [sc, sc]) (m := 88) (wb := 4) (len := 3) (by norm_num)
    (by rw [numBits, size_bn254R]; norm_num) (by norm_num) (by decide +kernel) (by decide +kernel) (by norm_num) (by simpa using hsc)
    (Nss := [Ns, Ns]) (.cons hs (.cons hs .nil)) rfl
  exact h

end H2
