import Verif.Ecc.CompleteFixed
import Verif.Ecc.CompleteConcrete
import Verif.Props.Ecc

/-!
# Properties C67, C68, C69 (elliptic curve operations: an honest prover succeeds)

`EcW k b ext s P g`: in the honest assignment of the state `s` the coordinates of `P` are the canonical representatives of those of
the finite curve point `g`; `EcW0` also allows `(0, 0)` for infinity.  `Completes tbl ext s m Q`: the run of `m` from `s` does not
panic, the honest assignment satisfies all constraints of the resulting circuit, and the result satisfies `Q`.

The theorems are for any field chip satisfying the soundness laws `l` and the completeness laws `k` (`FpChip.cmp`: every `FpChip` with
suitable parameters) whose parameters leave room (`EcFitsC`; `ecFitsC_88_3`).
-/

set_option autoImplicit false
set_option linter.unusedSectionVars false
namespace H2
variable {p : ℕ} [Fact p.Prime] {ext : Cell → ZMod p} {s : Ctx p}
variable {F : FieldOps p} {K : Type} [Field K] [DecidableEq K] {tbl : ZMod p → Prop} {l : FieldLaws F K tbl} {k : FieldCmp l} {b : K}

/-! ### C67: point operations -/

/-- C67: addition and subtraction of points which are neither equal nor opposite, strict or not. -/
theorem C67_add_sub_unequal (hf : EcFitsC k) (hg : Good tbl ext s) {P Q : EcPt F} {strict : Bool} {g1 g2 : ECurve b}
    (hP : EcW k b ext s P g1) (hQ : EcW k b ext s Q g2) (n1 : g1 ≠ g2) (n2 : g1 ≠ -g2) :
    Completes tbl ext s (ecAddUnequal F (.nonStrict P) (.nonStrict Q) strict) (fun r s' => EcW k b ext s' r (g1 + g2)) ∧
    Completes tbl ext s (ecSubUnequal F (.nonStrict P) (.nonStrict Q) strict) (fun r s' => EcW k b ext s' r (g1 - g2)) :=
  ⟨(ecAddUnequal_cmp hf (P := .nonStrict P) (Q := .nonStrict Q) hP hQ n1 n2).run hg,
   (ecSubUnequal_cmp hf (P := .nonStrict P) (Q := .nonStrict Q) hP hQ n1 n2).run hg⟩

/-- C67: doubling any point which is not of order two. -/
theorem C67_double (hf : EcFitsC k) (hb : CurveOk b) (hg : Good tbl ext s) {P : EcPt F} {g : ECurve b} (hP : EcW k b ext s P g)
    (h2 : 2 • g ≠ 0) : Completes tbl ext s (ecDouble F P) (fun r s' => EcW k b ext s' r (2 • g)) := (ecDouble_cmp hf hb hP h2).run hg

theorem C67_double_and_add_unequal (hf : EcFitsC k) (hg : Good tbl ext s) {P Q : EcPt F} {strict : Bool} {g1 g2 : ECurve b}
    (hP : EcW k b ext s P g1) (hQ : EcW k b ext s Q g2) (n1 : g1 ≠ g2) (n2 : g1 ≠ -g2) (n3 : g1 ≠ g1 + g2) (n4 : g1 ≠ -(g1 + g2)) :
    Completes tbl ext s (ecDoubleAndAddUnequal F (.nonStrict P) (.nonStrict Q) strict) (fun r s' => EcW k b ext s' r (2 • g1 + g2)) :=
  (ecDoubleAndAddUnequal_cmp hf (P := .nonStrict P) (Q := .nonStrict Q) hP hQ n1 n2 n3 n4).run hg

/-- C67: `ec_sub_strict` completes for all finite points which are not opposite (equal ones included), if the first coordinate of the
random pair is not that of the second point. -/
theorem C67_sub_strict (hf : EcFitsC k) (hg : Good tbl ext s) {rand : F.V × F.V} {P Q : EcPt F} {g1 g2 : ECurve b}
    (hP : EcW k b ext s P g1) (hQ : EcW k b ext s Q g2) (hne : g1 = -g2 → g1 = g2) (hr : ∀ Y, ¬ IsPt b (l.val rand.1) Y g2) :
    Completes tbl ext s (ecSubStrict F rand P Q) (fun r s' => EcW0 k b ext s' r (g1 - g2)) := (ecSubStrict_cmp hf hP hQ hne hr).run hg

theorem C67_negate (hg : Good tbl ext s) {P : EcPt F} {g : ECurve b} (hP : EcW0 k b ext s P g) :
    Completes tbl ext s (ecNegate F P) (fun r s' => EcW0 k b ext s' r (-g)) := (ecNegate_cmp hP).run hg

theorem C67_select (hg : Good tbl ext s) {P Q : EcPt F} {sel : AV p} {g1 g2 : ECurve b} {t : Bool} (hP : EcW0 k b ext s P g1)
    (hQ : EcW0 k b ext s Q g2) (hs : Con ext s sel (if t then 1 else 0)) :
    Completes tbl ext s (ecSelect F P Q sel) (fun r s' => EcW0 k b ext s' r (if t then g1 else g2)) :=
  (ecSelect_cmp0 (t := t = true) hP hQ (by simpa [bit] using hs)).run hg

/-- C67: every finite point of the curve can be loaded, and every point can be assigned. -/
theorem C67_load (hf : EcFitsC k) (hg : Good tbl ext s) {bv : F.V} {v : F.V × F.V} {g : ECurve (l.val bv)} :
    (IsPt (l.val bv) (l.val v.1) (l.val v.2) g →
      Completes tbl ext s (loadPoint F bv v) (fun r s' => EcW k (l.val bv) ext s' r g)) ∧
    (IsPt0 (l.val bv) (l.val v.1) (l.val v.2) g →
      Completes tbl ext s (assignPoint F bv v) (fun r s' => EcW0 k (l.val bv) ext s' r g)) :=
  ⟨fun h => (loadPoint_cmp hf bv h).run hg, fun h => (assignPoint_cmp hf bv h).run hg⟩

theorem C67_is_on_curve_or_infinity (hf : EcFitsC k) (hg : Good tbl ext s) {bv : F.V} {P : EcPt F} {X Y : K} (hP : XYW k ext s P X Y) :
    Completes tbl ext s (isOnCurveOrInfinity F bv P) (fun r s' =>
      Con ext s' r (if Y ^ 2 = X ^ 3 + l.val bv ∨ (X = 0 ∧ Y = 0) then 1 else 0)) := (isOnCurveOrInfinity_cmp hf bv hP).run hg

theorem C67_is_equal (hb : CurveOk b) [DecidableEq (ECurve b)] (hg : Good tbl ext s) {P Q : EcPt F} {g1 g2 : ECurve b}
    (hP : EcW0 k b ext s P g1) (hQ : EcW0 k b ext s Q g2) :
    Completes tbl ext s (ecIsEqual F P Q) (fun r s' => Con ext s' r (if g1 = g2 then 1 else 0)) ∧
    (g1 = g2 → Completes tbl ext s (ecAssertEqual F P Q) (fun _ _ => True)) := by
  refine ⟨(ecIsEqual_cmp hb hP hQ).run hg, ?_⟩
  rintro rfl
  exact (ecAssertEqual_cmp hb hP hQ).run hg

/-- C67: `EccChip::sum` completes when the running sums, starting from the random point `g`, never meet a point equal or opposite to
the next one (`SumOk`), and the sum is neither infinity nor `- 2 g`. -/
theorem C67_sum (hf : EcFitsC k) (hg : Good tbl ext s) {bv : F.V} {v : F.V × F.V} {g : ECurve (l.val bv)}
    (hv : IsPt (l.val bv) (l.val v.1) (l.val v.2) g) {Ps : List (EcPt F)} {gs : List (ECurve (l.val bv))}
    (hs : Ps.Forall₂ (EcW k (l.val bv) ext s) gs) (ho : SumOk g gs) (n1 : g + gs.sum ≠ g) (n2 : g + gs.sum ≠ -g) :
    Completes tbl ext s (ecSum F bv v Ps) (fun r s' => EcW k (l.val bv) ext s' r gs.sum) := (ecSum_cmp hf bv hv hs ho n1 n2).run hg

/-- A circuit point cannot honestly stand for two curve points. -/
theorem C67_unique (hb : CurveOk b) {P : EcPt F} {g1 g2 : ECurve b} (h1 : EcW0 k b ext s P g1) (h2 : EcW0 k b ext s P g2) :
    g1 = g2 := h1.rep.unique hb h2.rep

/-! ### C68: multiplication by scalars, for almost all random points -/

variable [SelIndCmp k]

/-- The cells of the scalar honestly hold `m`-bit numbers, which spell `N`. -/
def ScalarW (m : ℕ) (ext : Cell → ZMod p) (s : Ctx p) (scalar : List (AV p)) (N : ℕ) : Prop :=
  ∃ Ns, NumsW m ext s scalar Ns ∧ Nat.ofDigits (2 ^ m) Ns = N

theorem scalarMultiply_cmp (hf : EcFitsC k) (bv : F.V) (hb : CurveOk (l.val bv)) (rand : MsmRand F)
    {P : EcPt F} {scalar : List (AV p)} {m wb : ℕ} (hm : 1 ≤ m) (hm' : m ≤ numBits p) (hwb : 1 ≤ wb) (hne : scalar ≠ [])
    {q : ECurve (l.val bv)} {N : ℕ} (hP : EcW0 k (l.val bv) ext s P q) (hs : ScalarW m ext s scalar N)
    (htor : 2 • q = 0 → q = 0) {A : ECurve (l.val bv)} (hA : IsPt (l.val bv) (l.val rand.base.1) (l.val rand.base.2) A)
    (hok : MsmOk (l.val bv) (l.val rand.pair.1) A wb ((m * scalar.length + wb - 1) / wb) [q] [N]) :
    Cmp tbl ext s (scalarMultiply F bv rand P scalar m wb) (fun r s' => EcW0 k (l.val bv) ext s' r (N • q)) := by
  obtain ⟨Ns, hs, rfl⟩ := hs
  have hl : scalar.length ≠ 0 := fun h => hne (List.length_eq_zero_iff.1 h)
  refine Cmp.assert (by simpa using hl) (Cmp.assert (by simpa using hm') (Cmp.assert (by simp; omega) ?_))
  refine (multiScalarMultiply_cmp (n := scalar.length) (qs := [q]) (Nss := [Ns]) hf bv hb rand hm hm' hwb (by omega) (by simp) (.cons hP .nil)
    (by simp) (.cons hs .nil) rfl (by simpa using htor) hA hok).weaken fun r s' h => ?_
  simpa using h

/-- **C68** `multi_scalar_multiply`: whatever the points (infinity included), the scalars and the random pair, all but at most
`msmBadBound` of the points of the curve, drawn as the random base point, lead to an accepting circuit with the right result. -/
theorem C68_multi_scalar_multiply {n : ℕ} (hn : n.Prime) {bv : F.V} (hG : Nat.card (ECurve (l.val bv)) = n) (hf : EcFitsC k)
    (hb : CurveOk (l.val bv)) (hg : Good tbl ext s) (pair : F.V × F.V) {Ps : List (EcPt F)} {scalars : List (List (AV p))} {m wb len : ℕ}
    (hm : 1 ≤ m) (hm' : m ≤ numBits p) (hwb : 1 ≤ wb) (hlen : 1 ≤ len) (hsl : ∀ sc ∈ scalars, sc.length = len)
    {qs : List (ECurve (l.val bv))} {Ns : List ℕ} (hP : Ps.Forall₂ (EcW0 k (l.val bv) ext s) qs) (hne : Ps ≠ [])
    (hs : scalars.Forall₂ (ScalarW m ext s) Ns) (hl : Ps.length = scalars.length) (hroom : 2 ^ (wb + Ps.length) < n) :
    {A : ECurve (l.val bv) | ∃ base : F.V × F.V, IsPt (l.val bv) (l.val base.1) (l.val base.2) A ∧
      ¬ Completes tbl ext s (multiScalarMultiply F bv ⟨base, pair⟩ Ps scalars m wb) (fun r s' =>
        EcW0 k (l.val bv) ext s' r ((Ns.zip qs).map fun x => x.1 • x.2).sum)}.ncard
      ≤ msmBadBound wb ((m * len + wb - 1) / wb) Ps.length := by
  obtain ⟨Nss, hs', rfl⟩ : ∃ Nss : List (List ℕ), scalars.Forall₂ (NumsW m ext s) Nss ∧ Nss.map (Nat.ofDigits (2 ^ m)) = Ns := by
    clear * - hs
    induction hs with
    | nil => exact ⟨[], .nil, rfl⟩
    | cons h _ ih =>
      obtain ⟨Nss, h1, h2⟩ := ih
      obtain ⟨N1, h3, h4⟩ := h
      exact ⟨N1 :: Nss, .cons h3 h1, by rw [List.map_cons, h2, h4]⟩
  have hfin : Finite (ECurve (l.val bv)) := Nat.finite_of_card_ne_zero (by rw [hG]; exact hn.ne_zero)
  have hql : Ps.length = qs.length := hP.length_eq
  have hpos : 1 ≤ qs.length := by
    rw [← hql]
    exact Nat.one_le_iff_ne_zero.2 fun h => hne (List.length_eq_zero_iff.1 h)
  have h2 : ∀ q : ECurve (l.val bv), 2 • q = 0 → q = 0 := by
    have hn2 : n ≠ 2 := by
      have : 2 ^ 1 ≤ 2 ^ (wb + Ps.length) := Nat.pow_le_pow_right (by norm_num) (by omega)
      omega
    intro q hq
    by_contra h0
    have : ¬ (n : ℤ) ∣ 2 := by
      intro h
      have := Int.le_of_dvd (by norm_num) h
      have := hn.two_le
      omega
    exact smul_ne_zero' hn hG this h0 (by rw [← natCast_zsmul] at hq; exact hq)
  refine le_trans (Set.ncard_le_ncard ?_ (Set.toFinite _)) (hql ▸ msm_bad_card hn hG (l.val pair.1)
    (wb := wb) (nw := (m * len + wb - 1) / wb) (qs := qs) (Ns := Nss.map (Nat.ofDigits (2 ^ m))) hpos
    (by rw [List.length_map, ← hs'.length_eq, ← hl, hql]) hwb (hql ▸ hroom))
  rintro A ⟨base, hA, hbad⟩ hok
  refine hbad ?_
  refine ((multiScalarMultiply_cmp hf bv hb ⟨base, pair⟩ hm hm' hwb hlen hsl hP hne hs' hl (fun q _ => h2 q) hA hok).weaken
    fun r s' h => ?_).run hg
  have e : ((Nss.zip qs).map fun x => Nat.ofDigits (2 ^ m) x.1 • x.2) = ((Nss.map (Nat.ofDigits (2 ^ m))).zip qs).map fun x => x.1 • x.2 := by
    rw [List.zip_map_left, List.map_map]
    rfl
  rwa [e] at h

/-- **C68** `scalar_multiply`. -/
theorem C68_scalar_multiply {n : ℕ} (hn : n.Prime) {bv : F.V} (hG : Nat.card (ECurve (l.val bv)) = n) (hf : EcFitsC k)
    (hb : CurveOk (l.val bv)) (hg : Good tbl ext s) (pair : F.V × F.V) {P : EcPt F} {scalar : List (AV p)} {m wb : ℕ}
    (hm : 1 ≤ m) (hm' : m ≤ numBits p) (hwb : 1 ≤ wb) (hne : scalar ≠ []) {q : ECurve (l.val bv)} {N : ℕ}
    (hP : EcW0 k (l.val bv) ext s P q) (hs : ScalarW m ext s scalar N) (hroom : 2 ^ (wb + 1) < n) :
    {A : ECurve (l.val bv) | ∃ base : F.V × F.V, IsPt (l.val bv) (l.val base.1) (l.val base.2) A ∧
      ¬ Completes tbl ext s (scalarMultiply F bv ⟨base, pair⟩ P scalar m wb) (fun r s' => EcW0 k (l.val bv) ext s' r (N • q))}.ncard
      ≤ msmBadBound wb ((m * scalar.length + wb - 1) / wb) 1 := by
  have hfin : Finite (ECurve (l.val bv)) := Nat.finite_of_card_ne_zero (by rw [hG]; exact hn.ne_zero)
  have h2 : 2 • q = 0 → q = 0 := by
    have hn2 : n ≠ 2 := by
      have : 2 ^ 1 ≤ 2 ^ (wb + 1) := Nat.pow_le_pow_right (by norm_num) (by omega)
      omega
    intro hq
    by_contra h0
    have : ¬ (n : ℤ) ∣ 2 := by
      intro h
      have := Int.le_of_dvd (by norm_num) h
      have := hn.two_le
      omega
    exact smul_ne_zero' hn hG this h0 (by rw [← natCast_zsmul] at hq; exact hq)
  refine le_trans (Set.ncard_le_ncard ?_ (Set.toFinite _)) (msm_bad_card hn hG (l.val pair.1)
    (wb := wb) (nw := (m * scalar.length + wb - 1) / wb) (qs := [q]) (Ns := [N]) (by simp) rfl hwb hroom)
  rintro A ⟨base, hA, hbad⟩ hok
  exact hbad ((scalarMultiply_cmp hf bv hb ⟨base, pair⟩ hm hm' hwb hne hP hs h2 hA hok).run hg)

/-- **C68** `fixed_base::scalar_multiply` of a point of the curve which is not infinity. -/
theorem C68_fixed_base {n : ℕ} (hn : n.Prime) (hn2 : n ≠ 2) {bv : F.V} (hG : Nat.card (ECurve (l.val bv)) = n) (hf : EcFitsC k)
    (hg : Good tbl ext s) (pair : F.V × F.V) {C : NativeCurve F} {φ : C.G → ECurve (l.val bv)} (hC : NativeLaws l (l.val bv) C φ)
    {point : C.G} (h0 : φ point ≠ 0) {scalar : List (AV p)} {m wb : ℕ} (hm : 1 ≤ m) (hm' : m ≤ numBits p) (hwb : 1 ≤ wb) (hwp : wb < p)
    (hwn : 2 ^ wb ≤ n) (hne : scalar ≠ []) {N : ℕ} (hs : ScalarW m ext s scalar N) :
    {A : ECurve (l.val bv) | ∃ base : F.V × F.V, IsPt (l.val bv) (l.val base.1) (l.val base.2) A ∧
      ¬ Completes tbl ext s (fixedScalarMultiply F C bv ⟨base, pair⟩ point scalar m wb) (fun r s' =>
        EcW0 k (l.val bv) ext s' r (N • φ point))}.ncard ≤ fbBadBound ((m * scalar.length + wb - 1) / wb) := by
  have hfin : Finite (ECurve (l.val bv)) := Nat.finite_of_card_ne_zero (by rw [hG]; exact hn.ne_zero)
  have ho : n • φ point = 0 := by rw [← hG]; exact card_nsmul_eq_zero'
  obtain ⟨Ns, hs, rfl⟩ := hs
  refine le_trans (Set.ncard_le_ncard ?_ (Set.toFinite _)) (fb_bad_card hn hn2 hG (l.val pair.1)
    (wb := wb) (nw := (m * scalar.length + wb - 1) / wb) (Q := φ point) (N := Nat.ofDigits (2 ^ m) Ns))
  rintro A ⟨base, hA, hbad⟩ hok
  exact hbad ((fixedScalarMultiply_cmp hf bv ⟨base, pair⟩ hC point hm hm' hwb hwp h0 (fbSafe_of_prime hn hwn hn2 h0 ho) hne hs hA hok).run hg)

/-! ### C69: the groups -/

/-- **C69** secp256k1 (`y² = x³ + 7` over its base field) has exactly `secpN` points, a prime, so every point is annihilated by it and
every finite point generates; the same for BN254 `G1` (`y² = x³ + 3`) and `bn254R`. -/
theorem C69_orders : (Nat.card (ECurve (7 : ZMod secpP)) = secpN ∧ secpN.Prime ∧ ∀ g : ECurve (7 : ZMod secpP), secpN • g = 0) ∧
    (Nat.card (ECurve (3 : ZMod bn254Q)) = bn254R ∧ bn254R.Prime ∧ ∀ g : ECurve (3 : ZMod bn254Q), bn254R • g = 0) := by
  refine ⟨⟨card_secp256k1, Fact.out, fun g => ?_⟩, ⟨card_bn254, Fact.out, fun g => ?_⟩⟩
  · have := card_nsmul_eq_zero' (G := ECurve (7 : ZMod secpP)) (x := g)
    rwa [card_secp256k1] at this
  · have := card_nsmul_eq_zero' (G := ECurve (3 : ZMod bn254Q)) (x := g)
    rwa [card_bn254] at this

/-! ### secp256k1 -/

theorem secpCmp : FpCmp secpChip := fpCmp_88_3 (by decide +kernel) (by decide +kernel)

/-- The completeness laws of the chip for the base field of secp256k1. -/
noncomputable abbrev secpK := FpChip.cmp secpCmp

/-- **C68** for secp256k1 over BN254, three limbs of 88 bits, windows of 4 bits: for every point and every scalar of three limbs, at
most 232 of the (about `2 ^ 256`) possible random points make the prover fail. -/
theorem C68_scalar_multiply_secp256k1 {ext : Cell → ZMod bn254R} {s : Ctx bn254R} (hg : Good (RangeTable bn254R 16) ext s)
    (pair : ZMod secpP × ZMod secpP) {P : EcPt secpChip.ops} {scalar : List (AV bn254R)} (hl : scalar.length = 3)
    {q : ECurve (7 : ZMod secpP)} {N : ℕ} (hP : EcW0 secpK (7 : ZMod secpP) ext s P q) (hs : ScalarW 88 ext s scalar N) :
    {A : ECurve (7 : ZMod secpP) | ∃ base : ZMod secpP × ZMod secpP, IsPt (7 : ZMod secpP) base.1 base.2 A ∧
      ¬ Completes (RangeTable bn254R 16) ext s (scalarMultiply secpChip.ops (7 : ZMod secpP) ⟨base, pair⟩ P scalar 88 4) (fun r s' =>
        EcW0 secpK (7 : ZMod secpP) ext s' r (N • q))}.ncard ≤ 232 := by
  have h := C68_scalar_multiply (l := FpChip.laws secpCmp.ok) (k := secpK) (n := secpN) Fact.out (bv := (7 : ZMod secpP)) card_secp256k1
    (ecFitsC_88_3 (by decide +kernel) secpCmp) curveOk_secp256k1 hg pair (m := 88) (wb := 4) (by norm_num)
    (by rw [numBits, size_bn254R]; norm_num) (by norm_num) (by rintro rfl; simp at hl) hP hs (by decide +kernel)
  rw [hl] at h
  exact h.trans (by decide)

/-- The hypotheses of C68 are met: after loading any point of the curve and any three limbs as constants, the theorem applies. -/
example (ext : Cell → ZMod bn254R) (x y : ZMod secpP) (q : ECurve (7 : ZMod secpP)) (hq : IsPt (7 : ZMod secpP) x y q) (a : ℕ)
    (ha : a < 2 ^ 88) :
    Completes (RangeTable bn254R 16) ext (Ctx.new false 0 "" 0 [] [])
      (do let P ← loadPoint secpChip.ops (7 : ZMod secpP) (x, y)
          let l1 ← loadConstant (a : ZMod bn254R)
          pure (P, [l1, l1, l1]))
      (fun r s' => EcW0 secpK (7 : ZMod secpP) ext s' r.1 q ∧
        ScalarW 88 ext s' r.2 (a + 2 ^ 88 * (a + 2 ^ 88 * a)) ∧ r.2.length = 3) := by
  refine Cmp.run ?_ (good_new 0 "" 0)
  refine Cmp.bind (loadPoint_cmp (k := secpK) (ecFitsC_88_3 (by decide +kernel) secpCmp) (7 : ZMod secpP) hq) fun P s1 e1 hP => ?_
  refine Cmp.bind (loadConstant_cmp (a : ZMod bn254R)) fun l1 s2 e2 h1 => Cmp.pure ⟨(hP.mono e2).zero, ?_, rfl⟩
  have hap : a < bn254R := ha.trans_le (by decide +kernel)
  exact ⟨[a, a, a], ⟨.cons h1 (.cons h1 (.cons h1 .nil)), fun n hn => by
    have : n = a := by simpa using hn
    exact this ▸ ⟨ha, hap⟩⟩, by simp [Nat.ofDigits_cons]⟩

end H2
