import Verif.Pairing.CompleteRep
import Verif.Pairing.Spec
import Verif.Props.Ext
import Verif.Props.CompleteField
import Verif.Props.CompleteEcc

/-!
# Property C74 (`Fp2Chip`, `Fp12Chip`, curve points over `Fq2`: an honest prover always succeeds)

The chips of BN254's tower with three limbs of 88 bits (`bnChip`; the parameters of the repository's pairing circuits).

`Fp2W ext s a X`: in the state `s` the honest assignment gives the two coordinates of `a` the canonical representatives of the real
and imaginary part of `X`, and `a` knows them; `Fp12W ext s a X`: it gives the twelve coordinates of `a` those of `x 0, …, x 11` with
`X = Σ (x i + x (i + 6) u) wⁱ`.  `Completes tbl ext s m Q`: the run of `m` from `s` does not panic, the honest assignment satisfies
all the constraints of the resulting circuit, and the result satisfies `Q`.
-/

set_option autoImplicit false
set_option linter.unusedSectionVars false
namespace H2

/-- In the state `s`, the honest assignment gives `a` the canonical representative of `X`. -/
def Fp2W (ext : Cell → ZMod bn254R) (s : Ctx bn254R) (a : List (CrtInt bn254R)) (X : Fq2) : Prop :=
  ∃ a0 a1, a = [a0, a1] ∧ bnChip.pW ext s a0 X.re ∧ bnChip.pW ext s a1 X.im

/-- In the state `s`, the honest assignment gives `a` the canonical representative of `X`. -/
def Fp12W (ext : Cell → ZMod bn254R) (s : Ctx bn254R) (a : List (CrtInt bn254R)) (X : Fq12) : Prop :=
  ∃ x : ℕ → ZMod bn254Q, a.Forall₂ (bnChip.pW ext s) ((List.range 12).map x) ∧
    X = ∑ i ∈ Finset.range 6, (algebraMap (ZMod bn254Q) Fq12 (x i) + algebraMap (ZMod bn254Q) Fq12 (x (i + 6)) * Fq12.u) * Fq12.w ^ i

variable {ext : Cell → ZMod bn254R} {s : Ctx bn254R} {a b : List (CrtInt bn254R)}

theorem Fq2.lin_eq (x y : ZMod bn254Q) : lin (K := ZMod bn254Q) (K2 := Fq2) [1, Fq2.u] [x, y] = ⟨x, y⟩ := by
  simp only [lin, List.zipWith_cons_cons, List.zipWith_nil_left, List.sum_cons, List.sum_nil, Fq2.alg]
  ext <;> simp

theorem fp2W_iff {X : Fq2} : Fp2W ext s a X ↔ HN2 ext s a X := by
  constructor
  · rintro ⟨a0, a1, rfl, h0, h1⟩
    exact ⟨[X.re, X.im], rfl, .cons h0 (.cons h1 .nil), (Fq2.lin_eq _ _).symm⟩
  · rintro ⟨xs, hx, h, rfl⟩
    obtain ⟨x0, x1, rfl⟩ := list2 hx
    obtain ⟨a0, a1, rfl⟩ := list2 h.length_eq
    simp only [List.forall₂_cons, List.forall₂_nil_left_iff, and_true] at h
    refine ⟨a0, a1, rfl, ?_⟩
    show bnChip.pW ext s a0 (lin (K := ZMod bn254Q) (K2 := Fq2) [1, Fq2.u] [x0, x1]).re ∧
      bnChip.pW ext s a1 (lin (K := ZMod bn254Q) (K2 := Fq2) [1, Fq2.u] [x0, x1]).im
    rw [Fq2.lin_eq]
    exact h

theorem fp12W_iff {X : Fq12} : Fp12W ext s a X ↔ HN12 ext s a X := by
  constructor
  · rintro ⟨x, h0, rfl⟩
    refine ⟨(List.range 12).map x, rfl, h0, ?_⟩
    show _ = lin (K := ZMod bn254Q) (basis12 Fq12.u Fq12.w) _
    simp [Finset.sum_range_succ, lin, basis12, List.range_succ]
    ring
  · rintro ⟨xs, hx, h, rfl⟩
    refine ⟨fun i => xs.getD i 0, ?_, ?_⟩
    · have hx : xs.length = 12 := hx
      have e : (List.range 12).map (fun i => xs.getD i 0) = xs :=
        List.ext_getElem (by rw [hx]; rfl) fun i h1 h2 => by simp [List.getD, h2]
      have h : List.Forall₂ (bnChip.pW ext s) a xs := h
      exact e.symm ▸ h
    · obtain ⟨a0, a1, a2, a3, a4, a5, a6, a7, a8, a9, a10, a11, rfl⟩ := list12 hx
      show lin (K := ZMod bn254Q) (basis12 Fq12.u Fq12.w) _ = _
      simp [Finset.sum_range_succ, lin, basis12]
      ring
theorem c2 {m : M bn254R (List (CrtInt bn254R))} {X : Fq2} (hg : Good bnTbl ext s)
    (h : Cmp bnTbl ext s m (fun r s' => HN2 ext s' r X)) : Completes bnTbl ext s m (fun r s' => Fp2W ext s' r X) :=
  (h.weaken fun _ _ h => fp2W_iff.2 h).run hg

theorem c12 {m : M bn254R (List (CrtInt bn254R))} {X : Fq12} (hg : Good bnTbl ext s)
    (h : Cmp bnTbl ext s m (fun r s' => HN12 ext s' r X)) : Completes bnTbl ext s m (fun r s' => Fp12W ext s' r X) :=
  (h.weaken fun _ _ h => fp12W_iff.2 h).run hg

/-! ### `Fp2Chip` -/

variable {X Y : Fq2}

theorem C74_fp2_load (hg : Good bnTbl ext s) (v : Fq2) :
    Completes bnTbl ext s (bnCfg.F2.loadPrivate v) (fun r s' => Fp2W ext s' r v) ∧
    Completes bnTbl ext s (bnCfg.F2.loadConstant v) (fun r s' => Fp2W ext s' r v) := by
  exact ⟨c2 hg (g2_loadPrivate v), c2 hg (g2_loadConstant v)⟩

/-- C74: products and negatives always complete. -/
theorem C74_fp2_mul (hg : Good bnTbl ext s) (ha : Fp2W ext s a X) (hb : Fp2W ext s b Y) :
    Completes bnTbl ext s (bnCfg.F2.mul a b) (fun r s' => Fp2W ext s' r (X * Y)) ∧
    Completes bnTbl ext s (bnCfg.F2.negate a) (fun r s' => Fp2W ext s' r (-X)) := by
  rw [fp2W_iff] at ha hb
  exact ⟨c2 hg (g2_mul ha hb), c2 hg (bnCmp2.negate ha)⟩

/-- C74: operations without carry followed by `carry_mod`. -/
theorem C74_fp2_no_carry (hg : Good bnTbl ext s) (ha : Fp2W ext s a X) (hb : Fp2W ext s b Y) :
    Completes bnTbl ext s (bnCfg.F2.addNoCarry a b >>= bnCfg.F2.carryMod) (fun r s' => Fp2W ext s' r (X + Y)) ∧
    Completes bnTbl ext s (bnCfg.F2.subNoCarry a b >>= bnCfg.F2.carryMod) (fun r s' => Fp2W ext s' r (X - Y)) ∧
    Completes bnTbl ext s (mulNoCarryW6 bnCfg.F 9 a >>= bnCfg.F2.carryMod) (fun r s' => Fp2W ext s' r (X * (9 + Fq2.u))) := by
  rw [fp2W_iff] at ha hb
  refine ⟨c2 hg (Cmp.bind (g2_add ha.v hb.v) fun _ _ _ h => g2_carry (by decide +kernel) h),
    c2 hg (Cmp.bind (g2_sub ha.v hb.v) fun _ _ _ h => g2_carry (by decide +kernel) h),
    c2 hg (Cmp.bind (g2_w6 9 (by norm_num) ha.v) fun _ _ _ h => ?_)⟩
  have e : ((9 : ℤ) : Fq2) = 9 := by norm_num
  rw [e] at h
  exact g2_carry (by decide +kernel) h

/-- C74: division by anything but zero completes; `divide_unsafe` also completes for `0 / 0`. -/
theorem C74_fp2_divide (hg : Good bnTbl ext s) (ha : Fp2W ext s a X) (hb : Fp2W ext s b Y) :
    (Y ≠ 0 → Completes bnTbl ext s (bnCfg.F2.divide a b) (fun r s' => Fp2W ext s' r (X / Y))) ∧
    (Y ≠ 0 → Completes bnTbl ext s (bnCfg.F2.negDivide a b) (fun r s' => Fp2W ext s' r (-X / Y))) ∧
    ((Y = 0 → X = 0) → Completes bnTbl ext s (bnCfg.F2.divideUnsafe a b) (fun r s' => Fp2W ext s' r (X / Y))) := by
  rw [fp2W_iff] at ha hb
  exact ⟨fun h => c2 hg (bnCmp2.divide bnCmp2_div ha hb h), fun h => c2 hg (bnCmp2.negDivide bnCmp2_div ha hb h),
    fun h => c2 hg (g2_div (by decide +kernel) ha.v hb.v h)⟩

/-- C74: the predicates complete with the right bit, whatever the inputs; canonical values pass `enforce_less_than`. -/
theorem C74_fp2_predicates (hg : Good bnTbl ext s) (ha : Fp2W ext s a X) (hb : Fp2W ext s b Y) :
    Completes bnTbl ext s (bnCfg.F2.isZero a) (fun r s' => Con ext s' r (if X = 0 then 1 else 0)) ∧
    Completes bnTbl ext s (bnCfg.F2.isSoftZero a) (fun r s' => Con ext s' r (if X = 0 then 1 else 0)) ∧
    Completes bnTbl ext s (bnCfg.F2.isSoftNonzero a) (fun r s' => Con ext s' r (if X ≠ 0 then 1 else 0)) ∧
    Completes bnTbl ext s (bnCfg.F2.isEqual a b) (fun r s' => Con ext s' r (if X = Y then 1 else 0)) ∧
    Completes bnTbl ext s (bnCfg.F2.enforceLessThan a) (fun r s' => Fp2W ext s' r X) ∧
    (X = Y → Completes bnTbl ext s (bnCfg.F2.assertEqual a b) (fun _ _ => True)) := by
  rw [fp2W_iff] at ha hb
  exact ⟨(bnCmp2.isZero ha).run hg, (bnCmp2.isSoftZero ha).run hg, (bnCmp2.isSoftNonzero ha).run hg, (bnCmp2.isEqual ha hb).run hg,
    c2 hg (bnCmp2.enforceLessThan ha), fun h => (bnCmp2.assertEqual ha (h ▸ hb)).run hg⟩

theorem C74_fp2_select (hg : Good bnTbl ext s) {sel : AV bn254R} {t : Bool} (ha : Fp2W ext s a X) (hb : Fp2W ext s b Y)
    (hs : Con ext s sel (if t then 1 else 0)) :
    Completes bnTbl ext s (bnCfg.F2.select a b sel) (fun r s' => Fp2W ext s' r (if t then X else Y)) := by
  rw [fp2W_iff] at ha hb
  exact c2 hg (bnCmp2.select (t := t = true) ha hb (by simpa [bit] using hs))

/-- C74: `conjugate` and `neg_conjugate` give the conjugate `x - y u` and its negative. -/
theorem C74_fp2_conjugate (hg : Good bnTbl ext s) (ha : Fp2W ext s a X) :
    Completes bnTbl ext s (fp2Conjugate bnCfg.F a) (fun r s' => Fp2W ext s' r ⟨X.re, -X.im⟩) ∧
    Completes bnTbl ext s (fp2NegConjugate bnCfg.F a) (fun r s' => Fp2W ext s' r ⟨-X.re, X.im⟩) := by
  rw [fp2W_iff] at ha
  have h2 : -Fq2.σ X = ⟨-X.re, X.im⟩ := by rw [Fq2.σ_apply]; ext <;> simp [Fq2.conj]
  exact ⟨c2 hg (fp2Conjugate_cmp (k := bnCmp) Fq2.σ Fq2.σ_u ha), c2 hg (h2 ▸ fp2NegConjugate_cmp (k := bnCmp) Fq2.σ Fq2.σ_u ha)⟩

/-! ### `Fp12Chip` -/

variable {Z W : Fq12}

theorem C74_fp12_load (hg : Good bnTbl ext s) (v : Fq12) :
    Completes bnTbl ext s (bnCfg.F12.loadPrivate v) (fun r s' => Fp12W ext s' r v) ∧
    Completes bnTbl ext s (bnCfg.F12.loadConstant v) (fun r s' => Fp12W ext s' r v) := by
  exact ⟨c12 hg (g12_loadPrivate v), c12 hg (g12_loadConstant v)⟩

/-- C74: products, negatives and conjugates (`X ↦ X^(q⁶)`) always complete. -/
theorem C74_fp12_mul (hg : Good bnTbl ext s) (ha : Fp12W ext s a Z) (hb : Fp12W ext s b W) :
    Completes bnTbl ext s (bnCfg.F12.mul a b) (fun r s' => Fp12W ext s' r (Z * W)) ∧
    Completes bnTbl ext s (bnCfg.F12.negate a) (fun r s' => Fp12W ext s' r (-Z)) ∧
    Completes bnTbl ext s (fp12Conjugate bnCfg.F a) (fun r s' => Fp12W ext s' r (Z ^ bn254Q ^ 6)) := by
  rw [fp12W_iff] at ha hb
  exact ⟨c12 hg (g12_mul ha hb), c12 hg (bnCmp12.negate ha), c12 hg (g12_conj ha)⟩

theorem C74_fp12_divide (hg : Good bnTbl ext s) (ha : Fp12W ext s a Z) (hb : Fp12W ext s b W) :
    (W ≠ 0 → Completes bnTbl ext s (bnCfg.F12.divide a b) (fun r s' => Fp12W ext s' r (Z / W))) ∧
    (W ≠ 0 → Completes bnTbl ext s (bnCfg.F12.negDivide a b) (fun r s' => Fp12W ext s' r (-Z / W))) ∧
    ((W = 0 → Z = 0) → Completes bnTbl ext s (bnCfg.F12.divideUnsafe a b) (fun r s' => Fp12W ext s' r (Z / W))) := by
  rw [fp12W_iff] at ha hb
  exact ⟨fun h => c12 hg (bnCmp12.divide bnCmp12_div ha hb h), fun h => c12 hg (bnCmp12.negDivide bnCmp12_negDiv ha hb h),
    fun h => c12 hg (g12_div ha hb h)⟩

theorem C74_fp12_predicates (hg : Good bnTbl ext s) (ha : Fp12W ext s a Z) (hb : Fp12W ext s b W) :
    Completes bnTbl ext s (bnCfg.F12.isZero a) (fun r s' => Con ext s' r (if Z = 0 then 1 else 0)) ∧
    Completes bnTbl ext s (bnCfg.F12.isSoftZero a) (fun r s' => Con ext s' r (if Z = 0 then 1 else 0)) ∧
    Completes bnTbl ext s (bnCfg.F12.isSoftNonzero a) (fun r s' => Con ext s' r (if Z ≠ 0 then 1 else 0)) ∧
    Completes bnTbl ext s (bnCfg.F12.isEqual a b) (fun r s' => Con ext s' r (if Z = W then 1 else 0)) ∧
    Completes bnTbl ext s (bnCfg.F12.enforceLessThan a) (fun r s' => Fp12W ext s' r Z) ∧
    (Z = W → Completes bnTbl ext s (bnCfg.F12.assertEqual a b) (fun _ _ => True)) := by
  rw [fp12W_iff] at ha hb
  exact ⟨(bnCmp12.isZero ha).run hg, (bnCmp12.isSoftZero ha).run hg, (bnCmp12.isSoftNonzero ha).run hg,
    (bnCmp12.isEqual ha hb).run hg, c12 hg (bnCmp12.enforceLessThan ha), fun h => (bnCmp12.assertEqual ha (h ▸ hb)).run hg⟩

theorem C74_fp12_select (hg : Good bnTbl ext s) {sel : AV bn254R} {t : Bool} (ha : Fp12W ext s a Z) (hb : Fp12W ext s b W)
    (hs : Con ext s sel (if t then 1 else 0)) :
    Completes bnTbl ext s (bnCfg.F12.select a b sel) (fun r s' => Fp12W ext s' r (if t then Z else W)) := by
  rw [fp12W_iff] at ha hb
  exact c12 hg (bnCmp12.select (t := t = true) ha hb (by simpa [bit] using hs))

/-! ### Points of `y² = x³ + 3 / (9 + u)` -/

/-- In the state `s`, the honest assignment gives `P` the canonical coordinates of the finite point `A` of the twist. -/
def TwW (ext : Cell → ZMod bn254R) (s : Ctx bn254R) (P : EcPt bnCfg.F2) (A : G2) : Prop :=
  ∃ X Y : Fq2, IsPt g2B X Y A ∧ Fp2W ext s P.x X ∧ Fp2W ext s P.y Y

theorem twW_iff {P : EcPt bnCfg.F2} {A : G2} : TwW ext s P A ↔ EcW bnCmp2 g2B ext s P A := by
  constructor
  · rintro ⟨X, Y, h, h1, h2⟩
    exact ⟨X, Y, ⟨fp2W_iff.1 h1, fp2W_iff.1 h2⟩, h⟩
  · rintro ⟨X, Y, ⟨h1, h2⟩, h⟩
    exact ⟨X, Y, h, fp2W_iff.2 h1, fp2W_iff.2 h2⟩

theorem g2Load_cmp {x y bv b : Fq2} (hb : bnLaws2.val bv = b) {C : ECurve b} (h : IsPt b x y C) :
    Cmp bnTbl ext s (loadPoint bnCfg.F2 bv (x, y)) (fun r s' => EcW bnCmp2 b ext s' r C) := by
  subst hb
  have hv : ∀ v : Fq2, bnLaws2.val v = v := fun v => extFieldOf_coeffs _ _ v
  exact loadPoint_cmp bnCmp2_ecFits bv (v := (x, y)) (by rw [hv x, hv y]; exact h)

theorem cG2 {m : M bn254R (EcPt bnCfg.F2)} {A : G2} (hg : Good bnTbl ext s)
    (h : Cmp bnTbl ext s m (fun r s' => EcW bnCmp2 g2B ext s' r A)) : Completes bnTbl ext s m (fun r s' => TwW ext s' r A) :=
  (h.weaken fun _ _ h => twW_iff.2 h).run hg

/-- C74: loading, adding, subtracting and doubling points of the twist. -/
theorem C74_g2 (hg : Good bnTbl ext s) {P Q : EcPt bnCfg.F2} {A B : G2} (hP : TwW ext s P A) (hQ : TwW ext s Q B) (strict : Bool) :
    (∀ (x y : Fq2) (C : G2), IsPt g2B x y C → Completes bnTbl ext s (loadPoint bnCfg.F2 g2B (x, y)) (fun r s' => TwW ext s' r C)) ∧
    (A ≠ B → A ≠ -B → Completes bnTbl ext s (ecAddUnequal bnCfg.F2 (.nonStrict P) (.nonStrict Q) strict) (fun r s' =>
      TwW ext s' r (A + B))) ∧
    (A ≠ B → A ≠ -B → Completes bnTbl ext s (ecSubUnequal bnCfg.F2 (.nonStrict P) (.nonStrict Q) strict) (fun r s' =>
      TwW ext s' r (A - B))) ∧
    (2 • A ≠ 0 → Completes bnTbl ext s (ecDouble bnCfg.F2 P) (fun r s' => TwW ext s' r (2 • A))) := by
  rw [twW_iff] at hP hQ
  exact ⟨fun x y C h => cG2 hg (g2Load_cmp (extFieldOf_coeffs _ _ _) h),
    fun h1 h2 => cG2 hg (ecAddUnequal_cmp bnCmp2_ecFits (P := .nonStrict P) (Q := .nonStrict Q) hP hQ h1 h2),
    fun h1 h2 => cG2 hg (ecSubUnequal_cmp bnCmp2_ecFits (P := .nonStrict P) (Q := .nonStrict Q) hP hQ h1 h2),
    fun h => cG2 hg (ecDouble_cmp bnCmp2_ecFits curveOk_g2 hP h)⟩

/-! ### A program using all of this -/

/-- Load two elements of `Fq12`, divide one by the other, and check the product. -/
noncomputable def bnDivCheck (u v : Fq12) : M bn254R Unit := do
  let a ← bnCfg.F12.loadPrivate u
  let b ← bnCfg.F12.loadPrivate v
  let q ← bnCfg.F12.divide a b
  let r ← bnCfg.F12.mul q b
  bnCfg.F12.assertEqual r a

/-- The hypotheses of C74 are met: the program completes for every `u` and every nonzero `v`. -/
theorem bnDivCheck_completes (ext : Cell → ZMod bn254R) (u v : Fq12) (hv : v ≠ 0) :
    Completes bnTbl ext (Ctx.new false 0 "" 0 [] []) (bnDivCheck u v) (fun _ _ => True) := by
  refine Cmp.run ?_ (good_new 0 "" 0)
  cb (g12_loadPrivate u) a ha
  cb (g12_loadPrivate v) b hb
  cb (show Cmp bnTbl ext _ (bnCfg.F12.divide a b) (fun r s' => HN12 ext s' r (u / v)) from bnCmp12.divide bnCmp12_div ha hb hv) q hq
  cb (g12_mul hq hb) r hr
  exact bnCmp12.assertEqual (div_mul_cancel₀ u hv ▸ hr : HN12 ext _ r u) ha

end H2
