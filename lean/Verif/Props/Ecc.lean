import Verif.Ecc.SoundPip
import Verif.Ecc.Concrete

/-!
# Properties C49, C50, C51 (elliptic curve operations)

The specification is Mathlib's group of points of the Weierstrass curve `y² = x³ + b` (`ECurve b`).  In an assignment `w`,
`EcRep l b w P g` says that the coordinates of the circuit point `P` represent (as points of the field chip) the coordinates of
the finite curve point `g`; `EcRep0` also allows `(0, 0)` for the point at infinity, and `CmpRep` is `EcRep` where a
`StrictEcPoint` has a canonical first coordinate, as its type promises.

The theorems are for any field chip satisfying `FieldLaws` (`FpChip.laws`: every `FpChip`) whose parameters leave room for the
intermediate values of the formulas (`EcFits`; `ecFits_88_3`: three limbs of 88 bits, moduli of at most 256 bits).
-/

set_option autoImplicit false
set_option linter.unusedSectionVars false
namespace H2
variable {p : ℕ} [Fact p.Prime] {s s' : Ctx p} {w : Cell → ZMod p}
variable {F : FieldOps p} {K : Type} [Field K] [DecidableEq K] {tbl : ZMod p → Prop} {l : FieldLaws F K tbl} {b : K}

/-! ### C49: point operations -/

/-- Addition, for comparable inputs; with `is_strict` the constraints force the inputs to be neither equal nor opposite. -/
theorem C49_add_unequal (hf : EcFits l) {P Q : CmpPt F} {strict : Bool} {r : EcPt F} {g1 g2 : ECurve b} (hi : Inv s)
    (hrun : ecAddUnequal F P Q strict s = some (r, s')) (hw : Sat tbl s' w) (hP : CmpRep l b w P g1) (hQ : CmpRep l b w Q g2) :
    (strict = true → g1 ≠ g2 ∧ g1 ≠ -g2) ∧ (g1 ≠ g2 → g1 ≠ -g2 → EcRep l b w r (g1 + g2)) :=
  (ecAddUnequal_sound l b hf P Q strict).run hi hrun hw g1 g2 hP hQ

theorem C49_sub_unequal (hf : EcFits l) {P Q : CmpPt F} {strict : Bool} {r : EcPt F} {g1 g2 : ECurve b} (hi : Inv s)
    (hrun : ecSubUnequal F P Q strict s = some (r, s')) (hw : Sat tbl s' w) (hP : CmpRep l b w P g1) (hQ : CmpRep l b w Q g2) :
    (strict = true → g1 ≠ g2 ∧ g1 ≠ -g2) ∧ (g1 ≠ g2 → g1 ≠ -g2 → EcRep l b w r (g1 - g2)) :=
  (ecSubUnequal_sound l b hf P Q strict).run hi hrun hw g1 g2 hP hQ

/-- Without `is_strict` nothing prevents equal inputs, and then *any* slope is accepted: on inputs with the same coordinates the
result is only constrained to be the third point for some `L`, not to be on the curve. -/
theorem C49_add_unequal_not_strict (hf : EcFits l) {P Q : CmpPt F} {r : EcPt F} {X Y : K} (hi : Inv s)
    (hrun : ecAddUnequal F P Q false s = some (r, s')) (hw : Sat tbl s' w) (hP : CXYRep l w P X Y) (hQ : CXYRep l w Q X Y) :
    ∃ L, XYRep l w r (L * L - X - X) (L * (X - (L * L - X - X)) - Y) := by
  obtain ⟨-, L, -, h⟩ := (ecAddUnequal_xy l hf P Q false).run hi hrun hw X Y X Y hP hQ
  exact ⟨L, h⟩

/-- Doubling of any finite point; unsatisfiable for points of order two. -/
theorem C49_double (hf : EcFits l) (hb : CurveOk b) {P r : EcPt F} {g : ECurve b} (hi : Inv s)
    (hrun : ecDouble F P s = some (r, s')) (hw : Sat tbl s' w) (hP : EcRep l b w P g) : EcRep l b w r (2 • g) :=
  (ecDouble_sound l b hf hb P).run hi hrun hw g hP

theorem C49_double_ne (hf : EcFits l) (hb : CurveOk b) {P r : EcPt F} {g : ECurve b} (hi : Inv s)
    (hrun : ecDouble F P s = some (r, s')) (hw : Sat tbl s' w) (hP : EcRep l b w P g) : 2 • g ≠ 0 := by
  obtain ⟨X, Y, -, i⟩ := C49_double hf hb hi hrun hw hP
  exact i.ne_zero

theorem C49_double_and_add_unequal (hf : EcFits l) {P Q : CmpPt F} {strict : Bool} {r : EcPt F} {g1 g2 : ECurve b} (hi : Inv s)
    (hrun : ecDoubleAndAddUnequal F P Q strict s = some (r, s')) (hw : Sat tbl s' w) (hP : CmpRep l b w P g1)
    (hQ : CmpRep l b w Q g2) : (strict = true → g1 ≠ g2 ∧ g1 ≠ -g2 ∧ g1 ≠ g1 + g2 ∧ g1 ≠ -(g1 + g2)) ∧
      (g1 ≠ g2 → g1 ≠ -g2 → g1 ≠ g1 + g2 → g1 ≠ -(g1 + g2) → EcRep l b w r (2 • g1 + g2)) :=
  (ecDoubleAndAddUnequal_sound l b hf P Q strict).run hi hrun hw g1 g2 hP hQ

/-- `ec_sub_strict` subtracts any two finite points, equal ones giving `(0, 0)`; it is unsatisfiable for opposite points (unless
they are equal). -/
theorem C49_sub_strict (hf : EcFits l) {rand : F.V × F.V} {P Q r : EcPt F} {g1 g2 : ECurve b} (hi : Inv s)
    (hrun : ecSubStrict F rand P Q s = some (r, s')) (hw : Sat tbl s' w) (hP : EcRep l b w P g1) (hQ : EcRep l b w Q g2) :
    EcRep0 l b w r (g1 - g2) ∧ (g1 = -g2 → g1 = g2) := (ecSubStrict_sound l b hf rand P Q).run hi hrun hw g1 g2 hP hQ

theorem C49_negate {P r : EcPt F} {g : ECurve b} (hi : Inv s) (hrun : ecNegate F P s = some (r, s')) (hw : Sat tbl s' w) :
    (EcRep l b w P g → EcRep l b w r (-g)) ∧ (EcRep0 l b w P g → EcRep0 l b w r (-g)) :=
  (ecNegate_sound l b P).run hi hrun hw g

theorem C49_select {P Q r : EcPt F} {sel : AV p} {g1 g2 : ECurve b} (hi : Inv s) (hrun : ecSelect F P Q sel s = some (r, s'))
    (hw : Sat tbl s' w) (hP : EcRep0 l b w P g1) (hQ : EcRep0 l b w Q g2) :
    (at' w sel = 1 → EcRep0 l b w r g1) ∧ (at' w sel = 0 → EcRep0 l b w r g2) :=
  (ecSelect_sound l b P Q sel).run hi hrun hw g1 g2 hP hQ

/-- Selection by bits: the point whose index the bits spell. -/
theorem C49_select_from_bits {Ps : List (EcPt F)} {sel : List (AV p)} {r : EcPt F} {gs : List (ECurve b)} {bs : List ℕ}
    {g : ECurve b} (hi : Inv s) (hrun : ecSelectFromBits F Ps sel s = some (r, s')) (hw : Sat tbl s' w)
    (hP : Ps.Forall₂ (EcRep l b w) gs) (hbits : ∀ x ∈ bs, x < 2) (hsel : sel.map (at' w) = bs.map (fun n : ℕ => (n : ZMod p)))
    (hg : gs[Nat.ofDigits 2 bs]? = some g) : EcRep l b w r g :=
  (ecSelectFromBits_sound l b Ps sel).run hi hrun hw gs hP bs ⟨hsel, hbits⟩ g hg

/-- `load_private`: whatever the prover loads is a finite point of the curve. -/
theorem C49_load_private (hf : EcFits l) {bv : F.V} (hb : CurveOk (l.val bv)) {v : F.V × F.V} {r : EcPt F} (hi : Inv s)
    (hrun : loadPoint F bv v s = some (r, s')) (hw : Sat tbl s' w) : ∃ g : ECurve (l.val bv), EcRep l (l.val bv) w r g :=
  (loadPoint_sound l hf bv hb v).run hi hrun hw

/-- `assign_point`: a point of the curve, possibly infinity. -/
theorem C49_assign_point (hf : EcFits l) {bv : F.V} (hb : CurveOk (l.val bv)) {v : F.V × F.V} {r : EcPt F} (hi : Inv s)
    (hrun : assignPoint F bv v s = some (r, s')) (hw : Sat tbl s' w) : ∃ g : ECurve (l.val bv), EcRep0 l (l.val bv) w r g :=
  (assignPoint_sound l hf bv hb v).run hi hrun hw

theorem C49_is_on_curve_or_infinity (hf : EcFits l) {bv : F.V} {P : EcPt F} {r : AV p} {X Y : K} (hi : Inv s)
    (hrun : isOnCurveOrInfinity F bv P s = some (r, s')) (hw : Sat tbl s' w) (hP : XYRep l w P X Y) :
    at' w r = if Y ^ 2 = X ^ 3 + l.val bv ∨ (X = 0 ∧ Y = 0) then 1 else 0 :=
  (isOnCurveOrInfinity_xy l hf bv P).run hi hrun hw X Y hP

theorem C49_is_equal (hb : CurveOk b) [DecidableEq (ECurve b)] {P Q : EcPt F} {r : AV p} {g1 g2 : ECurve b} (hi : Inv s)
    (hrun : ecIsEqual F P Q s = some (r, s')) (hw : Sat tbl s' w) (hP : EcRep0 l b w P g1) (hQ : EcRep0 l b w Q g2) :
    at' w r = if g1 = g2 then 1 else 0 := (ecIsEqual_sound l b hb P Q).run hi hrun hw g1 g2 hP hQ

theorem C49_assert_equal (hb : CurveOk b) {P Q : EcPt F} {u : Unit} {g1 g2 : ECurve b} (hi : Inv s)
    (hrun : ecAssertEqual F P Q s = some (u, s')) (hw : Sat tbl s' w) (hP : EcRep0 l b w P g1) (hQ : EcRep0 l b w Q g2) :
    g1 = g2 := (ecAssertEqual_sound l b hb P Q).run hi hrun hw g1 g2 hP hQ

/-- `EccChip::sum` of finite points, whatever they are and whatever random point the prover picked; the sum is then finite
(unsatisfiable if it is infinity). -/
theorem C49_sum (hf : EcFits l) {bv : F.V} (hb : CurveOk (l.val bv)) {rand : F.V × F.V} {Ps : List (EcPt F)} {r : EcPt F}
    {gs : List (ECurve (l.val bv))} (hi : Inv s) (hrun : ecSum F bv rand Ps s = some (r, s')) (hw : Sat tbl s' w)
    (hP : Ps.Forall₂ (EcRep l (l.val bv) w) gs) : EcRep l (l.val bv) w r gs.sum :=
  (ecSum_sound l hf bv hb rand Ps).run hi hrun hw gs hP

/-- A circuit point represents at most one curve point. -/
theorem C49_unique (hb : CurveOk b) {P : EcPt F} {g1 g2 : ECurve b} (h1 : EcRep0 l b w P g1) (h2 : EcRep0 l b w P g2) :
    g1 = g2 := h1.unique hb h2

/-! ### C50, C51: multiplication by scalars -/

/-- The integer which cells of `m` bits each stand for, little endian. -/
def scalarVal (m : ℕ) (w : Cell → ZMod p) (scalar : List (AV p)) : ℕ :=
  Nat.ofDigits (2 ^ m) (scalar.map fun a => (at' w a).val)

/-- The values of the cells are below `2 ^ m`. -/
def ScalarFits (m : ℕ) (w : Cell → ZMod p) (scalar : List (AV p)) : Prop := ∀ a ∈ scalar, (at' w a).val < 2 ^ m

theorem NumsRep.val {m : ℕ} (hm : 2 ^ m ≤ p) {scalar : List (AV p)} {Ns : List ℕ} (h : NumsRep m w scalar Ns) :
    ScalarFits m w scalar ∧ Nat.ofDigits (2 ^ m) Ns = scalarVal m w scalar := by
  have e : scalar.map (fun a => (at' w a).val) = Ns := by
    have := congrArg (List.map fun x : ZMod p => x.val) h.1
    rw [List.map_map, List.map_map] at this
    have h2 : Ns.map ((fun x : ZMod p => x.val) ∘ fun n : ℕ => (n : ZMod p)) = Ns := by
      conv_rhs => rw [← List.map_id Ns]
      apply List.map_congr_left
      intro n hn
      exact ZMod.val_natCast_of_lt ((h.2 n hn).trans_le hm)
    rw [h2] at this
    exact this
  refine ⟨fun a ha => ?_, by rw [scalarVal, e]⟩
  refine h.2 _ ?_
  rw [← e]
  exact List.mem_map_of_mem ha

/-- One cell of full width: its value modulo `p`, enough for points of order dividing `p`. -/
theorem NumsRep.single {m : ℕ} {a : AV p} {Ns : List ℕ} {G : Type} [AddCommGroup G] {q : G} (h : NumsRep m w [a] Ns)
    (hq : p • q = 0) : Nat.ofDigits (2 ^ m) Ns • q = (at' w a).val • q := by
  have hp : 0 < p := Nat.Prime.pos Fact.out
  have : NeZero p := ⟨by omega⟩
  obtain ⟨h1, -⟩ := h
  match Ns, h1 with
  | [N], h1 =>
    have h1 : at' w a = (N : ZMod p) := by simpa using h1
    rw [Nat.ofDigits_singleton, h1, ZMod.val_natCast]
    conv_lhs => rw [← Nat.mod_add_div N p, add_smul, mul_comm, mul_smul, hq, smul_zero, add_zero]
  | _ :: _ :: _, h1 => simp at h1

/-- **C50** `scalar_multiply`: for every finite point or infinity, every scalar given in cells of `m` bits and every choice of the
prover's random point, the result is the multiple of the point by the scalar.  The constraints force each cell below `2 ^ m`.
(Points of order two are excluded, as documented; `two_torsion_secp256k1`, `two_torsion_bn254`: those curves have none.) -/
theorem C50_scalar_multiply (hf : EcFits l) {bv : F.V} (hb : CurveOk (l.val bv)) {rand : MsmRand F} {P r : EcPt F}
    {scalar : List (AV p)} {m wb : ℕ} (hm : 1 ≤ m) (hmp : 2 ^ m ≤ p) (hi : Inv s)
    (hrun : scalarMultiply F bv rand P scalar m wb s = some (r, s')) (hw : Sat tbl s' w) {q : ECurve (l.val bv)}
    (hP : EcRep0 l (l.val bv) w P q) (hq : 2 • q = 0 → q = 0) :
    ScalarFits m w scalar ∧ EcRep0 l (l.val bv) w r (scalarVal m w scalar • q) := by
  have h : Sound tbl (scalarMultiply F bv rand P scalar m wb) (fun w r => ∀ qs : List (ECurve (l.val bv)),
      [P].Forall₂ (EcRep0 l (l.val bv) w) qs → (∀ q ∈ qs, 2 • q = 0 → q = 0) →
      ∃ Nss : List (List ℕ), [scalar].Forall₂ (NumsRep m w) Nss ∧
        EcRep0 l (l.val bv) w r ((Nss.zip qs).map fun x => Nat.ofDigits (2 ^ m) x.1 • x.2).sum) := by
    intro s
    refine Snd.assert fun _ => Snd.assert fun _ => Snd.assert fun _ => ?_
    exact multiScalarMultiply_sound l hf bv hb rand [P] [scalar] m wb hm scalar.length (by simp) s
  obtain ⟨Nss, h1, h2⟩ := h.run hi hrun hw [q] (.cons hP .nil) (by simpa using hq)
  rcases h1 with _ | ⟨h1, h3⟩
  cases h3
  obtain ⟨f, e⟩ := h1.val hmp
  refine ⟨f, ?_⟩
  rw [← e]
  simpa using h2

/-- **C50**, with one cell of the full width of the native field (`max_bits = NUM_BITS`), for points whose order divides the native
modulus, e.g. BN254 `G1` over `Fr`. -/
theorem C50_scalar_multiply_full (hf : EcFits l) {bv : F.V} (hb : CurveOk (l.val bv)) {rand : MsmRand F} {P r : EcPt F}
    {a : AV p} {m wb : ℕ} (hm : 1 ≤ m) (hi : Inv s)
    (hrun : scalarMultiply F bv rand P [a] m wb s = some (r, s')) (hw : Sat tbl s' w) {q : ECurve (l.val bv)}
    (hP : EcRep0 l (l.val bv) w P q) (hq : 2 • q = 0 → q = 0) (ho : p • q = 0) :
    EcRep0 l (l.val bv) w r ((at' w a).val • q) := by
  have h : Sound tbl (scalarMultiply F bv rand P [a] m wb) (fun w r => ∀ qs : List (ECurve (l.val bv)),
      [P].Forall₂ (EcRep0 l (l.val bv) w) qs → (∀ q ∈ qs, 2 • q = 0 → q = 0) →
      ∃ Nss : List (List ℕ), [[a]].Forall₂ (NumsRep m w) Nss ∧
        EcRep0 l (l.val bv) w r ((Nss.zip qs).map fun x => Nat.ofDigits (2 ^ m) x.1 • x.2).sum) := by
    intro s
    refine Snd.assert fun _ => Snd.assert fun _ => Snd.assert fun _ => ?_
    exact multiScalarMultiply_sound l hf bv hb rand [P] [[a]] m wb hm 1 (by simp) s
  obtain ⟨Nss, h1, h2⟩ := h.run hi hrun hw [q] (.cons hP .nil) (by simpa using hq)
  rcases h1 with _ | ⟨h1, h3⟩
  cases h3
  rw [← h1.single ho]
  simpa using h2

/-- **C50** `fixed_base::scalar_multiply`, for a constant point of the curve.  `FbSafe`: the cached multiples are not infinity
(`fbSafe_of_prime`: so for points of odd prime order of at least `2 ^ window_bits`). -/
theorem C50_fixed_base (hf : EcFits l) {bv : F.V} (hb : CurveOk (l.val bv)) {rand : MsmRand F} {C : NativeCurve F}
    {φ : C.G → ECurve (l.val bv)} (hC : NativeLaws l (l.val bv) C φ) {point : C.G} {scalar : List (AV p)} {m wb : ℕ} {r : EcPt F}
    (hm : 1 ≤ m) (hmp : 2 ^ m ≤ p) (hwb : wb < p) (hs : φ point ≠ 0 → FbSafe wb (φ point)) (hi : Inv s)
    (hrun : fixedScalarMultiply F C bv rand point scalar m wb s = some (r, s')) (hw : Sat tbl s' w) :
    EcRep0 l (l.val bv) w r (scalarVal m w scalar • φ point) ∧ (φ point ≠ 0 → ScalarFits m w scalar) := by
  obtain ⟨h1, h2⟩ := (fixedScalarMultiply_sound l hf bv hb rand hC point scalar hm hwb hs).run hi hrun hw
  by_cases h0 : φ point = 0
  · rw [h0, smul_zero]
    exact ⟨h1 h0, fun h => absurd rfl h⟩
  · obtain ⟨Ns, n1, n2⟩ := h2 h0
    obtain ⟨f, e⟩ := n1.val hmp
    rw [e] at n2
    exact ⟨n2, fun _ => f⟩

variable {S S' : Pool p}

theorem msm_val {m : ℕ} (hmp : 2 ^ m ≤ p) {G : Type} [AddCommGroup G] {scalars : List (List (AV p))} {Nss : List (List ℕ)}
    (h : scalars.Forall₂ (NumsRep m w) Nss) (qs : List G) : (∀ sc ∈ scalars, ScalarFits m w sc) ∧
    ((Nss.zip qs).map fun x => Nat.ofDigits (2 ^ m) x.1 • x.2) = (scalars.zip qs).map fun x => scalarVal m w x.1 • x.2 := by
  induction h generalizing qs with
  | nil => exact ⟨by simp, rfl⟩
  | cons h1 _ ih =>
    obtain ⟨f, e⟩ := h1.val hmp
    refine ⟨List.forall_mem_cons.2 ⟨f, (ih qs).1⟩, ?_⟩
    cases qs with
    | nil => rfl
    | cons q qs => rw [List.zip_cons_cons, List.zip_cons_cons, List.map_cons, List.map_cons, e, (ih qs).2]

/-- **C51** `multi_scalar_multiply`. -/
theorem C51_multi_scalar_multiply (hf : EcFits l) {bv : F.V} (hb : CurveOk (l.val bv)) {rand : MsmRand F} {Ps : List (EcPt F)}
    {r : EcPt F} {scalars : List (List (AV p))} {m wb n : ℕ} (hm : 1 ≤ m) (hmp : 2 ^ m ≤ p) (hn : ∀ sc ∈ scalars, sc.length = n)
    (hi : Inv s) (hrun : multiScalarMultiply F bv rand Ps scalars m wb s = some (r, s')) (hw : Sat tbl s' w)
    {qs : List (ECurve (l.val bv))} (hP : Ps.Forall₂ (EcRep0 l (l.val bv) w) qs) (hq : ∀ q ∈ qs, 2 • q = 0 → q = 0) :
    (∀ sc ∈ scalars, ScalarFits m w sc) ∧
      EcRep0 l (l.val bv) w r ((scalars.zip qs).map fun x => scalarVal m w x.1 • x.2).sum := by
  obtain ⟨Nss, h1, h2⟩ := (multiScalarMultiply_sound l hf bv hb rand Ps scalars m wb hm n hn).run hi hrun hw qs hP hq
  obtain ⟨f, e⟩ := msm_val hmp h1 qs
  rw [e] at h2
  exact ⟨f, h2⟩

/-- **C51** `variable_base_msm` (over any number of threads): for any number of points (the single-threaded algorithm up to 25
points, Pippenger's above), any points on the curve or infinity, any scalars of the same number of cells. -/
theorem C51_variable_base_msm (hf : EcFits l) {bv : F.V} (hb : CurveOk (l.val bv)) {rand : MsmRand F} {Ps : List (EcPt F)}
    {r : EcPt F} {scalars : List (List (AV p))} {m wb n : ℕ} (hm : 1 ≤ m) (hmp : 2 ^ m ≤ p) (hn : ∀ sc ∈ scalars, sc.length = n)
    (hi : PInv S) (hrun : variableBaseMsm F bv rand Ps scalars m wb S = some (r, S')) (hw : PSat tbl S' w)
    {qs : List (ECurve (l.val bv))} (hP : Ps.Forall₂ (EcRep0 l (l.val bv) w) qs) (hq : ∀ q ∈ qs, 2 • q = 0 → q = 0) :
    (∀ sc ∈ scalars, ScalarFits m w sc) ∧
      EcRep0 l (l.val bv) w r ((scalars.zip qs).map fun x => scalarVal m w x.1 • x.2).sum := by
  obtain ⟨Nss, h1, h2⟩ := (variableBaseMsm_sound l hf bv hb rand Ps scalars m wb hm n hn).run hi hrun hw qs hP hq
  obtain ⟨f, e⟩ := msm_val hmp h1 qs
  rw [e] at h2
  exact ⟨f, h2⟩

/-- **C51** Pippenger's algorithm for any number of points. -/
theorem C51_multi_exp_par (hf : EcFits l) {bv : F.V} (hb : CurveOk (l.val bv)) {rand : MsmRand F} {Ps : List (EcPt F)}
    {r : EcPt F} {scalars : List (List (AV p))} {m c n : ℕ} (hmp : 2 ^ m ≤ p) (hn : ∀ sc ∈ scalars, sc.length = n)
    (hi : PInv S) (hrun : multiExpPar F bv rand Ps scalars m c S = some (r, S')) (hw : PSat tbl S' w)
    {qs : List (ECurve (l.val bv))} (hP : Ps.Forall₂ (EcRep0 l (l.val bv) w) qs) (hq : ∀ q ∈ qs, 2 • q = 0 → q = 0) :
    (∀ sc ∈ scalars, ScalarFits m w sc) ∧
      EcRep0 l (l.val bv) w r ((scalars.zip qs).map fun x => scalarVal m w x.1 • x.2).sum := by
  obtain ⟨Nss, h1, h2⟩ := (multiExpPar_sound l hf bv hb rand Ps scalars m c n hn).run hi hrun hw qs hP hq
  obtain ⟨f, e⟩ := msm_val hmp h1 qs
  rw [e] at h2
  exact ⟨f, h2⟩

/-- **C51** `fixed_base_msm`: constant points (none of them infinity, by `FbSafe`). -/
theorem C51_fixed_base_msm (hf : EcFits l) {bv : F.V} (hb : CurveOk (l.val bv)) {rand : FbRand F} {C : NativeCurve F}
    {φ : C.G → ECurve (l.val bv)} (hC : NativeLaws l (l.val bv) C φ) {points : List C.G} {scalars : List (List (AV p))}
    {m wb : ℕ} {r : EcPt F} (hm : 1 ≤ m) (hmp : 2 ^ m ≤ p) (hwb : wb < p) (hs : ∀ g ∈ points, FbSafe wb (φ g)) (hi : PInv S)
    (hrun : fixedMsmPar F C bv rand points scalars m wb S = some (r, S')) (hw : PSat tbl S' w) :
    EcRep0 l (l.val bv) w r ((scalars.zip points).map fun x => scalarVal m w x.1 • φ x.2).sum ∧
      (points ≠ [] → ∀ sc ∈ scalars, ScalarFits m w sc) := by
  obtain ⟨h1, h2⟩ := (fixedMsmPar_sound l hf bv hb rand hC points scalars hm hwb hs).run hi hrun hw
  by_cases h0 : points = []
  · subst h0
    refine ⟨by simpa using h1 rfl, fun h => absurd rfl h⟩
  · obtain ⟨Nss, n1, n2⟩ := h2 h0
    obtain ⟨f, e⟩ := msm_val hmp n1 (points.map φ)
    refine ⟨?_, fun _ => f⟩
    have e1 : ((Nss.zip points).map fun x => Nat.ofDigits (2 ^ m) x.1 • φ x.2) =
        (Nss.zip (points.map φ)).map fun x => Nat.ofDigits (2 ^ m) x.1 • x.2 := by
      rw [List.zip_map_right, List.map_map]
      rfl
    have e2 : ((scalars.zip points).map fun x => scalarVal m w x.1 • φ x.2) =
        (scalars.zip (points.map φ)).map fun x => scalarVal m w x.1 • x.2 := by
      rw [List.zip_map_right, List.map_map]
      rfl
    rw [e2, ← e, ← e1]
    exact n2

/-! ### The hypotheses hold for secp256k1 -/

/-- The chip for the base field of secp256k1. -/
abbrev secpChip : FpChip bn254R := fpChip bn254R 16 secpP 88 3

instance : Fact secpChip.modulus.Prime := fact_secpP

theorem secpOk : FpOk secpChip := fpParams_secpP.ok fpParams_secpP.new_eq

/-- `C50_scalar_multiply` for secp256k1 over BN254 with three limbs of 88 bits: no condition is left. -/
theorem C50_scalar_multiply_secp256k1 {s s' : Ctx bn254R} {w : Cell → ZMod bn254R} {rand : MsmRand secpChip.ops}
    {P r : EcPt secpChip.ops} {scalar : List (AV bn254R)} {wb : ℕ} (hi : Inv s)
    (hrun : scalarMultiply secpChip.ops (7 : ZMod secpP) rand P scalar 88 wb s = some (r, s'))
    (hw : Sat (RangeTable bn254R 16) s' w) {q : ECurve (7 : ZMod secpP)} (hP : EcRep0 (FpChip.laws secpOk) (7 : ZMod secpP) w P q) :
    ScalarFits 88 w scalar ∧ EcRep0 (FpChip.laws secpOk) (7 : ZMod secpP) w r (scalarVal 88 w scalar • q) :=
  C50_scalar_multiply (l := FpChip.laws secpOk) (ecFits_88_3 (by decide +kernel) secpOk) (bv := (7 : ZMod secpP))
    curveOk_secp256k1 (by norm_num) (by decide +kernel) hi hrun hw hP (two_torsion_secp256k1 q)

/-- `C51_variable_base_msm` for secp256k1. -/
theorem C51_variable_base_msm_secp256k1 {S S' : Pool bn254R} {w : Cell → ZMod bn254R} {rand : MsmRand secpChip.ops}
    {Ps : List (EcPt secpChip.ops)} {r : EcPt secpChip.ops} {scalars : List (List (AV bn254R))} {wb n : ℕ}
    (hn : ∀ sc ∈ scalars, sc.length = n) (hi : PInv S)
    (hrun : variableBaseMsm secpChip.ops (7 : ZMod secpP) rand Ps scalars 88 wb S = some (r, S'))
    (hw : PSat (RangeTable bn254R 16) S' w) {qs : List (ECurve (7 : ZMod secpP))}
    (hP : Ps.Forall₂ (EcRep0 (FpChip.laws secpOk) (7 : ZMod secpP) w) qs) :
    (∀ sc ∈ scalars, ScalarFits 88 w sc) ∧
      EcRep0 (FpChip.laws secpOk) (7 : ZMod secpP) w r ((scalars.zip qs).map fun x => scalarVal 88 w x.1 • x.2).sum :=
  C51_variable_base_msm (l := FpChip.laws secpOk) (ecFits_88_3 (by decide +kernel) secpOk) (bv := (7 : ZMod secpP))
    curveOk_secp256k1 (by norm_num) (by decide +kernel) hn hi hrun hw hP fun q _ => two_torsion_secp256k1 q

/-- `NativeLaws` can be met: the group itself, with its coordinates. -/
def groupCurve (c : FpChip p) [Fact c.modulus.Prime] (b : ZMod c.modulus) : NativeCurve c.ops where
  G := ECurve b
  isIdentity := fun g => match g with
    | 0 => true
    | .some _ _ _ => false
  add := fun g h => g + h
  coords := fun g => match g with
    | 0 => ((0 : ZMod c.modulus), (0 : ZMod c.modulus))
    | .some x y _ => (x, y)

theorem groupCurve_laws {c : FpChip p} (h : FpOk c) [Fact c.modulus.Prime] (b : ZMod c.modulus) :
    NativeLaws (FpChip.laws h) b (groupCurve c b) id where
  add := fun _ _ => rfl
  ident := fun g => by
    rcases g with _ | ⟨x, y, hxy⟩
    · exact ⟨fun _ => rfl, fun _ => rfl⟩
    · exact ⟨fun h => absurd (show false = true from h) (by decide), fun h => absurd h (WeierstrassCurve.Affine.Point.some_ne_zero _)⟩
  coords := fun g => by
    rcases g with _ | ⟨x, y, hxy⟩
    · exact .inr ⟨rfl, rfl, rfl⟩
    · exact .inl ⟨hxy, rfl⟩

end H2
