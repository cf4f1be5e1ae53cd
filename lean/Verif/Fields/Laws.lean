import Verif.Fields.Sound

/-!
# What a `FieldChip` must satisfy, and the derived operations

`FieldLaws F K` says that the chip `F` implements the field `K`: for every satisfying assignment, the results represent the
advertised element.  Unreduced points carry a *size* (`Sz`), on which the carry operations put a condition.
-/

set_option autoImplicit false
set_option linter.unusedSectionVars false
namespace H2
variable {p : ℕ} [Fact p.Prime]

theorem and_ex {tbl : ZMod p → Prop} (a b : AV p) : Sound tbl (and (.existing a) (.existing b)) (fun w r => at' w r = at' w a * at' w b) := by
  refine fun s => (and_sound _ _ s).weaken ?_
  rintro w r _ ⟨x, y, hx, hy, h⟩
  rw [h, show x = _ from hx, show y = _ from hy]

theorem or_ex {tbl : ZMod p → Prop} (a b : AV p) :
    Sound tbl (or (.existing a) (.existing b)) (fun w r => at' w r = at' w a + at' w b - at' w a * at' w b) := by
  refine fun s => (or_sound _ _ s).weaken ?_
  rintro w r _ ⟨x, y, hx, hy, h⟩
  rw [h, show x = _ from hx, show y = _ from hy]

/-- The chip `F` implements arithmetic in the field `K`, with range table `tbl`. -/
structure FieldLaws (F : FieldOps p) (K : Type) [Field K] [DecidableEq K] (tbl : ZMod p → Prop) where
  /-- sizes of unreduced points -/
  Sz : Type
  /-- an unreduced point represents an element -/
  URep : (Cell → ZMod p) → F.U → K → Sz → Prop
  /-- a (range-checked) point represents an element -/
  PRep : (Cell → ZMod p) → F.P → K → Prop
  /-- a point is the canonical representative of an element -/
  RRep : (Cell → ZMod p) → F.P → K → Prop
  /-- the element which a `FieldType` denotes -/
  val : F.V → K
  pSz : Sz
  addSz : Sz → Sz → Sz
  addcSz : Sz → Sz
  subSz : Sz → Sz → Sz
  mulSz : Sz → Sz → Sz
  smulSz : ℤ → Sz → Sz
  smulAddSz : ℤ → Sz → Sz → Sz
  carryFits : Sz → Prop
  zeroFits : Sz → Prop
  r_p : ∀ w a X, RRep w a X → PRep w a X
  p_u : ∀ w a X, PRep w a X → URep w (F.ofP a) X pSz
  p_unique : ∀ w a X Y, PRep w a X → PRep w a Y → X = Y
  getAssignedValue : ∀ a, Sound tbl (F.getAssignedValue a) (fun _ _ => True)
  loadPrivate : ∀ v, Sound tbl (F.loadPrivate v) (fun w r => ∃ X, PRep w r X)
  loadConstant : ∀ v, Sound tbl (F.loadConstant v) (fun w r => RRep w r (val v))
  addNoCarry : ∀ a b, Sound tbl (F.addNoCarry a b) (fun w r => ∀ X Y sx sy, URep w a X sx → URep w b Y sy →
    URep w r (X + Y) (addSz sx sy))
  addConstantNoCarry : ∀ a v, Sound tbl (F.addConstantNoCarry a v) (fun w r => ∀ X sx, URep w a X sx →
    URep w r (X + val v) (addcSz sx))
  subNoCarry : ∀ a b, Sound tbl (F.subNoCarry a b) (fun w r => ∀ X Y sx sy, URep w a X sx → URep w b Y sy →
    URep w r (X - Y) (subSz sx sy))
  negate : ∀ a, Sound tbl (F.negate a) (fun w r => ∀ X, PRep w a X → RRep w r (-X))
  scalarMulNoCarry : ∀ a c, Sound tbl (F.scalarMulNoCarry a c) (fun w r => ∀ X sx, URep w a X sx →
    URep w r (X * (c : K)) (smulSz c sx))
  scalarMulAddNoCarry : ∀ a b c, Sound tbl (F.scalarMulAddNoCarry a b c) (fun w r => ∀ X Y sx sy, URep w a X sx →
    URep w b Y sy → URep w r (X * (c : K) + Y) (smulAddSz c sx sy))
  mulNoCarry : ∀ a b, Sound tbl (F.mulNoCarry a b) (fun w r => ∀ X Y sx sy, URep w a X sx → URep w b Y sy →
    URep w r (X * Y) (mulSz sx sy))
  checkCarryModToZero : ∀ a, Sound tbl (F.checkCarryModToZero a) (fun w _ => ∀ X sx, zeroFits sx → URep w a X sx → X = 0)
  carryMod : ∀ a, Sound tbl (F.carryMod a) (fun w r => ∀ X sx, carryFits sx → URep w a X sx → PRep w r X)
  enforceLessThan : ∀ a, Sound tbl (F.enforceLessThan a) (fun w r => ∀ X, PRep w a X → RRep w r X)
  isSoftZero : ∀ a, Sound tbl (F.isSoftZero a) (fun w r => ∀ X, PRep w a X → (at' w r = 0 ∨ at' w r = 1) ∧
    (at' w r = 1 → X = 0) ∧ (RRep w a X → at' w r = if X = 0 then 1 else 0))
  isZero : ∀ a, Sound tbl (F.isZero a) (fun w r => ∀ X, PRep w a X → at' w r = if X = 0 then 1 else 0)
  isEqualUnenforced : ∀ a b, Sound tbl (F.isEqualUnenforced a b) (fun w r => ∀ X Y, PRep w a X → PRep w b Y →
    (at' w r = 0 ∨ at' w r = 1) ∧ (at' w r = 1 → X = Y) ∧ (RRep w a X → RRep w b Y → at' w r = if X = Y then 1 else 0))
  assertEqual : ∀ a b, Sound tbl (F.assertEqual a b) (fun w _ => ∀ X Y, PRep w a X → PRep w b Y → X = Y)
  select : ∀ a b sel, Sound tbl (F.select a b sel) (fun w r =>
    (∀ X Y, PRep w a X → PRep w b Y → (at' w sel = 1 → PRep w r X) ∧ (at' w sel = 0 → PRep w r Y)) ∧
    (∀ X Y, RRep w a X → RRep w b Y → (at' w sel = 1 → RRep w r X) ∧ (at' w sel = 0 → RRep w r Y)))
  selectByIndicator : ∀ as ind, Sound tbl (F.selectByIndicator as ind) (fun w r => ∀ Xs, as.Forall₂ (PRep w) Xs →
    ∀ idx, ind.map (at' w) = oneHot as.length idx → ∀ X, Xs[idx]? = some X → PRep w r X)
  selectByIndicatorR : ∀ as ind, Sound tbl (F.selectByIndicator as ind) (fun w r => ∀ Xs, as.Forall₂ (RRep w) Xs →
    ∀ idx, ind.map (at' w) = oneHot as.length idx → ∀ X, Xs[idx]? = some X → RRep w r X)
  val_zero : val F.vzero = 0

/-- The law of `is_soft_nonzero` (kept apart: `NativeFieldChip` does not satisfy it). -/
def FieldLaws.SoftNonzero {F : FieldOps p} {K : Type} [Field K] [DecidableEq K] {tbl : ZMod p → Prop} (l : FieldLaws F K tbl) :
    Prop := ∀ a, Sound tbl (F.isSoftNonzero a) (fun w r => ∀ X, l.PRep w a X → (at' w r = 0 ∨ at' w r = 1) ∧
    (at' w r = 1 → X ≠ 0) ∧ (l.RRep w a X → at' w r = if X ≠ 0 then 1 else 0))

namespace FieldLaws
variable {F : FieldOps p} {K : Type} [Field K] [DecidableEq K] {tbl : ZMod p → Prop} (l : FieldLaws F K tbl)

theorem loadPrivateReduced (v : F.V) : Sound tbl (F.loadPrivateReduced v) (fun w r => ∃ X, l.RRep w r X) := by
  intro s
  refine Snd.bind (l.loadPrivate v s) fun a s1 _ => (l.enforceLessThan a s1).weaken ?_
  rintro w r _ h ⟨X, hX⟩
  exact ⟨X, h X hX⟩

theorem isEqual (a b : F.P) : Sound tbl (F.isEqual a b) (fun w r => ∀ X Y, l.PRep w a X → l.PRep w b Y →
    at' w r = if X = Y then 1 else 0) := by
  intro s
  refine Snd.bind (l.enforceLessThan a s) fun a' s1 _ => Snd.bind (l.enforceLessThan b s1) fun b' s2 _ =>
    (l.isEqualUnenforced a' b' s2).weaken ?_
  intro w r _ h hb ha X Y hX hY
  have h1 := ha X hX
  have h2 := hb Y hY
  exact (h X Y (l.r_p _ _ _ h1) (l.r_p _ _ _ h2)).2.2 h1 h2

theorem mul (a b : F.U) : Sound tbl (F.mul a b) (fun w r => ∀ X Y sx sy, l.carryFits (l.mulSz sx sy) → l.URep w a X sx →
    l.URep w b Y sy → l.PRep w r (X * Y)) := by
  intro s
  refine Snd.bind (l.mulNoCarry a b s) fun m s1 _ => (l.carryMod m s1).weaken ?_
  intro w r _ h hm X Y sx sy hf hX hY
  exact h _ _ hf (hm _ _ _ _ hX hY)

/-- `divide_unsafe`: the quotient times the divisor is the dividend. -/
theorem divideUnsafe (a b : F.U) : Sound tbl (F.divideUnsafe a b) (fun w r => ∃ Q, l.PRep w r Q ∧ ∀ X Y sx sy,
    l.zeroFits (l.subSz (l.mulSz l.pSz sy) sx) → l.URep w a X sx → l.URep w b Y sy → Q * Y = X) := by
  intro s
  refine Snd.bind (l.getAssignedValue a s) fun av s1 _ => Snd.bind (l.getAssignedValue b s1) fun bv s2 _ => ?_
  refine Snd.bind (l.loadPrivate _ s2) fun q s3 _ => Snd.bind (l.mulNoCarry _ _ s3) fun qb s4 _ => ?_
  refine Snd.bind (l.subNoCarry _ _ s4) fun c s5 _ => Snd.bind (l.checkCarryModToZero c s5) fun _ s6 _ => Snd.pure ?_
  rintro w - h0 hs hm ⟨Q, hQ⟩ - -
  refine ⟨Q, hQ, fun X Y sx sy hf hX hY => ?_⟩
  have := h0 _ _ hf (hs _ _ _ _ (hm _ _ _ _ (l.p_u _ _ _ hQ) hY) hX)
  exact sub_eq_zero.1 this

theorem divide (a b : F.P) (hf : l.zeroFits (l.subSz (l.mulSz l.pSz l.pSz) l.pSz)) :
    Sound tbl (F.divide a b) (fun w r => ∀ X Y, l.PRep w a X → l.PRep w b Y → Y ≠ 0 ∧ l.PRep w r (X / Y)) := by
  intro s
  refine Snd.bind (l.isZero b s) fun z s1 _ => Snd.bind (assertIsConst_sound z 0 s1) fun _ s2 _ =>
    (l.divideUnsafe _ _ s2).weaken ?_
  rintro w r _ ⟨Q, hQ, hq⟩ hz0 hz X Y hX hY
  have hz := hz Y hY
  rw [hz0] at hz
  have hY0 : Y ≠ 0 := by
    intro h
    rw [if_pos h] at hz
    exact zero_ne_one hz
  have := hq X Y _ _ hf (l.p_u _ _ _ hX) (l.p_u _ _ _ hY)
  refine ⟨hY0, ?_⟩
  rw [← this, mul_div_assoc, div_self hY0, mul_one]
  exact hQ

/-- `neg_divide_unsafe`. -/
theorem negDivideUnsafe (a b : F.U) : Sound tbl (F.negDivideUnsafe a b) (fun w r => ∃ Q, l.PRep w r Q ∧ ∀ X Y sx sy,
    l.zeroFits (l.addSz (l.mulSz l.pSz sy) sx) → l.URep w a X sx → l.URep w b Y sy → Q * Y = -X) := by
  intro s
  refine Snd.bind (l.getAssignedValue a s) fun av s1 _ => Snd.bind (l.getAssignedValue b s1) fun bv s2 _ => ?_
  refine Snd.bind (l.loadPrivate _ s2) fun q s3 _ => Snd.bind (l.mulNoCarry _ _ s3) fun qb s4 _ => ?_
  refine Snd.bind (l.addNoCarry _ _ s4) fun c s5 _ => Snd.bind (l.checkCarryModToZero c s5) fun _ s6 _ => Snd.pure ?_
  rintro w - h0 hs hm ⟨Q, hQ⟩ - -
  refine ⟨Q, hQ, fun X Y sx sy hf hX hY => ?_⟩
  have := h0 _ _ hf (hs _ _ _ _ (hm _ _ _ _ (l.p_u _ _ _ hQ) hY) hX)
  exact eq_neg_of_add_eq_zero_left this

theorem negDivide (a b : F.P) (hf : l.zeroFits (l.addSz (l.mulSz l.pSz l.pSz) l.pSz)) :
    Sound tbl (F.negDivide a b) (fun w r => ∀ X Y, l.PRep w a X → l.PRep w b Y → Y ≠ 0 ∧ l.PRep w r (-X / Y)) := by
  intro s
  refine Snd.bind (l.isZero b s) fun z s1 _ => Snd.bind (assertIsConst_sound z 0 s1) fun _ s2 _ =>
    (l.negDivideUnsafe _ _ s2).weaken ?_
  rintro w r _ ⟨Q, hQ, hq⟩ hz0 hz X Y hX hY
  have hz := hz Y hY
  rw [hz0] at hz
  have hY0 : Y ≠ 0 := by
    intro h
    rw [if_pos h] at hz
    exact zero_ne_one hz
  have := hq X Y _ _ hf (l.p_u _ _ _ hX) (l.p_u _ _ _ hY)
  refine ⟨hY0, ?_⟩
  rw [← this, mul_div_assoc, div_self hY0, mul_one]
  exact hQ

end FieldLaws

/-! ### `FpChip` satisfies the laws -/

namespace FpChip
variable {c : FpChip p}

/-- In the assignment `w`, the unreduced `a` represents the residue `X`: it represents an integer which is `X` modulo the
modulus, of absolute value at most `B`, with limbs of at most `bits` bits. -/
def uRep (c : FpChip p) (w : Cell → ZMod p) (a : CrtInt p) (X : ZMod c.modulus) (sz : ℕ × ℕ) : Prop :=
  ∃ A : ℤ, CrtOk c.n c.k w a A ∧ a.trunc.maxBits ≤ sz.1 ∧ |A| ≤ sz.2 ∧ (A : ZMod c.modulus) = X

/-- In the assignment `w`, the point `a` represents the residue `X`: its limbs are digits of a number below
`2 ^ (bit length of the modulus)` which is `X` modulo the modulus. -/
def pRep (c : FpChip p) (w : Cell → ZMod p) (a : CrtInt p) (X : ZMod c.modulus) : Prop :=
  ∃ A : ℕ, ProperOk c.n c.k w a A ∧ A < 2 ^ Nat.size c.modulus ∧ (A : ZMod c.modulus) = X

/-- In the assignment `w`, the point `a` is the canonical representative of the residue `X`. -/
def rRep (c : FpChip p) (w : Cell → ZMod p) (a : CrtInt p) (X : ZMod c.modulus) : Prop := ProperOk c.n c.k w a X.val

/-- Bits which multiplication by `c` adds. -/
def mulBits (c : ℤ) : ℕ := if c.natAbs ≤ 1 then 0 else Nat.log2 (c.natAbs - 1) + 1

theorem le_mulBits (c : ℤ) : c.natAbs ≤ 2 ^ mulBits c := by
  unfold mulBits
  split
  · simpa
  · have := Nat.lt_log2_self (n := c.natAbs - 1)
    omega

theorem log2Ceil_le_mulBits {c : ℤ} {cl : ℕ} (hc : |c| < 2 ^ 63) (h : Utils.log2Ceil c.natAbs = some cl) : cl ≤ mulBits c := by
  have : c.natAbs < 2 ^ 64 := by
    have : |c| = (c.natAbs : ℤ) := Int.abs_eq_natAbs c
    rw [this] at hc
    have hc : c.natAbs < 2 ^ 63 := by exact_mod_cast hc
    exact hc.trans (Nat.pow_lt_pow_right (by norm_num) (by norm_num))
  obtain ⟨r, h1, -, h3⟩ := Utils.C28_log2_ceil c.natAbs this
  rw [h, Option.some.injEq] at h1
  subst h1
  exact (h3 _).2 (le_mulBits c)

theorem carryBits_mono {L m m' n : ℕ} (h : m ≤ m') : carryBits L m n ≤ carryBits L m' n := by
  unfold carryBits
  have : (m - n + 1 + L) / L ≤ (m' - n + 1 + L) / L := Nat.div_le_div_right (by omega)
  have := Nat.mul_le_mul_right L this
  omega

theorem CarryFits.mono {m m' : ℕ} (h : CarryFits c m') (hm : m ≤ m') : CarryFits c m := by
  unfold CarryFits at *
  refine lt_of_le_of_lt ?_ h
  have h1 : 2 ^ m ≤ 2 ^ m' := Nat.pow_le_pow_right (by norm_num) hm
  have h2 : carryBits c.L (max (max c.n m + 1) (2 * c.n + c.kBits)) c.n ≤
    carryBits c.L (max (max c.n m' + 1) (2 * c.n + c.kBits)) c.n := carryBits_mono (by omega)
  have h3 := Nat.mul_le_mul_left (2 ^ c.n + 1) (Nat.pow_le_pow_right (n := 2) (by norm_num) h2)
  omega

theorem CarryZeroFits.mono {m m' : ℕ} (h : CarryZeroFits c m') (hm : m ≤ m') : CarryZeroFits c m := by
  unfold CarryZeroFits at *
  refine lt_of_le_of_lt ?_ h
  have h1 : 2 ^ m ≤ 2 ^ m' := Nat.pow_le_pow_right (by norm_num) hm
  have h2 : carryBits c.L (max m (2 * c.n + c.kBits)) c.n ≤
    carryBits c.L (max m' (2 * c.n + c.kBits)) c.n := carryBits_mono (by omega)
  have h3 := Nat.mul_le_mul_left (2 ^ c.n + 1) (Nat.pow_le_pow_right (n := 2) (by norm_num) h2)
  omega

theorem rRep_iff (h : FpOk c) {w : Cell → ZMod p} {a : CrtInt p} {X : ZMod c.modulus} :
    c.rRep w a X ↔ ∃ A : ℕ, ProperOk c.n c.k w a A ∧ A < c.modulus ∧ (A : ZMod c.modulus) = X := by
  have : NeZero c.modulus := ⟨by have := h.ok.pos; omega⟩
  constructor
  · intro hr
    exact ⟨X.val, hr, ZMod.val_lt X, ZMod.natCast_zmod_val X⟩
  · rintro ⟨A, h1, h2, rfl⟩
    unfold rRep
    rw [ZMod.val_natCast_of_lt h2]
    exact h1

theorem ProperOk.unique (hp : 2 ^ c.n ≤ p) {w : Cell → ZMod p} {a : CrtInt p} {A B : ℕ} (h1 : ProperOk c.n c.k w a A)
    (h2 : ProperOk c.n c.k w a B) : A = B := by
  obtain ⟨ds, a1, -, a3, a4, rfl, -⟩ := h1
  obtain ⟨es, b1, -, b3, b4, rfl, -⟩ := h2
  rw [casts_inj hp a4 b4 (a3.symm.trans b3)]

theorem selIndProper {tbl : ZMod p → Prop} (h : FpOk c) (as : List (CrtInt p)) (ind : List (AV p)) :
    Sound tbl (selIndCrt as ind c.bases) (fun w r => ∀ As : List ℕ, as.Forall₂ (ProperOk c.n c.k w) As →
      ∀ idx, ind.map (at' w) = oneHot as.length idx → ∀ A, As[idx]? = some A → ProperOk c.n c.k w r A) := by
  intro s
  refine (selIndCrt_sound as ind c.bases s).weaken ?_
  rintro w r _ ⟨hm, h0⟩ As hA idx hi A hAi
  have hidx : idx < As.length := (List.getElem?_eq_some_iff.1 hAi).1
  have hl := List.Forall₂.length_eq hA
  obtain ⟨a, ha⟩ : ∃ a, as[idx]? = some a := ⟨as[idx], List.getElem?_eq_getElem (by omega)⟩
  have hall : ∀ b ∈ as, b.trunc.limbs.length = c.k ∧ b.trunc.maxBits = c.n := by
    intro b hb
    obtain ⟨i, hi, rfl⟩ := List.getElem_of_mem hb
    have := (List.forall₂_iff_get.1 hA).2 i hi (by omega)
    obtain ⟨_, _, e, -⟩ := id this
    exact ⟨this.length, e⟩
  have haA : ProperOk c.n c.k w a A := by
    have := (List.forall₂_iff_get.1 hA).2 idx (by omega) hidx
    rw [List.get_eq_getElem, List.get_eq_getElem, (List.getElem?_eq_some_iff.1 ha).2, (List.getElem?_eq_some_iff.1 hAi).2] at this
    exact this
  have hal := hall a (List.mem_of_getElem? ha)
  obtain ⟨e1, e2⟩ := h0 idx hi a ha fun b hb => by rw [(hall b hb).1, hal.1]
  refine haA.congr e1 ?_ ?_
  · rw [hm, hal.2]
    refine maxBitsOf_const (by
      intro hn
      rw [List.map_eq_nil_iff] at hn
      subst hn
      simp at ha) fun b hb => ?_
    rw [List.mem_map] at hb
    obtain ⟨b', hb', rfl⟩ := hb
    exact (hall b' hb').2
  · rw [e2, hal.1]
    split
    · obtain ⟨ds, d1, d2, d3, d4, rfl, d6⟩ := haA
      have hbl : c.bases.length = c.k := by rw [h.ok.bases]; simp
      rw [List.take_of_length_le (by omega), d6, d3, dot_bases ds d1 h.ok.bases]
    · rfl

theorem max_ge (h : FpOk c) : 2 ^ (c.n * c.k + numBits p - 3) ≤ crtMax c := crtMax_ge h.carry.field pow_numBits_le

/-- `FpChip` implements the field of integers modulo its (prime) modulus. -/
def laws (h : FpOk c) [Fact c.modulus.Prime] : FieldLaws c.ops (ZMod c.modulus) (RangeTable p c.L) where
  Sz := ℕ × ℕ
  URep := c.uRep
  PRep := c.pRep
  RRep := c.rRep
  val := fun v => v
  pSz := (c.n, 2 ^ Nat.size c.modulus)
  addSz := fun x y => (max x.1 y.1 + 1, x.2 + y.2)
  addcSz := fun x => (max x.1 c.n + 1, x.2 + c.modulus)
  subSz := fun x y => (max x.1 y.1 + 1, x.2 + y.2)
  mulSz := fun x y => (c.kLog2 + x.1 + y.1, x.2 * y.2)
  smulSz := fun z x => (x.1 + mulBits z, x.2 * z.natAbs)
  smulAddSz := fun z x y => (max (x.1 + mulBits z) y.1 + 1, x.2 * z.natAbs + y.2)
  carryFits := fun x => CarryFits c x.1 ∧ x.2 ≤ crtMax c
  zeroFits := fun x => CarryZeroFits c x.1 ∧ x.2 ≤ 2 ^ (c.n * c.k + numBits p - 3)
  r_p := by
    intro w a X hr
    obtain ⟨A, h1, h2, h3⟩ := (rRep_iff h).1 hr
    exact ⟨A, h1, h2.trans (Nat.lt_size_self _), h3⟩
  p_u := by
    rintro w a X ⟨A, h1, h2, h3⟩
    refine ⟨A, h1.crt, ?_, ?_, by simpa using h3⟩
    · obtain ⟨_, _, e, -⟩ := h1
      exact e.le
    · rw [abs_of_nonneg (Int.natCast_nonneg A)]
      exact_mod_cast h2.le
  p_unique := by
    rintro w a X Y ⟨A, h1, h2, rfl⟩ ⟨B, h3, h4, rfl⟩
    rw [ProperOk.unique h.pow_n' h1 h3]
  getAssignedValue := fun a s => Snd.weaken ((unwrap_rd _).snd) fun _ _ _ _ => trivial
  loadPrivate := fun v s => (loadPrivate_sound h v s).weaken fun w r _ ⟨A, h1, h2⟩ => ⟨A, A, h1, h2, rfl⟩
  loadConstant := fun v s => (loadConstant_sound h v s).weaken fun w r _ h1 => h1
  addNoCarry := by
    intro a b s
    refine (addNoCarryCrt_sound (n := c.n) (k := c.k) a b s).weaken ?_
    rintro w r _ ⟨h1, -, h2⟩ X Y sx sy ⟨A, a1, a2, a3, rfl⟩ ⟨B, b1, b2, b3, rfl⟩
    refine ⟨A + B, h2 A B a1 b1, by show r.trunc.maxBits ≤ _; rw [h1]; omega, ?_, by push_cast; rfl⟩
    have := abs_add_le A B
    push_cast
    linarith
  addConstantNoCarry := by
    intro a v s
    change ZMod c.modulus at v
    have hm : NeZero c.modulus := ⟨by have := h.ok.pos; omega⟩
    refine (addConstantNoCarry_sound h a v s).weaken ?_
    rintro w r _ ⟨h1, -, h2⟩ X sx ⟨A, a1, a2, a3, rfl⟩
    refine ⟨A + v.val, h2 A a1, by show r.trunc.maxBits ≤ _; rw [h1]; omega, ?_, by rw [Int.cast_add, Int.cast_natCast, ZMod.natCast_zmod_val]⟩
    have := abs_add_le A v.val
    have h3 : |(v.val : ℤ)| ≤ c.modulus := by
      rw [abs_of_nonneg (Int.natCast_nonneg _)]
      exact_mod_cast (ZMod.val_lt v).le
    push_cast at *
    linarith
  subNoCarry := by
    intro a b s
    refine (subNoCarryCrt_sound (n := c.n) (k := c.k) a b s).weaken ?_
    rintro w r _ ⟨h1, -, h2⟩ X Y sx sy ⟨A, a1, a2, a3, rfl⟩ ⟨B, b1, b2, b3, rfl⟩
    refine ⟨A - B, h2 A B a1 b1, by show r.trunc.maxBits ≤ _; rw [h1]; omega, ?_, by push_cast; rfl⟩
    have := abs_sub A B
    push_cast
    linarith
  negate := by
    intro a s
    refine (negate_sound h a s).weaken ?_
    rintro w r _ h0 X ⟨A, a1, a2, rfl⟩
    obtain ⟨h1, h2⟩ := h0 A a1
    refine (rRep_iff h).2 ⟨_, h2, ?_, ?_⟩
    · have := h.ok.pos
      split <;> omega
    · split
      · next h => rw [h]; simp
      · rw [Nat.cast_sub h1]; simp
  scalarMulNoCarry := by
    intro a z s
    by_cases hz : |z| < 2 ^ 63
    · refine (scalarMulNoCarryCrt_sound (n := c.n) (k := c.k) a z s).weaken ?_
      rintro w r _ ⟨⟨cl, h1, h2⟩, -, h3⟩ X sx ⟨A, a1, a2, a3, rfl⟩
      have := log2Ceil_le_mulBits hz h1
      refine ⟨A * z, h3 A a1, by show r.trunc.maxBits ≤ _; rw [h2]; omega, ?_, by push_cast; rfl⟩
      rw [abs_mul]
      push_cast
      exact mul_le_mul_of_nonneg_right a3 (abs_nonneg _)
    · exact Snd.rd (i64ToFe_rd z) fun r hr => absurd hr.2.2 hz
  scalarMulAddNoCarry := by
    intro a b z s
    by_cases hz : |z| < 2 ^ 63
    · refine (scalarMulAddNoCarryCrt_sound (n := c.n) (k := c.k) a b z s).weaken ?_
      rintro w r _ ⟨⟨cl, h1, h2⟩, -, h3⟩ X Y sx sy ⟨A, a1, a2, a3, rfl⟩ ⟨B, b1, b2, b3, rfl⟩
      have := log2Ceil_le_mulBits hz h1
      refine ⟨A * z + B, h3 A B a1 b1, by show r.trunc.maxBits ≤ _; rw [h2]; omega, ?_, by push_cast; rfl⟩
      have e1 := abs_add_le (A * z) B
      rw [abs_mul, Int.abs_eq_natAbs z] at e1
      have := mul_le_mul_of_nonneg_right a3 (Int.natCast_nonneg z.natAbs)
      push_cast at *
      linarith
    · exact Snd.rd (i64ToFe_rd z) fun r hr => absurd hr.2.2 hz
  mulNoCarry := by
    intro a b s
    refine (mulNoCarryCrt_sound (n := c.n) (k := c.k) a b c.kLog2 h.ok.kLog2 s).weaken ?_
    rintro w r _ ⟨h1, -, h2⟩ X Y sx sy ⟨A, a1, a2, a3, rfl⟩ ⟨B, b1, b2, b3, rfl⟩
    refine ⟨A * B, h2 a1.length A B a1 b1, by show r.trunc.maxBits ≤ _; rw [h1]; omega, ?_, by push_cast; rfl⟩
    rw [abs_mul]
    push_cast
    exact mul_le_mul a3 b3 (abs_nonneg _) (Int.natCast_nonneg _)
  checkCarryModToZero := by
    intro a s
    refine (checkCarryModToZeroCrt_sound h.ok h.L h.carry a s).weaken ?_
    rintro w _ _ h0 X sx ⟨f1, f2⟩ ⟨A, a1, a2, a3, rfl⟩
    have := h0 (CarryZeroFits.mono f1 a2) A a1 (a3.trans (by exact_mod_cast f2))
    exact (ZMod.intCast_zmod_eq_zero_iff_dvd A c.modulus).2 (Int.modEq_zero_iff_dvd.1 this)
  carryMod := by
    intro a s
    refine (carryModCrt_sound h.ok h.L h.carry a s).weaken ?_
    rintro w r _ ⟨-, h0⟩ X sx ⟨f1, f2⟩ ⟨A, a1, a2, a3, rfl⟩
    obtain ⟨R, r1, r2, r3⟩ := h0 (CarryFits.mono f1 a2) A a1 (a3.trans (by exact_mod_cast f2))
    refine ⟨R, r1, r2, ?_⟩
    have := (ZMod.intCast_eq_intCast_iff (R : ℤ) A c.modulus).2 r3
    rwa [Int.cast_natCast] at this
  enforceLessThan := by
    intro a s
    refine Snd.bind (enforceLessThanP_sound h a s) fun _ s1 _ => Snd.pure ?_
    rintro w _ h0 X ⟨A, a1, a2, rfl⟩
    exact (rRep_iff h).2 ⟨A, a1, h0 A a1, rfl⟩
  isSoftZero := by
    intro a s
    refine (bigIsZeroPositive_proper (n := c.n) (k := c.k) a s).weaken ?_
    rintro w r _ h0 X ⟨A, a1, a2, rfl⟩
    rw [h0 A a1]
    refine ⟨by split <;> simp, ?_, ?_⟩
    · split
      · next h => rw [h]; simp
      · intro h; simp at h
    · intro hr
      obtain ⟨B, b1, b2, b3⟩ := (rRep_iff h).1 hr
      obtain rfl := ProperOk.unique h.pow_n' a1 b1
      congr 1
      rw [eq_iff_iff, ZMod.natCast_eq_zero_iff]
      exact ⟨fun h => by rw [h]; exact dvd_zero _, fun h => Nat.eq_zero_of_dvd_of_lt h b2⟩
  isZero := by
    intro a s
    refine (isZero_sound h a s).weaken ?_
    rintro w r _ h0 X ⟨A, a1, a2, rfl⟩
    obtain ⟨b2, h1⟩ := h0 A a1
    rw [h1]
    congr 1
    rw [eq_iff_iff, ZMod.natCast_eq_zero_iff]
    exact ⟨fun h => by rw [h]; exact dvd_zero _, fun h => Nat.eq_zero_of_dvd_of_lt h b2⟩
  isEqualUnenforced := by
    intro a b s
    refine (bigIsEqual_proper (n := c.n) (k := c.k) h.pow_n' a b s).weaken ?_
    rintro w r _ h0 X Y ⟨A, a1, a2, rfl⟩ ⟨B, b1, b2, rfl⟩
    rw [h0 A B a1 b1]
    refine ⟨by split <;> simp, ?_, ?_⟩
    · split
      · next h => rw [h]; simp
      · intro h; simp at h
    · intro hr hs
      obtain ⟨A', a1', a2', a3'⟩ := (rRep_iff h).1 hr
      obtain ⟨B', b1', b2', b3'⟩ := (rRep_iff h).1 hs
      obtain rfl := ProperOk.unique h.pow_n' a1 a1'
      obtain rfl := ProperOk.unique h.pow_n' b1 b1'
      congr 1
      rw [eq_iff_iff]
      exact ⟨fun h => by rw [h], fun h => natCast_inj_lt h a2' b2'⟩
  assertEqual := by
    intro a b s
    refine (assertEqual_sound h a b s).weaken ?_
    rintro w r _ h0 X Y ⟨A, a1, a2, rfl⟩ ⟨B, b1, b2, rfl⟩
    rw [(h0 A B a1 b1).1]
  select := by
    intro a b sel s
    refine (selectCrt_sound a b sel s).weaken ?_
    rintro w r _ ⟨hm, hl, h1, h0⟩
    have key : ∀ A B : ℕ, ProperOk c.n c.k w a A → ProperOk c.n c.k w b B →
        (at' w sel = 1 → ProperOk c.n c.k w r A) ∧ (at' w sel = 0 → ProperOk c.n c.k w r B) := by
      intro A B ha hb
      have hma : a.trunc.maxBits = c.n := by obtain ⟨_, _, e, -⟩ := ha; exact e
      have hmb : b.trunc.maxBits = c.n := by obtain ⟨_, _, e, -⟩ := hb; exact e
      refine ⟨fun hs => ?_, fun hs => ?_⟩
      · obtain ⟨e1, e2⟩ := h1 hs
        exact ha.congr e1 (by rw [hm, hma, hmb, max_self]) e2
      · obtain ⟨e1, e2⟩ := h0 hs
        exact hb.congr e1 (by rw [hm, hma, hmb, max_self]) e2
    constructor
    · rintro X Y ⟨A, a1, a2, a3⟩ ⟨B, b1, b2, b3⟩
      obtain ⟨k1, k2⟩ := key A B a1 b1
      exact ⟨fun h => ⟨A, k1 h, a2, a3⟩, fun h => ⟨B, k2 h, b2, b3⟩⟩
    · intro X Y hX hY
      exact key X.val Y.val hX hY
  selectByIndicator := by
    intro as ind s
    refine (selIndProper h as ind s).weaken ?_
    intro w r _ h0 Xs hXs idx hidx X hX
    obtain ⟨As, hA, hB⟩ : ∃ As : List ℕ, as.Forall₂ (ProperOk c.n c.k w) As ∧
        As.Forall₂ (fun A X => A < 2 ^ Nat.size c.modulus ∧ ((A : ℕ) : ZMod c.modulus) = X) Xs := by
      clear h0 hidx hX
      induction hXs with
      | nil => exact ⟨[], .nil, .nil⟩
      | cons hx _ ih =>
        obtain ⟨A, a1, a2⟩ := hx
        obtain ⟨As, i1, i2⟩ := ih
        exact ⟨A :: As, .cons a1 i1, .cons a2 i2⟩
    have hlen := List.Forall₂.length_eq hB
    have hidx2 : idx < Xs.length := (List.getElem?_eq_some_iff.1 hX).1
    have hb := (List.forall₂_iff_get.1 hB).2 idx (by omega) hidx2
    rw [List.get_eq_getElem, List.get_eq_getElem, (List.getElem?_eq_some_iff.1 hX).2] at hb
    exact ⟨As[idx], h0 As hA idx hidx _ (List.getElem?_eq_getElem (by omega)), hb⟩
  selectByIndicatorR := by
    intro as ind s
    refine (selIndProper h as ind s).weaken ?_
    intro w r _ h0 Xs hXs idx hidx X hX
    have hA : as.Forall₂ (ProperOk c.n c.k w) (Xs.map ZMod.val) := by
      clear h0 hidx hX
      induction hXs with
      | nil => exact .nil
      | cons hx _ ih => exact .cons hx ih
    exact h0 _ hA idx hidx X.val (by rw [List.getElem?_map, hX]; rfl)
  val_zero := rfl

theorem softNonzero (h : FpOk c) [Fact c.modulus.Prime] : (laws h).SoftNonzero := by
  intro a s
  refine (isSoftNonzero_sound h a s).weaken ?_
  rintro w r _ h0 X ⟨A, a1, a2, rfl⟩
  have key : A < c.modulus → ((A : ZMod c.modulus) = 0 ↔ A = 0) := fun hl => by
    rw [ZMod.natCast_eq_zero_iff]
    exact ⟨fun h => Nat.eq_zero_of_dvd_of_lt h hl, fun h => by rw [h]; exact dvd_zero _⟩
  rw [h0 A a1]
  refine ⟨by split <;> simp, ?_, ?_⟩
  · split
    · next h => intro _ h2; exact h.1 ((key h.2).1 h2)
    · intro h; simp at h
  · intro hr
    obtain ⟨B, b1, b2, b3⟩ := (rRep_iff h).1 hr
    obtain rfl := ProperOk.unique h.pow_n' a1 b1
    simp only [ne_eq, key b2, b2, and_true]

end FpChip
end H2
