import Mathlib.AlgebraicGeometry.EllipticCurve.Affine.Point
import Mathlib.Tactic.LinearCombination
import Mathlib.Tactic.FieldSimp

/-!
# Specification: the group of the curve `y² = x³ + b` (Mathlib's group law), and its coordinate formulas
-/

set_option autoImplicit false
set_option linter.unusedSectionVars false
namespace H2

/-- The curve `y² = x³ + b`. -/
abbrev curve {K : Type} [Field K] (b : K) : WeierstrassCurve.Affine K := { a₁ := 0, a₂ := 0, a₃ := 0, a₄ := 0, a₆ := b }

/-- The group of points of the curve `y² = x³ + b` (Mathlib). -/
abbrev ECurve {K : Type} [Field K] (b : K) : Type := (curve b).Point

/-- `(x, y)` are the coordinates of the (finite) point `g`. -/
def IsPt {K : Type} [Field K] (b x y : K) (g : ECurve b) : Prop := ∃ h, g = .some x y h

/-- `(x, y)` are the coordinates of `g`, where `(0, 0)` stands for the point at infinity. -/
def IsPt0 {K : Type} [Field K] (b x y : K) (g : ECurve b) : Prop := IsPt b x y g ∨ (g = 0 ∧ x = 0 ∧ y = 0)

/-- The curve is an elliptic curve, of characteristic other than 2 and 3. -/
structure CurveOk {K : Type} [Field K] (b : K) : Prop where
  two : (2 : K) ≠ 0
  three : (3 : K) ≠ 0
  b0 : b ≠ 0

variable {K : Type} [Field K] {b : K}

theorem curve_eqn {x y : K} : (curve b).Equation x y ↔ y ^ 2 = x ^ 3 + b := by
  rw [WeierstrassCurve.Affine.equation_iff]
  simp

theorem curve_nonsingular (hb : CurveOk b) {x y : K} (h : y ^ 2 = x ^ 3 + b) : (curve b).Nonsingular x y := by
  rw [WeierstrassCurve.Affine.nonsingular_iff]
  refine ⟨curve_eqn.2 h, ?_⟩
  simp only [zero_mul, sub_zero, mul_zero, add_zero, ne_eq]
  by_contra hc
  rw [not_or, not_not, not_not] at hc
  obtain ⟨h1, h2⟩ := hc
  have hx : x = 0 := by
    have h1 : 3 * x ^ 2 = 0 := h1.symm
    have := (mul_eq_zero.1 h1).resolve_left hb.three
    simpa using this
  have hy : y = 0 := by
    have h2 : 2 * y = 0 := by linear_combination h2
    exact (mul_eq_zero.1 h2).resolve_left hb.two
  rw [hx, hy] at h
  apply hb.b0
  linear_combination -h

theorem IsPt.of_eqn (hb : CurveOk b) {x y : K} (h : y ^ 2 = x ^ 3 + b) : ∃ g, IsPt b x y g :=
  ⟨.some x y (curve_nonsingular hb h), _, rfl⟩

theorem IsPt.eqn {x y : K} {g : ECurve b} (h : IsPt b x y g) : y ^ 2 = x ^ 3 + b := by
  obtain ⟨h, -⟩ := h
  exact curve_eqn.1 h.1

theorem IsPt.ne_zero {x y : K} {g : ECurve b} (h : IsPt b x y g) : g ≠ 0 := by
  obtain ⟨h, rfl⟩ := h
  exact WeierstrassCurve.Affine.Point.some_ne_zero h

theorem IsPt.unique {x y : K} {g g' : ECurve b} (h : IsPt b x y g) (h' : IsPt b x y g') : g = g' := by
  obtain ⟨h, rfl⟩ := h
  obtain ⟨h', rfl⟩ := h'
  rfl

theorem IsPt.coords {x y x' y' : K} {g : ECurve b} (h : IsPt b x y g) (h' : IsPt b x' y' g) : x = x' ∧ y = y' := by
  obtain ⟨h, rfl⟩ := h
  obtain ⟨h', e⟩ := h'
  injection e with e1 e2
  exact ⟨e1, e2⟩

theorem IsPt.y_ne (hb : CurveOk b) {x y : K} {g : ECurve b} (h : IsPt b x y g) : x ≠ 0 ∨ y ≠ 0 := by
  by_contra hc
  rw [not_or, not_not, not_not] at hc
  have := h.eqn
  rw [hc.1, hc.2] at this
  apply hb.b0
  linear_combination -this

/-- The coordinates determine the point, when `(0, 0)` stands for infinity. -/
theorem IsPt0.unique (hb : CurveOk b) {x y : K} {g g' : ECurve b} (h : IsPt0 b x y g) (h' : IsPt0 b x y g') : g = g' := by
  rcases h with h | ⟨rfl, h1, h2⟩ <;> rcases h' with h' | ⟨rfl, h1', h2'⟩
  · exact h.unique h'
  · rcases h.y_ne hb with h | h
    · exact absurd h1' h
    · exact absurd h2' h
  · rcases h'.y_ne hb with h | h
    · exact absurd h1 h
    · exact absurd h2 h
  · rfl

theorem IsPt.neg {x y : K} {g : ECurve b} (h : IsPt b x y g) : IsPt b x (-y) (-g) := by
  obtain ⟨h, rfl⟩ := h
  have e : (curve b).negY x y = -y := by simp [WeierstrassCurve.Affine.negY]
  have h' : (curve b).Nonsingular x (-y) := by
    rw [← e]
    exact (WeierstrassCurve.Affine.nonsingular_neg x y).2 h
  refine ⟨h', ?_⟩
  rw [WeierstrassCurve.Affine.Point.neg_some]
  congr 1

theorem IsPt0.neg {x y : K} {g : ECurve b} (h : IsPt0 b x y g) : IsPt0 b x (-y) (-g) := by
  rcases h with h | ⟨rfl, rfl, rfl⟩
  · exact .inl h.neg
  · exact .inr ⟨by simp, rfl, by simp⟩

/-- Two points with the same first coordinate are equal or opposite. -/
theorem IsPt.x_eq {x y y' : K} {g g' : ECurve b} (h : IsPt b x y g) (h' : IsPt b x y' g') :
    (y = y' ∧ g = g') ∨ (y = -y' ∧ g = -g') := by
  have e1 := h.eqn
  have e2 := h'.eqn
  have : (y - y') * (y + y') = 0 := by linear_combination e1 - e2
  rcases mul_eq_zero.1 this with h0 | h0
  · have : y = y' := by linear_combination h0
    subst this
    exact .inl ⟨rfl, h.unique h'⟩
  · have : y = -y' := by linear_combination h0
    subst this
    exact .inr ⟨rfl, h.unique h'.neg⟩

variable [DecidableEq K]

/-- Chord formula. -/
theorem IsPt.add {x1 y1 x2 y2 l x3 y3 : K} {g1 g2 : ECurve b} (h1 : IsPt b x1 y1 g1) (h2 : IsPt b x2 y2 g2) (hx : x1 ≠ x2)
    (hl : l * (x2 - x1) = y2 - y1) (h3 : x3 = l * l - x1 - x2) (h4 : y3 = l * (x1 - x3) - y1) : IsPt b x3 y3 (g1 + g2) := by
  obtain ⟨h1, rfl⟩ := h1
  obtain ⟨h2, rfl⟩ := h2
  have hxy : ¬(x1 = x2 ∧ y1 = (curve b).negY x2 y2) := fun h => hx h.1
  have es : (curve b).slope x1 x2 y1 y2 = l := by
    rw [WeierstrassCurve.Affine.slope_of_X_ne hx]
    have : x1 - x2 ≠ 0 := sub_ne_zero.2 hx
    field_simp
    linear_combination hl
  have ex : (curve b).addX x1 x2 ((curve b).slope x1 x2 y1 y2) = x3 := by
    rw [es, h3]
    simp only [WeierstrassCurve.Affine.addX]
    ring
  have ey : (curve b).addY x1 x2 y1 ((curve b).slope x1 x2 y1 y2) = y3 := by
    rw [es, h4, h3]
    simp only [WeierstrassCurve.Affine.addY, WeierstrassCurve.Affine.negAddY, WeierstrassCurve.Affine.negY,
      WeierstrassCurve.Affine.addX]
    ring
  have hn := WeierstrassCurve.Affine.nonsingular_add h1 h2 hxy
  rw [WeierstrassCurve.Affine.Point.add_some hxy]
  refine ⟨by rw [← ex, ← ey]; exact hn, ?_⟩
  congr 1

/-- Tangent formula. -/
theorem IsPt.double (hb : CurveOk b) {x y l x3 y3 : K} {g : ECurve b} (h : IsPt b x y g) (hl : l * (y * 2) = x * 3 * x)
    (h3 : x3 = l * l - x * 2) (h4 : y3 = l * (x - x3) - y) : IsPt b x3 y3 (2 • g) := by
  have hy : y ≠ 0 := by
    intro h0
    rw [h0] at hl
    have hl : 3 * (x * x) = 0 := by linear_combination -hl
    have := (mul_eq_zero.1 hl).resolve_left hb.three
    have hx : x = 0 := by simpa using this
    rcases h.y_ne hb with h | h
    · exact h hx
    · exact h h0
  obtain ⟨h, rfl⟩ := h
  have e : (curve b).negY x y = -y := by simp [WeierstrassCurve.Affine.negY]
  have hyy : y ≠ (curve b).negY x y := by
    rw [e]
    intro h0
    have : 2 * y = 0 := by linear_combination h0
    exact hy ((mul_eq_zero.1 this).resolve_left hb.two)
  have hxy : ¬(x = x ∧ y = (curve b).negY x y) := fun h => hyy h.2
  have es : (curve b).slope x x y y = l := by
    rw [WeierstrassCurve.Affine.slope_of_Y_ne rfl hyy, e]
    have h2 := hb.two
    have : y - -y ≠ 0 := by
      rw [sub_neg_eq_add, ← two_mul]
      exact mul_ne_zero h2 hy
    rw [div_eq_iff this]
    simp only [mul_zero, zero_mul, add_zero, sub_zero]
    linear_combination -hl
  have ex : (curve b).addX x x ((curve b).slope x x y y) = x3 := by
    rw [es, h3]
    simp only [WeierstrassCurve.Affine.addX]
    ring
  have ey : (curve b).addY x x y ((curve b).slope x x y y) = y3 := by
    rw [es, h4, h3]
    simp only [WeierstrassCurve.Affine.addY, WeierstrassCurve.Affine.negAddY, WeierstrassCurve.Affine.negY,
      WeierstrassCurve.Affine.addX]
    ring
  have hn := WeierstrassCurve.Affine.nonsingular_add h h hxy
  rw [two_nsmul, WeierstrassCurve.Affine.Point.add_some hxy]
  refine ⟨by rw [← ex, ← ey]; exact hn, ?_⟩
  congr 1

/-- The formula for `2P + Q` (`ec_double_and_add_unequal`). -/
theorem IsPt.doubleAdd {x0 y0 x1 y1 l0 x2 d x3 y3 : K} {g q : ECurve b} (h0 : IsPt b x0 y0 g)
    (h1 : IsPt b x1 y1 q) (hx : x0 ≠ x1) (hl : l0 * (x1 - x0) = y1 - y0) (hx2 : x2 = l0 * l0 - x0 - x1) (hx02 : x0 ≠ x2)
    (hd : d * (x2 - x0) = y0 * 2) (h3 : x3 = (l0 + d) * (l0 + d) - x0 - x2) (h4 : y3 = (l0 + d) * (x3 - x0) - y0) :
    IsPt b x3 y3 (2 • g + q) := by
  have hs : IsPt b x2 (l0 * (x0 - x2) - y0) (g + q) := h0.add h1 hx hl hx2 rfl
  rw [two_nsmul, add_assoc]
  refine h0.add (l := -(l0 + d)) hs hx02 ?_ ?_ ?_
  · linear_combination -hd
  · rw [h3]; ring
  · rw [h4]; ring

end H2
