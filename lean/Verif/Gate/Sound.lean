import Verif.Gate.Model
import Verif.Core.Logic
import Mathlib.Tactic.NormNum

/-! # Soundness of the gate routines -/

set_option autoImplicit false
namespace H2
variable {p : ℕ} [Fact p.Prime] {tbl : ZMod p → Prop}

theorem add_sound (a b : QCell p) : Sound tbl (add a b) (fun w r =>
    ∃ x y, QOk w a x ∧ QOk w b y ∧ at' w r = x + y) := by
  intro s
  refine Snd.unwrap fun x _ => Snd.unwrap fun y _ => ?_
  refine (assignRegionLast_snd _ _ (by simp)).weaken ?_
  rintro w r s3 ⟨V, h1, h2, h3⟩
  simp [QsOk, QOk, gateV] at h1 h2 h3
  norm_num at h3
  obtain ⟨ha, hb, hc⟩ := h1
  refine ⟨_, _, ha, hb, ?_⟩
  rw [h3, ← h2, hc]; ring

theorem inc_sound (a : QCell p) : Sound tbl (inc a) (fun w r =>
    ∃ x, QOk w a x ∧ at' w r = x + 1) := by
  intro s
  refine (add_sound a _ s).weaken ?_
  rintro w r _ ⟨x, y, hx, hy, h⟩
  exact ⟨x, hx, by rw [h, show y = 1 from hy]⟩

theorem sub_sound (a b : QCell p) : Sound tbl (sub a b) (fun w r =>
    ∃ x y, QOk w a x ∧ QOk w b y ∧ at' w r = x - y) := by
  intro s
  refine Snd.unwrap fun x _ => Snd.unwrap fun y _ => ?_
  refine (regionGet_snd _ _ _ (by simp) (by simp)).weaken ?_
  rintro w r s3 ⟨V, h1, h2, h3⟩
  simp [QsOk, QOk, gateV] at h1 h2 h3
  obtain ⟨hb, hc, ha⟩ := h1
  refine ⟨_, _, ha, hb, ?_⟩
  rw [h3, ← h2, hc]; ring

theorem dec_sound (a : QCell p) : Sound tbl (dec a) (fun w r =>
    ∃ x, QOk w a x ∧ at' w r = x - 1) := by
  intro s
  refine (sub_sound a _ s).weaken ?_
  rintro w r _ ⟨x, y, hx, hy, h⟩
  exact ⟨x, hx, by rw [h, show y = 1 from hy]⟩

theorem regionLastGet_snd {s : Ctx p} (qs : List (QCell p)) (gs : List ℤ) (o : ℤ) (h1 : o < 0)
    (h2 : -(qs.length : ℤ) ≤ o) :
    Snd tbl s (do let _ ← assignRegionLast qs gs; getM o) (fun w r _ => ∃ V : ℤ → ZMod p,
      QsOk w V 0 qs ∧ (∀ o ∈ gs, gateV V o) ∧ at' w r = V (qs.length + o)) := by
  simp only [assignRegionLast, bind_assoc]
  refine Snd.bind (assignRegion_snd qs gs) fun _ s1 e1 => ?_
  refine Snd.bind lastM_snd fun _ s2 e2 => ?_
  refine (getM_snd o).weaken ?_
  rintro w r s3 ⟨rfl, i, hi, _, hc⟩ ⟨rfl, -⟩ ⟨hl, hQ, hg⟩
  refine ⟨_, hQ, hg, ?_⟩
  rw [← e1.rowV]
  refine rowV_of_cell hc ?_
  rw [if_pos h1] at hi
  rw [hi, hl]; push_cast; ring

theorem subMul_sound (a b c : QCell p) : Sound tbl (subMul a b c) (fun w r =>
    ∃ x y z, QOk w a x ∧ QOk w b y ∧ QOk w c z ∧ at' w r = x - y * z) := by
  intro s
  refine Snd.unwrap fun x _ => Snd.unwrap fun y _ => Snd.unwrap fun z _ => ?_
  refine (regionLastGet_snd _ _ _ (by simp) (by simp)).weaken ?_
  rintro w r s3 ⟨V, h1, h2, h3⟩
  simp [QsOk, QOk, gateV] at h1 h2 h3
  obtain ⟨hb, hc, ha⟩ := h1
  refine ⟨_, _, _, ha, hb, hc, ?_⟩
  rw [h3, ← h2]; ring

theorem neg_sound (a : QCell p) : Sound tbl (neg a) (fun w r =>
    ∃ x, QOk w a x ∧ at' w r = -x) := by
  intro s
  refine Snd.unwrap fun x _ => ?_
  refine (regionGet_snd _ _ _ (by simp) (by simp)).weaken ?_
  rintro w r s3 ⟨V, h1, h2, h3⟩
  simp [QsOk, QOk, gateV] at h1 h2 h3
  norm_num at h3
  obtain ⟨ha, h4, h5⟩ := h1
  refine ⟨_, ha, ?_⟩
  rw [h4, h5] at h2
  rw [h3]; linear_combination h2

theorem mul_sound (a b : QCell p) : Sound tbl (mul a b) (fun w r =>
    ∃ x y, QOk w a x ∧ QOk w b y ∧ at' w r = x * y) := by
  intro s
  refine Snd.unwrap fun x _ => Snd.unwrap fun y _ => ?_
  refine (assignRegionLast_snd _ _ (by simp)).weaken ?_
  rintro w r s3 ⟨V, h1, h2, h3⟩
  simp [QsOk, QOk, gateV] at h1 h2 h3
  norm_num at h3
  obtain ⟨h0, ha, hb⟩ := h1
  refine ⟨_, _, ha, hb, ?_⟩
  rw [h3, ← h2, h0]; ring

theorem mulAdd_sound (a b c : QCell p) : Sound tbl (mulAdd a b c) (fun w r =>
    ∃ x y z, QOk w a x ∧ QOk w b y ∧ QOk w c z ∧ at' w r = x * y + z) := by
  intro s
  refine Snd.unwrap fun x _ => Snd.unwrap fun y _ => Snd.unwrap fun z _ => ?_
  refine (assignRegionLast_snd _ _ (by simp)).weaken ?_
  rintro w r s3 ⟨V, h1, h2, h3⟩
  simp [QsOk, QOk, gateV] at h1 h2 h3
  norm_num at h3
  obtain ⟨hc, ha, hb⟩ := h1
  refine ⟨_, _, _, ha, hb, hc, ?_⟩
  rw [h3, ← h2]; ring

theorem mulNot_sound (a b : QCell p) : Sound tbl (mulNot a b) (fun w r =>
    ∃ x y, QOk w a x ∧ QOk w b y ∧ at' w r = (1 - x) * y) := by
  intro s
  refine Snd.unwrap fun x _ => Snd.unwrap fun y _ => ?_
  refine (regionSmartGet_snd _ _ _ _ (by simp) (by simp)).weaken ?_
  rintro w r s3 ⟨V, h1, h2, h4, h3⟩
  simp [QsOk, QOk, gateV] at h1 h2 h3 h4
  obtain ⟨ha, hb, -⟩ := h1
  refine ⟨_, _, ha, hb, ?_⟩
  rw [h3]
  linear_combination h2 - h4

theorem assertBit_sound (x : AV p) : Sound tbl (assertBit x) (fun w _ => at' w x = 0 ∨ at' w x = 1) := by
  intro s
  refine (assignRegion_snd _ _).weaken ?_
  rintro w r s3 ⟨-, h1, h2⟩
  simp [QsOk, QOk, gateV] at h1 h2
  obtain ⟨h0, ha, hb, hc⟩ := h1
  rw [h0, ha, hb, hc] at h2
  have : at' w x * (at' w x - 1) = 0 := by linear_combination h2
  rcases mul_eq_zero.1 this with h | h
  · exact Or.inl h
  · exact Or.inr (sub_eq_zero.1 h)

theorem invertUnwrap_snd {s : Ctx p} (x : ZMod p) :
    Snd tbl s (invertUnwrap x) (fun _ r s' => s' = s ∧ x ≠ 0 ∧ r = x⁻¹) := by
  unfold invertUnwrap
  exact Snd.ite (fun _ => Snd.panic) fun h => Snd.pure fun _ _ => ⟨rfl, h, rfl⟩

theorem divUnsafe_sound (a b : QCell p) : Sound tbl (divUnsafe a b) (fun w r =>
    ∃ x y, QOk w a x ∧ QOk w b y ∧ at' w r * y = x) := by
  intro s
  refine Snd.unwrap fun y _ => ?_
  refine Snd.bind (invertUnwrap_snd y) fun z s1 _ => ?_
  refine Snd.unwrap fun x _ => ?_
  refine (regionGet_snd _ _ _ (by simp) (by simp)).weaken ?_
  rintro w r s3 ⟨V, h1, h2, h3⟩ -
  simp [QsOk, QOk, gateV] at h1 h2 h3
  norm_num at h3
  obtain ⟨h0, hb, ha⟩ := h1
  exact ⟨_, _, ha, hb, by rw [h3, ← h2, h0]; ring⟩

theorem or_sound (a b : QCell p) : Sound tbl (or a b) (fun w r =>
    ∃ x y, QOk w a x ∧ QOk w b y ∧ at' w r = x + y - x * y) := by
  intro s
  refine Snd.unwrap fun y _ => Snd.unwrap fun x _ => ?_
  refine (regionSmartLast_snd _ _ _ (by simp)).weaken ?_
  rintro w r s3 ⟨V, h1, h2, h4, h3⟩
  simp [QsOk, QOk, gateV] at h1 h2 h3 h4
  obtain ⟨k1, k2, k3, k4, k5⟩ := h1
  obtain ⟨g1, g2⟩ := h2
  obtain ⟨e1, e2⟩ := h4
  refine ⟨_, _, k5, k2, ?_⟩
  rw [k1, k3] at g1
  rw [← e1, ← e2] at g2
  rw [h3]
  linear_combination (V 5) * g1 - g2

theorem xor_sound (a b : QCell p) : Sound tbl (xor a b) (fun w r =>
    ∃ x y, QOk w a x ∧ QOk w b y ∧ at' w r = x + y - 2 * x * y) := by
  intro s
  refine Snd.unwrap fun y _ => Snd.unwrap fun x _ => ?_
  refine (regionSmartLast_snd _ _ _ (by simp)).weaken ?_
  rintro w r s3 ⟨V, h1, h2, h4, h3⟩
  simp [QsOk, QOk, gateV] at h1 h2 h3 h4
  obtain ⟨k1, k2, k3, k4, k5⟩ := h1
  obtain ⟨g1, g2⟩ := h2
  obtain ⟨e1, e2⟩ := h4
  refine ⟨_, _, k5, k2, ?_⟩
  rw [k1, k3] at g1
  rw [← e1, ← e2] at g2
  rw [h3]
  linear_combination (V 5) * g1 - g2

theorem not_sound (a : QCell p) : Sound tbl (not a) (fun w r =>
    ∃ x, QOk w a x ∧ at' w r = 1 - x) := by
  intro s
  refine (sub_sound _ a s).weaken ?_
  rintro w r _ ⟨x, y, hx, hy, h⟩
  exact ⟨y, hy, by rw [h, show x = 1 from hx]⟩

theorem and_sound (a b : QCell p) : Sound tbl (and a b) (fun w r =>
    ∃ x y, QOk w a x ∧ QOk w b y ∧ at' w r = x * y) := mul_sound a b

theorem select_sound (a b sel : QCell p) : Sound tbl (select a b sel) (fun w r =>
    ∃ x y z, QOk w a x ∧ QOk w b y ∧ QOk w sel z ∧ at' w r = (x - y) * z + y) := by
  intro s
  refine Snd.unwrap fun x _ => Snd.unwrap fun y _ => Snd.unwrap fun z _ => ?_
  refine (regionSmartLast_snd _ _ _ (by simp)).weaken ?_
  rintro w r s3 ⟨V, h1, h2, h4, h3⟩
  simp [QsOk, QOk, gateV] at h1 h2 h3 h4
  obtain ⟨k1, k2, k3, k4, k5⟩ := h1
  obtain ⟨g1, g2⟩ := h2
  obtain ⟨e1, e2⟩ := h4
  refine ⟨_, _, _, k3, k2, k5, ?_⟩
  rw [k1] at g1
  rw [← e1, ← e2] at g2
  rw [h3]
  linear_combination (V 5) * g1 - g2

theorem orAnd_sound (a b c : QCell p) : Sound tbl (orAnd a b c) (fun w r =>
    ∃ x y z, QOk w a x ∧ QOk w b y ∧ QOk w c z ∧ at' w r = x + y * z - x * (y * z)) := by
  intro s
  refine Snd.unwrap fun y _ => Snd.unwrap fun z _ => Snd.unwrap fun x _ => ?_
  refine (regionSmartGet_snd _ _ _ _ (by simp) (by simp)).weaken ?_
  rintro w r s3 ⟨V, h1, h2, h4, h3⟩
  simp [QsOk, QOk, gateV] at h1 h2 h3 h4
  obtain ⟨k1, k2, k3, k4, k5, k6⟩ := h1
  obtain ⟨g1, g2, g3⟩ := h2
  obtain ⟨e1, e2⟩ := h4
  refine ⟨_, _, _, k6, k1, k2, ?_⟩
  rw [k3] at g1
  rw [k3] at g2
  rw [k4, k5] at g3
  have e4 : V 4 = V 10 - 1 := by rw [e1]; linear_combination g3
  have e5 : V 5 = 1 - V 1 * V 2 := by rw [← e2]; linear_combination g1
  rw [h3, ← g2, e4, e5]; ring

/-- The two gate equations of `is_zero`. -/
theorem isZero_alg {out a inv : ZMod p} (h1 : out + a * inv = 1) (h2 : a * out = 0) :
    out = if a = 0 then 1 else 0 := by
  split
  · rename_i h; rw [h] at h1; linear_combination h1
  · rename_i h
    rcases mul_eq_zero.1 h2 with h' | h'
    · exact absurd h' h
    · exact h'

theorem isZero_sound (a : AV p) : Sound tbl (isZero a) (fun w r =>
    at' w r = if at' w a = 0 then 1 else 0) := by
  intro s
  refine Snd.unwrap fun x _ => ?_
  refine (regionSmartGet_snd _ _ _ _ (by simp) (by simp)).weaken ?_
  rintro w r s3 ⟨V, h1, h2, h4, h3⟩
  simp [QsOk, QOk, gateV] at h1 h2 h3 h4
  obtain ⟨k1, k2, k3, k4, k5⟩ := h1
  obtain ⟨g1, g2⟩ := h2
  rw [h3]
  refine isZero_alg (inv := V 2) ?_ ?_
  · rw [← h4, ← k1, g1, k2]
  · rw [← k4]; rw [k3, k5] at g2; linear_combination g2

theorem isEqual_sound (a b : QCell p) : Sound tbl (isEqual a b) (fun w r =>
    ∃ x y, QOk w a x ∧ QOk w b y ∧ at' w r = if x = y then 1 else 0) := by
  intro s
  refine Snd.bind (sub_sound a b s) fun d s1 _ => ?_
  refine (isZero_sound d s1).weaken ?_
  rintro w r _ h ⟨x, y, hx, hy, hd⟩
  refine ⟨x, y, hx, hy, ?_⟩
  rw [h, hd]
  simp only [sub_eq_zero]

end H2
