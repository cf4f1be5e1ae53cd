import Verif.Core.Logic

/-!
# Threads that can be laid out

`Layable` is what the layout of a thread into physical columns (`assign_with_constraints`, single_phase.rs:187-272)
needs from its selector column; `Lay` says that a routine preserves it.
-/

set_option autoImplicit false
namespace H2
variable {p : ℕ}

/-- Specification: the selector column is as long as the advice column, every enabled gate has its four cells inside the
thread, and two enabled gates share at most one cell (the last of one, the first of the other). -/
structure Layable (s : Ctx p) : Prop where
  len : s.selector.length = s.advice.length
  inside : ∀ i : ℕ, s.selector[i]? = some true → i + 3 < s.advice.length
  apart : ∀ i j : ℕ, s.selector[i]? = some true → s.selector[j]? = some true → i < j → i + 3 ≤ j

/-- A run of `m` takes layable threads to layable threads. -/
def Lay {α : Type} (m : M p α) : Prop :=
  ∀ s : Ctx p, s.wgo = false → Layable s → ∀ r s', m s = some (r, s') → Layable s'

/-- Gate offsets that fit a region of `n` cells: each gate starts at the earliest at the cell before the region, ends
inside the region, and different gates are at least three cells apart. -/
structure GOk (n : ℕ) (gs : List ℤ) : Prop where
  lo : ∀ g ∈ gs, -1 ≤ g
  hi : ∀ g ∈ gs, g + 3 < n
  apart : ∀ g ∈ gs, ∀ h ∈ gs, g < h → g + 3 ≤ h

theorem layable_new (wgo : Bool) (phase : ℕ) (t : String) (i : ℕ) (eqs : List (Cell × Cell)) (cs : List (ZMod p × Cell)) :
    Layable (Ctx.new wgo phase t i eqs cs : Ctx p) := ⟨rfl, by simp [Ctx.new], by simp [Ctx.new]⟩

theorem Layable.of_eq {s s' : Ctx p} (h : Layable s) (h1 : s'.selector = s.selector) (h2 : s'.advice = s.advice) : Layable s' :=
  ⟨by rw [h1, h2, h.len], by rw [h1, h2]; exact h.inside, by rw [h1]; exact h.apart⟩

theorem Lay.same {α : Type} {m : M p α} (h : ∀ s r s', m s = some (r, s') → s'.selector = s.selector ∧ s'.advice = s.advice) :
    Lay m := fun _ _ hs r s' hr => hs.of_eq (h _ r s' hr).1 (h _ r s' hr).2

/-- `assign_cell`, `Context::assign_region` loop: cells are appended, nothing else changes for the layout. -/
theorem assignCell_grow {q : QCell p} {s s' : Ctx p} {u : Unit} (h : assignCell q s = some (u, s')) :
    s'.selector = s.selector ∧ s'.advice.length = s.advice.length + 1 ∧ s'.wgo = s.wgo := by
  unfold assignCell at h
  cases q with
  | existing a =>
    simp only at h
    split at h
    · simp only [Option.some.injEq, Prod.mk.injEq] at h; obtain ⟨-, rfl⟩ := h; simp
    · obtain ⟨c, -, h2⟩ := Option.map_eq_some_iff.1 h
      simp only [Prod.mk.injEq] at h2; obtain ⟨-, rfl⟩ := h2; simp
  | witness x => simp only [Option.some.injEq, Prod.mk.injEq] at h; obtain ⟨-, rfl⟩ := h; simp
  | witnessFraction x => simp only [Option.some.injEq, Prod.mk.injEq] at h; obtain ⟨-, rfl⟩ := h; simp
  | constant c =>
    simp only at h
    split at h <;> (simp only [Option.some.injEq, Prod.mk.injEq] at h; obtain ⟨-, rfl⟩ := h; simp)

theorem assignCells_grow (qs : List (QCell p)) : ∀ {s s' : Ctx p} {u : Unit}, assignCells qs s = some (u, s') →
    s'.selector = s.selector ∧ s'.advice.length = s.advice.length + qs.length ∧ s'.wgo = s.wgo := by
  induction qs with
  | nil =>
    intro s s' u h
    simp only [assignCells, pure_apply, Option.some.injEq, Prod.mk.injEq] at h
    obtain ⟨-, rfl⟩ := h; simp
  | cons q qs ih =>
    intro s s' u h
    obtain ⟨_, s1, h1, h2⟩ := bind_some.1 h
    obtain ⟨a, b, c⟩ := assignCell_grow h1
    obtain ⟨a', b', c'⟩ := ih h2
    exact ⟨a'.trans a, by rw [b', b]; simp; omega, c'.trans c⟩

theorem resize_true {l : List Bool} {n i : ℕ} : (resize l n)[i]? = some true ↔ i < n ∧ l[i]? = some true := by
  unfold resize
  rcases Nat.lt_or_ge i (l.take n).length with h | h
  · rw [List.getElem?_append_left h]
    rw [List.length_take] at h
    rw [List.getElem?_take]
    simp [show i < n by omega]
  · rw [List.getElem?_append_right h]
    have h' := h
    rw [List.length_take] at h'
    constructor
    · intro e
      rw [List.getElem?_replicate] at e
      split at e <;> simp at e
    · rintro ⟨h1, h2⟩
      have := (List.getElem?_eq_some_iff.1 h2).1
      omega

theorem resize_len (l : List Bool) (n : ℕ) : (resize l n).length = n := by
  unfold resize; simp; omega

/-- Growing by cells without gates. -/
theorem Layable.grow {s s' : Ctx p} (h : Layable s) (h1 : s'.selector = resize s.selector s'.advice.length)
    (h2 : s.advice.length ≤ s'.advice.length) : Layable s' := by
  refine ⟨by rw [h1, resize_len], fun i hi => ?_, fun i j hi hj hij => ?_⟩
  · rw [h1, resize_true] at hi
    have := h.inside i hi.2
    omega
  · rw [h1, resize_true] at hi hj
    exact h.apart i j hi.2 hj.2 hij

theorem enableGates_grow (row : ℕ) (gs : List ℤ) : ∀ {s s' : Ctx p} {u : Unit}, enableGates row gs s = some (u, s') →
    s'.advice = s.advice ∧ s'.selector.length = s.selector.length ∧
      ∀ i : ℕ, s'.selector[i]? = some true ↔ s.selector[i]? = some true ∨ ∃ g ∈ gs, (row : ℤ) + g = i := by
  induction gs with
  | nil =>
    intro s s' u h
    simp only [enableGates, pure_apply, Option.some.injEq, Prod.mk.injEq] at h
    obtain ⟨-, rfl⟩ := h; simp
  | cons g gs ih =>
    intro s s' u h
    obtain ⟨_, s1, h1, h2⟩ := bind_some.1 h
    simp only at h1
    split at h1
    · next hc =>
      simp only [Option.some.injEq, Prod.mk.injEq] at h1
      obtain ⟨-, rfl⟩ := h1
      obtain ⟨a, b, c⟩ := ih h2
      refine ⟨a, by rw [b]; simp, fun i => ?_⟩
      rw [c]
      simp only [List.getElem?_set, List.mem_cons, exists_eq_or_imp]
      by_cases e : ((row : ℤ) + g).toNat = i
      · have : (row : ℤ) + g = i := by omega
        simp [this, hc.2, e]
        left
        omega
      · have : ¬ (row : ℤ) + g = i := by omega
        simp [this, e]
    · simp at h1

theorem assignRegion_lay {qs : List (QCell p)} {gs : List ℤ} (h : GOk qs.length gs) : Lay (assignRegion qs gs) := by
  intro s hw hs r s' hr
  simp only [assignRegion, hw, Bool.false_eq_true, if_false] at hr
  obtain ⟨_, s1, h1, hr⟩ := bind_some.1 hr
  obtain ⟨_, s2, h2, hr⟩ := bind_some.1 hr
  simp only [Option.some.injEq, Prod.mk.injEq] at h2
  obtain ⟨-, rfl⟩ := h2
  obtain ⟨a, b, -⟩ := assignCells_grow qs h1
  obtain ⟨c, d, e⟩ := enableGates_grow _ _ hr
  have hg : Layable ({ s1 with selector := resize s1.selector s1.advice.length } : Ctx p) :=
    hs.grow (by rw [a]) (by simp only; omega)
  have hold : ∀ i : ℕ, (resize s1.selector s1.advice.length)[i]? = some true → i + 3 < s.advice.length := by
    intro i hi
    rw [resize_true, a] at hi
    exact hs.inside i hi.2
  refine ⟨by rw [d, c]; exact hg.len, fun i hi => ?_, fun i j hi hj hij => ?_⟩
  · rw [c]
    rcases (e i).1 hi with hi | ⟨g, hg1, hg2⟩
    · exact hg.inside i hi
    · have := h.hi g hg1
      simp only
      omega
  · rcases (e i).1 hi with hi | ⟨g, hg1, hg2⟩
    · rcases (e j).1 hj with hj | ⟨g', hg1', hg2'⟩
      · exact hg.apart i j hi hj hij
      · have := hold i hi
        have := h.lo g' hg1'
        omega
    · rcases (e j).1 hj with hj | ⟨g', hg1', hg2'⟩
      · have := hold j hj
        have := h.lo g hg1
        omega
      · have := h.apart g hg1 g' hg1'
        omega

theorem gok_nil (n : ℕ) : GOk n [] := ⟨by simp, by simp, by simp⟩

instance (n : ℕ) (gs : List ℤ) : Decidable (GOk n gs) :=
  decidable_of_iff ((∀ g ∈ gs, -1 ≤ g) ∧ (∀ g ∈ gs, g + 3 < n) ∧ (∀ g ∈ gs, ∀ h ∈ gs, g < h → g + 3 ≤ h))
    ⟨fun h => ⟨h.1, h.2.1, h.2.2⟩, fun h => ⟨h.lo, h.hi, h.apart⟩⟩

end H2
