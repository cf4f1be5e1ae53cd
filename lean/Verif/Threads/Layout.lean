import Verif.Threads.Model
import Mathlib.Tactic.Ring
import Mathlib.Tactic.SplitIfs
import Mathlib.Tactic.Linarith

/-! # What `assign_with_constraints` does, in closed form -/

set_option autoImplicit false
namespace H2.Phys
open H2
variable {p : ℕ}

/-- One virtual cell to place: thread, offset, value, selector. -/
structure Item (p : ℕ) where
  s : Ctx p
  i : ℕ
  v : Assigned p
  q : Bool

/-- A placed cell: `before` is where the map points, `after` where the row counter is after the break test. -/
structure Place (p : ℕ) extends Item p where
  before : ℕ × ℕ
  after : ℕ × ℕ

def Item.cell (it : Item p) : Cell := it.s.cellAt it.i
def pc (x : ℕ × ℕ) : PCell := ⟨.advice x.1, x.2⟩

theorem pc_inj {x y : ℕ × ℕ} : pc x = pc y ↔ x = y := by
  unfold pc
  constructor
  · intro h
    simp only [PCell.mk.injEq, PCol.advice.injEq] at h
    exact Prod.ext h.1 h.2
  · rintro rfl; rfl

/-- Position after the break test. -/
def stepPos (mx : ℕ) (q : Bool) (x : ℕ × ℕ) : ℕ × ℕ := if brk 4 mx q x.2 then (x.1 + 1, 0) else x
def nextPos (x : ℕ × ℕ) : ℕ × ℕ := (x.1, x.2 + 1)

def places (mx : ℕ) : List (Item p) → ℕ × ℕ → List (Place p)
  | [], _ => []
  | it :: l, x => ⟨it, x, stepPos mx it.q x⟩ :: places mx l (nextPos (stepPos mx it.q x))

def endPos (mx : ℕ) : List (Item p) → ℕ × ℕ → ℕ × ℕ
  | [], x => x
  | it :: l, x => endPos mx l (nextPos (stepPos mx it.q x))

theorem places_append (mx : ℕ) (l l' : List (Item p)) : ∀ x,
    places mx (l ++ l') x = places mx l x ++ places mx l' (endPos mx l x) := by
  induction l with
  | nil => intro x; rfl
  | cons a t ih => intro x; simp [places, endPos, ih]

theorem endPos_append (mx : ℕ) (l l' : List (Item p)) : ∀ x,
    endPos mx (l ++ l') x = endPos mx l' (endPos mx l x) := by
  induction l with
  | nil => intro x; rfl
  | cons a t ih => intro x; simp [endPos, ih]

theorem places_length (mx : ℕ) (l : List (Item p)) : ∀ x, (places mx l x).length = l.length := by
  induction l with
  | nil => intro x; rfl
  | cons a t ih => intro x; simp [places, ih]

def Place.broken (pl : Place p) : Prop := pl.after ≠ pl.before
instance (pl : Place p) : Decidable pl.broken := by unfold Place.broken; infer_instance

def Place.writes (pl : Place p) : List (PCell × Assigned p) :=
  (pc pl.before, pl.v) :: if pl.broken then [(pc pl.after, pl.v)] else []
def Place.copies (pl : Place p) : List (PCell × PCell) := if pl.broken then [(pc pl.after, pc pl.before)] else []
def Place.sel (pl : Place p) : List (ℕ × ℕ) := if pl.q then [pl.after] else []
def Place.bps (pl : Place p) : List ℕ := if pl.broken then [pl.before.2] else []

/-- Closed form of a successful run that placed `P`. -/
structure Laid (mx ncols : ℕ) (st : LState p) (l : List (Item p)) (st' : LState p) : Prop where
  pos : (st'.gate, st'.row) = endPos mx l (st.gate, st.row)
  bps : st'.bps = st.bps ++ (places mx l (st.gate, st.row)).flatMap Place.bps
  writes : st'.reg.writes = st.reg.writes ++ (places mx l (st.gate, st.row)).flatMap Place.writes
  copies : st'.reg.copies = st.reg.copies ++ (places mx l (st.gate, st.row)).flatMap Place.copies
  sel : st'.reg.sel = st.reg.sel ++ (places mx l (st.gate, st.row)).flatMap Place.sel
  fixed : st'.reg.fixed = st.reg.fixed
  qlk : st'.reg.qlk = st.reg.qlk
  mono : ∀ c x, st.map c = some x → st'.map c = some x
  maps : ∀ pl ∈ places mx l (st.gate, st.row), st'.map pl.cell = some (pc pl.before)
  new : ∀ c x, st'.map c = some x → st.map c = some x ∨
    ∃ pl ∈ places mx l (st.gate, st.row), pl.cell = c ∧ x = pc pl.before
  ok : ∀ pl ∈ places mx l (st.gate, st.row), pl.broken → overlapOk 4 pl.s.selector pl.i = true ∧ pl.after.1 < ncols

theorem Laid.nil {mx ncols : ℕ} {st : LState p} : Laid mx ncols st [] st := by
  constructor <;> simp [places, endPos]

theorem Laid.append {mx ncols : ℕ} {st st1 st2 : LState p} {l l' : List (Item p)} (h : Laid mx ncols st l st1)
    (h' : Laid mx ncols st1 l' st2) : Laid mx ncols st (l ++ l') st2 := by
  have e := h.pos
  have h2 := h'
  constructor
  · rw [h'.pos, e, endPos_append]
  · rw [h'.bps, h.bps, places_append, e, List.flatMap_append, List.append_assoc]
  · rw [h'.writes, h.writes, places_append, e, List.flatMap_append, List.append_assoc]
  · rw [h'.copies, h.copies, places_append, e, List.flatMap_append, List.append_assoc]
  · rw [h'.sel, h.sel, places_append, e, List.flatMap_append, List.append_assoc]
  · rw [h'.fixed, h.fixed]
  · rw [h'.qlk, h.qlk]
  · exact fun c x hc => h'.mono _ _ (h.mono _ _ hc)
  · rw [places_append, ← e]
    intro pl hpl
    rcases List.mem_append.1 hpl with hp | hp
    · exact h'.mono _ _ (h.maps _ hp)
    · exact h'.maps _ hp
  · rw [places_append, ← e]
    intro c x hc
    rcases h'.new _ _ hc with h1 | ⟨pl, h1, h2⟩
    · rcases h.new _ _ h1 with h3 | ⟨pl, h3, h4⟩
      · exact .inl h3
      · exact .inr ⟨pl, List.mem_append_left _ h3, h4⟩
    · exact .inr ⟨pl, List.mem_append_right _ h1, h2⟩
  · rw [places_append, ← e]
    intro pl hpl
    rcases List.mem_append.1 hpl with hp | hp
    · exact h.ok _ hp
    · exact h'.ok _ hp

theorem awcCell_laid {mx ncols : ℕ} {s : Ctx p} {i : ℕ} {v : Assigned p} {q : Bool} {st st' : LState p}
    (h : awcCell 4 mx ncols s i v q st = some st') : Laid mx ncols st [⟨s, i, v, q⟩] st' := by
  unfold awcCell at h
  simp only at h
  split at h
  · exact absurd h (by simp)
  rename_i hold
  have hmono : ∀ c x, st.map c = some x → (st.map.insert (s.cellAt i) ⟨.advice st.gate, st.row⟩) c = some x := by
    intro c x hc
    unfold CellMap.insert
    split
    · next e => subst e; simp [clash, hc] at hold; rw [hold]
    · exact hc
  have hmap : (st.map.insert (s.cellAt i) ⟨.advice st.gate, st.row⟩) (s.cellAt i) = some (pc (st.gate, st.row)) := by
    simp [CellMap.insert, pc]
  have hnew : ∀ c x, (st.map.insert (s.cellAt i) ⟨.advice st.gate, st.row⟩) c = some x → st.map c = some x ∨
      (s.cellAt i = c ∧ x = pc (st.gate, st.row)) := by
    intro c x hc
    unfold CellMap.insert at hc
    split at hc
    · next e => simp at hc; exact .inr ⟨e.symm, hc.symm⟩
    · exact .inl hc
  split at h
  · exact absurd h (by simp)
  split at h
  · rename_i hb
    split at h
    · exact absurd h (by simp)
    rename_i hov
    split at h
    · rename_i hc
      simp only [Option.some.injEq] at h
      subst h
      have hs : stepPos mx q (st.gate, st.row) = (st.gate + 1, 0) := by simp [stepPos, hb]
      have hp : places mx [⟨s, i, v, q⟩] (st.gate, st.row) =
          [⟨⟨s, i, v, q⟩, (st.gate, st.row), (st.gate + 1, 0)⟩] := by simp [places, hs]
      have hbr : (⟨⟨s, i, v, q⟩, (st.gate, st.row), (st.gate + 1, 0)⟩ : Place p).broken := by
        simp [Place.broken]
      constructor
      · simp [endPos, hs, nextPos]
      · simp [hp, Place.bps, hbr]
      · simp [hp, Place.writes, hbr, pc]
      · simp [hp, Place.copies, hbr, pc]
      · rw [hp]; cases q <;> simp [Place.sel]
      · rfl
      · rfl
      · exact hmono
      · rw [hp]; intro pl hpl; simp only [List.mem_singleton] at hpl; subst hpl; exact hmap
      · rw [hp]; intro c x hc
        rcases hnew c x hc with h1 | h1
        · exact .inl h1
        · exact .inr ⟨_, List.mem_singleton_self _, h1⟩
      · rw [hp]; intro pl hpl hbk; simp only [List.mem_singleton] at hpl; subst hpl
        exact ⟨by simpa using hov, hc⟩
    · exact absurd h (by simp)
  · rename_i hb
    simp only [Option.some.injEq] at h
    subst h
    have hs : stepPos mx q (st.gate, st.row) = (st.gate, st.row) := by simp [stepPos, hb]
    have hp : places mx [⟨s, i, v, q⟩] (st.gate, st.row) =
        [⟨⟨s, i, v, q⟩, (st.gate, st.row), (st.gate, st.row)⟩] := by simp [places, hs]
    have hbr : ¬ (⟨⟨s, i, v, q⟩, (st.gate, st.row), (st.gate, st.row)⟩ : Place p).broken := by
      simp [Place.broken]
    constructor
    · simp [endPos, hs, nextPos]
    · simp [hp, Place.bps, hbr]
    · simp [hp, Place.writes, hbr, pc]
    · simp [hp, Place.copies, hbr]
    · rw [hp]; cases q <;> simp [Place.sel]
    · rfl
    · rfl
    · exact hmono
    · rw [hp]; intro pl hpl; simp only [List.mem_singleton] at hpl; subst hpl; exact hmap
    · rw [hp]; intro c x hc
      rcases hnew c x hc with h1 | h1
      · exact .inl h1
      · exact .inr ⟨_, List.mem_singleton_self _, h1⟩
    · rw [hp]; intro pl hpl hbk; simp only [List.mem_singleton] at hpl; subst hpl
      exact absurd hbk hbr

/-- The items of a thread from offset `i`. -/
def itemsFrom (s : Ctx p) : ℕ → List (Assigned p × Bool) → List (Item p)
  | _, [] => []
  | i, (v, q) :: l => ⟨s, i, v, q⟩ :: itemsFrom s (i + 1) l

def threadItems (s : Ctx p) : List (Item p) := itemsFrom s 0 (s.advice.zip s.selector)
def allItems (ts : List (Ctx p)) : List (Item p) := ts.flatMap threadItems

theorem awcCells_laid {mx ncols : ℕ} {s : Ctx p} (l : List (Assigned p × Bool)) : ∀ {i : ℕ} {st st' : LState p},
    awcCells 4 mx ncols s i l st = some st' → Laid mx ncols st (itemsFrom s i l) st' := by
  induction l with
  | nil => intro i st st' h; simp only [awcCells, Option.some.injEq] at h; subst h; exact Laid.nil
  | cons a t ih =>
    intro i st st' h
    obtain ⟨v, q⟩ := a
    simp only [awcCells, Option.bind_eq_bind, Option.bind_eq_some_iff] at h
    obtain ⟨st1, h1, h2⟩ := h
    exact (awcCell_laid h1).append (ih h2)

theorem awcThreads_laid {mx ncols : ℕ} (ts : List (Ctx p)) : ∀ {st st' : LState p},
    awcThreads 4 mx ncols ts st = some st' → Laid mx ncols st (allItems ts) st' ∧
      ∀ s ∈ ts, s.advice ≠ [] → s.selector.length = s.advice.length := by
  induction ts with
  | nil => intro st st' h; simp only [awcThreads, Option.some.injEq] at h; subst h; exact ⟨Laid.nil, by simp⟩
  | cons s t ih =>
    intro st st' h
    rw [awcThreads] at h
    split at h
    · next he =>
      have := ih h
      refine ⟨?_, ?_⟩
      · have e : threadItems s = [] := by simp [threadItems, he, itemsFrom]
        simpa [allItems, e] using this.1
      · intro s' hs'
        rcases List.mem_cons.1 hs' with rfl | h'
        · exact fun hh => absurd he hh
        · exact this.2 _ h'
    · split at h
      · exact absurd h (by simp)
      split at h
      · exact absurd h (by simp)
      next hl =>
      simp only [Option.bind_eq_bind, Option.bind_eq_some_iff] at h
      obtain ⟨st1, h1, h2⟩ := h
      refine ⟨?_, ?_⟩
      · have := (awcCells_laid _ h1).append (ih h2).1
        simpa [allItems, threadItems] using this
      · intro s' hs'
        rcases List.mem_cons.1 hs' with rfl | h'
        · exact fun _ => by simpa using hl
        · exact (ih h2).2 _ h'

theorem itemsFrom_getElem? (s : Ctx p) (l : List (Assigned p × Bool)) : ∀ (i k : ℕ),
    (itemsFrom s i l)[k]? = (l[k]?).map fun e => ⟨s, i + k, e.1, e.2⟩ := by
  induction l with
  | nil => intro i k; simp [itemsFrom]
  | cons a t ih =>
    intro i k
    obtain ⟨v, q⟩ := a
    cases k with
    | zero => simp [itemsFrom]
    | succ k => simp [itemsFrom, ih, show i + 1 + k = i + (k + 1) by omega]

theorem itemsFrom_length (s : Ctx p) (l : List (Assigned p × Bool)) (i : ℕ) : (itemsFrom s i l).length = l.length := by
  induction l generalizing i with
  | nil => rfl
  | cons a t ih => obtain ⟨v, q⟩ := a; simp [itemsFrom, ih]

theorem places_getElem? (mx : ℕ) (l : List (Item p)) : ∀ (x : ℕ × ℕ) (k : ℕ),
    (places mx l x)[k]? = (l[k]?).map fun it =>
      ⟨it, endPos mx (l.take k) x, stepPos mx it.q (endPos mx (l.take k) x)⟩ := by
  induction l with
  | nil => intro x k; simp [places]
  | cons a t ih =>
    intro x k
    cases k with
    | zero => simp [places, endPos]
    | succ k => simp [places, ih, endPos]

/-- Consecutive placements. -/
theorem places_succ {mx : ℕ} {l : List (Item p)} {x : ℕ × ℕ} {k : ℕ} {a b : Place p}
    (ha : (places mx l x)[k]? = some a) (hb : (places mx l x)[k + 1]? = some b) : b.before = nextPos a.after := by
  rw [places_getElem?] at ha hb
  simp only [Option.map_eq_some_iff] at ha hb
  obtain ⟨it, hit, rfl⟩ := ha
  obtain ⟨it', hit', rfl⟩ := hb
  simp only
  have : l.take (k + 1) = l.take k ++ [it] := by
    rw [List.take_add_one, hit]; rfl
  rw [this, endPos_append]
  rfl

theorem places_after {mx : ℕ} {l : List (Item p)} {x : ℕ × ℕ} {a : Place p} (ha : a ∈ places mx l x) :
    a.after = stepPos mx a.q a.before := by
  obtain ⟨k, hk⟩ := List.mem_iff_getElem?.1 ha
  rw [places_getElem?] at hk
  simp only [Option.map_eq_some_iff] at hk
  obtain ⟨it, hit, rfl⟩ := hk
  rfl

theorem broken_iff {mx : ℕ} {l : List (Item p)} {x : ℕ × ℕ} {a : Place p} (ha : a ∈ places mx l x) :
    a.broken ↔ brk 4 mx a.q a.before.2 = true := by
  unfold Place.broken
  rw [places_after ha, stepPos]
  split
  · next h => simp [h, Prod.ext_iff]
  · next h => simp [h]

theorem after_of_not_broken {mx : ℕ} {l : List (Item p)} {x : ℕ × ℕ} {a : Place p} (_ha : a ∈ places mx l x)
    (h : ¬ a.broken) : a.after = a.before := by
  unfold Place.broken at h
  exact not_not.1 h

/-- Row bound. -/
theorem endPos_row {mx : ℕ} (hmx : 2 ≤ mx) (l : List (Item p)) : ∀ x : ℕ × ℕ, x.2 < mx → (endPos mx l x).2 < mx := by
  induction l with
  | nil => intro x h; exact h
  | cons a t ih =>
    intro x h
    rw [endPos]
    apply ih
    unfold nextPos stepPos
    split
    · simp; omega
    · next hb => simp [brk] at hb; simp; omega

theorem places_row {mx : ℕ} (hmx : 2 ≤ mx) {l : List (Item p)} {x : ℕ × ℕ} (hx : x.2 < mx) {a : Place p}
    (ha : a ∈ places mx l x) : a.before.2 < mx ∧ a.after.2 < mx - 1 := by
  have h1 : a.before.2 < mx := by
    obtain ⟨k, hk⟩ := List.mem_iff_getElem?.1 ha
    rw [places_getElem?] at hk
    simp only [Option.map_eq_some_iff] at hk
    obtain ⟨it, hit, rfl⟩ := hk
    exact endPos_row hmx _ _ hx
  refine ⟨h1, ?_⟩
  rw [places_after ha, stepPos]
  split
  · simp; omega
  · next hb => simp [brk] at hb; omega

/-- An enabled gate fits below `max_rows`. -/
theorem places_gate {mx : ℕ} (hmx : 4 ≤ mx) {l : List (Item p)} {x : ℕ × ℕ} {a : Place p}
    (ha : a ∈ places mx l x) (hq : a.q = true) : a.after.2 + 4 ≤ mx := by
  rw [places_after ha, stepPos]
  split
  · simp; omega
  · next hb => simp [brk, hq] at hb; omega

/-! ## Positions are strictly increasing -/

theorem stepPos_le (mx : ℕ) (q : Bool) (x : ℕ × ℕ) : toLex x ≤ toLex (stepPos mx q x) := by
  unfold stepPos
  split
  · rw [Prod.Lex.toLex_le_toLex]; left; simp
  · rfl

theorem lt_nextPos (x : ℕ × ℕ) : toLex x < toLex (nextPos x) := by
  rw [Prod.Lex.toLex_lt_toLex]; right; simp [nextPos]

theorem places_ge {mx : ℕ} (l : List (Item p)) : ∀ {x : ℕ × ℕ} {a : Place p}, a ∈ places mx l x →
    toLex x ≤ toLex a.before ∧ toLex a.before ≤ toLex a.after := by
  induction l with
  | nil => intro x a h; simp [places] at h
  | cons it t ih =>
    intro x a h
    rw [places, List.mem_cons] at h
    rcases h with rfl | h
    · exact ⟨le_rfl, stepPos_le _ _ _⟩
    · obtain ⟨h1, h2⟩ := ih h
      exact ⟨((stepPos_le mx it.q x).trans (lt_nextPos _).le).trans h1, h2⟩

theorem places_pairwise {mx : ℕ} (l : List (Item p)) : ∀ x : ℕ × ℕ,
    (places mx l x).Pairwise fun a b => toLex a.after < toLex b.before := by
  induction l with
  | nil => intro x; exact List.Pairwise.nil
  | cons it t ih =>
    intro x
    rw [places]
    refine List.Pairwise.cons (fun b hb => ?_) (ih _)
    exact lt_of_lt_of_le (lt_nextPos _) (places_ge _ hb).1

/-- Two placements that share a physical cell are the same. -/
theorem places_unique {mx : ℕ} {l : List (Item p)} {x : ℕ × ℕ} {a b : Place p} (ha : a ∈ places mx l x)
    (hb : b ∈ places mx l x) {y : ℕ × ℕ} (hya : y = a.before ∨ y = a.after) (hyb : y = b.before ∨ y = b.after) :
    a = b := by
  by_contra hne
  have h1 := (places_ge l ha).2
  have h2 := (places_ge l hb).2
  have key : ∀ {c d : Place p}, toLex c.after < toLex d.before → toLex c.before ≤ toLex c.after →
      toLex d.before ≤ toLex d.after → (y = c.before ∨ y = c.after) → (y = d.before ∨ y = d.after) → False := by
    intro c d h hc hd e1 e2
    have l1 : toLex y ≤ toLex c.after := by rcases e1 with rfl | rfl <;> [exact hc; exact le_rfl]
    have l2 : toLex d.before ≤ toLex y := by rcases e2 with rfl | rfl <;> [exact le_rfl; exact hd]
    exact absurd (lt_of_lt_of_le h (l2.trans l1)) (lt_irrefl _)
  obtain ⟨i, hi⟩ := List.mem_iff_getElem?.1 ha
  obtain ⟨j, hj⟩ := List.mem_iff_getElem?.1 hb
  have hpw := List.pairwise_iff_getElem.1 (places_pairwise (mx := mx) l x)
  obtain ⟨hi', ei⟩ := List.getElem?_eq_some_iff.1 hi
  obtain ⟨hj', ej⟩ := List.getElem?_eq_some_iff.1 hj
  rcases lt_trichotomy i j with h | h | h
  · have := hpw i j hi' hj' h
    rw [ei, ej] at this
    exact key this h1 h2 hya hyb
  · subst h
    exact hne (ei.symm.trans ej)
  · have := hpw j i hj' hi' h
    rw [ei, ej] at this
    exact key this h2 h1 hyb hya

/-! ## `assign_witnesses` replays the same writes -/

theorem bps_head_ge {mx : ℕ} (l : List (Item p)) : ∀ {x : ℕ × ℕ} {b : ℕ},
    ((places mx l x).flatMap Place.bps).head? = some b → x.2 ≤ b := by
  induction l with
  | nil => intro x b h; simp [places] at h
  | cons it t ih =>
    intro x b h
    rw [places, List.flatMap_cons] at h
    by_cases hb : (⟨it, x, stepPos mx it.q x⟩ : Place p).broken
    · simp [Place.bps, hb] at h; omega
    · simp only [Place.bps, hb, if_false, List.nil_append] at h
      have := ih h
      unfold Place.broken at hb
      simp only [ne_eq, not_not] at hb
      rw [hb] at this
      simp [nextPos] at this
      omega

theorem awCells_places {mx ncols : ℕ} (l : List (Item p)) : ∀ (x : ℕ × ℕ) (ws : List (PCell × Assigned p)),
    (∀ pl ∈ places mx l x, pl.broken → pl.after.1 < ncols) →
    awCells ncols (l.map (·.v)) ⟨x.1, x.2, (places mx l x).flatMap Place.bps, ws⟩ =
      some ⟨(endPos mx l x).1, (endPos mx l x).2, [], ws ++ (places mx l x).flatMap Place.writes⟩ := by
  induction l with
  | nil => intro x ws _; simp [awCells, places, endPos]
  | cons it t ih =>
    intro x ws hn
    have hn' : ∀ pl ∈ places mx t (nextPos (stepPos mx it.q x)), pl.broken → pl.after.1 < ncols :=
      fun pl hpl => hn pl (by rw [places]; exact List.mem_cons_of_mem _ hpl)
    have hn0 := hn ⟨it, x, stepPos mx it.q x⟩ (by rw [places]; exact List.mem_cons_self)
    rw [List.map_cons, awCells, places, List.flatMap_cons, List.flatMap_cons, endPos]
    by_cases hb : (⟨it, x, stepPos mx it.q x⟩ : Place p).broken
    · have h0 := hn0 hb
      have hs : stepPos mx it.q x = (x.1 + 1, 0) := by
        unfold stepPos
        split
        · rfl
        · next h => exact absurd hb (by simp [Place.broken, stepPos, h])
      rw [hs] at h0 hb hn' ⊢
      have := ih (nextPos (x.1 + 1, 0)) (ws ++ [(pc x, it.v)] ++ [(pc (x.1 + 1, 0), it.v)]) hn'
      simp only [Place.bps, Place.writes, hb, if_true]
      have e : awCell ncols it.v ⟨x.1, x.2, [x.2] ++ (places mx t (nextPos (x.1 + 1, 0))).flatMap Place.bps, ws⟩ =
          some ⟨x.1 + 1, 1, (places mx t (nextPos (x.1 + 1, 0))).flatMap Place.bps,
            ws ++ [(pc x, it.v)] ++ [(pc (x.1 + 1, 0), it.v)]⟩ := by
        unfold awCell
        simp only at h0
        simp [h0, pc]
      rw [e]
      simp only [Option.bind_eq_bind, Option.bind_some]
      simp only [nextPos] at this ⊢
      rw [this]
      simp
    · have hs : stepPos mx it.q x = x := by
        unfold Place.broken at hb; simpa using hb
      rw [hs] at hb hn' ⊢
      have := ih (nextPos x) (ws ++ [(pc x, it.v)]) hn'
      simp only [Place.bps, Place.writes, hb, if_false, List.nil_append]
      have e : awCell ncols it.v ⟨x.1, x.2, (places mx t (nextPos x)).flatMap Place.bps, ws⟩ =
          some ⟨x.1, x.2 + 1, (places mx t (nextPos x)).flatMap Place.bps, ws ++ [(pc x, it.v)]⟩ := by
        unfold awCell
        simp only
        rw [if_neg]
        · rfl
        · intro hh
          have := bps_head_ge t hh
          simp [nextPos] at this
      rw [e]
      simp only [Option.bind_eq_bind, Option.bind_some]
      simp only [nextPos] at this ⊢
      rw [this]
      simp

theorem awCells_append {ncols : ℕ} (l l' : List (Assigned p)) : ∀ st, awCells ncols (l ++ l') st =
    (awCells ncols l st).bind (awCells ncols l') := by
  induction l with
  | nil => intro st; rfl
  | cons a t ih =>
    intro st
    simp only [List.cons_append, awCells, Option.bind_eq_bind]
    rw [Option.bind_assoc]
    congr 1
    funext st1
    exact ih st1

theorem awThreads_eq {ncols : ℕ} (ts : List (Ctx p)) : ∀ st, awThreads ncols ts st =
    awCells ncols (ts.flatMap fun s => s.advice) st := by
  induction ts with
  | nil => intro st; rfl
  | cons s t ih =>
    intro st
    rw [awThreads, List.flatMap_cons, awCells_append]
    simp only [Option.bind_eq_bind]
    congr 1
    funext st1
    exact ih st1

theorem itemsFrom_v (s : Ctx p) (l : List (Assigned p × Bool)) (i : ℕ) : (itemsFrom s i l).map (·.v) = l.map Prod.fst := by
  induction l generalizing i with
  | nil => rfl
  | cons a t ih => obtain ⟨v, q⟩ := a; simp [itemsFrom, ih]

theorem allItems_v (ts : List (Ctx p)) (h : ∀ s ∈ ts, s.advice ≠ [] → s.selector.length = s.advice.length) :
    (allItems ts).map (·.v) = ts.flatMap fun s => s.advice := by
  unfold allItems
  rw [List.map_flatMap]
  refine List.flatMap_congr fun s hs => ?_
  rw [threadItems, itemsFrom_v]
  by_cases he : s.advice = []
  · simp [he]
  · rw [List.map_fst_zip]; rw [h s hs he]

end H2.Phys
