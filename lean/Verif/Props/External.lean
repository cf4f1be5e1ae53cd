import Verif.Threads.External
import Verif.Props.Layout
import Verif.Range.Model

/-!
# C83: cells of other chips as virtual cells

The specification: after any history of calls on the copy manager, the virtual cells handed out by `load_external_assigned` are different
from each other and from the cells of the virtual regions, and each *is* the raw cell it was made from: a constraint on the virtual cell
is a constraint on that raw cell, with no copy in between.
-/

set_option autoImplicit false
set_option linter.unusedSectionVars false
namespace H2.Ext
open H2 Phys Bld
variable {p : ℕ}

/-- C83: over any history of calls on a new copy manager — loads, mock loads, constraints, cells placed by virtual regions, cells tied to
lookup columns, `assign_raw` — the virtual cells returned are pairwise different, none has the type id of a virtual region, and at the end each
loaded cell is at the place of its raw cell.  A further load does not panic. -/
theorem C83_external_cells {ops : List (XOp p)} {reg reg' : Region p} {m : XMgr p} {l : Loads} (h : XHist ops (.new, reg) (m, reg') l) :
    (l.map Prod.fst).Nodup ∧ (∀ e ∈ l, e.1.typeId = externalTypeId) ∧ (∀ c x, (c, some x) ∈ l → m.cm.assigned c = some x) ∧
    ∀ x, ∃ c m', m.loadCell x = some (c, m') ∧ c ∉ l.map Prod.fst ∧ m'.cm.assigned c = some x ∧ m'.cm.eqs = m.cm.eqs ∧ m'.cm.consts = m.cm.consts := by
  have o := h.ok xinv_new
  have hget : ∀ (i : ℕ) (c : Cell), (l.map Prod.fst)[i]? = some c → c = extCell i := by
    intro i c hc
    rw [List.getElem?_map, Option.map_eq_some_iff] at hc
    obtain ⟨e, he, rfl⟩ := hc
    have := (o.cells i e he).1
    rwa [show (XMgr.new : XMgr p).count = 0 from rfl, Nat.zero_add] at this
  refine ⟨?_, ?_, ?_, ?_⟩
  · rw [List.nodup_iff_getElem?_ne_getElem?]
    intro i j hij hj he
    rw [List.getElem?_eq_getElem hj] at he
    have h1 := hget i _ he
    have h2 := hget j _ (List.getElem?_eq_getElem hj)
    rw [h1, extCell_inj] at h2
    omega
  · intro e he
    obtain ⟨i, hi⟩ := List.mem_iff_getElem?.1 he
    rw [(o.cells i e hi).1]; rfl
  · intro c x he
    obtain ⟨i, hi⟩ := List.mem_iff_getElem?.1 he
    exact (o.cells i _ hi).2 x rfl
  · intro x
    refine ⟨_, _, o.inv.load x, ?_, insert_iff.2 (.inl ⟨rfl, rfl⟩), rfl, rfl⟩
    intro hm
    obtain ⟨i, hi⟩ := List.mem_iff_getElem?.1 hm
    have hl := (List.getElem?_eq_some_iff.1 hi).1
    have := hget i _ hi
    rw [extCell_inj, o.count, show (XMgr.new : XMgr p).count = 0 from rfl, Nat.zero_add] at this
    rw [List.length_map] at hl
    have hl' : i < l.length := hl
    omega

/-- C83: the virtual value is the one of the raw cell, or zero when it is unknown; a mock has the given value. -/
theorem C83_external_value (m m' : XMgr p) (x : PCell) (val : Option (Assigned p)) (a : AV p) (h : m.loadAssigned x val = some (a, m')) :
    a.value = val.getD (.trivial 0) ∧ ∃ c, a.cell = some c ∧ m.loadCell x = some (c, m') := by
  simp only [XMgr.loadAssigned, Option.map_eq_some_iff, Prod.mk.injEq] at h
  obtain ⟨⟨c, m1⟩, h1, rfl, rfl⟩ := h
  exact ⟨rfl, c, rfl, h1⟩

/-- Placed cells stay where they are through synthesis. -/
theorem synth_ext {cfg : Cfg} {threads : List (Ctx p)} {eqs : List (Cell × Cell)} {consts : List (ZMod p × Cell)}
    {lookups : Buckets p} {instances : List (List (AV p))} {ext : CellMap} {reg : Region p} {map : CellMap}
    {bps : List ℕ} (h : synthesize cfg threads eqs consts lookups instances ext = some (reg, map, bps)) {c : Cell} {x : PCell}
    (hc : ext c = some x) : map c = some x := by
  obtain ⟨st, fx, o, -⟩ := synthesize_out h
  exact o.mono c x ((awcThreads_laid threads o.awc).1.mono c x hc)

/-- C83 (soundness): when a circuit is synthesized with the cells loaded in any history before it, every satisfying assignment of the
physical circuit satisfies every virtual gate, equality, constant and lookup, with the virtual cells read as their raw cells. -/
theorem C83_external_sound {ops : List (XOp p)} {reg0 reg1 : Region p} {m : XMgr p} {l : Loads} (hh : XHist ops (.new, reg0) (m, reg1) l)
    {cfg : Cfg} {threads : List (Ctx p)} {eqs : List (Cell × Cell)} {consts : List (ZMod p × Cell)}
    {lookups : Buckets p} {instances : List (List (AV p))} {reg : Region p} {map : CellMap} {bps : List ℕ}
    (h : synthesize cfg threads eqs consts lookups instances m.cm.assigned = some (reg, map, bps))
    (hmx : 4 ≤ cfg.maxRows) (hwf : ∀ s ∈ threads, WFThread s) (hwr : cfg.withRange = true ∨ lookups.all = [])
    {width : ℕ} (hwd : ∀ as ∈ lookups.all, as.length = width) (h0 : 0 < width) (hq1 : cfg.qLookup = true → width = 1)
    {tbl : List (ZMod p) → Prop} {v : PCell → ZMod p} (hv : Phys.PSat cfg tbl width reg v) :
    ∃ w : Cell → ZMod p, VSat tbl threads eqs consts lookups.all w ∧ (∀ c x, (c, some x) ∈ l → w c = v x) ∧
      ∀ (k : ℕ) o, instances[k]? = some o → ∀ i a, o[i]? = some a → H2.at' w a = v ⟨.inst k, i⟩ := by
  obtain ⟨h1, h2⟩ := synth_sound h hmx hwf hwr hwd h0 hq1 hv
  refine ⟨vw map v, h1, ?_, h2⟩
  intro c x hc
  have := synth_ext h ((C83_external_cells hh).2.2.1 c x hc)
  unfold vw
  rw [this]

/-- C83 (completeness): an assignment of the virtual cells that satisfies the virtual constraints and agrees with the values `vext` of the other
chips on the loaded cells extends to a satisfying assignment of the physical circuit, which leaves the cells of the other chips as they are. -/
theorem C83_external_complete [Fact p.Prime] {ops : List (XOp p)} {reg0 reg1 : Region p} {m : XMgr p} {l : Loads}
    (hh : XHist ops (.new, reg0) (m, reg1) l) (hloads : ∀ op ∈ ops, ∃ x : PCell, op = .load x ∧ x.col.own = false)
    {cfg : Cfg} {threads : List (Ctx p)} {eqs : List (Cell × Cell)} {consts : List (ZMod p × Cell)}
    {lookups : Buckets p} {instances : List (List (AV p))} {reg : Region p} {map : CellMap} {bps : List ℕ}
    (h : synthesize cfg threads eqs consts lookups instances m.cm.assigned = some (reg, map, bps))
    (hmx : 4 ≤ cfg.maxRows) (hwf : ∀ s ∈ threads, WFThread s)
    {width : ℕ} (hwd : ∀ as ∈ lookups.all, as.length = width) (hq1 : cfg.qLookup = true → width = 1)
    {tbl : List (ZMod p) → Prop} (h0 : tbl (List.replicate width 0)) {w : Cell → ZMod p}
    (hw : VSat tbl threads eqs consts lookups.all w) {vext : PCell → ZMod p} (hext : ∀ c x, (c, some x) ∈ l → vext x = w c) :
    ∃ v : PCell → ZMod p, Phys.PSat cfg tbl width reg v ∧ (∀ x : PCell, x.col.own = false → v x = vext x) ∧
      ∀ (k : ℕ) o, instances[k]? = some o → ∀ i a, o[i]? = some a → v ⟨.inst k, i⟩ = H2.at' w a := by
  have key : ∀ {ops : List (XOp p)} {a b : XMgr p × Region p} {l : Loads}, XHist ops a b l → XInv a.1 →
      (∀ op ∈ ops, ∃ x : PCell, op = .load x ∧ x.col.own = false) → ∀ c y, b.1.cm.assigned c = some y →
      a.1.cm.assigned c = some y ∨ ((c, some y) ∈ l ∧ y.col.own = false) := by
    intro ops a b l hh
    induction hh with
    | nil m => exact fun _ _ c y hc => .inl hc
    | @cons op ops m0 m1 m2 l1 l2 h1 _ ih =>
      intro hi hl c y hc
      obtain ⟨x, rfl, hx⟩ := hl op (by simp)
      rcases ih (h1.ok hi).inv (fun op ho => hl op (by simp [ho])) c y hc with h2 | ⟨h2, h3⟩
      · cases h1 with
        | @load m m' reg _ c0 h1 =>
          rw [hi.load] at h1
          obtain ⟨rfl, rfl⟩ := Prod.mk.inj (Option.some_inj.1 h1)
          rcases insert_iff.1 h2 with ⟨rfl, rfl⟩ | ⟨-, h2⟩
          · exact .inr ⟨by simp, hx⟩
          · exact .inl h2
      · exact .inr ⟨by simp [h2], h3⟩
  obtain ⟨v, h1, -, h3, -, -, h6⟩ := synth_complete_ext h hmx hwf hwd hq1 h0 hw (vext := vext) (by
    intro c x hc
    rcases key hh xinv_new hloads c x hc with h | ⟨h, h'⟩
    · cases h
    · exact ⟨h', hext c x h⟩)
  exact ⟨v, h1, h6, h3⟩

/-- C83: a mock cell that is not tied to a lookup column is never placed, -/
theorem mock_unplaced {ops : List (XOp p)} {a b : XMgr p × Region p} {l : Loads} (h : XHist ops a b l) (hi : XInv a.1) {c : Cell}
    (ht : ∀ op ∈ ops, ∀ av x, op = .tie av x → av.cell ≠ some c) (hc : c.typeId = externalTypeId) (h0 : a.1.cm.assigned c = none)
    (hl : ∀ e ∈ l, e.1 = c → e.2 = none) : b.1.cm.assigned c = none := by
  induction h with
  | nil m => exact h0
  | @cons op ops m0 m1 m2 l1 l2 h1 _ ih =>
    refine ih (h1.ok hi).inv (fun op ho => ht op (by simp [ho])) ?_ (fun e he => hl e (by simp [he]))
    cases h1 with
    | @load m m' reg x c0 h1 =>
      rw [hi.load] at h1
      obtain ⟨rfl, rfl⟩ := Prod.mk.inj (Option.some_inj.1 h1)
      show CellMap.insert _ _ _ c = none
      unfold CellMap.insert
      rw [if_neg (fun e => by have := hl (extCell m.count, some x) (by simp) e.symm; simp at this)]
      exact h0
    | @mock m m' reg v a' c' h1 h2 =>
      simp only [XMgr.mock, XMgr.loadImpl, Option.map_some, Option.some.injEq, Prod.mk.injEq] at h1
      obtain ⟨-, rfl⟩ := h1
      exact h0
    | eq => exact h0
    | const => exact h0
    | place h1 h2 =>
      show CellMap.insert _ _ _ c = none
      unfold CellMap.insert
      rw [if_neg (fun e => h1 (by rw [← e]; exact hc))]
      exact h0
    | @tie m m' reg reg' av x ha h1 =>
      simp only [XMgr.tie, Option.map_eq_some_iff, Prod.mk.injEq] at h1
      obtain ⟨⟨mp, r⟩, h1, rfl, rfl⟩ := h1
      have hne := ht _ (by simp) av x rfl
      unfold constrainExternal at h1
      cases hcell : av.cell with
      | none => rw [hcell] at h1; simp at h1
      | some c' =>
        rw [hcell] at h1 hne
        cases hm : m.cm.assigned c' with
        | some y =>
          simp only [hm, Option.some.injEq, Prod.mk.injEq] at h1
          obtain ⟨rfl, rfl⟩ := h1
          exact h0
        | none =>
          simp only [hm] at h1
          by_cases ht : c'.typeId = externalTypeId
          · rw [if_pos ht] at h1
            obtain ⟨rfl, rfl⟩ := Prod.mk.inj (Option.some_inj.1 h1)
            show CellMap.insert _ _ _ c = none
            unfold CellMap.insert
            rw [if_neg (fun e => hne (by rw [e]))]
            exact h0
          · rw [if_neg ht] at h1; cases h1
    | @assignRaw m m' reg reg' nf us h1 =>
      simp only [XMgr.assignRaw, Option.map_eq_some_iff, Prod.mk.injEq] at h1
      obtain ⟨r, -, rfl, rfl⟩ := h1
      exact h0

/-- C83: a circuit with a mock cell panics when it is synthesized, if the cell occurs in an equality, a constant or a public instance and is
not looked up. -/
theorem C83_mock_panics {ops : List (XOp p)} {reg0 reg1 : Region p} {m : XMgr p} {l : Loads} (hh : XHist ops (.new, reg0) (m, reg1) l)
    {c : Cell} (hc : (c, none) ∈ l) (ht : ∀ op ∈ ops, ∀ av x, op = .tie av x → av.cell ≠ some c)
    (cfg : Cfg) {threads : List (Ctx p)} (hthr : ∀ s ∈ threads, s.typeId ≠ externalTypeId) {eqs : List (Cell × Cell)}
    {consts : List (ZMod p × Cell)} {lookups : Buckets p} (hlk : ∀ as ∈ lookups.all, ∀ a ∈ as, a.cell ≠ some c) {instances : List (List (AV p))}
    (hu : (∃ e ∈ eqs, e.1 = c ∨ e.2 = c) ∨ (∃ e ∈ consts, e.2 = c) ∨ ∃ o ∈ instances, ∃ a ∈ o, a.cell = some c) :
    synthesize cfg threads eqs consts lookups instances m.cm.assigned = none := by
  obtain ⟨hnd, hty, -, -⟩ := C83_external_cells hh
  have hcty : c.typeId = externalTypeId := hty _ hc
  have hfree : m.cm.assigned c = none := by
    refine mock_unplaced hh xinv_new ht hcty rfl ?_
    intro e he hec
    have : e = (c, none) := by
      obtain ⟨c', o⟩ := e
      obtain rfl : c' = c := hec
      exact Prod.ext rfl (by
        have := List.inj_on_of_nodup_map hnd he hc rfl
        rw [this])
    rw [this]
  cases hs : synthesize cfg threads eqs consts lookups instances m.cm.assigned with
  | none => rfl
  | some out =>
    exfalso
    obtain ⟨reg, map, bps⟩ := out
    obtain ⟨st, fx, o, -⟩ := synthesize_out hs
    have hL := (awcThreads_laid threads o.awc).1
    have hmap : map c = none := by
      cases hm : map c with
      | none => rfl
      | some x =>
        exfalso
        rcases o.new c x hm with h1 | ⟨e, he, h1, rfl⟩
        · rcases hL.new c x h1 with h2 | ⟨a, ha, rfl, rfl⟩
          · exact absurd (hfree.symm.trans h2) (by simp)
          · obtain ⟨k, hk⟩ := List.mem_iff_getElem?.1 ha
            rw [places_getElem?, Option.map_eq_some_iff] at hk
            obtain ⟨it, hit, hae⟩ := hk
            have : a.s ∈ threads := by
              have hai : a.toItem = it := by rw [← hae]
              rw [hai]
              exact (allItems_block threads k it hit).1
            exact hthr _ this hcty
        · obtain ⟨k, i, as, h2, h3, -⟩ := lkTargets_mem' _ he
          have hmem : as ∈ lookups.all := by
            have this : as ∈ copiedLookups cfg lookups.all := List.mem_of_getElem? h2
            unfold copiedLookups at this
            split at this
            · exact this
            · simp at this
          exact hlk as hmem e.1 (List.mem_of_getElem? h3) h1
    rcases hu with ⟨e, he, h1⟩ | ⟨e, he, rfl⟩ | ⟨os, ho, a, ha, h1⟩
    · obtain ⟨x, y, hx, hy, -⟩ := o.eq e he
      rcases h1 with rfl | rfl
      · rw [hmap] at hx; cases hx
      · rw [hmap] at hy; cases hy
    · obtain ⟨x, y, -, hy, -⟩ := o.const e he
      rw [hmap] at hy; cases hy
    · obtain ⟨k, hk⟩ := List.mem_iff_getElem?.1 ho
      obtain ⟨i, hi⟩ := List.mem_iff_getElem?.1 ha
      obtain ⟨c', x, hc', hx, -⟩ := o.inst k os hk i a hi
      rw [h1] at hc'
      obtain rfl := Option.some_inj.1 hc'
      rw [hmap] at hx; cases hx

/-! ## Findings -/

/-- `range_check(a, 1)` with `lookup_bits = 1`, then `mul(a, a)`. -/
def mockProg (a : AV 7) : M 7 (AV 7) := do
  rangeCheck 1 a 1
  mul (.existing a) (.existing a)

/-- C83 (finding 42): "If any mock external cell is loaded, calling `assign_raw` will panic" (copy_constraints.rs:82) is not so: a mock cell that
is range checked with exactly `lookup_bits` bits is silently identified with the cell of the lookup column, and the circuit is
synthesized. -/
theorem C83_mock_not_detected : ∃ (m : XMgr 7) (a b : AV 7) (s : Ctx 7) (reg : Region 7) (map : CellMap) (bps : List ℕ),
    (XMgr.new : XMgr 7).mock 5 = some (a, m) ∧ mockProg a (Ctx.new false 0 "t" 0 [] []) = some (b, s) ∧
    synthesize (configure 2 1 [1] (some 1) 8 8) [s] s.eqs s.consts (addLookups [] (lookupLog s)) [[b]] m.cm.assigned = some (reg, map, bps) ∧
    map (extCell 0) = some ⟨.lookup 0 0, 0⟩ := by
  have run : ((mockProg ⟨.trivial 5, some (extCell 0)⟩ (Ctx.new false 0 "t" 0 [] [])).bind fun e =>
      (synthesize (configure 2 1 [1] (some 1) 8 8) [e.2] e.2.eqs e.2.consts (addLookups [] (lookupLog e.2)) [[e.1]] (fun _ => none)).map fun o =>
        o.2.1 (extCell 0)) = some (some ⟨.lookup 0 0, 0⟩) := by
    decide +kernel
  obtain ⟨⟨b, s⟩, h1, h2⟩ := Option.bind_eq_some_iff.1 run
  obtain ⟨⟨reg, map, bps⟩, h3, h4⟩ := Option.map_eq_some_iff.1 h2
  exact ⟨⟨⟨[], [], fun _ => none⟩, 1⟩, ⟨.trivial 5, some (extCell 0)⟩, b, s, reg, map, bps, rfl, h1, h3, h4⟩

/-- C83 (finding 43): after `clear` the numbers start again, so a virtual cell kept from before names the next cell that is loaded. -/
theorem C83_clear_reuses (m : XMgr p) (x y : PCell) : ∃ c m1 m2, (XMgr.new : XMgr p).loadCell x = some (c, m1) ∧
    m.clear.loadCell y = some (c, m2) ∧ m1.cm.assigned c = some x ∧ m2.cm.assigned c = some y :=
  ⟨extCell 0, _, _, xinv_new.load x, xinv_new.load y, by simp [XMgr.new, CellMap.insert], by simp [XMgr.new, CellMap.insert]⟩

/-- Two loads. -/
def load2 (x y : PCell) : Option (Cell × Cell × XMgr p) := do
  let (c, m) ← (XMgr.new : XMgr p).loadCell x
  let (d, m) ← m.loadCell y
  pure (c, d, m)

/-- C83 (finding 12): the numbers depend on the order of the loads.  Two threads load one cell each and constrain it to a cell of their own; with
the other schedule the copies are recorded in a different order, although the constraints are sorted: the permutation part of the
verifying key depends on the order. -/
theorem C83_schedule_dependent : ∃ x y u v : PCell,
    ((load2 (p := 7) x y).bind fun e => (copyAssignRaw 1 8 [(e.1, ⟨"t", 0, 0⟩), (e.2.1, ⟨"t", 1, 0⟩)] [] ((e.2.2.cm.assigned.insert ⟨"t", 0, 0⟩ u).insert ⟨"t", 1, 0⟩ v)
      (Region.empty : Region 7)).map fun r => r.copies) = some [(x, u), (y, v)] ∧
    ((load2 (p := 7) y x).bind fun e => (copyAssignRaw 1 8 [(e.2.1, ⟨"t", 0, 0⟩), (e.1, ⟨"t", 1, 0⟩)] [] ((e.2.2.cm.assigned.insert ⟨"t", 0, 0⟩ u).insert ⟨"t", 1, 0⟩ v)
      (Region.empty : Region 7)).map fun r => r.copies) = some [(y, v), (x, u)] ∧ (x, u) ≠ (y, v) :=
  ⟨⟨.other 0, 0⟩, ⟨.other 0, 1⟩, ⟨.advice 0, 0⟩, ⟨.advice 0, 1⟩, by decide +kernel, by decide +kernel, by decide⟩

/-! ## Example -/

/-- Two cells of another chip are loaded, their product is exposed: every satisfying assignment of the circuit has the product of the two raw
cells in the instance column. -/
example : ∃ (m : XMgr 7) (l : Loads) (a b c : AV 7) (s : Ctx 7) (reg : Region 7) (map : CellMap) (bps : List ℕ),
    XHist [.load ⟨.other 0, 3⟩, .load ⟨.other 1, 5⟩] (.new, Region.empty) (m, Region.empty) l ∧ l.length = 2 ∧
    a.cell = some (extCell 0) ∧ b.cell = some (extCell 1) ∧
    mul (.existing a) (.existing b) (Ctx.new false 0 "t" 0 [] []) = some (c, s) ∧
    synthesize (configure 2 1 [0] none 8 8) [s] s.eqs s.consts [] [[c]] m.cm.assigned = some (reg, map, bps) := by
  have run : ((mul (.existing (⟨.trivial 2, some (extCell 0)⟩ : AV 7)) (.existing ⟨.trivial 3, some (extCell 1)⟩)
      (Ctx.new false 0 "t" 0 [] [])).bind fun e =>
      synthesize (configure 2 1 [0] none 8 8) [e.2] e.2.eqs e.2.consts [] [[e.1]]
        ((CellMap.insert (fun _ => none) (extCell 0) ⟨.other 0, 3⟩).insert (extCell 1) ⟨.other 1, 5⟩)).isSome = true := by
    decide +kernel
  obtain ⟨o, ho⟩ := Option.isSome_iff_exists.1 run
  obtain ⟨⟨c, s⟩, h1, h2⟩ := Option.bind_eq_some_iff.1 ho
  refine ⟨⟨⟨[], [], _⟩, 2⟩, _, ⟨.trivial 2, some (extCell 0)⟩, ⟨.trivial 3, some (extCell 1)⟩, c, s, o.1, o.2.1, o.2.2, .cons (.load rfl) (.cons (.load rfl) (.nil _)),
    rfl, rfl, rfl, h1, h2⟩

end H2.Ext
