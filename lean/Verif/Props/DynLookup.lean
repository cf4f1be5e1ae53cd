import Verif.Threads.DynLookup

/-!
# Property C71 (dynamic lookup tables)

`dynRun nsets kc usable ops`: any sequence of calls of `assign_virtual_to_lookup_to_raw_from_offset` and
`assign_virtual_table_to_raw_from_offset` of a `BasicDynLookupConfig` with `nsets` sets of lookup columns and keys of `kc` cells.
`DynSat` is the meaning of the circuit: equality constraints, the fixed columns, and the lookup argument on all usable rows.
-/

set_option autoImplicit false
namespace H2.Phys
open H2
variable {p : ℕ} [Fact p.Prime]

/-- **C71** soundness: whatever the calls, their order and offsets, in every assignment satisfying the circuit every key handed over
equals a row handed over for the table (never a disabled row or a blinding row). -/
theorem C71_sound {nsets kc usable rows : ℕ} {ops : List (DynOp p)} {map map' : CellMap} {reg reg' : Region p}
    (h0 : ∀ e ∈ reg.fixed, ∀ o, e.1.col ≠ .dynFix o) (h : dynRun nsets kc usable ops map reg = some (map', reg'))
    (hk : ∀ k ∈ keysOf ops, k.length = kc) (ht : ∀ r ∈ rowsOf ops, r.length = kc) {v : PCell → ZMod p}
    (hv : DynSat nsets kc usable rows reg' v) :
    ∀ k ∈ keysOf ops, ∃ r ∈ rowsOf ops, k.map (H2.at' (vw map' v)) = r.map (H2.at' (vw map' v)) := dynRun_sound h0 h hk ht hv

/-- **C71** completeness: one table and one list of keys, assigned in any order at any offsets: if every key is a row of the table in
the virtual assignment `w`, the physical assignment that agrees with it satisfies the circuit; unused lookup rows included. -/
theorem C71_complete {nsets kc usable : ℕ} {T K : List (List (AV p))} {o1 o2 : ℕ} {ops : List (DynOp p)}
    (hops : ops = [.table T o1, .keys K o2] ∨ ops = [.keys K o2, .table T o1]) {map map' : CellMap} {reg reg' : Region p}
    (h : dynRun nsets kc usable ops map reg = some (map', reg')) (hn : 0 < nsets)
    (hf : ∀ e ∈ reg.fixed, e.1.col.isDyn = false) (hc : ∀ e ∈ reg.copies, e.1.col.isDyn = false ∧ e.2.col.isDyn = false)
    (hm : ∀ c x, map c = some x → x.col.isDyn = false) (hk : ∀ k ∈ K, k.length = kc) (ht : ∀ r ∈ T, r.length = kc)
    {w : Cell → ZMod p} {v0 : PCell → ZMod p} (hv0 : ∀ e ∈ reg.copies, v0 e.1 = v0 e.2) (hw : ∀ c x, map c = some x → v0 x = w c)
    (hin : ∀ k ∈ K, ∃ r ∈ T, k.map (H2.at' w) = r.map (H2.at' w)) :
    ∃ v : PCell → ZMod p, DynSat nsets kc usable usable reg' v ∧ (∀ x : PCell, x.col.isDyn = false → v x = v0 x) ∧
      (∀ c x, map' c = some x → v x = w c) ∧
      ((∀ as ∈ T ++ K, ∀ a ∈ as, H2.at' w a = a.value.eval) → ∀ e ∈ reg'.writes, e ∈ reg.writes ∨ v e.1 = e.2.eval) :=
  dynRun_complete hops h hn hf hc hm hk ht hv0 hw hin

/-- **C71** no panic: the calls succeed when every cell was assigned before or is an external cell, the table with its disabled row
fits, and the keys fit in the lookup columns. -/
theorem C71_succeeds {nsets kc usable : ℕ} {T K : List (List (AV p))} {o1 o2 : ℕ} {map : CellMap} {reg : Region p} (hn : 0 < nsets)
    (hT : ∀ as ∈ T, ∀ a ∈ as, CanTie map a) (hK : ∀ as ∈ K, ∀ a ∈ as, CanTie map a) (h1 : o1 + T.length < usable)
    (h2 : o2 * nsets + K.length ≤ usable * nsets) :
    ∃ out, dynRun nsets kc usable [.table T o1, .keys K o2] map reg = some out := by
  obtain ⟨m1, r1, e1, g1⟩ := dynTable_some (kc := kc) T (reg := reg) hT h1
  obtain ⟨m2, r2, e2, -⟩ := dynKeys_some hn K (col := 0) (off := o2) (map := m1) (reg := r1) (by omega) (by
    intro as has a ha
    obtain ⟨c', e1, e2⟩ := hK as has a ha
    exact ⟨c', e1, e2.imp (g1 c') id⟩) (by omega)
  refine ⟨(m2, r2), ?_⟩
  simp only [dynRun, DynOp.run, Option.bind_eq_bind]
  rw [e1, Option.bind_some, e2]
  rfl

/-- **C71** conversely a table that does not fit with its disabled row panics. -/
theorem C71_table_panics {nsets kc usable : ℕ} {T : List (List (AV p))} {o1 : ℕ} {map : CellMap} {reg : Region p} {ops : List (DynOp p)}
    (h : usable ≤ o1 + T.length) : dynRun nsets kc usable (.table T o1 :: ops) map reg = none := by
  simp only [dynRun, DynOp.run, Option.bind_eq_bind]
  cases e : dynTable kc usable T o1 map reg with
  | none => rfl
  | some out => exact absurd (dynTable_dout (map' := out.1) (reg' := out.2) T e).2 (by omega)

/-! ### A case -/

private def exA (i : ℕ) : AV 7 := ⟨.trivial i, some ⟨"t", 0, i⟩⟩
private def exMap : CellMap := fun c => if c.offset < 5 then some ⟨.advice 0, c.offset⟩ else none
private def exOps : List (DynOp 7) := [.table [[exA 1, exA 2], [exA 3, exA 4]] 0, .keys [[exA 3, exA 4], [exA 1, exA 2], [exA 3, exA 4]] 0]

/-- The hypotheses of C71 are met by a table of two rows and three keys in two sets of columns. -/
example : ∃ out, dynRun 2 2 4 exOps exMap Region.empty = some out ∧ out.2.fixed.length = 6 ∧ out.2.copies.length = 10 := by
  have h : ((dynRun 2 2 4 exOps exMap Region.empty).map fun o => (o.2.fixed.length, o.2.copies.length)) = some (6, 10) := by decide +kernel
  obtain ⟨out, h1, h2⟩ := Option.map_eq_some_iff.1 h
  simp only [Prod.mk.injEq] at h2
  exact ⟨out, h1, h2.1, h2.2⟩

end H2.Phys
