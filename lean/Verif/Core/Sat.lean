import Verif.Core.Context

/-!
# Meaning of a circuit: which assignments satisfy the constraints recorded in a context

This is the specification of the constraint system (flex_gate/mod.rs:77-90 for the gate; copy and
constant constraints as collected by `CopyConstraintManager`; lookups as in range/mod.rs:116-137).
`w : Cell → ZMod p` is an arbitrary assignment of field elements to virtual cells, i.e. an arbitrary
(possibly malicious) prover.
-/

set_option autoImplicit false
namespace H2
variable {p : ℕ}

/-- The value an assignment gives to an assigned value's cell.  In keygen mode every `AV` has a cell
(see `Snd`, the routines panic otherwise). -/
def at' (w : Cell → ZMod p) (a : AV p) : ZMod p :=
  match a.cell with
  | some c => w c
  | none => 0

/-- The gate `q * (a + b * c - out) = 0` enabled at row `i` of the context column
(flex_gate/mod.rs:79-90). -/
def GateAt (w : Cell → ZMod p) (s : Ctx p) (i : Nat) : Prop :=
  w (s.cellAt i) + w (s.cellAt (i + 1)) * w (s.cellAt (i + 2)) = w (s.cellAt (i + 3))

/-- `w` satisfies every constraint recorded in `s`; `tbl` is the content of the lookup table. -/
structure Sat (tbl : ZMod p → Prop) (s : Ctx p) (w : Cell → ZMod p) : Prop where
  gate : ∀ i, s.selector[i]? = some true → GateAt w s i
  eq : ∀ e ∈ s.eqs, w e.1 = w e.2
  const : ∀ e ∈ s.consts, w e.2 = e.1
  lookup : ∀ a ∈ s.lookups, tbl (at' w a)

/-- Content of the range lookup table for `lookup_bits = L` (range/mod.rs:141-157). -/
def RangeTable (p L : ℕ) (x : ZMod p) : Prop := ∃ n : ℕ, n < 2 ^ L ∧ x = (n : ZMod p)

/-- What an assignment must say about a new cell holding `v`, created from the given `QuantumCell`:
`Existing` copies, `Constant` fixes, `Witness` leaves free (lib.rs:66-79). -/
def QOk (w : Cell → ZMod p) : QCell p → ZMod p → Prop
  | .existing a, v => v = at' w a
  | .constant c, v => v = c
  | .witness _, _ => True
  | .witnessFraction _, _ => True

end H2
