import Verif.Poseidon.Model
import Verif.Gate.SoundList

/-!
# The optimised Poseidon permutation on field elements

The same computation as `PoseidonState::permutation` on values instead of cells, and the textbook sponge.
-/

set_option autoImplicit false
namespace H2
variable {p : ℕ} [Fact p.Prime]

/-- Componentwise sum. -/
def addv (a b : List (ZMod p)) : List (ZMod p) := List.zipWith (· + ·) a b

/-- `x ↦ x^5 + c` in every coordinate. -/
def nSbox (s c : List (ZMod p)) : List (ZMod p) := List.zipWith (fun x c => x ^ 5 + c) s c

/-- `x ↦ x^5 + c` in the first coordinate. -/
def nSboxPart (s : List (ZMod p)) (c : ZMod p) : List (ZMod p) :=
  match s with
  | [] => []
  | x :: xs => (x ^ 5 + c) :: xs

/-- Multiplication by a matrix, given by its rows. -/
def nMds (m : List (List (ZMod p))) (s : List (ZMod p)) : List (ZMod p) := m.map (fun row => dot s row)

/-- Multiplication by a sparse matrix: full first row, first column `colHat` below it, identity elsewhere. -/
def nSparse (m : SparseMDS p) (s : List (ZMod p)) : List (ZMod p) :=
  dot s m.row :: List.zipWith (fun c x => s.getD 0 0 * c + x) m.colHat s.tail

/-- Full rounds. -/
def nFull (mds : List (List (ZMod p))) (cs : List (List (ZMod p))) (s : List (ZMod p)) : List (ZMod p) :=
  cs.foldl (fun s c => nMds mds (nSbox s c)) s

/-- Partial rounds. -/
def nPart (l : List (ZMod p × SparseMDS p)) (s : List (ZMod p)) : List (ZMod p) :=
  l.foldl (fun s e => nSparse e.2 (nSboxPart s e.1)) s

/-- All rounds after the addition of the first constants. -/
def nRounds (sp : PSpec p) (s : List (ZMod p)) : List (ZMod p) :=
  let s := nFull sp.mds ((sp.start.drop 1).take (sp.rF / 2 - 1)) s
  let s := nMds sp.preSparse (nSbox s (sp.start.getLastD []))
  let s := nPart (sp.part.zip sp.sparse) s
  let s := nFull sp.mds sp.fin s
  nMds sp.mds (nSbox s (List.replicate s.length 0))

/-- The optimised permutation. -/
def nPerm (sp : PSpec p) (s : List (ZMod p)) : List (ZMod p) := nRounds sp (addv s (sp.start.headD []))

/-- A block of `n` elements: the inputs, then a single one, then zeros (nothing is added to a full block). -/
def padBlock (n : ℕ) (xs : List (ZMod p)) : List (ZMod p) := (xs ++ 1 :: List.replicate n 0).take n

/-- Absorb one block (not touching the capacity element `s[0]`) and permute. -/
def nAbsorbPerm (sp : PSpec p) (s xs : List (ZMod p)) : List (ZMod p) :=
  nPerm sp (addv s (0 :: padBlock (s.length - 1) xs))

/-- The sizes of all arrays of a spec of width `T` are right (in Rust these are array types; the lengths of the
vectors are established by `OptimizedPoseidonSpec::new`, see `Verif/Poseidon/Spec.lean`). -/
structure WFSpec (sp : PSpec p) (T : ℕ) : Prop where
  mds : sp.mds.length = T
  mdsRow : ∀ r ∈ sp.mds, r.length = T
  pre : sp.preSparse.length = T
  preRow : ∀ r ∈ sp.preSparse, r.length = T
  sparse : ∀ m ∈ sp.sparse, m.row.length = T ∧ m.colHat.length = T - 1
  start : ∀ c ∈ sp.start, c.length = T
  fin : ∀ c ∈ sp.fin, c.length = T
  startNe : sp.start ≠ []
  rF : 1 ≤ sp.rF / 2
  pos : 1 ≤ T

theorem addv_length {a b : List (ZMod p)} (h : a.length = b.length) : (addv a b).length = a.length := by
  simp [addv, h]

theorem padBlock_length (n : ℕ) (xs : List (ZMod p)) : (padBlock n xs).length = n := by
  simp [padBlock]; omega

theorem nSbox_length {s c : List (ZMod p)} (h : s.length = c.length) : (nSbox s c).length = s.length := by
  simp [nSbox, h]

theorem nSboxPart_length (s : List (ZMod p)) (c : ZMod p) : (nSboxPart s c).length = s.length := by
  cases s <;> simp [nSboxPart]

theorem nMds_length (m : List (List (ZMod p))) (s : List (ZMod p)) : (nMds m s).length = m.length := by
  simp [nMds]

theorem nSparse_length {m : SparseMDS p} {s : List (ZMod p)} {T : ℕ} (h : s.length = T) (hm : m.colHat.length = T - 1)
    (hT : 1 ≤ T) : (nSparse m s).length = T := by
  simp [nSparse, h, hm]; omega

theorem nFull_length {mds : List (List (ZMod p))} {cs : List (List (ZMod p))} {s : List (ZMod p)} {T : ℕ}
    (h : s.length = T) (hm : mds.length = T) : (nFull mds cs s).length = T := by
  induction cs generalizing s with
  | nil => exact h
  | cons c cs ih => exact ih (by rw [nMds_length, hm])

theorem nPart_length {l : List (ZMod p × SparseMDS p)} {s : List (ZMod p)} {T : ℕ}
    (h : s.length = T) (hT : 1 ≤ T) (hm : ∀ e ∈ l, e.2.colHat.length = T - 1) : (nPart l s).length = T := by
  induction l generalizing s with
  | nil => exact h
  | cons e l ih =>
    exact ih (nSparse_length (by rw [nSboxPart_length, h]) (hm e (by simp)) hT) fun e he => hm e (by simp [he])

theorem nRounds_length {sp : PSpec p} {T : ℕ} (hs : WFSpec sp T) (s : List (ZMod p)) : (nRounds sp s).length = T := by
  simp only [nRounds, nMds_length, hs.mds]

theorem nPerm_length {sp : PSpec p} {T : ℕ} (hs : WFSpec sp T) (s : List (ZMod p)) : (nPerm sp s).length = T :=
  nRounds_length hs _

theorem WFSpec.startHead {sp : PSpec p} {T : ℕ} (hs : WFSpec sp T) : (sp.start.headD []).length = T := by
  cases h : sp.start with
  | nil => exact absurd h hs.startNe
  | cons c cs => exact hs.start c (by simp [h])

theorem WFSpec.startLast {sp : PSpec p} {T : ℕ} (hs : WFSpec sp T) : (sp.start.getLastD []).length = T := by
  cases h : sp.start with
  | nil => exact absurd h hs.startNe
  | cons c cs =>
    have := List.getLast_mem (l := c :: cs) (by simp)
    rw [List.getLastD_eq_getLast?, List.getLast?_eq_some_getLast (by simp)]
    exact hs.start _ (by rw [h]; exact this)

end H2
