import Verif.Kec.Spec
import Verif.Poseidon.Sponge

/-!
# The Keccak component: specification of lookup keys and outputs

Independent of the code: what the lookup key of a message is, and what the table of outputs of the component is.  `f` is the Poseidon
permutation (`textPerm` in the theorems), `W` the number of 64-bit words packed into a field element (3 for bn254).
-/

set_option autoImplicit false
namespace H2.KC
open H2.Kec
variable {p : ℕ} [Fact p.Prime]

/-- Number of Keccak-f permutations for a message of `l` bytes: Keccak padding adds at least one byte. -/
def numF (l : ℕ) : ℕ := l / 136 + 1

/-- The 18 words of block `i` of the message: the byte length in the first block (0 in the others), then the 17 lanes of the block, zero
after the end of the message. -/
def blockWords (m : List Byte) (i : ℕ) : List ℕ :=
  (if i = 0 then m.length else 0) :: (List.range 17).map fun t => (leLane m (17 * i + t)).toNat

/-- 64-bit words as a number, little-endian. -/
def ofWords : List ℕ → ℕ
  | [] => 0
  | w :: ws => w + 2 ^ 64 * ofWords ws

/-- The field elements of a block of words: `W` words in each, the last one possibly fewer. -/
def packBlock (W : ℕ) (ws : List ℕ) : List ℕ := (List.range ((ws.length + W - 1) / W)).map fun j => ofWords ((ws.drop (W * j)).take W)

/-- Fill up to an even number of elements. -/
def padEven {α : Type} (z : α) (l : List α) : List α := if l.length % 2 = 0 then l else l ++ [z]

/-- The elements that are hashed for a message. -/
def keyElems (W : ℕ) (m : List Byte) : List ℕ := (List.range (numF m.length)).flatMap fun i => padEven 0 (packBlock W (blockWords m i))

/-- The lookup key of a message. -/
def key (f : List (ZMod p) → List (ZMod p)) (W : ℕ) (m : List Byte) : ZMod p := spongeHash f 2 ((keyElems W m).map fun x => ((x : ℕ) : ZMod p))

/-- A row of the table: key, low and high half of the hash. -/
structure Row (α : Type) where
  key : α
  lo : α
  hi : α
deriving DecidableEq

/-- The row of a message. -/
def row (f : List (ZMod p) → List (ZMod p)) (W : ℕ) (m : List Byte) : Row (ZMod p) :=
  ⟨key f W m, ((beNat ((keccak256 m).drop 16) : ℕ) : ZMod p), ((beNat ((keccak256 m).take 16) : ℕ) : ZMod p)⟩

/-- The rows of a message: one for each Keccak-f, the row of the empty message for all but the last. -/
def rows (f : List (ZMod p) → List (ZMod p)) (W : ℕ) (m : List Byte) : List (Row (ZMod p)) :=
  List.replicate (m.length / 136) (row f W []) ++ [row f W m]

/-! For the findings: rows with a wrong length in the key. -/

/-- As `keyElems`, with `l` in the place of the length of the message. -/
def keyElemsAs (W l : ℕ) (m : List Byte) : List ℕ := (List.range (numF m.length)).flatMap fun i =>
  padEven 0 (packBlock W ((if i = 0 then l else 0) :: (List.range 17).map fun t => (leLane m (17 * i + t)).toNat))

/-- The row with the hash of `m` and the key made with `l` in the place of the length of `m`. -/
def rowAs (f : List (ZMod p) → List (ZMod p)) (W l : ℕ) (m : List Byte) : Row (ZMod p) :=
  { row f W m with key := spongeHash f 2 ((keyElemsAs W l m).map fun x => ((x : ℕ) : ZMod p)) }

end H2.KC
