import Verif.KecComp.Model
import Verif.Utils.Model

/-!
# hashes/zkevm/src/util: expressions, words, the constraint builder

`Ex` is halo2's `Expression` (not part of /repo): queries of columns at a rotation, selectors and challenges are the variables `q i`.
-/

set_option autoImplicit false
namespace H2.Zk
open H2.Kec (Byte)
open H2.Utils (fromBytesLe)

/-- halo2 `Expression<F>`. -/
inductive Ex (F : Type) where
  | const (c : F)
  | q (i : ℕ)
  | challenge (i : ℕ)
  | neg (a : Ex F)
  | sum (a b : Ex F)
  | prod (a b : Ex F)
  | scaled (a : Ex F) (c : F)

namespace Ex
variable {F : Type}

/-- halo2 `Expression::evaluate` for the values `v` of the queries and `ch` of the challenges. -/
def eval [Field F] (v ch : ℕ → F) : Ex F → F
  | const c => c
  | q i => v i
  | challenge i => ch i
  | neg a => -eval v ch a
  | sum a b => eval v ch a + eval v ch b
  | prod a b => eval v ch a * eval v ch b
  | scaled a c => eval v ch a * c

/-- halo2 `Expression::degree`. -/
def degree : Ex F → ℕ
  | const _ => 0
  | q _ => 1
  | challenge _ => 0
  | neg a => degree a
  | sum a b => max (degree a) (degree b)
  | prod a b => degree a + degree b
  | scaled a _ => degree a

/-- halo2 `Sub for Expression` -/
def sub (a b : Ex F) : Ex F := sum a (neg b)

end Ex

variable {F : Type} [Field F]

/-! ## expression.rs -/

/-- expression.rs:195-203 `Expr for i32` -/
def exprI (i : ℤ) : Ex F := .const ((i.natAbs : F) * if i < 0 then -1 else 1)

/-- expression.rs:159-180 `impl_expr!` (bool, u8, u64, usize): the value cast to `u64`. -/
def exprU (n : ℕ) : Ex F := .const ((n % 2 ^ 64 : ℕ) : F)

/-- expression.rs:8-10 `sum::expr` -/
def sumE (es : List (Ex F)) : Ex F := es.foldl (fun acc e => .sum acc e) (exprI 0)

/-- expression.rs:13-15 `sum::value` -/
def sumV (bs : List Byte) : F := bs.foldl (fun acc b => acc + (b.toNat : F)) 0

/-- expression.rs:25-27 `and::expr` -/
def andE (es : List (Ex F)) : Ex F := es.foldl (fun acc e => .prod acc e) (exprI 1)

/-- expression.rs:30-32 `and::value` -/
def andV (xs : List F) : F := xs.foldl (fun acc x => acc * x) 1

/-- expression.rs:58-60 `not::expr` -/
def notE (e : Ex F) : Ex F := .sub (exprI 1) e

/-- expression.rs:63-65 `not::value` -/
def notV (x : F) : F := 1 - x

/-- expression.rs:43-45 `or::expr` -/
def orE (es : List (Ex F)) : Ex F := notE (andE (es.map notE))

/-- expression.rs:48-50 `or::value` -/
def orV (xs : List F) : F := notV (andV (xs.map notV))

/-- expression.rs:74-76 `xor::expr` -/
def xorE (a b : Ex F) : Ex F := .sub (.sum a b) (.prod (.prod (exprI 2) a) b)

/-- expression.rs:79-81 `xor::value` -/
def xorV (a b : F) : F := a + b - 2 * a * b

/-- expression.rs:91-97 `select::expr` -/
def selectE (s t f : Ex F) : Ex F := .sum (.prod s t) (.prod (.sub (exprI 1) s) f)

/-- expression.rs:101-103 `select::value` -/
def selectV (s t f : F) : F := s * t + (1 - s) * f

/-- expression.rs:107-117 `select::value_word` -/
def selectWord [DecidableEq F] (s : F) (t f : List Byte) : List Byte := if s = 1 then t else f

/-- The loop of expression.rs:127-130 -/
def fromBytesLoop : List (Ex F) → Ex F → F → Ex F
  | [], value, _ => value
  | b :: bs, value, m => fromBytesLoop bs (.sum value (.scaled b m)) (m * 256)

/-- expression.rs:124-132 `from_bytes::expr` -/
def fromBytesE (bs : List (Ex F)) : Ex F := fromBytesLoop bs (exprI 0) 1

/-- The loop of expression.rs:139-144 -/
def fromBytesVLoop : List (List Byte) → F → F → F
  | [], value, _ => value
  | c :: cs, value, m => fromBytesVLoop cs (value + (KC.leBytes c : F) * m) (m * ((2 : F) ^ 64 * 2 ^ 64))

/-- expression.rs:134-146 `from_bytes::value` -/
def fromBytesV (bs : List Byte) : F := fromBytesVLoop (chunksOf 16 bs) 0 1

/-- expression.rs:206-208 `pow_of_two` -/
def powOfTwo (n : ℕ) : F := 2 ^ n

/-! ## eth_types.rs -/

/-- `U256::to_little_endian` (ethers): the 32 bytes. -/
def leBytes32 (x : BitVec 256) : List Byte := (List.range 32).map fun i => BitVec.ofNat 8 (x.toNat / 256 ^ i)

/-- eth_types.rs:53-60 `to_be_bytes` -/
def toBe (x : BitVec 256) : List Byte := (leBytes32 x).reverse

/-- eth_types.rs:62-69 `to_le_bytes` -/
def toLe (x : BitVec 256) : List Byte := leBytes32 x

/-- `U256::from(&[u8])` (ethers): big-endian; panics above 32 bytes. -/
def u256FromBe (bs : List Byte) : Option (BitVec 256) := if bs.length ≤ 32 then some (BitVec.ofNat 256 (KC.leBytes bs.reverse)) else none

/-- eth_types.rs:71-77 `to_scalar` of U256; the outer `none` is a panic (`from_bytes_le`, utils/mod.rs:66-70). -/
def u256Scalar (p : ℕ) (x : BitVec 256) : Option (Option (ZMod p)) := (fromBytesLe p ((leBytes32 x).map BitVec.toNat)).map some

/-- eth_types.rs:79-83 `to_address` -/
def toAddress (x : BitVec 256) : List Byte := (toBe x).drop 12

/-- eth_types.rs:88-92 `to_word` of a hash -/
def hashWord (h : List Byte) : Option (BitVec 256) := u256FromBe h

/-- eth_types.rs:94-100 `to_word` of an address -/
def addressWord (a : List Byte) : Option (BitVec 256) := u256FromBe (List.replicate (32 - a.length) 0 ++ a)

/-- eth_types.rs:102-110 `to_word` of a bool -/
def boolWord (b : Bool) : BitVec 256 := if b then 1 else 0

/-- eth_types.rs:112-119 `to_scalar` of an address -/
def addressScalar (p : ℕ) (a : List Byte) : Option (Option (ZMod p)) :=
  (fromBytesLe p ((List.replicate (32 - a.length) 0 ++ a).reverse.map BitVec.toNat)).map some

/-- eth_types.rs:121-125 `to_scalar` of a bool -/
def boolScalar (p : ℕ) (b : Bool) : Option (Option (ZMod p)) := u256Scalar p (boolWord b)

/-! ## word.rs -/

/-- word.rs:83-85 `Word<T>` -/
structure Wd (T : Type) where
  lo : T
  hi : T

/-- word.rs:141-149 `From<U256> for Word` -/
def Wd.ofU256 (x : BitVec 256) : Wd F := ⟨fromBytesV ((toLe x).take 16), fromBytesV ((toLe x).drop 16)⟩

/-- word.rs:152-165 `From<H256> for Word` -/
def Wd.ofH256 (h : List Byte) : Wd F := ⟨fromBytesV (h.reverse.take 16), fromBytesV (h.reverse.drop 16)⟩

/-- word.rs:168-174 `From<u64> for Word` -/
def Wd.ofU64 (x : BitVec 64) : Wd F := ⟨fromBytesV ((List.range 8).map fun i => BitVec.ofNat 8 (x.toNat / 256 ^ i)), 0⟩

/-- word.rs:176-181 `From<u8> for Word` -/
def Wd.ofU8 (x : Byte) : Wd F := ⟨(x.toNat : F), 0⟩

/-- word.rs:183-187 `From<bool> for Word` -/
def Wd.ofBool (b : Bool) : Wd F := ⟨(b.toNat : F), 0⟩

/-- word.rs:189-199 `From<H160> for Word` -/
def Wd.ofH160 (a : List Byte) : Wd F := ⟨fromBytesV (a.reverse.take 16), fromBytesV (a.reverse.drop 16)⟩

/-- word.rs:232-234 `from_lo_unchecked` -/
def Wd.fromLo (lo : Ex F) : Wd (Ex F) := ⟨lo, exprI 0⟩

/-- word.rs:245-258 `Word::select` -/
def Wd.select (s : Ex F) (t f : Wd (Ex F)) : Wd (Ex F) := ⟨selectE s t.lo f.lo, selectE s t.hi f.hi⟩

/-- word.rs:261-263 `mul_selector` -/
def Wd.mulSelector (w : Wd (Ex F)) (s : Ex F) : Wd (Ex F) := ⟨.prod w.lo s, .prod w.hi s⟩

/-- word.rs:266-268 `add_unchecked` -/
def Wd.addUnchecked (a b : Wd (Ex F)) : Wd (Ex F) := ⟨.sum a.lo b.lo, .sum a.hi b.hi⟩

/-- word.rs:271-273 `sub_unchecked` -/
def Wd.subUnchecked (a b : Wd (Ex F)) : Wd (Ex F) := ⟨.sub a.lo b.lo, .sub a.hi b.hi⟩

/-- word.rs:276-278 `mul_unchecked` -/
def Wd.mulUnchecked (a b : Wd (Ex F)) : Wd (Ex F) := ⟨.prod a.lo b.lo, .prod a.hi b.hi⟩

/-- word.rs:292-303 `to_word_n` of `N1 = limbs.length` limbs; `none`: the `assert_eq!` or the conversion to an array fails (`n2 = 0` divides by zero). -/
def toWordN (limbs : List (Ex F)) (n2 : ℕ) : Option (List (Ex F)) :=
  if n2 = 0 ∨ limbs.length % n2 ≠ 0 ∨ limbs.length = 0 then none
  else
    let r := (chunksOf (limbs.length / n2) limbs).map fromBytesE
    if r.length = n2 then some r else none

/-- word.rs:322-326 `WordExpr::to_word` -/
def toWord (limbs : List (Ex F)) : Option (Wd (Ex F)) :=
  (toWordN limbs 2).bind fun l => match l with
    | [lo, hi] => some ⟨lo, hi⟩
    | _ => none

/-- word.rs:307-319 `eq` -/
def eqE (limbs others : List (Ex F)) : Option (Ex F) :=
  if others.length = 0 ∨ limbs.length % others.length ≠ 0 ∨ limbs.length = 0 then none
  else some (notE (orE (((chunksOf (limbs.length / others.length) limbs).map fromBytesE).zipWith (fun a b => .sub a b) others)))

/-! ## constraint_builder.rs -/

/-- constraint_builder.rs:4-9 `BaseConstraintBuilder` (names of constraints left out). -/
structure CB (F : Type) where
  constraints : List (Ex F)
  maxDegree : ℕ
  condition : Option (Ex F)

/-- constraint_builder.rs:12-14 `new` -/
def CB.new (maxDegree : ℕ) : CB F := ⟨[], maxDegree, none⟩

/-- constraint_builder.rs:66-76 `validate_degree`: whether the `assert!` holds. -/
def CB.okDegree (cb : CB F) (d : ℕ) : Bool := cb.maxDegree = 0 || d ≤ cb.maxDegree

/-- constraint_builder.rs:57-64 `add_constraint` -/
def CB.add (cb : CB F) (e : Ex F) : Option (CB F) :=
  let c := match cb.condition with
    | some c => .prod c e
    | none => e
  if cb.okDegree c.degree then some { cb with constraints := cb.constraints ++ [c] } else none

/-- A use of the builder: the `require_*` methods (constraint_builder.rs:16-42) and `condition` with the calls made by its closure. -/
inductive Op (F : Type) where
  | zero (e : Ex F)
  | equal (a b : Ex F)
  | equalWord (a b : Wd (Ex F))
  | boolean (e : Ex F)
  | cond (c : Ex F) (body : List (Op F))

mutual
/-- One call; `debug` tells whether `debug_assert!` is compiled in. -/
def Op.run (debug : Bool) : Op F → CB F → Option (CB F)
  | .zero e, cb => cb.add e
  | .equal a b, cb => cb.add (.sub a b)
  | .equalWord a b, cb => (cb.add (.sub a.lo b.lo)).bind fun cb => cb.add (.sub a.hi b.hi)
  | .boolean e, cb => cb.add (.prod e (.sub (exprI 1) e))
  /- constraint_builder.rs:44-55 `condition` -/
  | .cond c body, cb =>
    if debug && cb.condition.isSome then none
    else (Op.runs debug body { cb with condition := some c }).map fun cb => { cb with condition := none }
/-- A sequence of calls. -/
def Op.runs (debug : Bool) : List (Op F) → CB F → Option (CB F)
  | [], cb => some cb
  | o :: os, cb => (Op.run debug o cb).bind fun cb => Op.runs debug os cb
end

/-- constraint_builder.rs:78-88 `gate` -/
def CB.gate (cb : CB F) (selector : Ex F) : Option (List (Ex F)) :=
  let l := cb.constraints.map fun c => .prod selector c
  if l.all fun c => cb.okDegree c.degree then some l else none

end H2.Zk
