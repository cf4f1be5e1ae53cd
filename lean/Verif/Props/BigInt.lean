import Verif.Fields.Concrete
import Verif.BigInt.CompleteZero
import Verif.BigInt.CompleteSub
import Verif.BigInt.CompleteSel
import Verif.Props.Modes

/-!
# Properties C42 - C46, C59 (big integers)

Reading guide: `CrtOk n k w a X` says that in the assignment `w` the `CRTInteger` `a` represents the integer `X`: limbs in
base `2 ^ n` modulo `2 ^ (n k)`, every limb below `2 ^ max_limb_bits` in absolute value, native part modulo `p`.
`ProperOk n k w a X`: all limbs are in `[0, 2 ^ n)`, they are the digits of `X`, and the native part is `X` mod `p`.
`Sat tbl s' w`: the assignment `w` satisfies every constraint recorded in `s'`.  `CrtW`/`ProperW` say the same of the honest
assignment and of the claimed `value`.
-/

set_option autoImplicit false
namespace H2
variable {p : ℕ} [Fact p.Prime] {tbl : ZMod p → Prop} {ext : Cell → ZMod p} {s s' : Ctx p} {w : Cell → ZMod p}
  {L n k : ℕ} {a b r : CrtInt p} {X Y : ℤ}

/-! ## C42: arithmetic without carries -/

theorem C42_add_no_carry (hi : Inv s) (hrun : addNoCarryCrt a b s = some (r, s')) (hw : Sat tbl s' w)
    (ha : CrtOk n k w a X) (hb : CrtOk n k w b Y) :
    CrtOk n k w r (X + Y) ∧ r.value = a.value + b.value ∧ r.trunc.maxBits = max a.trunc.maxBits b.trunc.maxBits + 1 :=
  have h := (addNoCarryCrt_sound (n := n) (k := k) a b).run hi hrun hw
  ⟨h.2.2 X Y ha hb, h.2.1, h.1⟩

theorem C42_sub_no_carry (hi : Inv s) (hrun : subNoCarryCrt a b s = some (r, s')) (hw : Sat tbl s' w)
    (ha : CrtOk n k w a X) (hb : CrtOk n k w b Y) :
    CrtOk n k w r (X - Y) ∧ r.value = a.value - b.value ∧ r.trunc.maxBits = max a.trunc.maxBits b.trunc.maxBits + 1 :=
  have h := (subNoCarryCrt_sound (n := n) (k := k) a b).run hi hrun hw
  ⟨h.2.2 X Y ha hb, h.2.1, h.1⟩

/-- `mul_no_carry`: the product, with limbs of `kl + bits(a) + bits(b)` bits as long as `k ≤ 2 ^ kl`. -/
theorem C42_mul_no_carry {kl : ℕ} (hk : k ≤ 2 ^ kl) (hi : Inv s) (hrun : mulNoCarryCrt a b kl s = some (r, s'))
    (hw : Sat tbl s' w) (ha : CrtOk n k w a X) (hb : CrtOk n k w b Y) :
    CrtOk n k w r (X * Y) ∧ r.value = a.value * b.value ∧ r.trunc.maxBits = kl + a.trunc.maxBits + b.trunc.maxBits :=
  have h := (mulNoCarryCrt_sound (n := n) (k := k) a b kl hk).run hi hrun hw
  ⟨h.2.2 ha.length X Y ha hb, h.2.1, h.1⟩

theorem C42_scalar_mul_no_carry {c : ℤ} (hi : Inv s) (hrun : scalarMulNoCarryCrt a c s = some (r, s'))
    (hw : Sat tbl s' w) (ha : CrtOk n k w a X) : CrtOk n k w r (X * c) ∧ r.value = a.value * c :=
  have h := (scalarMulNoCarryCrt_sound (n := n) (k := k) a c).run hi hrun hw
  ⟨h.2.2 X ha, h.2.1⟩

theorem C42_scalar_mul_and_add_no_carry {c : ℤ} (hi : Inv s) (hrun : scalarMulAddNoCarryCrt a b c s = some (r, s'))
    (hw : Sat tbl s' w) (ha : CrtOk n k w a X) (hb : CrtOk n k w b Y) :
    CrtOk n k w r (X * c + Y) ∧ r.value = a.value * c + b.value :=
  have h := (scalarMulAddNoCarryCrt_sound (n := n) (k := k) a b c).run hi hrun hw
  ⟨h.2.2 X Y ha hb, h.2.1⟩

/-- `negative`: every limb is negated, so the represented integer is. -/
theorem C42_negative {a r : OvInt p} {xs : List ℤ} (hi : Inv s) (hrun : negInt a s = some (r, s')) (hw : Sat tbl s' w)
    (ha : OvOk w a xs) : ∃ ys, OvOk w r ys ∧ limbVal n ys = -limbVal n xs :=
  have h := (negInt_sound a).run hi hrun hw
  ⟨_, h.2 xs ha, limbVal_map_neg n xs⟩

theorem C42_select {sel : AV p} (hi : Inv s) (hrun : selectCrt a b sel s = some (r, s')) (hw : Sat tbl s' w)
    (ha : CrtOk n k w a X) (hb : CrtOk n k w b Y) :
    (at' w sel = 1 → CrtOk n k w r X) ∧ (at' w sel = 0 → CrtOk n k w r Y) := by
  obtain ⟨h1, -, h2, h3⟩ := (selectCrt_sound a b sel).run hi hrun hw
  exact ⟨fun h => ha.widen (h2 h).1 (by rw [h1]; exact le_max_left _ _) (h2 h).2,
    fun h => hb.widen (h3 h).1 (by rw [h1]; exact le_max_right _ _) (h3 h).2⟩

/-- `select` of properly ranged integers is properly ranged. -/
theorem C42_select_proper {sel : AV p} {A B : ℕ} (hi : Inv s) (hrun : selectCrt a b sel s = some (r, s'))
    (hw : Sat tbl s' w) (ha : ProperOk n k w a A) (hb : ProperOk n k w b B) :
    (at' w sel = 1 → ProperOk n k w r A) ∧ (at' w sel = 0 → ProperOk n k w r B) := by
  obtain ⟨h1, -, h2, h3⟩ := (selectCrt_sound a b sel).run hi hrun hw
  have ma : a.trunc.maxBits = n := by obtain ⟨_, _, h, _⟩ := ha; exact h
  have mb : b.trunc.maxBits = n := by obtain ⟨_, _, h, _⟩ := hb; exact h
  exact ⟨fun h => ha.congr (h2 h).1 (by rw [h1, ma, mb, max_self]) (h2 h).2,
    fun h => hb.congr (h3 h).1 (by rw [h1, ma, mb, max_self]) (h3 h).2⟩

/-- `select_by_indicator` on properly ranged integers, with the chip's limb bases. -/
theorem C42_select_by_indicator {c : FpChip p} (hc : FpOk c) {as : List (CrtInt p)} {ind : List (AV p)} {As : List ℕ}
    {idx A : ℕ} (hi : Inv s) (hrun : selIndCrt as ind c.bases s = some (r, s')) (hw : Sat tbl s' w)
    (ha : as.Forall₂ (ProperOk c.n c.k w) As) (hind : ind.map (at' w) = oneHot as.length idx) (hA : As[idx]? = some A) :
    ProperOk c.n c.k w r A := (FpChip.selIndProper hc as ind).run hi hrun hw As ha idx hind A hA

/-- A constant is assigned as the integer it denotes when it fits in the limbs. -/
theorem C42_assign_constant {v : ℕ} (hp : p ≤ 256 ^ 32) (hn : 64 ≤ n) (hn' : n < 128) (hk : 1 ≤ k) (hv : v < 2 ^ (n * k))
    (hi : Inv s) (hrun : assignFixed v k n s = some (r, s')) (hw : Sat tbl s' w) : ProperOk n k w r v :=
  ((assignFixed_sound hp v hn hn' hk hv).run hi hrun hw).2

/-- Finding: `select_by_indicator` on unreduced `CRTInteger`s (its `Selectable<CRTInteger>` instance) recomputes the native
part from the limbs as soon as there are more choices than limbs; the limbs only determine the integer modulo
`2 ^ (n k)`, so the selected integer is lost.  Here `n = 3`, `k = 1`, both choices represent 8, the result does not. -/
def badSelect : M 101 (CrtInt 101 × CrtInt 101 × AV 101 × AV 101) := do
  let l ← loadConstant 0
  let v ← loadConstant 8
  let i ← loadConstant 1
  let z ← loadConstant 0
  let r ← selIndCrt [⟨⟨[l], 3⟩, v, 8⟩, ⟨⟨[l], 3⟩, v, 8⟩] [i, z] [1]
  pure (⟨⟨[l], 3⟩, v, 8⟩, r, i, z)

theorem C42_select_by_indicator_finding (ext : Cell → ZMod 101) :
    ∃ a r i z s', badSelect ctx0 = some ((a, r, i, z), s') ∧ Sat (fun _ => True) s' (hw ext s') ∧
      ∀ w, Sat (fun _ => True) s' w →
        CrtOk 3 1 w a 8 ∧ [at' w i, at' w z] = oneHot 2 0 ∧ ¬ CrtOk 3 1 w r 8 := by
  have hc : Cmp (fun _ : ZMod 101 => True) ext ctx0 badSelect (fun _ _ => True) := by
    refine Cmp.bind (loadConstant_cmp 0) fun l s1 _ hl => Cmp.bind (loadConstant_cmp 8) fun v s2 e2 hv => ?_
    refine Cmp.bind (loadConstant_cmp 1) fun i s3 e3 hi => Cmp.bind (loadConstant_cmp 0) fun z s4 e4 hz => ?_
    have hl := ((hl.mono e2).mono e3).mono e4
    have hv := (hv.mono e3).mono e4
    have hi := hi.mono e4
    have hS : CrtS ext s4 ⟨⟨[l], 3⟩, v, 8⟩ := ⟨by intro x hx; rw [List.mem_singleton.1 hx]; exact hl.w, hv.w⟩
    refine Cmp.bind (selIndCrt_cmp (k := 1) (idx := 0) (a := ⟨⟨[l], 3⟩, v, 8⟩) ?_ ?_ (by simp) (.cons hi (.cons hz .nil)) rfl) fun r s5 _ _ => Cmp.pure trivial
    · intro a ha
      simp only [List.mem_cons, List.not_mem_nil, or_false, or_self] at ha
      rw [ha]; exact hS
    · intro a ha
      simp only [List.mem_cons, List.not_mem_nil, or_false, or_self] at ha
      rw [ha]; rfl
  obtain ⟨⟨a, r, i, z⟩, s', h, -, hsat, -⟩ := hc.run good0
  refine ⟨a, r, i, z, s', h, hsat, ?_⟩
  have hs : Sound (fun _ : ZMod 101 => True) badSelect (fun w q => CrtOk 3 1 w q.1 8 ∧ [at' w q.2.2.1, at' w q.2.2.2] = oneHot 2 0 ∧
      at' w q.2.1.native = 0) := by
    intro s
    refine Snd.bind (loadConstant_sound 0 s) fun l s1 _ => Snd.bind (loadConstant_sound 8 s1) fun v s2 _ => ?_
    refine Snd.bind (loadConstant_sound 1 s2) fun i s3 _ => Snd.bind (loadConstant_sound 0 s3) fun z s4 _ => ?_
    refine Snd.bind (selIndCrt_sound _ _ _ s4) fun r s5 _ => Snd.pure ?_
    rintro w - ⟨-, h⟩ hz hi hv hl
    have e : [at' w i, at' w z] = oneHot 2 0 := by rw [hi, hz]; decide
    refine ⟨⟨[0], rfl, ⟨by simp [hl], by simp⟩, by decide, by simp [hv]⟩, e, ?_⟩
    have := (h 0 e _ rfl (by simp)).2
    rw [this]
    simp [hl, dot]
  intro w hw
  obtain ⟨h1, h2, h3⟩ := hs.run (good0 (tbl := fun _ => True) (ext := ext)).inv h hw
  refine ⟨h1, h2, ?_⟩
  rintro ⟨_, _, _, _, h⟩
  rw [h3] at h
  revert h
  decide

/-! ## C43 -/

/-- C43: if the constraints of `check_carry_to_zero` hold, the integer with the given limbs is divisible by
`2 ^ (n · #limbs)`, provided the limbs and the carries together cannot wrap around the native field. -/
theorem C43_check_carry_to_zero {a : OvInt p} {u : Unit} {xs : List ℤ} {bnd : ℤ} (hL : RangeOk p L) (hi : Inv s)
    (hrun : checkCarryToZero L a n (2 ^ n) s = some (u, s')) (hw : Sat (RangeTable p L) s' w)
    (hfit : bnd + (2 ^ n + 1) * 2 ^ carryBits L a.maxBits n < p)
    (hxs : a.limbs.map (at' w) = xs.map (fun x : ℤ => (x : ZMod p))) (hb : ∀ x ∈ xs, |x| ≤ bnd) :
    (2 : ℤ) ^ (n * a.limbs.length) ∣ limbVal n xs := (checkCarryToZero_sound hL a n bnd).run hi hrun hw hfit xs hxs hb

/-! ## C44, C45 -/

/-- C44: for a chip built by `FpChip::new` with suitable parameters, `carry_mod` returns a properly ranged integer, below the
next power of two of the modulus, congruent to the represented integer. -/
theorem C44_carry_mod {m : ℕ} {c : FpChip p} (hpar : FpParams p L m n k) (hc : FpChip.new L m n k = some c) (hi : Inv s)
    (hrun : carryModCrt c a s = some (r, s')) (hw : Sat (RangeTable p L) s' w) (hfit : CarryFits c a.trunc.maxBits)
    (ha : CrtOk n k w a X) (hX : |X| ≤ 2 ^ (n * k + numBits p - 3)) :
    r.value = a.value % m ∧ ∃ R : ℕ, ProperOk n k w r R ∧ R < 2 ^ Nat.size m ∧ (R : ℤ) ≡ X [ZMOD m] := by
  have ok := hpar.ok hc
  obtain ⟨rfl, rfl, rfl, rfl, -⟩ := hpar.fields hc
  have h := (carryModCrt_sound ok.ok ok.L ok.carry a).run hi hrun hw
  exact ⟨h.1, h.2 hfit X ha (hX.trans (by exact_mod_cast crtMax_ge ok.carry.field pow_numBits_le))⟩

/-- C45: if the constraints of `check_carry_mod_to_zero` hold, the modulus divides the represented integer. -/
theorem C45_check_carry_mod_to_zero {m : ℕ} {c : FpChip p} {u : Unit} (hpar : FpParams p L m n k)
    (hc : FpChip.new L m n k = some c) (hi : Inv s) (hrun : checkCarryModToZeroCrt c a s = some (u, s'))
    (hw : Sat (RangeTable p L) s' w) (hfit : CarryZeroFits c a.trunc.maxBits) (ha : CrtOk n k w a X)
    (hX : |X| ≤ 2 ^ (n * k + numBits p - 3)) : (m : ℤ) ∣ X := by
  have ok := hpar.ok hc
  obtain ⟨rfl, rfl, rfl, rfl, -⟩ := hpar.fields hc
  exact Int.modEq_zero_iff_dvd.1 ((checkCarryModToZeroCrt_sound ok.ok ok.L ok.carry a).run hi hrun hw hfit X ha hX)

/-! ## C46: predicates -/

variable {A B : ℕ} {z : AV p}

theorem C46_big_is_zero (hi : Inv s) (hrun : bigIsZeroPositive a.trunc s = some (z, s')) (hw : Sat tbl s' w)
    (ha : ProperOk n k w a A) : at' w z = if A = 0 then 1 else 0 :=
  (bigIsZeroPositive_proper (n := n) (k := k) a).run hi hrun hw A ha

/-- `big_is_zero::assign` on arbitrary limbs. -/
theorem C46_big_is_zero_limbs {as : List (AV p)} (hi : Inv s) (hrun : bigIsZero as s = some (z, s')) (hw : Sat tbl s' w) :
    at' w z = if ∀ a ∈ as, at' w a = 0 then 1 else 0 := (bigIsZero_sound as).run hi hrun hw

theorem C46_big_is_equal (hp : 2 ^ n ≤ p) (hi : Inv s) (hrun : bigIsEqual a.trunc.limbs b.trunc.limbs s = some (z, s'))
    (hw : Sat tbl s' w) (ha : ProperOk n k w a A) (hb : ProperOk n k w b B) : at' w z = if A = B then 1 else 0 :=
  (bigIsEqual_proper (n := n) (k := k) hp a b).run hi hrun hw A B ha hb

theorem C46_big_less_than (hL : RangeOk p L) (hok : SubOk p L n) (hi : Inv s)
    (hrun : bigLessThan L n (2 ^ n) a.trunc.limbs b.trunc.limbs s = some (z, s')) (hw : Sat (RangeTable p L) s' w)
    (ha : ProperOk n k w a A) (hb : ProperOk n k w b B) : at' w z = if A < B then 1 else 0 := by
  have h := (bigLessThan_sound hL hok a.trunc.limbs b.trunc.limbs).run hi hrun hw
  obtain ⟨das, -, -, a3, a4, rfl, -⟩ := ha
  obtain ⟨dbs, -, -, b3, b4, rfl, -⟩ := hb
  exact h das dbs a3 b3 a4 b4

/-- `sub` with borrow: the borrow is the comparison; without borrow the result is the properly ranged difference. -/
theorem C46_sub (hL : RangeOk p L) (hok : SubOk p L n) (hi : Inv s) (hrun : subCrt L n (2 ^ n) a b s = some ((r, z), s'))
    (hw : Sat (RangeTable p L) s' w) (ha : ProperOk n k w a A) (hb : ProperOk n k w b B) :
    at' w z = (if A < B then 1 else 0) ∧ (B ≤ A → ProperOk n k w r (A - B)) ∧ CrtOk n k w r ((A : ℤ) - B) :=
  ((subCrt_sound (k := k) hL hok a b).run hi hrun hw).2 A B ha hb

theorem C46_big_is_even (hL : RangeOk p L) (hp : 2 ^ n ≤ p) (hn : 1 ≤ n) (hi : Inv s)
    (hrun : bigIsEvenPositive L n a.trunc s = some (z, s')) (hw : Sat (RangeTable p L) s' w) (ha : ProperOk n k w a A) :
    at' w z = if A % 2 = 0 then 1 else 0 := (bigIsEven_sound (k := k) hL hp hn a).run hi hrun hw A ha

/-! ## C59: an honest prover can satisfy the constraints -/

/-- C59: the honest run of the operations without carries succeeds, its constraints hold and it represents the right integer. -/
theorem C59_no_carry {c : ℤ} {kl : ℕ} (hg : Good tbl ext s) (ha : CrtW n k ext s a X) (hb : CrtW n k ext s b Y)
    (hc : |c| < 2 ^ 63) (hk : k ≤ 2 ^ kl) :
    Completes tbl ext s (addNoCarryCrt a b) (fun r s' => CrtW n k ext s' r (X + Y)) ∧
    Completes tbl ext s (subNoCarryCrt a b) (fun r s' => CrtW n k ext s' r (X - Y)) ∧
    Completes tbl ext s (mulNoCarryCrt a b kl) (fun r s' => CrtW n k ext s' r (X * Y)) ∧
    Completes tbl ext s (scalarMulNoCarryCrt a c) (fun r s' => CrtW n k ext s' r (X * c)) ∧
    Completes tbl ext s (scalarMulAddNoCarryCrt a b c) (fun r s' => CrtW n k ext s' r (X * c + Y)) :=
  ⟨((addNoCarryCrt_cmp ha hb).weaken fun _ _ h => h.2).run hg, ((subNoCarryCrt_cmp ha hb).weaken fun _ _ h => h.2).run hg,
   ((mulNoCarryCrt_cmp hk ha hb).weaken fun _ _ h => h.2).run hg, ((scalarMulNoCarryCrt_cmp ha hc).weaken fun _ _ h => h.2).run hg,
   ((scalarMulAddNoCarryCrt_cmp ha hb hc).weaken fun _ _ h => h.2).run hg⟩

/-- The further conditions for completeness: at least two limbs, and the modulus reaches the top limb. -/
theorem FpParams.carryCmp {m : ℕ} {c : FpChip p} (hpar : FpParams p L m n k) (hc : FpChip.new L m n k = some c) (hk : 2 ≤ k)
    (htop : n * (k - 1) ≤ Nat.size m) : CarryCmp c := by
  have ok := hpar.ok hc
  obtain ⟨rfl, rfl, rfl, rfl, -⟩ := hpar.fields hc
  exact ⟨ok.carry, ok.p32, hk, htop⟩

theorem carryModParams_cmp {m : ℕ} {c : FpChip p} (hpar : FpParams p L m n k) (hc : FpChip.new L m n k = some c) (hk : 2 ≤ k)
    (htop : n * (k - 1) ≤ Nat.size m) (hfit : CarryFits c a.trunc.maxBits)
    (ha : CrtW n k ext s a X) (hX : |X| < 2 ^ (n * k + numBits p - 3)) :
    Cmp (RangeTable p L) ext s (carryModCrt c a) (fun r s' => ProperW n k ext s' r (X % m).toNat) := by
  have ok := hpar.ok hc
  have oc := hpar.carryCmp hc hk htop
  obtain ⟨rfl, rfl, rfl, rfl, -⟩ := hpar.fields hc
  exact carryModCrt_cmp ok.ok ok.L oc hfit ha hX

theorem C59_carry_mod {m : ℕ} {c : FpChip p} (hpar : FpParams p L m n k) (hc : FpChip.new L m n k = some c) (hk : 2 ≤ k)
    (htop : n * (k - 1) ≤ Nat.size m) (hg : Good (RangeTable p L) ext s) (hfit : CarryFits c a.trunc.maxBits)
    (ha : CrtW n k ext s a X) (hX : |X| < 2 ^ (n * k + numBits p - 3)) :
    Completes (RangeTable p L) ext s (carryModCrt c a) (fun r s' => ProperW n k ext s' r (X % m).toNat) :=
  (carryModParams_cmp hpar hc hk htop hfit ha hX).run hg

theorem C59_check_carry_mod_to_zero {m : ℕ} {c : FpChip p} (hpar : FpParams p L m n k) (hc : FpChip.new L m n k = some c)
    (hk : 2 ≤ k) (htop : n * (k - 1) ≤ Nat.size m) (hg : Good (RangeTable p L) ext s)
    (hfit : CarryZeroFits c a.trunc.maxBits) (hbits : a.trunc.maxBits + 2 ≤ 3 * n)
    (ha : CrtW n k ext s a X) (hX : |X| < 2 ^ (n * k + numBits p - 3)) (hdvd : (m : ℤ) ∣ X) :
    Completes (RangeTable p L) ext s (checkCarryModToZeroCrt c a) (fun _ _ => True) := by
  have ok := hpar.ok hc
  have oc := hpar.carryCmp hc hk htop
  obtain ⟨rfl, rfl, rfl, rfl, -⟩ := hpar.fields hc
  exact (checkCarryModToZeroCrt_cmp ok.ok ok.L oc hfit hbits ha hX hdvd).run hg

theorem C59_predicates (hL : RangeOk p L) (hok : SubOk p L n) (hk : 1 ≤ k) (hn : 1 ≤ n) (hkp : n + Nat.log2 k < capacity p)
    (hg : Good (RangeTable p L) ext s) (ha : ProperW n k ext s a A) (hb : ProperW n k ext s b B) :
    Completes (RangeTable p L) ext s (bigIsZeroPositive a.trunc) (fun z s' => Con ext s' z (if A = 0 then 1 else 0)) ∧
    Completes (RangeTable p L) ext s (bigIsEqual a.trunc.limbs b.trunc.limbs) (fun z s' => Con ext s' z (if A = B then 1 else 0)) ∧
    Completes (RangeTable p L) ext s (bigLessThan L n (2 ^ n) a.trunc.limbs b.trunc.limbs)
      (fun z s' => Con ext s' z (if A < B then 1 else 0)) ∧
    Completes (RangeTable p L) ext s (bigIsEvenPositive L n a.trunc) (fun z s' => Con ext s' z (if A % 2 = 0 then 1 else 0)) ∧
    Completes (RangeTable p L) ext s (subCrt L n (2 ^ n) a b) (fun r s' => CrtW n k ext s' r.1 ((A : ℤ) - B) ∧
      (B ≤ A → ProperW n k ext s' r.1 (A - B)) ∧ Con ext s' r.2 (if A < B then 1 else 0)) := by
  have hp : 2 ^ n ≤ p := pow_capacity_le (by omega)
  exact ⟨(bigIsZeroPositive_cmp hk hkp ha).run hg, (bigIsEqual_cmp hk hp ha hb).run hg, (bigLessThan_cmp hL hok hk ha hb).run hg,
    (bigIsEven_cmp hL hk hp hn ha).run hg, (subCrt_cmp hL hok hk ha hb).run hg⟩

/-! ## A concrete case: secp256k1's base field over BN254 `Fr` -/

/-- Multiply the constants 5 and `x` and reduce, with the secp256k1 chip. -/
def secpMul (x : ℕ) : M bn254R (CrtInt bn254R) := do
  let a ← assignFixed 5 3 88
  let b ← assignFixed x 3 88
  let m ← mulNoCarryCrt a b 2
  carryModCrt (fpChip bn254R 16 secpP 88 3) m

/-- The hypotheses of C42, C44 and C59 are met: the honest run of `5 · x mod secpP` succeeds and yields the residue. -/
theorem secpMul_completes (ext : Cell → ZMod bn254R) (x : ℕ) (hx : x < 2 ^ 256) :
    Completes (RangeTable bn254R 16) ext (Ctx.new false 0 "" 0 [] []) (secpMul x)
      (fun r s' => ProperW 88 3 ext s' r (5 * x % secpP)) := by
  refine Cmp.run ?_ (good_new 0 "" 0)
  have hp : bn254R ≤ 256 ^ 32 := by decide +kernel
  have hx' : x < 2 ^ (88 * 3) := hx.trans_le (Nat.pow_le_pow_right (by norm_num) (by norm_num))
  refine Cmp.bind (assignFixed_cmp (n := 88) (k := 3) (value := 5) hp (by norm_num) (by norm_num) (by norm_num)
    (lt_of_lt_of_le (show 5 < 2 ^ 3 by norm_num) (Nat.pow_le_pow_right (by norm_num) (by norm_num)))) fun a s1 _ ha => ?_
  refine Cmp.bind (assignFixed_cmp (n := 88) (k := 3) (value := x) hp (by norm_num) (by norm_num) (by norm_num) hx') fun b s2 e2 hb => ?_
  refine Cmp.bind (mulNoCarryCrt_cmp (n := 88) (k := 3) (kl := 2) (by norm_num) (ha.mono e2).crt hb.crt) fun m s3 _ hm => ?_
  have ma : a.trunc.maxBits = 88 := by obtain ⟨_, _, h, _⟩ := ha.ok; exact h
  have mb : b.trunc.maxBits = 88 := by obtain ⟨_, _, h, _⟩ := hb.ok; exact h
  have hc := fpParams_secpP.new_eq
  have hA : |((5 : ℕ) : ℤ) * (x : ℕ)| < 2 ^ (88 * 3 + numBits bn254R - 3) := by
    rw [numBits, size_bn254R, abs_of_nonneg (by positivity)]
    calc ((5 : ℕ) : ℤ) * (x : ℕ) ≤ 5 * 2 ^ 256 := by
          have : (x : ℤ) ≤ 2 ^ 256 := by exact_mod_cast hx.le
          push_cast; linarith
      _ < 2 ^ 3 * 2 ^ 256 := by have : (0 : ℤ) < 2 ^ 256 := by positivity
                                linarith
      _ = 2 ^ 259 := by rw [← pow_add]
      _ ≤ _ := pow_le_pow_right₀ (by norm_num) (by norm_num)
  refine (carryModParams_cmp fpParams_secpP hc (by norm_num) (by rw [size_secpP]; norm_num)
    (carryFits_88_3 _ _ (by rw [hm.1, ma, mb]; decide)) hm.2 hA).weaken ?_
  intro r s' h
  have e : (((5 : ℕ) : ℤ) * (x : ℕ) % (secpP : ℕ)).toNat = 5 * x % secpP := by
    rw [← Nat.cast_mul, ← Int.natCast_mod, Int.toNat_natCast]
  exact e ▸ h

theorem secp_m1_lt : secpP - 1 < 2 ^ 256 := by decide +kernel
theorem secp_5_m1 : 5 * (secpP - 1) % secpP = secpP - 5 := by decide +kernel

example (ext : Cell → ZMod bn254R) : Completes (RangeTable bn254R 16) ext (Ctx.new false 0 "" 0 [] []) (secpMul (secpP - 1))
    (fun r s' => ProperW 88 3 ext s' r (secpP - 5)) := by
  rw [← secp_5_m1]
  exact secpMul_completes ext (secpP - 1) secp_m1_lt

end H2
