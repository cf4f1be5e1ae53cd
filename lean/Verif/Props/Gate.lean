import Verif.Core.Run
import Verif.Gate.Sound
import Verif.Gate.SoundList
import Verif.Gate.SoundBits
import Verif.Gate.Complete
import Verif.Gate.CompleteList
import Verif.Gate.CompleteBits
import Verif.Gate.Lagrange

/-!
# Properties C01, C02, C04 - C15

Reading guide.  `Inv s`: `s` is a keygen-mode context (`inv_new`: every fresh context; preserved by every
routine).  `Sat tbl s w`: the arbitrary assignment `w` satisfies every constraint recorded in `s`.
`QOk w q x`: `x` is a value the input `q` may take under `w` (`Existing a`: the value of `a`'s cell,
`Constant c`: `c`, `Witness`: anything).  `at' w r`: the value `w` gives to the cell of `r`.
`Good tbl ext s`: honest context; `QCon ext s q x` / `Con ext s a x`: the honest value of `q` / `a` is `x`;
`Completes`: the run does not panic and the honest assignment satisfies all constraints.
-/

set_option autoImplicit false
namespace H2
variable {p : ℕ} [Fact p.Prime] {tbl : ZMod p → Prop} {ext : Cell → ZMod p} {s s' : Ctx p}
  {w : Cell → ZMod p}

/-! ## C01 -/

/-- `m` only adds: earlier advice values are kept, no selector is cleared, no constraint is dropped, and
any assignment satisfying the new circuit satisfies the old one. -/
def OnlyAdds {α : Type} (m : M p α) : Prop :=
  ∀ (s s' : Ctx p) (r : α), Inv s → m s = some (r, s') →
    Inv s' ∧ s.advice <+: s'.advice ∧
    (∀ i : ℕ, s.selector[i]? = some true → s'.selector[i]? = some true) ∧
    s.eqs <+: s'.eqs ∧ s.consts <+: s'.consts ∧ s.lookups <+: s'.lookups ∧
    ∀ (tbl : ZMod p → Prop) (w : Cell → ZMod p), Sat tbl s' w → Sat tbl s w

omit [Fact p.Prime] in
theorem onlyAdds_of_snd {α : Type} {m : M p α}
    {Q : Ctx p → (Cell → ZMod p) → α → Ctx p → Prop}
    (h : ∀ s, Snd (fun _ => True) s m (Q s)) : OnlyAdds m := by
  intro s s' r hi hr
  obtain ⟨h1, h2, _⟩ := h s hi r s' hr
  exact ⟨h1, h2.advice, h2.sel, h2.eqs, h2.consts, h2.lookups, fun tbl w hw => hw.mono h2⟩

theorem assignWitnesses_snd (ws : List (ZMod p)) (s : Ctx p) :
    Snd tbl s (assignWitnesses ws) (fun _ rs s' => rs.length = ws.length ∧
      ∀ i < ws.length, (rs[i]?.bind AV.cell) = some (s.cellAt (s.advice.length + i)) ∧
        s'.advice[s.advice.length + i]? = some (.trivial (ws.getD i 0))) := by
  intro hi r s' h
  obtain ⟨_, s1, h1, h2⟩ := bind_some.1 h
  obtain ⟨a, b, c, _⟩ := assignRegion_spec (tbl := tbl) hi h1
  simp only [Option.some.injEq, Prod.mk.injEq] at h2
  obtain ⟨rfl, rfl⟩ := h2
  refine ⟨a, b, fun w _ => ⟨by simp [c], ?_⟩⟩
  intro i hi'
  have : i < (s1.advice.drop s.advice.length).length := by simp [c, hi']
  refine ⟨?_, ?_⟩
  · rw [List.getElem?_mapIdx, List.getElem?_eq_getElem this]
    simp [a.wgo, b.cellAt]
  · rw [c, List.getElem?_append_right (by omega), Nat.add_sub_cancel_left]
    simp [hi', QCell.assigned]

/-- C01: every public `Context` operation only ever adds constraints. -/
theorem C01_context_only_adds :
    (∀ q : QCell p, OnlyAdds (assignCell q)) ∧
    (∀ (qs : List (QCell p)) (gs : List ℤ), OnlyAdds (assignRegion qs gs)) ∧
    (∀ (qs : List (QCell p)) (gs : List ℤ), OnlyAdds (assignRegionLast qs gs)) ∧
    (∀ (qs : List (QCell p)) (gs : List ℤ) (eo : List (ℕ × ℕ)) (ex : List (Cell × ℕ)),
      OnlyAdds (assignRegionSmart qs gs eo ex)) ∧
    (∀ ws : List (ZMod p), OnlyAdds (assignWitnesses ws)) ∧
    (∀ x : ZMod p, OnlyAdds (loadWitness x)) ∧ (∀ x : ZMod p, OnlyAdds (loadConstant x)) ∧
    (∀ xs : List (ZMod p), OnlyAdds (loadConstants xs)) ∧ OnlyAdds (loadZero : M p (AV p)) ∧
    (∀ a b : AV p, OnlyAdds (constrainEqual a b)) ∧
    (∀ (a : AV p) (c : ZMod p), OnlyAdds (assertIsConst a c)) ∧
    (∀ a : AV p, OnlyAdds (addCellToLookup a)) := by
  refine ⟨fun q => onlyAdds_of_snd fun s => assignCell_snd q,
    fun qs gs => onlyAdds_of_snd fun s => assignRegion_snd qs gs, fun qs gs => ?_,
    fun qs gs eo ex => onlyAdds_of_snd fun s => assignRegionSmart_snd qs gs eo ex,
    fun ws => onlyAdds_of_snd fun s => assignWitnesses_snd ws s,
    fun x => onlyAdds_of_snd fun s => loadWitness_sound x s,
    fun x => onlyAdds_of_snd fun s => loadConstant_sound x s,
    fun x => onlyAdds_of_snd fun s => loadConstants_sound x s,
    onlyAdds_of_snd fun s => loadZero_sound s,
    fun a b => onlyAdds_of_snd fun s => constrainEqual_snd a b,
    fun a b => onlyAdds_of_snd fun s => assertIsConst_sound a b s,
    fun a => onlyAdds_of_snd fun s => addCellToLookup_sound a s⟩
  refine onlyAdds_of_snd (Q := fun _ _ _ _ => True) fun s => ?_
  refine Snd.bind (assignRegion_snd qs gs) fun _ s1 _ => ?_
  exact (lastM_snd).weaken fun _ _ _ _ _ => trivial

/-- A region really adds gates: the constant-true claim would not need the run. -/
example : ∃ r s', assignRegionLast [.witness 3, .constant 1, .witness 4, .witness 7] [0] ctx0
    = some (r, s') ∧ s'.selector = [true, false, false, false] ∧ s'.consts.length = 1 :=
  ⟨_, _, rfl, rfl, rfl⟩

/-! ## C02 -/

/-- C02: in every satisfying assignment, each new cell of a region holds what its `QuantumCell` says, and
each enabled gate offset enforces the vertical gate. -/
theorem C02_region (qs : List (QCell p)) (gs : List ℤ) (hi : Inv s) {u : Unit}
    (hrun : assignRegion qs gs s = some (u, s')) (hw : Sat tbl s' w) :
    (∀ (i : ℕ) (q : QCell p), qs[i]? = some q → QOk w q (w (s.cellAt (s.advice.length + i)))) ∧
    (∀ o ∈ gs, ∃ r : ℕ, (r : ℤ) = s.advice.length + o ∧
      w (s.cellAt r) + w (s.cellAt (r + 1)) * w (s.cellAt (r + 2)) = w (s.cellAt (r + 3))) := by
  obtain ⟨_, b, _, _, hsel, hpos, f⟩ := assignRegion_spec (tbl := tbl) hi hrun
  obtain ⟨h1, h2⟩ := f w hw
  refine ⟨fun i q hq => ?_, fun o ho => ?_⟩
  · have := h1.get i q hq
    rwa [zero_add, rowV_nat] at this
  · obtain ⟨r, hr⟩ := Int.eq_ofNat_of_zero_le (hpos o ho)
    refine ⟨r, hr.symm, ?_⟩
    have := hw.gate r ((hsel r).2 (Or.inr ⟨o, ho, hr⟩))
    simpa [GateAt, b.cellAt] using this

/-- C02, the other half: a region of honest cells never panics, writes exactly the given values and the
honest assignment satisfies it as soon as the gates hold on the values. -/
theorem C02_region_complete {qs : List (QCell p)} {gs : List ℤ} {vs : List (ZMod p)}
    (hg : Good tbl ext s) (hq : QsCon ext s qs vs) (hgate : ∀ o ∈ gs, GateL vs o) :
    Completes tbl ext s (assignRegion qs gs)
      (fun _ s' => s'.advice.map Assigned.eval = s.advice.map Assigned.eval ++ vs) :=
  ((assignRegion_cmp vs hq hgate).weaken fun _ s' h => by
    rw [h, List.map_append, hq.evals]).run hg

example : Completes (fun _ : ZMod 101 => True) (fun _ => 0) ctx0
    (assignRegion [.witness 3, .constant 1, .witness 4, .witness 7] [0])
    (fun _ s' => s'.advice.map Assigned.eval = [3, 1, 4, 7]) :=
  C02_region_complete (vs := [3, 1, 4, 7]) good0 (.cons rfl (.cons rfl (.cons rfl (.cons rfl .nil))))
    (by simp [GateL]; decide)

/-! ## C04 / C05 -/

/-- The field element of a boolean. -/
def B (b : Bool) : ZMod p := if b then 1 else 0

section C04
variable {r : AV p} (hi : Inv s)
include hi

theorem C04_add {a b : QCell p} (hrun : add a b s = some (r, s')) (hw : Sat tbl s' w) :
    ∃ x y, QOk w a x ∧ QOk w b y ∧ at' w r = x + y := (add_sound a b).run hi hrun hw
theorem C04_inc {a : QCell p} (hrun : inc a s = some (r, s')) (hw : Sat tbl s' w) :
    ∃ x, QOk w a x ∧ at' w r = x + 1 := (inc_sound a).run hi hrun hw
theorem C04_sub {a b : QCell p} (hrun : sub a b s = some (r, s')) (hw : Sat tbl s' w) :
    ∃ x y, QOk w a x ∧ QOk w b y ∧ at' w r = x - y := (sub_sound a b).run hi hrun hw
theorem C04_dec {a : QCell p} (hrun : dec a s = some (r, s')) (hw : Sat tbl s' w) :
    ∃ x, QOk w a x ∧ at' w r = x - 1 := (dec_sound a).run hi hrun hw
theorem C04_sub_mul {a b c : QCell p} (hrun : subMul a b c s = some (r, s')) (hw : Sat tbl s' w) :
    ∃ x y z, QOk w a x ∧ QOk w b y ∧ QOk w c z ∧ at' w r = x - y * z := (subMul_sound a b c).run hi hrun hw
theorem C04_neg {a : QCell p} (hrun : neg a s = some (r, s')) (hw : Sat tbl s' w) :
    ∃ x, QOk w a x ∧ at' w r = -x := (neg_sound a).run hi hrun hw
theorem C04_mul {a b : QCell p} (hrun : mul a b s = some (r, s')) (hw : Sat tbl s' w) :
    ∃ x y, QOk w a x ∧ QOk w b y ∧ at' w r = x * y := (mul_sound a b).run hi hrun hw
theorem C04_mul_add {a b c : QCell p} (hrun : mulAdd a b c s = some (r, s')) (hw : Sat tbl s' w) :
    ∃ x y z, QOk w a x ∧ QOk w b y ∧ QOk w c z ∧ at' w r = x * y + z := (mulAdd_sound a b c).run hi hrun hw
theorem C04_mul_not {a b : QCell p} (hrun : mulNot a b s = some (r, s')) (hw : Sat tbl s' w) :
    ∃ x y, QOk w a x ∧ QOk w b y ∧ at' w r = (1 - x) * y := (mulNot_sound a b).run hi hrun hw
/-- `div_unsafe`: `out * b = a`; when `b ≠ 0` this is the quotient. -/
theorem C04_div_unsafe {a b : QCell p} (hrun : divUnsafe a b s = some (r, s')) (hw : Sat tbl s' w) :
    ∃ x y, QOk w a x ∧ QOk w b y ∧ at' w r * y = x ∧ (y ≠ 0 → at' w r = x / y) := by
  obtain ⟨x, y, h1, h2, h3⟩ := (divUnsafe_sound a b).run hi hrun hw
  exact ⟨x, y, h1, h2, h3, fun hy => by rw [eq_div_iff hy, h3]⟩
theorem C04_and {a b : QCell p} (hrun : and a b s = some (r, s')) (hw : Sat tbl s' w) :
    ∃ x y, QOk w a x ∧ QOk w b y ∧ at' w r = x * y ∧
      ∀ ba bb, x = B ba → y = B bb → at' w r = B (ba && bb) := by
  obtain ⟨x, y, h1, h2, h3⟩ := (and_sound a b).run hi hrun hw
  refine ⟨x, y, h1, h2, h3, ?_⟩
  rintro ba bb rfl rfl
  cases ba <;> cases bb <;> simp [h3, B]
theorem C04_or {a b : QCell p} (hrun : or a b s = some (r, s')) (hw : Sat tbl s' w) :
    ∃ x y, QOk w a x ∧ QOk w b y ∧ at' w r = x + y - x * y ∧
      ∀ ba bb, x = B ba → y = B bb → at' w r = B (ba || bb) := by
  obtain ⟨x, y, h1, h2, h3⟩ := (or_sound a b).run hi hrun hw
  refine ⟨x, y, h1, h2, h3, ?_⟩
  rintro ba bb rfl rfl
  cases ba <;> cases bb <;> simp [h3, B]
theorem C04_xor {a b : QCell p} (hrun : xor a b s = some (r, s')) (hw : Sat tbl s' w) :
    ∃ x y, QOk w a x ∧ QOk w b y ∧ at' w r = x + y - 2 * x * y ∧
      ∀ ba bb, x = B ba → y = B bb → at' w r = B (ba ^^ bb) := by
  obtain ⟨x, y, h1, h2, h3⟩ := (xor_sound a b).run hi hrun hw
  refine ⟨x, y, h1, h2, h3, ?_⟩
  rintro ba bb rfl rfl
  cases ba <;> cases bb <;> simp [h3, B]; norm_num
theorem C04_not {a : QCell p} (hrun : not a s = some (r, s')) (hw : Sat tbl s' w) :
    ∃ x, QOk w a x ∧ at' w r = 1 - x ∧ ∀ ba, x = B ba → at' w r = B (!ba) := by
  obtain ⟨x, h1, h3⟩ := (not_sound a).run hi hrun hw
  refine ⟨x, h1, h3, ?_⟩
  rintro ba rfl
  cases ba <;> simp [h3, B]
theorem C04_select {a b c : QCell p} (hrun : select a b c s = some (r, s')) (hw : Sat tbl s' w) :
    ∃ x y z, QOk w a x ∧ QOk w b y ∧ QOk w c z ∧ at' w r = (x - y) * z + y ∧
      ∀ sel, z = B sel → at' w r = if sel then x else y := by
  obtain ⟨x, y, z, h1, h2, h2', h3⟩ := (select_sound a b c).run hi hrun hw
  refine ⟨x, y, z, h1, h2, h2', h3, ?_⟩
  rintro sel rfl
  cases sel <;> simp [h3, B]
theorem C04_or_and {a b c : QCell p} (hrun : orAnd a b c s = some (r, s')) (hw : Sat tbl s' w) :
    ∃ x y z, QOk w a x ∧ QOk w b y ∧ QOk w c z ∧ at' w r = x + y * z - x * (y * z) ∧
      ∀ ba bb bc, x = B ba → y = B bb → z = B bc → at' w r = B (ba || (bb && bc)) := by
  obtain ⟨x, y, z, h1, h2, h2', h3⟩ := (orAnd_sound a b c).run hi hrun hw
  refine ⟨x, y, z, h1, h2, h2', h3, ?_⟩
  rintro ba bb bc rfl rfl rfl
  cases ba <;> cases bb <;> cases bc <;> simp [h3, B]
end C04

section C05
variable (hg : Good tbl ext s) {a b c : QCell p} {x y z : ZMod p}
  (ha : QCon ext s a x)
include hg ha

theorem C05_add (hb : QCon ext s b y) : Completes tbl ext s (add a b) (fun r s' => Con ext s' r (x + y)) :=
  (add_cmp ha hb).run hg
theorem C05_inc : Completes tbl ext s (inc a) (fun r s' => Con ext s' r (x + 1)) := (inc_cmp ha).run hg
theorem C05_sub (hb : QCon ext s b y) : Completes tbl ext s (sub a b) (fun r s' => Con ext s' r (x - y)) :=
  (sub_cmp ha hb).run hg
theorem C05_dec : Completes tbl ext s (dec a) (fun r s' => Con ext s' r (x - 1)) := (dec_cmp ha).run hg
theorem C05_sub_mul (hb : QCon ext s b y) (hc : QCon ext s c z) :
    Completes tbl ext s (subMul a b c) (fun r s' => Con ext s' r (x - y * z)) := (subMul_cmp ha hb hc).run hg
theorem C05_neg : Completes tbl ext s (neg a) (fun r s' => Con ext s' r (-x)) := (neg_cmp ha).run hg
theorem C05_mul (hb : QCon ext s b y) : Completes tbl ext s (mul a b) (fun r s' => Con ext s' r (x * y)) :=
  (mul_cmp ha hb).run hg
theorem C05_mul_add (hb : QCon ext s b y) (hc : QCon ext s c z) :
    Completes tbl ext s (mulAdd a b c) (fun r s' => Con ext s' r (x * y + z)) := (mulAdd_cmp ha hb hc).run hg
theorem C05_mul_not (hb : QCon ext s b y) :
    Completes tbl ext s (mulNot a b) (fun r s' => Con ext s' r ((1 - x) * y)) := (mulNot_cmp ha hb).run hg
theorem C05_div_unsafe (hb : QCon ext s b y) (hy : y ≠ 0) :
    Completes tbl ext s (divUnsafe a b) (fun r s' => Con ext s' r (x / y)) := (divUnsafe_cmp ha hb hy).run hg
theorem C05_and (hb : QCon ext s b y) :
    Completes tbl ext s (and a b) (fun r s' => Con ext s' r (x * y)) := (and_cmp ha hb).run hg
theorem C05_or (hb : QCon ext s b y) :
    Completes tbl ext s (or a b) (fun r s' => Con ext s' r (x + y - x * y)) := (or_cmp ha hb).run hg
theorem C05_xor (hb : QCon ext s b y) :
    Completes tbl ext s (xor a b) (fun r s' => Con ext s' r (x + y - 2 * x * y)) := (xor_cmp ha hb).run hg
theorem C05_not : Completes tbl ext s (not a) (fun r s' => Con ext s' r (1 - x)) := (not_cmp ha).run hg
theorem C05_select (hb : QCon ext s b y) (hc : QCon ext s c z) :
    Completes tbl ext s (select a b c) (fun r s' => Con ext s' r ((x - y) * z + y)) :=
  (select_cmp ha hb hc).run hg
theorem C05_or_and (hb : QCon ext s b y) (hc : QCon ext s c z) :
    Completes tbl ext s (orAnd a b c) (fun r s' => Con ext s' r (y * z + x - y * z * x)) :=
  (orAnd_cmp ha hb hc).run hg
end C05

/-- Concrete case for C04/C05: `mul_add(3, 4, 5) = 17` in the field of 101 elements. -/
example : Completes (fun _ : ZMod 101 => True) (fun _ => 0) ctx0
    (mulAdd (.witness 3) (.witness 4) (.constant 5)) (fun r s' => Con (fun _ => 0) s' r 17) :=
  C05_mul_add (x := 3) (y := 4) (z := 5) good0 rfl rfl rfl

/-! ## C06, C07 -/

theorem C06_is_zero {a r : AV p} (hi : Inv s) (hrun : isZero a s = some (r, s')) (hw : Sat tbl s' w) :
    at' w r = if at' w a = 0 then 1 else 0 := (isZero_sound a).run hi hrun hw
theorem C06_is_equal {a b : QCell p} {r : AV p} (hi : Inv s) (hrun : isEqual a b s = some (r, s'))
    (hw : Sat tbl s' w) : ∃ x y, QOk w a x ∧ QOk w b y ∧ at' w r = if x = y then 1 else 0 :=
  (isEqual_sound a b).run hi hrun hw
theorem C06_is_zero_complete {a : AV p} {x : ZMod p} (hg : Good tbl ext s) (ha : Con ext s a x) :
    Completes tbl ext s (isZero a) (fun r s' => Con ext s' r (if x = 0 then 1 else 0)) :=
  (isZero_cmp ha).run hg
theorem C06_is_equal_complete {a b : QCell p} {x y : ZMod p} (hg : Good tbl ext s)
    (ha : QCon ext s a x) (hb : QCon ext s b y) :
    Completes tbl ext s (isEqual a b) (fun r s' => Con ext s' r (if x = y then 1 else 0)) :=
  (isEqual_cmp ha hb).run hg

example : Completes (fun _ : ZMod 101 => True) (fun _ => 0) ctx0
    (isEqual (.witness 3) (.constant 5)) (fun r s' => Con (fun _ => 0) s' r 0) :=
  C06_is_equal_complete (x := 3) (y := 5) good0 rfl rfl

/-- C07: `assert_bit` is satisfied only by 0/1 ... -/
theorem C07_assert_bit {a : AV p} {u : Unit} (hi : Inv s) (hrun : assertBit a s = some (u, s'))
    (hw : Sat tbl s' w) : at' w a = 0 ∨ at' w a = 1 := (assertBit_sound a).run hi hrun hw
/-- ... and by every honest 0/1. -/
theorem C07_assert_bit_complete {a : AV p} {x : ZMod p} (hg : Good tbl ext s) (ha : Con ext s a x)
    (hx : x = 0 ∨ x = 1) : Completes tbl ext s (assertBit a) (fun _ _ => True) :=
  (assertBit_cmp ha hx).run hg
theorem C07_assert_is_const {a : AV p} {c : ZMod p} {u : Unit} (hi : Inv s)
    (hrun : assertIsConst a c s = some (u, s')) (hw : Sat tbl s' w) : at' w a = c :=
  (assertIsConst_sound a c).run hi hrun hw
theorem C07_assert_is_const_complete {a : AV p} {c : ZMod p} (hg : Good tbl ext s)
    (ha : Con ext s a c) : Completes tbl ext s (assertIsConst a c) (fun _ _ => True) :=
  ((assertIsConst_cmp ha.conF).weaken fun _ _ _ => trivial).run hg

/-- A run of `load_witness(1); assert_bit` exists from the empty context. -/
example : Completes (fun _ : ZMod 101 => True) (fun _ => 0) ctx0
    (do let a ← loadWitness 1; assertBit a) (fun _ _ => True) :=
  (Cmp.bind (loadWitness_cmp 1) fun _ _ _ h => assertBit_cmp h (Or.inr rfl)).run good0

/-! ## C08 / C09 -/

section C08
variable (hi : Inv s)
include hi
theorem C08_sum {l : List (QCell p)} {r : AV p} (hrun : sum l s = some (r, s')) (hw : Sat tbl s' w) :
    ∃ xs, QOks w l xs ∧ at' w r = xs.sum := (sum_sound l).run hi hrun hw
theorem C08_partial_sums {l : List (QCell p)} {rs : List (AV p)} (hrun : partialSums l s = some (rs, s'))
    (hw : Sat tbl s' w) : ∃ xs, QOks w l xs ∧ rs.map (at' w) =
      if l = [] then [0] else (List.range xs.length).map (fun i => (xs.take (i + 1)).sum) :=
  (partialSums_sound l).run hi hrun hw
theorem C08_accumulated_product {a bs : List (QCell p)} {b0 : QCell p} {rs : List (AV p)}
    (hrun : accumulatedProduct a (b0 :: bs) s = some (rs, s')) (hw : Sat tbl s' w) :
    ∃ y0 xs ys, QOk w b0 y0 ∧ QOks w (a.take bs.length) xs ∧ QOks w (bs.take a.length) ys ∧
      rs.map (at' w) = List.scanl (fun acc z => acc * z.1 + z.2) y0 (xs.zip ys) := by
  obtain ⟨y0, xs, ys, h1, h2, h3, h4⟩ := (accumulatedProduct_sound a (b0 :: bs)).run hi hrun hw
  refine ⟨y0, xs, ys, h1, h2, h3, h4.trans ?_⟩
  have : ∀ (v : ZMod p) (l : List (ZMod p × ZMod p)),
      v :: accProd v l = List.scanl (fun acc z => acc * z.1 + z.2) v l := by
    intro v l
    induction l generalizing v with
    | nil => simp [accProd]
    | cons z l ih => obtain ⟨a, b⟩ := z; simp [accProd, ih]
  exact this _ _
theorem C08_inner_product {a b : List (QCell p)} {r : AV p} (hlen : a.length = b.length)
    (hrun : innerProduct a b s = some (r, s')) (hw : Sat tbl s' w) :
    ∃ xs ys, QOks w a xs ∧ QOks w b ys ∧ at' w r = (List.zipWith (· * ·) xs ys).sum :=
  (innerProduct_sound a b hlen).run hi hrun hw
theorem C08_inner_product_left {a b : List (QCell p)} {r : AV p × List (AV p)} (hlen : a.length = b.length)
    (hrun : innerProductLeft a b s = some (r, s')) (hw : Sat tbl s' w) :
    ∃ xs ys, QOks w a xs ∧ QOks w b ys ∧ at' w r.1 = (List.zipWith (· * ·) xs ys).sum ∧
      r.2.map (at' w) = xs := (innerProductLeft_sound a b hlen).run hi hrun hw
theorem C08_inner_product_left_last {a b : List (QCell p)} {r : AV p × AV p} (hlen : a.length = b.length)
    (hrun : innerProductLeftLast a b s = some (r, s')) (hw : Sat tbl s' w) :
    ∃ xs ys, QOks w a xs ∧ QOks w b ys ∧ at' w r.1 = (List.zipWith (· * ·) xs ys).sum ∧
      xs.getLast? = some (at' w r.2) := (innerProductLeftLast_sound a b hlen).run hi hrun hw
theorem C08_inner_product_with_sums {a b : List (QCell p)} {rs : List (AV p)} (hlen : a.length = b.length)
    (hrun : innerProductWithSums a b s = some (rs, s')) (hw : Sat tbl s' w) :
    ∃ xs ys, QOks w a xs ∧ QOks w b ys ∧ rs.map (at' w) = (List.range a.length).map
      (fun i => (List.zipWith (· * ·) (xs.take (i + 1)) (ys.take (i + 1))).sum) :=
  (innerProductWithSums_sound a b hlen).run hi hrun hw
theorem C08_sum_products_with_coeff_and_var {l : List (ZMod p × QCell p × QCell p)} {var : QCell p}
    {r : AV p} (hrun : sumProductsWithCoeffAndVar l var s = some (r, s')) (hw : Sat tbl s' w) :
    ∃ v xs ys, QOk w var v ∧ QOks w (l.map (·.2.1)) xs ∧ QOks w (l.map (·.2.2)) ys ∧
      at' w r = v + (List.zipWith (· * ·) (l.map (·.1)) (List.zipWith (· * ·) xs ys)).sum :=
  (sumProductsWithCoeffAndVar_sound l var).run hi hrun hw
end C08

section C09
variable (hg : Good tbl ext s) {a b : List (QCell p)} {xs ys : List (ZMod p)}
include hg
theorem C09_sum (ha : QsConT ext s a xs) :
    Completes tbl ext s (sum a) (fun r s' => Con ext s' r xs.sum) := (sum_cmp ha).run hg
theorem C09_partial_sums (ha : QsConT ext s a xs) :
    Completes tbl ext s (partialSums a) (fun rs s' => AvsCon ext s' rs
      (if a = [] then [0] else (List.range xs.length).map (fun i => (xs.take (i + 1)).sum))) :=
  (partialSums_cmp ha).run hg
theorem C09_accumulated_product (ha : QsConT ext s a xs) (hb : QsConT ext s b ys) :
    Completes tbl ext s (accumulatedProduct a b) (fun rs s' => AvsCon ext s' rs (match ys with
      | [] => []
      | y0 :: ys => y0 :: accProd y0 (xs.zip ys))) := (accumulatedProduct_cmp ha hb).run hg
theorem C09_inner_product (ha : QsConT ext s a xs) (hb : QsConT ext s b ys) (hlen : a.length = b.length) :
    Completes tbl ext s (innerProduct a b)
      (fun r s' => Con ext s' r (List.zipWith (· * ·) xs ys).sum) := (innerProduct_cmp ha hb hlen).run hg
theorem C09_inner_product_left (ha : QsConT ext s a xs) (hb : QsConT ext s b ys)
    (hlen : a.length = b.length) : Completes tbl ext s (innerProductLeft a b) (fun r s' =>
      Con ext s' r.1 (List.zipWith (· * ·) xs ys).sum ∧ AvsCon ext s' r.2 xs) :=
  (innerProductLeft_cmp ha hb hlen).run hg
theorem C09_inner_product_left_last {xl : ZMod p} (ha : QsConT ext s a xs) (hb : QsConT ext s b ys)
    (hlen : a.length = b.length) (hl : xs.getLast? = some xl) :
    Completes tbl ext s (innerProductLeftLast a b) (fun r s' =>
      Con ext s' r.1 (List.zipWith (· * ·) xs ys).sum ∧ Con ext s' r.2 xl) :=
  (innerProductLeftLast_cmp ha hb hlen hl).run hg
theorem C09_inner_product_with_sums (ha : QsConT ext s a xs) (hb : QsConT ext s b ys)
    (hlen : a.length = b.length) : Completes tbl ext s (innerProductWithSums a b) (fun rs s' =>
      AvsCon ext s' rs ((List.range xs.length).map
        (fun i => (List.zipWith (· * ·) (xs.take (i + 1)) (ys.take (i + 1))).sum))) :=
  (innerProductWithSums_cmp ha hb hlen).run hg
theorem C09_sum_products_with_coeff_and_var {l : List (ZMod p × QCell p × QCell p)} {var : QCell p}
    {v : ZMod p} (hv : QCon ext s var v)
    (hx : QsConT ext s (l.map (·.2.1)) xs) (hy : QsConT ext s (l.map (·.2.2)) ys) :
    Completes tbl ext s (sumProductsWithCoeffAndVar l var) (fun r s' => Con ext s' r
      (v + (List.zipWith (· * ·) (l.map (·.1)) (List.zipWith (· * ·) xs ys)).sum)) :=
  (sumProductsWithCoeffAndVar_cmp hv hx hy).run hg
end C09

/-- Concrete: `⟨(3,4,5), (1,2,10)⟩ = 61`, with `b` starting with `Constant(1)`. -/
example : Completes (fun _ : ZMod 101 => True) (fun _ => 0) ctx0
    (innerProduct [.witness 3, .witness 4, .witness 5] [.constant 1, .constant 2, .constant 10])
    (fun r s' => Con (fun _ => 0) s' r 61) :=
  C09_inner_product (xs := [3, 4, 5]) (ys := [1, 2, 10]) good0 (.cons rfl (.cons rfl (.cons rfl .nil)))
    (.cons rfl (.cons rfl (.cons rfl .nil))) rfl

/-! ## C10, C11 -/

/-- C10: `num_to_bits` returns the bits of a number congruent to `a`, below `2^n` ... -/
theorem C10_num_to_bits {a : AV p} {n : ℕ} {rs : List (AV p)} (hi : Inv s) (hn : 1 ≤ n)
    (hrun : numToBits a n s = some (rs, s')) (hw : Sat tbl s' w) :
    ∃ bs : List ℕ, (∀ b ∈ bs, b < 2) ∧ bs.length = n ∧
      rs.map (at' w) = bs.map (fun b : ℕ => (b : ZMod p)) ∧
      at' w a = ((Nat.ofDigits 2 bs : ℕ) : ZMod p) ∧
      (2 ^ n ≤ p → (at' w a).val = Nat.ofDigits 2 bs ∧ (at' w a).val < 2 ^ n ∧
        ∀ i < n, bs[i]? = some ((at' w a).val / 2 ^ i % 2)) := by
  obtain ⟨bs, h1, h2, h3, h4, h5⟩ := (numToBits_sound a n).run hi hrun hw
  have hl : bs.length = n := by
    have := congrArg List.length h2
    simp only [List.length_map] at this
    rw [← this, h3]; omega
  refine ⟨bs, h1, hl, h2, h5, fun hp => ?_⟩
  have hv : (at' w a).val = Nat.ofDigits 2 bs := by
    rw [h5, ZMod.val_natCast_of_lt (by omega)]
  refine ⟨hv, hv ▸ h4, fun i hi' => ?_⟩
  rw [hv]
  have key : ∀ (bs : List ℕ) (i : ℕ), (∀ b ∈ bs, b < 2) → i < bs.length →
      bs[i]? = some (Nat.ofDigits 2 bs / 2 ^ i % 2) := by
    intro bs
    induction bs with
    | nil => intro i _ h; simp at h
    | cons b bs ih =>
      intro i hb hi
      have hb0 := hb b (by simp)
      rw [Nat.ofDigits_cons]
      cases i with
      | zero => simp only [List.getElem?_cons_zero, pow_zero, Nat.div_one]; congr 1; omega
      | succ i =>
        rw [List.getElem?_cons_succ, ih i (fun b' hb' => hb b' (by simp [hb'])) (by simpa using hi)]
        congr 2
        rw [pow_succ', ← Nat.div_div_eq_div_mul]
        congr 1
        omega
  exact key bs i h1 (by omega)

theorem C10_num_to_bits_complete {a : AV p} {x : ZMod p} {n : ℕ} (hg : Good tbl ext s)
    (ha : Con ext s a x) (h1 : 1 ≤ n) (hn : n ≤ Nat.size p) (hx : x.val < 2 ^ n) :
    Completes tbl ext s (numToBits a n) (fun rs s' => AvsCon ext s' rs
      ((List.range n).map (fun i : ℕ => ((x.val / 2 ^ i % 2 : ℕ) : ZMod p)))) := by
  refine ((numToBits_cmp ha h1 hn hx).weaken fun rs s' h => ?_).run hg
  simpa [limbsOf, List.map_map, Function.comp_def] using h

/-- Soundness boundary: with `2^n > p` the decomposition is not unique; so `2^n ≤ p` is needed. For `p = 5`
the bits of 1 and of 6 both satisfy the constraints of a 3-bit decomposition. -/
example : ((Nat.ofDigits 2 [1, 0, 0] : ℕ) : ZMod 5) = ((Nat.ofDigits 2 [0, 1, 1] : ℕ) : ZMod 5) := by
  decide

example : Completes (fun _ : ZMod 101 => True) (fun _ => 0) ctx0
    (do let a ← loadWitness 5; numToBits a 4) (fun rs s' => AvsCon (fun _ => 0) s' rs [1, 0, 1, 0]) :=
  (Cmp.bind (loadWitness_cmp 5) fun _ _ _ h => numToBits_cmp h (by norm_num)
    (by rw [numBits]; exact (Nat.lt_size.2 (by norm_num) : 3 < Nat.size 101)) (by decide)).run good0

/-- C11: `bits_to_num` recomposes. -/
theorem C11_bits_to_num {bits : List (AV p)} {r : AV p} {bs : List ℕ} (hi : Inv s)
    (hrun : bitsToNum bits s = some (r, s')) (hw : Sat tbl s' w)
    (hb : bits.map (at' w) = bs.map (fun b : ℕ => (b : ZMod p))) :
    at' w r = ((Nat.ofDigits 2 bs : ℕ) : ZMod p) := (bitsToNum_sound bits).run hi hrun hw bs hb

/-- C11: without knowing that the inputs are bits, the result is still `∑ bits[i] * 2^i`. -/
theorem C11_bits_to_num_linear {bits : List (AV p)} {r : AV p} (hi : Inv s)
    (hrun : bitsToNum bits s = some (r, s')) (hw : Sat tbl s' w) :
    at' w r = (List.zipWith (· * ·) (bits.map (at' w))
      ((List.range bits.length).map (fun i : ℕ => (2 : ZMod p) ^ i))).sum := by
  have key : (bits.map (at' w)) = ((bits.map (at' w)).map ZMod.val).map (fun b : ℕ => (b : ZMod p)) := by
    rw [List.map_map]; conv_lhs => rw [← List.map_id (bits.map (at' w))]
    exact List.map_congr_left fun x _ => by simp
  have h := C11_bits_to_num hi hrun hw key
  have hl : bits.length = ((bits.map (at' w)).map ZMod.val).length := by simp
  rw [h, ← dot_pow2, ← hl, ← key, dot]

/-- C11: decomposing and recomposing returns the original value. -/
theorem C11_roundtrip {a r : AV p} {n : ℕ} (hi : Inv s)
    (hrun : (do let bits ← numToBits a n; bitsToNum bits) s = some (r, s')) (hw : Sat tbl s' w) :
    at' w r = at' w a := by
  have h : Sound tbl (do let bits ← numToBits a n; bitsToNum bits) (fun w r => at' w r = at' w a) := by
    intro s
    refine Snd.bind (numToBits_sound a n s) fun bits s1 _ => ?_
    refine (bitsToNum_sound bits s1).weaken ?_
    rintro w r _ h ⟨bs, _, h2, _, _, h5⟩
    rw [h bs h2, h5]
  exact h.run hi hrun hw

theorem C11_bits_to_num_complete {bits : List (AV p)} {bs : List ℕ} (hg : Good tbl ext s)
    (h : AvsCon ext s bits (bs.map (fun b : ℕ => (b : ZMod p)))) (hn : bits.length + 1 ≤ Nat.size p) :
    Completes tbl ext s (bitsToNum bits) (fun r s' => Con ext s' r ((Nat.ofDigits 2 bs : ℕ) : ZMod p)) :=
  (bitsToNum_cmp h (by rw [capacity, numBits]; omega)).run hg

theorem size101 : Nat.size 101 = 7 := le_antisymm (Nat.size_le.2 (by norm_num)) (Nat.lt_size.2 (by norm_num))

example : Completes (fun _ : ZMod 101 => True) (fun _ => 0) ctx0
    (do let a ← loadWitness 5; let bits ← numToBits a 4; bitsToNum bits)
    (fun r s' => Con (fun _ => 0) s' r 5) :=
  (Cmp.bind (loadWitness_cmp 5) fun _ _ _ h => Cmp.bind (numToBits_cmp h (by norm_num)
    (by rw [numBits, size101]; norm_num) (by decide)) fun bits _ _ h => bitsToNum_cmp h (by
      have := List.Forall₂.length_eq h
      rw [capacity, numBits, size101, this]; decide)).run good0

/-! ## C12 - C14 -/

/-- C12: `bits_to_indicator` of bits is the one-hot vector of the number they represent. -/
theorem C12_bits_to_indicator {bits rs : List (AV p)} {bs : List ℕ} (hi : Inv s)
    (hrun : bitsToIndicator bits s = some (rs, s')) (hw : Sat tbl s' w)
    (h2 : ∀ b ∈ bs, b < 2) (hb : bits.map (at' w) = bs.map (fun b : ℕ => (b : ZMod p))) :
    rs.map (at' w) =
      (List.range (2 ^ bits.length)).map (fun i => if i = Nat.ofDigits 2 bs then 1 else 0) :=
  (bitsToIndicator_sound bits).run hi hrun hw bs h2 hb

theorem C12_bits_to_indicator_complete {bits : List (AV p)} {bs : List ℕ} (hg : Good tbl ext s)
    (hne : bits ≠ []) (h2 : ∀ b ∈ bs, b < 2)
    (hb : AvsCon ext s bits (bs.map (fun b : ℕ => (b : ZMod p)))) :
    Completes tbl ext s (bitsToIndicator bits) (fun rs s' => AvsCon ext s' rs
      ((List.range (2 ^ bits.length)).map (fun i => if i = Nat.ofDigits 2 bs then 1 else 0))) :=
  (bitsToIndicator_cmp hne hb h2).run hg

example : Completes (fun _ : ZMod 101 => True) (fun _ => 0) ctx0
    (do let a ← loadWitness 1; let b ← loadWitness 0; let c ← loadWitness 1; bitsToIndicator [a, b, c])
    (fun rs s' => AvsCon (fun _ => 0) s' rs [0, 0, 0, 0, 0, 1, 0, 0]) :=
  (Cmp.bind (loadWitness_cmp 1) fun _ _ _ h1 => Cmp.bind (loadWitness_cmp 0) fun _ _ e2 h2 =>
    Cmp.bind (loadWitness_cmp 1) fun _ _ e3 h3 => by
      have hb : AvsCon (fun _ => 0) _ _ (([1, 0, 1] : List ℕ).map (fun b : ℕ => (b : ZMod 101))) :=
        .cons (by simpa using (h1.mono e2).mono e3) (.cons (by simpa using h2.mono e3)
          (.cons (by simpa using h3) .nil))
      exact bitsToIndicator_cmp (by simp) hb (by decide)).run good0

/-- C13: `idx_to_indicator` is the indicator of `idx`; all its cells refer to the same value of `idx`, even
when `idx` is a fresh `Witness`. -/
theorem C13_idx_to_indicator {idx : QCell p} {len : ℕ} {rs : List (AV p)} (hi : Inv s)
    (hrun : idxToIndicator idx len s = some (rs, s')) (hw : Sat tbl s' w) :
    ∃ x, QOk w idx x ∧
      rs.map (at' w) = (List.range len).map (fun i : ℕ => if x = (i : ZMod p) then 1 else 0) :=
  (idxToIndicator_sound idx len).run hi hrun hw

theorem C13_idx_to_indicator_complete {idx : QCell p} {x : ZMod p} {len : ℕ} (hg : Good tbl ext s)
    (h : QCon ext s idx x) : Completes tbl ext s (idxToIndicator idx len) (fun rs s' =>
      AvsCon ext s' rs ((List.range len).map (fun i : ℕ => if x = (i : ZMod p) then 1 else 0))) :=
  (idxToIndicator_cmp h).run hg

theorem dot_indicator (xs : List (ZMod p)) (x : ZMod p) (hn : xs.length ≤ p) (k : ℕ) (hk : k + xs.length ≤ p) :
    dot xs ((List.range xs.length).map (fun i : ℕ => if x = ((k + i : ℕ) : ZMod p) then 1 else 0)) =
      if k ≤ x.val then xs.getD (x.val - k) 0 else 0 := by
  induction xs generalizing k with
  | nil => simp
  | cons y ys ih =>
    simp only [List.length_cons] at hn hk
    rw [List.length_cons, List.range_succ_eq_map, List.map_cons, List.map_map, dot_cons]
    have ih' := ih (by omega) (k + 1) (by omega)
    have hf : (fun i : ℕ => if x = ((k + i : ℕ) : ZMod p) then (1 : ZMod p) else 0) ∘ Nat.succ
        = (fun i : ℕ => if x = ((k + 1 + i : ℕ) : ZMod p) then (1 : ZMod p) else 0) := by
      funext i; simp only [Function.comp, Nat.succ_eq_add_one]; congr 2; rw [show k + (i + 1) = k + 1 + i by ring]
    rw [hf, ih', add_zero]
    have hkk : ((k : ℕ) : ZMod p).val = k := ZMod.val_natCast_of_lt (by omega)
    by_cases hx : x = (k : ZMod p)
    · subst hx; simp [hkk]
    · have hne : x.val ≠ k := fun h => hx (by rw [← h, ZMod.natCast_zmod_val])
      rw [if_neg hx, mul_zero, zero_add]
      by_cases h1 : k + 1 ≤ x.val
      · rw [if_pos h1, if_pos (by omega), show x.val - k = (x.val - (k + 1)) + 1 by omega]; simp
      · rw [if_neg h1, if_neg (by omega)]

/-- C13: `select_from_idx` returns `cells[idx]`, and 0 when `idx` is out of range. -/
theorem C13_select_from_idx {cells : List (QCell p)} {idx : QCell p} {r : AV p} (hi : Inv s)
    (hn : cells.length ≤ p) (hrun : selectFromIdx cells idx s = some (r, s')) (hw : Sat tbl s' w) :
    ∃ x xs, QOk w idx x ∧ QOks w cells xs ∧ xs.length = cells.length ∧
      at' w r = xs.getD x.val 0 := by
  obtain ⟨x, xs, h1, h2, h3⟩ := (selectFromIdx_sound cells idx).run hi hrun hw
  have hl : xs.length = cells.length := (List.Forall₂.length_eq h2).symm
  refine ⟨x, xs, h1, h2, hl, ?_⟩
  have := dot_indicator xs x (by omega) 0 (by omega)
  simp only [zero_add, Nat.zero_le, if_true, Nat.sub_zero] at this
  rw [h3, ← hl, this]

theorem C13_select_from_idx_complete {cells : List (QCell p)} {idx : QCell p} {x : ZMod p}
    {xs : List (ZMod p)} (hg : Good tbl ext s) (hx : QCon ext s idx x) (hc : QsConT ext s cells xs)
    (hn : cells.length ≤ p) :
    Completes tbl ext s (selectFromIdx cells idx) (fun r s' => Con ext s' r (xs.getD x.val 0)) := by
  refine ((selectFromIdx_cmp hx hc hn).weaken fun r s' h => ?_).run hg
  have := dot_indicator xs x (by rw [← hc.length]; omega) 0 (by rw [← hc.length]; omega)
  simp only [zero_add, Nat.zero_le, if_true, Nat.sub_zero] at this
  rwa [hc.length, this] at h

/-- C13: `select_by_indicator` is the inner product with the indicator. -/
theorem C13_select_by_indicator {a : List (QCell p)} {ind : List (AV p)} {r : AV p} (hi : Inv s)
    (hlen : a.length = ind.length) (hrun : selectByIndicator a ind s = some (r, s')) (hw : Sat tbl s' w) :
    ∃ xs, QOks w a xs ∧ at' w r = (List.zipWith (· * ·) xs (ind.map (at' w))).sum :=
  (selectByIndicator_sound a ind hlen).run hi hrun hw

/-- C13: `select_array_by_indicator` selects the row marked by a one-hot indicator. -/
theorem C13_select_array {arr : List (List (AV p))} {ind rs : List (AV p)} {n k : ℕ} {row : List (AV p)}
    (hi : Inv s) (hlen : arr.length = ind.length) (hn : ∀ r ∈ arr, r.length = n)
    (hrun : selectArrayByIndicator arr ind s = some (rs, s')) (hw : Sat tbl s' w)
    (hind : ind.map (at' w) = oneHot arr.length k) (hrow : arr[k]? = some row) :
    rs.map (at' w) = row.map (at' w) := by
  obtain ⟨r0, t, harr, h⟩ := (selectArrayByIndicator_sound arr ind hlen).run hi hrun hw
  have hr0 : r0.length = n := hn r0 (by simp [harr])
  have hrn : row.length = n := hn row (List.mem_of_getElem? hrow)
  have hl := List.Forall₂.length_eq h
  simp only [List.length_range, List.length_map] at hl
  apply List.ext_getElem?
  intro j
  by_cases hj : j < n
  · obtain ⟨hjr, hjv⟩ : ∃ h : j < (rs.map (at' w)).length, True := ⟨by simp; omega, trivial⟩
    have hget := List.Forall₂.get h (i := j) (by simp; omega) hjr
    simp only [List.get_eq_getElem, List.getElem_range] at hget
    obtain ⟨col, hc1, hc2⟩ := hget
    rw [List.getElem?_eq_getElem hjr, hc2, hind]
    have hcl := List.Forall₂.length_eq hc1
    have hk : k < arr.length := (List.getElem?_eq_some_iff.1 hrow).1
    have hdot : ∀ (xs : List (ZMod p)) (k : ℕ), k < xs.length →
        some (dot xs (oneHot xs.length k)) = xs[k]? := by
      intro xs
      induction xs with
      | nil => intro k h; simp at h
      | cons x xs ih =>
        intro k hk
        rw [oneHot, List.length_cons, List.range_succ_eq_map, List.map_cons, List.map_map, dot_cons]
        cases k with
        | zero =>
          have hz : ∀ (zs : List (ZMod p)) (l : List ℕ), dot zs (l.map (fun _ => (0 : ZMod p))) = 0 := by
            intro zs l
            induction zs generalizing l with
            | nil => simp
            | cons z zs ih =>
              cases l with
              | nil => simp
              | cons _ l => rw [List.map_cons, dot_cons, ih, mul_zero, zero_add]
          have : ((fun j => if j = 0 then (1 : ZMod p) else 0) ∘ Nat.succ) = fun _ => 0 := by
            funext i; simp
          rw [this, hz]; simp
        | succ k =>
          have : ((fun j => if j = k + 1 then (1 : ZMod p) else 0) ∘ Nat.succ)
            = fun j => if j = k then 1 else 0 := by funext i; simp
          rw [this]
          simpa [oneHot] using ih k (by simpa using hk)
    have := hdot (col.map (at' w)) k (by simp; omega)
    rw [List.length_map, ← hcl] at this
    rw [this, List.getElem?_map]
    have hck : k < col.length := by omega
    have := List.Forall₂.get hc1 (i := k) hk hck
    simp only [List.get_eq_getElem] at this
    rw [List.getElem?_eq_getElem hck, List.getElem?_map, ← (List.getElem?_eq_some_iff.1 hrow).2, this]
  · rw [List.getElem?_eq_none (by simp; omega), List.getElem?_eq_none (by simp; omega)]

theorem C13_select_array_complete {arr : List (List (AV p))} {ind : List (AV p)}
    {vals : List (List (ZMod p))} {ys : List (ZMod p)} {n : ℕ} (hg : Good tbl ext s) (hne : arr ≠ [])
    (h : List.Forall₂ (AvsCon ext s) arr vals) (hi : AvsCon ext s ind ys)
    (hlen : arr.length = ind.length) (hoh : AtMostOneHot ys) (hn : ∀ v ∈ vals, v.length = n) :
    Completes tbl ext s (selectArrayByIndicator arr ind) (fun rs s' => AvsCon ext s' rs
      ((List.range n).map (fun j => dot (vals.map (fun v => v.getD j 0)) ys))) :=
  (selectArrayByIndicator_cmp hne h hi hlen hoh hn).run hg

example : Completes (fun _ : ZMod 101 => True) (fun _ => 0) ctx0
    (selectFromIdx [.witness 10, .witness 20, .constant 30] (.witness 1))
    (fun r s' => Con (fun _ => 0) s' r 20) :=
  C13_select_from_idx_complete (x := 1) (xs := [10, 20, 30]) good0 rfl
    (.cons rfl (.cons rfl (.cons rfl .nil))) (by decide)

/-- C14. -/
theorem C14_pow_var {a exp r : AV p} {n : ℕ} (hi : Inv s) (hn : 2 ^ n ≤ p)
    (hrun : powVar a exp n s = some (r, s')) (hw : Sat tbl s' w) :
    (at' w exp).val < 2 ^ n ∧ at' w r = at' w a ^ (at' w exp).val := by
  obtain ⟨e, h1, h2, h3⟩ := (powVar_sound a exp n).run hi hrun hw
  have : (at' w exp).val = e := by rw [h2, ZMod.val_natCast_of_lt (by omega)]
  rw [this]
  exact ⟨h1, h3⟩

theorem C14_pow_var_complete {a exp : AV p} {x e : ZMod p} {n : ℕ} (hg : Good tbl ext s)
    (ha : Con ext s a x) (he : Con ext s exp e) (h1 : 1 ≤ n) (hn : n ≤ Nat.size p) (hx : e.val < 2 ^ n) :
    Completes tbl ext s (powVar a exp n) (fun r s' => Con ext s' r (x ^ e.val)) :=
  (powVar_cmp ha he h1 hn hx).run hg

example : Completes (fun _ : ZMod 101 => True) (fun _ => 0) ctx0
    (do let a ← loadWitness 3; let e ← loadWitness 5; powVar a e 3)
    (fun r s' => Con (fun _ => 0) s' r (3 ^ 5)) :=
  (Cmp.bind (loadWitness_cmp 3) fun _ _ _ h1 => Cmp.bind (loadWitness_cmp 5) fun _ _ e2 h2 =>
    powVar_cmp (h1.mono e2) h2 (by norm_num) (by rw [numBits, size101]; norm_num) (by decide)).run good0

/-! ## C15 -/

/-- C15. -/
theorem C15_lagrange_and_eval {coords : List (AV p × AV p)} {x : AV p} {r : AV p × AV p} (hi : Inv s)
    (hrun : lagrangeAndEval coords x s = some (r, s')) (hw : Sat tbl s' w) :
    ∃ f : Polynomial (ZMod p), f.degree < coords.length ∧
      (∀ c ∈ coords, f.eval (at' w c.1) = at' w c.2) ∧
      (∀ g : Polynomial (ZMod p), g.degree < coords.length →
        (∀ c ∈ coords, g.eval (at' w c.1) = at' w c.2) → g = f) ∧
      (coords.map (fun c => at' w c.1)).Nodup ∧ (∀ c ∈ coords, at' w x ≠ at' w c.1) ∧
      at' w r.1 = f.eval (at' w x) ∧ at' w r.2 = (coords.map (fun c => at' w x - at' w c.1)).prod := by
  obtain ⟨h1, h2, h3, h4⟩ := (lagrangeAndEval_sound coords x).run hi hrun hw
  have hinj : Set.InjOn (fun i : Fin coords.length => at' w (coords.get i).1)
      (Finset.univ : Finset (Fin coords.length)) := h1.injOn
  have hnode : ∀ c ∈ coords, ∃ i : Fin coords.length, coords.get i = c := fun c hc => List.mem_iff_get.1 hc
  refine ⟨_, ?_, ?_, ?_, ?_, ?_, h3, ?_⟩
  · have := Lagrange.degree_interpolate_lt (fun i : Fin coords.length => at' w (coords.get i).2) hinj
    simpa using this
  · intro c hc
    obtain ⟨i, rfl⟩ := hnode c hc
    exact Lagrange.eval_interpolate_at_node _ hinj (Finset.mem_univ i)
  · intro g hg hgc
    refine Lagrange.eq_interpolate_of_eval_eq _ hinj (by simpa using hg) fun i _ => ?_
    exact hgc _ (List.get_mem coords i)
  · rw [← List.ofFn_get coords, List.map_ofFn]
    exact List.nodup_ofFn.2 h1
  · intro c hc
    obtain ⟨i, rfl⟩ := hnode c hc
    exact h2 i
  · rw [h4, ← List.prod_ofFn]
    conv_rhs => rw [← List.ofFn_get coords, List.map_ofFn]
    rfl

theorem C15_lagrange_and_eval_complete {coords : List (AV p × AV p)} {zs : List (ZMod p × ZMod p)}
    {x : AV p} {X : ZMod p} (hg : Good tbl ext s) (hne : coords ≠ []) (hc : CoordsCon ext s coords zs)
    (hx : Con ext s x X) (hinj : Function.Injective (fun i : Fin zs.length => (zs.get i).1))
    (hX : ∀ i : Fin zs.length, X ≠ (zs.get i).1) :
    Completes tbl ext s (lagrangeAndEval coords x) (fun r s' =>
      Con ext s' r.1 (Polynomial.eval X (Lagrange.interpolate Finset.univ
        (fun i : Fin zs.length => (zs.get i).1) (fun i : Fin zs.length => (zs.get i).2))) ∧
      Con ext s' r.2 (∏ i : Fin zs.length, (X - (zs.get i).1))) :=
  (lagrangeAndEval_cmp hne hc hx hinj hX).run hg

/-- Two nodes, honest run from the empty context. -/
example : Completes (fun _ : ZMod 101 => True) (fun _ => 0) ctx0
    (do let x0 ← loadWitness 1; let y0 ← loadWitness 7; let x1 ← loadWitness 2; let y1 ← loadWitness 9
        let x ← loadWitness 5; lagrangeAndEval [(x0, y0), (x1, y1)] x)
    (fun r s' => (∃ f, Con (fun _ => 0) s' r.1 f) ∧ Con (fun _ => 0) s' r.2 12) := by
  refine (Cmp.bind (loadWitness_cmp 1) fun _ _ _ h1 => Cmp.bind (loadWitness_cmp 7) fun _ _ e2 h2 =>
    Cmp.bind (loadWitness_cmp 2) fun _ _ e3 h3 => Cmp.bind (loadWitness_cmp 9) fun _ _ e4 h4 =>
    Cmp.bind (loadWitness_cmp 5) fun _ _ e5 h5 => ?_).run good0
  refine (lagrangeAndEval_cmp (zs := [(1, 7), (2, 9)]) (by simp) (.cons
    ⟨(((h1.mono e2).mono e3).mono e4).mono e5, ((h2.mono e3).mono e4).mono e5⟩
    (.cons ⟨(h3.mono e4).mono e5, h4.mono e5⟩ .nil)) h5 (by decide) (by decide)).weaken ?_
  rintro r s' ⟨k1, k2⟩
  refine ⟨⟨_, k1⟩, ?_⟩
  have : (∏ i : Fin 2, ((5 : ZMod 101) - ([(1, 7), (2, 9)].get i : ZMod 101 × ZMod 101).1)) = 12 := by
    decide
  exact this ▸ k2

end H2
