import Verif.Fields.Sound
import Verif.BigInt.CompleteZero
import Verif.BigInt.CompleteSub
import Verif.BigInt.CompleteSel

/-!
# Completeness of the methods of `FpChip`: an honest run on canonical points succeeds and its constraints hold
-/

set_option autoImplicit false
set_option linter.unusedSectionVars false
namespace H2
variable {p : ℕ} [Fact p.Prime] {tbl : ZMod p → Prop} {ext : Cell → ZMod p} {s s' : Ctx p}

/-- Parameters for which the methods of `FpChip` are complete (besides sound). -/
structure FpCmp (c : FpChip p) : Prop where
  ok : FpOk c
  k2 : 2 ≤ c.k
  top : c.n * (c.k - 1) ≤ Nat.size c.modulus
  cap : c.n + Nat.log2 c.k < capacity p

theorem FpCmp.carry {c : FpChip p} (h : FpCmp c) : CarryCmp c := ⟨h.ok.carry, h.ok.p32, h.k2, h.top⟩

theorem assignWitnesses_cmp (ws : List (ZMod p)) : Cmp tbl ext s (assignWitnesses ws) (fun rs s' => AvsCon ext s' rs ws) := by
  have hq : QsCon ext s (ws.map .witness) ws := by
    induction ws with
    | nil => exact .nil
    | cons w ws ih => exact .cons rfl ih
  intro hg
  obtain ⟨_, s1, h1, g1, e1, a1⟩ := assignRegion_cmp (tbl := tbl) (gs := []) ws hq (by simp) hg
  refine ⟨_, s1, bind_some.2 ⟨(), s1, h1, rfl⟩, g1, e1, ?_⟩
  have hd : s1.advice.drop s.advice.length = ws.map .trivial := by
    rw [a1, List.drop_left, List.map_map]
    rfl
  show List.Forall₂ (Con ext s1) _ _
  rw [hd, List.forall₂_iff_get]
  refine ⟨by simp, fun i hi hi' => ?_⟩
  have hi'' : i < ws.length := by simpa using hi
  have hget : s1.advice[s.advice.length + i]? = some (.trivial ws[i]) := by
    rw [a1, List.getElem?_append_right (Nat.le_add_right _ _), Nat.add_sub_cancel_left]
    simp [hi'', QCell.assigned]
  refine con_cellAt hget ?_ ?_
  · simp
  · simp [g1.inv.wgo]

namespace FpChip
variable {c : FpChip p}

theorem cast_val {d n : ℕ} (hp : 2 ^ n ≤ p) (h : d < 2 ^ n) : ((d : ℕ) : ZMod p).val = d :=
  ZMod.val_natCast_of_lt (h.trans_le hp)

theorem enforceLoop_cmp {L n : ℕ} (hL : RangeOk p L) (hn : ceilDiv n L * L + L ≤ capacity p) {l : List (ZMod p × AV p)}
    {ms ds : List ℕ} {bw : Option (AV p)} {d0 : ℕ} (hm : l.map Prod.fst = ms.map (fun d : ℕ => (d : ZMod p)))
    (hd : AvsCon ext s (l.map Prod.snd) (ds.map (fun d : ℕ => (d : ZMod p)))) (hm' : ∀ d ∈ ms, d < 2 ^ n)
    (hd' : ∀ d ∈ ds, d < 2 ^ n) (hb : BorrowCon ext s bw d0) :
    Cmp (RangeTable p L) ext s (enforceLoop L n l bw) (fun r s' => (l ≠ [] ∨ bw.isSome → r.isSome) ∧
      ∀ b, r = some b → AvW ext s' b) := by
  have h2 : n ≤ ceilDiv n L * L := le_ceilDiv hL.pos _
  have hp : 2 ^ (n + 1) ≤ p := pow_capacity_le (by have := hL.pos; omega)
  have hp2 : 2 ^ n + 2 ^ n ≤ p := by rw [pow_succ] at hp; omega
  have hp1 : 2 ^ n ≤ p := by omega
  have hpos : 1 ≤ 2 ^ n := Nat.one_le_two_pow
  have hpK : 2 ^ n ≤ 2 ^ (ceilDiv n L * L) := Nat.pow_le_pow_right (by norm_num) h2
  induction l generalizing s ms ds bw d0 with
  | nil =>
    refine Cmp.pure ⟨by simp, ?_⟩
    rintro b rfl
    exact hb.2.w
  | cons e l ih =>
    obtain ⟨pl, a⟩ := e
    cases ms with
    | nil => simp at hm
    | cons m ms =>
    cases ds with
    | nil => cases hd
    | cons d ds =>
    rw [List.map_cons, List.map_cons, List.cons.injEq] at hm
    obtain ⟨rfl, hm⟩ := hm
    rw [List.map_cons, List.map_cons] at hd
    cases hd with
    | cons had hds =>
    have hmn : m < 2 ^ n := hm' m (by simp)
    have hdn : d < 2 ^ n := hd' d (by simp)
    have hm'' : ∀ d ∈ ms, d < 2 ^ n := fun d h => hm' d (List.mem_cons_of_mem _ h)
    have hd'' : ∀ d ∈ ds, d < 2 ^ n := fun d h => hd' d (List.mem_cons_of_mem _ h)
    have hdv : ((d : ℕ) : ZMod p).val < 2 ^ (ceilDiv n L * L) := by rw [cast_val hp1 hdn]; omega
    have fin : ∀ (s1 : Ctx p) (lt : AV p) (b : Prop) [Decidable b], Ext s s1 → Con ext s1 lt (if b then 1 else 0) →
        Cmp (RangeTable p L) ext s1 (enforceLoop L n l (some lt)) (fun r s' => (((((m : ℕ) : ZMod p), a) :: l) ≠ [] ∨ bw.isSome → r.isSome) ∧
          ∀ b, r = some b → AvW ext s' b) := by
      intro s1 lt b _ e1 hlt
      refine (ih (bw := some lt) (d0 := if b then 1 else 0) hm (AvsCon.mono hds e1) hm'' hd'' ⟨by split <;> omega, ?_⟩).weaken fun r s' h =>
        ⟨fun _ => h.1 (.inr rfl), h.2⟩
      show Con ext s1 lt _
      convert hlt using 1
      split <;> simp
    cases bw with
    | none =>
      refine Cmp.bind (isLessThan_cmp hL (show QCon ext s (.existing a) _ from had)
        (show QCon ext s (.constant (m : ZMod p)) (m : ZMod p) from rfl) hn hdv (by rw [cast_val hp1 hmn]; omega)) fun lt s1 e1 hlt => ?_
      exact fin s1 lt _ e1 hlt
    | some bw =>
      refine Cmp.bind (add_cmp (show QCon ext s (.constant (m : ZMod p)) (m : ZMod p) from rfl) (show QCon ext s (.existing bw) _ from hb.2))
        fun pb s1 e1 hpb => ?_
      refine Cmp.bind (isLessThan_cmp hL (show QCon ext s1 (.existing a) _ from had.mono e1)
        (show QCon ext s1 (.existing pb) _ from hpb) hn hdv ?_) fun lt s2 e2 hlt => ?_
      · have h0 := hb.1
        rw [← Nat.cast_add, ZMod.val_natCast_of_lt (by omega)]
        omega
      · exact fin s2 lt _ (e1.trans e2) hlt

theorem zip_snd' {α β : Type} {a : List α} {b : List β} (h : a.length = b.length) : (a.zip b).map Prod.snd = b := by
  rw [List.map_snd_zip]; omega

theorem zip_fst' {α β : Type} {a : List α} {b : List β} (h : a.length = b.length) : (a.zip b).map Prod.fst = a := by
  rw [List.map_fst_zip]; omega

theorem enforceLessThanP_cmp (h : FpCmp c) {a : CrtInt p} {A : ℕ} (ha : ProperW c.n c.k ext s a A) (hA : A < c.modulus) :
    Cmp (RangeTable p c.L) ext s (c.enforceLessThanP a) (fun _ _ => True) := by
  obtain ⟨ds, hl, hc, hlt, rfl⟩ := ha.digits
  have hll : (c.modLimbs.zip a.trunc.limbs).length = c.k := by
    have : a.trunc.limbs.length = c.k := by rw [List.Forall₂.length_eq hc]; simpa using hl
    simp [h.ok.ok.limbs, limbsOf_length, this]
  have heq : c.modLimbs.length = a.trunc.limbs.length := by
    rw [h.ok.ok.limbs, List.Forall₂.length_eq hc]; simp [limbsOf_length, hl]
  have h1 := enforceLoop_cmp (ext := ext) (s := s) h.ok.L h.ok.sub.fst (l := c.modLimbs.zip a.trunc.limbs) (ms := limbsOf c.modulus c.k c.n)
    (ds := ds) (bw := none) (d0 := 0) (by rw [zip_fst' heq, h.ok.ok.limbs]) (by rw [zip_snd' heq]; exact hc)
    (fun d hd => limbsOf_lt' hd) hlt ⟨by omega, rfl⟩
  refine Cmp.bind (h1.withSnd (enforceLoop_sound h.ok.L h.ok.sub.fst _ none)) fun r s1 e1 hr => ?_
  obtain ⟨⟨hs, hw⟩, -, hv⟩ := hr
  obtain ⟨b, rfl⟩ := Option.isSome_iff_exists.1 (hs (.inl (by
    intro h0
    have := h.ok.ok.k1
    rw [h0] at hll
    simp at hll
    omega)))
  refine Cmp.unwrap rfl ?_
  have hb := hw b rfl
  have := hv (limbsOf c.modulus c.k c.n) ds 0 (by rw [zip_fst' heq, h.ok.ok.limbs])
    (by
      have := (AvsCon.mono hc e1).map_at
      rw [← this]
      conv_rhs => rw [← zip_snd' heq]
      rw [List.map_map]
      rfl)
    (fun d hd => limbsOf_lt' hd) hlt (by simp [borrowVal]) (by omega)
  rw [ofDigits_limbsOf _ _ _ h.ok.ok.lt, Nat.add_zero, if_pos hA] at this
  refine (assertIsConst_cmp (c := 1) ?_).weaken fun _ _ _ => trivial
  have h2 : at' (H2.hw ext s1) b = 1 := by simpa [borrowVal] using this
  have h3 : Con ext s1 b (at' (H2.hw ext s1) b) := hb
  rw [h2] at h3
  exact h3.conF

theorem loadConstantUint_cmp (h : FpCmp c) {x : ℕ} (hx : x < 2 ^ (c.n * c.k)) :
    Cmp tbl ext s (c.loadConstantUint x) (fun r s' => ProperW c.n c.k ext s' r x) :=
  assignFixed_cmp h.ok.p32 h.ok.ok.n64 h.ok.ok.n128 h.ok.ok.k1 hx

theorem base1_pure (h : FpCmp c) : (c.base1 : M p (ZMod p)) = pure (2 ^ c.n) := by
  unfold FpChip.base1
  rw [base1_get h.ok.ok h.k2]
  rfl

theorem isLessThanP_cmp (h : FpCmp c) {a : CrtInt p} {A : ℕ} (ha : ProperW c.n c.k ext s a A) :
    Cmp (RangeTable p c.L) ext s (c.isLessThanP a) (fun r s' => Con ext s' r (if A < c.modulus then 1 else 0)) := by
  refine Cmp.bind (loadConstantUint_cmp h h.ok.ok.lt) fun pc s1 e1 hpc => ?_
  rw [base1_pure h, pure_bind]
  refine Cmp.bind (subCrt_cmp h.ok.L h.ok.sub h.ok.ok.k1 (ha.mono e1) hpc) fun ou s2 e2 hou => ?_
  refine Cmp.bind (isZero_cmp hou.2.2) fun z s3 e3 hz => ?_
  refine (not_cmp (show QCon ext s3 (.existing z) _ from hz)).weaken fun r s4 hr => ?_
  convert hr using 1
  split <;> simp

theorem isSoftNonzero_cmp (h : FpCmp c) {a : CrtInt p} {A : ℕ} (ha : ProperW c.n c.k ext s a A) :
    Cmp (RangeTable p c.L) ext s (c.isSoftNonzero a) (fun r s' => Con ext s' r (if A ≠ 0 ∧ A < c.modulus then 1 else 0)) := by
  refine Cmp.bind (bigIsZeroPositive_cmp h.ok.ok.k1 h.cap ha) fun z s1 e1 hz => ?_
  refine Cmp.bind (not_cmp (show QCon ext s1 (.existing z) _ from hz)) fun nz s2 e2 hnz => ?_
  refine Cmp.bind (loadConstantUint_cmp h h.ok.ok.lt) fun pc s3 e3 hpc => ?_
  rw [base1_pure h, pure_bind]
  refine Cmp.bind (subCrt_cmp h.ok.L h.ok.sub h.ok.ok.k1 (ha.mono ((e1.trans e2).trans e3)) hpc) fun ou s4 e4 hou => ?_
  refine Cmp.bind (isZero_cmp hou.2.2) fun uz s5 e5 huz => ?_
  refine Cmp.bind (not_cmp (show QCon ext s5 (.existing uz) _ from huz)) fun nu s6 e6 hnu => ?_
  refine (and_cmp (show QCon ext s6 (.existing nz) _ from hnz.mono (((e3.trans e4).trans e5).trans e6))
    (show QCon ext s6 (.existing nu) _ from hnu)).weaken fun r s7 hr => ?_
  convert hr using 1
  by_cases h1 : A = 0 <;> by_cases h2 : A < c.modulus <;> simp [h1, h2]

theorem isZero_cmp (h : FpCmp c) {a : CrtInt p} {A : ℕ} (ha : ProperW c.n c.k ext s a A) (hA : A < c.modulus) :
    Cmp (RangeTable p c.L) ext s (c.isZero a) (fun r s' => Con ext s' r (if A = 0 then 1 else 0)) :=
  Cmp.bind (enforceLessThanP_cmp h ha hA) fun _ s1 e1 _ => bigIsZeroPositive_cmp h.ok.ok.k1 h.cap (ha.mono e1)

theorem isEven_cmp (h : FpCmp c) {a : CrtInt p} {A : ℕ} (ha : ProperW c.n c.k ext s a A) (hA : A < c.modulus) :
    Cmp (RangeTable p c.L) ext s (c.isEven a) (fun r s' => Con ext s' r (if A % 2 = 0 then 1 else 0)) :=
  Cmp.bind (enforceLessThanP_cmp h ha hA) fun _ s1 e1 _ => bigIsEven_cmp h.ok.L h.ok.ok.k1 h.ok.pow_n' h.ok.n1 (ha.mono e1)

theorem rangeCheckLoop_cmp {L n : ℕ} (hL : RangeOk p L) (hn : 2 ^ n ≤ p) {as : List (AV p)} {ds : List ℕ} {rem : ℕ}
    (h : AvsCon ext s as (ds.map (fun d : ℕ => (d : ZMod p)))) (hd : ∀ d ∈ ds, d < 2 ^ n) (hr : Nat.ofDigits (2 ^ n) ds < 2 ^ rem) :
    Cmp (RangeTable p L) ext s (rangeCheckLoop L n as rem) (fun _ _ => True) := by
  induction as generalizing s ds rem with
  | nil => exact Cmp.pure trivial
  | cons a as ih =>
    cases ds with
    | nil => cases h
    | cons d ds =>
    cases h with
    | cons ha has =>
    have hdn : d < 2 ^ n := hd d (by simp)
    rw [Nat.ofDigits_cons] at hr
    have hmin : 2 ^ min n rem ≤ p := (Nat.pow_le_pow_right (by norm_num) (min_le_left _ _)).trans hn
    have hd1 : d < 2 ^ min n rem := by
      rcases min_choice n rem with e | e <;> rw [e]
      · exact hdn
      · omega
    refine Cmp.bind (H2.rangeCheck_cmp hL ha (ceilDiv_ok hL hmin) (by rw [cast_val hn hdn]; exact hd1)) fun _ s1 e1 _ => ?_
    refine ih (AvsCon.mono has e1) (fun d h => hd d (List.mem_cons_of_mem _ h)) ?_
    rcases Nat.le_total n rem with hle | hle
    · rw [min_eq_left hle]
      have e : 2 ^ rem = 2 ^ n * 2 ^ (rem - n) := by rw [← pow_add]; congr 1; omega
      rw [e] at hr
      by_contra hc
      have := Nat.mul_le_mul_left (2 ^ n) (not_lt.1 hc)
      omega
    · rw [min_eq_right hle, Nat.sub_self, pow_zero]
      have e : 2 ^ rem ≤ 2 ^ n := Nat.pow_le_pow_right (by norm_num) hle
      by_contra hc
      have := Nat.mul_le_mul_left (2 ^ n) (not_lt.1 hc)
      omega

theorem rangeCheck_cmp (h : FpCmp c) {a : CrtInt p} {A maxBits : ℕ} (ha : ProperW c.n c.k ext s a A) (hA : A < 2 ^ maxBits) :
    Cmp (RangeTable p c.L) ext s (c.rangeCheck a maxBits) (fun _ _ => True) := by
  obtain ⟨ds, hl, hc, hlt, rfl⟩ := ha.digits
  exact rangeCheckLoop_cmp h.ok.L h.ok.pow_n' hc hlt hA

theorem loadPrivate_cmp (h : FpCmp c) (v : ZMod c.modulus) :
    Cmp (RangeTable p c.L) ext s (c.loadPrivate v) (fun r s' => ProperW c.n c.k ext s' r v.val) := by
  have : NeZero c.modulus := ⟨by have := h.ok.ok.pos; omega⟩
  have hv : v.val < 2 ^ (c.n * c.k) := (ZMod.val_lt v).trans h.ok.ok.lt
  unfold loadPrivate
  rw [Utils.C28_fe_to_biguint h.ok.m32]
  refine Cmp.unwrap (a := (limbsOf v.val c.k c.n).map (fun d : ℕ => (d : ZMod p))) ?_ ?_
  · rw [Utils.decomposeBiguint, Utils.decomposeBigLimbs_eq h.ok.ok.n64 h.ok.ok.n128 (by have := h.ok.ok.k1; omega), Option.map_some]
  refine Cmp.bind (assignWitnesses_cmp _) fun limbs s1 e1 hl => Cmp.bind (intoCrt_cmp h.ok.ok.bases hv hl) fun r s2 e2 hr => ?_
  exact Cmp.bind (rangeCheck_cmp h hr ((ZMod.val_lt v).trans (Nat.lt_size_self _))) fun _ s3 e3 _ => Cmp.pure (hr.mono e3)

theorem loadConstant_cmp (h : FpCmp c) (v : ZMod c.modulus) :
    Cmp tbl ext s (c.loadConstant v) (fun r s' => ProperW c.n c.k ext s' r v.val) := by
  have : NeZero c.modulus := ⟨by have := h.ok.ok.pos; omega⟩
  unfold loadConstant
  rw [Utils.C28_fe_to_biguint h.ok.m32]
  exact loadConstantUint_cmp h ((ZMod.val_lt v).trans h.ok.ok.lt)

theorem addConstLoop_cmp {l : List (AV p × ZMod p)} (h : AvsW ext s (l.map Prod.fst)) :
    Cmp tbl ext s (addConstLoop l) (fun rs s' => AvsW ext s' rs) := by
  induction l generalizing s with
  | nil => exact Cmp.pure (by intro a ha; cases ha)
  | cons e l ih =>
    obtain ⟨a, x⟩ := e
    refine Cmp.bind (add_cmp (h a (by simp)).q (show QCon ext s (.constant x) x from rfl)) fun r s1 e1 hr => ?_
    refine Cmp.bind (ih fun b hb => (h b (by simp only [List.map_cons]; exact List.mem_cons_of_mem _ hb)).mono e1) fun rs s2 e2 hrs => ?_
    exact Cmp.pure (AvsW.cons (hr.w.mono e2) hrs)

theorem addConstantNoCarry_cmp (h : FpCmp c) {a : CrtInt p} {A : ℤ} (v : ZMod c.modulus) (ha : CrtW c.n c.k ext s a A) :
    Cmp tbl ext s (c.addConstantNoCarry a v) (fun r s' => r.trunc.maxBits = max a.trunc.maxBits c.n + 1 ∧
      CrtW c.n c.k ext s' r (A + v.val)) := by
  have : NeZero c.modulus := ⟨by have := h.ok.ok.pos; omega⟩
  have hpp : 0 < p := Nat.Prime.pos Fact.out
  have h1 : Cmp tbl ext s (c.addConstantNoCarry a v) (fun r s' => CrtS ext s' r) := by
    unfold addConstantNoCarry
    rw [Utils.C28_fe_to_biguint h.ok.m32]
    refine Cmp.unwrap (a := (limbsOf v.val c.k c.n).map (fun d : ℕ => (d : ZMod p))) ?_ ?_
    · rw [Utils.decomposeBiguint, Utils.decomposeBigLimbs_eq h.ok.ok.n64 h.ok.ok.n128 (by have := h.ok.ok.k1; omega), Option.map_some]
    refine Cmp.unwrap (a := ((v.val % p : ℕ) : ZMod p)) ?_ ?_
    · rw [Utils.C28_modulus h.ok.p32, Utils.C28_biguint_to_fe h.ok.p32, if_pos (Nat.mod_lt _ hpp)]
    refine Cmp.bind (addConstLoop_cmp (ext := ext) (s := s) ?_) fun limbs s1 e1 hl => ?_
    · intro x hx
      rw [List.mem_map] at hx
      obtain ⟨e, he, rfl⟩ := hx
      exact ha.limbs _ (List.of_mem_zip (show (e.1, e.2) ∈ _ from he)).1
    refine Cmp.bind (add_cmp (ha.native.mono e1).q (show QCon ext s1 (.constant _) _ from rfl)) fun nat s2 e2 hn => ?_
    exact Cmp.pure ⟨hl.mono e2, hn.w⟩
  refine (h1.withSnd (addConstantNoCarry_sound h.ok a v)).weakenE ?_
  rintro r s' e ⟨hs, hm, hv, hc⟩
  exact ⟨hm, hc _ (ha.mono e).ok, hs.limbs, hs.native, by rw [hv, ha.value]⟩

theorem negate_cmp (h : FpCmp c) {a : CrtInt p} {A : ℕ} (ha : ProperW c.n c.k ext s a A) (hA : A ≤ c.modulus) :
    Cmp (RangeTable p c.L) ext s (c.negate a) (fun r s' => ProperW c.n c.k ext s' r (if A = 0 then 0 else c.modulus - A)) := by
  have h1 : Cmp (RangeTable p c.L) ext s (c.negate a) (fun r s' => CrtW c.n c.k ext s' r
      (if decide (A = 0) then (A : ℤ) else ((c.modulus : ℕ) : ℤ) - A)) := by
    refine Cmp.bind (loadConstantUint_cmp h h.ok.ok.lt) fun pc s1 e1 hpc => ?_
    rw [base1_pure h, pure_bind]
    refine Cmp.bind (subCrt_cmp h.ok.L h.ok.sub h.ok.ok.k1 hpc (ha.mono e1)) fun ou s2 e2 hou => ?_
    obtain ⟨o, u⟩ := ou
    obtain ⟨ho, ho2, hu⟩ := hou
    rw [if_neg (by omega)] at hu
    refine Cmp.bind (assertIsConst_cmp hu.conF) fun _ s3 e3 _ => ?_
    have ha3 := ha.mono ((e1.trans e2).trans e3)
    refine Cmp.bind (bigIsZeroPositive_cmp h.ok.ok.k1 h.cap ha3) fun z s4 e4 hz => ?_
    refine (selectCrt_cmp (b1 := decide (A = 0)) (ha3.mono e4).crt (ho.mono (e3.trans e4)) ?_).weaken fun r s5 hr => hr.2
    simpa using hz
  refine (h1.withSnd (negate_sound h.ok a)).weakenE ?_
  rintro r s' e ⟨hr, hs⟩
  refine ⟨(hs A (ha.mono e).ok).2, hr.limbs, hr.native, ?_⟩
  rw [hr.value]
  by_cases h0 : A = 0
  · simp [h0]
  · simp only [h0, decide_false, Bool.false_eq_true, if_false]
    push_cast [hA]
    rfl

theorem eqLoop_cmp {l1 l2 : List (AV p)} {xs : List (ZMod p)} (h1 : AvsCon ext s l1 xs) (h2 : AvsCon ext s l2 xs) :
    Cmp tbl ext s (eqLoop (l1.zip l2)) (fun _ _ => True) := by
  induction l1 generalizing s l2 xs with
  | nil => exact Cmp.pure trivial
  | cons a l1 ih =>
    cases h1 with
    | cons ha h1 => cases h2 with
      | cons hb h2 =>
        exact Cmp.bind (constrainEqual_cmp ha.conF hb.conF) fun _ s1 e1 _ => ih (AvsCon.mono h1 e1) (AvsCon.mono h2 e1)

theorem assertEqual_cmp (h : FpCmp c) {a b : CrtInt p} {A : ℕ} (ha : ProperW c.n c.k ext s a A) (hb : ProperW c.n c.k ext s b A)
    (hA : A < c.modulus) : Cmp (RangeTable p c.L) ext s (c.assertEqual a b) (fun _ _ => True) := by
  obtain ⟨ds, d1, d2, d3, d4⟩ := ha.digits
  obtain ⟨es, e1, e2, e3, e4⟩ := hb.digits
  have : ds = es := Nat.ofDigits_inj_of_len_eq (Nat.one_lt_two_pow (by have := h.ok.n1; omega)) (by omega) d3 e3 (by rw [← d4, ← e4])
  subst this
  exact Cmp.bind (eqLoop_cmp d2 e2) fun _ s1 e1 _ => Cmp.bind (enforceLessThanP_cmp h (ha.mono e1) hA) fun _ s2 e2 _ =>
    enforceLessThanP_cmp h ((hb.mono e1).mono e2) hA

theorem select_cmp {a b : CrtInt p} {A B : ℕ} {sel : AV p} {t : Bool} (ha : ProperW c.n c.k ext s a A)
    (hb : ProperW c.n c.k ext s b B) (hs : Con ext s sel (if t then 1 else 0)) :
    Cmp tbl ext s (selectCrt a b sel) (fun r s' => ProperW c.n c.k ext s' r (if t then A else B)) := by
  refine ((selectCrt_cmp (tbl := tbl) ha.crt hb.crt hs).withSnd (selectCrt_sound a b sel)).weakenE ?_
  rintro r s' e ⟨⟨-, hr⟩, hm, -, h1, h0⟩
  have hat := (hs.mono e).at
  have hma : a.trunc.maxBits = c.n := by obtain ⟨_, _, e, -⟩ := ha.ok; exact e
  have hmb : b.trunc.maxBits = c.n := by obtain ⟨_, _, e, -⟩ := hb.ok; exact e
  refine ⟨?_, hr.limbs, hr.native, ?_⟩
  · cases t with
    | true =>
      obtain ⟨e1, e2⟩ := h1 (by simpa using hat)
      exact (ha.mono e).ok.congr e1 (by rw [hm, hma, hmb, max_self]) e2
    | false =>
      obtain ⟨e1, e2⟩ := h0 (by simpa using hat)
      exact (hb.mono e).ok.congr e1 (by rw [hm, hma, hmb, max_self]) e2
  · rw [hr.value]; split <;> rfl

end FpChip
end H2
