import Verif.Fields.Model
import Verif.BigInt.SoundSub
import Verif.BigInt.SoundMod

/-! # Soundness of `FpChip` -/

set_option autoImplicit false
set_option linter.unusedSectionVars false
namespace H2
variable {p : ℕ} [Fact p.Prime] {tbl : ZMod p → Prop}

theorem limbBasesLoop_eq (base : ZMod p) (k : ℕ) (last : ZMod p) :
    limbBasesLoop base k last = (List.range k).map (fun i : ℕ => last * base ^ (i + 1)) := by
  induction k generalizing last with
  | zero => rfl
  | succ k ih =>
    rw [limbBasesLoop, ih, List.range_succ_eq_map, List.map_cons, List.map_map]
    congr 1
    · ring
    · exact List.map_congr_left fun i _ => by simp only [Function.comp, Nat.succ_eq_add_one]; ring

/-- `FpChip::new` establishes the constants of the chip. -/
theorem FpChip.new_ok {L m n k : ℕ} {c : FpChip p} (h : FpChip.new (p := p) L m n k = some c) (hp : p ≤ 256 ^ 32)
    (hm : m ≤ 256 ^ 32) (hm0 : 1 ≤ m) (hn : 64 ≤ n) (hn' : n < 128) (hk : k < 2 ^ 64) (hmk : m < 2 ^ (n * k)) :
    (c.L = L ∧ c.n = n ∧ c.k = k ∧ c.modulus = m) ∧ ChipOk c := by
  have hpp : 0 < p := Nat.Prime.pos Fact.out
  have : NeZero m := ⟨by omega⟩
  have : NeZero p := ⟨by omega⟩
  unfold FpChip.new at h
  by_cases h0 : n = 0 ∨ k = 0 ∨ ¬ n ≤ capacity p
  · rw [if_pos h0] at h; simp at h
  · rw [if_neg h0] at h
    rw [not_or, not_or, not_not] at h0
    obtain ⟨h1, h2, h3⟩ := h0
    simp only [Option.bind_eq_bind, Option.bind_eq_some_iff, Option.pure_def, Option.some.injEq] at h
    obtain ⟨ls, hls, nv, hnv, bs, hbs, kl, hkl, rfl⟩ := h
    rw [Utils.C28_modulus hm] at *
    rw [Utils.decomposeBiguint, Utils.decomposeBigLimbs_eq hn hn' h2, Option.map_some, Option.some.injEq] at hls
    rw [Utils.C28_modulus hp, Utils.C28_biguint_to_fe hp, if_pos (Nat.mod_lt _ hpp), Option.some.injEq] at hnv
    rw [Utils.C28_biguint_to_fe hp] at hbs
    split at hbs
    · rw [Option.some.injEq] at hbs
      refine ⟨⟨rfl, rfl, rfl, rfl⟩, ⟨by show 1 ≤ k; omega, hn, hn', ?_, hls.symm, ?_, hm0, hmk, ?_, ?_⟩⟩
      · show 1 :: limbBasesLoop bs (k - 1) 1 = _
        obtain ⟨j, rfl⟩ : ∃ j, k = j + 1 := ⟨k - 1, by omega⟩
        rw [limbBasesLoop_eq, ← hbs, List.range_succ_eq_map, List.map_cons, List.map_map]
        simp [Function.comp_def]
      · rw [← hnv]; simp
      · exact (Utils.C28_bit_length k _ hk).1 le_rfl
      · exact log2Ceil_le hk hkl
    · simp at hbs

/-- The conditions on the parameters under which the chip's routines are sound. -/
structure FpOk (c : FpChip p) : Prop where
  ok : ChipOk c
  L : RangeOk p c.L
  p32 : p ≤ 256 ^ 32
  m32 : c.modulus ≤ 256 ^ 32
  sub : SubOk p c.L c.n
  carry : CarryOk c

namespace FpOk
variable {c : FpChip p} (h : FpOk c)
include h

theorem pow_n : 2 ^ (c.n + 1) ≤ p :=
  pow_capacity_le (by have := h.sub.rest; have := le_ceilDiv h.L.pos (c.n + 1); omega)

theorem pow_n' : 2 ^ c.n ≤ p := (Nat.pow_le_pow_right (by norm_num) (Nat.le_succ _)).trans h.pow_n

theorem n1 : 1 ≤ c.n := by have := h.ok.n64; omega

end FpOk

/-! ### `enforce_less_than_p` -/

namespace FpChip
variable {c : FpChip p}

theorem enforceLoop_sound {L n : ℕ} (hL : RangeOk p L) (hn : ceilDiv n L * L + L ≤ capacity p) (l : List (ZMod p × AV p))
    (bw : Option (AV p)) :
    Sound (RangeTable p L) (enforceLoop L n l bw) (fun w r => (bw.isSome → r.isSome) ∧ ∀ (ms ds : List ℕ) (d0 : ℕ),
      l.map Prod.fst = ms.map (fun d : ℕ => (d : ZMod p)) → l.map (fun e => at' w e.2) = ds.map (fun d : ℕ => (d : ZMod p)) →
      (∀ d ∈ ms, d < 2 ^ n) → (∀ d ∈ ds, d < 2 ^ n) → borrowVal w bw = (d0 : ZMod p) → d0 ≤ 1 →
      borrowVal w r = (((if Nat.ofDigits (2 ^ n) ds < Nat.ofDigits (2 ^ n) ms + d0 then 1 else 0) : ℕ) : ZMod p)) := by
  have h2 : n ≤ ceilDiv n L * L := le_ceilDiv hL.pos _
  have hp : 2 ^ (n + 1) ≤ p := pow_capacity_le (by have := hL.pos; omega)
  have hp2 : 2 ^ n + 2 ^ n ≤ p := by rw [pow_succ] at hp; omega
  have hpos : 1 ≤ 2 ^ n := Nat.one_le_two_pow
  have hpK : 2 ^ n ≤ 2 ^ (ceilDiv n L * L) := Nat.pow_le_pow_right (by norm_num) h2
  induction l generalizing bw with
  | nil =>
    refine fun s => Snd.pure fun w _ => ⟨id, ?_⟩
    intro ms ds d0 hm hd _ _ hb h1
    cases ms with
    | cons => simp at hm
    | nil => cases ds with
      | cons => simp at hd
      | nil =>
        rw [hb]
        congr 1
        simp only [Nat.ofDigits_nil, zero_add]
        split <;> omega
  | cons e l ih =>
    obtain ⟨pl, a⟩ := e
    -- the arithmetic of one step
    have step : ∀ (w : Cell → ZMod p) (lt : AV p) (r : Option (AV p)) (m d d0 : ℕ) (ms ds : List ℕ),
        d < 2 ^ n → (at' w lt = (((if d < m + d0 then 1 else 0) : ℕ) : ZMod p)) → d0 ≤ 1 → m < 2 ^ n →
        (∀ u : ℕ, borrowVal w (some lt) = (u : ZMod p) → u ≤ 1 → borrowVal w r =
          (((if Nat.ofDigits (2 ^ n) ds < Nat.ofDigits (2 ^ n) ms + u then 1 else 0) : ℕ) : ZMod p)) →
        borrowVal w r = (((if Nat.ofDigits (2 ^ n) (d :: ds) < Nat.ofDigits (2 ^ n) (m :: ms) + d0 then 1 else 0) : ℕ) : ZMod p) := by
      intro w lt r m d d0 ms ds hd hlt h01 hm hrec
      rw [hrec (if d < m + d0 then 1 else 0) hlt (by split <;> omega)]
      congr 1
      rw [Nat.ofDigits_cons, Nat.ofDigits_cons]
      generalize Nat.ofDigits (2 ^ n) ds = D
      generalize Nat.ofDigits (2 ^ n) ms = M
      generalize 2 ^ n = B at *
      have key : (D < M + if d < m + d0 then 1 else 0) ↔ d + B * D < m + B * M + d0 := by
        constructor
        · intro h
          split at h
          · have : D ≤ M := by omega
            have := Nat.mul_le_mul_left B this
            omega
          · have : D + 1 ≤ M := by omega
            have := Nat.mul_le_mul_left B this
            rw [Nat.mul_add] at this
            omega
        · intro h
          by_contra hc
          split at hc
          · have : M + 1 ≤ D := by omega
            have := Nat.mul_le_mul_left B this
            rw [Nat.mul_add] at this
            omega
          · have : M ≤ D := by omega
            have := Nat.mul_le_mul_left B this
            omega
      simp only [key]
    cases bw with
    | none =>
      intro s
      refine Snd.bind (isLessThan_sound (.existing a) (.constant pl) n hL hn s) fun lt s1 _ => (ih (some lt) s1).weaken ?_
      rintro w r _ ⟨hs, h⟩ ⟨x, y, hx, hy, hlt⟩
      refine ⟨by simp, ?_⟩
      intro ms ds d0 hm hd hml hdl hb h01
      cases ms with
      | nil => simp at hm
      | cons m ms => cases ds with
        | nil => simp at hd
        | cons d ds =>
          simp only [List.map_cons, List.cons.injEq] at hm hd
          have hm0 := hml m (by simp)
          have hd0 := hdl d (by simp)
          have hdz : d0 = 0 := by
            have : ((d0 : ℕ) : ZMod p) = ((0 : ℕ) : ZMod p) := by rw [← hb]; simp [borrowVal]
            exact natCast_inj_lt this (by omega) (by omega)
          subst hdz
          refine step w lt r m d 0 ms ds hd0 ?_ h01 hm0 fun u hu hu1 => h ms ds u hm.2 hd.2 (fun e he => hml e (by simp [he]))
            (fun e he => hdl e (by simp [he])) hu hu1
          have ex : x.val = d := by rw [show x = _ from hx, hd.1, ZMod.val_natCast_of_lt (by omega)]
          have ey : y.val = m := by rw [show y = _ from hy, hm.1, ZMod.val_natCast_of_lt (by omega)]
          rw [hlt (by omega) (by omega), ex, ey, Nat.add_zero]
          split <;> simp
    | some b =>
      intro s
      refine Snd.bind (add_sound (.constant pl) (.existing b) s) fun pb s0 _ => ?_
      refine Snd.bind (isLessThan_sound (.existing a) (.existing pb) n hL hn s0) fun lt s1 _ => (ih (some lt) s1).weaken ?_
      rintro w r _ ⟨hs, h⟩ ⟨x, y, hx, hy, hlt⟩ ⟨y1, y2, hy1, hy2, hpb⟩
      refine ⟨fun _ => hs rfl, ?_⟩
      intro ms ds d0 hm hd hml hdl hb h01
      cases ms with
      | nil => simp at hm
      | cons m ms => cases ds with
        | nil => simp at hd
        | cons d ds =>
          simp only [List.map_cons, List.cons.injEq] at hm hd
          have hm0 := hml m (by simp)
          have hd0 := hdl d (by simp)
          refine step w lt r m d d0 ms ds hd0 ?_ h01 hm0 fun u hu hu1 => h ms ds u hm.2 hd.2 (fun e he => hml e (by simp [he]))
            (fun e he => hdl e (by simp [he])) hu hu1
          have ex : x.val = d := by rw [show x = _ from hx, hd.1, ZMod.val_natCast_of_lt (by omega)]
          have ey : y.val = m + d0 := by
            have : y = ((m + d0 : ℕ) : ZMod p) := by
              rw [show y = _ from hy, hpb, show y1 = _ from hy1, show y2 = _ from hy2, hm.1, show at' w b = _ from hb]
              push_cast; rfl
            rw [this, ZMod.val_natCast_of_lt (by omega)]
          rw [hlt (by omega) (by omega), ex, ey]
          split <;> simp

theorem enforceLessThanP_sound (h : FpOk c) (a : CrtInt p) :
    Sound (RangeTable p c.L) (c.enforceLessThanP a) (fun w _ => ∀ A, ProperOk c.n c.k w a A → A < c.modulus) := by
  intro s
  refine Snd.bind (enforceLoop_sound h.L h.sub.fst _ none s) fun bw s1 _ => ?_
  refine Snd.unwrap fun b hb => (assertIsConst_sound b 1 s1).weaken ?_
  rintro w _ _ hb1 ⟨-, h0⟩ A ⟨ds, d1, d2, d3, d4, rfl, d6⟩
  have hlen : c.modLimbs.length = a.trunc.limbs.length := by
    have : a.trunc.limbs.length = c.k := by rw [← d1]; simpa using congrArg List.length d3
    rw [this, h.ok.limbs, List.length_map, limbsOf_length]
  have := h0 (limbsOf c.modulus c.k c.n) ds 0 (by rw [List.map_fst_zip (by omega), h.ok.limbs])
    (by
      rw [show (fun e : ZMod p × AV p => at' w e.2) = at' w ∘ Prod.snd from rfl, ← List.map_map, List.map_snd_zip (by omega)]
      exact d3) (fun d hd => limbsOf_lt' hd) d4 (by simp [borrowVal]) (by omega)
  rw [ofDigits_limbsOf _ _ _ h.ok.lt, hb, Nat.add_zero] at this
  change at' w b = _ at this
  rw [hb1] at this
  by_contra hc
  rw [if_neg hc] at this
  simp at this

theorem loadConstantUint_sound (h : FpOk c) {x : ℕ} (hx : x < 2 ^ (c.n * c.k)) :
    Sound tbl (c.loadConstantUint x) (fun w r => r.value = x ∧ ProperOk c.n c.k w r x) :=
  assignFixed_sound h.p32 x h.ok.n64 h.ok.n128 h.ok.k1 hx

theorem isLessThanP_sound (h : FpOk c) (a : CrtInt p) :
    Sound (RangeTable p c.L) (c.isLessThanP a) (fun w r => ∀ A, ProperOk c.n c.k w a A →
      at' w r = if A < c.modulus then 1 else 0) := by
  intro s
  refine Snd.bind (loadConstantUint_sound h h.ok.lt s) fun pc s1 _ => ?_
  refine Snd.rd (base1_rd h.ok) fun b1 hb1 => ?_
  obtain ⟨rfl, -⟩ := hb1
  refine Snd.bind (subCrt_sound (k := c.k) h.L h.sub a pc s1) fun ou s2 _ => ?_
  obtain ⟨o, u⟩ := ou
  refine Snd.bind (isZero_sound u s2) fun z s3 _ => (not_ex z s3).weaken ?_
  rintro w r _ hr hz ⟨-, hs⟩ ⟨-, hpc⟩ A hA
  obtain ⟨hu, -⟩ := hs A c.modulus hA hpc
  change at' w u = _ at hu
  rw [hr, hz, hu]
  by_cases hlt : A < c.modulus <;> simp [hlt]

theorem isEven_sound (h : FpOk c) (a : CrtInt p) :
    Sound (RangeTable p c.L) (c.isEven a) (fun w r => ∀ A, ProperOk c.n c.k w a A →
      A < c.modulus ∧ at' w r = if A % 2 = 0 then 1 else 0) := by
  intro s
  refine Snd.bind (enforceLessThanP_sound h a s) fun _ s1 _ => (bigIsEven_sound (k := c.k) h.L h.pow_n' h.n1 a s1).weaken ?_
  intro w r _ h1 h2 A hA
  exact ⟨h2 A hA, h1 A hA⟩

/-! ### `range_check`, `load_private` -/

theorem rangeCheckLoop_sound {L n : ℕ} (hL : RangeOk p L) (as : List (AV p)) (rem : ℕ) :
    Sound (RangeTable p L) (rangeCheckLoop L n as rem) (fun w _ => ∃ ds : List ℕ,
      as.map (at' w) = ds.map (fun d : ℕ => (d : ZMod p)) ∧ (∀ d ∈ ds, d < 2 ^ n) ∧ Nat.ofDigits (2 ^ n) ds < 2 ^ rem) := by
  induction as generalizing rem with
  | nil => exact fun s => Snd.pure fun w _ => ⟨[], rfl, by simp, by simp⟩
  | cons a as ih =>
    intro s
    refine Snd.bind (rangeCheck_sound a (min n rem) hL s) fun _ s1 _ => (ih _ s1).weaken ?_
    rintro w _ _ ⟨ds, h1, h2, h3⟩ ⟨m, hm, ha⟩
    refine ⟨m :: ds, by simp [ha, h1], ?_, ?_⟩
    · intro d hd
      rcases List.mem_cons.1 hd with rfl | hd
      · exact hm.trans_le (Nat.pow_le_pow_right (by norm_num) (min_le_left _ _))
      · exact h2 d hd
    · rw [Nat.ofDigits_cons]
      rcases le_total n rem with hc | hc
      · rw [min_eq_left hc] at hm h3
        have e : 2 ^ rem = 2 ^ n * 2 ^ (rem - n) := by rw [← pow_add]; congr 1; omega
        have : Nat.ofDigits (2 ^ n) ds + 1 ≤ 2 ^ (rem - n) := h3
        have := Nat.mul_le_mul_left (2 ^ n) this
        rw [e]
        rw [Nat.mul_add] at this
        omega
      · rw [min_eq_right hc] at hm h3
        rw [Nat.sub_self, pow_zero, Nat.lt_one_iff] at h3
        rw [h3]
        simpa using hm

theorem rangeCheck_sound (hL : RangeOk p c.L) (a : CrtInt p) (maxBits : ℕ) :
    Sound (RangeTable p c.L) (c.rangeCheck a maxBits) (fun w _ => ∃ ds : List ℕ,
      a.trunc.limbs.map (at' w) = ds.map (fun d : ℕ => (d : ZMod p)) ∧ (∀ d ∈ ds, d < 2 ^ c.n) ∧
      Nat.ofDigits (2 ^ c.n) ds < 2 ^ maxBits) := rangeCheckLoop_sound hL _ _

theorem assignWitnesses_true (ws : List (ZMod p)) : Sound tbl (assignWitnesses ws) (fun _ _ => True) := by
  intro s
  unfold assignWitnesses
  intro hi r s' h
  obtain ⟨_, s1, h1, h2⟩ := bind_some.1 h
  obtain ⟨a, b, -⟩ := assignRegion_spec (tbl := tbl) hi h1
  simp only [Option.some.injEq, Prod.mk.injEq] at h2
  obtain ⟨rfl, rfl⟩ := h2
  exact ⟨a, b, fun _ _ => trivial⟩

theorem assignWitnesses_len {s : Ctx p} (ws : List (ZMod p)) :
    Inv s → ∀ r s', assignWitnesses ws s = some (r, s') → r.length = ws.length := by
  intro hi r s' h
  obtain ⟨_, s1, h1, h2⟩ := bind_some.1 h
  obtain ⟨a, b, c, _⟩ := assignRegion_spec (tbl := fun _ => True) hi h1
  simp only [Option.some.injEq, Prod.mk.injEq] at h2
  obtain ⟨rfl, rfl⟩ := h2
  simp [c]

theorem loadPrivate_sound (h : FpOk c) (v : ZMod c.modulus) :
    Sound (RangeTable p c.L) (c.loadPrivate v) (fun w r => ∃ A : ℕ, ProperOk c.n c.k w r A ∧ A < 2 ^ Nat.size c.modulus) := by
  intro s
  refine Snd.rd (unwrap_rd _) fun ls hls => ?_
  rw [Utils.decomposeBiguint, Utils.decomposeBigLimbs_eq h.ok.n64 h.ok.n128 (by have := h.ok.k1; omega), Option.map_some,
    Option.some.injEq] at hls
  have hll : ls.length = c.k := by rw [← hls]; simp [limbsOf_length]
  refine Snd.bindP (assignWitnesses_true ls s) (P := fun r _ => r.length = c.k)
    (fun hi r s' hr => by rw [assignWitnesses_len ls hi r s' hr, hll]) fun limbs s1 _ hl => ?_
  refine Snd.bind (intoCrt_sound limbs _ c.bases c.n h.ok.bases hl s1) fun r s2 _ => ?_
  refine Snd.bind (rangeCheck_sound h.L r _ s2) fun _ s3 _ => Snd.pure ?_
  rintro w - ⟨ds, h1, h2, h3⟩ ⟨e1, e2, e3⟩ -
  exact ⟨_, e3 ds (by rw [← e1]; exact h1) h2, h3⟩

theorem loadConstant_sound (h : FpOk c) (v : ZMod c.modulus) :
    Sound tbl (c.loadConstant v) (fun w r => ProperOk c.n c.k w r v.val) := by
  have : NeZero c.modulus := ⟨by have := h.ok.pos; omega⟩
  intro s
  unfold loadConstant
  rw [Utils.C28_fe_to_biguint h.m32]
  exact (loadConstantUint_sound h ((ZMod.val_lt v).trans h.ok.lt) s).weaken fun _ _ _ h => h.2

/-! ### `add_constant_no_carry`, `negate` -/

theorem addConstLoop_sound (l : List (AV p × ZMod p)) :
    Sound tbl (addConstLoop l) (fun w r => r.map (at' w) = l.map (fun e => at' w e.1 + e.2)) := by
  induction l with
  | nil => exact fun s => Snd.pure fun w _ => rfl
  | cons e l ih =>
    obtain ⟨a, x⟩ := e
    intro s
    refine Snd.bind (addc_ex a x s) fun r s1 _ => Snd.bind (ih s1) fun rs s2 _ => Snd.pure ?_
    intro w _ h1 h2
    simp [h1, h2]

theorem addConstantNoCarry_sound (h : FpOk c) (a : CrtInt p) (v : ZMod c.modulus) :
    Sound tbl (c.addConstantNoCarry a v) (fun w r => r.trunc.maxBits = max a.trunc.maxBits c.n + 1 ∧
      r.value = a.value + v.val ∧ ∀ A, CrtOk c.n c.k w a A → CrtOk c.n c.k w r (A + v.val)) := by
  have hpp : 0 < p := Nat.Prime.pos Fact.out
  have : NeZero c.modulus := ⟨by have := h.ok.pos; omega⟩
  have : NeZero p := ⟨by omega⟩
  intro s
  unfold addConstantNoCarry
  rw [Utils.C28_fe_to_biguint h.m32]
  have hv : v.val < 2 ^ (c.n * c.k) := (ZMod.val_lt v).trans h.ok.lt
  refine Snd.rd (unwrap_rd _) fun ls hls => ?_
  rw [Utils.decomposeBiguint, Utils.decomposeBigLimbs_eq h.ok.n64 h.ok.n128 (by have := h.ok.k1; omega), Option.map_some,
    Option.some.injEq] at hls
  refine Snd.rd (unwrap_rd _) fun nv hnv => ?_
  rw [Utils.C28_modulus h.p32, Utils.C28_biguint_to_fe h.p32, if_pos (Nat.mod_lt _ hpp), Option.some.injEq] at hnv
  refine Snd.bind (addConstLoop_sound _ s) fun limbs s1 _ => Snd.bind (addc_ex _ _ s1) fun nat s2 _ => Snd.pure ?_
  rintro w - h2 h1
  refine ⟨rfl, rfl, ?_⟩
  rintro A ⟨xs, x1, x2, x3, x4⟩
  have hal : a.trunc.limbs.length = c.k := by rw [← x1]; simpa using congrArg List.length x2.limbs
  set ys : List ℤ := (limbsOf v.val c.k c.n).map (fun d : ℕ => (d : ℤ)) with hys
  have hyl : ys.length = c.k := by simp [hys, limbsOf_length]
  have hlsy : ls = ys.map (fun y : ℤ => (y : ZMod p)) := by
    rw [← hls, hys, List.map_map]; exact List.map_congr_left fun _ _ => by simp
  refine ⟨List.zipWith (· + ·) xs ys, by simp [x1, hyl], ⟨?_, ?_⟩, ?_, ?_⟩
  · show limbs.map (at' w) = _
    have e : (fun e : AV p × ZMod p => at' w e.1 + e.2) = (fun e : ZMod p × ZMod p => e.1 + e.2) ∘ Prod.map (at' w) id := rfl
    rw [h1, e, ← List.map_map, ← List.zip_map, x2.limbs, List.map_id, hlsy, ← zipWith_casts (g := fun x y : ZMod p => x + y) (by simp),
      List.zip_eq_zipWith, List.map_zipWith]
  · intro z hz
    obtain ⟨x, hx, y, hy, rfl⟩ := mem_zipWith hz
    have b1 := x2.bound x hx
    have b2 : |y| < 2 ^ c.n := by
      rw [hys, List.mem_map] at hy
      obtain ⟨d, hd, rfl⟩ := hy
      rw [abs_of_nonneg (Int.natCast_nonneg d)]
      exact_mod_cast limbsOf_lt' hd
    have := pow_max_succ a.trunc.maxBits c.n
    have := abs_add_le x y
    show |x + y| < 2 ^ (max a.trunc.maxBits c.n + 1)
    linarith
  · rw [limbVal_zipWith_add _ _ _ (by omega), hys, limbVal_map_nat, ofDigits_limbsOf _ _ _ hv]
    exact x3.add_right _
  · show at' w nat = _
    rw [h2, x4, ← hnv]
    push_cast
    simp

theorem negate_sound (h : FpOk c) (a : CrtInt p) :
    Sound (RangeTable p c.L) (c.negate a) (fun w r => ∀ A, ProperOk c.n c.k w a A →
      A ≤ c.modulus ∧ ProperOk c.n c.k w r (if A = 0 then 0 else c.modulus - A)) := by
  intro s
  refine Snd.bind (loadConstantUint_sound h h.ok.lt s) fun pc s1 _ => ?_
  refine Snd.rd (base1_rd h.ok) fun b1 hb1 => ?_
  obtain ⟨rfl, -⟩ := hb1
  refine Snd.bind (subCrt_sound (k := c.k) h.L h.sub pc a s1) fun ou s2 _ => ?_
  obtain ⟨o, u⟩ := ou
  refine Snd.bind (assertIsConst_sound u 0 s2) fun _ s3 _ => ?_
  refine Snd.bind (bigIsZeroPositive_proper (n := c.n) (k := c.k) a s3) fun z s4 _ => (selectCrt_sound a o z s4).weaken ?_
  rintro w r _ ⟨hm, -, h1, h0⟩ hz hu ⟨-, hs⟩ ⟨-, hpc⟩ A hA
  obtain ⟨hu2, ho, -⟩ := hs _ A hpc hA
  change at' w u = _ at hu2
  rw [hu] at hu2
  have hle : A ≤ c.modulus := by
    by_contra hc
    rw [if_pos (by omega)] at hu2
    simp at hu2
  have ho := ho hle
  refine ⟨hle, ?_⟩
  have hz := hz A hA
  have hmax : r.trunc.maxBits = c.n := by
    obtain ⟨_, _, e1, -⟩ := hA
    obtain ⟨_, _, e2, -⟩ := ho
    rw [hm, e1, show o.trunc.maxBits = c.n from e2, max_self]
  by_cases hA0 : A = 0
  · subst hA0
    rw [if_pos rfl] at hz ⊢
    obtain ⟨e1, e2⟩ := h1 hz
    exact hA.congr e1 (by rw [hmax]; obtain ⟨_, _, e, -⟩ := hA; exact e.symm) e2
  · rw [if_neg hA0] at hz ⊢
    obtain ⟨e1, e2⟩ := h0 hz
    exact ho.congr e1 (by rw [hmax]; obtain ⟨_, _, e, -⟩ := ho; exact e.symm) e2

/-! ### Predicates -/

theorem isSoftNonzero_sound (h : FpOk c) (a : CrtInt p) :
    Sound (RangeTable p c.L) (c.isSoftNonzero a) (fun w r => ∀ A, ProperOk c.n c.k w a A →
      at' w r = if A ≠ 0 ∧ A < c.modulus then 1 else 0) := by
  intro s
  refine Snd.bind (bigIsZeroPositive_proper (n := c.n) (k := c.k) a s) fun z s1 _ => ?_
  refine Snd.bind (not_ex z s1) fun nz s2 _ => ?_
  refine Snd.bind (loadConstantUint_sound h h.ok.lt s2) fun pc s3 _ => ?_
  refine Snd.rd (base1_rd h.ok) fun b1 hb1 => ?_
  obtain ⟨rfl, -⟩ := hb1
  refine Snd.bind (subCrt_sound (k := c.k) h.L h.sub a pc s3) fun ou s4 _ => ?_
  obtain ⟨o, u⟩ := ou
  refine Snd.bind (isZero_sound u s4) fun uz s5 _ => ?_
  refine Snd.bind (not_ex uz s5) fun nu s6 _ => (and_sound _ _ s6).weaken ?_
  rintro w r _ ⟨x, y, hx, hy, hr⟩ hnu huz ⟨-, hs⟩ ⟨-, hpc⟩ hnz hz A hA
  obtain ⟨hu, -⟩ := hs A c.modulus hA hpc
  change at' w u = _ at hu
  rw [hr, show x = _ from hx, show y = _ from hy, hnu, huz, hu, hnz, hz A hA]
  by_cases h1 : A = 0 <;> by_cases h2 : A < c.modulus <;> simp [h1, h2]

theorem isZero_sound (h : FpOk c) (a : CrtInt p) :
    Sound (RangeTable p c.L) (c.isZero a) (fun w r => ∀ A, ProperOk c.n c.k w a A →
      A < c.modulus ∧ at' w r = if A = 0 then 1 else 0) := by
  intro s
  refine Snd.bind (enforceLessThanP_sound h a s) fun _ s1 _ => (bigIsZeroPositive_proper (n := c.n) (k := c.k) a s1).weaken ?_
  intro w r _ h1 h2 A hA
  exact ⟨h2 A hA, h1 A hA⟩

theorem eqLoop_sound (l : List (AV p × AV p)) :
    Sound tbl (eqLoop l) (fun w _ => ∀ e ∈ l, at' w e.1 = at' w e.2) := by
  induction l with
  | nil => exact fun s => Snd.pure fun w _ => by simp
  | cons e l ih =>
    obtain ⟨a, b⟩ := e
    intro s
    refine Snd.bind (constrainEqual_sound a b s) fun _ s1 _ => (ih s1).weaken ?_
    intro w _ _ h1 h2
    simpa using ⟨h2, fun a b hab => h1 (a, b) hab⟩

theorem assertEqual_sound (h : FpOk c) (a b : CrtInt p) :
    Sound (RangeTable p c.L) (c.assertEqual a b) (fun w _ => ∀ A B, ProperOk c.n c.k w a A → ProperOk c.n c.k w b B →
      A = B ∧ A < c.modulus) := by
  intro s
  refine Snd.bind (eqLoop_sound _ s) fun _ s1 _ => Snd.bind (enforceLessThanP_sound h a s1) fun _ s2 _ =>
    (enforceLessThanP_sound h b s2).weaken ?_
  intro w _ _ hb ha he A B hA hB
  refine ⟨?_, ha A hA⟩
  obtain ⟨ds, a1, -, a3, a4, rfl, -⟩ := hA
  obtain ⟨es, b1, -, b3, b4, rfl, -⟩ := hB
  have hl : a.trunc.limbs.length = b.trunc.limbs.length := by
    have e1 : a.trunc.limbs.length = ds.length := by simpa using congrArg List.length a3
    have e2 : b.trunc.limbs.length = es.length := by simpa using congrArg List.length b3
    omega
  have hm : a.trunc.limbs.map (at' w) = b.trunc.limbs.map (at' w) := by
    generalize a.trunc.limbs = l1 at he hl
    generalize b.trunc.limbs = l2 at he hl
    clear a3 b3
    induction l1 generalizing l2 with
    | nil => cases l2 <;> simp_all
    | cons x l1 ih => cases l2 with
      | nil => simp at hl
      | cons y l2 =>
        rw [List.map_cons, List.map_cons, he (x, y) (by simp), ih l2 (fun e h => he e (List.mem_cons_of_mem _ h)) (by simpa using hl)]
  rw [a3, b3] at hm
  rw [casts_inj h.pow_n' a4 b4 hm]

end FpChip
end H2
