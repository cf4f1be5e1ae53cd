import Verif.BigInt.SoundSub
import Verif.BigInt.SoundMod
import Verif.Gate.CompleteBits
import Verif.Range.Complete

/-!
# Completeness of the big-integer routines

The honest prover's cells are *well formed* (`AvW`): they carry a value, and it is the value of the cell.  What the values
mean is then taken from the soundness theorems, applied to the honest assignment (`Cmp.withSnd`).
-/

set_option autoImplicit false
set_option linter.unusedSectionVars false
namespace H2
variable {p : ℕ} [Fact p.Prime] {tbl : ZMod p → Prop} {ext : Cell → ZMod p} {s s' : Ctx p} {L n k : ℕ}

/-- What holds of every satisfying assignment holds of the honest one. -/
theorem Cmp.withSnd {α : Type} {m : M p α} {Q : α → Ctx p → Prop} {R : (Cell → ZMod p) → α → Prop}
    (h : Cmp tbl ext s m Q) (hs : Sound tbl m R) : Cmp tbl ext s m (fun r s' => Q r s' ∧ R (hw ext s') r) := by
  intro hg
  obtain ⟨r, s', h1, h2, h3, h4⟩ := h hg
  exact ⟨r, s', h1, h2, h3, h4, (hs s hg.inv r s' h1).2.2 _ h2.sat⟩

/-- The assigned value carries the value of its cell. -/
def AvW (ext : Cell → ZMod p) (s : Ctx p) (a : AV p) : Prop := Con ext s a (at' (hw ext s) a)

def AvsW (ext : Cell → ZMod p) (s : Ctx p) (as : List (AV p)) : Prop := ∀ a ∈ as, AvW ext s a

theorem Con.w {a : AV p} {x : ZMod p} (h : Con ext s a x) : AvW ext s a := by
  unfold AvW; rw [h.at]; exact h

theorem AvW.q {a : AV p} (h : AvW ext s a) : QCon ext s (.existing a) (at' (hw ext s) a) := h

theorem AvW.mono {a : AV p} (h : AvW ext s a) (e : Ext s s') : AvW ext s' a := (Con.mono h e).w

theorem AvW.at_mono {a : AV p} (h : AvW ext s a) (e : Ext s s') : at' (hw ext s') a = at' (hw ext s) a :=
  (Con.mono h e).at

theorem AvsW.mono {as : List (AV p)} (h : AvsW ext s as) (e : Ext s s') : AvsW ext s' as := fun a ha => (h a ha).mono e

theorem AvsW.at_mono {as : List (AV p)} (h : AvsW ext s as) (e : Ext s s') :
    as.map (at' (hw ext s')) = as.map (at' (hw ext s)) := List.map_congr_left fun a ha => (h a ha).at_mono e

theorem AvsW.con {as : List (AV p)} (h : AvsW ext s as) : AvsCon ext s as (as.map (at' (hw ext s))) := by
  induction as with
  | nil => exact .nil
  | cons a as ih => exact .cons (h a (by simp)) (ih fun b hb => h b (by simp [hb]))

theorem AvsCon.w {as : List (AV p)} {xs : List (ZMod p)} (h : AvsCon ext s as xs) : AvsW ext s as := by
  induction as generalizing xs with
  | nil => simp [AvsW]
  | cons a as ih =>
    rcases h with _ | ⟨h1, h2⟩
    intro b hb
    rcases List.mem_cons.1 hb with rfl | hb
    · exact h1.w
    · exact ih h2 b hb

theorem AvsCon.map_at {as : List (AV p)} {xs : List (ZMod p)} (h : AvsCon ext s as xs) :
    as.map (at' (hw ext s)) = xs := by
  induction as generalizing xs with
  | nil => rcases h with _ | _; rfl
  | cons a as ih =>
    rcases h with _ | ⟨h1, h2⟩
    rw [List.map_cons, h1.at, ih h2]

theorem AvsW.cons {a : AV p} {as : List (AV p)} (h : AvW ext s a) (h2 : AvsW ext s as) : AvsW ext s (a :: as) := by
  intro b hb
  rcases List.mem_cons.1 hb with rfl | hb
  · exact h
  · exact h2 b hb

/-- In the honest assignment, the `CRTInteger` `a` represents `X` and its claimed value is `X`. -/
structure CrtW (n k : ℕ) (ext : Cell → ZMod p) (s : Ctx p) (a : CrtInt p) (X : ℤ) : Prop where
  ok : CrtOk n k (hw ext s) a X
  limbs : AvsW ext s a.trunc.limbs
  native : AvW ext s a.native
  value : a.value = X

/-- In the honest assignment, the `ProperCrtUint` `a` represents `X` and its claimed value is `X`. -/
structure ProperW (n k : ℕ) (ext : Cell → ZMod p) (s : Ctx p) (a : CrtInt p) (X : ℕ) : Prop where
  ok : ProperOk n k (hw ext s) a X
  limbs : AvsW ext s a.trunc.limbs
  native : AvW ext s a.native
  value : a.value = X

theorem ProperW.crt {a : CrtInt p} {X : ℕ} (h : ProperW n k ext s a X) : CrtW n k ext s a X :=
  ⟨h.ok.crt, h.limbs, h.native, h.value⟩

theorem CrtW.mono {a : CrtInt p} {X : ℤ} (h : CrtW n k ext s a X) (e : Ext s s') : CrtW n k ext s' a X := by
  refine ⟨?_, h.limbs.mono e, h.native.mono e, h.value⟩
  obtain ⟨xs, h1, h2, h3, h4⟩ := h.ok
  exact ⟨xs, h1, ⟨by rw [h.limbs.at_mono e]; exact h2.limbs, h2.bound⟩, h3, by rw [h.native.at_mono e]; exact h4⟩

theorem ProperW.mono {a : CrtInt p} {X : ℕ} (h : ProperW n k ext s a X) (e : Ext s s') : ProperW n k ext s' a X := by
  refine ⟨?_, h.limbs.mono e, h.native.mono e, h.value⟩
  obtain ⟨xs, h1, h2, h3, h4, h5, h6⟩ := h.ok
  exact ⟨xs, h1, h2, by rw [h.limbs.at_mono e]; exact h3, h4, h5, by rw [h.native.at_mono e]; exact h6⟩

/-! ### Linear operations -/

theorem zipEqM_cmp {f : AV p → AV p → M p (AV p)}
    (hf : ∀ s a b, AvW ext s a → AvW ext s b → Cmp tbl ext s (f a b) (fun r s' => AvW ext s' r))
    {as bs : List (AV p)} (ha : AvsW ext s as) (hb : AvsW ext s bs) (hl : as.length = bs.length) :
    Cmp tbl ext s (zipEqM f as bs) (fun rs s' => AvsW ext s' rs ∧ rs.length = as.length) := by
  induction as generalizing s bs with
  | nil =>
    cases bs with
    | nil => exact Cmp.pure ⟨by simp [AvsW], rfl⟩
    | cons => simp at hl
  | cons a as ih =>
    cases bs with
    | nil => simp at hl
    | cons b bs =>
      refine Cmp.bind (hf s a b (ha a (by simp)) (hb b (by simp))) fun r s1 e1 hr => ?_
      refine Cmp.bind (ih (s := s1) (bs := bs) (fun x hx => (ha x (by simp [hx])).mono e1)
        (fun x hx => (hb x (by simp [hx])).mono e1) (by simpa using hl)) fun rs s2 e2 hrs => Cmp.pure ?_
      exact ⟨.cons (hr.mono e2) hrs.1, by simp [hrs.2]⟩

theorem mapAM_cmp {f : AV p → M p (AV p)}
    (hf : ∀ s a, AvW ext s a → Cmp tbl ext s (f a) (fun r s' => AvW ext s' r))
    {as : List (AV p)} (ha : AvsW ext s as) :
    Cmp tbl ext s (mapAM f as) (fun rs s' => AvsW ext s' rs ∧ rs.length = as.length) := by
  induction as generalizing s with
  | nil => exact Cmp.pure ⟨by simp [AvsW], rfl⟩
  | cons a as ih =>
    refine Cmp.bind (hf s a (ha a (by simp))) fun r s1 e1 hr => ?_
    refine Cmp.bind (ih (s := s1) (fun x hx => (ha x (by simp [hx])).mono e1)) fun rs s2 e2 hrs => Cmp.pure ?_
    exact ⟨.cons (hr.mono e2) hrs.1, by simp [hrs.2]⟩

/-- The structural part of a `CRTInteger` result. -/
structure CrtS (ext : Cell → ZMod p) (s : Ctx p) (a : CrtInt p) : Prop where
  limbs : AvsW ext s a.trunc.limbs
  native : AvW ext s a.native

theorem CrtW.crtS {a : CrtInt p} {X : ℤ} (h : CrtW n k ext s a X) : CrtS ext s a := ⟨h.limbs, h.native⟩

theorem add_w (s : Ctx p) (a b : AV p) (ha : AvW ext s a) (hb : AvW ext s b) :
    Cmp tbl ext s (add (.existing a) (.existing b)) (fun r s' => AvW ext s' r) :=
  (add_cmp ha.q hb.q).weaken fun _ _ h => h.w

theorem sub_w (s : Ctx p) (a b : AV p) (ha : AvW ext s a) (hb : AvW ext s b) :
    Cmp tbl ext s (sub (.existing a) (.existing b)) (fun r s' => AvW ext s' r) :=
  (sub_cmp ha.q hb.q).weaken fun _ _ h => h.w

theorem mul_w (s : Ctx p) (a b : AV p) (ha : AvW ext s a) (hb : AvW ext s b) :
    Cmp tbl ext s (mul (.existing a) (.existing b)) (fun r s' => AvW ext s' r) :=
  (mul_cmp ha.q hb.q).weaken fun _ _ h => h.w

theorem mulc_w (c : ZMod p) (s : Ctx p) (a : AV p) (ha : AvW ext s a) :
    Cmp tbl ext s (mul (.existing a) (.constant c)) (fun r s' => AvW ext s' r) :=
  (mul_cmp (b := .constant c) ha.q rfl).weaken fun _ _ h => h.w

theorem neg_w (s : Ctx p) (a : AV p) (ha : AvW ext s a) :
    Cmp tbl ext s (neg (.existing a)) (fun r s' => AvW ext s' r) :=
  (neg_cmp ha.q).weaken fun _ _ h => h.w

theorem mulAddc_w (c : ZMod p) (s : Ctx p) (a b : AV p) (ha : AvW ext s a) (hb : AvW ext s b) :
    Cmp tbl ext s (mulAdd (.existing a) (.constant c) (.existing b)) (fun r s' => AvW ext s' r) :=
  (mulAdd_cmp (b := .constant c) ha.q rfl hb.q).weaken fun _ _ h => h.w

theorem select_w (c : AV p) (s : Ctx p) (a b : AV p) (hc : AvW ext s c) (ha : AvW ext s a) (hb : AvW ext s b) :
    Cmp tbl ext s (select (.existing a) (.existing b) (.existing c)) (fun r s' => AvW ext s' r) :=
  (select_cmp ha.q hb.q hc.q).weaken fun _ _ h => h.w

theorem CrtW.len {a b : CrtInt p} {X Y : ℤ} (ha : CrtW n k ext s a X) (hb : CrtW n k ext s b Y) :
    a.trunc.limbs.length = b.trunc.limbs.length := by rw [ha.ok.length, hb.ok.length]

theorem addNoCarryCrt_cmp {a b : CrtInt p} {X Y : ℤ} (ha : CrtW n k ext s a X) (hb : CrtW n k ext s b Y) :
    Cmp tbl ext s (addNoCarryCrt a b) (fun r s' =>
      r.trunc.maxBits = max a.trunc.maxBits b.trunc.maxBits + 1 ∧ CrtW n k ext s' r (X + Y)) := by
  have h : Cmp tbl ext s (addNoCarryCrt a b) (fun r s' => CrtS ext s' r) := by
    unfold addNoCarryCrt addNoCarry
    rw [bind_assoc]
    refine Cmp.bind (zipEqM_cmp add_w ha.limbs hb.limbs (ha.len hb)) fun ls s1 e1 hls => ?_
    rw [pure_bind]
    refine Cmp.bind (add_w s1 _ _ (ha.native.mono e1) (hb.native.mono e1)) fun v s2 e2 hv => Cmp.pure ?_
    exact ⟨hls.1.mono e2, hv⟩
  refine (h.withSnd (addNoCarryCrt_sound (n := n) (k := k) a b)).weakenE ?_
  rintro r s' e ⟨hs, hm, hv, hr⟩
  exact ⟨hm, hr X Y (ha.mono e).ok (hb.mono e).ok, hs.limbs, hs.native, by rw [hv, ha.value, hb.value]⟩

theorem subNoCarryCrt_cmp {a b : CrtInt p} {X Y : ℤ} (ha : CrtW n k ext s a X) (hb : CrtW n k ext s b Y) :
    Cmp tbl ext s (subNoCarryCrt a b) (fun r s' =>
      r.trunc.maxBits = max a.trunc.maxBits b.trunc.maxBits + 1 ∧ CrtW n k ext s' r (X - Y)) := by
  have h : Cmp tbl ext s (subNoCarryCrt a b) (fun r s' => CrtS ext s' r) := by
    unfold subNoCarryCrt subNoCarry
    rw [bind_assoc]
    refine Cmp.bind (zipEqM_cmp sub_w ha.limbs hb.limbs (ha.len hb)) fun ls s1 e1 hls => ?_
    rw [pure_bind]
    refine Cmp.bind (sub_w s1 _ _ (ha.native.mono e1) (hb.native.mono e1)) fun v s2 e2 hv => Cmp.pure ?_
    exact ⟨hls.1.mono e2, hv⟩
  refine (h.withSnd (subNoCarryCrt_sound (n := n) (k := k) a b)).weakenE ?_
  rintro r s' e ⟨hs, hm, hv, hr⟩
  exact ⟨hm, hr X Y (ha.mono e).ok (hb.mono e).ok, hs.limbs, hs.native, by rw [hv, ha.value, hb.value]⟩

theorem negInt_cmp {a : OvInt p} (ha : AvsW ext s a.limbs) :
    Cmp tbl ext s (negInt a) (fun r s' => AvsW ext s' r.limbs ∧ r.limbs.length = a.limbs.length) := by
  refine Cmp.bind (mapAM_cmp neg_w ha) fun ls s1 e1 hls => Cmp.pure ?_
  exact hls

theorem log2Ceil_some {x : ℕ} (hx : x ≤ 2 ^ 63) : ∃ c, Utils.log2Ceil x = some c := by
  unfold Utils.log2Ceil
  rw [if_neg]
  · exact ⟨_, rfl⟩
  · split
    · rename_i h
      obtain ⟨j, rfl⟩ := (Utils.isPow2_iff x).1 h
      have h1 : 0 < Nat.size (2 ^ j) := Nat.size_pos.2 (by positivity)
      unfold Utils.leadingZeros
      omega
    · omega

theorem i64ToFe_pure {c : ℤ} (hc : |c| < 2 ^ 63) : (i64ToFe c : M p (ZMod p × ℕ)) = pure ((c : ZMod p), c.natAbs) := by
  have h : decide (-2 ^ 63 < c ∧ c < 2 ^ 63) = true := by rw [decide_eq_true_eq]; exact abs_lt.1 hc
  unfold i64ToFe
  rw [h]
  have e : (if 0 ≤ c then ((c.natAbs : ℕ) : ZMod p) else -((c.natAbs : ℕ) : ZMod p)) = (c : ZMod p) := by
    split
    · rename_i h
      conv_rhs => rw [← Int.natAbs_of_nonneg h]
      simp
    · rename_i h
      conv_rhs => rw [show c = -((c.natAbs : ℕ) : ℤ) by omega]
      simp
  rw [e]
  rfl

theorem scalarMulNoCarryCrt_cmp {a : CrtInt p} {X c : ℤ} (ha : CrtW n k ext s a X) (hc : |c| < 2 ^ 63) :
    Cmp tbl ext s (scalarMulNoCarryCrt a c) (fun r s' =>
      (∃ cl, Utils.log2Ceil c.natAbs = some cl ∧ r.trunc.maxBits = a.trunc.maxBits + cl) ∧ CrtW n k ext s' r (X * c)) := by
  have h : Cmp tbl ext s (scalarMulNoCarryCrt a c) (fun r s' => CrtS ext s' r) := by
    unfold scalarMulNoCarryCrt
    rw [i64ToFe_pure hc, pure_bind]
    obtain ⟨cl, hcl⟩ := log2Ceil_some (x := c.natAbs) (by rw [abs_lt] at hc; omega)
    refine Cmp.unwrap hcl ?_
    unfold scalarMulNoCarry
    rw [bind_assoc]
    refine Cmp.bind (mapAM_cmp (mulc_w _) ha.limbs) fun ls s1 e1 hls => ?_
    rw [pure_bind]
    refine Cmp.bind (mulc_w _ s1 _ (ha.native.mono e1)) fun v s2 e2 hv => Cmp.pure ?_
    exact ⟨hls.1.mono e2, hv⟩
  refine (h.withSnd (scalarMulNoCarryCrt_sound (n := n) (k := k) a c)).weakenE ?_
  rintro r s' e ⟨hs, hm, hv, hr⟩
  exact ⟨hm, hr X (ha.mono e).ok, hs.limbs, hs.native, by rw [hv, ha.value]⟩

theorem scalarMulAddNoCarryCrt_cmp {a b : CrtInt p} {X Y c : ℤ} (ha : CrtW n k ext s a X) (hb : CrtW n k ext s b Y)
    (hc : |c| < 2 ^ 63) : Cmp tbl ext s (scalarMulAddNoCarryCrt a b c) (fun r s' =>
      (∃ cl, Utils.log2Ceil c.natAbs = some cl ∧ r.trunc.maxBits = max (a.trunc.maxBits + cl) b.trunc.maxBits + 1) ∧
      CrtW n k ext s' r (X * c + Y)) := by
  have h : Cmp tbl ext s (scalarMulAddNoCarryCrt a b c) (fun r s' => CrtS ext s' r) := by
    unfold scalarMulAddNoCarryCrt
    rw [i64ToFe_pure hc, pure_bind]
    obtain ⟨cl, hcl⟩ := log2Ceil_some (x := c.natAbs) (by rw [abs_lt] at hc; omega)
    refine Cmp.unwrap hcl ?_
    unfold scalarMulAddNoCarry
    rw [bind_assoc]
    refine Cmp.bind (zipEqM_cmp (mulAddc_w _) ha.limbs hb.limbs (ha.len hb)) fun ls s1 e1 hls => ?_
    rw [pure_bind]
    refine Cmp.bind (mulAddc_w _ s1 _ _ (ha.native.mono e1) (hb.native.mono e1)) fun v s2 e2 hv => Cmp.pure ?_
    exact ⟨hls.1.mono e2, hv⟩
  refine (h.withSnd (scalarMulAddNoCarryCrt_sound (n := n) (k := k) a b c)).weakenE ?_
  rintro r s' e ⟨hs, hm, hv, hr⟩
  exact ⟨hm, hr X Y (ha.mono e).ok (hb.mono e).ok, hs.limbs, hs.native, by rw [hv, ha.value, hb.value]⟩

theorem AvsW.qs {as : List (AV p)} (h : AvsW ext s as) : QsConT ext s (as.map .existing) (as.map (at' (hw ext s))) :=
  .existing h.con

theorem AvsW.sub {as bs : List (AV p)} (h : AvsW ext s as) (hb : ∀ b ∈ bs, b ∈ as) : AvsW ext s bs :=
  fun b hx => h b (hb b hx)

theorem mulLoop_cmp {a b : List (AV p)} (ha : AvsW ext s a) (hb : AvsW ext s b) (hl : a.length = b.length) (is : List ℕ) :
    Cmp tbl ext s (mulLoop a b is) (fun rs s' => AvsW ext s' rs ∧ rs.length = is.length) := by
  induction is generalizing s with
  | nil => exact Cmp.pure ⟨by simp [AvsW], rfl⟩
  | cons i is ih =>
    have h1 : AvsW ext s (a.take (i + 1)) := ha.sub fun x hx => List.mem_of_mem_take hx
    have h2 : AvsW ext s (b.take (i + 1)).reverse := hb.sub fun x hx => List.mem_of_mem_take (List.mem_reverse.1 hx)
    refine Cmp.bind (innerProduct_cmp h1.qs h2.qs (by simp [hl])) fun r s1 e1 hr => ?_
    refine Cmp.bind (ih (ha.mono e1) (hb.mono e1)) fun rs s2 e2 hrs => Cmp.pure ?_
    exact ⟨.cons (hr.w.mono e2) hrs.1, by simp [hrs.2]⟩

theorem mulNoCarryCrt_cmp {a b : CrtInt p} {X Y : ℤ} {kl : ℕ} (hk : k ≤ 2 ^ kl) (ha : CrtW n k ext s a X)
    (hb : CrtW n k ext s b Y) : Cmp tbl ext s (mulNoCarryCrt a b kl) (fun r s' =>
      r.trunc.maxBits = kl + a.trunc.maxBits + b.trunc.maxBits ∧ CrtW n k ext s' r (X * Y)) := by
  have h : Cmp tbl ext s (mulNoCarryCrt a b kl) (fun r s' => CrtS ext s' r) := by
    unfold mulNoCarryCrt mulNoCarry
    rw [bind_assoc]
    refine Cmp.assert (by simpa using ha.len hb) ?_
    rw [bind_assoc]
    refine Cmp.bind (mulLoop_cmp ha.limbs hb.limbs (ha.len hb) _) fun ls s1 e1 hls => ?_
    rw [pure_bind]
    refine Cmp.bind (mul_w s1 _ _ (ha.native.mono e1) (hb.native.mono e1)) fun v s2 e2 hv => Cmp.pure ?_
    exact ⟨hls.1.mono e2, hv⟩
  refine (h.withSnd (mulNoCarryCrt_sound (n := n) (k := k) a b kl hk)).weakenE ?_
  rintro r s' e ⟨hs, hm, hv, hr⟩
  exact ⟨hm, hr ha.ok.length X Y (ha.mono e).ok (hb.mono e).ok, hs.limbs, hs.native, by rw [hv, ha.value, hb.value]⟩

/-! ### Selection -/

theorem selectCrt_cmp {a b : CrtInt p} {X Y : ℤ} {sel : AV p} {b1 : Bool} (ha : CrtW n k ext s a X) (hb : CrtW n k ext s b Y)
    (hc : Con ext s sel (if b1 then 1 else 0)) : Cmp tbl ext s (selectCrt a b sel) (fun r s' =>
      r.trunc.maxBits = max a.trunc.maxBits b.trunc.maxBits ∧ CrtW n k ext s' r (if b1 then X else Y)) := by
  have h : Cmp tbl ext s (selectCrt a b sel) (fun r s' => CrtS ext s' r ∧ r.value = if b1 then X else Y) := by
    unfold selectCrt selectInt
    rw [bind_assoc]
    have hz : Cmp tbl ext s (zipEqM (fun x y => select (.existing x) (.existing y) (.existing sel)) a.trunc.limbs b.trunc.limbs)
        (fun rs s' => AvsW ext s' rs ∧ rs.length = a.trunc.limbs.length) := by
      have hl := ha.len hb
      have h1 := ha.limbs
      have h2 := hb.limbs
      clear ha hb
      generalize a.trunc.limbs = as at *
      generalize b.trunc.limbs = bs at *
      induction as generalizing s bs with
      | nil =>
        cases bs with
        | nil => exact Cmp.pure ⟨by simp [AvsW], rfl⟩
        | cons => simp at hl
      | cons a as ih =>
        cases bs with
        | nil => simp at hl
        | cons b bs =>
          refine Cmp.bind (select_w sel s a b hc.w (h1 a (by simp)) (h2 b (by simp))) fun r s1 e1 hr => ?_
          refine Cmp.bind (ih (s := s1) (hc.mono e1) (fun x hx => (h1 x (by simp [hx])).mono e1) bs
            (fun x hx => (h2 x (by simp [hx])).mono e1) (by simpa using hl)) fun rs s2 e2 hrs => Cmp.pure ?_
          exact ⟨.cons (hr.mono e2) hrs.1, by simp [hrs.2]⟩
    refine Cmp.bind hz fun ls s1 e1 hls => ?_
    rw [pure_bind]
    refine Cmp.bind (select_w sel s1 _ _ (hc.w.mono e1) (ha.native.mono e1) (hb.native.mono e1)) fun v s2 e2 hv => ?_
    refine Cmp.unwrap hc.val (Cmp.pure ⟨⟨hls.1.mono e2, hv⟩, ?_⟩)
    cases b1 <;> simp [ha.value, hb.value]
  refine (h.withSnd (selectCrt_sound a b sel)).weakenE ?_
  rintro r s' e ⟨⟨hs, hv⟩, hm, -, h1, h0⟩
  refine ⟨hm, ?_, hs.limbs, hs.native, hv⟩
  have hat := (hc.mono e).at
  cases b1 with
  | true =>
    obtain ⟨h2, h3⟩ := h1 (by simpa using hat)
    exact (ha.mono e).ok.widen h2 (by rw [hm]; exact le_max_left _ _) h3
  | false =>
    obtain ⟨h2, h3⟩ := h0 (by simpa using hat)
    exact (hb.mono e).ok.widen h2 (by rw [hm]; exact le_max_right _ _) h3

/-! ### Native evaluation and constants -/

theorem evalNative_cmp {limbs : List (AV p)} {bases : List (ZMod p)} (h : AvsW ext s limbs)
    (hl : limbs.length = bases.length) : Cmp tbl ext s (evalNative limbs bases) (fun r s' => AvW ext s' r) :=
  (innerProduct_cmp h.qs (QsConT.constants bases) (by simpa using hl)).weaken fun _ _ h => h.w

theorem intoCrt_cmp {limbs : List (AV p)} {value : ℕ} {bases : List (ZMod p)}
    (hb : bases = (List.range k).map (fun i : ℕ => ((2 ^ n : ℕ) : ZMod p) ^ i)) (hv : value < 2 ^ (n * k))
    (h : AvsCon ext s limbs ((limbsOf value k n).map (fun d : ℕ => (d : ZMod p)))) :
    Cmp tbl ext s (intoCrt limbs value bases n) (fun r s' => ProperW n k ext s' r value) := by
  have hl : limbs.length = k := by
    rw [List.Forall₂.length_eq h, List.length_map, limbsOf_length]
  have h1 : Cmp tbl ext s (intoCrt limbs value bases n) (fun r s' => CrtS ext s' r ∧ r.value = value) := by
    refine Cmp.bind (evalNative_cmp h.w (by rw [hb]; simpa using hl)) fun v s1 e1 hv => Cmp.pure ?_
    exact ⟨⟨h.w.mono e1, hv⟩, rfl⟩
  refine (h1.withSnd (intoCrt_sound limbs value bases n hb hl)).weakenE ?_
  rintro r s' e ⟨⟨hs, hv'⟩, hl', -, hr⟩
  refine ⟨?_, hs.limbs, hs.native, hv'⟩
  have := hr _ (h.mono e).map_at (fun d hd => limbsOf_lt' hd)
  rwa [ofDigits_limbsOf _ _ _ hv] at this

theorem assignFixed_cmp (hp : p ≤ 256 ^ 32) {value : ℕ} (hn : 64 ≤ n) (hn' : n < 128) (hk : 1 ≤ k) (hv : value < 2 ^ (n * k)) :
    Cmp tbl ext s (assignFixed value k n : M p (CrtInt p)) (fun r s' => ProperW n k ext s' r value) := by
  have h : Cmp tbl ext s (assignFixed value k n : M p (CrtInt p)) (fun r s' => CrtS ext s' r) := by
    unfold assignFixed
    refine Cmp.unwrap (a := (limbsOf value k n).map (fun d : ℕ => (d : ZMod p))) ?_ ?_
    · rw [Utils.decomposeBiguint, Utils.decomposeBigLimbs_eq hn hn' (by omega), Option.map_some]
    · refine Cmp.bind (loadConstants_cmp _) fun limbs s1 e1 hl => ?_
      refine Cmp.unwrap (a := ((value % p : ℕ) : ZMod p)) ?_ ?_
      · rw [Utils.C28_modulus hp, Utils.C28_biguint_to_fe hp, if_pos (Nat.mod_lt _ (Nat.Prime.pos Fact.out))]
      · refine Cmp.bind (loadConstant_cmp _) fun v s2 e2 hv => Cmp.pure ⟨hl.w.mono e2, hv.w⟩
  refine (h.withSnd (assignFixed_sound hp value hn hn' hk hv)).weaken ?_
  rintro r s' ⟨hs, h1, h2⟩
  exact ⟨h2, hs.limbs, hs.native, h1⟩

end H2
