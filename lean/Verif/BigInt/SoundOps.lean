import Verif.BigInt.Spec
import Verif.Gate.SoundBits
import Verif.Gate.CompleteBits
import Verif.Range.SoundOps
import Verif.Props.Utils

/-! # Soundness of the carry-free big integer routines -/

set_option autoImplicit false
set_option linter.unusedSectionVars false
namespace H2
variable {p : ℕ} [Fact p.Prime] {tbl : ZMod p → Prop} {n k : ℕ}

theorem add_ex (a b : AV p) : Sound tbl (add (.existing a) (.existing b)) (fun w r => at' w r = at' w a + at' w b) := by
  refine fun s => (add_sound _ _ s).weaken ?_
  rintro w r _ ⟨x, y, hx, hy, h⟩
  rw [h, show x = _ from hx, show y = _ from hy]

theorem addc_ex (a : AV p) (c : ZMod p) : Sound tbl (add (.existing a) (.constant c)) (fun w r => at' w r = at' w a + c) := by
  refine fun s => (add_sound _ _ s).weaken ?_
  rintro w r _ ⟨x, y, hx, hy, h⟩
  rw [h, show x = _ from hx, show y = _ from hy]

theorem sub_ex (a b : AV p) : Sound tbl (sub (.existing a) (.existing b)) (fun w r => at' w r = at' w a - at' w b) := by
  refine fun s => (sub_sound _ _ s).weaken ?_
  rintro w r _ ⟨x, y, hx, hy, h⟩
  rw [h, show x = _ from hx, show y = _ from hy]

theorem neg_ex (a : AV p) : Sound tbl (neg (.existing a)) (fun w r => at' w r = -at' w a) := by
  refine fun s => (neg_sound _ s).weaken ?_
  rintro w r _ ⟨x, hx, h⟩
  rw [h, show x = _ from hx]

theorem mul_ex (a b : AV p) : Sound tbl (mul (.existing a) (.existing b)) (fun w r => at' w r = at' w a * at' w b) := by
  refine fun s => (mul_sound _ _ s).weaken ?_
  rintro w r _ ⟨x, y, hx, hy, h⟩
  rw [h, show x = _ from hx, show y = _ from hy]

theorem mulc_ex (a : AV p) (c : ZMod p) : Sound tbl (mul (.existing a) (.constant c)) (fun w r => at' w r = at' w a * c) := by
  refine fun s => (mul_sound _ _ s).weaken ?_
  rintro w r _ ⟨x, y, hx, hy, h⟩
  rw [h, show x = _ from hx, show y = _ from hy]

theorem mulAddc_ex (a : AV p) (c : ZMod p) (b : AV p) :
    Sound tbl (mulAdd (.existing a) (.constant c) (.existing b)) (fun w r => at' w r = at' w a * c + at' w b) := by
  refine fun s => (mulAdd_sound _ _ _ s).weaken ?_
  rintro w r _ ⟨x, y, z, hx, hy, hz, h⟩
  rw [h, show x = _ from hx, show y = _ from hy, show z = _ from hz]

theorem select_ex (a b c : AV p) : Sound tbl (select (.existing a) (.existing b) (.existing c)) (fun w r =>
    at' w r = (at' w a - at' w b) * at' w c + at' w b) := by
  refine fun s => (select_sound _ _ _ s).weaken ?_
  rintro w r _ ⟨x, y, z, hx, hy, hz, h⟩
  rw [h, show x = _ from hx, show y = _ from hy, show z = _ from hz]

theorem isEqual_ex (a b : AV p) : Sound tbl (isEqual (.existing a) (.existing b)) (fun w r =>
    at' w r = if at' w a = at' w b then 1 else 0) := by
  refine fun s => (isEqual_sound _ _ s).weaken ?_
  rintro w r _ ⟨x, y, hx, hy, h⟩
  rw [h, show x = _ from hx, show y = _ from hy]

theorem not_ex (a : AV p) : Sound tbl (not (.existing a)) (fun w r => at' w r = 1 - at' w a) := by
  refine fun s => (not_sound _ s).weaken ?_
  rintro w r _ ⟨x, hx, h⟩
  rw [h, show x = _ from hx]

theorem zipEqM_sound {f : AV p → AV p → M p (AV p)} {g : (Cell → ZMod p) → ZMod p → ZMod p → ZMod p}
    (hf : ∀ a b, Sound tbl (f a b) (fun w r => at' w r = g w (at' w a) (at' w b))) (as bs : List (AV p)) :
    Sound tbl (zipEqM f as bs) (fun w rs => as.length = bs.length ∧
      rs.map (at' w) = List.zipWith (g w) (as.map (at' w)) (bs.map (at' w))) := by
  induction as generalizing bs with
  | nil => cases bs with
    | nil => exact fun s => Snd.pure fun w _ => ⟨rfl, rfl⟩
    | cons b bs => exact fun s => Snd.panic
  | cons a as ih => cases bs with
    | nil => exact fun s => Snd.panic
    | cons b bs =>
      intro s
      refine Snd.bind (hf a b s) fun r s1 _ => Snd.bind (ih bs s1) fun rs s2 _ => Snd.pure ?_
      rintro w - ⟨h1, h2⟩ h3
      exact ⟨by simpa using h1, by simp [h2, h3]⟩

theorem mapAM_sound {f : AV p → M p (AV p)} {g : (Cell → ZMod p) → ZMod p → ZMod p}
    (hf : ∀ a, Sound tbl (f a) (fun w r => at' w r = g w (at' w a))) (as : List (AV p)) :
    Sound tbl (mapAM f as) (fun w rs => rs.map (at' w) = (as.map (at' w)).map (g w)) := by
  induction as with
  | nil => exact fun s => Snd.pure fun w _ => rfl
  | cons a as ih =>
    intro s
    refine Snd.bind (hf a s) fun r s1 _ => Snd.bind (ih s1) fun rs s2 _ => Snd.pure ?_
    rintro w - h1 h2
    simp [h1, h2]

theorem zipWith_casts {g : ZMod p → ZMod p → ZMod p} {h : ℤ → ℤ → ℤ}
    (e : ∀ x y : ℤ, g (x : ZMod p) (y : ZMod p) = ((h x y : ℤ) : ZMod p)) (xs ys : List ℤ) :
    List.zipWith g (xs.map (fun x : ℤ => (x : ZMod p))) (ys.map (fun x : ℤ => (x : ZMod p))) =
      (List.zipWith h xs ys).map (fun x : ℤ => (x : ZMod p)) := by
  rw [List.zipWith_map, List.map_zipWith]
  congr 1
  funext x y
  exact e x y

theorem mem_zipWith {h : ℤ → ℤ → ℤ} {xs ys : List ℤ} {z : ℤ} (hz : z ∈ List.zipWith h xs ys) :
    ∃ x ∈ xs, ∃ y ∈ ys, z = h x y := by
  induction xs generalizing ys with
  | nil => simp at hz
  | cons x xs ih =>
    cases ys with
    | nil => simp at hz
    | cons y ys =>
      simp only [List.zipWith_cons_cons, List.mem_cons] at hz
      rcases hz with rfl | hz
      · exact ⟨x, by simp, y, by simp, rfl⟩
      · obtain ⟨x, hx, y, hy, e⟩ := ih hz
        exact ⟨x, by simp [hx], y, by simp [hy], e⟩

theorem pow_max_succ (a b : ℕ) : (2 : ℤ) ^ a + 2 ^ b ≤ 2 ^ (max a b + 1) := by
  have h1 : (2 : ℤ) ^ a ≤ 2 ^ max a b := pow_le_pow_right₀ (by norm_num) (le_max_left _ _)
  have h2 : (2 : ℤ) ^ b ≤ 2 ^ max a b := pow_le_pow_right₀ (by norm_num) (le_max_right _ _)
  rw [pow_succ]; linarith

theorem addNoCarry_sound (a b : OvInt p) : Sound tbl (addNoCarry a b) (fun w r =>
    r.maxBits = max a.maxBits b.maxBits + 1 ∧ ∀ xs ys, OvOk w a xs → OvOk w b ys →
      xs.length = ys.length ∧ OvOk w r (List.zipWith (· + ·) xs ys)) := by
  intro s
  refine Snd.bind (zipEqM_sound (g := fun _ x y => x + y) add_ex _ _ s) fun ls s1 _ => Snd.pure ?_
  rintro w - ⟨h1, h2⟩
  refine ⟨rfl, fun xs ys hx hy => ⟨?_, ⟨?_, ?_⟩⟩⟩
  · have := congrArg List.length hx.limbs; have := congrArg List.length hy.limbs; simp at *; omega
  · show ls.map (at' w) = _
    rw [h2, hx.limbs, hy.limbs]
    exact zipWith_casts (by simp) xs ys
  · intro z hz
    obtain ⟨x, hx', y, hy', rfl⟩ := mem_zipWith hz
    have b1 := hx.bound x hx'
    have b2 := hy.bound y hy'
    exact (abs_add_le x y).trans_lt (by have := pow_max_succ a.maxBits b.maxBits; show _ < (2:ℤ) ^ (max _ _ + 1); linarith)

theorem subNoCarry_sound (a b : OvInt p) : Sound tbl (subNoCarry a b) (fun w r =>
    r.maxBits = max a.maxBits b.maxBits + 1 ∧ ∀ xs ys, OvOk w a xs → OvOk w b ys →
      xs.length = ys.length ∧ OvOk w r (List.zipWith (· - ·) xs ys)) := by
  intro s
  refine Snd.bind (zipEqM_sound (g := fun _ x y => x - y) sub_ex _ _ s) fun ls s1 _ => Snd.pure ?_
  rintro w - ⟨h1, h2⟩
  refine ⟨rfl, fun xs ys hx hy => ⟨?_, ⟨?_, ?_⟩⟩⟩
  · have := congrArg List.length hx.limbs; have := congrArg List.length hy.limbs; simp at *; omega
  · show ls.map (at' w) = _
    rw [h2, hx.limbs, hy.limbs]
    exact zipWith_casts (by simp) xs ys
  · intro z hz
    obtain ⟨x, hx', y, hy', rfl⟩ := mem_zipWith hz
    have b1 := hx.bound x hx'
    have b2 := hy.bound y hy'
    exact (abs_sub x y).trans_lt (by have := pow_max_succ a.maxBits b.maxBits; show _ < (2:ℤ) ^ (max _ _ + 1); linarith)

theorem addNoCarryCrt_sound (a b : CrtInt p) : Sound tbl (addNoCarryCrt a b) (fun w r =>
    r.trunc.maxBits = max a.trunc.maxBits b.trunc.maxBits + 1 ∧ r.value = a.value + b.value ∧
    ∀ X Y, CrtOk n k w a X → CrtOk n k w b Y → CrtOk n k w r (X + Y)) := by
  intro s
  refine Snd.bind (addNoCarry_sound _ _ s) fun t s1 _ => Snd.bind (add_ex _ _ s1) fun v s2 _ => Snd.pure ?_
  rintro w - hv ⟨hm, ht⟩
  refine ⟨hm, rfl, ?_⟩
  rintro X Y ⟨xs, lx, ox, cx, nx⟩ ⟨ys, ly, oy, cy, ny⟩
  obtain ⟨h1, h2⟩ := ht xs ys ox oy
  exact ⟨_, by simp [lx, ly], h2, by rw [limbVal_zipWith_add _ _ _ h1]; exact cx.add cy, by simp [hv, nx, ny]⟩

theorem subNoCarryCrt_sound (a b : CrtInt p) : Sound tbl (subNoCarryCrt a b) (fun w r =>
    r.trunc.maxBits = max a.trunc.maxBits b.trunc.maxBits + 1 ∧ r.value = a.value - b.value ∧
    ∀ X Y, CrtOk n k w a X → CrtOk n k w b Y → CrtOk n k w r (X - Y)) := by
  intro s
  refine Snd.bind (subNoCarry_sound _ _ s) fun t s1 _ => Snd.bind (sub_ex _ _ s1) fun v s2 _ => Snd.pure ?_
  rintro w - hv ⟨hm, ht⟩
  refine ⟨hm, rfl, ?_⟩
  rintro X Y ⟨xs, lx, ox, cx, nx⟩ ⟨ys, ly, oy, cy, ny⟩
  obtain ⟨h1, h2⟩ := ht xs ys ox oy
  exact ⟨_, by simp [lx, ly], h2, by rw [limbVal_zipWith_sub _ _ _ h1]; exact cx.sub cy, by simp [hv, nx, ny]⟩

theorem negInt_sound (a : OvInt p) : Sound tbl (negInt a) (fun w r => r.maxBits = a.maxBits ∧
    ∀ xs, OvOk w a xs → OvOk w r (xs.map (fun x => -x))) := by
  intro s
  refine Snd.bind (mapAM_sound (g := fun _ x => -x) neg_ex _ s) fun ls s1 _ => Snd.pure ?_
  rintro w - h2
  refine ⟨rfl, fun xs hx => ⟨?_, ?_⟩⟩
  · show ls.map (at' w) = _
    rw [h2, hx.limbs]; simp
  · intro z hz
    rw [List.mem_map] at hz
    obtain ⟨x, hx', rfl⟩ := hz
    rw [abs_neg]; exact hx.bound x hx'

theorem i64ToFe_rd {s : Ctx p} (c : ℤ) : Rd s (i64ToFe c : M p (ZMod p × ℕ)) (fun r =>
    r.1 = (c : ZMod p) ∧ r.2 = c.natAbs ∧ |c| < 2 ^ 63) := by
  unfold i64ToFe
  intro hi r s' h
  obtain ⟨_, s1, h1, h2⟩ := bind_some.1 h
  simp only [assertM] at h1
  split at h1
  · rename_i hc
    rw [decide_eq_true_eq] at hc
    simp only [Option.some.injEq, Prod.mk.injEq] at h1
    simp only [pure_apply, Option.some.injEq, Prod.mk.injEq] at h2
    obtain ⟨rfl, rfl⟩ := h2
    refine ⟨h1.2.symm, ?_, rfl, abs_lt.2 hc⟩
    dsimp only
    split
    · rename_i h0
      rw [← Int.cast_natCast, Int.natAbs_of_nonneg h0]
    · rename_i h0
      rw [← Int.cast_natCast, Int.ofNat_natAbs_of_nonpos (by omega)]; simp
  · simp at h1

theorem log2Ceil_le {x c : ℕ} (hx : x < 2 ^ 64) (h : Utils.log2Ceil x = some c) : x ≤ 2 ^ c := by
  obtain ⟨r, h1, -, h3⟩ := Utils.C28_log2_ceil x hx
  rw [h, Option.some.injEq] at h1
  exact (h3 c).1 h1.ge

theorem abs_mul_lt {x c : ℤ} {m l : ℕ} (hx : |x| < 2 ^ m) (hc : |c| ≤ 2 ^ l) : |x * c| < 2 ^ (m + l) := by
  rw [abs_mul, pow_add]
  rcases eq_or_lt_of_le (abs_nonneg c) with h0 | h0
  · rw [← h0, mul_zero]; positivity
  · exact (mul_lt_mul_of_pos_right hx h0).trans_le (mul_le_mul_of_nonneg_left hc (by positivity))

theorem scalarMulNoCarry_sound (a : OvInt p) (c : ℤ) (cl : ℕ) (hc : |c| ≤ 2 ^ cl) :
    Sound tbl (scalarMulNoCarry a (c : ZMod p) cl) (fun w r => r.maxBits = a.maxBits + cl ∧
    ∀ xs, OvOk w a xs → OvOk w r (xs.map (· * c))) := by
  intro s
  refine Snd.bind (mapAM_sound (g := fun _ x => x * (c : ZMod p)) (fun a => mulc_ex a _) _ s) fun ls s1 _ => Snd.pure ?_
  rintro w - h2
  refine ⟨rfl, fun xs hx => ⟨?_, ?_⟩⟩
  · show ls.map (at' w) = _
    rw [h2, hx.limbs]; simp
  · intro z hz
    rw [List.mem_map] at hz
    obtain ⟨x, hx', rfl⟩ := hz
    exact abs_mul_lt (hx.bound x hx') hc

theorem natAbs_le_pow {c : ℤ} {cl : ℕ} (h : |c| < 2 ^ 63) (h2 : Utils.log2Ceil c.natAbs = some cl) : |c| ≤ 2 ^ cl := by
  have e : |c| = (c.natAbs : ℤ) := Int.abs_eq_natAbs c
  rw [e] at h ⊢
  have : c.natAbs < 2 ^ 63 := by exact_mod_cast h
  have := log2Ceil_le (this.trans (Nat.pow_lt_pow_right (by norm_num) (by norm_num))) h2
  exact_mod_cast this

theorem scalarMulNoCarryCrt_sound (a : CrtInt p) (c : ℤ) : Sound tbl (scalarMulNoCarryCrt a c) (fun w r =>
    (∃ cl, Utils.log2Ceil c.natAbs = some cl ∧ r.trunc.maxBits = a.trunc.maxBits + cl) ∧ r.value = a.value * c ∧
    ∀ X, CrtOk n k w a X → CrtOk n k w r (X * c)) := by
  intro s
  refine Snd.rd (i64ToFe_rd c) fun cf hcf => ?_
  obtain ⟨cf, ca⟩ := cf
  obtain ⟨e1, e2, hc⟩ := hcf
  dsimp only at e1 e2
  subst e1 e2
  refine Snd.rd (unwrap_rd _) fun cl hcl => ?_
  refine Snd.bind (scalarMulNoCarry_sound _ c cl (natAbs_le_pow hc hcl) s) fun t s1 _ => ?_
  refine Snd.bind (mulc_ex _ _ s1) fun v s2 _ => Snd.pure ?_
  rintro w - hv ⟨hm, ht⟩
  refine ⟨⟨cl, hcl, hm⟩, rfl, ?_⟩
  rintro X ⟨xs, lx, ox, cx, nx⟩
  exact ⟨_, by simp [lx], ht xs ox, by rw [limbVal_map_mul]; exact cx.mul_right c, by simp [hv, nx]⟩

theorem scalarMulAddNoCarry_sound (a b : OvInt p) (c : ℤ) (cl : ℕ) (hc : |c| ≤ 2 ^ cl) :
    Sound tbl (scalarMulAddNoCarry a b (c : ZMod p) cl) (fun w r => r.maxBits = max (a.maxBits + cl) b.maxBits + 1 ∧
    ∀ xs ys, OvOk w a xs → OvOk w b ys → xs.length = ys.length ∧ OvOk w r (List.zipWith (fun x y => x * c + y) xs ys)) := by
  intro s
  refine Snd.bind (zipEqM_sound (g := fun _ x y => x * (c : ZMod p) + y) (fun a b => mulAddc_ex a _ b) _ _ s)
    fun ls s1 _ => Snd.pure ?_
  rintro w - ⟨h1, h2⟩
  refine ⟨rfl, fun xs ys hx hy => ⟨?_, ⟨?_, ?_⟩⟩⟩
  · have := congrArg List.length hx.limbs; have := congrArg List.length hy.limbs; simp at *; omega
  · show ls.map (at' w) = _
    rw [h2, hx.limbs, hy.limbs]
    exact zipWith_casts (by simp) xs ys
  · intro z hz
    obtain ⟨x, hx', y, hy', rfl⟩ := mem_zipWith hz
    have b1 := abs_mul_lt (hx.bound x hx') hc
    have b2 := hy.bound y hy'
    exact (abs_add_le _ _).trans_lt (by
      have := pow_max_succ (a.maxBits + cl) b.maxBits; show _ < (2:ℤ) ^ (max _ _ + 1); linarith)

theorem scalarMulAddNoCarryCrt_sound (a b : CrtInt p) (c : ℤ) : Sound tbl (scalarMulAddNoCarryCrt a b c) (fun w r =>
    (∃ cl, Utils.log2Ceil c.natAbs = some cl ∧ r.trunc.maxBits = max (a.trunc.maxBits + cl) b.trunc.maxBits + 1) ∧
    r.value = a.value * c + b.value ∧ ∀ X Y, CrtOk n k w a X → CrtOk n k w b Y → CrtOk n k w r (X * c + Y)) := by
  intro s
  refine Snd.rd (i64ToFe_rd c) fun cf hcf => ?_
  obtain ⟨cf, ca⟩ := cf
  obtain ⟨e1, e2, hc⟩ := hcf
  dsimp only at e1 e2
  subst e1 e2
  refine Snd.rd (unwrap_rd _) fun cl hcl => ?_
  refine Snd.bind (scalarMulAddNoCarry_sound _ _ c cl (natAbs_le_pow hc hcl) s) fun t s1 _ => ?_
  refine Snd.bind (mulAddc_ex _ _ _ s1) fun v s2 _ => Snd.pure ?_
  rintro w - hv ⟨hm, ht⟩
  refine ⟨⟨cl, hcl, hm⟩, rfl, ?_⟩
  rintro X Y ⟨xs, lx, ox, cx, nx⟩ ⟨ys, ly, oy, cy, ny⟩
  obtain ⟨h1, h2⟩ := ht xs ys ox oy
  exact ⟨_, by simp [lx, ly], h2, by rw [limbVal_zipWith_muladd _ _ _ _ h1]; exact (cx.mul_right c).add cy,
    by simp [hv, nx, ny]⟩

theorem mulLoop_sound (a b : List (AV p)) (hl : a.length = b.length) (is : List ℕ) (hi : ∀ i ∈ is, i < a.length) :
    Sound tbl (mulLoop a b is) (fun w rs => rs.map (at' w) = is.map (conv (a.map (at' w)) (b.map (at' w)))) := by
  induction is with
  | nil => exact fun s => Snd.pure fun w _ => rfl
  | cons i is ih =>
    intro s
    refine Snd.bind (innerProduct_sound _ _ (by simp; omega) s) fun r s1 _ => ?_
    refine Snd.bind (ih (fun j hj => hi j (by simp [hj])) s1) fun rs s2 _ => Snd.pure ?_
    rintro w - h1 ⟨xs, ys, hx, hy, hr⟩
    have hia := hi i (by simp)
    rw [List.map_cons, List.map_cons, h1, hr, QOks.existing hx, QOks.existing hy, List.map_take, List.map_reverse,
      List.map_take, dot_conv _ _ _ (by simpa using hia) (by simpa [← hl] using hia)]

theorem conv_casts (xs ys : List ℤ) (i : ℕ) : conv (xs.map (fun x : ℤ => (x : ZMod p))) (ys.map (fun x : ℤ => (x : ZMod p))) i
    = ((conv xs ys i : ℤ) : ZMod p) := conv_map (Int.castRingHom (ZMod p)) xs ys i

theorem mulNoCarry_sound (a b : OvInt p) (kl : ℕ) (hk : a.limbs.length ≤ 2 ^ kl) :
    Sound tbl (mulNoCarry a b kl) (fun w r => r.maxBits = kl + a.maxBits + b.maxBits ∧
    ∀ xs ys, OvOk w a xs → OvOk w b ys → xs.length = ys.length ∧ OvOk w r ((List.range xs.length).map (conv xs ys))) := by
  intro s
  refine Snd.assert fun hl => ?_
  rw [decide_eq_true_eq] at hl
  refine Snd.bind (mulLoop_sound _ _ hl _ (by simp) s) fun ls s1 _ => Snd.pure ?_
  rintro w - h1
  refine ⟨rfl, fun xs ys hx hy => ?_⟩
  have l1 : a.limbs.length = xs.length := by simpa using congrArg List.length hx.limbs
  have l2 : b.limbs.length = ys.length := by simpa using congrArg List.length hy.limbs
  refine ⟨by omega, ⟨?_, ?_⟩⟩
  · show ls.map (at' w) = _
    rw [h1, hx.limbs, hy.limbs, List.map_map, l1]
    exact List.map_congr_left fun i _ => conv_casts xs ys i
  · intro z hz
    rw [List.mem_map] at hz
    obtain ⟨i, hi, rfl⟩ := hz
    rw [List.mem_range] at hi
    have hA : (0 : ℤ) ≤ 2 ^ a.maxBits - 1 := by have : (1:ℤ) ≤ 2 ^ a.maxBits := one_le_pow₀ (by norm_num); linarith
    have hB : (0 : ℤ) ≤ 2 ^ b.maxBits - 1 := by have : (1:ℤ) ≤ 2 ^ b.maxBits := one_le_pow₀ (by norm_num); linarith
    have h := conv_abs_le xs ys i (A := 2 ^ a.maxBits - 1) (B := 2 ^ b.maxBits - 1)
      (fun x h => by have := hx.bound x h; omega) (fun x h => by have := hy.bound x h; omega) hA hB
    refine h.trans_lt ?_
    show _ < (2 : ℤ) ^ (kl + a.maxBits + b.maxBits)
    have hi' : ((i : ℤ) + 1) ≤ 2 ^ kl := by
      have : i + 1 ≤ 2 ^ kl := by omega
      exact_mod_cast this
    calc ((i : ℤ) + 1) * ((2 ^ a.maxBits - 1) * (2 ^ b.maxBits - 1))
        ≤ 2 ^ kl * ((2 ^ a.maxBits - 1) * (2 ^ b.maxBits - 1)) :=
          mul_le_mul_of_nonneg_right hi' (mul_nonneg hA hB)
      _ < 2 ^ kl * (2 ^ a.maxBits * 2 ^ b.maxBits) := by
          refine mul_lt_mul_of_pos_left ?_ (by positivity)
          have : (0:ℤ) < 2 ^ a.maxBits := by positivity
          nlinarith
      _ = _ := by rw [pow_add, pow_add]; ring

theorem mulNoCarryCrt_sound (a b : CrtInt p) (kl : ℕ) (hk : k ≤ 2 ^ kl) : Sound tbl (mulNoCarryCrt a b kl) (fun w r =>
    r.trunc.maxBits = kl + a.trunc.maxBits + b.trunc.maxBits ∧ r.value = a.value * b.value ∧
    (a.trunc.limbs.length = k → ∀ X Y, CrtOk n k w a X → CrtOk n k w b Y → CrtOk n k w r (X * Y))) := by
  intro s
  by_cases ha : a.trunc.limbs.length = k
  · refine Snd.bind (mulNoCarry_sound _ _ kl (by omega) s) fun t s1 _ => Snd.bind (mul_ex _ _ s1) fun v s2 _ => Snd.pure ?_
    rintro w - hv ⟨hm, ht⟩
    refine ⟨hm, rfl, fun _ => ?_⟩
    rintro X Y ⟨xs, lx, ox, cx, nx⟩ ⟨ys, ly, oy, cy, ny⟩
    obtain ⟨h1, h2⟩ := ht xs ys ox oy
    refine ⟨_, by simp [lx], h2, ?_, by simp [hv, nx, ny]⟩
    have := limbVal_conv n xs ys h1
    rw [lx] at this ⊢
    exact this.trans (cx.mul cy)
  · refine Snd.bind (m := mulNoCarry a.trunc b.trunc kl) (Q := fun _ t _ => t.maxBits = kl + a.trunc.maxBits + b.trunc.maxBits)
      ?_ fun t s1 _ => Snd.bind (mul_ex _ _ s1) fun v s2 _ => Snd.pure ?_
    · refine Snd.assert fun hl => ?_
      rw [decide_eq_true_eq] at hl
      exact Snd.bind (mulLoop_sound _ _ hl _ (by simp) s) fun ls s1 _ => Snd.pure fun w _ _ => rfl
    · rintro w - hv hm
      exact ⟨hm, rfl, fun h => absurd h ha⟩

/-! ### selection -/

theorem selectInt_sound (a b : OvInt p) (sel : AV p) : Sound tbl (selectInt a b sel) (fun w r =>
    r.maxBits = max a.maxBits b.maxBits ∧ a.limbs.length = b.limbs.length ∧
    (at' w sel = 1 → r.limbs.map (at' w) = a.limbs.map (at' w)) ∧
    (at' w sel = 0 → r.limbs.map (at' w) = b.limbs.map (at' w))) := by
  intro s
  refine Snd.bind (zipEqM_sound (g := fun w x y => (x - y) * at' w sel + y) (fun a b => select_ex a b sel) _ _ s)
    fun ls s1 _ => Snd.pure ?_
  rintro w - ⟨h1, h2⟩
  have zl : ∀ as bs : List (ZMod p), as.length = bs.length → List.zipWith (fun x _ => x) as bs = as := by
    intro as
    induction as with
    | nil => simp
    | cons a as ih => intro bs h; cases bs with
      | nil => simp at h
      | cons b bs => simp [ih bs (by simpa using h)]
  have zr : ∀ as bs : List (ZMod p), as.length = bs.length → List.zipWith (fun _ y => y) as bs = bs := by
    intro as
    induction as with
    | nil => intro bs h; cases bs <;> simp_all
    | cons a as ih => intro bs h; cases bs with
      | nil => simp at h
      | cons b bs => simp [ih bs (by simpa using h)]
  refine ⟨rfl, h1, fun hs => ?_, fun hs => ?_⟩
  · show ls.map (at' w) = _
    rw [h2, hs]
    simp only [mul_one, sub_add_cancel]
    exact zl _ _ (by simpa using h1)
  · show ls.map (at' w) = _
    rw [h2, hs]
    simp only [mul_zero, zero_add]
    exact zr _ _ (by simpa using h1)

theorem OvOk.widen {w : Cell → ZMod p} {a : OvInt p} {xs : List ℤ} (h : OvOk w a xs) {r : OvInt p}
    (hl : r.limbs.map (at' w) = a.limbs.map (at' w)) (hm : a.maxBits ≤ r.maxBits) : OvOk w r xs :=
  ⟨hl.trans h.limbs, fun x hx => (h.bound x hx).trans_le (pow_le_pow_right₀ (by norm_num) hm)⟩

theorem CrtOk.widen {w : Cell → ZMod p} {a : CrtInt p} {X : ℤ} (h : CrtOk n k w a X) {r : CrtInt p}
    (hl : r.trunc.limbs.map (at' w) = a.trunc.limbs.map (at' w)) (hm : a.trunc.maxBits ≤ r.trunc.maxBits)
    (hn : at' w r.native = at' w a.native) : CrtOk n k w r X := by
  obtain ⟨xs, h1, h2, h3, h4⟩ := h
  exact ⟨xs, h1, h2.widen hl hm, h3, hn.trans h4⟩

theorem ProperOk.congr {w : Cell → ZMod p} {a : CrtInt p} {X : ℕ} (h : ProperOk n k w a X) {r : CrtInt p}
    (hl : r.trunc.limbs.map (at' w) = a.trunc.limbs.map (at' w)) (hm : r.trunc.maxBits = a.trunc.maxBits)
    (hn : at' w r.native = at' w a.native) : ProperOk n k w r X := by
  obtain ⟨ds, h1, h2, h3, h4, h5, h6⟩ := h
  exact ⟨ds, h1, hm.trans h2, hl.trans h3, h4, h5, hn.trans h6⟩

theorem selectCrt_sound (a b : CrtInt p) (sel : AV p) : Sound tbl (selectCrt a b sel) (fun w r =>
    r.trunc.maxBits = max a.trunc.maxBits b.trunc.maxBits ∧ a.trunc.limbs.length = b.trunc.limbs.length ∧
    (at' w sel = 1 → r.trunc.limbs.map (at' w) = a.trunc.limbs.map (at' w) ∧ at' w r.native = at' w a.native) ∧
    (at' w sel = 0 → r.trunc.limbs.map (at' w) = b.trunc.limbs.map (at' w) ∧ at' w r.native = at' w b.native)) := by
  intro s
  refine Snd.bind (selectInt_sound _ _ _ s) fun t s1 _ => Snd.bind (select_ex _ _ _ s1) fun v s2 _ =>
    Snd.unwrap fun sv _ => Snd.pure ?_
  rintro w - hv ⟨h1, h2, h3, h4⟩
  refine ⟨h1, h2, fun h => ⟨h3 h, ?_⟩, fun h => ⟨h4 h, ?_⟩⟩
  · show at' w v = _; rw [hv, h]; ring
  · show at' w v = _; rw [hv, h]; ring

theorem dot_oneHot_from (xs : List (ZMod p)) (idx off : ℕ) :
    dot xs ((List.range xs.length).map (fun j => if j + off = idx + off then (1 : ZMod p) else 0)) = xs.getD idx 0 := by
  induction xs generalizing idx with
  | nil => simp
  | cons x xs ih =>
    rw [List.length_cons, List.range_succ_eq_map, List.map_cons, dot_cons, List.map_map]
    cases idx with
    | zero =>
      have e : (List.range xs.length).map ((fun j => if j + off = 0 + off then (1 : ZMod p) else 0) ∘ Nat.succ) =
          (List.range xs.length).map (fun _ => (0 : ZMod p)) := by
        refine List.map_congr_left fun j _ => ?_
        simp
      rw [e]
      have : ∀ ys : List (ZMod p), dot ys ((List.range ys.length).map (fun _ => (0 : ZMod p))) = 0 := by
        intro ys
        induction ys with
        | nil => simp
        | cons y ys ih => rw [List.length_cons, List.range_succ_eq_map, List.map_cons, dot_cons, List.map_map, mul_zero, zero_add]; exact ih
      rw [this]; simp
    | succ idx =>
      have e : (List.range xs.length).map ((fun j => if j + off = idx + 1 + off then (1 : ZMod p) else 0) ∘ Nat.succ) =
          (List.range xs.length).map (fun j => if j + off = idx + off then (1 : ZMod p) else 0) := by
        refine List.map_congr_left fun j _ => ?_
        simp only [Function.comp]
        congr 1
        apply propext
        omega
      rw [e, ih, if_neg (by omega)]; simp

theorem dot_oneHot (xs : List (ZMod p)) (idx : ℕ) : dot xs (oneHot xs.length idx) = xs.getD idx 0 := by
  have := dot_oneHot_from xs idx 0
  simpa [oneHot] using this

/-- Column `j` of the selected integers. -/
theorem selIndLoop_sound (as : List (OvInt p)) (ind : List (AV p)) (hlen : as.length = ind.length) (is : List ℕ) :
    Sound tbl (selIndLoop as ind is) (fun w rs => ∀ idx, ind.map (at' w) = oneHot as.length idx → ∀ a, as[idx]? = some a →
      is.Forall₂ (fun j v => ∃ x, a.limbs[j]? = some x ∧ at' w x = v) (rs.map (at' w))) := by
  induction is with
  | nil => exact fun s => Snd.pure fun _ _ _ _ _ _ => .nil
  | cons j js ih =>
    intro s
    refine Snd.rd (column_rd _ j) fun c hc => ?_
    obtain ⟨col, rfl, hcol⟩ := hc
    have hl := List.Forall₂.length_eq hcol
    rw [List.length_map] at hl
    refine Snd.bind (selectByIndicator_sound _ ind (by rw [List.length_map, ← hl, hlen]) s) fun r s1 _ => ?_
    refine Snd.bind (ih s1) fun rest s2 _ => Snd.pure ?_
    rintro w - h ⟨xs, hx, hr⟩ idx hi a ha
    refine .cons ?_ (h idx hi a ha)
    rw [QOks.existing hx, hi] at hr
    have := dot_oneHot (col.map (at' w)) idx
    rw [List.length_map, ← hl] at this
    rw [this] at hr
    have hlt : idx < col.length := by
      rw [← hl]; exact (List.getElem?_eq_some_iff.1 ha).1
    have hc := (List.forall₂_iff_get.1 hcol).2 idx (by rw [List.length_map]; omega) hlt
    simp only [List.get_eq_getElem, List.getElem_map] at hc
    refine ⟨col[idx], ?_, ?_⟩
    · rw [← hc]
      obtain ⟨h1, h2⟩ := List.getElem?_eq_some_iff.1 ha
      rw [h2]
    · rw [hr]; simp [List.getD, hlt]

theorem forall₂_range_map {l : List (AV p)} {w : Cell → ZMod p} {vs : List (ZMod p)} {m : ℕ} (hm : m = l.length)
    (h : (List.range m).Forall₂ (fun j v => ∃ x, l[j]? = some x ∧ at' w x = v) vs) : vs = l.map (at' w) := by
  subst hm
  have hl := List.Forall₂.length_eq h
  rw [List.length_range] at hl
  apply List.ext_getElem
  · simpa using hl.symm
  · intro i h1 h2
    obtain ⟨x, hx, e⟩ := (List.forall₂_iff_get.1 h).2 i (by simp; omega) h1
    simp only [List.get_eq_getElem, List.getElem_range] at hx e
    obtain ⟨h3, h4⟩ := List.getElem?_eq_some_iff.1 hx
    rw [← e, ← h4, List.getElem_map]

theorem selIndInt_sound (as : List (OvInt p)) (ind : List (AV p)) (hlen : as.length = ind.length) :
    Sound tbl (selIndInt as ind) (fun w r => r.maxBits = maxBitsOf as ∧ ∀ idx, ind.map (at' w) = oneHot as.length idx →
      ∀ a, as[idx]? = some a → (∀ b ∈ as, b.limbs.length = a.limbs.length) →
      r.limbs.map (at' w) = a.limbs.map (at' w)) := by
  intro s
  cases as with
  | nil => exact Snd.panic
  | cons a0 as =>
    refine Snd.bind (selIndLoop_sound _ ind hlen _ s) fun ls s1 _ => Snd.pure ?_
    rintro w - h
    refine ⟨rfl, fun idx hi a ha hl => ?_⟩
    exact forall₂_range_map (hl a0 (by simp)) (h idx hi a ha)

theorem le_maxBitsOf {as : List (OvInt p)} {a : OvInt p} (h : a ∈ as) : a.maxBits ≤ maxBitsOf as := by
  have g : ∀ (l : List (OvInt p)) (c : ℕ), c ≤ l.foldl (fun acc x => max acc x.maxBits) c := by
    intro l
    induction l with
    | nil => intro c; exact le_rfl
    | cons b l ih => intro c; exact (le_max_left _ _).trans (ih _)
  unfold maxBitsOf
  generalize 0 = c
  induction as generalizing c with
  | nil => simp at h
  | cons b l ih =>
    rcases List.mem_cons.1 h with rfl | h
    · exact (le_max_right _ _).trans (g l _)
    · exact ih h _

theorem maxBitsOf_const {as : List (OvInt p)} {m : ℕ} (h0 : as ≠ []) (h : ∀ a ∈ as, a.maxBits = m) : maxBitsOf as = m := by
  have g : ∀ (l : List (OvInt p)), (∀ a ∈ l, a.maxBits = m) → l.foldl (fun acc x => max acc x.maxBits) m = m := by
    intro l
    induction l with
    | nil => intro _; rfl
    | cons b l ih => intro h; rw [List.foldl_cons, h b (by simp), max_self]; exact ih fun a ha => h a (by simp [ha])
  cases as with
  | nil => exact absurd rfl h0
  | cons b l =>
    unfold maxBitsOf
    rw [List.foldl_cons, h b (by simp), Nat.zero_max]
    exact g l fun a ha => h a (by simp [ha])

theorem evalNative_sound (limbs : List (AV p)) (bases : List (ZMod p)) (hlen : limbs.length = bases.length) :
    Sound tbl (evalNative limbs bases) (fun w r => at' w r = dot (limbs.map (at' w)) bases) := by
  intro s
  refine (innerProduct_sound _ _ (by simpa using hlen) s).weaken ?_
  rintro w r _ ⟨xs, ys, hx, hy, h⟩
  rw [h, QOks.existing hx, QOks_constants hy]

theorem selIndNative_sound (as : List (CrtInt p)) (ind ls : List (AV p)) (bases : List (ZMod p))
    (hlen : as.length = ind.length) :
    Sound tbl (selIndNative as ind ls ls.length bases) (fun w r => ∀ idx, ind.map (at' w) = oneHot as.length idx →
      ∀ a, as[idx]? = some a → at' w r = if ls.length < as.length then dot (ls.map (at' w)) (bases.take ls.length)
        else at' w a.native) := by
  intro s
  unfold selIndNative
  refine Snd.ite (fun hlt => ?_) fun hlt => ?_
  · refine Snd.rd (sliceTo_rd _ _) fun bs hbs => ?_
    obtain ⟨h1, rfl⟩ := hbs
    refine (evalNative_sound ls _ (by simp; omega) s).weaken ?_
    intro w r _ h idx _ a _
    rw [if_pos hlt, h]
  · refine (selectByIndicator_sound _ ind (by simpa using hlen) s).weaken ?_
    rintro w r _ ⟨xs, hx, hr⟩ idx hi a ha
    have hx' : QOks w ((as.map CrtInt.native).map .existing) xs := by rw [List.map_map]; exact hx
    rw [if_neg hlt, hr, QOks.existing hx', hi]
    have := dot_oneHot ((as.map CrtInt.native).map (at' w)) idx
    simp only [List.length_map] at this
    rw [this]
    simp [List.getD, ha]

/-- `select_by_indicator::crt` selects limbs; the native part is the selected one only if `a.len() ≤ k`, otherwise it is
recomputed from the limbs. -/
theorem selIndCrt_sound (as : List (CrtInt p)) (ind : List (AV p)) (bases : List (ZMod p)) :
    Sound tbl (selIndCrt as ind bases) (fun w r => r.trunc.maxBits = maxBitsOf (as.map CrtInt.trunc) ∧
      ∀ idx, ind.map (at' w) = oneHot as.length idx → ∀ a, as[idx]? = some a →
      (∀ b ∈ as, b.trunc.limbs.length = a.trunc.limbs.length) →
      r.trunc.limbs.map (at' w) = a.trunc.limbs.map (at' w) ∧
      at' w r.native = if a.trunc.limbs.length < as.length then
        dot (a.trunc.limbs.map (at' w)) (bases.take a.trunc.limbs.length) else at' w a.native) := by
  intro s
  refine Snd.assert fun hl => ?_
  rw [decide_eq_true_eq] at hl
  refine Snd.bind (selIndInt_sound _ ind (by simpa using hl) s) fun t s1 _ => ?_
  refine Snd.bind (selIndNative_sound as ind t.limbs bases hl s1) fun v s2 _ => ?_
  refine Snd.rd (Q := fun _ => True) ?_ fun x _ => Snd.pure ?_
  · have : ∀ (acc : ℤ) (l : List (CrtInt p × AV p)), Rd s2 (selIndVal acc l) (fun _ => True) := by
      intro acc l
      induction l generalizing acc with
      | nil => exact Rd.pure trivial
      | cons e l ih => exact Rd.bind (unwrap_rd _) fun v _ => ih _
    exact this _ _
  · rintro w - hv ⟨hm, ht⟩
    refine ⟨hm, fun idx hi a ha hla => ?_⟩
    have h1 := ht idx (by simpa using hi) a.trunc (by simp [ha]) (by
      intro b hb
      rw [List.mem_map] at hb
      obtain ⟨c, hc, rfl⟩ := hb
      exact hla c hc)
    have h2 := hv idx hi a ha
    have h3 : t.limbs.length = a.trunc.limbs.length := by simpa using congrArg List.length h1
    exact ⟨h1, by rw [h2, h1, h3]⟩

theorem dot_bases {n k : ℕ} {bases : List (ZMod p)} (ds : List ℕ) (hk : ds.length = k)
    (hb : bases = (List.range k).map (fun i : ℕ => ((2 ^ n : ℕ) : ZMod p) ^ i)) :
    dot (ds.map (fun d : ℕ => (d : ZMod p))) bases = ((Nat.ofDigits (2 ^ n) ds : ℕ) : ZMod p) := by
  rw [hb, ← hk, dot_powB]

/-- The evaluation of signed limbs in the bases. -/
theorem dot_bases_int {n k : ℕ} {bases : List (ZMod p)} (xs : List ℤ) (hk : xs.length = k)
    (hb : bases = (List.range k).map (fun i : ℕ => ((2 ^ n : ℕ) : ZMod p) ^ i)) :
    dot (xs.map (fun d : ℤ => (d : ZMod p))) bases = ((limbVal n xs : ℤ) : ZMod p) := by
  subst hb
  subst hk
  have : ∀ (c : ZMod p) (xs : List ℤ), dot (xs.map (fun d : ℤ => (d : ZMod p)))
      ((List.range xs.length).map (fun i : ℕ => c * ((2 ^ n : ℕ) : ZMod p) ^ i)) = c * ((limbVal n xs : ℤ) : ZMod p) := by
    intro c xs
    induction xs generalizing c with
    | nil => simp [limbVal]
    | cons x xs ih =>
      rw [List.length_cons, List.range_succ_eq_map, List.map_cons, List.map_cons, dot_cons, List.map_map]
      have e : ((fun i : ℕ => c * ((2 ^ n : ℕ) : ZMod p) ^ i) ∘ Nat.succ) =
          fun i : ℕ => (c * ((2 ^ n : ℕ) : ZMod p)) * ((2 ^ n : ℕ) : ZMod p) ^ i := by
        funext i; simp only [Function.comp, Nat.succ_eq_add_one, pow_succ]; ring
      rw [e, ih, limbVal]; push_cast; ring
  have := this 1 xs
  simpa using this

theorem intoCrt_sound (limbs : List (AV p)) (value : ℕ) (bases : List (ZMod p)) (n : ℕ)
    (hb : bases = (List.range k).map (fun i : ℕ => ((2 ^ n : ℕ) : ZMod p) ^ i)) (hl : limbs.length = k) :
    Sound tbl (intoCrt limbs value bases n) (fun w r => r.trunc.limbs = limbs ∧ r.trunc.maxBits = n ∧
      ∀ ds : List ℕ, limbs.map (at' w) = ds.map (fun d : ℕ => (d : ZMod p)) → (∀ d ∈ ds, d < 2 ^ n) →
        ProperOk n k w r (Nat.ofDigits (2 ^ n) ds)) := by
  intro s
  refine Snd.bind (evalNative_sound limbs bases (by rw [hb]; simpa using hl) s) fun v s1 _ => Snd.pure ?_
  rintro w - hv
  refine ⟨rfl, rfl, fun ds hd hlt => ?_⟩
  have hk : ds.length = k := by rw [← hl]; simpa using (congrArg List.length hd).symm
  refine ⟨ds, hk, rfl, hd, hlt, rfl, ?_⟩
  rw [show at' w _ = _ from hv, hd, dot_bases ds hk hb]

theorem ofDigits_limbsOf (v k n : ℕ) (h : v < 2 ^ (n * k)) : Nat.ofDigits (2 ^ n) (limbsOf v k n) = v := by
  induction k generalizing v with
  | zero => simp at h; subst h; rfl
  | succ k ih =>
    rw [Utils.limbsOf_succ, Nat.ofDigits_cons, ih _ (by
      rw [Nat.div_lt_iff_lt_mul (by positivity), ← pow_add]
      rwa [← Nat.mul_succ])]
    exact Nat.mod_add_div v (2 ^ n)

theorem limbsOf_lt' {v k n d : ℕ} (h : d ∈ limbsOf v k n) : d < 2 ^ n := by
  unfold limbsOf at h
  rw [List.mem_map] at h
  obtain ⟨i, -, rfl⟩ := h
  exact Nat.mod_lt _ (by positivity)


theorem assignFixed_sound (hp : p ≤ 256 ^ 32) (value : ℕ) (hn : 64 ≤ n) (hn' : n < 128) (hk : 1 ≤ k) (hv : value < 2 ^ (n * k)) :
    Sound tbl (assignFixed value k n : M p (CrtInt p)) (fun w r => r.value = value ∧ ProperOk n k w r value) := by
  intro s
  refine Snd.rd (unwrap_rd _) fun ls hls => ?_
  rw [Utils.decomposeBiguint, Utils.decomposeBigLimbs_eq hn hn' (by omega), Option.map_some, Option.some.injEq] at hls
  subst hls
  refine Snd.bind (loadConstants_sound _ s) fun limbs s1 _ => ?_
  refine Snd.rd (unwrap_rd _) fun nv hnv => ?_
  refine Snd.bind (loadConstant_sound nv s1) fun v s2 _ => Snd.pure ?_
  rintro w - h1 h2
  refine ⟨rfl, limbsOf value k n, limbsOf_length _ _ _, rfl, h2, fun d => limbsOf_lt', (ofDigits_limbsOf _ _ _ hv).symm, ?_⟩
  have hm : value % p < p := Nat.mod_lt _ (Nat.Prime.pos Fact.out)
  rw [Utils.C28_modulus hp, Utils.C28_biguint_to_fe hp, if_pos hm, Option.some.injEq] at hnv
  rw [show at' w _ = _ from h1, ← hnv, ZMod.natCast_mod]

end H2
