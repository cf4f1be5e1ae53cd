import Verif.Props.CompleteField

/-!
# Property C93: `FpChip::load_constant_uint` on any integer

`load_constant_uint(x)` returns a `ProperCrtUint`, whose documentation says that the limbs are the digits of the number.  Only as many
digits as there are limbs are kept, and nothing is checked.
-/

set_option autoImplicit false
namespace H2
variable {p : ℕ} [Fact p.Prime] {s s' : Ctx p} {w : Cell → ZMod p} {ext : Cell → ZMod p} {c : FpChip p} {r : CrtInt p}

/-- The limbs of `a` are the `k` digits, below `2 ^ n`, of `A`, and its native cell holds `N`. -/
def LimbsAre (n k : ℕ) (w : Cell → ZMod p) (a : CrtInt p) (A : ℕ) (N : ZMod p) : Prop :=
  ∃ ds : List ℕ, ds.length = k ∧ a.trunc.maxBits = n ∧ a.trunc.limbs.map (at' w) = ds.map (fun d : ℕ => (d : ZMod p)) ∧
    (∀ d ∈ ds, d < 2 ^ n) ∧ A = Nat.ofDigits (2 ^ n) ds ∧ at' w a.native = N

theorem ofDigits_limbsOf_mod (v k n : ℕ) : Nat.ofDigits (2 ^ n) (limbsOf v k n) = v % 2 ^ (n * k) := by
  induction k generalizing v with
  | zero => simp [limbsOf, Nat.mod_one]
  | succ k ih =>
    rw [Utils.limbsOf_succ, Nat.ofDigits_cons, ih, Nat.mul_succ, Nat.add_comm (n * k) n, pow_add, Nat.mod_mul]

theorem loadConstantUint_any (h : FpOk c) (x : ℕ) {tbl : ZMod p → Prop} :
    Sound tbl (c.loadConstantUint x) (fun w r => r.value = x ∧ LimbsAre c.n c.k w r (x % 2 ^ (c.n * c.k)) (x : ZMod p)) := by
  intro s
  have hn := h.ok.n64
  have hn' := h.ok.n128
  have hk := h.ok.k1
  refine Snd.rd (unwrap_rd _) fun ls hls => ?_
  rw [Utils.decomposeBiguint, Utils.decomposeBigLimbs_eq hn hn' (by omega), Option.map_some, Option.some.injEq] at hls
  subst hls
  refine Snd.bind (loadConstants_sound _ s) fun limbs s1 _ => ?_
  refine Snd.rd (unwrap_rd _) fun nv hnv => ?_
  refine Snd.bind (loadConstant_sound nv s1) fun v s2 _ => Snd.pure ?_
  rintro w - h1 h2
  refine ⟨rfl, limbsOf x c.k c.n, limbsOf_length _ _ _, rfl, h2, fun d => limbsOf_lt', (ofDigits_limbsOf_mod _ _ _).symm, ?_⟩
  have hm : x % p < p := Nat.mod_lt _ (Nat.Prime.pos Fact.out)
  rw [Utils.C28_modulus h.p32, Utils.C28_biguint_to_fe h.p32, if_pos hm, Option.some.injEq] at hnv
  rw [show at' w _ = _ from h1, ← hnv, ZMod.natCast_mod]

/-- C93 (what is returned): whatever `x`, the limbs are those of `x mod 2 ^ (n k)` while the native cell holds `x`. -/
theorem C93_load_constant_uint (h : FpOk c) (x : ℕ) (hi : Inv s) (hrun : c.loadConstantUint x s = some (r, s'))
    (hw : Sat (RangeTable p c.L) s' w) : r.value = x ∧ LimbsAre c.n c.k w r (x % 2 ^ (c.n * c.k)) (x : ZMod p) :=
  (loadConstantUint_any h x).run hi hrun hw

/-- C93 (when it is a `ProperCrtUint`): the cells represent some integer below `2 ^ (n k)`, natively and in the limbs, exactly if the part
of `x` that is cut off vanishes in the native field; and they represent `x` exactly if nothing is cut off. -/
theorem C93_proper_iff (h : FpOk c) (x : ℕ) (hi : Inv s) (hrun : c.loadConstantUint x s = some (r, s'))
    (hw : Sat (RangeTable p c.L) s' w) : ((∃ X, ProperOk c.n c.k w r X) ↔ p ∣ 2 ^ (c.n * c.k) * (x / 2 ^ (c.n * c.k))) ∧
      (ProperOk c.n c.k w r x ↔ x < 2 ^ (c.n * c.k)) := by
  obtain ⟨-, ds, d1, d2, d3, d4, d5, d6⟩ := C93_load_constant_uint h x hi hrun hw
  have uniq : ∀ X, ProperOk c.n c.k w r X → X = x % 2 ^ (c.n * c.k) ∧ ((X : ℕ) : ZMod p) = (x : ZMod p) := by
    rintro X ⟨es, e1, e2, e3, e4, rfl, e6⟩
    have hp := h.pow_n'
    have hde : es = ds := by
      have hm : es.map (fun d : ℕ => (d : ZMod p)) = ds.map (fun d : ℕ => (d : ZMod p)) := by rw [← e3, d3]
      refine List.ext_getElem (by omega) fun i h1 h2 => ?_
      have hg := congrArg (fun l => l[i]?) hm
      simp only [List.getElem?_map, List.getElem?_eq_getElem h1, List.getElem?_eq_getElem h2, Option.map_some, Option.some.injEq] at hg
      rw [ZMod.natCast_eq_natCast_iff', Nat.mod_eq_of_lt ((e4 _ (List.getElem_mem h1)).trans_le hp),
        Nat.mod_eq_of_lt ((d4 _ (List.getElem_mem h2)).trans_le hp)] at hg
      exact hg
    rw [hde]
    exact ⟨d5.symm, by rw [← hde, ← e6, d6]⟩
  have mk : ((x % 2 ^ (c.n * c.k) : ℕ) : ZMod p) = (x : ZMod p) → ProperOk c.n c.k w r (x % 2 ^ (c.n * c.k)) := fun he =>
    ⟨ds, d1, d2, d3, d4, d5, by rw [he, d6]⟩
  have hdvd : ((x % 2 ^ (c.n * c.k) : ℕ) : ZMod p) = (x : ZMod p) ↔ p ∣ 2 ^ (c.n * c.k) * (x / 2 ^ (c.n * c.k)) := by
    rw [← CharP.cast_eq_zero_iff (ZMod p) p]
    have hx : (x : ZMod p) = ((x % 2 ^ (c.n * c.k) : ℕ) : ZMod p) + ((2 ^ (c.n * c.k) * (x / 2 ^ (c.n * c.k)) : ℕ) : ZMod p) := by
      rw [← Nat.cast_add, Nat.mod_add_div]
    constructor
    · intro he
      rw [← he] at hx
      exact (left_eq_add.mp hx)
    · intro he
      rw [hx, he, add_zero]
  refine ⟨⟨?_, fun hd => ⟨_, mk (hdvd.mpr hd)⟩⟩, ?_, ?_⟩
  · rintro ⟨X, hX⟩
    obtain ⟨rfl, h2⟩ := uniq X hX
    exact hdvd.mp h2
  · intro hX
    obtain ⟨h1, -⟩ := uniq x hX
    rw [h1]
    exact Nat.mod_lt _ (by positivity)
  · intro hlt
    have := mk (by rw [Nat.mod_eq_of_lt hlt])
    rwa [Nat.mod_eq_of_lt hlt] at this

theorem loadConstantUint_any_cmp (h : FpOk c) (x : ℕ) {tbl : ZMod p → Prop} :
    Cmp tbl ext s (c.loadConstantUint x) (fun r s' => CrtS ext s' r) := by
  have hn := h.ok.n64
  have hn' := h.ok.n128
  have hk := h.ok.k1
  unfold FpChip.loadConstantUint assignFixed
  refine Cmp.unwrap (a := (limbsOf x c.k c.n).map (fun d : ℕ => (d : ZMod p))) ?_ ?_
  · rw [Utils.decomposeBiguint, Utils.decomposeBigLimbs_eq hn hn' (by omega), Option.map_some]
  · refine Cmp.bind (loadConstants_cmp _) fun limbs s1 e1 hl => ?_
    refine Cmp.unwrap (a := ((x % p : ℕ) : ZMod p)) ?_ ?_
    · rw [Utils.C28_modulus h.p32, Utils.C28_biguint_to_fe h.p32, if_pos (Nat.mod_lt _ (Nat.Prime.pos Fact.out))]
    · exact Cmp.bind (loadConstant_cmp _) fun v s2 e2 hv => Cmp.pure ⟨hl.w.mono e2, hv.w⟩

/-- C93 (it never fails): no `x` makes `load_constant_uint` panic, and the constants are satisfied by the honest assignment. -/
theorem C93_completes (h : FpOk c) (x : ℕ) (hg : Good (RangeTable p c.L) ext s) :
    Completes (RangeTable p c.L) ext s (c.loadConstantUint x) (fun r s' => r.value = x ∧
      LimbsAre c.n c.k (hw ext s') r (x % 2 ^ (c.n * c.k)) (x : ZMod p)) :=
  (((loadConstantUint_any_cmp h x).withSnd (loadConstantUint_any h x)).weaken fun _ _ hr => hr.2).run hg

/-- `load_constant_uint` and `is_zero` of the result. -/
def constIsZero (c : FpChip p) (x : ℕ) : M p (AV p) := do
  let a ← c.loadConstantUint x
  c.isZero a

/-- C93 (a wrong answer): `is_zero` of a constant answers 1 for every multiple of `2 ^ (n k)`, whatever it is modulo the chip's modulus. -/
theorem C93_is_zero_wrong (h : FpOk c) {x : ℕ} (hx : 2 ^ (c.n * c.k) ∣ x) {z : AV p} (hi : Inv s) (hrun : constIsZero c x s = some (z, s'))
    (hw : Sat (RangeTable p c.L) s' w) : at' w z = 1 := by
  have : Sound (RangeTable p c.L) (constIsZero c x) (fun w z => at' w z = 1) := by
    intro s
    refine Snd.bind (loadConstantUint_any h x s) fun a s1 _ => ?_
    refine Snd.bind (FpChip.enforceLessThanP_sound h a s1) fun _ s2 _ => (bigIsZeroPositive_sound _ s2).weaken ?_
    rintro w z _ hz - ⟨-, ds, d1, d2, d3, d4, d5, -⟩
    rw [hz ds d3 (by rw [d2]; exact d4), if_pos]
    rw [Nat.mod_eq_zero_of_dvd hx] at d5
    exact (ofDigits_eq_zero Nat.one_le_two_pow ds).mp d5.symm
  exact this.run hi hrun hw

/-- Non-vacuity and the finding on the parameters of secp256k1's base field (88-bit limbs, 3 of them): `load_constant_uint(2^264)`
completes, its limbs are zero, it is not a proper integer, and `2^264` is not zero modulo the field's modulus. -/
theorem C93_instance (ext : Cell → ZMod bn254R) : ((2 ^ 264 : ℕ) : ZMod secpP) ≠ 0 ∧
    ∃ r s', (fpChip bn254R 16 secpP 88 3).loadConstantUint (2 ^ 264) (Ctx.new false 0 "" 0 [] []) = some (r, s') ∧
      Sat (RangeTable bn254R 16) s' (hw ext s') ∧ LimbsAre 88 3 (hw ext s') r 0 ((2 ^ 264 : ℕ) : ZMod bn254R) ∧
      ¬ ∃ X, ProperOk 88 3 (hw ext s') r X := by
  refine ⟨?_, ?_⟩
  · rw [Ne, CharP.cast_eq_zero_iff (ZMod secpP) secpP]
    decide +kernel
  · obtain ⟨r, s', h1, -, h3, -, h5⟩ := C93_completes (ext := ext) fpCmp_secpP.ok (2 ^ 264) (good_new 0 "" 0)
    have h6 := (C93_proper_iff fpCmp_secpP.ok (2 ^ 264) (inv_new 0 "" 0 [] []) h1 h3).1
    have e : (fpChip bn254R 16 secpP 88 3).n * (fpChip bn254R 16 secpP 88 3).k = 264 := rfl
    rw [e] at h5 h6
    have h5' := h5.2
    rw [Nat.mod_self] at h5'
    refine ⟨r, s', h1, h3, h5', ?_⟩
    intro hX
    have := h6.mp hX
    revert this
    decide +kernel

end H2
