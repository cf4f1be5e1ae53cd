import Verif.Props.Modes

/-!
# Findings about `div_mod` and `div_mod_var`: soundness fails near `CAPACITY`

Each finding is a theorem: a concrete circuit on the BN254 scalar field, built by the code, and an assignment
satisfying *all* its constraints in which the returned quotient is wrong.  The malicious witness is produced
by running a copy of the routine with chosen values (`divModWith`, `divModVarWith`), which by shape
independence records exactly the same constraints.
-/

set_option autoImplicit false
namespace H2
variable {p : ℕ} [Fact p.Prime] {ext : Cell → ZMod p} {s s' : Ctx p} {w : Cell → ZMod p} {L : ℕ}

/-- `div_mod` (range/mod.rs:294-321) with prover-chosen `div` and `rem` (not part of the code). -/
def divModWith (L : ℕ) (a : QCell p) (b n : ℕ) (dv rv : ZMod p) : M p (AV p × AV p) := do
  let bf ← bigToFe b
  assignRegion [.witness rv, .constant bf, .witness dv, a] [0]
  let rem ← getM (-4)
  let div ← getM (-2)
  checkBigLessThanSafe L div (2 ^ n / b + 1)
  checkBigLessThanSafe L rem b
  pure (div, rem)

/-- Skip a reading step on the left only, when comparing shapes. -/
theorem Rel.skipLeft {α β γ : Type} {m : M p α} {f : α → M p β} {m' : M p γ} {Q : β → γ → Prop}
    (h : ∀ s r s', m s = some (r, s') → s' = s) (hf : ∀ r, Rel false (f r) m' Q) :
    Rel false (m >>= f) m' Q := by
  intro s t hs r s' hr
  obtain ⟨a, s1, h1, h2⟩ := bind_some.1 hr
  have := h _ _ _ h1
  subst this
  exact hf a _ t hs r s' h2

theorem bigToFe_state {n : ℕ} {s s' : Ctx p} {r : ZMod p} (h : bigToFe n s = some (r, s')) : s' = s := by
  unfold bigToFe at h
  split at h
  · simp at h; exact h.2.symm
  · simp [panic] at h

theorem divModWith_rel (L : ℕ) {a a' : QCell p} (ha : RQ false a a') (b n : ℕ) (dv rv : ZMod p) :
    Rel false (divMod L a b n) (divModWith L a' b n dv rv) (RA2 false) := by
  unfold divMod divModWith
  refine Rel.skipLeft (fun _ _ _ h => (unwrap_state h).2) fun x => ?_
  refine Rel.skipLeft (fun _ _ _ h => (assertM_state h).2) fun _ => ?_
  refine Rel.skipLeft (fun _ _ _ h => bigToFe_state h) fun d => ?_
  refine Rel.skipLeft (fun _ _ _ h => bigToFe_state h) fun r => ?_
  refine (bigToFeC_rel b).bind ?_
  rintro m _ rfl
  refine (assignRegion_rel ?_ (fun _ => rfl) (by gok)).bind fun _ _ _ => ?_
  · exact .cons (by simp [RQ, RV]) (.cons rfl (.cons (by simp [RQ, RV]) (.cons ha .nil)))
  rel

theorem divModWith_cmp {a : QCell p} {x : ZMod p} {b n : ℕ} {dv rv : ZMod p} (hL : RangeOk p L)
    (ha : QCon ext s a x) (hb : b < p) (he : rv + b * dv = x)
    (hdb : 2 ^ n / b + 1 < p) (hd : safeBits L (2 ^ n / b + 1) ≤ capacity p)
    (hd1 : dv.val < 2 ^ safeBits L (2 ^ n / b + 1))
    (hd2 : (2 ^ safeBits L (2 ^ n / b + 1) + dv - ((2 ^ n / b + 1 : ℕ) : ZMod p)).val
      < 2 ^ safeBits L (2 ^ n / b + 1))
    (hr : safeBits L b ≤ capacity p) (hr1 : rv.val < b) :
    Cmp (RangeTable p L) ext s (divModWith L a b n dv rv) (fun c s' =>
      Con ext s' c.1 dv ∧ Con ext s' c.2 rv) := by
  unfold divModWith
  rw [bigToFe_pure hb, pure_bind]
  have key := Cmp.bind (region4_get_cmp (tbl := RangeTable p L) (s := s) rv (b : ZMod p)
    dv ha he) fun c s1 _ hc =>
    Cmp.bind (checkBigLessThanSafe_cmp' (b := 2 ^ n / b + 1) hL hc.2 hdb hd hd1 hd2) fun _ s2 e2 _ =>
    Cmp.bind (checkBigLessThanSafe_cmp (b := b) hL (hc.1.mono e2) hr hr1) fun _ s3 e3 _ =>
    Cmp.pure (a := (c.2, c.1)) (Q := fun c s' => Con ext s' c.1 dv ∧ Con ext s' c.2 rv)
      ⟨(hc.2.mono e2).mono e3, (hc.1.mono e2).mono e3⟩
  simpa only [bind_assoc, pure_bind] using key

/-- The honest assignment of one run satisfies the other run's circuit and reads the same cells. -/
theorem Con.of_same {a b : AV p} {x : ZMod p} (h : Con ext s b x) (hab : AV.Same a b) :
    at' (hw ext s) a = x := by
  have := h.at
  unfold at' at this ⊢
  rw [hab]; exact this

/-- A program: load `x` and divide it by the constant `b`. -/
def divModProg (L : ℕ) (x : ZMod p) (b n : ℕ) : M p (AV p × AV p × AV p) := do
  let a ← loadWitness x
  let r ← divMod L (.existing a) b n
  pure (a, r)

/-- The value used in the finding: `div = p + 2^250 + 1 - 2^253`. -/
def badDiv : ℕ := bn254R + 2 ^ 250 + 1 - 2 ^ 253

theorem badDiv_lt : badDiv < bn254R := by decide +kernel
theorem badDiv_mul : 8 * badDiv = (8 * badDiv - 3 * bn254R) + 3 * bn254R := by decide +kernel
theorem badDiv_x_lt : 8 * badDiv - 3 * bn254R < bn254R := by decide +kernel
theorem badDiv_x_lt' : 8 * badDiv - 3 * bn254R < 2 ^ 253 := by decide +kernel
theorem badDiv_lt' : badDiv < 2 ^ 253 := by decide +kernel
theorem badDiv_wrap : 2 ^ 253 + badDiv = bn254R + (2 ^ 253 / 8 + 1) := by decide +kernel
theorem badDiv_ne : badDiv ≠ (8 * badDiv - 3 * bn254R) / 8 := by decide +kernel
theorem bn254R_gt : 2 ^ 253 / 8 + 1 < bn254R := by decide +kernel
theorem bn254R_gt8 : 8 < bn254R := by decide +kernel
theorem badQuot_lt : (bn254R + 255) / 256 < bn254R := by decide +kernel
theorem badQuot_lt' : (bn254R + 255) / 256 < 2 ^ 247 := by decide +kernel
theorem badQuot_mul : 256 * ((bn254R + 255) / 256) = bn254R + 255 := by decide +kernel
theorem bn254R_gt256 : 256 < bn254R := by decide +kernel

/-- Finding (C20): BN254, `lookup_bits = 11`, `b = 8`, `a_num_bits = 253 = CAPACITY` as documented.  For
`a = 8 * badDiv mod p < 2^253` the circuit built by `div_mod` accepts the quotient `badDiv ≠ a / 8`. -/
theorem C20_unsound_bn254 (ext : Cell → ZMod bn254R) :
    ∃ x : ZMod bn254R, x.val < 2 ^ 253 ∧ ∃ r s' w,
      divModProg 11 x 8 253 (Ctx.new false 0 "t" 0 [] []) = some (r, s') ∧
      Sat (RangeTable bn254R 11) s' w ∧ at' w r.1 = x ∧ (at' w r.2.1).val ≠ x.val / 8 := by
  have hL := rangeOk_bn254 (L := 11) (by norm_num) (by norm_num)
  have hb : (badDiv : ℕ) < bn254R := badDiv_lt
  have hsz : Nat.size (2 ^ 250 + 1) = 251 :=
    le_antisymm (Nat.size_le.2 (by norm_num)) (Nat.lt_size.2 (by norm_num))
  have hs : safeBits 11 (2 ^ 253 / 8 + 1) = 253 := by
    have : 2 ^ 253 / 8 + 1 = 2 ^ 250 + 1 := by norm_num
    rw [this, safeBits, hsz]; rfl
  have hs8 : safeBits 11 8 = 11 := by decide +kernel
  obtain ⟨x, hx8, hx⟩ : ∃ x : ZMod bn254R, ((8 : ℕ) : ZMod bn254R) * (badDiv : ZMod bn254R) = x ∧
      x.val = 8 * badDiv - 3 * bn254R := by
    refine ⟨((8 * badDiv - 3 * bn254R : ℕ) : ZMod bn254R), ?_, ZMod.val_natCast_of_lt badDiv_x_lt⟩
    rw [← Nat.cast_mul, badDiv_mul, Nat.cast_add, Nat.cast_mul 3, ZMod.natCast_self, mul_zero, add_zero,
      Nat.add_sub_cancel]
  have hg := good_new (p := bn254R) (tbl := RangeTable bn254R 11) (ext := ext) 0 "t" 0
  have hxlt : x.val < 2 ^ 253 := by rw [hx]; exact badDiv_x_lt'
  refine ⟨x, hxlt, ?_⟩
  -- the honest run
  have hon : Cmp (RangeTable bn254R 11) ext (Ctx.new false 0 "t" 0 [] []) (divModProg 11 x 8 253)
      (fun _ _ => True) :=
    Cmp.bind (loadWitness_cmp x) fun a s1 _ ha => Cmp.bind (divMod_cmp (a := .existing a) (b := 8) (n := 253) hL ha
      (by norm_num) (by rw [hs, capacity_bn254R]) (by rw [hs8, capacity_bn254R]; norm_num)
      (Nat.div_le_div_right hxlt.le)) fun _ _ _ _ => Cmp.pure trivial
  -- the malicious run
  have bad : Cmp (RangeTable bn254R 11) ext (Ctx.new false 0 "t" 0 [] []) (do
      let a ← loadWitness x
      let r ← divModWith 11 (.existing a) 8 253 (badDiv : ZMod bn254R) 0
      pure (a, r)) (fun c s' => Con ext s' c.1 x ∧ Con ext s' c.2.1 (badDiv : ZMod bn254R)) := by
    refine Cmp.bind (loadWitness_cmp x) fun a s1 _ ha => ?_
    refine Cmp.bind (divModWith_cmp (a := .existing a) (x := x) hL ha bn254R_gt8 ?_
      bn254R_gt (by rw [hs, capacity_bn254R]) ?_ ?_ (by rw [hs8, capacity_bn254R]; norm_num)
      (by rw [ZMod.val_zero]; norm_num)) fun c s2 e2 hc => Cmp.pure ⟨ha.mono e2, hc.1⟩
    · rw [zero_add, hx8]
    · rw [hs, ZMod.val_natCast_of_lt hb]; exact badDiv_lt'
    · have : (2 ^ safeBits 11 (2 ^ 253 / 8 + 1) + (badDiv : ZMod bn254R)
          - ((2 ^ 253 / 8 + 1 : ℕ) : ZMod bn254R)) = 0 := by
        rw [hs, sub_eq_zero]
        have h := congrArg (fun n : ℕ => (n : ZMod bn254R)) badDiv_wrap
        simp only [Nat.cast_add, ZMod.natCast_self, zero_add, Nat.cast_pow, Nat.cast_ofNat] at h
        rw [Nat.cast_add]
        exact h
      rw [this, ZMod.val_zero]; positivity
  obtain ⟨r, s', h1, -, -⟩ := hon hg
  obtain ⟨r', t', h1', g', -, hc1, hc2⟩ := bad hg
  have hrel : ShapeIndep (fun r r' : AV bn254R × AV bn254R × AV bn254R => AV.Same r.1 r'.1 ∧ AV.Same r.2.1 r'.2.1)
      (divModProg 11 x 8 253) (do
      let a ← loadWitness x
      let r ← divModWith 11 (.existing a) 8 253 (badDiv : ZMod bn254R) 0
      pure (a, r)) := by
    refine Rel.shape (Q := fun r r' => RA false r.1 r'.1 ∧ RA false r.2.1 r'.2.1) ?_
      fun _ _ h => ⟨ra_same.1 h.1, ra_same.1 h.2⟩
    exact (loadWitness_rel (RV.refl x)).bind fun _ _ h => (divModWith_rel 11 h.q _ _ _ _).bind
      fun _ _ h2 => Rel.pure ⟨h, h2.1⟩
  obtain ⟨sh, e1, e2⟩ := hrel _ _ (sameShape_refl rfl) _ _ _ _ h1 h1'
  refine ⟨r, s', hw ext t', h1, (sh.sat _).2 g'.sat, hc1.of_same e1, ?_⟩
  rw [hc2.of_same e2, ZMod.val_natCast_of_lt hb, hx]
  exact badDiv_ne

/-! ## `div_mod_var` -/

/-- `div_mod_var` (range/mod.rs:344-390) with prover-chosen `div` and `rem`, for `a_num_bits ≤ b_num_bits`
(not part of the code). -/
def divModVarWith (L : ℕ) (a b : QCell p) (an bn : ℕ) (dlo dhi dv rv : ZMod p) : M p (AV p × AV p) := do
  let xfe ← pow2At bn
  assignRegion [.witness dlo, .witness dhi, .constant xfe, .witness dv, .witness rv] [0]
  let divLo ← getM (-5)
  let divHi ← getM (-4)
  let div ← getM (-2)
  let rem ← getM (-1)
  rangeCheck L divLo bn
  divModVarHi L divHi an bn
  let bcr0 ← mulAdd b (.existing divLo) (.existing rem)
  let (bcr0Hi, bcr0Lo) ← divMod L (.existing bcr0) (2 ^ bn) an
  let bcrHi ← mulAdd b (.existing divHi) (.existing bcr0Hi)
  let (aHi, aLo) ← divMod L a (2 ^ bn) an
  constrainEqual bcrHi aHi
  constrainEqual bcr0Lo aLo
  rangeCheck L rem bn
  checkLessThan L (.existing rem) b bn
  pure (div, rem)

theorem divModVarWith_rel (L : ℕ) {a a' b b' : QCell p} (ha : RQ false a a') (hb : RQ false b b') (an bn : ℕ)
    (dlo dhi dv rv : ZMod p) :
    Rel false (divModVar L a b an bn) (divModVarWith L a' b' an bn dlo dhi dv rv) (RA2 false) := by
  unfold divModVar divModVarWith
  refine Rel.skipLeft (fun _ _ _ h => (unwrap_state h).2) fun x => ?_
  refine Rel.skipLeft (fun _ _ _ h => (unwrap_state h).2) fun y => ?_
  refine Rel.skipLeft (fun _ _ _ h => (assertM_state h).2) fun _ => ?_
  refine (pow2At_rel bn).bind ?_
  rintro xfe _ rfl
  refine Rel.skipLeft (fun _ _ _ h => bigToFe_state h) fun _ => ?_
  refine Rel.skipLeft (fun _ _ _ h => bigToFe_state h) fun _ => ?_
  refine Rel.skipLeft (fun _ _ _ h => bigToFe_state h) fun _ => ?_
  refine Rel.skipLeft (fun _ _ _ h => bigToFe_state h) fun _ => ?_
  refine (assignRegion_rel ?_ (fun _ => rfl) (by gok)).bind fun _ _ _ => ?_
  · exact .cons (by simp [RQ, RV]) (.cons (by simp [RQ, RV]) (.cons rfl (.cons (by simp [RQ, RV])
      (.cons (by simp [RQ, RV]) .nil))))
  refine (getM_rel _).bind fun _ _ g1 => (getM_rel _).bind fun _ _ g2 => (getM_rel _).bind fun _ _ g3 =>
    (getM_rel _).bind fun _ _ g4 => ?_
  refine (rangeCheck_rel L g1 _).bind fun _ _ _ => (divModVarHi_rel L g2 _ _).bind fun _ _ _ => ?_
  refine (mulAdd_rel hb g1.q g4.q).bind fun _ _ g5 => (divMod_rel L g5.q _ _).bind fun r r' hr => ?_
  obtain ⟨r1, r2⟩ := r
  obtain ⟨r1', r2'⟩ := r'
  refine (mulAdd_rel hb g2.q hr.1.q).bind fun _ _ g6 => (divMod_rel L ha _ _).bind fun q q' hq => ?_
  obtain ⟨q1, q2⟩ := q
  obtain ⟨q1', q2'⟩ := q'
  refine (constrainEqual_rel g6 hq.1).bind fun _ _ _ => (constrainEqual_rel hr.2 hq.2).bind fun _ _ _ => ?_
  exact (rangeCheck_rel L g4 _).bind fun _ _ _ => (checkLessThan_rel L g4.q hb _).bind fun _ _ _ =>
    Rel.pure ⟨g3, g4⟩

/-- A quotient that only works modulo `p`: `y * d = x` in the field, remainder 0. -/
theorem divModVarWith_cmp {a b : QCell p} {x y d : ZMod p} {an bn : ℕ} (hL : RangeOk p L)
    (ha : QCon ext s a x) (hb : QCon ext s b y) (hab : an ≤ bn) (hbn : ceilDiv bn L * L ≤ capacity p)
    (hbn1 : bn ≤ capacity p) (hyd : y * d = x)
    (hd : safeBits L (2 ^ an / 2 ^ bn + 1) ≤ capacity p) (hr : safeBits L (2 ^ bn) ≤ capacity p)
    (hdl : d.val < 2 ^ bn) (hx : x.val < 2 ^ bn) (hx2 : x.val < 2 ^ an) (hy0 : 0 < y.val) (hy : y.val < 2 ^ bn) :
    Cmp (RangeTable p L) ext s (divModVarWith L a b an bn d 0 d 0) (fun c s' =>
      Con ext s' c.1 d ∧ Con ext s' c.2 0) := by
  unfold divModVarWith
  have hXp := pow_capacity_le hbn1
  have hcn : ∀ m, ceilDiv m L * L ≤ capacity p → ceilDiv m L ≤ capacity p / L + 1 := fun m h =>
    ceilDiv_le_of_mul_le hL.pos h
  rw [pow2At_pure (lt_numBits_of_le_capacity hbn1), pure_bind]
  have hq : QsConT ext s [.witness d, .witness 0, .constant (2 ^ bn), .witness d, .witness 0]
      [d, 0, 2 ^ bn, d, 0] := .cons rfl (.cons rfl (.cons rfl (.cons rfl (.cons rfl .nil))))
  refine Cmp.bind (regionGets_cmp hq ?_) fun _ s1 e1 hget => ?_
  · intro o ho
    simp only [List.mem_singleton] at ho
    subst ho
    refine ⟨le_rfl, by simp, ?_⟩
    simp
  refine Cmp.bind (hget (-5) 0 _ (by simp) (by omega) rfl) fun dlo s2 _ ⟨e, hdlo⟩ => ?_
  subst e
  refine Cmp.bind (hget (-4) 1 _ (by simp) (by omega) rfl) fun dhi s2 _ ⟨e, hdhi⟩ => ?_
  subst e
  refine Cmp.bind (hget (-2) 3 _ (by simp) (by omega) rfl) fun div s2 _ ⟨e, hdiv⟩ => ?_
  subst e
  refine Cmp.bind (hget (-1) 4 _ (by simp) (by omega) rfl) fun rem s2 _ ⟨e, hrem⟩ => ?_
  subst e
  have ha := ha.mono e1
  have hb := hb.mono e1
  refine Cmp.bind (rangeCheck_cmp hL hdlo (hcn _ hbn) hdl) fun _ s3 e3 _ => ?_
  refine Cmp.bind (divModVarHi_cmp (h := 0) hL (by simpa using hdhi.mono e3) (by positivity) (by omega) (by
      rw [Nat.sub_eq_zero_of_le hab]
      exact le_trans (Nat.div_le_div_right (by omega)) (hcn _ hbn)))
    fun _ s4 e4 _ => ?_
  have e34 := e3.trans e4
  refine Cmp.bind (mulAdd_cmp (b := .existing dlo) (c := .existing rem) (hb.mono e34) (hdlo.mono e34)
    (hrem.mono e34)) fun bcr0 s5 e5 hbcr0 => ?_
  rw [hyd, add_zero] at hbcr0
  have e35 := e34.trans e5
  refine Cmp.bind (divMod_cmp (a := .existing bcr0) (b := 2 ^ bn) (n := an) hL hbcr0 (by positivity) hd hr
    (Nat.div_le_div_right hx2.le)) fun c1 s6 e6 hc1 => ?_
  have e36 := e35.trans e6
  refine Cmp.bind (mulAdd_cmp (b := .existing dhi) (c := .existing c1.1) (hb.mono e36) (hdhi.mono e36)
    hc1.1) fun bhi s7 e7 hbhi => ?_
  have e37 := e36.trans e7
  refine Cmp.bind (divMod_cmp (b := 2 ^ bn) (n := an) hL (ha.mono e37) (by positivity) hd hr
    (Nat.div_le_div_right hx2.le)) fun c2 s8 e8 hc2 => ?_
  rw [mul_zero, zero_add] at hbhi
  refine Cmp.bind (constrainEqual_cmp (hbhi.mono e8).conF hc2.1.conF) fun _ s9 e9 _ => ?_
  refine Cmp.bind (constrainEqual_cmp (((hc1.2.mono e7).mono e8).mono e9).conF
    (hc2.2.mono e9).conF) fun _ s10 e10 _ => ?_
  have e310 := ((e37.trans e8).trans e9).trans e10
  refine Cmp.bind (rangeCheck_cmp hL (hrem.mono e310) (hcn _ hbn) (by rw [ZMod.val_zero]; positivity))
    fun _ s11 e11 _ => ?_
  have e311 := e310.trans e11
  refine Cmp.bind (checkLessThan_cmp (a := .existing rem) hL (hrem.mono e311) (hb.mono e311)
    (lt_numBits_of_le_capacity hbn1) (hcn _ hbn) (shift_val_lt (by rw [ZMod.val_zero]; exact hy0) (by omega) hXp))
    fun _ s12 e12 _ => Cmp.pure ?_
  exact ⟨hdiv.mono (e311.trans e12), hrem.mono (e311.trans e12)⟩

/-- A program: load `x` and `y` and divide. -/
def divModVarProg (L : ℕ) (x y : ZMod p) (an bn : ℕ) : M p (AV p × AV p × AV p × AV p) := do
  let a ← loadWitness x
  let b ← loadWitness y
  let r ← divModVar L (.existing a) (.existing b) an bn
  pure (a, b, r)

/-- Finding (C21): BN254, `lookup_bits = 8`, `a_num_bits = b_num_bits = 247` (documented as allowed).  For
`a = 255`, `b = 256` (so the true result is `(0, 255)`) the circuit accepts the quotient `(p + 255) / 256` and
remainder 0. -/
theorem C21_unsound_bn254 (ext : Cell → ZMod bn254R) :
    ∃ r s' w, divModVarProg 8 (255 : ZMod bn254R) 256 247 247 (Ctx.new false 0 "t" 0 [] []) = some (r, s') ∧
      Sat (RangeTable bn254R 8) s' w ∧ at' w r.1 = 255 ∧ at' w r.2.1 = 256 ∧
      (at' w r.2.2.1).val = (bn254R + 255) / 256 ∧ (at' w r.2.2.2).val = 0 := by
  have hL := rangeOk_bn254 (L := 8) (by norm_num) (by norm_num)
  have hdlt := badQuot_lt
  have v255 : (255 : ZMod bn254R).val = 255 := by
    have := ZMod.val_natCast_of_lt (n := bn254R) (a := 255) (lt_trans (by norm_num) bn254R_gt256)
    rwa [Nat.cast_ofNat] at this
  have v256 : (256 : ZMod bn254R).val = 256 := by
    have := ZMod.val_natCast_of_lt (n := bn254R) (a := 256) bn254R_gt256
    rwa [Nat.cast_ofNat] at this
  have hs1 : safeBits 8 (2 ^ 247 / 2 ^ 247 + 1) = 8 := by
    have : (2 : ℕ) ^ 247 / 2 ^ 247 + 1 = 2 := by norm_num
    rw [this]; decide +kernel
  have hs2 : safeBits 8 (2 ^ 247) = 248 := by rw [safeBits, Nat.size_pow]; rfl
  have hc : ceilDiv 247 8 * 8 ≤ capacity bn254R := by rw [capacity_bn254R]; decide
  have hyd : (256 : ZMod bn254R) * (((bn254R + 255) / 256 : ℕ) : ZMod bn254R) = 255 := by
    generalize hq : (bn254R + 255) / 256 = q
    have h2 := badQuot_mul
    rw [hq] at h2
    have h3 := congrArg (fun n : ℕ => (n : ZMod bn254R)) h2
    simp only [Nat.cast_mul, Nat.cast_add, ZMod.natCast_self, zero_add, Nat.cast_ofNat] at h3
    exact h3
  have hg := good_new (p := bn254R) (tbl := RangeTable bn254R 8) (ext := ext) 0 "t" 0
  have hon : Cmp (RangeTable bn254R 8) ext (Ctx.new false 0 "t" 0 [] [])
      (divModVarProg 8 (255 : ZMod bn254R) 256 247 247) (fun _ _ => True) :=
    Cmp.bind (loadWitness_cmp 255) fun a s1 _ ha => Cmp.bind (loadWitness_cmp 256) fun b s2 e2 hb =>
      Cmp.bind (divModVar_cmp (a := .existing a) (b := .existing b) (an := 247) (bn := 247) hL (ha.mono e2) hb
        hc hc (by rw [hs1, capacity_bn254R]; norm_num) (by rw [hs2, capacity_bn254R]; norm_num)
        (by rw [v255]; norm_num) (by rw [v256]; norm_num) (by rw [v256]; norm_num))
        fun _ _ _ _ => Cmp.pure trivial
  have bad : Cmp (RangeTable bn254R 8) ext (Ctx.new false 0 "t" 0 [] []) (do
      let a ← loadWitness 255
      let b ← loadWitness 256
      let r ← divModVarWith 8 (.existing a) (.existing b) 247 247 (((bn254R + 255) / 256 : ℕ) : ZMod bn254R) 0
        (((bn254R + 255) / 256 : ℕ) : ZMod bn254R) 0
      pure (a, b, r)) (fun c s' => Con ext s' c.1 255 ∧ Con ext s' c.2.1 256 ∧
        Con ext s' c.2.2.1 (((bn254R + 255) / 256 : ℕ) : ZMod bn254R) ∧ Con ext s' c.2.2.2 0) := by
    refine Cmp.bind (loadWitness_cmp 255) fun a s1 _ ha => Cmp.bind (loadWitness_cmp 256) fun b s2 e2 hb => ?_
    refine Cmp.bind (divModVarWith_cmp (a := .existing a) (b := .existing b) (x := 255) (y := 256) hL (ha.mono e2)
      hb le_rfl hc (by rw [capacity_bn254R]; norm_num) hyd (by rw [hs1, capacity_bn254R]; norm_num)
      (by rw [hs2, capacity_bn254R]; norm_num) (by rw [ZMod.val_natCast_of_lt hdlt]; exact badQuot_lt')
      (by rw [v255]; norm_num) (by rw [v255]; norm_num) (by rw [v256]; norm_num) (by rw [v256]; norm_num))
      fun c s3 e3 h3 => Cmp.pure ⟨(ha.mono e2).mono e3, hb.mono e3, h3⟩
  obtain ⟨r, s', h1, -, -⟩ := hon hg
  obtain ⟨r', t', h1', g', -, hc1, hc2, hc3, hc4⟩ := bad hg
  have hrel : ShapeIndep (fun r r' : AV bn254R × AV bn254R × AV bn254R × AV bn254R => AV.Same r.1 r'.1 ∧
      AV.Same r.2.1 r'.2.1 ∧ AV.Same r.2.2.1 r'.2.2.1 ∧ AV.Same r.2.2.2 r'.2.2.2)
      (divModVarProg 8 (255 : ZMod bn254R) 256 247 247) (do
      let a ← loadWitness 255
      let b ← loadWitness 256
      let r ← divModVarWith 8 (.existing a) (.existing b) 247 247 (((bn254R + 255) / 256 : ℕ) : ZMod bn254R) 0
        (((bn254R + 255) / 256 : ℕ) : ZMod bn254R) 0
      pure (a, b, r)) := by
    refine Rel.shape (Q := fun r r' => RA false r.1 r'.1 ∧ RA false r.2.1 r'.2.1 ∧ RA2 false r.2.2 r'.2.2) ?_
      fun _ _ h => ⟨ra_same.1 h.1, ra_same.1 h.2.1, ra_same.1 h.2.2.1, ra_same.1 h.2.2.2⟩
    exact (loadWitness_rel (RV.refl _)).bind fun _ _ h => (loadWitness_rel (RV.refl _)).bind fun _ _ h' =>
      (divModVarWith_rel 8 h.q h'.q _ _ _ _ _ _).bind fun _ _ h2 => Rel.pure ⟨h, h', h2⟩
  obtain ⟨sh, e1, e2, e3, e4⟩ := hrel _ _ (sameShape_refl rfl) _ _ _ _ h1 h1'
  refine ⟨r, s', hw ext t', h1, (sh.sat _).2 g'.sat, hc1.of_same e1, hc2.of_same e2, ?_, ?_⟩
  · rw [hc3.of_same e3, ZMod.val_natCast_of_lt hdlt]
  · rw [hc4.of_same e4, ZMod.val_zero]

end H2
