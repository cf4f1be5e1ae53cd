import Verif.BigInt.CompleteMod

/-! # Completeness of `check_carry_mod_to_zero` -/

set_option autoImplicit false
set_option linter.unusedSectionVars false
namespace H2
variable {p : ℕ} [Fact p.Prime] {tbl : ZMod p → Prop} {ext : Cell → ZMod p} {s s' : Ctx p} {L n k : ℕ}

theorem czRegion_cmp {prod a : AV p} {pv av : ZMod p} (hl : IsLast s prod) (hp : Con ext s prod pv) (ha : Con ext s a av) :
    Cmp tbl ext s (assignRegionLast [.constant (-1), .existing a, .witness (pv - av)] [-1])
      (fun r s' => Con ext s' r (pv - av)) := by
  refine Cmp.bind (regionBack_cmp (qs := [.constant (-1), .existing a, .witness (pv - av)]) (vs := [-1, av, pv - av]) hl hp
    (.cons rfl (.cons ha (.cons rfl .nil))) ?_) fun _ s1 _ h1 => ?_
  · intro o' ho
    simp only [List.mem_singleton] at ho
    subst ho
    exact ⟨by norm_num, by simp, by simp; ring⟩
  exact (lastM_con h1 rfl).weaken fun _ _ h => h.2

theorem carryZeroLoop_cmp {modLimbs : List (ZMod p)} {l : List (AV p × ZMod p)} {qs : List (AV p)}
    {avs qvs : List (ZMod p)} (hq : AvsCon ext s qs qvs) (ha : AvsCon ext s (l.map Prod.fst) avs)
    (hl : qs.length + l.length ≤ modLimbs.length) :
    Cmp tbl ext s (carryZeroLoop modLimbs l qs) (fun r s' => AvsCon ext s' r.1 (qvs ++ l.map Prod.snd) ∧ AvsW ext s' r.2) := by
  induction l generalizing s qs qvs avs with
  | nil => exact Cmp.pure ⟨by simpa using hq, by simp [AvsW]⟩
  | cons e l ih =>
    obtain ⟨a, q⟩ := e
    rcases ha with _ | ⟨ha1, ha2⟩
    rename_i av avs
    have ha2 : AvsCon ext s (l.map Prod.fst) avs := ha2
    rw [List.length_cons] at hl
    unfold carryZeroLoop
    rw [sliceTo_pure (by omega), pure_bind]
    have hlen : (qs.map .existing ++ [.witness q] : List (QCell p)).length =
        ((modLimbs.take (qs.length + 1)).reverse.map (.constant : ZMod p → QCell p)).length := by simp; omega
    have hqs : QsConT ext s (qs.map .existing ++ [.witness q]) (qvs ++ [q]) :=
      List.rel_append (QsConT.existing hq) (.cons rfl .nil)
    refine Cmp.bind ((innerProductLeftLast_cmp hqs (QsConT.constants _) hlen (xl := q) (by simp)).withRun
      (innerProductLeftLast_last _ _ hlen)) fun pq s1 e1 hpq => ?_
    obtain ⟨prod, qc⟩ := pq
    obtain ⟨⟨hprod, hqc⟩, hlast⟩ := hpq
    dsimp only at hprod hqc hlast ⊢
    refine Cmp.unwrap hprod.val (Cmp.unwrap ha1.val ?_)
    refine Cmp.bind (czRegion_cmp hlast hprod (ha1.mono e1)) fun co s2 e2 hco => ?_
    refine Cmp.bind (ih (s := s2) (qs := qs ++ [qc]) (qvs := qvs ++ [q]) (((hq.mono e1).mono e2).snoc (hqc.mono e2))
      ((ha2.mono e1).mono e2) (by simp; omega)) fun r s3 e3 hr => Cmp.pure ?_
    obtain ⟨r1, r2⟩ := hr
    refine ⟨?_, .cons (hco.w.mono e3) r2⟩
    simpa using r1

theorem zeroRegion_cmp {q a : AV p} {c vq va : ZMod p} (hq : Con ext s q vq) (ha : Con ext s a va) (hg : c * vq = va) :
    Cmp tbl ext s (assignRegion [.constant 0, .constant c, .existing q, .existing a] [0]) (fun _ _ => True) := by
  have hqs : QsConT ext s [.constant 0, .constant c, .existing q, .existing a] [0, c, vq, va] :=
    .cons rfl (.cons rfl (.cons hq (.cons ha .nil)))
  refine (assignRegion_cmp [0, c, vq, va] hqs.qsCon ?_).weaken fun _ _ _ => trivial
  intro o ho
  simp only [List.mem_singleton] at ho
  subst ho
  exact ⟨by norm_num, by simp, by simpa using hg⟩

theorem checkCarryModToZeroCrt_cmp {c : FpChip p} (hc : ChipOk c) (hL : RangeOk p c.L) (ho : CarryCmp c) {a : CrtInt p}
    (hf : CarryZeroFits c a.trunc.maxBits) (hma : a.trunc.maxBits + 2 ≤ 3 * c.n) {A : ℤ} (ha : CrtW c.n c.k ext s a A)
    (hA : |A| < 2 ^ (c.n * c.k + numBits p - 3)) (hz : (c.modulus : ℤ) ∣ A) :
    Cmp (RangeTable p c.L) ext s (checkCarryModToZeroCrt c a) (fun _ _ => True) := by
  have hmpos : (0 : ℤ) < c.modulus := by have := hc.pos; exact_mod_cast this
  have hn := hc.n64
  have hk2 := ho.k2
  obtain ⟨hql, hq1, hq2⟩ := quot_bounds hc ho.ok hA
  have hk : c.n * c.k = c.n * (c.k - 1) + c.n := by
    have : c.k = c.k - 1 + 1 := by omega
    conv_lhs => rw [this, Nat.mul_succ]
  have hmb : Nat.size c.modulus ≤ c.n * c.k := size_le_of_lt hc.lt
  have hal := ha.ok.length
  have htop := ho.top
  have h2 := ho.ok.crt
  have h1 := ho.ok.quot
  set mb := max a.trunc.maxBits (2 * c.n + c.kBits) with hmbdef
  have hcb := carryBits_ge (n := c.n) hL.pos mb
  obtain ⟨hp1, hp2⟩ := carryFits_facts hc (rb := carryBits c.L mb c.n) (b := c.k * 2 ^ (2 * c.n) + 2 ^ a.trunc.maxBits) hf (by omega)
  set q := A / (c.modulus : ℤ) with hqdef
  have hqA : c.modulus * q = A := Int.mul_ediv_cancel' hz
  unfold checkCarryModToZeroCrt
  refine Cmp.assert ?_ (Cmp.assert ?_ ?_)
  · rw [decide_eq_true_eq, hal]
    exact ⟨by omega, by nlinarith, by omega⟩
  · rw [decide_eq_true_eq, hal]
    omega
  have e1 : (subU (c.n * a.trunc.limbs.length - 1 + numBits p - 1 - Nat.size c.modulus) (c.n * (a.trunc.limbs.length - 1)) : M p ℕ) =
      pure (c.n * a.trunc.limbs.length - 1 + numBits p - 1 - Nat.size c.modulus - c.n * (a.trunc.limbs.length - 1)) := by
    rw [subU, if_pos (by rw [hal]; omega)]
  rw [e1, pure_bind]
  refine Cmp.assert (by rw [decide_eq_true_eq]; have := hc.pos; omega) ?_
  rw [ha.value, hal]
  refine Cmp.unwrap (decomposeBigint_eq hc.n64 hc.n128 (by omega) q) ?_
  have hmll : c.modLimbs.length = c.k := by rw [modInts_casts hc, List.length_map, modInts_length]
  set qv := (sgnLimbs q c.k c.n).map (fun x : ℤ => (x : ZMod p)) with hqv
  have hqvl : qv.length = c.k := by simp [hqv, sgnLimbs_length]
  have z1 : (a.trunc.limbs.zip qv).map Prod.fst = a.trunc.limbs := List.map_fst_zip (by omega)
  have z2 : (a.trunc.limbs.zip qv).map Prod.snd = qv := List.map_snd_zip (by omega)
  have hzl : (a.trunc.limbs.zip qv).length = c.k := by simp [hal, hqvl]
  refine Cmp.bind ((carryZeroLoop_cmp (tbl := RangeTable p c.L) (modLimbs := c.modLimbs) (qs := []) (qvs := []) .nil
    (z1.symm ▸ ha.limbs.con) (by simp [hal, hqvl, hmll])).withSnd (carryZeroLoop_sound _ _ _)) fun r s1 x1 hr => ?_
  obtain ⟨qs, cs⟩ := r
  obtain ⟨⟨r1, r3⟩, -, new, -, -, hcs⟩ := hr
  dsimp only at r1 r3 hcs ⊢
  rw [z2, List.nil_append] at r1
  have hqsl : qs.length = c.k := by rw [List.Forall₂.length_eq r1, hqvl]
  obtain ⟨xs, hxl, hox, hcx, hnx⟩ := (ha.mono x1).ok
  set zs := sgnLimbs q c.k c.n with hzs
  have hzsl : zs.length = c.k := sgnLimbs_length _ _ _
  set chk : List ℤ := (List.range c.k).map (fun i => conv zs (modInts c) i - xs.getD i 0) with hchk
  have hcsz : cs.map (at' (hw ext s1)) = chk.map (fun x : ℤ => (x : ZMod p)) := by
    rw [hcs, hzl, hchk, List.map_map]
    refine List.map_congr_left fun i _ => ?_
    have ea : (a.trunc.limbs.zip qv).map (fun e => at' (hw ext s1) e.1) = a.trunc.limbs.map (at' (hw ext s1)) := by
      rw [show (fun e : AV p × ZMod p => at' (hw ext s1) e.1) = at' (hw ext s1) ∘ Prod.fst from rfl, ← List.map_map, z1]
    rw [ea, r1.map_at, hqv, modInts_casts hc, hox.limbs, getD_casts, List.length_nil, Nat.zero_add, conv_casts]
    simp
  have hbnd : ∀ x ∈ chk, |x| ≤ c.k * 2 ^ (2 * c.n) + 2 ^ a.trunc.maxBits := by
    intro x hx
    rw [hchk, List.mem_map] at hx
    obtain ⟨i, hi, rfl⟩ := hx
    rw [List.mem_range] at hi
    have b1 := conv_bound c (qs := zs) (fun z hz => (sgnLimbs_abs z hz).le) hi
    have b2 := abs_getD_le (l := xs) (C := 2 ^ a.trunc.maxBits) (by positivity) (fun x hx => (hox.bound x hx).le) i
    have t2 := abs_sub (conv zs (modInts c) i) (xs.getD i 0)
    linarith
  have hchkl : chk.length = c.k := by simp [hchk]
  have hdiv : (2 : ℤ) ^ (c.n * chk.length) ∣ limbVal c.n chk := by
    have hmod := limbVal_check0 c.n c.k zs (modInts c) xs hzsl modInts_length hxl
    rw [modInts_val hc, hzs, sgnLimbs_val hq1] at hmod
    rw [hchkl]
    refine Int.modEq_zero_iff_dvd.1 (hmod.trans ((hcx.sub_left _) |>.trans ?_))
    rw [← hqA]
    rw [show q * c.modulus - (c.modulus * q) = 0 by ring]
  refine Cmp.bind (quotChecks_cmp hL hp1 (by omega) (base1_get hc hk2) r1 (fun d hd => sgnLimbs_abs d hd) hq2)
    fun _ s3 x3 _ => ?_
  refine Cmp.unwrap (base1_get hc hk2) ?_
  have hrbpos : (1 : ℤ) ≤ 2 ^ carryBits c.L mb c.n := one_le_pow₀ (by norm_num)
  have hroom := carry_room (n := c.n) (m := mb) (rb := carryBits c.L mb c.n)
      (bnd := c.k * 2 ^ (2 * c.n) + 2 ^ a.trunc.maxBits) (by omega) (by omega) hcb (by
    have m1 := modLimbs_bound hc
    have m2 : (2 : ℤ) ^ (2 * c.n + c.kBits) ≤ 2 ^ mb := pow_le_pow_right₀ (by norm_num) (le_max_right _ _)
    have m5 : (2 : ℤ) ^ c.n * 2 ≤ 2 ^ (2 * c.n) := by
      rw [← pow_succ]; exact pow_le_pow_right₀ (by norm_num) (by omega)
    have m6 : (2 : ℤ) ^ (mb + 1) = 2 ^ mb * 2 := pow_succ _ _
    have m7 : (0 : ℤ) < 2 ^ (2 * c.n) := by positivity
    by_cases hcase : a.trunc.maxBits < 2 * c.n + c.kBits
    · have m3 : (2 : ℤ) ^ a.trunc.maxBits * 2 ≤ 2 ^ mb := by
        rw [← pow_succ]; exact pow_le_pow_right₀ (by norm_num) (by omega)
      have m4 : (2 : ℤ) ^ (mb - c.n + 1) * 2 ≤ 2 ^ mb := by
        rw [← pow_succ]; exact pow_le_pow_right₀ (by norm_num) (by omega)
      linarith
    · have m3 : (2 : ℤ) ^ a.trunc.maxBits = 2 ^ mb := by congr 1; omega
      have m4 : (2 : ℤ) ^ (mb - c.n + 1) * 2 ≤ 2 ^ (2 * c.n) := by
        rw [← pow_succ]; exact pow_le_pow_right₀ (by norm_num) (by omega)
      linarith)
  refine Cmp.bind (checkCarryToZero_cmp (xs := chk) (bnd := c.k * 2 ^ (2 * c.n) + 2 ^ a.trunc.maxBits)
    (C := 2 ^ carryBits c.L mb c.n - 1) (a := ⟨cs, mb⟩) ho.p32 hL (show c.n ≤ mb by omega) hp2 (by linarith) (by show _ - _ < _; linarith)
    hroom ?_ ((r3.of_casts hcsz).mono x3) hbnd hdiv) fun _ s4 x4 _ => ?_
  · have h3 : c.k * 2 ^ (2 * c.n) + 2 ^ a.trunc.maxBits + (2 ^ c.n + 1) * 2 ^ carryBits c.L mb c.n < p := hf
    have h3 : (c.k : ℤ) * 2 ^ (2 * c.n) + 2 ^ a.trunc.maxBits + (2 ^ c.n + 1) * 2 ^ carryBits c.L mb c.n < p := by
      exact_mod_cast h3
    refine lt_of_le_of_lt ?_ h3
    have : (0 : ℤ) ≤ 2 ^ c.n := by positivity
    linarith
  have hbl : c.bases.length = c.k := by rw [hc.bases]; simp
  have r1' := (r1.mono x3).mono x4
  refine Cmp.bind (innerProduct_cmp (QsConT.existing r1') (QsConT.constants c.bases) (by simp [hqsl, hbl])) fun qn s5 x5 hqn => ?_
  rw [hqv, dot_bases_int zs hzsl hc.bases, hzs, sgnLimbs_val hq1] at hqn
  have hnat : Con ext s5 a.native (A : ZMod p) := by
    have h1 := (ha.mono x1).mono x3 |>.mono x4 |>.mono x5
    have h2 := h1.native
    unfold AvW at h2
    obtain ⟨_, -, -, -, h3⟩ := h1.ok
    rwa [h3] at h2
  refine zeroRegion_cmp hqn hnat ?_
  rw [hc.native, ← hqA]
  push_cast; ring

end H2
