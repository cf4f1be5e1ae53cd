import Verif.Pairing.SoundFinal
import Verif.Pairing.CompleteExp2

/-!
# Completeness of `final_exp.rs`: `pow`, `cyclotomic_pow`, the hard and the easy part
-/

set_option autoImplicit false
set_option linter.unusedSectionVars false
namespace H2
open PairCfg

variable {ext : Cell → ZMod bn254R} {s s' : Ctx bn254R} {a b : List (CrtInt bn254R)}

/-- The first digit which is not zero, if any, is `1`. -/
def Lead : List ℤ → Prop
  | [] => True
  | z :: zs => if z = 0 then Lead zs else z = 1

theorem hv_neg : ∀ (zs : List ℤ) (n : ℤ), (∀ z ∈ zs, z ≤ 1) → n ≤ -1 → hv n zs ≤ -1
  | [], n, _, h => h
  | z :: zs, n, hz, h => by
    have h1 := hz z (List.mem_cons_self ..)
    exact hv_neg zs (2 * n + z) (fun y hy => hz y (List.mem_cons_of_mem _ hy)) (by omega)

theorem lead_of : ∀ zs : List ℤ, (∀ z ∈ zs, z = -1 ∨ z = 0 ∨ z = 1) → 0 ≤ hv 0 zs → Lead zs
  | [], _, _ => trivial
  | z :: zs, hz, h => by
    have hz' : ∀ y ∈ zs, y = -1 ∨ y = 0 ∨ y = 1 := fun y hy => hz y (List.mem_cons_of_mem _ hy)
    unfold Lead
    split
    · rename_i h0
      subst h0
      exact lead_of zs hz' h
    · rename_i h0
      rcases hz z (List.mem_cons_self ..) with h1 | h1 | h1
      · subst h1
        have := hv_neg zs (2 * 0 + -1) (fun y hy => by rcases hz' y hy with h | h | h <;> omega) (by omega)
        have h' : 0 ≤ hv (2 * 0 + -1) zs := h
        omega
      · exact absurd h1 h0
      · exact h1

theorem naf_lead {exp : List ℕ} {naf : List ℤ} (hx : ∀ x ∈ exp, x < 2 ^ 64) (h : Naf.getNaf exp = some naf) :
    Lead naf.reverse ∧ ∀ z ∈ naf.reverse, z = -1 ∨ z = 0 ∨ z = 1 := by
  obtain ⟨h1, -, h3⟩ := Naf.C60_get_naf hx h
  have hz : ∀ z ∈ naf.reverse, z = -1 ∨ z = 0 ∨ z = 1 := fun z hz => h3 z (List.mem_reverse.1 hz)
  refine ⟨lead_of _ hz ?_, hz⟩
  rw [hv_value, h1]
  omega

theorem powLoop_cmp {X : Fq12} (h0 : X ≠ 0) : ∀ (zs : List ℤ) (st : Bool) (res : List (CrtInt bn254R)) (n : ℤ) (s : Ctx bn254R),
    HN12 ext s a X → HN12 ext s res (X ^ pw n) → (if st then 1 ≤ n else n = 0) → (st = false → Lead zs) →
    (∀ z ∈ zs, z = -1 ∨ z = 0 ∨ z = 1) →
    Cmp bnTbl ext s (bnCfg.powLoop a zs st res) (fun r s' => HN12 ext s' r (X ^ pw (hv n zs)))
  | [], st, res, n, s, _, hr, _, _, _ => Cmp.pure hr
  | z :: zs, st, res, n, s, ha, hr, hn, hl, hz => by
    have hz0 := hz z (List.mem_cons_self ..)
    have hz' : ∀ y ∈ zs, y = -1 ∨ y = 0 ∨ y = 1 := fun y hy => hz y (List.mem_cons_of_mem _ hy)
    unfold powLoop
    have hsq : Cmp bnTbl ext s (if st = true then bnCfg.F12.mul res res else pure res) (fun r s' => HN12 ext s' r (X ^ pw (2 * n))) := by
      refine Cmp.ite (fun h => ?_) (fun h => ?_)
      · rw [if_pos h] at hn
        rw [pw_pos hn] at hr
        rw [pw_pos (by omega), two_mul, zpow_add₀ h0]
        exact g12_mul hr hr
      · rw [if_neg h] at hn
        subst hn
        exact Cmp.pure hr
    refine Cmp.jp hsq fun res1 s1 e1 hr1 => ?_
    have ha1 := ha.mono e1
    refine Cmp.ite (fun hz1 => Cmp.assert (by rcases hz0 with rfl | rfl | rfl <;> first | rfl | exact absurd rfl hz1) (Cmp.ite (fun hs => ?_)
      (fun hs => ?_))) (fun hz1 => ?_)
    · have hn' : 1 ≤ n := by rwa [if_pos hs] at hn
      rw [pw_pos (by omega)] at hr1
      have hm : Cmp bnTbl ext s1 (if z = 1 then bnCfg.F12.mul res1 a else bnCfg.F12.divideUnsafe res1 a) (fun r s' =>
          HN12 ext s' r (X ^ (2 * n + z))) := by
        refine Cmp.ite (fun h => ?_) (fun h => ?_)
        · subst h
          rw [zpow_add₀ h0, zpow_one]
          exact g12_mul hr1 ha1
        · have hz3 : z = -1 := by
            rcases hz0 with h' | h' | h'
            · exact h'
            · exact absurd h' hz1
            · exact absurd h' h
          subst hz3
          rw [zpow_add₀ h0, zpow_neg_one, ← div_eq_mul_inv]
          exact g12_div hr1 ha1 fun h => absurd h h0
      refine Cmp.jp hm fun res2 s2 e2 hr2 => ?_
      have h1 : 1 ≤ 2 * n + z := by rcases hz0 with rfl | rfl | rfl <;> omega
      rw [← pw_pos h1] at hr2
      exact powLoop_cmp h0 zs true res2 (2 * n + z) s2 (ha1.mono e2) hr2 (by rwa [if_pos rfl]) (by simp) hz'
    · have hst : st = false := by simpa using hs
      have hz3 : z = 1 := by
        have := hl hst
        unfold Lead at this
        rwa [if_neg hz1] at this
      refine Cmp.assert (by rw [hz3]; rfl) ?_
      rw [if_neg hs] at hn
      subst hn hz3
      exact powLoop_cmp h0 zs true res1 1 s1 ha1 hr1 (by rw [if_pos rfl]) (by simp) hz'
    · have hz3 : z = 0 := not_not.1 hz1
      subst hz3
      have := powLoop_cmp h0 zs st res1 (2 * n) s1 ha1 hr1 (by cases st <;> simp at hn ⊢ <;> omega)
        (fun h => by have := hl h; unfold Lead at this; rwa [if_pos rfl] at this) hz'
      refine this.weaken fun r s' h => ?_
      show HN12 ext s' r (X ^ pw (hv (2 * n + 0) zs))
      rwa [add_zero]

theorem pow_cmp {X : Fq12} {exp : List ℕ} {naf : List ℤ} (hx : ∀ x ∈ exp, x < 2 ^ 64) (hn : Naf.getNaf exp = some naf) (h0 : X ≠ 0)
    (ha : HN12 ext s a X) : Cmp bnTbl ext s (bnCfg.pow a exp) (fun r s' =>
      HN12 ext s' r (if Nat.ofDigits (2 ^ 64) exp = 0 then X else X ^ Nat.ofDigits (2 ^ 64) exp)) := by
  obtain ⟨h1, h2⟩ := naf_lead hx hn
  refine Cmp.unwrap hn ?_
  refine (powLoop_cmp h0 naf.reverse false a 0 s ha (by rw [show pw 0 = 1 from rfl, zpow_one]; exact ha) (by simp) (fun _ => h1) h2).weaken
    fun r s' h => ?_
  rwa [hv_value, (Naf.C60_get_naf hx hn).1, pw_nat] at h

/-! ### `cyclotomic_pow` -/

/-- The exponents of the powers which the loop of `cyclotomic_pow` decompresses, from the power `n`. -/
def decAt : ℕ → List ℤ → List ℕ
  | _, [] => []
  | n, z :: zs => (if n ≠ 0 ∧ z ≠ 0 then [2 * n] else []) ++ decAt (2 * (n : ℤ) + z).toNat zs

theorem cycPowLoop_cmp {X : Fq12} (hc : InCyc X) : ∀ (zs : List ℤ) (st : Bool) (comp : Comp (CrtInt bn254R))
    (out : Option (List (CrtInt bn254R))) (n : ℕ) (s : Ctx bn254R), (st = false → out = none) →
    HN12 ext s a X → CompW ext s comp (X ^ pw n) → (if st then 1 ≤ n else n = 0) → (st = false → Lead zs) →
    (∀ z ∈ zs, z = -1 ∨ z = 0 ∨ z = 1) → (∀ e ∈ decAt n zs, DecOk (X ^ e)) →
    Cmp bnTbl ext s (bnCfg.cycPowLoop a zs st comp out) (fun r s' => (zs = [] → r.2 = out) ∧ CompW ext s' r.1 (X ^ pw (hv n zs)) ∧
        ∀ z, zs.getLast? = some z → z ≠ 0 → HN12 ext s' (r.2.getD a) (X ^ pw (hv n zs)))
  | [], st, comp, out, n, s, _, ha, hr, hn, _, _, _ => Cmp.pure ⟨fun _ => rfl, hr, by simp⟩
  | z :: zs, st, comp, out, n, s, hout, ha, hr, hn, hl, hz, hd => by
    have hz0 := hz z (List.mem_cons_self ..)
    have hz' : ∀ y ∈ zs, y = -1 ∨ y = 0 ∨ y = 1 := fun y hy => hz y (List.mem_cons_of_mem _ hy)
    have hd' : ∀ e ∈ decAt (2 * (n : ℤ) + z).toNat zs, DecOk (X ^ e) := fun e he => hd e (List.mem_append_right _ he)
    unfold cycPowLoop
    have hsq : Cmp bnTbl ext s (if st = true then bnCfg.cycSquare comp else pure comp) (fun r s' => CompW ext s' r (X ^ pw (2 * n : ℕ))) := by
      refine Cmp.ite (fun h => ?_) (fun h => ?_)
      · rw [if_pos h] at hn
        rw [pw_nat, if_neg (by omega)] at hr
        rw [pw_nat, if_neg (by omega), mul_comm, pow_mul]
        exact cycSquare_cmp hr (hc.pow n)
      · rw [if_neg h] at hn
        subst hn
        exact Cmp.pure hr
    refine Cmp.jp hsq fun comp1 s1 e1 hr1 => ?_
    have ha1 := ha.mono e1
    refine Cmp.ite (fun hz1 => Cmp.assert (by rcases hz0 with rfl | rfl | rfl <;> first | rfl | exact absurd rfl hz1) (Cmp.ite (fun hs => ?_)
      (fun hs => ?_))) (fun hz1 => ?_)
    · have hn' : 1 ≤ n := by rwa [if_pos hs] at hn
      rw [pw_nat, if_neg (by omega)] at hr1
      have hdn : DecOk (X ^ (2 * n)) := hd _ (List.mem_append_left _ (by rw [if_pos ⟨by omega, hz1⟩]; exact List.mem_singleton.2 rfl))
      refine Cmp.bind (cycDecompress_cmp hr1 (hc.pow _) hdn) fun res0 s2 e2 h2 => ?_
      have ha2 := ha1.mono e2
      obtain ⟨m, hm⟩ : ∃ m : ℕ, (m : ℤ) = 2 * n + z := ⟨(2 * (n : ℤ) + z).toNat, Int.toNat_of_nonneg (by
        rcases hz0 with rfl | rfl | rfl <;> omega)⟩
      have hmul : Cmp bnTbl ext s2 (if z = 1 then bnCfg.F12.mul res0 a else bnCfg.F12.divideUnsafe res0 a) (fun r s' =>
          HN12 ext s' r (X ^ m)) := by
        refine Cmp.ite (fun h => ?_) (fun h => ?_)
        · subst h
          have : m = 2 * n + 1 := by omega
          rw [this, pow_succ]
          exact g12_mul h2 ha2
        · have hz3 : z = -1 := by
            rcases hz0 with h' | h' | h'
            · exact h'
            · exact absurd h' hz1
            · exact absurd h' h
          subst hz3
          have e : 2 * n = m + 1 := by omega
          rw [e, pow_succ] at h2
          have := g12_div h2 ha2 fun h => absurd h hc.ne_zero
          rwa [mul_div_cancel_right₀ _ hc.ne_zero] at this
      refine Cmp.jp hmul fun res s3 e3 h3 => ?_
      have ha3 := ha2.mono e3
      refine Cmp.bind (cycCompress_cmp h3) fun comp2 s4 e4 h4 => ?_
      have hm1 : 1 ≤ m := by
        rcases hz0 with rfl | rfl | rfl <;> omega
      have ep : X ^ pw (m : ℤ) = X ^ m := by rw [pw_nat, if_neg (by omega)]
      have ht : (2 * (n : ℤ) + z).toNat = m := by omega
      rw [ht] at hd'
      refine (cycPowLoop_cmp hc zs true comp2 (some res) m s4 (by simp) (ha3.mono e4) (by rw [ep]; exact h4) (by simpa using hm1) (by simp) hz' hd').weakenE
        fun r s' e5 h => ?_
      obtain ⟨k1, k2, k3⟩ := h
      have a1 : hv n (z :: zs) = hv m zs := by
        rw [hm]
        rfl
      rw [a1]
      refine ⟨by simp, k2, fun y hy hy0 => ?_⟩
      cases zs with
      | cons z' zs => exact k3 y (by rw [List.getLast?_cons_cons] at hy; exact hy) hy0
      | nil =>
        rw [k1 rfl]
        show HN12 ext s' res (X ^ pw (m : ℤ))
        rw [ep]
        exact (h3.mono e4).mono e5
    · have hst : st = false := by simpa using hs
      have hz3 : z = 1 := by
        have := hl hst
        unfold Lead at this
        rwa [if_neg hz1] at this
      refine Cmp.assert (by rw [hz3]; rfl) ?_
      rw [if_neg hs] at hn
      subst hn hz3
      refine (cycPowLoop_cmp hc zs true comp1 out 1 s1 (by simp) ha1 hr1 (by simp) (by simp) hz' hd').weakenE fun r s' e5 h => ?_
      obtain ⟨k1, k2, k3⟩ := h
      refine ⟨by simp, k2, fun y hy hy0 => ?_⟩
      cases zs with
      | cons z' zs => exact k3 y (by rw [List.getLast?_cons_cons] at hy; exact hy) hy0
      | nil =>
        rw [k1 rfl, hout hst]
        show HN12 ext s' a (X ^ (1 : ℤ))
        rw [zpow_one]
        exact ha1.mono e5
    · have hz3 : z = 0 := not_not.1 hz1
      subst hz3
      have ht : (2 * (n : ℤ) + 0).toNat = 2 * n := by omega
      rw [ht] at hd'
      have ev : hv (n : ℤ) (0 :: zs) = hv ((2 * n : ℕ) : ℤ) zs := by
        show hv (2 * (n : ℤ) + 0) zs = _
        rw [add_zero]
        push_cast
        rfl
      refine (cycPowLoop_cmp hc zs st comp1 out (2 * n) s1 hout ha1 hr1 (by cases st <;> simp at hn ⊢ <;> omega)
        (fun h => by have := hl h; unfold Lead at this; rwa [if_pos rfl] at this) hz' hd').weaken fun r s' h => ?_
      obtain ⟨k1, k2, k3⟩ := h
      rw [ev]
      refine ⟨by simp, k2, fun y hy hy0 => ?_⟩
      cases zs with
      | cons z' zs => exact k3 y (by rw [List.getLast?_cons_cons] at hy; exact hy) hy0
      | nil =>
        simp at hy
        omega

/-- The exponents of the powers which `cyclotomic_pow` decompresses. -/
def cycExps (exp : List ℕ) (naf : List ℤ) : List ℕ :=
  decAt 0 naf.reverse ++ if naf[0]? = some 0 then [if Nat.ofDigits (2 ^ 64) exp = 0 then 1 else Nat.ofDigits (2 ^ 64) exp] else []

theorem cycPow_cmp {X : Fq12} {exp : List ℕ} {naf : List ℤ} (hx : ∀ x ∈ exp, x < 2 ^ 64) (hn : Naf.getNaf exp = some naf) (he : exp ≠ [])
    (hc : InCyc X) (ha : HN12 ext s a X) (hd : ∀ e ∈ cycExps exp naf, DecOk (X ^ e)) :
    Cmp bnTbl ext s (bnCfg.cycPow a exp) (fun r s' =>
      HN12 ext s' r (if Nat.ofDigits (2 ^ 64) exp = 0 then X else X ^ Nat.ofDigits (2 ^ 64) exp)) := by
  obtain ⟨l1, l2⟩ := naf_lead hx hn
  obtain ⟨n1, n2, -⟩ := Naf.C60_get_naf hx hn
  unfold cycPow
  refine Cmp.bind (cycCompress_cmp ha) fun comp s1 e1 h1 => ?_
  refine Cmp.unwrap hn ?_
  refine Cmp.bind (cycPowLoop_cmp hc naf.reverse false comp none 0 s1 (fun _ => rfl) (ha.mono e1)
    (by rw [show pw ((0 : ℕ) : ℤ) = 1 from rfl, zpow_one]; exact h1) (by simp) (fun _ => l1) l2
    (fun e he => hd e (List.mem_append_left _ he))) fun co s2 e2 h2 => ?_
  obtain ⟨comp2, out⟩ := co
  obtain ⟨-, k2, k3⟩ := h2
  have hlen : 0 < naf.length := by
    rw [n2]
    have := List.length_pos_of_ne_nil he
    omega
  have hd0 : naf[0]? = some naf[0] := List.getElem?_eq_getElem hlen
  refine Cmp.unwrap hd0 ?_
  rw [show hv ((0 : ℕ) : ℤ) naf.reverse = Naf.value 2 naf from hv_value naf, n1, pw_nat] at k2 k3
  refine Cmp.ite (fun h => ?_) (fun h => ?_)
  · have hdv := hd _ (List.mem_append_right _ (by rw [hd0, h, if_pos rfl]; exact List.mem_singleton.2 rfl))
    refine Cmp.bind (cycDecompress_cmp k2 ?_ ?_) fun r s3 e3 h3 => Cmp.pure h3
    · split
      · exact hc
      · exact hc.pow _
    · split
      · rename_i h0
        rwa [if_pos h0, pow_one] at hdv
      · rename_i h0
        rwa [if_neg h0] at hdv
  · exact Cmp.pure (k3 _ (by rw [List.getLast?_reverse, List.head?_eq_getElem?]; exact hd0) h)

/-! ### The hard part -/

/-- The exponents of the powers which `cyclotomic_pow` decompresses for the exponent `BN_X`. -/
def bnXExps : List ℕ := (Naf.getNaf [bnX]).elim [] (cycExps [bnX])

theorem cycX_cmp {X : Fq12} (hc : InCyc X) (ha : HN12 ext s a X) (hd : ∀ e ∈ bnXExps, DecOk (X ^ e)) :
    Cmp bnTbl ext s (bnCfg.cycPow a [bnXWord]) (fun r s' => HN12 ext s' r (X ^ bnX)) := by
  have hb : bnXWord = bnX := rfl
  have hx : ∀ x ∈ [bnX], x < 2 ^ 64 := by
    intro x hx
    rw [List.mem_singleton.1 hx]
    decide +kernel
  have hs : (Naf.getNaf [bnX]).isSome := by decide +kernel
  obtain ⟨naf, hn⟩ := Option.isSome_iff_exists.1 hs
  unfold bnXExps at hd
  rw [hn] at hd
  have h := cycPow_cmp hx hn (by simp) hc ha hd
  rw [Nat.ofDigits_singleton, if_neg (by decide +kernel)] at h
  rw [hb]
  exact h

/-- Every power of `X` which the hard part decompresses can be. -/
def HardDec (X : Fq12) : Prop := ∀ i, i ≤ 2 → ∀ e ∈ bnXExps, DecOk (X ^ (bnX ^ i * e))

theorem frob_cmp {X : Fq12} (n : ℕ) (hn : n < 12) (h : HN12 ext s a X) : Cmp bnTbl ext s (bnCfg.frobeniusMap a n) (fun r s' =>
    HN12 ext s' r (X ^ bn254Q ^ n)) := by
  have := frobeniusMap_cmp n h
  rwa [Nat.mod_eq_of_lt hn] at this

theorem hardPart_cmp {X : Fq12} (hX : HN12 ext s a X) (hc : InCyc X) (hk : HardDec X) :
    Cmp bnTbl ext s (bnCfg.hardPart a) (fun r s' => HN12 ext s' r (X ^ hardE)) := by
  unfold hardPart
  cb (frob_cmp 1 (by norm_num) hX) mp v1
  cb (frob_cmp 2 (by norm_num) hX) mp2 v2
  cb (frob_cmp 3 (by norm_num) hX) mp3 v3
  cb (g12_mul v2 v3) mp2mp3 v4
  cb (g12_mul v1 v4) y0 vy0
  clear v1 v2 v3 v4
  cb (g12_conj hX) y1 vy1
  cb (cycX_cmp hc hX (fun e he => by have := hk 0 (by norm_num) e he; rwa [pow_zero, one_mul] at this)) mx vx
  cb (frob_cmp 1 (by norm_num) vx) mxp vxp
  cb (cycX_cmp (hc.pow _) vx (fun e he => by have := hk 1 (by norm_num) e he; rwa [pow_one, pow_mul] at this)) mx2 vx2
  cb (frob_cmp 1 (by norm_num) vx2) mx2p vx2p
  cb (frob_cmp 2 (by norm_num) vx2) y2 vy2
  cb (g12_conj vx2) y5 vy5
  cb (cycX_cmp ((hc.pow _).pow _) vx2 (fun e he => by have := hk 2 le_rfl e he; rwa [sq, pow_mul, pow_mul] at this)) mx3 vx3
  cb (frob_cmp 1 (by norm_num) vx3) mx3p vx3p
  cb (g12_conj vxp) y3 vy3
  cb (g12_mul vx vx2p) mxmx2p v5
  cb (g12_conj v5) y4 vy4
  cb (g12_mul vx3 vx3p) mx3mx3p v6
  cb (g12_conj v6) y6 vy6
  clear vx vxp vx2 vx2p vx3 vx3p v5 v6
  cb (g12_mul vy6 vy6) t0 v0
  cb (g12_mul v0 vy4) t1 v1
  cb (g12_mul v1 vy5) t2 v2
  cb (g12_mul vy3 vy5) t3 v3
  cb (g12_mul v3 v2) t4 v4
  cb (g12_mul v2 vy2) t5 v5
  cb (g12_mul v4 v4) t6 v6
  cb (g12_mul v6 v5) t7 v7
  cb (g12_mul v7 v7) t8 v8
  cb (g12_mul v8 vy1) t9 v9
  cb (g12_mul v8 vy0) t10 v10
  cb (g12_mul v9 v9) t11 v11
  refine (g12_mul v11 v10).weaken fun r s' v => ?_
  rw [← hc.hard]
  convert v using 1
  simp only [← pow_mul, ← pow_add]
  unfold chainE
  generalize bnX = x
  refine congrArg (X ^ ·) ?_
  generalize bn254Q = q
  ring

theorem easyPart_cmp {X : Fq12} (hX : HN12 ext s a X) (h0 : X ≠ 0) :
    Cmp bnTbl ext s (bnCfg.easyPart a) (fun r s' => HN12 ext s' r (X ^ ((bn254Q ^ 6 - 1) * (bn254Q ^ 2 + 1)))) := by
  unfold easyPart
  cb (g12_conj hX) f1 v1
  cb (g12_div v1 hX fun h => absurd h h0) f2 v2
  have e : X ^ bn254Q ^ 6 / X = X ^ (bn254Q ^ 6 - 1) := by
    have hpos : 1 ≤ bn254Q ^ 6 := Nat.one_le_pow _ _ (by decide +kernel)
    obtain ⟨n, hn⟩ : ∃ n, bn254Q ^ 6 = n + 1 := ⟨bn254Q ^ 6 - 1, by omega⟩
    rw [hn, pow_succ, Nat.add_sub_cancel]
    exact mul_div_cancel_right₀ _ h0
  rw [e] at v2
  cb (frob_cmp 2 (by norm_num) v2) f3 v3
  refine (g12_mul v3 v2).weaken fun r s' v => ?_
  rwa [← pow_succ, ← pow_mul] at v

/-- The final exponentiation. -/
theorem finalExp_cmp {X : Fq12} (hX : HN12 ext s a X) (h0 : X ≠ 0) (hk : HardDec (X ^ ((bn254Q ^ 6 - 1) * (bn254Q ^ 2 + 1)))) :
    Cmp bnTbl ext s (bnCfg.finalExp a) (fun r s' => HN12 ext s' r (X ^ finalE)) := by
  unfold finalExp
  cb (easyPart_cmp hX h0) f0 v
  rw [finalE_eq, pow_mul]
  exact hardPart_cmp v (InCyc.easy h0) hk

end H2
