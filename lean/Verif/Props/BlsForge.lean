import Verif.Props.FreeQuotient
import Verif.Props.CompletePairing

/-!
# C90: a valid BLS signature that a prover may report as invalid

`C65_bls_complete` says that `bls_signature_verify` returns `1` for a valid signature, unless the product of the Miller values has, after
the easy part of the final exponentiation, a small order.  The condition cannot be left out: here the product is `1` after the easy part,
the honest bit is `1`, and another assignment satisfies the same circuit with the bit `0`.
-/

set_option autoImplicit false
set_option linter.unusedSectionVars false
namespace H2
open PairCfg

/-- `bls_signature_verify` (bls_signature.rs:27-78) of a prover who, in the last decompression of the hard part of the final exponentiation,
uses the quotient `W`. -/
noncomputable def blsVerifyWith (W : Fq2) (x : bnCfg.BlsArgs) : M bn254R (AV bn254R) := do
  assertM (x.signatures.length == x.pubkeys.length)
  assertM (!x.signatures.isEmpty)
  assertM (!x.pubkeys.isEmpty)
  let g1 ← loadPoint bnCfg.F x.b1 x.g1
  let hm ← loadPoint bnCfg.F2 x.b2 x.msghash
  let sigs ← mapList (loadPoint bnCfg.F2 x.b2) x.signatures
  let sig ← ecSum bnCfg.F2 x.b2 x.rand2 sigs
  let pks ← mapList (loadPoint bnCfg.F x.b1) x.pubkeys
  let pk ← ecSum bnCfg.F x.b1 x.rand1 pks
  let ny ← bnCfg.F12.negate sig.y
  let nsig : EcPt bnCfg.F2 := ⟨sig.x, ny⟩
  let mp ← bnCfg.multiMillerLoop [(g1, nsig), (pk, hm)] sixUPlus2Naf
  let result ← bnCfg.easyPart mp >>= hardPartWith W
  let one ← bnCfg.F12.loadConstant bnCfg.one12
  let bit ← bnCfg.F12.isEqual result one
  pure bit

theorem rbls_refl (x : bnCfg.BlsArgs) : RBls false x x := by
  have hV : ∀ {V : Type} (v : V), RV false v v := fun _ h => rfl
  have hF : ∀ {V : Type} (l : List (V × V)), List.Forall₂ (RV2 false) l l := fun l => by
    induction l with
    | nil => exact .nil
    | cons a l ih => exact .cons ⟨hV _, hV _⟩ ih
  exact ⟨rfl, rfl, ⟨hV _, hV _⟩, ⟨hV _, hV _⟩, ⟨hV _, hV _⟩, hF _, hF _, ⟨hV _, hV _⟩⟩

theorem blsVerifyWith_rel (W : Fq2) (x : bnCfg.BlsArgs) : Rel false (bnCfg.blsVerify x) (blsVerifyWith W x) (RA false) := by
  have h := rbls_refl x
  obtain ⟨xb1, xb2, xr1, xr2, xg, xs, xp, xm⟩ := x
  obtain ⟨-, -, h3, h4, h5, h6, h7, h8⟩ := h
  simp only at h3 h4 h5 h6 h7 h8
  unfold blsVerify blsVerifyWith blsRun
  simp only [bind_assoc]
  refine (assertM_rel fun _ => rfl).bind fun _ _ _ => (assertM_rel fun _ => rfl).bind fun _ _ _ =>
    (assertM_rel fun _ => rfl).bind fun _ _ _ => ?_
  refine (loadPoint_rel (PairCfg.R1 bnCfg false) _ h5).bind fun _ _ g1 => (loadPoint_rel (PairCfg.R2 bnDeg false) _ h8).bind fun _ _ hm => ?_
  refine (mapList_rel (fun _ _ h => loadPoint_rel (PairCfg.R2 bnDeg false) _ h) h6).bind fun _ _ sigs => ?_
  refine (ecSum_rel (PairCfg.R2 bnDeg false) _ h4 sigs).bind fun _ _ sig => ?_
  refine (mapList_rel (fun _ _ h => loadPoint_rel (PairCfg.R1 bnCfg false) _ h) h7).bind fun _ _ pks => ?_
  refine (ecSum_rel (PairCfg.R1 bnCfg false) _ h3 pks).bind fun _ _ pk => ?_
  refine ((PairCfg.R12 bnDeg false).negate (show (PairCfg.R12 bnDeg false).RP _ _ from sig.y)).bind fun ny ny' (hny : RL false ny ny') => ?_
  have hn : RG2 bnDeg false ⟨_, ny⟩ ⟨_, ny'⟩ := ⟨sig.x, hny⟩
  refine (multiMillerLoop_rel bnDeg (.cons ⟨g1, hn⟩ (.cons ⟨pk, hm⟩ .nil)) _).bind fun _ _ mp => ?_
  unfold finalExp
  simp only [bind_assoc, pure_bind, bind_pure]
  refine (easyPart_rel bnDeg mp).bind fun _ _ he => ?_
  refine (hardPartWith_rel W he).bind fun _ _ res => ((PairCfg.R12 bnDeg false).loadConstant _).bind fun _ _ one => ?_
  exact (PairCfg.R12 bnDeg false).isEqual res one

section
variable {ext : Cell → ZMod bn254R} {s : Ctx bn254R}

theorem blsVerifyWith_cmp (W : Fq2) (hW : ((decOne W * decOne W ^ bn254Q) ^ bn254Q ^ 6) ^ 36 ≠ 1) (x : bnCfg.BlsArgs) (h1 : x.b1 = (3 : ZMod bn254Q))
    (h2 : x.b2 = g2B) {G R1 : G1} {H R2 : G2} {σs : List G2} {ks : List G1}
    (hG : IsPt (3 : ZMod bn254Q) (show ZMod bn254Q from x.g1.1) (show ZMod bn254Q from x.g1.2) G)
    (hH : IsPt g2B (show Fq2 from x.msghash.1) (show Fq2 from x.msghash.2) H)
    (hσ : List.Forall₂ (fun (v : Fq2 × Fq2) g => IsPt g2B v.1 v.2 g) x.signatures σs)
    (hk : List.Forall₂ (fun (v : ZMod bn254Q × ZMod bn254Q) g => IsPt (3 : ZMod bn254Q) v.1 v.2 g) x.pubkeys ks)
    (hR1 : IsPt (3 : ZMod bn254Q) (show ZMod bn254Q from x.rand1.1) (show ZMod bn254Q from x.rand1.2) R1)
    (hR2 : IsPt g2B (show Fq2 from x.rand2.1) (show Fq2 from x.rand2.2) R2)
    (hl : σs.length = ks.length) (hne : σs ≠ []) (hs2 : SumOk R2 σs) (n21 : R2 + σs.sum ≠ R2) (n22 : R2 + σs.sum ≠ -R2)
    (hs1 : SumOk R1 ks) (n11 : R1 + ks.sum ≠ R1) (n12 : R1 + ks.sum ≠ -R1) (iH : InG2 H) (iS : InG2 σs.sum)
    (hd : easy (fAte (-σs.sum) G * fAte H ks.sum) = 1) :
    Cmp bnTbl ext s (blsVerifyWith W x) (fun r s' => Con ext s' r 0) := by
  obtain ⟨b1, b2, rand1, rand2, g1, sigs, pks, hm⟩ := x
  dsimp only at h1 h2 hG hH hσ hk hR1 hR2
  subst h1 h2
  have ls := hσ.length_eq
  have lk := hk.length_eq
  have hnk : ks ≠ [] := by
    rintro rfl
    exact hne (List.length_eq_zero_iff.1 hl)
  unfold blsVerifyWith
  dsimp only
  refine Cmp.assert (beq_iff_eq.2 (ls.trans (hl.trans lk.symm))) ?_
  refine Cmp.assert (by
    have : sigs ≠ [] := by
      rintro rfl
      exact hne (List.length_eq_zero_iff.1 ls.symm)
    simpa using this) ?_
  refine Cmp.assert (by
    have : pks ≠ [] := by
      rintro rfl
      exact hnk (List.length_eq_zero_iff.1 lk.symm)
    simpa using this) ?_
  refine Cmp.bind (show Cmp bnTbl ext s (loadPoint bnCfg.F (3 : ZMod bn254Q) g1) (fun r s' => G1W ext s' r G) from
    loadPoint_cmp (k := bnCmp) (ecFitsC_88_3 (by decide +kernel) bnCmpOk) (3 : ZMod bn254Q) (v := g1) hG) fun g s1 e1 h1 => ?_
  refine Cmp.bind (show Cmp bnTbl ext s1 (loadPoint bnCfg.F2 g2B hm) (fun r s' => G2W ext s' r H) from
    g2Load_cmp (extFieldOf_coeffs _ _ _) hH) fun h s2 e2 h2 => ?_
  refine Cmp.bind (loads2_cmp hσ) fun ss s3 e3 h3 => ?_
  refine Cmp.bind (ecSum2_cmp hR2 h3 hs2 n21 n22) fun sg s4 e4 h4 => ?_
  refine Cmp.bind (loads1_cmp hk) fun ps s5 e5 h5 => ?_
  refine Cmp.bind (ecSum1_cmp hR1 h5 hs1 n11 n12) fun pk s6 e6 h6 => ?_
  obtain ⟨X, Y, ⟨hX, hY⟩, hpt⟩ := h4.mono (e5.trans e6)
  refine Cmp.bind (show Cmp bnTbl ext s6 (bnCfg.F12.negate sg.y) (fun r s' => HN2 ext s' r (-Y)) from bnCmp2.negate hY) fun ny s7 e7 h7 => ?_
  have hn : G2W ext s7 ⟨sg.x, ny⟩ (-σs.sum) := ⟨X, -Y, ⟨HN2.mono hX e7, h7⟩, hpt.neg⟩
  have e17 := e2.trans (e3.trans (e4.trans (e5.trans (e6.trans e7))))
  have e27 := e3.trans (e4.trans (e5.trans (e6.trans e7)))
  have hm := multiMillerLoop_cmp (pairs := [(g, (⟨sg.x, ny⟩ : EcPt bnCfg.F2)), (pk, h)]) (L := [(-σs.sum, G), (H, ks.sum)]) (ext := ext) (s := s7)
    (.cons ⟨h1.mono e17, hn⟩ (.cons ⟨h6.mono e7, h2.mono e27⟩ .nil)) (by simp) (by
      intro x hx
      simp only [List.mem_cons, List.not_mem_nil, or_false] at hx
      rcases hx with rfl | rfl
      · exact iS.neg
      · exact iH)
  refine Cmp.bind hm fun m s8 e8 h8 => ?_
  have hres : Cmp bnTbl ext s8 (bnCfg.easyPart m >>= hardPartWith W)
      (fun r s' => HN12 ext s' r (((decOne W * decOne W ^ bn254Q) ^ bn254Q ^ 6) ^ 36)) := by
    refine Cmp.bind (easyPart_cmp h8 (pair2_ne iS.neg iH h1.ne_zero h6.ne_zero)) fun q s9 e9 h9 => ?_
    have e : ([(-σs.sum, G), (H, ks.sum)].map fun x : G2 × G1 => fAte x.1 x.2).prod ^ ((bn254Q ^ 6 - 1) * (bn254Q ^ 2 + 1)) = 1 := by
      rw [prod2]
      exact hd
    rw [e] at h9
    exact hardPartWith_cmp W h9
  refine Cmp.bind hres fun res s9 e9 h9 => ?_
  refine Cmp.bind (g12_loadConstant 1) fun one s10 e10 h10 => ?_
  refine (bnCmp12.isEqual (h9.mono e10) h10).weaken fun bt s11 h11 => ?_
  unfold bit at h11
  rwa [if_neg hW] at h11

end

/-- C90: a valid BLS signature for which the product of the two Miller values is `1` after the easy part of the final exponentiation: the honest
assignment of the circuit of `bls_signature_verify` has the bit `1`, and another one, with the same fixed values, copies and lookups, has the bit `0`. -/
theorem C90_bls_valid_reported_invalid (x : bnCfg.BlsArgs) (h1 : x.b1 = (3 : ZMod bn254Q)) (h2 : x.b2 = g2B) {G R1 : G1} {H R2 : G2}
    {σs : List G2} {ks : List G1}
    (hG : IsPt (3 : ZMod bn254Q) (show ZMod bn254Q from x.g1.1) (show ZMod bn254Q from x.g1.2) G)
    (hH : IsPt g2B (show Fq2 from x.msghash.1) (show Fq2 from x.msghash.2) H)
    (hσ : List.Forall₂ (fun (v : Fq2 × Fq2) g => IsPt g2B v.1 v.2 g) x.signatures σs)
    (hk : List.Forall₂ (fun (v : ZMod bn254Q × ZMod bn254Q) g => IsPt (3 : ZMod bn254Q) v.1 v.2 g) x.pubkeys ks)
    (hR1 : IsPt (3 : ZMod bn254Q) (show ZMod bn254Q from x.rand1.1) (show ZMod bn254Q from x.rand1.2) R1)
    (hR2 : IsPt g2B (show Fq2 from x.rand2.1) (show Fq2 from x.rand2.2) R2)
    (hl : σs.length = ks.length) (hne : σs ≠ []) (hs2 : SumOk R2 σs) (n21 : R2 + σs.sum ≠ R2) (n22 : R2 + σs.sum ≠ -R2)
    (hs1 : SumOk R1 ks) (n11 : R1 + ks.sum ≠ R1) (n12 : R1 + ks.sum ≠ -R1) (iH : InG2 H) (iS : InG2 σs.sum)
    (hd : easy (fAte (-σs.sum) G * fAte H ks.sum) = 1) (he : eAte σs.sum G = eAte H ks.sum) :
    ∃ r s', bnCfg.blsVerify x (Ctx.new false 0 "" 0 [] []) = some (r, s') ∧
      (∃ w, Sat (RangeTable bn254R 16) s' w ∧ at' w r = 1) ∧ ∃ w, Sat (RangeTable bn254R 16) s' w ∧ at' w r = 0 := by
  have hg := good_new (p := bn254R) (tbl := bnTbl) (ext := fun _ => 0) 0 "" 0
  have hc : Cmp bnTbl (fun _ => 0) (Ctx.new false 0 "" 0 [] []) (bnCfg.blsVerify x) (fun r s' => Con (fun _ => 0) s' r 1) := by
    unfold blsVerify
    refine Cmp.bind (blsRun_cmp x h1 h2 hG hH hσ hk hR1 hR2 hl hne hs2 n21 n22 hs1 n11 n12 iH iS
      (HardDecompressible.of_easy hd).hd) fun r s1 _ h => ?_
    refine Cmp.pure ?_
    have h := h.1
    unfold bit at h
    rwa [if_pos he] at h
  obtain ⟨r, s', hrun, g1, -, hr⟩ := hc hg
  refine ⟨r, s', hrun, ⟨_, g1.sat, hr.at⟩, ?_⟩
  obtain ⟨W, hW⟩ := exists_decOne
  obtain ⟨r', t', rr, -, hsat, pr⟩ := forge hrun (blsVerifyWith_rel W x)
    (blsVerifyWith_cmp W hW x h1 h2 hG hH hσ hk hR1 hR2 hl hne hs2 n21 n22 hs1 n11 n12 iH iS hd) hg
  exact ⟨_, hsat, (at'_of_RA rr).trans pr.at⟩

/-- C90: with the secret key `1` the signature is the hash and the public key the generator: the signature is valid (`C75_bls_example`), and the prover
may report it as invalid. -/
theorem C90_bls_valid_reported_invalid_instance : ∃ (x : bnCfg.BlsArgs) (r : AV bn254R) (s' : Ctx bn254R),
    x.signatures.length = 1 ∧ x.pubkeys = [x.g1] ∧ x.signatures = [x.msghash] ∧
    bnCfg.blsVerify x (Ctx.new false 0 "" 0 [] []) = some (r, s') ∧
    (∃ w, Sat (RangeTable bn254R 16) s' w ∧ at' w r = 1) ∧ ∃ w, Sat (RangeTable bn254R 16) s' w ∧ at' w r = 0 := by
  obtain ⟨A, hA⟩ := g2Gen_pt
  obtain ⟨C, hC⟩ := bn254G_pt
  have iA := g2Gen_inG2 hA
  have oC := bn254G_order hC
  have nA : ∀ k : ℕ, ¬ bn254R ∣ k → k • A ≠ 0 := fun k hk => (iA.smul hk).ne
  have nC : ∀ k : ℕ, ¬ bn254R ∣ k → k • C ≠ 0 := by
    intro k hk h
    have hp : Nat.Prime bn254R := Fact.out
    have h1 : addOrderOf C ∣ bn254R := addOrderOf_dvd_of_nsmul_eq_zero oC
    rcases (Nat.dvd_prime hp).1 h1 with h1 | h1
    · exact hC.ne_zero (AddMonoid.addOrderOf_eq_one_iff.1 h1)
    · exact hk (h1 ▸ addOrderOf_dvd_of_nsmul_eq_zero h)
  have d1 : ¬ bn254R ∣ 1 := by decide +kernel
  have d2 : ¬ bn254R ∣ 2 := by decide +kernel
  have d3 : ¬ bn254R ∣ 3 := by decide +kernel
  have d5 : ¬ bn254R ∣ 5 := by decide +kernel
  obtain ⟨v1, hv1⟩ := exists_isPt (nC 2 d2)
  obtain ⟨v2, hv2⟩ := exists_isPt (nA 2 d2)
  have key : ∀ {G : Type} [AddCommGroup G] (g : G), (∀ k : ℕ, ¬ bn254R ∣ k → k • g ≠ 0) → SumOk (2 • g) [g] ∧ 2 • g + [g].sum ≠ 2 • g ∧
      2 • g + [g].sum ≠ -(2 • g) := by
    intro G _ g hn
    refine ⟨⟨?_, ?_, trivial⟩, ?_, ?_⟩
    · intro h
      refine hn 1 d1 ?_
      rw [two_nsmul] at h
      rw [one_nsmul]
      exact left_eq_add.1 h.symm
    · intro h
      refine hn 3 d3 ?_
      rw [succ_nsmul, h, neg_add_cancel]
    · intro h
      refine hn 1 d1 ?_
      rw [List.sum_singleton] at h
      rw [one_nsmul]
      exact add_eq_left.1 h
    · intro h
      refine hn 5 d5 ?_
      rw [List.sum_singleton] at h
      rw [show (5 : ℕ) = 2 + 1 + 2 from rfl, add_nsmul, add_nsmul, one_nsmul, h, neg_add_cancel]
  obtain ⟨a1, a2, a3⟩ := key C nC
  obtain ⟨b1, b2, b3⟩ := key A nA
  have e1 : [A].sum = A := List.sum_singleton
  have e2 : [C].sum = C := List.sum_singleton
  have h0 : fAte A C ≠ 0 := fAte_ne iA hC.ne_zero
  obtain ⟨r, s', h⟩ := C90_bls_valid_reported_invalid ⟨(3 : ZMod bn254Q), g2B, v1, v2, (((1 : ℕ) : ZMod bn254Q), ((2 : ℕ) : ZMod bn254Q)),
    [(q2 g2Gen.1, q2 g2Gen.2)], [(((1 : ℕ) : ZMod bn254Q), ((2 : ℕ) : ZMod bn254Q))], (q2 g2Gen.1, q2 g2Gen.2)⟩ rfl rfl (G := C) (H := A)
    (σs := [A]) (ks := [C]) hC hA (.cons hA .nil) (.cons hC .nil) hv1 hv2 rfl (by simp) b1 b2 b3 a1 a2 a3 iA (e1.symm ▸ iA) (by
      rw [e1, e2, fAte_negQ]
      exact easy_conj h0) (by rw [e1, e2])
  exact ⟨_, r, s', rfl, rfl, rfl, h⟩

end H2
