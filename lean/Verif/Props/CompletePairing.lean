import Verif.Pairing.CompletePairing
import Verif.Pairing.OrderG2
import Verif.Pairing.Generator
import Verif.Props.Pairing

/-!
# Property C75 (pairings of BN254: an honest prover succeeds)

The chips of `bn254/mod.rs` with three limbs of 88 bits (`bnCfg`).  `Fp12W ext s a X`, `TwW ext s Q A`, `CvW ext s P C`: in the state `s`
the honest assignment gives `a`, `Q`, `P` the canonical representatives of the element `X` of `Fq12`, of the finite point `A` of the
twist and of the finite point `C` of the curve.  `Completes tbl ext s m Q`: the run of `m` from `s` does not panic, the honest
assignment satisfies all the constraints of the resulting circuit, and the result satisfies `Q`.

The specification of the pairing (`fAte`, `eAte`, `InG2`) is in `Pairing/Spec.lean`.
-/

set_option autoImplicit false
set_option linter.unusedSectionVars false
namespace H2
open PairCfg

variable {ext : Cell → ZMod bn254R} {s : Ctx bn254R} {a b : List (CrtInt bn254R)}

/-- In the state `s`, the honest assignment gives `P` the canonical coordinates of the finite point `C` of the curve. -/
def CvW (ext : Cell → ZMod bn254R) (s : Ctx bn254R) (P : EcPt bnCfg.F) (C : G1) : Prop :=
  ∃ X Y : ZMod bn254Q, IsPt 3 X Y C ∧ bnChip.pW ext s P.x X ∧ bnChip.pW ext s P.y Y

theorem cvW_iff {P : EcPt bnCfg.F} {C : G1} : CvW ext s P C ↔ G1W ext s P C := by
  constructor
  · rintro ⟨X, Y, h, h1, h2⟩
    exact ⟨X, Y, ⟨h1, h2⟩, h⟩
  · rintro ⟨X, Y, ⟨h1, h2⟩, h⟩
    exact ⟨X, Y, h, h1, h2⟩

theorem twW_iff' {P : EcPt bnCfg.F2} {A : G2} : TwW ext s P A ↔ G2W ext s P A := twW_iff

/-- The compressed form of `X = Σ aᵢ wⁱ` (with `aᵢ` in `Fq2`) can be decompressed by the circuit, which divides by `a₄` and by `a₁`,
whichever of the results it then selects: if `a₄ = 0`, then `a₁ = 0` or `a₂ a₅ = 0`. -/
def Decompressible (X : Fq12) : Prop := ∀ c : ℕ → Fq2, X = ∑ i ∈ Finset.range 6, Fq12.ι (c i) * Fq12.w ^ i →
  c 4 = 0 → c 1 = 0 ∨ c 2 * c 5 = 0

theorem decompressible_iff {X : Fq12} : Decompressible X ↔ DecOk X := by
  constructor
  · intro h a0 a1 a2 a3 a4 a5 hX h4
    refine h (fun i => [a0, a1, a2, a3, a4, a5].getD i 0) ?_ h4
    rw [hX]
    simp [Finset.sum_range_succ, e6]
  · intro h c hX h4
    refine h (c 0) (c 1) (c 2) (c 3) (c 4) (c 5) ?_ h4
    rw [hX]
    simp [Finset.sum_range_succ, e6]

/-- The exponents of the powers which `cyclotomic_pow(·, x)` decompresses (`x` is the parameter of the curve). -/
def decExps : List ℕ := [16, 68, 552, 2204, 8820, 35284, 282264, 1129060, 4516244, 18064972, 72259884, 289039532, 4624632528,
  36997060232, 147988240932, 591952963732, 2367811854932, 9471247419724, 75769979357800, 2424639339449632, 9698557357798532,
  310353835449553056, 4965661367192848880]

/-- The powers which the hard part of the final exponentiation of `X` decompresses can be decompressed: the 69 powers
`easy(X)^(xⁱ e)` for `i ≤ 2` and `e` in `decExps`.  (Of the about `q⁴` elements of the cyclotomic subgroup all but about one in `q²` are
decompressible; that is not proved.) -/
def HardDecompressible (X : Fq12) : Prop := ∀ i ≤ 2, ∀ e ∈ decExps, Decompressible (easy X ^ (bnX ^ i * e))

theorem decExps_eq : bnXExps = decExps := by decide +kernel

theorem HardDecompressible.hd {X : Fq12} (h : HardDecompressible X) : HardDec (X ^ ((bn254Q ^ 6 - 1) * (bn254Q ^ 2 + 1))) := by
  intro i hi e he
  rw [decExps_eq] at he
  exact decompressible_iff.1 (h i hi e he)

theorem decOk_one : DecOk 1 := by
  intro a0 a1 a2 a3 a4 a5 h _
  left
  have e1 : (1 : Fq12) = e6 1 0 0 0 0 0 := by simp [e6]
  rw [e1] at h
  exact (e6_inj h).2.1.symm

/-- If the easy part is trivial, so is the condition. -/
theorem HardDecompressible.of_easy {X : Fq12} (h : easy X = 1) : HardDecompressible X := by
  intro i _ e _
  rw [h, one_pow]
  exact decompressible_iff.2 decOk_one

/-! ### The final exponentiation -/

section
variable {X : Fq12}

/-- C75: `frobenius_map(a, n)` completes, for every `a` and `n`. -/
theorem C75_frobenius_map (hg : Good bnTbl ext s) (n : ℕ) (ha : Fp12W ext s a X) :
    Completes bnTbl ext s (bnCfg.frobeniusMap a n) (fun r s' => Fp12W ext s' r (X ^ bn254Q ^ (n % 12))) := by
  rw [fp12W_iff] at ha
  exact c12 hg (frobeniusMap_cmp n ha)

/-- C75: `pow(a, exp)` completes, for every nonzero `a` and every exponent whose top word is below `2⁶³`. -/
theorem C75_pow (hg : Good bnTbl ext s) {exp : List ℕ} {top : ℕ} (hx : ∀ y ∈ exp, y < 2 ^ 64) (ht : top < 2 ^ 63) (h0 : X ≠ 0)
    (ha : Fp12W ext s a X) : Completes bnTbl ext s (bnCfg.pow a (exp ++ [top])) (fun r s' =>
      Fp12W ext s' r (if Nat.ofDigits (2 ^ 64) (exp ++ [top]) = 0 then X else X ^ Nat.ofDigits (2 ^ 64) (exp ++ [top]))) := by
  rw [fp12W_iff] at ha
  obtain ⟨naf, hn⟩ := Naf.C60_get_naf_returns exp top hx ht
  refine c12 hg (pow_cmp ?_ hn h0 ha)
  intro y hy
  rcases List.mem_append.1 hy with hy | hy
  · exact hx y hy
  · rw [List.mem_singleton.1 hy]
    omega

/-- C75: `cyclotomic_pow(a, exp)` completes for `a` in the cyclotomic subgroup if the powers which it decompresses can be. -/
theorem C75_cyclotomic_pow (hg : Good bnTbl ext s) {exp : List ℕ} {top : ℕ} (hx : ∀ y ∈ exp, y < 2 ^ 64) (ht : top < 2 ^ 63)
    (ha : Fp12W ext s a X) (hc : X ^ (bn254Q ^ 4 - bn254Q ^ 2 + 1) = 1)
    (hd : ∀ naf, Naf.getNaf (exp ++ [top]) = some naf → ∀ e ∈ cycExps (exp ++ [top]) naf, Decompressible (X ^ e)) :
    Completes bnTbl ext s (bnCfg.cycPow a (exp ++ [top])) (fun r s' =>
      Fp12W ext s' r (if Nat.ofDigits (2 ^ 64) (exp ++ [top]) = 0 then X else X ^ Nat.ofDigits (2 ^ 64) (exp ++ [top]))) := by
  rw [fp12W_iff] at ha
  obtain ⟨naf, hn⟩ := Naf.C60_get_naf_returns exp top hx ht
  have hc' : InCyc X := by
    unfold InCyc cycOrd
    exact hc
  refine c12 hg (cycPow_cmp ?_ hn (by simp) hc' ha fun e he => decompressible_iff.1 (hd naf hn e he))
  intro y hy
  rcases List.mem_append.1 hy with hy | hy
  · exact hx y hy
  · rw [List.mem_singleton.1 hy]
    omega

/-- C75: compressing and decompressing an element of the cyclotomic subgroup completes if it is decompressible. -/
theorem C75_decompress (hg : Good bnTbl ext s) (ha : Fp12W ext s a X) (hc : X ^ (bn254Q ^ 4 - bn254Q ^ 2 + 1) = 1) (hd : Decompressible X) :
    Completes bnTbl ext s (cycCompress a >>= bnCfg.cycDecompress) (fun r s' => Fp12W ext s' r X) := by
  rw [fp12W_iff] at ha
  have hc' : InCyc X := by
    unfold InCyc cycOrd
    exact hc
  exact c12 hg (Cmp.bind (cycCompress_cmp ha) fun g s1 _ h => cycDecompress_cmp h hc' (decompressible_iff.1 hd))

theorem cycDecompress_only (g : Comp (CrtInt bn254R)) : Sound bnTbl (bnCfg.cycDecompress g) (fun w _ => ∀ X, CompRep w g X → DecOk X) := by
  intro s
  refine Snd.bind (f2_mulNC g.g5 g.g5 s) fun g5sq s1 _ => Snd.bind (f2_w6 g5sq 9 s1) fun g5sqc s2 _ =>
    Snd.bind (f2_mulNC g.g4 g.g4 s2) fun g4sq s3 _ => Snd.bind (f2_smul g4sq 3 s3) fun g4sq3 s4 _ =>
    Snd.bind (f2_smul g.g3 2 s4) fun g32 s5 _ => Snd.bind (f2_add g5sqc g4sq3 s5) fun num s6 _ =>
    Snd.bind (f2_sub num g32 s6) fun num' s7 _ => Snd.bind (f2_smul g.g2 4 s7) fun g24 s8 _ =>
    Snd.bind (f2_div num' g24 s8) fun g11 s9 _ => Snd.bind (f2_mulNC g.g4 g.g5 s9) fun g4g5 s10 _ =>
    Snd.bind (f2_smul g4g5 2 s10) fun num2 s11 _ => Snd.bind (f2_div num2 g.g3 s11) fun g10 s12 _ =>
    Snd.bind (isZero2 g.g2 s12) fun z s13 _ => Snd.bind (f2_sel g10 g11 z s13) fun g1 s14 _ =>
    Snd.bind (f2_mulNC g1 g1 s14) fun g1sq s15 _ => Snd.bind (f2_smul g1sq 2 s15) fun g1sq2 s16 _ =>
    Snd.bind (f2_mulNC g.g2 g.g5 s16) fun g2g5 s17 _ => Snd.bind (f2_mulNC g.g3 g.g4 s17) fun g3g4 s18 _ =>
    Snd.bind (f2_smul g3g4 3 s18) fun g3g43 s19 _ => Snd.bind (f2_add g1sq2 g2g5 s19) fun temp s20 _ =>
    Snd.bind (f2_selU g1sq2 temp z s20) fun temp' s21 _ => Snd.bind (f2_sub temp' g3g43 s21) fun temp'' s22 _ =>
    Snd.bind (f2_w6 temp'' 9 s22) fun g0 s23 _ => Snd.bind (addOne_sound g0 s23) fun g0' s24 _ =>
    Snd.bind (f2_carry g0' s24) fun g0'' s25 _ => (join_sound g0'' g.g2 g.g4 g1 g.g3 g.g5 s25).weaken ?_
  rintro w r _ - - - - - - - - - - - - - - ⟨Q0, hQ0, h12⟩ h11 h10 - - - - - - - - -
    X ⟨a0, a1, a2, a3, a4, a5, rfl, r1, r4, r2, r5⟩ b0 b1 b2 b3 b4 b5 hb hb4
  have e10 := h12 _ _ _ _ (by decide +kernel) (h11 _ _ (h10 _ _ _ _ r2.u r5.u)) r4.u
  obtain ⟨-, i1, i2, -, i4, i5⟩ := e6_inj hb
  rw [i4, hb4, mul_zero, i2, i5] at e10
  right
  have h2 : ((2 : ℤ) : Fq2) ≠ 0 := by
    have := Fq2.natCast_ne (c := 2) (by decide +kernel)
    exact_mod_cast this
  rcases mul_eq_zero.1 e10.symm with h | h
  · exact h
  · exact absurd h h2

/-- C75: the condition is necessary: if `X` is not decompressible, no assignment (in particular not the honest one) satisfies the circuit
which decompresses it. -/
theorem C75_decompress_only {v : Cell → ZMod bn254R} {r : List (CrtInt bn254R)} {s' : Ctx bn254R} (hi : Inv s)
    (hrun : (cycCompress a >>= bnCfg.cycDecompress) s = some (r, s')) (hw : Sat (RangeTable bn254R 16) s' v) (ha : Is12 v a X) :
    Decompressible X := by
  rw [is12_iff] at ha
  have : Sound bnTbl (cycCompress a >>= bnCfg.cycDecompress) (fun w _ => ∀ X, R12 w a X → DecOk X) := by
    intro s
    refine Snd.bind (cycCompress_sound a s) fun g s1 _ => (cycDecompress_only g s1).weaken ?_
    intro w r _ h2 h1 X hX
    exact h2 X (h1 X hX)
  exact decompressible_iff.2 (this.run hi hrun hw X ha)

/-- C75: `easy_part(a)` completes for every nonzero `a`. -/
theorem C75_easy_part (hg : Good bnTbl ext s) (ha : Fp12W ext s a X) (h0 : X ≠ 0) :
    Completes bnTbl ext s (bnCfg.easyPart a) (fun r s' => Fp12W ext s' r (X ^ ((bn254Q ^ 6 - 1) * (bn254Q ^ 2 + 1)))) := by
  rw [fp12W_iff] at ha
  exact c12 hg (easyPart_cmp ha h0)

/-- C75: `final_exp(a)` completes for every nonzero `a` for which the powers which it decompresses can be. -/
theorem C75_final_exp (hg : Good bnTbl ext s) (ha : Fp12W ext s a X) (h0 : X ≠ 0) (hd : HardDecompressible X) :
    Completes bnTbl ext s (bnCfg.finalExp a) (fun r s' => Fp12W ext s' r (X ^ ((bn254Q ^ 12 - 1) / bn254R))) := by
  have e : (bn254Q ^ 12 - 1) / bn254R = finalE := by unfold finalE; rfl
  rw [e]
  rw [fp12W_iff] at ha
  exact c12 hg (finalExp_cmp ha h0 hd.hd)

end

/-! ### Pairings -/

section
variable {Q T : EcPt bnCfg.F2} {P S : EcPt bnCfg.F} {A B : G2} {C D : G1}

/-- C75: `miller_loop(Q, P)` completes, for every `Q` of the second group and every finite point `P` of the curve. -/
theorem C75_miller_loop (hg : Good bnTbl ext s) (hQ : TwW ext s Q A) (hP : CvW ext s P C) (hA : InG2 A) :
    Completes bnTbl ext s (bnCfg.millerLoop Q P sixUPlus2Naf) (fun r s' => Fp12W ext s' r (fAte A C)) := by
  rw [twW_iff'] at hQ
  rw [cvW_iff] at hP
  exact c12 hg (millerLoop_cmp hA hQ hP)

/-- C75: `multi_miller_loop(pairs)` completes, for every nonempty list of such pairs. -/
theorem C75_multi_miller_loop (hg : Good bnTbl ext s) {pairs : List (EcPt bnCfg.F × EcPt bnCfg.F2)} {L : List (G1 × G2)}
    (hp : pairs.Forall₂ (fun pr x => CvW ext s pr.1 x.1 ∧ TwW ext s pr.2 x.2) L) (hne : L ≠ []) (hL : ∀ x ∈ L, InG2 x.2) :
    Completes bnTbl ext s (bnCfg.multiMillerLoop pairs sixUPlus2Naf) (fun r s' => Fp12W ext s' r (L.map fun x => fAte x.2 x.1).prod) := by
  have h : PairsW ext s pairs (L.map Prod.swap) := by
    refine List.forall₂_map_right_iff.2 (hp.imp fun pr x h => ⟨cvW_iff.1 h.1, twW_iff'.1 h.2⟩)
  have := multiMillerLoop_cmp h (by simpa using hne) (by
    intro x hx
    obtain ⟨y, hy, rfl⟩ := List.mem_map.1 hx
    exact hL y hy)
  rw [List.map_map] at this
  exact c12 hg this

/-- C75: `pairing(Q, P)` completes with the optimal Ate pairing, if the powers which the final exponentiation decompresses can be. -/
theorem C75_pairing (hg : Good bnTbl ext s) (hQ : TwW ext s Q A) (hP : CvW ext s P C) (hA : InG2 A) (hd : HardDecompressible (fAte A C)) :
    Completes bnTbl ext s (bnCfg.pairing Q P) (fun r s' => Fp12W ext s' r (eAte A C)) := by
  rw [twW_iff'] at hQ
  rw [cvW_iff] at hP
  exact c12 hg (pairing_cmp hA hQ hP hd.hd)

/-- C75: `pairing_check(Q, P, T, S)` completes if the two pairings agree, with the same proviso. -/
theorem C75_pairing_check (hg : Good bnTbl ext s) (hQ : TwW ext s Q A) (hP : CvW ext s P C) (hT : TwW ext s T B) (hS : CvW ext s S D)
    (hA : InG2 A) (hB : InG2 B) (he : eAte A C = eAte B D) (hd : HardDecompressible (fAte A (-C) * fAte B D)) :
    Completes bnTbl ext s (bnCfg.pairingCheck Q P T S) (fun _ _ => True) := by
  rw [twW_iff'] at hQ hT
  rw [cvW_iff] at hP hS
  exact (pairingCheck_cmp hA hB hQ hP hT hS he hd.hd).run hg

theorem easy_conj {X : Fq12} (h0 : X ≠ 0) : easy (X ^ bn254Q ^ 6 * X) = 1 := by
  unfold easy
  rw [← pow_succ, ← pow_mul]
  have e : (bn254Q ^ 6 + 1) * ((bn254Q ^ 6 - 1) * (bn254Q ^ 2 + 1)) = (bn254Q ^ 12 - 1) * (bn254Q ^ 2 + 1) := by
    rw [← mul_assoc]
    congr 1
  have h1 : X ^ (bn254Q ^ 12 - 1) = 1 := by
    have h := e6_pow_q12 X
    have hq : bn254Q ^ 12 = bn254Q ^ 12 - 1 + 1 := (Nat.sub_add_cancel (Nat.one_le_pow _ _ (by decide +kernel))).symm
    rw [hq, pow_succ] at h
    exact mul_right_cancel₀ h0 (h.trans (one_mul X).symm)
  rw [e, pow_mul, h1, one_pow]

theorem easy_neg (X : Fq12) : easy (-X) = easy X := by
  unfold easy
  refine Even.neg_pow ?_ X
  refine Even.mul_right ?_ _
  have : Odd (bn254Q ^ 6) := Odd.pow (by decide +kernel)
  obtain ⟨k, hk⟩ := this
  exact ⟨k, by omega⟩

/-- C75: … without any proviso for `pairing_check(Q, P, Q, P)`. -/
theorem C75_pairing_check_self (hg : Good bnTbl ext s) (hQ : TwW ext s Q A) (hP : CvW ext s P C) (hT : TwW ext s T A) (hS : CvW ext s S C)
    (hA : InG2 A) : Completes bnTbl ext s (bnCfg.pairingCheck Q P T S) (fun _ _ => True) := by
  refine C75_pairing_check hg hQ hP hT hS hA hA rfl (.of_easy ?_)
  have h0 : fAte A C ≠ 0 := fAte_ne hA (G1W.ne_zero (cvW_iff.1 hP))
  rcases fAte_negP A C with h | h <;> rw [h]
  · exact easy_conj h0
  · rw [neg_mul, easy_neg]
    exact easy_conj h0

end

/-! ### BLS signatures -/

/-- C75: `bls_signature_verify` completes, and its bit tells whether `e(Σ signatures, g1) = e(H(m), Σ public keys)`, for points on
the curves of which the hash and the sum of the signatures lie in the second group, if the sums meet no exceptional case of the
incomplete addition (`SumOk`: no partial sum, starting from the random point, is plus or minus the next point) and the powers which the
final exponentiation decompresses can be. -/
theorem C75_bls (hg : Good bnTbl ext s) (x : bnCfg.BlsArgs) (h1 : x.b1 = (3 : ZMod bn254Q)) (h2 : x.b2 = g2B) {G R1 : G1} {H R2 : G2}
    {σs : List G2} {ks : List G1}
    (hG : IsPt (3 : ZMod bn254Q) (show ZMod bn254Q from x.g1.1) (show ZMod bn254Q from x.g1.2) G)
    (hH : IsPt g2B (show Fq2 from x.msghash.1) (show Fq2 from x.msghash.2) H)
    (hσ : List.Forall₂ (fun (v : Fq2 × Fq2) g => IsPt g2B v.1 v.2 g) x.signatures σs)
    (hk : List.Forall₂ (fun (v : ZMod bn254Q × ZMod bn254Q) g => IsPt (3 : ZMod bn254Q) v.1 v.2 g) x.pubkeys ks)
    (hR1 : IsPt (3 : ZMod bn254Q) (show ZMod bn254Q from x.rand1.1) (show ZMod bn254Q from x.rand1.2) R1)
    (hR2 : IsPt g2B (show Fq2 from x.rand2.1) (show Fq2 from x.rand2.2) R2)
    (hl : σs.length = ks.length) (hne : σs ≠ []) (hs2 : SumOk R2 σs) (n21 : R2 + σs.sum ≠ R2) (n22 : R2 + σs.sum ≠ -R2)
    (hs1 : SumOk R1 ks) (n11 : R1 + ks.sum ≠ R1) (n12 : R1 + ks.sum ≠ -R1) (iH : InG2 H) (iS : InG2 σs.sum)
    (hd : HardDecompressible (fAte (-σs.sum) G * fAte H ks.sum)) :
    Completes bnTbl ext s (bnCfg.blsVerify x) (fun r s' => Con ext s' r (if eAte σs.sum G = eAte H ks.sum then 1 else 0)) := by
  refine Cmp.run ?_ hg
  unfold blsVerify
  refine Cmp.bind (blsRun_cmp x h1 h2 hG hH hσ hk hR1 hR2 hl hne hs2 n21 n22 hs1 n11 n12 iH iS hd.hd) fun r s1 _ h => ?_
  exact Cmp.pure h.1

/-! ### The hypotheses are met -/

/-- Load a point of each curve, compute the Miller loop of the pair, and check their pairing against itself. -/
noncomputable def bnSelfCheck (q : Fq2 × Fq2) (p : ZMod bn254Q × ZMod bn254Q) : M bn254R (List (CrtInt bn254R)) := do
  let Q ← loadPoint bnCfg.F2 g2B q
  let P ← loadPoint bnCfg.F (3 : ZMod bn254Q) p
  let f ← bnCfg.millerLoop Q P sixUPlus2Naf
  bnCfg.pairingCheck Q P Q P
  pure f

/-- C75: the program completes from an empty context with the generators (`P = (1, 2)`). -/
theorem C75_example (ext : Cell → ZMod bn254R) : ∃ (A : G2) (C : G1), IsPt g2B (q2 g2Gen.1) (q2 g2Gen.2) A ∧
    IsPt (3 : ZMod bn254Q) ((1 : ℕ) : ZMod bn254Q) ((2 : ℕ) : ZMod bn254Q) C ∧
    Completes bnTbl ext (Ctx.new false 0 "" 0 [] []) (bnSelfCheck (q2 g2Gen.1, q2 g2Gen.2) (((1 : ℕ) : ZMod bn254Q), ((2 : ℕ) : ZMod bn254Q)))
      (fun r s' => Fp12W ext s' r (fAte A C)) := by
  obtain ⟨A, hA⟩ := g2Gen_pt
  obtain ⟨C, hC⟩ := bn254G_pt
  have iA := g2Gen_inG2 hA
  refine ⟨A, C, hA, hC, Cmp.run ?_ (good_new 0 "" 0)⟩
  unfold bnSelfCheck
  refine Cmp.bind (show Cmp bnTbl ext _ (loadPoint bnCfg.F2 g2B (q2 g2Gen.1, q2 g2Gen.2)) (fun r s' => G2W ext s' r A) from
    g2Load_cmp (extFieldOf_coeffs _ _ _) hA) fun Q s1 e1 h1 => ?_
  refine Cmp.bind (show Cmp bnTbl ext s1 (loadPoint bnCfg.F (3 : ZMod bn254Q) (((1 : ℕ) : ZMod bn254Q), ((2 : ℕ) : ZMod bn254Q)))
    (fun r s' => G1W ext s' r C) from
    loadPoint_cmp (k := bnCmp) (ecFitsC_88_3 (by decide +kernel) bnCmpOk) (3 : ZMod bn254Q)
      (v := (((1 : ℕ) : ZMod bn254Q), ((2 : ℕ) : ZMod bn254Q))) hC) fun P s2 e2 h2 => ?_
  have h1 := h1.mono e2
  refine Cmp.bind (millerLoop_cmp iA h1 h2) fun f s3 e3 h3 => ?_
  have hd : HardDecompressible (fAte A (-C) * fAte A C) := by
    refine .of_easy ?_
    have h0 : fAte A C ≠ 0 := fAte_ne iA hC.ne_zero
    rcases fAte_negP A C with h | h <;> rw [h]
    · exact easy_conj h0
    · rw [neg_mul, easy_neg]
      exact easy_conj h0
  refine Cmp.bind (pairingCheck_cmp iA iA (h1.mono e3) (h2.mono e3) (h1.mono e3) (h2.mono e3) rfl hd.hd) fun _ s4 e4 _ => ?_
  exact Cmp.pure (fp12W_iff.2 (h3.mono e4))

/-- Every nonzero point has coordinates. -/
theorem exists_isPt {K : Type} [Field K] [DecidableEq K] {b : K} {g : ECurve b} (h : g ≠ 0) : ∃ v : K × K, IsPt b v.1 v.2 g := by
  cases g with
  | zero => exact absurd rfl h
  | some x y hn => exact ⟨(x, y), hn, rfl⟩

/-- C75: a BLS signature: with the secret key `1` the signature is the hash and the public key the generator; the verification
completes with the bit `1`. -/
theorem C75_bls_example (ext : Cell → ZMod bn254R) : ∃ x : bnCfg.BlsArgs, x.signatures.length = 1 ∧
    Completes bnTbl ext (Ctx.new false 0 "" 0 [] []) (bnCfg.blsVerify x) (fun r s' => Con ext s' r 1) := by
  obtain ⟨A, hA⟩ := g2Gen_pt
  obtain ⟨C, hC⟩ := bn254G_pt
  have iA := g2Gen_inG2 hA
  have oC := bn254G_order hC
  have nA : ∀ k : ℕ, ¬ bn254R ∣ k → k • A ≠ 0 := fun k hk => (iA.smul hk).ne
  have nC : ∀ k : ℕ, ¬ bn254R ∣ k → k • C ≠ 0 := by
    intro k hk h
    have hp : Nat.Prime bn254R := Fact.out
    have h1 : addOrderOf C ∣ bn254R := addOrderOf_dvd_of_nsmul_eq_zero oC
    rcases (Nat.dvd_prime hp).1 h1 with h1 | h1
    · exact hC.ne_zero (AddMonoid.addOrderOf_eq_one_iff.1 h1)
    · exact hk (h1 ▸ addOrderOf_dvd_of_nsmul_eq_zero h)
  have d1 : ¬ bn254R ∣ 1 := by decide +kernel
  have d2 : ¬ bn254R ∣ 2 := by decide +kernel
  have d3 : ¬ bn254R ∣ 3 := by decide +kernel
  have d5 : ¬ bn254R ∣ 5 := by decide +kernel
  obtain ⟨v1, hv1⟩ := exists_isPt (nC 2 d2)
  obtain ⟨v2, hv2⟩ := exists_isPt (nA 2 d2)
  have key : ∀ {G : Type} [AddCommGroup G] (g : G), (∀ k : ℕ, ¬ bn254R ∣ k → k • g ≠ 0) → SumOk (2 • g) [g] ∧ 2 • g + [g].sum ≠ 2 • g ∧
      2 • g + [g].sum ≠ -(2 • g) := by
    intro G _ g hn
    refine ⟨⟨?_, ?_, trivial⟩, ?_, ?_⟩
    · intro h
      refine hn 1 d1 ?_
      rw [two_nsmul] at h
      rw [one_nsmul]
      exact left_eq_add.1 h.symm
    · intro h
      refine hn 3 d3 ?_
      rw [succ_nsmul, h, neg_add_cancel]
    · intro h
      refine hn 1 d1 ?_
      rw [List.sum_singleton] at h
      rw [one_nsmul]
      exact add_eq_left.1 h
    · intro h
      refine hn 5 d5 ?_
      rw [List.sum_singleton] at h
      rw [show (5 : ℕ) = 2 + 1 + 2 from rfl, add_nsmul, add_nsmul, one_nsmul, h, neg_add_cancel]
  obtain ⟨a1, a2, a3⟩ := key C nC
  obtain ⟨b1, b2, b3⟩ := key A nA
  refine ⟨⟨(3 : ZMod bn254Q), g2B, v1, v2, (((1 : ℕ) : ZMod bn254Q), ((2 : ℕ) : ZMod bn254Q)), [(q2 g2Gen.1, q2 g2Gen.2)],
    [(((1 : ℕ) : ZMod bn254Q), ((2 : ℕ) : ZMod bn254Q))], (q2 g2Gen.1, q2 g2Gen.2)⟩, rfl, ?_⟩
  have e1 : [A].sum = A := List.sum_singleton
  have e2 : [C].sum = C := List.sum_singleton
  have h0 : fAte A C ≠ 0 := fAte_ne iA hC.ne_zero
  have h := C75_bls (ext := ext) (good_new 0 "" 0) ⟨(3 : ZMod bn254Q), g2B, v1, v2, (((1 : ℕ) : ZMod bn254Q), ((2 : ℕ) : ZMod bn254Q)),
    [(q2 g2Gen.1, q2 g2Gen.2)], [(((1 : ℕ) : ZMod bn254Q), ((2 : ℕ) : ZMod bn254Q))], (q2 g2Gen.1, q2 g2Gen.2)⟩ rfl rfl (G := C) (H := A)
    (σs := [A]) (ks := [C]) hC hA (.cons hA .nil) (.cons hC .nil) hv1 hv2 rfl (by simp) b1 b2 b3 a1 a2 a3 iA (e1.symm ▸ iA) (by
      rw [e1, e2, fAte_negQ]
      exact .of_easy (easy_conj h0))
  rw [e1, e2, if_pos rfl] at h
  exact h

/-! ### The pairing of the generators

Evaluated by the kernel in `Pairing/Generator.lean`: the conditions above, and those of C63, C64 and C65, hold for the generators `A` of
the second group and `C = (1, 2)`. -/

/-- C64: the pairing of the generators is not `1`: it is a primitive `r`-th root of unity. -/
theorem C64_generators {A : G2} {C : G1} (hA : IsPt g2B (q2 g2Gen.1) (q2 g2Gen.2) A)
    (hC : IsPt (3 : ZMod bn254Q) ((1 : ℕ) : ZMod bn254Q) ((2 : ℕ) : ZMod bn254Q) C) :
    eAte A C ≠ 1 ∧ orderOf (eAte A C) = bn254R := by
  have h1 := eAte_gen_ne_one ⟨hA, hC⟩
  refine ⟨h1, ?_⟩
  have h2 := orderOf_dvd_of_pow_eq_one (eAte_pow (g2Gen_inG2 hA) hC.ne_zero)
  rcases (Nat.dvd_prime fact_bn254R.out).1 h2 with h | h
  · exact absurd (orderOf_eq_one_iff.1 h) h1
  · exact h

/-- C63, C65: … and no power which its final exponentiation goes through is `1`. -/
theorem C63_generators {A : G2} {C : G1} (hA : IsPt g2B (q2 g2Gen.1) (q2 g2Gen.2) A)
    (hC : IsPt (3 : ZMod bn254Q) ((1 : ℕ) : ZMod bn254Q) ((2 : ℕ) : ZMod bn254Q) C) :
    fAte A C ≠ 0 ∧ fAte A C ^ ((bn254Q ^ 12 - 1) / bn254R) ≠ 1 ∧ NoSmallPower (easy (fAte A C)) := by
  have h1 := eAte_gen_ne_one ⟨hA, hC⟩
  have h0 := fAte_ne (g2Gen_inG2 hA) hC.ne_zero
  have e : (bn254Q ^ 12 - 1) / bn254R = finalE := by unfold finalE; rfl
  refine ⟨h0, by rw [e]; exact h1, fun k hk j h0' hj => ?_⟩
  refine InCyc.pow_ne_one (InCyc.easy h0) ?_ ?_
  · rw [← pow_mul, ← finalE_eq]
    exact h1
  · refine Nat.Coprime.mul_left (Nat.Coprime.pow_left _ (by decide +kernel)) ?_
    refine Nat.Coprime.symm ((Nat.Prime.coprime_iff_not_dvd fact_bn254R.out).2 fun hd => ?_)
    have h3 := Nat.le_of_dvd h0' hd
    have h4 : 2 ^ 64 < bn254R := by decide +kernel
    omega

/-- C75: the powers which the final exponentiation of their Miller value decompresses can be decompressed. -/
theorem C75_generators {A : G2} {C : G1} (hA : IsPt g2B (q2 g2Gen.1) (q2 g2Gen.2) A)
    (hC : IsPt (3 : ZMod bn254Q) ((1 : ℕ) : ZMod bn254Q) ((2 : ℕ) : ZMod bn254Q) C) : HardDecompressible (fAte A C) := by
  intro i hi e he
  rw [← decExps_eq] at he
  exact decompressible_iff.2 (hardDec_gen ⟨hA, hC⟩ i hi e he)

/-- Load a point of each curve, and compute their pairing. -/
noncomputable def bnPair (q : Fq2 × Fq2) (p : ZMod bn254Q × ZMod bn254Q) : M bn254R (List (CrtInt bn254R)) := do
  let Q ← loadPoint bnCfg.F2 g2B q
  let P ← loadPoint bnCfg.F (3 : ZMod bn254Q) p
  bnCfg.pairing Q P

/-- C75: the program completes from an empty context for the generators, with a value which is not `1`. -/
theorem C75_pairing_generators (ext : Cell → ZMod bn254R) : ∃ E : Fq12, E ≠ 1 ∧ E ^ bn254R = 1 ∧
    Completes bnTbl ext (Ctx.new false 0 "" 0 [] []) (bnPair (q2 g2Gen.1, q2 g2Gen.2) (((1 : ℕ) : ZMod bn254Q), ((2 : ℕ) : ZMod bn254Q)))
      (fun r s' => Fp12W ext s' r E) := by
  obtain ⟨A, hA⟩ := g2Gen_pt
  obtain ⟨C, hC⟩ := bn254G_pt
  have iA := g2Gen_inG2 hA
  refine ⟨eAte A C, (C64_generators hA hC).1, eAte_pow iA hC.ne_zero, Cmp.run ?_ (good_new 0 "" 0)⟩
  unfold bnPair
  refine Cmp.bind (show Cmp bnTbl ext _ (loadPoint bnCfg.F2 g2B (q2 g2Gen.1, q2 g2Gen.2)) (fun r s' => G2W ext s' r A) from
    g2Load_cmp (extFieldOf_coeffs _ _ _) hA) fun Q s1 e1 h1 => ?_
  refine Cmp.bind (show Cmp bnTbl ext s1 (loadPoint bnCfg.F (3 : ZMod bn254Q) (((1 : ℕ) : ZMod bn254Q), ((2 : ℕ) : ZMod bn254Q)))
    (fun r s' => G1W ext s' r C) from
    loadPoint_cmp (k := bnCmp) (ecFitsC_88_3 (by decide +kernel) bnCmpOk) (3 : ZMod bn254Q)
      (v := (((1 : ℕ) : ZMod bn254Q), ((2 : ℕ) : ZMod bn254Q))) hC) fun P s2 e2 h2 => ?_
  exact (pairing_cmp iA (h1.mono e2) h2 (C75_generators hA hC).hd).weaken fun _ _ h => fp12W_iff.2 h

end H2
