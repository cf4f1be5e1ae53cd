import Verif.Pairing.SoundPairing
import Verif.Pairing.OrderG2
import Verif.Props.Ext

/-!
# Properties C63 (final exponentiation), C64 (pairing, pairing check) and C65 (BLS signatures)

The chips are those of `bn254/mod.rs` with three limbs of 88 bits over the scalar field of BN254 and lookup tables of 16 bits
(`bnCfg`).  `Is12 v a X`: in the assignment `v` the twelve coordinates of the point `a` are range-checked and represent the element
`X` of `Fq12`.  `E1 v P g`, `E2 v Q g`: the coordinates of the point are range-checked and are those of the finite point `g` of the
curve (of the twist).  The specification of the pairing (`fAte`, `eAte`, `InG2`) is in `Pairing/Spec.lean`.
-/

set_option autoImplicit false
set_option linter.unusedSectionVars false
set_option linter.unusedVariables false
namespace H2
open PairCfg

/-- In the assignment `v` the point `a` of `Fp12Chip` represents `X = Σ (xᵢ + xᵢ₊₆ u) wⁱ`. -/
abbrev Is12 (v : Cell → ZMod bn254R) (a : List (CrtInt bn254R)) (X : Fq12) : Prop := Fp12Rep bnLaws Fq12.u Fq12.w v a X

theorem is12_iff {v : Cell → ZMod bn254R} {a : List (CrtInt bn254R)} {X : Fq12} : Is12 v a X ↔ R12 v a X := fp12Rep_iff

/-- The value after the easy part of the final exponentiation. -/
noncomputable def easy (X : Fq12) : Fq12 := X ^ ((bn254Q ^ 6 - 1) * (bn254Q ^ 2 + 1))

/-- None of the powers which the hard part goes through is `1`. -/
def NoSmallPower (X : Fq12) : Prop := ∀ e ≤ 2, ∀ j, 0 < j → j ≤ 2 ^ 64 → X ^ (bnX ^ e * j) ≠ 1

theorem NoSmallPower.hardOk {X : Fq12} (h : NoSmallPower X) : HardOk X := fun e j he h0 hj => h e he j h0 hj

section
variable {v : Cell → ZMod bn254R} {a r : List (CrtInt bn254R)} {X : Fq12} {s s' : Ctx bn254R}

/-! ### C63 -/

/-- C63: `frobenius_map(a, n)` is the `qⁿ`-th power. -/
theorem C63_frobenius_map (n : ℕ) (hi : Inv s) (hrun : bnCfg.frobeniusMap a n s = some (r, s')) (hw : Sat (RangeTable bn254R 16) s' v)
    (ha : Is12 v a X) : Is12 v r (X ^ bn254Q ^ n) := by
  rw [is12_iff] at ha ⊢
  have h := (frobeniusMap_sound a n).run hi hrun hw X ha
  have e : X ^ bn254Q ^ n = X ^ bn254Q ^ (n % 12) := by
    have key : ∀ k : ℕ, ∀ m, X ^ bn254Q ^ (m + 12 * k) = X ^ bn254Q ^ m := by
      intro k
      induction k with
      | zero => intro m; rw [Nat.mul_zero, Nat.add_zero]
      | succ k ih =>
        intro m
        rw [show m + 12 * (k + 1) = (m + 12 * k) + 12 by ring, pow_add, pow_mul, e6_pow_q12, ih]
    conv_lhs => rw [← Nat.mod_add_div n 12]
    exact key _ _
  rw [e]
  exact h

/-- C63: `pow(a, exp)` (64-bit words, least significant first) is the power; the exponent zero returns `a`. -/
theorem C63_pow {exp : List ℕ} (hx : ∀ x ∈ exp, x < 2 ^ 64) (hi : Inv s) (hrun : bnCfg.pow a exp s = some (r, s'))
    (hw : Sat (RangeTable bn254R 16) s' v) (ha : Is12 v a X) (h0 : X ≠ 0) :
    Is12 v r (if Nat.ofDigits (2 ^ 64) exp = 0 then X else X ^ Nat.ofDigits (2 ^ 64) exp) := by
  rw [is12_iff] at ha ⊢
  exact (pow_sound a exp hx).run hi hrun hw X h0 ha

/-- C63: `cyclotomic_pow(a, exp)` is the power, for elements of the cyclotomic subgroup (of order `q⁴ - q² + 1`) of which no smaller
power is `1`. -/
theorem C63_cyclotomic_pow {exp : List ℕ} (hx : ∀ x ∈ exp, x < 2 ^ 64) (hi : Inv s) (hrun : bnCfg.cycPow a exp s = some (r, s'))
    (hw : Sat (RangeTable bn254R 16) s' v) (ha : Is12 v a X) (hc : X ^ (bn254Q ^ 4 - bn254Q ^ 2 + 1) = 1)
    (h1 : ∀ j, 0 < j → j ≤ 2 ^ (64 * exp.length) → X ^ j ≠ 1) :
    Is12 v r (if Nat.ofDigits (2 ^ 64) exp = 0 then X else X ^ Nat.ofDigits (2 ^ 64) exp) := by
  rw [is12_iff] at ha ⊢
  have hc' : InCyc X := by
    unfold InCyc cycOrd
    exact hc
  exact (cycPow_sound a exp hx).run hi hrun hw X hc' ha h1

/-- C63: `easy_part(a)` is the power with the exponent `(q⁶ - 1)(q² + 1)`. -/
theorem C63_easy_part (hi : Inv s) (hrun : bnCfg.easyPart a s = some (r, s')) (hw : Sat (RangeTable bn254R 16) s' v) (ha : Is12 v a X)
    (h0 : X ≠ 0) : Is12 v r (X ^ ((bn254Q ^ 6 - 1) * (bn254Q ^ 2 + 1))) := by
  rw [is12_iff] at ha ⊢
  exact (easyPart_sound a).run hi hrun hw X ha h0

/-- C63: `final_exp(a)` is the power with the exponent `(q¹² - 1) / r`, if that power is not `1`. -/
theorem C63_final_exp (hi : Inv s) (hrun : bnCfg.finalExp a s = some (r, s')) (hw : Sat (RangeTable bn254R 16) s' v) (ha : Is12 v a X)
    (h0 : X ≠ 0) (h1 : X ^ ((bn254Q ^ 12 - 1) / bn254R) ≠ 1) : Is12 v r (X ^ ((bn254Q ^ 12 - 1) / bn254R)) := by
  have e : (bn254Q ^ 12 - 1) / bn254R = finalE := by unfold finalE; rfl
  rw [e] at h1 ⊢
  rw [is12_iff] at ha ⊢
  exact ((finalExp_sound a).run hi hrun hw X ha h0).2 h1

/-- C63: … and also if that power is `1`, unless an intermediate value is `1`. -/
theorem C63_final_exp_one (hi : Inv s) (hrun : bnCfg.finalExp a s = some (r, s')) (hw : Sat (RangeTable bn254R 16) s' v) (ha : Is12 v a X)
    (h0 : X ≠ 0) (h1 : NoSmallPower (easy X)) : Is12 v r (X ^ ((bn254Q ^ 12 - 1) / bn254R)) := by
  have e : (bn254Q ^ 12 - 1) / bn254R = finalE := by unfold finalE; rfl
  rw [e]
  rw [is12_iff] at ha ⊢
  exact ((finalExp_sound a).run hi hrun hw X ha h0).1 h1.hardOk

/-- C63: a nontrivial value of the final exponentiation cannot be replaced by another one: a prover who makes the output represent
`1` has an input whose final exponentiation is `1`. -/
theorem C63_final_exp_eq_one (hi : Inv s) (hrun : bnCfg.finalExp a s = some (r, s')) (hw : Sat (RangeTable bn254R 16) s' v) (ha : Is12 v a X)
    (h0 : X ≠ 0) (h1 : Is12 v r 1) : X ^ ((bn254Q ^ 12 - 1) / bn254R) = 1 := by
  by_contra hne
  have h := C63_final_exp hi hrun hw ha h0 hne
  rw [is12_iff] at h h1
  exact hne (bnLaws12.p_unique _ _ _ _ h h1)

/-- C63: the output of `final_exp` always is range-checked: it represents some element. -/
theorem C63_final_exp_wf (hi : Inv s) (hrun : bnCfg.finalExp a s = some (r, s')) (hw : Sat (RangeTable bn254R 16) s' v) :
    ∃ Y, Is12 v r Y := by
  obtain ⟨Y, hY⟩ := (finalExp_wf a).run hi hrun hw
  exact ⟨Y, is12_iff.2 hY⟩

end

/-! ### C64 -/

section
variable {v : Cell → ZMod bn254R} {r : List (CrtInt bn254R)} {s s' : Ctx bn254R} {Q T : EcPt bnCfg.F2} {P S : EcPt bnCfg.F} {A B : G2} {C D : G1}

/-- C64: `miller_loop(Q, P)` is the Miller value of the optimal Ate pairing. -/
theorem C64_miller_loop (hi : Inv s) (hrun : bnCfg.millerLoop Q P sixUPlus2Naf s = some (r, s')) (hw : Sat (RangeTable bn254R 16) s' v)
    (hQ : E2 v Q A) (hP : E1 v P C) (hA : InG2 A) : Is12 v r (fAte A C) :=
  is12_iff.2 ((millerLoop_sound Q P).run hi hrun hw A C hA hQ hP)

/-- C64: `multi_miller_loop(pairs)` is the product of the Miller values. -/
theorem C64_multi_miller_loop {pairs : List (EcPt bnCfg.F × EcPt bnCfg.F2)} {L : List (G1 × G2)} (hi : Inv s)
    (hrun : bnCfg.multiMillerLoop pairs sixUPlus2Naf s = some (r, s')) (hw : Sat (RangeTable bn254R 16) s' v)
    (hp : pairs.Forall₂ (fun pr x => E1 v pr.1 x.1 ∧ E2 v pr.2 x.2) L) (hL : ∀ x ∈ L, InG2 x.2) :
    Is12 v r (L.map fun x => fAte x.2 x.1).prod := by
  have h := (multiMillerLoop_sound pairs).run hi hrun hw (L.map Prod.swap) (List.forall₂_map_right_iff.2 hp) (by
    intro x hx
    obtain ⟨y, hy, rfl⟩ := List.mem_map.1 hx
    exact hL y hy)
  rw [List.map_map] at h
  exact is12_iff.2 h

/-- C64: `pairing(Q, P)` is the optimal Ate pairing, if its value is not `1`. -/
theorem C64_pairing (hi : Inv s) (hrun : bnCfg.pairing Q P s = some (r, s')) (hw : Sat (RangeTable bn254R 16) s' v)
    (hQ : E2 v Q A) (hP : E1 v P C) (hA : InG2 A) (h1 : eAte A C ≠ 1) : Is12 v r (eAte A C) :=
  is12_iff.2 ((((pairing_sound Q P).run hi hrun hw).2 A C hA hQ hP).2 h1)

/-- C64: if the output of `pairing` represents `1`, the pairing is `1`. -/
theorem C64_pairing_eq_one (hi : Inv s) (hrun : bnCfg.pairing Q P s = some (r, s')) (hw : Sat (RangeTable bn254R 16) s' v)
    (hQ : E2 v Q A) (hP : E1 v P C) (hA : InG2 A) (h1 : Is12 v r 1) : eAte A C = 1 := by
  by_contra hne
  have h := C64_pairing hi hrun hw hQ hP hA hne
  rw [is12_iff] at h h1
  exact hne (bnLaws12.p_unique _ _ _ _ h h1)

/-- C64: the output of `pairing` always represents some element. -/
theorem C64_pairing_wf (hi : Inv s) (hrun : bnCfg.pairing Q P s = some (r, s')) (hw : Sat (RangeTable bn254R 16) s' v) :
    ∃ Y, Is12 v r Y := by
  obtain ⟨Y, hY⟩ := ((pairing_sound Q P).run hi hrun hw).1
  exact ⟨Y, is12_iff.2 hY⟩

/-- C64: `pairing_check(Q, P, T, S)` is satisfiable only if the pairings of `(Q, P)` and `(T, S)` agree. -/
theorem C64_pairing_check {u : Unit} (hi : Inv s) (hrun : bnCfg.pairingCheck Q P T S s = some (u, s'))
    (hw : Sat (RangeTable bn254R 16) s' v) (hQ : E2 v Q A) (hP : E1 v P C) (hT : E2 v T B) (hS : E1 v S D) (hA : InG2 A) (hB : InG2 B) :
    eAte A C = eAte B D :=
  (pairingCheck_sound Q T P S).run hi hrun hw A B C D hA hB hQ hP hT hS

end

/-- C64 (about the specification): pairings are `r`-th roots of unity, and the negation of either argument inverts the pairing.
(Bilinearity in general is not proved.) -/
theorem C64_spec {A : G2} {C : G1} (hA : InG2 A) (hC : C ≠ 0) :
    eAte A C ^ bn254R = 1 ∧ eAte A (-C) = (eAte A C)⁻¹ ∧ eAte (-A) C = (eAte A C)⁻¹ ∧ eAte A C ≠ 0 :=
  ⟨eAte_pow hA hC, eAte_negP hA hC, eAte_negQ hA hC, eAte_ne hA hC⟩

/-- C64: the hypotheses are met: the generator of `G2`, `P = (1, 2)`, and their multiples. -/
theorem C64_example : ∃ (A : G2) (C : G1), IsPt g2B (q2 g2Gen.1) (q2 g2Gen.2) A ∧ IsPt (3 : ZMod bn254Q) ((1 : ℕ) : ZMod bn254Q) ((2 : ℕ) : ZMod bn254Q) C ∧
    InG2 A ∧ C ≠ 0 ∧ bn254R • C = 0 ∧ ∀ k : ℕ, ¬ bn254R ∣ k → InG2 (k • A) := by
  obtain ⟨A, hA⟩ := g2Gen_pt
  obtain ⟨C, hC⟩ := bn254G_pt
  exact ⟨A, C, hA, hC, g2Gen_inG2 hA, hC.ne_zero, bn254G_order hC, fun k hk => (g2Gen_inG2 hA).smul hk⟩

/-! ### C65 -/

section
variable {v : Cell → ZMod bn254R} {s s' : Ctx bn254R} {x : bnCfg.BlsArgs}
  {bit : AV bn254R} {g1 : EcPt bnCfg.F} {hm : EcPt bnCfg.F2} {sigs : List (EcPt bnCfg.F2)} {pks : List (EcPt bnCfg.F)}

/-- C65: in every satisfied circuit of `bls_signature_verify` the loaded points are finite points of the curves, one for each signature
and public key, the two sums are not the point at infinity, and the returned value is a bit. -/
theorem C65_bls_points (h1 : x.b1 = (3 : ZMod bn254Q)) (h2 : x.b2 = g2B) (hi : Inv s)
    (hrun : bnCfg.blsRun x s = some ((bit, g1, hm, sigs, pks), s')) (hw : Sat (RangeTable bn254R 16) s' v) :
    ∃ (G : G1) (H : G2) (σs : List G2) (ks : List G1), E1 v g1 G ∧ E2 v hm H ∧ sigs.Forall₂ (E2 v) σs ∧ pks.Forall₂ (E1 v) ks ∧
      σs.length = x.signatures.length ∧ ks.length = x.pubkeys.length ∧ σs.sum ≠ 0 ∧ ks.sum ≠ 0 ∧ (at' v bit = 0 ∨ at' v bit = 1) := by
  obtain ⟨G, H, σs, ks, a1, a2, a3, a4, a5, a6, a7, a8, a9, -⟩ := (blsRun_sound x h1 h2).run hi hrun hw
  exact ⟨G, H, σs, ks, a1, a2, a3, a4, a5, a6, a7, a8, a9⟩

/-- C65: if `bls_signature_verify` returns `1`, then `e(Σ signatures, g1) = e(H(m), Σ public keys)`, for a hash and a sum of signatures
in the subgroup of order `r` (the circuit does not check this). -/
theorem C65_bls_accept (h1 : x.b1 = (3 : ZMod bn254Q)) (h2 : x.b2 = g2B) (hi : Inv s)
    (hrun : bnCfg.blsRun x s = some ((bit, g1, hm, sigs, pks), s')) (hw : Sat (RangeTable bn254R 16) s' v)
    {G : G1} {H : G2} {σs : List G2} {ks : List G1} (hG : E1 v g1 G) (hH : E2 v hm H) (hs : sigs.Forall₂ (E2 v) σs)
    (hk : pks.Forall₂ (E1 v) ks) (iH : InG2 H) (iS : InG2 σs.sum) (hb : at' v bit = 1) : eAte σs.sum G = eAte H ks.sum := by
  obtain ⟨G', H', σs', ks', a1, a2, a3, a4, a5, a6, a7, a8, a9, a10⟩ := (blsRun_sound x h1 h2).run hi hrun hw
  obtain rfl := EcRep.unique a1 hG
  obtain rfl := EcRep.unique a2 hH
  obtain rfl := forall₂_unique (R := E2 v) (S := E2 v) (fun a b c h h' => EcRep.unique h h') a3 hs
  obtain rfl := forall₂_unique (R := E1 v) (S := E1 v) (fun a b c h h' => EcRep.unique h h') a4 hk
  exact (a10 iH iS).1 hb

/-- C65: if `e(Σ signatures, g1) ≠ e(H(m), Σ public keys)`, it returns `0`. -/
theorem C65_bls_reject (h1 : x.b1 = (3 : ZMod bn254Q)) (h2 : x.b2 = g2B) (hi : Inv s)
    (hrun : bnCfg.blsRun x s = some ((bit, g1, hm, sigs, pks), s')) (hw : Sat (RangeTable bn254R 16) s' v)
    {G : G1} {H : G2} {σs : List G2} {ks : List G1} (hG : E1 v g1 G) (hH : E2 v hm H) (hs : sigs.Forall₂ (E2 v) σs)
    (hk : pks.Forall₂ (E1 v) ks) (iH : InG2 H) (iS : InG2 σs.sum) (hne : eAte σs.sum G ≠ eAte H ks.sum) : at' v bit = 0 := by
  obtain ⟨-, -, -, -, -, -, -, -, -, -, -, -, hb⟩ := C65_bls_points h1 h2 hi hrun hw
  exact hb.resolve_right fun hb => hne (C65_bls_accept h1 h2 hi hrun hw hG hH hs hk iH iS hb)

/-- C65: a valid signature is accepted, unless the product of the Miller values, after the easy part, has a small order. -/
theorem C65_bls_complete (h1 : x.b1 = (3 : ZMod bn254Q)) (h2 : x.b2 = g2B) (hi : Inv s)
    (hrun : bnCfg.blsRun x s = some ((bit, g1, hm, sigs, pks), s')) (hw : Sat (RangeTable bn254R 16) s' v)
    {G : G1} {H : G2} {σs : List G2} {ks : List G1} (hG : E1 v g1 G) (hH : E2 v hm H) (hs : sigs.Forall₂ (E2 v) σs)
    (hk : pks.Forall₂ (E1 v) ks) (iH : InG2 H) (iS : InG2 σs.sum) (hn : NoSmallPower (easy (fAte (-σs.sum) G * fAte H ks.sum)))
    (he : eAte σs.sum G = eAte H ks.sum) : at' v bit = 1 := by
  obtain ⟨G', H', σs', ks', a1, a2, a3, a4, a5, a6, a7, a8, a9, a10⟩ := (blsRun_sound x h1 h2).run hi hrun hw
  obtain rfl := EcRep.unique a1 hG
  obtain rfl := EcRep.unique a2 hH
  obtain rfl := forall₂_unique (R := E2 v) (S := E2 v) (fun a b c h h' => EcRep.unique h h') a3 hs
  obtain rfl := forall₂_unique (R := E1 v) (S := E1 v) (fun a b c h h' => EcRep.unique h h') a4 hk
  exact (a10 iH iS).2 hn.hardOk he

/-- C65: `bls_signature_verify` returns the bit of this run and nothing about the points. -/
theorem C65_bls_returns {r : AV bn254R} (hrun : bnCfg.blsVerify x s = some (r, s')) :
    ∃ g1 hm sigs pks, bnCfg.blsRun x s = some ((r, g1, hm, sigs, pks), s') := by
  unfold blsVerify at hrun
  obtain ⟨⟨r', g1, hm, sigs, pks⟩, s1, h1, h2⟩ := bind_some.1 hrun
  cases h2
  exact ⟨g1, hm, sigs, pks, h1⟩

theorem assert_bind {α : Type} (b : Bool) (f : Unit → M bn254R α) (s : Ctx bn254R) : (assertM b >>= f) s = if b then f () s else none := by
  cases b <;> rfl

/-- C65: it panics for no signature and for different numbers of signatures and public keys. -/
theorem C65_bls_panics (h : x.signatures = [] ∨ x.pubkeys = [] ∨ x.signatures.length ≠ x.pubkeys.length) : bnCfg.blsVerify x s = none := by
  cases hr : bnCfg.blsVerify x s with
  | none => rfl
  | some q =>
    obtain ⟨_, _, _, _, h'⟩ := C65_bls_returns (r := q.1) (s' := q.2) hr
    unfold blsRun at h'
    rw [assert_bind] at h'
    split at h'
    · rename_i h1
      rw [assert_bind] at h'
      split at h'
      · rename_i h2
        have e1 : x.signatures.length = x.pubkeys.length := by simpa using h1
        have e2 : x.signatures ≠ [] := by simpa using h2
        rcases h with h | h | h
        · exact absurd h e2
        · rw [h] at e1
          exact absurd (List.length_eq_zero_iff.1 e1) e2
        · exact absurd e1 h
      · simp at h'
    · simp at h'

end

end H2
