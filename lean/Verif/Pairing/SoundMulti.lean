import Verif.Pairing.SoundMiller
import Mathlib.Algebra.BigOperators.Group.List.Basic

/-!
# Soundness of `multi_miller_loop_BN` (`pairing.rs`)
-/

set_option autoImplicit false
set_option linter.unusedSectionVars false
set_option linter.unusedVariables false
namespace H2
open PairCfg

theorem forall₂_zip {α β γ : Type} {R : α → γ → Prop} {S : β → γ → Prop} : ∀ {as : List α} {bs : List β} {l : List γ},
    List.Forall₂ R as l → List.Forall₂ S bs l → List.Forall₂ (fun (ab : α × β) x => R ab.1 x ∧ S ab.2 x) (List.zip as bs) l
  | _, _, _, .nil, .nil => .nil
  | _, _, _, .cons h1 t1, .cons h2 t2 => .cons ⟨h1, h2⟩ (forall₂_zip t1 t2)

theorem forall₂_step {α β γ : Type} {R : α → β → Prop} {S : α → γ → Prop} {T : β → γ → Prop} (h : ∀ a b c, R a b → S a c → T b c) :
    ∀ {as : List α} {bs : List β} {l : List γ}, List.Forall₂ R as bs → List.Forall₂ S as l → List.Forall₂ T bs l
  | _, _, _, .nil, .nil => .nil
  | _, _, _, .cons h1 t1, .cons h2 t2 => .cons (h _ _ _ h1 h2) (forall₂_step h t1 t2)

theorem prod_map_pow {α : Type} (g : α → Fq12) (k : ℕ) (l : List α) : (l.map g).prod ^ k = (l.map fun x => g x ^ k).prod := by
  induction l with
  | nil => simp
  | cons a l ih => simp only [List.map_cons, List.prod_cons, mul_pow, ih]

theorem multiDouble_sound : ∀ (l : List (EcPt bnCfg.F2 × EcPt bnCfg.F)) (f : List (CrtInt bn254R)),
    Sound bnTbl (bnCfg.multiDouble f l) (fun w r => ∀ (X : Fq12) (S : List (G2 × G1)), R12 w f X →
      List.Forall₂ (fun (pr : EcPt bnCfg.F2 × EcPt bnCfg.F) (x : G2 × G1) => E2 w pr.1 x.1 ∧ E1 w pr.2 x.2) l S →
      R12 w r (X * (S.map fun x => tangent x.1 x.2).prod)) := by
  intro l
  induction l with
  | nil =>
    intro f s
    refine Snd.pure fun w _ X S hX h => ?_
    cases h
    simpa using hX
  | cons a l ih =>
    intro f s
    obtain ⟨R, P⟩ := a
    refine Snd.bind (mulLineEqual_sound f R P s) fun f1 s1 _ => (ih f1 s1).weaken ?_
    rintro w r _ h2 h1 X S hX (_ | ⟨h, t⟩)
    have := h2 _ _ (h1 _ _ _ hX h.1 h.2) t
    rwa [List.map_cons, List.prod_cons, ← mul_assoc]

theorem multiAdd_sound (d : ℤ) : ∀ (l : List (EcPt bnCfg.F2 × EcPt bnCfg.F2 × EcPt bnCfg.F × EcPt bnCfg.F2)) (f : List (CrtInt bn254R)),
    Sound bnTbl (bnCfg.multiAdd d f l) (fun w r => ∀ (X : Fq12) (n : ℤ) (S : List (G2 × G1)), R12 w f X → (d = 1 ∨ d = -1) →
      List.Forall₂ (fun (q : EcPt bnCfg.F2 × EcPt bnCfg.F2 × EcPt bnCfg.F × EcPt bnCfg.F2) (x : G2 × G1) => E2 w q.1 ((2 : ℤ) • n • x.1) ∧
        E2 w q.2.1 (-x.1) ∧ E1 w q.2.2.1 x.2 ∧ E2 w q.2.2.2 x.1) l S →
      (∀ x ∈ S, (2 : ℤ) • n • x.1 ≠ d • x.1 ∧ (2 : ℤ) • n • x.1 ≠ -(d • x.1)) →
      R12 w r.1 (X * (S.map fun x => chord ((2 : ℤ) • n • x.1) (d • x.1) x.2).prod) ∧
        List.Forall₂ (fun R (x : G2 × G1) => E2 w R ((2 * n + d) • x.1)) r.2 S) := by
  intro l
  induction l with
  | nil =>
    intro f s
    refine Snd.pure fun w _ X n S hX _ h _ => ?_
    cases h
    exact ⟨by simpa using hX, .nil⟩
  | cons q l ih =>
    intro f s
    obtain ⟨R, nb, a, b⟩ := q
    unfold multiAdd
    dsimp only
    refine Snd.bind (mulLineUnequal_sound f R _ a s) fun f1 s1 _ => Snd.bind (ecAdd2 R _ s1) fun R1 s2 _ => Snd.bind (ih f1 s2) fun fr s3 _ => ?_
    obtain ⟨f2, rs⟩ := fr
    refine Snd.pure ?_
    rintro w - h3 h2 h1 X n S hX hd (_ | ⟨⟨g1, g2, g3, g4⟩, t⟩) hne
    rename_i x S
    dsimp only at g1 g2 g3 g4
    have hsb : E2 w (if d = 1 then b else nb) (d • x.1) := by
      rcases hd with rfl | rfl
      · rw [if_pos rfl, one_smul]
        exact g4
      · rw [if_neg (by decide), neg_smul, one_smul]
        exact g2
    obtain ⟨n1, n2⟩ := hne x (List.mem_cons_self ..)
    have hR := h2 _ _ g1 hsb n1 n2
    obtain ⟨k1, k2⟩ := h3 _ n S (h1 _ _ _ _ hX g1 hsb g3) hd t fun y hy => hne y (List.mem_cons_of_mem _ hy)
    refine ⟨?_, .cons ?_ k2⟩
    · rwa [List.map_cons, List.prod_cons, ← mul_assoc]
    · rw [add_smul, mul_smul]
      exact hR

/-- The pairs `(P, Q)` represent the pairs `(B, A)`. -/
abbrev PairsRep (w : Cell → ZMod bn254R) (pairs : List (EcPt bnCfg.F × EcPt bnCfg.F2)) (L : List (G2 × G1)) : Prop :=
  List.Forall₂ (fun (pr : EcPt bnCfg.F × EcPt bnCfg.F2) (x : G2 × G1) => E1 w pr.1 x.2 ∧ E2 w pr.2 x.1) pairs L

theorem multiRounds_sound (pairs : List (EcPt bnCfg.F × EcPt bnCfg.F2)) (negB : List (EcPt bnCfg.F2)) : ∀ (ds : List ℤ) (first : Bool)
    (f : List (CrtInt bn254R)) (rs : List (EcPt bnCfg.F2)), Sound bnTbl (bnCfg.multiRounds pairs negB ds first f rs) (fun w r =>
      ∀ (L : List (G2 × G1)) (X : Fq12) (n : ℤ), (∀ x ∈ L, x.1 ≠ 0 ∧ bn254R • x.1 = 0) → PairsRep w pairs L →
      List.Forall₂ (fun nb (x : G2 × G1) => E2 w nb (-x.1)) negB L → List.Forall₂ (fun R (x : G2 × G1) => E2 w R (n • x.1)) rs L →
      (first = true → ds ≠ []) →
      R12 w f (if first = true then X ^ 2 * (L.map fun x => tangent (n • x.1) x.2).prod else X) → 1 ≤ n →
      (n + 1) * 2 ^ ds.length ≤ (bn254R : ℤ) →
      R12 w r.1 (X ^ 2 ^ ds.length * (L.map fun x => (ds.foldl (millerStep x.1 x.2) (1, n • x.1)).1).prod) ∧
        List.Forall₂ (fun R (x : G2 × G1) => E2 w R (digitsFrom n ds • x.1)) r.2 L) := by
  intro ds
  induction ds with
  | nil =>
    intro first f rs s
    refine Snd.pure ?_
    intro w _ L X n _ _ _ hR hf hX _ _
    cases first
    · refine ⟨?_, hR⟩
      simpa using hX
    · exact absurd rfl (hf rfl)
  | cons d ds ih =>
    intro first f rs s
    unfold multiRounds
    have h1 : Sound bnTbl (if first = true then pure f else do
        let f ← bnCfg.F12.mul f f
        bnCfg.multiDouble f (List.zip rs (pairs.map Prod.fst))) (fun w r => ∀ (L : List (G2 × G1)) (X : Fq12) (n : ℤ),
          PairsRep w pairs L → List.Forall₂ (fun R (x : G2 × G1) => E2 w R (n • x.1)) rs L →
          R12 w f (if first = true then X ^ 2 * (L.map fun x => tangent (n • x.1) x.2).prod else X) →
          R12 w r (X ^ 2 * (L.map fun x => tangent (n • x.1) x.2).prod)) := by
      intro s
      refine Snd.ite (fun hc => ?_) fun hc => ?_
      · refine Snd.pure fun w _ L X n _ _ h => ?_
        rwa [if_pos hc] at h
      · refine Snd.bind (f12_mul f f s) fun fsq s1 _ => (multiDouble_sound _ fsq s1).weaken ?_
        intro w r _ h2 h1 L X n hP hR h
        rw [if_neg hc] at h
        have hP1 : List.Forall₂ (fun P (x : G2 × G1) => E1 w P x.2) (pairs.map Prod.fst) L :=
          List.forall₂_map_left_iff.2 (hP.imp fun a b h => h.1)
        have hz := forall₂_zip hR hP1
        have := h2 _ (L.map fun x => (n • x.1, x.2)) (h1 _ _ h h) (List.forall₂_map_right_iff.2 hz)
        rw [List.map_map, ← sq] at this
        exact this
    refine Snd.jp2 (h1 s) fun f1 s1 _ => ?_
    beta_reduce
    refine Snd.bind (mapList_sound (fun R s => ecDouble2 R s) rs s1) fun rs1 s2 _ => Snd.assert fun hd => Snd.ite (fun h0 => ?_) fun h0 => ?_
    · refine Snd.bind (multiAdd_sound d _ f1 s2) fun fr s3 _ => ?_
      obtain ⟨f2, rs2⟩ := fr
      refine (ih false f2 rs2 s3).weaken ?_
      intro w r _ hr hadd hdbl hf1 L X n hL hP hN hR hfirst hf hn hb
      rw [List.length_cons] at hb
      have hd' := digit_cases hd h0
      obtain ⟨b1, b2, b3, b4, b5⟩ := loop_bound hn hb (d := d) (by omega)
      have hR1 : List.Forall₂ (fun R (x : G2 × G1) => E2 w R ((2 : ℤ) • n • x.1)) rs1 L :=
        forall₂_step (fun a b c hab hac => hab _ hac) hdbl hR
      have hz := forall₂_zip hR1 (forall₂_zip hN hP)
      obtain ⟨k1, k2⟩ := hadd _ n L (hf1 L X n hP hR hf) hd' (hz.imp fun a b h => ⟨h.1, h.2.1, h.2.2.1, h.2.2.2⟩) (fun x hx => by
        have e2 : (2 : ℤ) • n • x.1 = (2 * n) • x.1 := (mul_smul _ _ _).symm
        obtain ⟨o1, o2⟩ := hL x hx
        rw [e2]
        exact ⟨zsmul_ne o1 o2 (not_dvd_of_lt b3 b4), zsmul_ne_neg o1 o2 (not_dvd_of_lt (by omega) b5)⟩)
      have := hr L _ (2 * n + d) hL hP hN k2 (by simp) (by rw [if_neg (by decide)]; exact k1) b1 b2
      refine ⟨?_, this.2⟩
      convert this.1 using 1
      rw [mul_assoc (X ^ 2), ← List.prod_map_mul, mul_pow, ← pow_mul, ← pow_succ', mul_assoc, prod_map_pow, ← List.prod_map_mul]
      congr 3
      funext x
      have e2 : millerStep x.1 x.2 (1, n • x.1) d = (stepF x.1 x.2 (n • x.1) d, (2 * n + d) • x.1) :=
        Prod.ext ((millerStep_fst _ _ _ _ _).trans (by rw [one_pow, one_mul])) (millerStep_snd _ _ _ _ _)
      rw [List.foldl_cons, e2, miller_fst]
      unfold stepF
      rw [if_neg h0]
    · refine (ih false f1 rs1 s2).weaken ?_
      intro w r _ hr hdbl hf1 L X n hL hP hN hR hfirst hf hn hb
      rw [List.length_cons] at hb
      have hd0 : d = 0 := not_not.1 h0
      obtain ⟨b1, b2, b3, b4, b5⟩ := loop_bound hn hb (d := d) (by omega)
      have hR1 : List.Forall₂ (fun R (x : G2 × G1) => E2 w R ((2 * n + d) • x.1)) rs1 L :=
        forall₂_step (fun a b c hab hac => by rw [hd0, add_zero, mul_smul]; exact hab _ hac) hdbl hR
      have := hr L _ (2 * n + d) hL hP hN hR1 (by simp) (by rw [if_neg (by decide)]; exact hf1 L X n hP hR hf) b1 b2
      refine ⟨?_, this.2⟩
      convert this.1 using 1
      rw [mul_pow, ← pow_mul, ← pow_succ', mul_assoc, prod_map_pow, ← List.prod_map_mul]
      congr 3
      funext x
      have e2 : millerStep x.1 x.2 (1, n • x.1) d = (stepF x.1 x.2 (n • x.1) d, (2 * n + d) • x.1) :=
        Prod.ext ((millerStep_fst _ _ _ _ _).trans (by rw [one_pow, one_mul])) (millerStep_snd _ _ _ _ _)
      rw [List.foldl_cons, e2, miller_fst]
      unfold stepF
      rw [if_pos hd0, mul_one]

theorem multiEnd_sound (c2 c3 : List (CrtInt bn254R)) : ∀ (l : List (EcPt bnCfg.F2 × EcPt bnCfg.F × EcPt bnCfg.F2)) (f : List (CrtInt bn254R)),
    Sound bnTbl (bnCfg.multiEnd c2 c3 f l) (fun w r => R2 w c2 (frobC 1 ^ 2) → R2 w c3 (frobC 1 ^ 3) → ∀ (X : Fq12) (S : List (G2 × G1)),
      R12 w f X → (∀ x ∈ S, InG2 x.1) →
      List.Forall₂ (fun (q : EcPt bnCfg.F2 × EcPt bnCfg.F × EcPt bnCfg.F2) (x : G2 × G1) => E2 w q.1 ((6 * (bnX : ℤ) + 2) • x.1) ∧
        E1 w q.2.1 x.2 ∧ E2 w q.2.2 x.1) l S →
      R12 w r (X * (S.map fun x => chord ((6 * (bnX : ℤ) + 2) • x.1) (frobPt x.1) x.2 *
        chord ((6 * (bnX : ℤ) + 2) • x.1 + frobPt x.1) (-frobPt (frobPt x.1)) x.2).prod)) := by
  intro l
  induction l with
  | nil =>
    intro f s
    refine Snd.pure fun w _ _ _ X S hX _ h => ?_
    cases h
    simpa using hX
  | cons a l ih =>
    intro f s
    obtain ⟨R, P, Q⟩ := a
    refine Snd.bind (millerEnd_sound Q P c2 c3 f R s) fun f1 s1 _ => (ih f1 s1).weaken ?_
    rintro w r _ h2 h1 hc2 hc3 X S hX hS (_ | ⟨h, t⟩)
    rename_i x S
    have := h2 hc2 hc3 _ _ (h1 hc2 hc3 _ _ _ (hS x (List.mem_cons_self ..)) h.2.2 h.2.1 h.1 hX)
      (fun y hy => hS y (List.mem_cons_of_mem _ hy)) t
    rw [List.map_cons, List.prod_cons]
    convert this using 1
    ring

theorem multiMillerLoop_sound (pairs : List (EcPt bnCfg.F × EcPt bnCfg.F2)) :
    Sound bnTbl (bnCfg.multiMillerLoop pairs sixUPlus2Naf) (fun w r => ∀ L : List (G2 × G1), PairsRep w pairs L →
      (∀ x ∈ L, InG2 x.1) → R12 w r (L.map fun x => fAte x.1 x.2).prod) := by
  intro s
  unfold multiMillerLoop
  rw [naf_digits]
  have hds : ∃ d ds, ateDigits = d :: ds := ⟨_, _, rfl⟩
  obtain ⟨d, ds, hds⟩ := hds
  rw [hds]
  cases pairs with
  | nil => exact Snd.panic
  | cons pr rest =>
    obtain ⟨a0, b0⟩ := pr
    dsimp only
    refine Snd.assert fun _ => Snd.bind (mapList_sound (fun (pr : EcPt bnCfg.F × EcPt bnCfg.F2) s => ecNegate_sound bnLaws2 g2B pr.2 s) _ s) fun negB s1 _ =>
      Snd.bind (firstLine_sound b0 a0 s1) fun f s2 _ => Snd.bind (multiDouble_sound _ f s2) fun f1 s3 _ =>
      Snd.bind (multiRounds_sound _ negB (d :: ds) true f1 _ s3) fun fr s4 _ => ?_
    obtain ⟨f2, rs⟩ := fr
    dsimp only
    refine Snd.bind (load2 (frobC 1 ^ 2) s4) fun c2 s5 _ => Snd.bind (load2 (frobC 1 ^ 3) s5) fun c3 s6 _ =>
      (multiEnd_sound c2 c3 _ f2 s6).weaken ?_
    intro w r _ hend hc3 hc2 hloop hmd hfirst hneg L hP hL
    have hb := ate_bound
    rw [hds] at hb
    have hN : List.Forall₂ (fun nb (x : G2 × G1) => E2 w nb (-x.1)) negB L :=
      forall₂_step (fun a b c hab hac => (hab c.1).1 hac.2) hneg hP
    have hR : List.Forall₂ (fun R (x : G2 × G1) => E2 w R ((1 : ℤ) • x.1)) (((a0, b0) :: rest).map Prod.snd) L :=
      List.forall₂_map_left_iff.2 (hP.imp fun a b h => by rw [one_smul]; exact h.2)
    have hF : R12 w f1 ((1 : Fq12) ^ 2 * (L.map fun x => tangent ((1 : ℤ) • x.1) x.2).prod) := by
      rcases hP with _ | ⟨h, t⟩
      rename_i x L
      have := hmd _ L (hfirst _ _ h.2 h.1) (List.forall₂_map_left_iff.2 (t.imp fun a b h => ⟨h.2, h.1⟩))
      simpa only [one_pow, one_mul, one_smul, List.map_cons, List.prod_cons] using this
    obtain ⟨k1, k2⟩ := hloop L 1 1 (fun x hx => ⟨(hL x hx).ne, (hL x hx).ord⟩) hP hN hR (by simp) (by rw [if_pos rfl]; exact hF) le_rfl hb
    rw [← hds, ateDigits_from] at k2
    rw [← hds, one_pow, one_mul] at k1
    have := hend hc2 hc3 _ L k1 hL ((forall₂_zip k2 hP).imp fun a b h => ⟨h.1, h.2.1, h.2.2⟩)
    rw [← List.prod_map_mul] at this
    have e : (fun x : G2 × G1 => fAte x.1 x.2) = fun x => (ateDigits.foldl (millerStep x.1 x.2) (1, (1 : ℤ) • x.1)).1 *
        (chord ((6 * (bnX : ℤ) + 2) • x.1) (frobPt x.1) x.2 *
        chord ((6 * (bnX : ℤ) + 2) • x.1 + frobPt x.1) (-frobPt (frobPt x.1)) x.2) := by
      funext x
      rw [fAte_eq, one_smul, mul_assoc]
      rfl
    rw [e]
    exact this

end H2
