import Verif.Pairing.SoundMulti
import Verif.Pairing.CompleteLine

/-!
# Completeness of the Miller loops (`pairing.rs`)
-/

set_option autoImplicit false
set_option linter.unusedSectionVars false
set_option linter.unusedVariables false
namespace H2
open PairCfg

variable {ext : Cell → ZMod bn254R} {s s' : Ctx bn254R} {a b : List (CrtInt bn254R)}

/-- A conditional block in the middle of a `do` block. -/
theorem Cmp.jp2 {p : ℕ} [Fact p.Prime] {α β γ : Type} {tbl : ZMod p → Prop} {ext : Cell → ZMod p} {s : Ctx p} {c : Prop} [Decidable c]
    {m1 : M p α} {m2 : M p γ} {g : γ → M p α} {f : α → M p β} {Q : α → Ctx p → Prop} {R : β → Ctx p → Prop}
    (h : Cmp tbl ext s (if c then m1 else m2 >>= g) Q) (k : ∀ a s1, Ext s s1 → Q a s1 → Cmp tbl ext s1 (f a) R) :
    Cmp tbl ext s (if c then m1 >>= f else m2 >>= fun x => g x >>= f) R := by
  split
  · rename_i hc
    rw [if_pos hc] at h
    exact Cmp.bind h k
  · rename_i hc
    rw [if_neg hc] at h
    rw [← bind_assoc]
    exact Cmp.bind h k

theorem ecDouble2_cmp {R : EcPt bnCfg.F2} {A : G2} (h : G2W ext s R A) (h0 : (2 : ℤ) • A ≠ 0) :
    Cmp bnTbl ext s (ecDouble bnCfg.F2 R) (fun r s' => G2W ext s' r ((2 : ℤ) • A)) := by
  have e : (2 : ℤ) • A = 2 • A := by rw [two_zsmul, ← two_nsmul]
  rw [e] at h0 ⊢
  exact ecDouble_cmp bnCmp2_ecFits curveOk_g2 h h0

theorem ecAdd2_cmp {R Q : EcPt bnCfg.F2} {A B : G2} (hA : G2W ext s R A) (hB : G2W ext s Q B) (n1 : A ≠ B) (n2 : A ≠ -B) :
    Cmp bnTbl ext s (ecAddUnequal bnCfg.F2 (.nonStrict R) (.nonStrict Q) false) (fun r s' => G2W ext s' r (A + B)) :=
  ecAddUnequal_cmp bnCmp2_ecFits (P := .nonStrict R) (Q := .nonStrict Q) hA hB n1 n2

theorem ecNegate2_cmp {Q : EcPt bnCfg.F2} {A : G2} (hA : G2W ext s Q A) : Cmp bnTbl ext s (ecNegate bnCfg.F2 Q) (fun r s' =>
    G2W ext s' r (-A)) := by
  obtain ⟨X, Y, hP, i⟩ := hA
  exact Cmp.bind (bnCmp2.negate hP.2) fun y s1 e1 h1 => Cmp.pure ⟨X, -Y, ⟨bnCmp2.p_mono hP.1 e1, h1⟩, i.neg⟩

theorem ecNegate1_cmp {Q : EcPt bnCfg.F} {A : G1} (hA : G1W ext s Q A) : Cmp bnTbl ext s (ecNegate bnCfg.F Q) (fun r s' =>
    G1W ext s' r (-A)) := by
  obtain ⟨X, Y, hP, i⟩ := hA
  exact Cmp.bind (bnCmp.negate hP.2) fun y s1 e1 h1 => Cmp.pure ⟨X, -Y, ⟨bnCmp.p_mono hP.1 e1, h1⟩, i.neg⟩

/-- The digits the loop takes. -/
abbrev Digit (d : ℤ) : Prop := d = 1 ∨ d = -1 ∨ d = 0

theorem Digit.ok {d : ℤ} (h : Digit d) : (decide (d ≤ 1) && decide (-1 ≤ d)) = true := by
  rcases h with rfl | rfl | rfl <;> rfl

/-- What one round needs of the multiples of the point. -/
theorem round_ne {A : G2} (h0 : A ≠ 0) (ho : bn254R • A = 0) {n d : ℤ} {k : ℕ} (hn : 1 ≤ n) (hb : (n + 1) * 2 ^ (k + 1) ≤ (bn254R : ℤ))
    (hd : Digit d) : (2 : ℤ) • n • A ≠ 0 ∧ (2 : ℤ) • n • A ≠ d • A ∧ (2 : ℤ) • n • A ≠ -(d • A) := by
  obtain ⟨b1, b2, b3, b4, b5⟩ := loop_bound hn hb hd
  have e2 : (2 : ℤ) • n • A = (2 * n) • A := (mul_smul _ _ _).symm
  obtain ⟨c1, c2, c3, c4, c5⟩ := loop_bound hn hb (d := 0) (by omega)
  rw [e2]
  refine ⟨?_, zsmul_ne h0 ho (not_dvd_of_lt b3 b4), zsmul_ne_neg h0 ho (not_dvd_of_lt (by omega) b5)⟩
  intro h
  exact not_dvd_of_lt (by omega) (by omega) ((zsmul_eq_zero_iff h0 ho (2 * n)).1 h)

theorem millerRounds_cmp {Q negQ : EcPt bnCfg.F2} {P : EcPt bnCfg.F} {A : G2} {C : G1} (hA0 : A ≠ 0) (hord : bn254R • A = 0) :
    ∀ (ds : List ℤ) (first : Bool) (f : List (CrtInt bn254R)) (R : EcPt bnCfg.F2) (X : Fq12) (n : ℤ) (s : Ctx bn254R),
      G2W ext s Q A → G2W ext s negQ (-A) → G1W ext s P C → G2W ext s R (n • A) → (first = true → ds ≠ []) → (∀ d ∈ ds, Digit d) →
      HN12 ext s f (if first = true then X ^ 2 * tangent (n • A) C else X) → 1 ≤ n → (n + 1) * 2 ^ ds.length ≤ (bn254R : ℤ) →
      Cmp bnTbl ext s (bnCfg.millerRounds Q negQ P ds first f R) (fun r s' =>
        HN12 ext s' r.1 (ds.foldl (millerStep A C) (X, n • A)).1 ∧ G2W ext s' r.2 (digitsFrom n ds • A)) := by
  intro ds
  induction ds with
  | nil =>
    intro first f R X n s _ _ _ hR hf _ hX _ _
    cases first
    · exact Cmp.pure ⟨hX, hR⟩
    · exact absurd rfl (hf rfl)
  | cons d ds ih =>
    intro first f R X n s hQ hnQ hP hR hfirst hds hf hn hb
    unfold millerRounds
    have hd := hds d (List.mem_cons_self ..)
    have hds' : ∀ d ∈ ds, Digit d := fun x hx => hds x (List.mem_cons_of_mem _ hx)
    rw [List.length_cons] at hb
    obtain ⟨b1, b2, -⟩ := loop_bound hn hb hd
    obtain ⟨r1, r2, r3⟩ := round_ne hA0 hord hn hb hd
    have h1 : Cmp bnTbl ext s (if first = true then pure f else do
        let fsq ← bnCfg.F12.mul f f
        bnCfg.mulLineEqual fsq R P) (fun r s' => HN12 ext s' r (X ^ 2 * tangent (n • A) C)) := by
      refine Cmp.ite (fun hc => ?_) fun hc => ?_
      · rw [if_pos hc] at hf
        exact Cmp.pure hf
      · rw [if_neg hc] at hf
        cb (g12_mul hf hf) fsq h2
        rw [← sq] at h2
        exact mulLineEqual_cmp h2 hR hP
    refine Cmp.jp2 h1 fun f1 s1 e1 hf1 => ?_
    beta_reduce
    clear hf
    replace hQ := hQ.mono e1
    replace hnQ := hnQ.mono e1
    replace hP := hP.mono e1
    replace hR := hR.mono e1
    cb (ecDouble2_cmp hR r1) R1 hR1
    refine Cmp.assert hd.ok (Cmp.ite (fun h0 => ?_) fun h0 => ?_)
    · have hsQ : ∀ s, G2W ext s Q A → G2W ext s negQ (-A) → G2W ext s (if d = 1 then Q else negQ) (d • A) := by
        intro s hQ hnQ
        rcases hd with rfl | rfl | rfl
        · rw [if_pos rfl, one_smul]
          exact hQ
        · rw [if_neg (by decide), neg_smul, one_smul]
          exact hnQ
        · exact absurd rfl h0
      have e2 : (2 : ℤ) • n • A = (2 * n) • A := (mul_smul _ _ _).symm
      replace hsQ := hsQ _ hQ hnQ
      dsimp only
      cb (mulLineUnequal_cmp hf1 hR1 hsQ hP) f2 hf2
      cb (ecAdd2_cmp hR1 hsQ r2 r3) R2 hR2
      rw [e2, ← add_smul] at hR2
      rw [List.foldl_cons]
      have e : millerStep A C (X, n • A) d = (X ^ 2 * tangent (n • A) C * chord ((2 : ℤ) • n • A) (d • A) C, (2 * n + d) • A) := by
        unfold millerStep
        dsimp only
        rw [if_neg h0, e2, ← add_smul]
      rw [e]
      exact ih false f2 R2 _ (2 * n + d) _ hQ hnQ hP hR2 (by simp) hds' (by rw [if_neg (by decide)]; exact hf2) b1 b2
    · have hd0 : d = 0 := not_not.1 h0
      have e2 : (2 : ℤ) • n • A = (2 * n + d) • A := by rw [hd0, add_zero]; exact (mul_smul _ _ _).symm
      rw [e2] at hR1
      rw [List.foldl_cons]
      have e : millerStep A C (X, n • A) d = (X ^ 2 * tangent (n • A) C, (2 * n + d) • A) := by
        unfold millerStep
        dsimp only
        rw [if_pos hd0, e2]
      rw [e]
      exact ih false f1 R1 _ (2 * n + d) _ hQ hnQ hP hR1 (by simp) hds' (by rw [if_neg (by decide)]; exact hf1) b1 b2

theorem millerEnd_cmp {Q R : EcPt bnCfg.F2} {P : EcPt bnCfg.F} {c2 c3 f : List (CrtInt bn254R)} {A : G2} {C : G1} {X : Fq12}
    (h2 : HN2 ext s c2 (frobC 1 ^ 2)) (h3 : HN2 ext s c3 (frobC 1 ^ 3)) (hA : InG2 A) (hQ : G2W ext s Q A) (hP : G1W ext s P C)
    (hR : G2W ext s R ((6 * (bnX : ℤ) + 2) • A)) (hf : HN12 ext s f X) :
    Cmp bnTbl ext s (bnCfg.millerEnd Q P c2 c3 f R) (fun r s' => HN12 ext s' r (X * chord ((6 * (bnX : ℤ) + 2) • A) (frobPt A) C *
      chord ((6 * (bnX : ℤ) + 2) • A + frobPt A) (-frobPt (frobPt A)) C)) := by
  unfold millerEnd
  cb (twistedFrob_cmp h2 h3 hQ) Q1 hQ1
  cb (negTwistedFrob_cmp h2 h3 hQ1) nQ2 hQ2
  cb (mulLineUnequal_cmp hf hR hQ1 hP) f1 hf1
  have e : frobPt A = (bn254Q : ℤ) • A := by rw [hA.frob, natCast_zsmul]
  cb (ecAdd2_cmp hR hQ1 (by rw [e]; exact zsmul_ne hA.ne hA.ord end_not_dvd.1) (by rw [e]; exact zsmul_ne_neg hA.ne hA.ord end_not_dvd.2)) R1 hR1
  exact mulLineUnequal_cmp hf1 hR1 hQ2 hP

theorem ateDigits_ok : ∀ d ∈ ateDigits, Digit d := by decide +kernel

theorem millerLoop_cmp {Q : EcPt bnCfg.F2} {P : EcPt bnCfg.F} {A : G2} {C : G1} (hA : InG2 A) (hQ : G2W ext s Q A) (hP : G1W ext s P C) :
    Cmp bnTbl ext s (bnCfg.millerLoop Q P sixUPlus2Naf) (fun r s' => HN12 ext s' r (fAte A C)) := by
  unfold millerLoop
  rw [naf_digits]
  have hds : ∃ d ds, ateDigits = d :: ds := ⟨_, _, rfl⟩
  obtain ⟨d, ds, hds⟩ := hds
  rw [hds]
  dsimp only
  cb (ecNegate2_cmp hQ) negQ hN
  refine Cmp.assert rfl ?_
  rw [if_pos rfl]
  cb (firstLine_cmp hQ hP) f hf
  have hb := ate_bound
  have hok := ateDigits_ok
  rw [hds] at hb hok
  have e1 : (1 : ℤ) • A = A := one_smul _ _
  cb (millerRounds_cmp hA.ne hA.ord (d :: ds) true f Q 1 1 _ hQ hN hP (by rw [e1]; exact hQ) (by simp) hok
    (by rw [if_pos rfl, e1, one_pow, one_mul]; exact hf) le_rfl hb) fr hfr
  obtain ⟨f1, R1⟩ := fr
  obtain ⟨k1, k2⟩ := hfr
  dsimp only at k1 k2 ⊢
  rw [← hds, e1] at k1
  rw [← hds, ateDigits_from] at k2
  cb (g2_loadConstant (frobC 1 ^ 2)) c2 h2
  cb (g2_loadConstant (frobC 1 ^ 3)) c3 h3
  rw [fAte_eq]
  exact millerEnd_cmp h2 h3 hA hQ hP k2 k1

/-! ### Several pairs -/

/-- In the honest assignment, the pairs hold the points. -/
def PairsW (ext : Cell → ZMod bn254R) (s : Ctx bn254R) (pairs : List (EcPt bnCfg.F × EcPt bnCfg.F2)) (L : List (G2 × G1)) : Prop :=
  List.Forall₂ (fun (pr : EcPt bnCfg.F × EcPt bnCfg.F2) (x : G2 × G1) => G1W ext s pr.1 x.2 ∧ G2W ext s pr.2 x.1) pairs L

/-- In the honest assignment, the points are the values of `g`. -/
def ImgW (ext : Cell → ZMod bn254R) (s : Ctx bn254R) (g : G2 → G2) (rs : List (EcPt bnCfg.F2)) (L : List (G2 × G1)) : Prop :=
  List.Forall₂ (fun R (x : G2 × G1) => G2W ext s R (g x.1)) rs L

theorem PairsW.mono {pairs : List (EcPt bnCfg.F × EcPt bnCfg.F2)} {L : List (G2 × G1)} (h : PairsW ext s pairs L) (e : Ext s s') :
    PairsW ext s' pairs L := h.imp fun _ _ h => ⟨h.1.mono e, h.2.mono e⟩

theorem ImgW.mono {g : G2 → G2} {rs : List (EcPt bnCfg.F2)} {L : List (G2 × G1)} (h : ImgW ext s g rs L) (e : Ext s s') :
    ImgW ext s' g rs L := h.imp fun _ _ h => h.mono e

theorem multiDouble_cmp : ∀ (l : List (EcPt bnCfg.F2 × EcPt bnCfg.F)) (f : List (CrtInt bn254R)) (X : Fq12) (S : List (G2 × G1))
    (s : Ctx bn254R), HN12 ext s f X →
    List.Forall₂ (fun (pr : EcPt bnCfg.F2 × EcPt bnCfg.F) (x : G2 × G1) => G2W ext s pr.1 x.1 ∧ G1W ext s pr.2 x.2) l S →
    Cmp bnTbl ext s (bnCfg.multiDouble f l) (fun r s' => HN12 ext s' r (X * (S.map fun x => tangent x.1 x.2).prod)) := by
  intro l
  induction l with
  | nil =>
    intro f X S s hX h
    cases h
    exact Cmp.pure (by simpa using hX)
  | cons q l ih =>
    intro f X S s hX h
    obtain ⟨R, P⟩ := q
    rcases h with _ | ⟨h, t⟩
    refine Cmp.bind (mulLineEqual_cmp hX h.1 h.2) fun f1 s1 e1 h1 => ?_
    rw [List.map_cons, List.prod_cons, ← mul_assoc]
    exact ih f1 _ _ s1 h1 (t.imp fun _ _ h => ⟨h.1.mono e1, h.2.mono e1⟩)

theorem multiAdd_cmp {d n : ℤ} (hd : d = 1 ∨ d = -1) :
    ∀ (l : List (EcPt bnCfg.F2 × EcPt bnCfg.F2 × EcPt bnCfg.F × EcPt bnCfg.F2)) (f : List (CrtInt bn254R)) (X : Fq12) (S : List (G2 × G1))
      (s : Ctx bn254R), HN12 ext s f X →
      List.Forall₂ (fun (q : EcPt bnCfg.F2 × EcPt bnCfg.F2 × EcPt bnCfg.F × EcPt bnCfg.F2) (x : G2 × G1) =>
        G2W ext s q.1 ((2 : ℤ) • n • x.1) ∧ G2W ext s q.2.1 (-x.1) ∧ G1W ext s q.2.2.1 x.2 ∧ G2W ext s q.2.2.2 x.1) l S →
      (∀ x ∈ S, (2 : ℤ) • n • x.1 ≠ d • x.1 ∧ (2 : ℤ) • n • x.1 ≠ -(d • x.1)) →
      Cmp bnTbl ext s (bnCfg.multiAdd d f l) (fun r s' =>
        HN12 ext s' r.1 (X * (S.map fun x => chord ((2 : ℤ) • n • x.1) (d • x.1) x.2).prod) ∧
        ImgW ext s' (fun g => (2 * n + d) • g) r.2 S) := by
  intro l
  induction l with
  | nil =>
    intro f X S s hX h _
    cases h
    exact Cmp.pure ⟨by simpa using hX, .nil⟩
  | cons q l ih =>
    intro f X S s hX h hne
    obtain ⟨R, nb, a, b⟩ := q
    rcases h with _ | ⟨⟨g1, g2, g3, g4⟩, t⟩
    rename_i x S
    dsimp only at g1 g2 g3 g4
    unfold multiAdd
    have hsb : G2W ext s (if d = 1 then b else nb) (d • x.1) := by
      rcases hd with rfl | rfl
      · rw [if_pos rfl, one_smul]
        exact g4
      · rw [if_neg (by decide), neg_smul, one_smul]
        exact g2
    obtain ⟨n1, n2⟩ := hne x (List.mem_cons_self ..)
    dsimp only
    refine Cmp.bind (mulLineUnequal_cmp hX g1 hsb g3) fun f1 s1 e1 h1 => ?_
    refine Cmp.bind (ecAdd2_cmp (g1.mono e1) (hsb.mono e1) n1 n2) fun R1 s2 e2 h2 => ?_
    have e12 := e1.trans e2
    refine Cmp.bind (ih f1 _ S s2 (h1.mono e2) (t.imp fun _ _ h => ⟨h.1.mono e12, h.2.1.mono e12, h.2.2.1.mono e12, h.2.2.2.mono e12⟩)
      fun y hy => hne y (List.mem_cons_of_mem _ hy)) fun fr s3 e3 h3 => ?_
    obtain ⟨f2, rs⟩ := fr
    refine Cmp.pure ⟨?_, .cons ?_ h3.2⟩
    · have := h3.1
      rwa [List.map_cons, List.prod_cons, ← mul_assoc]
    · have := h2.mono e3
      beta_reduce
      rw [add_smul, mul_smul]
      exact this

theorem multiRounds_cmp {pairs : List (EcPt bnCfg.F × EcPt bnCfg.F2)} {negB : List (EcPt bnCfg.F2)} {L : List (G2 × G1)}
    (hL : ∀ x ∈ L, x.1 ≠ 0 ∧ bn254R • x.1 = 0) : ∀ (ds : List ℤ) (first : Bool) (f : List (CrtInt bn254R)) (rs : List (EcPt bnCfg.F2))
    (X : Fq12) (n : ℤ) (s : Ctx bn254R), PairsW ext s pairs L → ImgW ext s (fun g => -g) negB L → ImgW ext s (fun g => n • g) rs L →
      (first = true → ds ≠ []) → (∀ d ∈ ds, Digit d) →
      HN12 ext s f (if first = true then X ^ 2 * (L.map fun x => tangent (n • x.1) x.2).prod else X) → 1 ≤ n →
      (n + 1) * 2 ^ ds.length ≤ (bn254R : ℤ) →
      Cmp bnTbl ext s (bnCfg.multiRounds pairs negB ds first f rs) (fun r s' =>
        HN12 ext s' r.1 (X ^ 2 ^ ds.length * (L.map fun x => (ds.foldl (millerStep x.1 x.2) (1, n • x.1)).1).prod) ∧
        ImgW ext s' (fun g => digitsFrom n ds • g) r.2 L) := by
  intro ds
  induction ds with
  | nil =>
    intro first f rs X n s _ _ hR hf _ hX _ _
    cases first
    · exact Cmp.pure ⟨by simpa using hX, hR⟩
    · exact absurd rfl (hf rfl)
  | cons d ds ih =>
    intro first f rs X n s hP hN hR hfirst hds hf hn hb
    unfold multiRounds
    have hd := hds d (List.mem_cons_self ..)
    have hds' : ∀ d ∈ ds, Digit d := fun x hx => hds x (List.mem_cons_of_mem _ hx)
    rw [List.length_cons] at hb
    obtain ⟨b1, b2, -⟩ := loop_bound hn hb hd
    have hne := fun (x : G2 × G1) (hx : x ∈ L) => round_ne (hL x hx).1 (hL x hx).2 hn hb hd
    have h1 : Cmp bnTbl ext s (if first = true then pure f else do
        let f ← bnCfg.F12.mul f f
        bnCfg.multiDouble f (List.zip rs (pairs.map Prod.fst))) (fun r s' =>
          HN12 ext s' r (X ^ 2 * (L.map fun x => tangent (n • x.1) x.2).prod)) := by
      refine Cmp.ite (fun hc => ?_) fun hc => ?_
      · rw [if_pos hc] at hf
        exact Cmp.pure hf
      · rw [if_neg hc] at hf
        refine Cmp.bind (g12_mul hf hf) fun fsq s1 e1 h2 => ?_
        rw [← sq] at h2
        have hP1 : List.Forall₂ (fun P (x : G2 × G1) => G1W ext s1 P x.2) (pairs.map Prod.fst) L :=
          List.forall₂_map_left_iff.2 (hP.imp fun a b h => h.1.mono e1)
        have hz := forall₂_zip (hR.mono e1) hP1
        have := multiDouble_cmp _ fsq _ (L.map fun x => (n • x.1, x.2)) s1 h2 (List.forall₂_map_right_iff.2 hz)
        rw [List.map_map] at this
        exact this
    refine Cmp.jp2 h1 fun f1 s1 e1 hf1 => ?_
    beta_reduce
    have hdbl := mapList_cmp (tbl := bnTbl) (ext := ext) (f := ecDouble bnCfg.F2) (A := {x : G2 × G1 // x ∈ L}) (B := G2 × G1)
      (S := fun s R x => G2W ext s R (n • x.1.1)) (T := fun s R x => G2W ext s R ((2 : ℤ) • n • x.1)) (g := Subtype.val)
      (fun _ _ _ _ h e => G2W.mono h e) (fun _ _ _ _ h e => G2W.mono h e) (fun _ _ x h => ecDouble2_cmp h (hne x.1 x.2).1)
      (s := s1) (as := rs) (xs := L.attach) (by
        have h := hR.mono e1
        unfold ImgW at h
        rw [← L.attach_map_subtype_val] at h
        exact (List.forall₂_map_right_iff (R := fun R (x : G2 × G1) => G2W ext s1 R (n • x.1)) (f := Subtype.val)).1 h)
    rw [L.attach_map_subtype_val] at hdbl
    refine Cmp.bind hdbl fun rs1 s2 e2 hR1 => ?_
    have e12 := e1.trans e2
    have hP2 := hP.mono e12
    have hN2 := hN.mono e12
    have hf2 := hf1.mono e2
    refine Cmp.assert hd.ok (Cmp.ite (fun h0 => ?_) fun h0 => ?_)
    · have hd' : d = 1 ∨ d = -1 := by
        rcases hd with h | h | h
        · exact .inl h
        · exact .inr h
        · exact absurd h h0
      have hz := forall₂_zip hR1 (forall₂_zip hN2 hP2)
      refine Cmp.bind (multiAdd_cmp hd' _ f1 _ L s2 hf2 (hz.imp fun a b h => ⟨h.1, h.2.1, h.2.2.1, h.2.2.2⟩)
        fun x hx => (hne x hx).2) fun fr s3 e3 h3 => ?_
      obtain ⟨f3, rs3⟩ := fr
      refine (ih false f3 rs3 _ (2 * n + d) s3 (hP2.mono e3) (hN2.mono e3) h3.2 (by simp) hds' (by rw [if_neg (by decide)]; exact h3.1) b1 b2).weaken
        fun r s' this => ?_
      refine ⟨?_, this.2⟩
      convert this.1 using 1
      rw [mul_assoc (X ^ 2), ← List.prod_map_mul, mul_pow, ← pow_mul, ← pow_succ', mul_assoc, prod_map_pow, ← List.prod_map_mul]
      congr 3
      funext x
      have e2 : millerStep x.1 x.2 (1, n • x.1) d = (stepF x.1 x.2 (n • x.1) d, (2 * n + d) • x.1) :=
        Prod.ext ((millerStep_fst _ _ _ _ _).trans (by rw [one_pow, one_mul])) (millerStep_snd _ _ _ _ _)
      rw [List.foldl_cons, e2, miller_fst]
      unfold stepF
      rw [if_neg h0]
    · have hd0 : d = 0 := not_not.1 h0
      have hR2 : ImgW ext s2 (fun g => (2 * n + d) • g) rs1 L := List.Forall₂.imp (fun a b h => by
        beta_reduce; rw [hd0, add_zero, mul_smul]; exact h) hR1
      refine (ih false f1 rs1 _ (2 * n + d) s2 hP2 hN2 hR2 (by simp) hds' (by rw [if_neg (by decide)]; exact hf2) b1 b2).weaken
        fun r s' this => ?_
      refine ⟨?_, this.2⟩
      convert this.1 using 1
      rw [mul_pow, ← pow_mul, ← pow_succ', mul_assoc, prod_map_pow, ← List.prod_map_mul]
      congr 3
      funext x
      have e2 : millerStep x.1 x.2 (1, n • x.1) d = (stepF x.1 x.2 (n • x.1) d, (2 * n + d) • x.1) :=
        Prod.ext ((millerStep_fst _ _ _ _ _).trans (by rw [one_pow, one_mul])) (millerStep_snd _ _ _ _ _)
      rw [List.foldl_cons, e2, miller_fst]
      unfold stepF
      rw [if_pos hd0, mul_one]

theorem multiEnd_cmp {c2 c3 : List (CrtInt bn254R)} : ∀ (l : List (EcPt bnCfg.F2 × EcPt bnCfg.F × EcPt bnCfg.F2)) (f : List (CrtInt bn254R))
    (X : Fq12) (S : List (G2 × G1)) (s : Ctx bn254R), HN2 ext s c2 (frobC 1 ^ 2) → HN2 ext s c3 (frobC 1 ^ 3) → HN12 ext s f X →
      (∀ x ∈ S, InG2 x.1) →
      List.Forall₂ (fun (q : EcPt bnCfg.F2 × EcPt bnCfg.F × EcPt bnCfg.F2) (x : G2 × G1) => G2W ext s q.1 ((6 * (bnX : ℤ) + 2) • x.1) ∧
        G1W ext s q.2.1 x.2 ∧ G2W ext s q.2.2 x.1) l S →
      Cmp bnTbl ext s (bnCfg.multiEnd c2 c3 f l) (fun r s' =>
        HN12 ext s' r (X * (S.map fun x => chord ((6 * (bnX : ℤ) + 2) • x.1) (frobPt x.1) x.2 *
          chord ((6 * (bnX : ℤ) + 2) • x.1 + frobPt x.1) (-frobPt (frobPt x.1)) x.2).prod)) := by
  intro l
  induction l with
  | nil =>
    intro f X S s _ _ hX _ h
    cases h
    exact Cmp.pure (by simpa using hX)
  | cons q l ih =>
    intro f X S s h2 h3 hX hS h
    obtain ⟨R, P, Q⟩ := q
    rcases h with _ | ⟨h, t⟩
    rename_i x S
    refine Cmp.bind (millerEnd_cmp h2 h3 (hS x (List.mem_cons_self ..)) h.2.2 h.2.1 h.1 hX) fun f1 s1 e1 h1 => ?_
    refine (ih f1 _ S s1 (h2.mono e1) (h3.mono e1) h1 (fun y hy => hS y (List.mem_cons_of_mem _ hy))
      (t.imp fun _ _ h => ⟨h.1.mono e1, h.2.1.mono e1, h.2.2.mono e1⟩)).weaken fun r s' this => ?_
    rw [List.map_cons, List.prod_cons]
    convert this using 1
    ring

theorem multiMillerLoop_cmp {pairs : List (EcPt bnCfg.F × EcPt bnCfg.F2)} {L : List (G2 × G1)} (hP : PairsW ext s pairs L) (hne : L ≠ [])
    (hL : ∀ x ∈ L, InG2 x.1) :
    Cmp bnTbl ext s (bnCfg.multiMillerLoop pairs sixUPlus2Naf) (fun r s' => HN12 ext s' r (L.map fun x => fAte x.1 x.2).prod) := by
  unfold multiMillerLoop
  rw [naf_digits]
  have hds : ∃ d ds, ateDigits = d :: ds := ⟨_, _, rfl⟩
  obtain ⟨d, ds, hds⟩ := hds
  rw [hds]
  rcases hP with _ | ⟨h, t⟩
  · exact absurd rfl hne
  rename_i pr x rest L
  obtain ⟨a0, b0⟩ := pr
  dsimp only at h ⊢
  have hP : PairsW ext s ((a0, b0) :: rest) (x :: L) := .cons h t
  refine Cmp.assert rfl ?_
  have hneg := mapList_cmp (tbl := bnTbl) (ext := ext) (f := fun pr : EcPt bnCfg.F × EcPt bnCfg.F2 => ecNegate bnCfg.F2 pr.2)
    (S := fun s (pr : EcPt bnCfg.F × EcPt bnCfg.F2) (x : G2 × G1) => G1W ext s pr.1 x.2 ∧ G2W ext s pr.2 x.1)
    (T := fun s R (x : G2 × G1) => G2W ext s R (-x.1)) (g := fun x => x)
    (fun _ _ _ _ h e => ⟨h.1.mono e, h.2.mono e⟩) (fun _ _ _ _ h e => G2W.mono h e) (fun _ _ x h => ecNegate2_cmp h.2) hP
  rw [List.map_id'] at hneg
  refine Cmp.bind hneg fun negB s1 e1 hN => ?_
  have hN : ImgW ext s1 (fun g => -g) negB (x :: L) := hN
  refine Cmp.bind (firstLine_cmp (h.2.mono e1) (h.1.mono e1)) fun f s2 e2 hf => ?_
  have e12 := e1.trans e2
  refine Cmp.bind (multiDouble_cmp _ f _ L s2 hf (List.forall₂_map_left_iff.2 (t.imp fun a b h => ⟨h.2.mono e12, h.1.mono e12⟩)))
    fun f1 s3 e3 hf1 => ?_
  have e13 := e12.trans e3
  have hb := ate_bound
  have hok := ateDigits_ok
  rw [hds] at hb hok
  have hR : ImgW ext s3 (fun g => (1 : ℤ) • g) (((a0, b0) :: rest).map Prod.snd) (x :: L) :=
    List.forall₂_map_left_iff.2 ((hP.mono e13).imp fun a b h => by beta_reduce; rw [one_smul]; exact h.2)
  have hF : HN12 ext s3 f1 ((1 : Fq12) ^ 2 * ((x :: L).map fun x => tangent ((1 : ℤ) • x.1) x.2).prod) := by
    simpa only [one_pow, one_mul, one_smul, List.map_cons, List.prod_cons] using hf1
  refine Cmp.bind (multiRounds_cmp (fun x hx => ⟨(hL x hx).ne, (hL x hx).ord⟩) (d :: ds) true f1 _ 1 1 s3 (hP.mono e13)
    (hN.mono (e2.trans e3)) hR (by simp) hok (by rw [if_pos rfl]; exact hF) le_rfl hb) fun fr s4 e4 h4 => ?_
  obtain ⟨f2, rs⟩ := fr
  obtain ⟨k1, k2⟩ := h4
  dsimp only at k1 k2 ⊢
  rw [← hds, one_pow, one_mul] at k1
  rw [← hds, ateDigits_from] at k2
  refine Cmp.bind (g2_loadConstant (frobC 1 ^ 2)) fun c2 s5 e5 h5 => ?_
  refine Cmp.bind (g2_loadConstant (frobC 1 ^ 3)) fun c3 s6 e6 h6 => ?_
  have e46 := e5.trans e6
  refine (multiEnd_cmp _ f2 _ (x :: L) s6 (h5.mono e6) h6 (k1.mono e46) hL ((forall₂_zip (k2.mono e46)
    (hP.mono (e13.trans (e4.trans e46)))).imp fun a b h => ⟨h.1, h.2.1, h.2.2⟩)).weaken fun r s' this => ?_
  rw [← List.prod_map_mul] at this
  have e : (fun x : G2 × G1 => fAte x.1 x.2) = fun x => (ateDigits.foldl (millerStep x.1 x.2) (1, (1 : ℤ) • x.1)).1 *
      (chord ((6 * (bnX : ℤ) + 2) • x.1) (frobPt x.1) x.2 *
      chord ((6 * (bnX : ℤ) + 2) • x.1 + frobPt x.1) (-frobPt (frobPt x.1)) x.2) := by
    funext x
    rw [fAte_eq, one_smul, mul_assoc]
    rfl
  rw [e]
  exact this

end H2
