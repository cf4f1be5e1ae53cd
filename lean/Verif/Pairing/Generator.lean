import Verif.Pairing.OrderG2
import Verif.Pairing.CompletePow

/-!
# The pairing of the generators of BN254

The Miller value, the easy part and the powers which the final exponentiation goes through, computed by the kernel: the pairing of
the generators is not `1`, and the conditions of the completeness theorems hold for it.
-/

set_option autoImplicit false
set_option linter.unusedSectionVars false
namespace H2

/-! ### Computation in `Fq12` with naturals -/

structure Q12 where
  c0 : ℕ × ℕ
  c1 : ℕ × ℕ
  c2 : ℕ × ℕ
  c3 : ℕ × ℕ
  c4 : ℕ × ℕ
  c5 : ℕ × ℕ
deriving DecidableEq

/-- The element of `Fq12`. -/
noncomputable def q12 (a : Q12) : Fq12 := e6 (q2 a.c0) (q2 a.c1) (q2 a.c2) (q2 a.c3) (q2 a.c4) (q2 a.c5)

/-- Evaluate before substituting (only for speed). -/
def force {α : Type} (n : ℕ) (f : ℕ → α) : α := match n with
  | 0 => f 0
  | k + 1 => f (k + 1)

theorem force_eq {α : Type} (n : ℕ) (f : ℕ → α) : force n f = f n := by cases n <;> rfl

def force2 {α : Type} (a : ℕ × ℕ) (f : ℕ × ℕ → α) : α := force a.1 fun x => force a.2 fun y => f (x, y)

theorem force2_eq {α : Type} (a : ℕ × ℕ) (f : ℕ × ℕ → α) : force2 a f = f a := by simp only [force2, force_eq]

def q12force {α : Type} (a : Q12) (f : Q12 → α) : α := force2 a.c0 fun c0 => force2 a.c1 fun c1 => force2 a.c2 fun c2 =>
  force2 a.c3 fun c3 => force2 a.c4 fun c4 => force2 a.c5 fun c5 => f ⟨c0, c1, c2, c3, c4, c5⟩

theorem q12force_eq {α : Type} (a : Q12) (f : Q12 → α) : q12force a f = f a := by simp only [q12force, force2_eq]

def q2xi (a : ℕ × ℕ) : ℕ × ℕ := q2mul (9, 1) a
def q2neg (a : ℕ × ℕ) : ℕ × ℕ := q2sub (0, 0) a

theorem q2_zero : q2 (0, 0) = 0 := by ext <;> simp [q2]
theorem q2_xi9 : q2 (9, 1) = Fq2.xi := by ext <;> simp [q2]
theorem q2_xi (a : ℕ × ℕ) : q2 (q2xi a) = Fq2.xi * q2 a := by rw [q2xi, q2_mul, q2_xi9]
theorem q2_neg (a : ℕ × ℕ) : q2 (q2neg a) = -q2 a := by rw [q2neg, q2_sub, q2_zero, zero_sub]

def q12mul (a b : Q12) : Q12 :=
  ⟨q2add (q2mul a.c0 b.c0) (q2xi (q2add (q2add (q2add (q2add (q2mul a.c1 b.c5) (q2mul a.c2 b.c4)) (q2mul a.c3 b.c3)) (q2mul a.c4 b.c2)) (q2mul a.c5 b.c1))),
   q2add (q2add (q2mul a.c0 b.c1) (q2mul a.c1 b.c0)) (q2xi (q2add (q2add (q2add (q2mul a.c2 b.c5) (q2mul a.c3 b.c4)) (q2mul a.c4 b.c3)) (q2mul a.c5 b.c2))),
   q2add (q2add (q2add (q2mul a.c0 b.c2) (q2mul a.c1 b.c1)) (q2mul a.c2 b.c0)) (q2xi (q2add (q2add (q2mul a.c3 b.c5) (q2mul a.c4 b.c4)) (q2mul a.c5 b.c3))),
   q2add (q2add (q2add (q2add (q2mul a.c0 b.c3) (q2mul a.c1 b.c2)) (q2mul a.c2 b.c1)) (q2mul a.c3 b.c0)) (q2xi (q2add (q2mul a.c4 b.c5) (q2mul a.c5 b.c4))),
   q2add (q2add (q2add (q2add (q2add (q2mul a.c0 b.c4) (q2mul a.c1 b.c3)) (q2mul a.c2 b.c2)) (q2mul a.c3 b.c1)) (q2mul a.c4 b.c0)) (q2xi (q2mul a.c5 b.c5)),
   q2add (q2add (q2add (q2add (q2add (q2mul a.c0 b.c5) (q2mul a.c1 b.c4)) (q2mul a.c2 b.c3)) (q2mul a.c3 b.c2)) (q2mul a.c4 b.c1)) (q2mul a.c5 b.c0)⟩

theorem q12_mul (a b : Q12) : q12 (q12mul a b) = q12 a * q12 b := by
  unfold q12
  rw [e6_mul]
  simp only [q12mul, q2_add, q2_mul, q2_xi]

def q12one : Q12 := ⟨(1, 0), (0, 0), (0, 0), (0, 0), (0, 0), (0, 0)⟩
theorem q12_one : q12 q12one = 1 := by
  rw [e6_one]
  unfold q12 q12one
  simp only [q2_one, q2_zero]

def q12conj (a : Q12) : Q12 := ⟨a.c0, q2neg a.c1, a.c2, q2neg a.c3, a.c4, q2neg a.c5⟩
theorem q12_conj (a : Q12) : q12 (q12conj a) = q12 a ^ bn254Q ^ 6 := by
  unfold q12
  rw [e6_pow_q6]
  simp only [q12conj, q2_neg]

/-- `ξ^((q² - 1) / 6)`. -/
def zetaN : ℕ := powMod bn254Q 256 82 ((bn254Q - 1) / 6) 1
theorem q2_nat (n : ℕ) : q2 (n, 0) = (n : Fq2) := by ext <;> simp [q2]
theorem q2_zeta : q2 (zetaN, 0) = zeta := by
  unfold zeta
  exact q2_nat zetaN

def q12frob2 (z : ℕ × ℕ) (a : Q12) : Q12 :=
  ⟨a.c0, q2mul a.c1 z, q2mul a.c2 (q2sub z (1, 0)), q2neg a.c3, q2mul (q2neg a.c4) z, q2mul a.c5 (q2sub (1, 0) z)⟩
theorem q12_frob2 {z : ℕ × ℕ} (hz : q2 z = zeta) (a : Q12) : q12 (q12frob2 z a) = q12 a ^ bn254Q ^ 2 := by
  unfold q12
  rw [e6_pow_q2]
  simp only [q12frob2, q2_neg, q2_mul, q2_sub, hz, q2_one]

/-! ### Points and lines -/

abbrev QPt : Type := (ℕ × ℕ) × (ℕ × ℕ)

def ptForce {α : Type} (P : QPt) (f : QPt → α) : α := force2 P.1 fun x => force2 P.2 fun y => f (x, y)
theorem ptForce_eq {α : Type} (P : QPt) (f : QPt → α) : ptForce P f = f P := by simp only [ptForce, force2_eq]

/-- The double, with the slope as a certificate. -/
def qDbl (l : ℕ × ℕ) (P : QPt) : Option QPt :=
  let x3 := q2sub (q2mul l l) (q2add P.1 P.1)
  if q2mul l (q2add P.2 P.2) = q2mul (q2add (q2add P.1 P.1) P.1) P.1 then some (x3, q2sub (q2mul l (q2sub P.1 x3)) P.2) else none

/-- The sum, with the slope as a certificate. -/
def qAdd (l : ℕ × ℕ) (P G : QPt) : Option QPt :=
  let x3 := q2sub (q2sub (q2mul l l) P.1) G.1
  if q2mul l (q2sub G.1 P.1) = q2sub G.2 P.2 ∧ q2sub P.1 G.1 ≠ (0, 0) then some (x3, q2sub (q2mul l (q2sub P.1 x3)) P.2) else none

/-- `P` holds the coordinates of `A`. -/
def AtPt (P : QPt) (A : G2) : Prop := IsPt g2B (q2 P.1) (q2 P.2) A

theorem qDbl_spec {l : ℕ × ℕ} {P P' : QPt} {A : G2} (hP : AtPt P A) (h : qDbl l P = some P') : AtPt P' ((2 : ℤ) • A) := by
  simp only [qDbl] at h
  split at h
  · rename_i h1
    simp only [Option.some.injEq] at h
    subst h
    have e1 := congrArg q2 h1
    simp only [q2_mul, q2_add] at e1
    have := IsPt.double curveOk_g2 hP (l := q2 l) (by linear_combination e1) rfl rfl
    have e2 : (2 : ℤ) • A = 2 • A := by rw [two_zsmul, two_nsmul]
    rw [e2]
    refine cast_isPt this ?_ ?_
    · simp only [q2_sub, q2_mul, q2_add]; ring
    · simp only [q2_sub, q2_mul, q2_add]; ring
  · simp at h

theorem qAdd_spec {l : ℕ × ℕ} {P G P' : QPt} {A B : G2} (hP : AtPt P A) (hG : AtPt G B) (h : qAdd l P G = some P') : AtPt P' (A + B) := by
  simp only [qAdd] at h
  split at h
  · rename_i h1
    obtain ⟨h1, h0⟩ := h1
    simp only [Option.some.injEq] at h
    subst h
    have e1 := congrArg q2 h1
    simp only [q2_mul, q2_sub] at e1
    have := IsPt.add hP hG (q2_ne h0) (l := q2 l) e1 rfl rfl
    refine cast_isPt this ?_ ?_
    · simp only [q2_sub, q2_mul]
    · simp only [q2_sub, q2_mul]
  · simp at h

def qNeg (P : QPt) : QPt := (P.1, q2neg P.2)
theorem qNeg_spec {P : QPt} {A : G2} (hP : AtPt P A) : AtPt (qNeg P) (-A) := by
  unfold AtPt qNeg
  rw [q2_neg]
  exact IsPt.neg hP

/-- The Frobenius map, with `g = ξ^((q - 1) / 6)`. -/
def qConj (a : ℕ × ℕ) : ℕ × ℕ := q2sub (a.1, 0) (0, a.2)
def qFrob (g : ℕ × ℕ) (P : QPt) : QPt := (q2mul (q2mul g g) (qConj P.1), q2mul (q2mul (q2mul g g) g) (qConj P.2))
theorem qFrob_spec {g : ℕ × ℕ} (hg : q2 g = frobC 1) {P : QPt} {A : G2} (hP : AtPt P A) : AtPt (qFrob g P) (frobPt A) := by
  have h := frobPt_isPt hP
  unfold AtPt qFrob qConj
  simp only [q2_mul, ← q2_conj, hg]
  refine cast_isPt h ?_ ?_
  · ring
  · ring

/-- The tangent in `R`, evaluated at `(1, 2)`. -/
def tanC (R : QPt) : Q12 :=
  let xx := q2mul R.1 R.1
  let yy := q2mul R.2 R.2
  ⟨q2xi (q2sub (q2mul (3, 0) (q2mul xx R.1)) (q2mul (2, 0) yy)), (0, 0), (0, 0), q2mul (4, 0) R.2, q2mul (q2neg (3, 0)) xx, (0, 0)⟩

/-- The line through `R` and `S`, evaluated at `(1, 2)`. -/
def chordC (R S : QPt) : Q12 :=
  ⟨(0, 0), (0, 0), q2mul (2, 0) (q2sub S.1 R.1), q2sub R.2 S.2, (0, 0), q2sub (q2mul R.1 S.2) (q2mul S.1 R.2)⟩

theorem tangentAt_e6 (x y : Fq2) : tangentAt (Fq12.w ^ 2 * Fq12.ι x) (Fq12.w ^ 3 * Fq12.ι y) 1 2 =
    e6 (Fq2.xi * (3 * (x * x * x) - 2 * (y * y))) 0 0 (4 * y) (-3 * (x * x)) 0 := by
  have h := Fq12.w6
  unfold tangentAt e6
  simp only [map_zero, map_mul, map_sub, map_neg, map_ofNat, ← h]
  ring

theorem chordAt_e6 (x1 y1 x2 y2 : Fq2) : chordAt (Fq12.w ^ 2 * Fq12.ι x1) (Fq12.w ^ 3 * Fq12.ι y1) (Fq12.w ^ 2 * Fq12.ι x2)
    (Fq12.w ^ 3 * Fq12.ι y2) 1 2 = e6 0 0 (2 * (x2 - x1)) (y1 - y2) 0 (x1 * y2 - x2 * y1) := by
  unfold chordAt e6
  simp only [map_zero, map_mul, map_sub, map_ofNat]
  ring

section
variable {C : G1} (hC : IsPt (3 : ZMod bn254Q) ((1 : ℕ) : ZMod bn254Q) ((2 : ℕ) : ZMod bn254Q) C)
include hC

theorem base_xy : base12 (xOf C) = 1 ∧ base12 (yOf C) = 2 := by
  obtain ⟨h1, h2⟩ := hC.xOf_eq
  unfold base12
  rw [h1, h2, map_natCast, map_natCast, map_natCast, map_natCast]
  constructor <;> norm_num

theorem tanC_spec {R : QPt} {A : G2} (hR : AtPt R A) : tangent A C = q12 (tanC R) := by
  obtain ⟨h1, h2⟩ := IsPt.xOf_eq hR
  obtain ⟨h3, h4⟩ := base_xy hC
  unfold tangent psiX psiY
  rw [h1, h2, h3, h4, tangentAt_e6]
  unfold q12 tanC
  simp only [q2_xi, q2_sub, q2_mul, q2_neg, q2_nat, q2_zero]
  norm_num

theorem chordC_spec {R S : QPt} {A B : G2} (hR : AtPt R A) (hS : AtPt S B) : chord A B C = q12 (chordC R S) := by
  obtain ⟨h1, h2⟩ := IsPt.xOf_eq hR
  obtain ⟨h5, h6⟩ := IsPt.xOf_eq hS
  obtain ⟨h3, h4⟩ := base_xy hC
  unfold chord psiX psiY
  rw [h1, h2, h3, h4, h5, h6, chordAt_e6]
  unfold q12 chordC
  simp only [q2_sub, q2_mul, q2_nat, q2_zero]
  norm_num

end

/-! ### The Miller loop -/

/-- Digits with the slopes of the doubling and of the addition. -/
def millerC (G nG : QPt) : List (ℤ × (ℕ × ℕ) × (ℕ × ℕ)) → Q12 → QPt → Option (Q12 × QPt)
  | [], f, R => some (f, R)
  | (d, l, l2) :: cs, f, R => q12force (q12mul (q12mul f f) (tanC R)) fun f1 => (qDbl l R).bind fun R1 => ptForce R1 fun R1 =>
    if d = 0 then millerC G nG cs f1 R1
    else if d = 1 then q12force (q12mul f1 (chordC R1 G)) fun f2 => (qAdd l2 R1 G).bind fun R2 => ptForce R2 fun R2 => millerC G nG cs f2 R2
    else if d = -1 then q12force (q12mul f1 (chordC R1 nG)) fun f2 => (qAdd l2 R1 nG).bind fun R2 => ptForce R2 fun R2 => millerC G nG cs f2 R2
    else none

theorem millerC_spec {C : G1} (hC : IsPt (3 : ZMod bn254Q) ((1 : ℕ) : ZMod bn254Q) ((2 : ℕ) : ZMod bn254Q) C) {A : G2} {G nG : QPt}
    (hG : AtPt G A) (hn : AtPt nG (-A)) : ∀ (cs : List (ℤ × (ℕ × ℕ) × (ℕ × ℕ))) (f : Q12) (R : QPt) (B : G2) (f' : Q12) (R' : QPt),
    AtPt R B → millerC G nG cs f R = some (f', R') →
    ((cs.map fun c => c.1).foldl (millerStep A C) (q12 f, B)).1 = q12 f' ∧ AtPt R' ((cs.map fun c => c.1).foldl (millerStep A C) (q12 f, B)).2 := by
  intro cs
  induction cs with
  | nil =>
    intro f R B f' R' hR h
    cases h
    exact ⟨rfl, hR⟩
  | cons c cs ih =>
    obtain ⟨d, l, l2⟩ := c
    intro f R B f' R' hR h
    rw [millerC, q12force_eq] at h
    obtain ⟨R1, h1, h⟩ := Option.bind_eq_some_iff.1 h
    rw [ptForce_eq] at h
    have hR1 := qDbl_spec hR h1
    have ht := tanC_spec hC hR
    rw [List.map_cons, List.foldl_cons]
    have hf : q12 f ^ 2 * tangent B C = q12 (q12mul (q12mul f f) (tanC R)) := by
      rw [q12_mul, q12_mul, ht, pow_two]
    split at h
    · rename_i h0
      have e : millerStep A C (q12 f, B) d = (q12 (q12mul (q12mul f f) (tanC R)), (2 : ℤ) • B) := by
        unfold millerStep
        rw [if_pos h0, hf]
      rw [e]
      exact ih _ _ _ _ _ hR1 h
    rename_i h0
    split at h
    · rename_i hd
      rw [q12force_eq] at h
      obtain ⟨R2, h2, h⟩ := Option.bind_eq_some_iff.1 h
      rw [ptForce_eq] at h
      have hR2 := qAdd_spec hR1 hG h2
      have e : millerStep A C (q12 f, B) d = (q12 (q12mul (q12mul (q12mul f f) (tanC R)) (chordC R1 G)), (2 : ℤ) • B + A) := by
        unfold millerStep
        rw [if_neg h0, hd, one_zsmul, hf, chordC_spec hC hR1 hG, ← q12_mul]
      rw [e]
      exact ih _ _ _ _ _ hR2 h
    · split at h
      · rename_i hd
        rw [q12force_eq] at h
        obtain ⟨R2, h2, h⟩ := Option.bind_eq_some_iff.1 h
        rw [ptForce_eq] at h
        have hR2 := qAdd_spec hR1 hn h2
        have e : millerStep A C (q12 f, B) d = (q12 (q12mul (q12mul (q12mul f f) (tanC R)) (chordC R1 nG)), (2 : ℤ) • B + -A) := by
          unfold millerStep
          rw [if_neg h0, hd, neg_one_zsmul, hf, chordC_spec hC hR1 hn, ← q12_mul]
        rw [e]
        exact ih _ _ _ _ _ hR2 h
      · simp at h

/-- The slopes. -/
def genCert : List (ℤ × (ℕ × ℕ) × (ℕ × ℕ)) := [
  (1, ((0x237db2935c4432bc98005e68cacde68a193b54e64d347301094edcbfa224d3d5, 0x124077e14a7d826a707c3ec1809ae9bafafa05dd6b4ba735fba44e801d415637), (0x6567a7f6972b7bbbfa13123614ecf9c4853249bb5ee22ba52a7ed0c533b7173, 0x899cb1e339f7582c42d7517ae6f59453eaf32c7cf422f26ac76a450359f819e))),
  (0, ((0x1e2f561324ef44479ddfd61d289b65a9b4254476fc23a674d089e9cfdefb1db8, 0x94ff1987d19b62ccd852893796296e4d1ed330f67a6a9e31f6975b220642ea), (0x0, 0x0))),
  (1, ((0x21bd26686de101ccb0d9366e58d0ef693073c35ba67a07e550fecbfc3168e38b, 0x16e9c4f4fa600e3b6c061bf10ca87f272b19ccacf616c4c6123f22beb856fd4c), (0x12077456721c7b443b1e9fe6ae4a97128f1fef127f67f5f350ec428021335c8b, 0xfd865aa8f8e82cdb4b50a4944dd38b2dbb2dade2fad7eff994de7b13d62b309))),
  (0, ((0x100a541662b9cd7c9767e27b02a8da37411a278718d630598e58bb5d0102b30e, 0x78a2afbf72317e7d49cce6abd50b574f31c2d72004ca7313df2e168e7e5ea70), (0x0, 0x0))),
  (0, ((0xab519fd7cf8e7f9f5433785c186cd1100ab6b80a137b991ba9048aee9fa0bc7, 0x23db979f8481c5f017f7ac209532723f22a344b90832f45d3398c60aa1a74e2), (0x0, 0x0))),
  (-1, ((0x182c17d793eba74d0d5a60533bd0ce7869efbc15bc1ede480873fceb8739511e, 0x1d0f6156a89a42447756322ea3dc079289d51f2d83bf38d91876ad8999516bc2), (0x131210153a2217d65372abeaf56844dee60d6198c2a2b787d8e718e81970db80, 0x102113c9b6feb035f75ca1f68f4b8deafb1d3b4870421980313e09a8a0e5a82d))),
  (0, ((0x25fd54a040980513657bb9ca47463c344a76001c3e66852b131200b3b4eaed19, 0x1cde25facb7b4aea54c07e0d31369fc959650c5e7aede5341953face955696a3), (0x0, 0x0))),
  (1, ((0x2e9a86460dc2373609371c95fddb4f4fc61e5dc77de681454d1c6f34611926f8, 0x1b6cbad1cf208a1175a554cf675c3f0e1d012b7f20a843010dc421b1a03a0f20), (0x1f39af36c54dc782b9b9c5889f4d06ef018679d52b451e60a78704a1f19014f2, 0xc995b739d43135be54ab437eb3502684868029e90ab15abed5ec14cd0eebb2f))),
  (1, ((0x24f18cf5409251dd93f16ab5c5e387046dc2a1dc7a6cfc196695982308ca5e88, 0x179860865e3695dfe5af34e82761b86f017371f80784d8520100ceda7ae91ed7), (0xdff96fc94940100558dc4ff3fef37e13414c27769caa504191fde73ca981ea, 0x13341a2865a7c61e9a99de0323617f8d4d9a7809a9f6cf60c4d91a12ba21675e))),
  (0, ((0x2b08658e9d5ba5cbb5077662d0ce9d755af1446bccf841cf5c1cf8f4a0485e28, 0x7244563488bab25ff9bb7d74505b05425782996ce62184a15685babd77f27f), (0x0, 0x0))),
  (0, ((0x2918e9e08c764c2812e23637b641ab0e5b322ad87105024c431a33683d9d0b9d, 0x2a6ad1a1f7b04ef6acfb499e362291d0b053bbf626384979d1f5417e451aeabf), (0x0, 0x0))),
  (0, ((0x228e4aefbdd738dff78d57f089bffdf07c676bb306bf13a27b0f4eb6657abc4b, 0x29bf29a3d071ec4bfa3fb44f4a80641a9bb3bc094f41a40b04ec964619823053), (0x0, 0x0))),
  (-1, ((0x14ee54f10e36c70313b7290356af0e24d55d79355eca1ea9bbeb4da8643b8aa6, 0xa22f28145f84a09896c381c63710e77f87fd13df9da491591a87b9c9725d2e2), (0xe9baf9389cad842fda7d9466f6888efb095b01faccebe45469dcca191d6743f, 0x63184708362f8c6debbd247ba645bf659069e095706dbd1ec92c65b05c1584d))),
  (0, ((0x1afdc719440d90f0f969a9b961a28b872e56aac2bfdfdae86101e29da3e869b8, 0x104d8c02eb7f60c8bfa387a694c641cceee4443aee43c995686f13baa9b07266), (0x0, 0x0))),
  (0, ((0x17eac23b00b545ffe3706a783e99f73ac742aa1a3d038747ebac16adc1c50bdd, 0x2415b5f61301dff639b92e6ebb65e5f2d8504f90dc25ff0bd02abcbe502c4e37), (0x0, 0x0))),
  (1, ((0x87df4279d8bf5f09e0018e4702d2b28e889013dff92835b40b8e5bb61fbce60, 0x2e66c219cd2256bce47472724730cb23eda4679bb450b2cc65fafffdc9b66b27), (0x1d3d93419c83ed4228a5897774af79274b712cef8172ada0f2cf62556e6ae171, 0x858460c48434d52f06a5c1f7a693b68759fbd935b1702c30cef248193c4a6a1))),
  (1, ((0x191657d2f625d2876c17a53e7715a1eea1de598c413a9ee1f07f37be48deb68c, 0x2c4c3198553351491ca59d7774c4c7a0b917faea900dbe8ec0c506ea145ba104), (0x21fd58120ed6dea493646fa324c8a834d54560889382a1d63faf72653e268d94, 0x125d5e16bec7a9b1e76b430025d79c03cc15fb95e1c9aff7dfe03ea9d735d479))),
  (0, ((0x290bdaf3b9a08dc39c7962eb8bbeb95a9ca7cf50feebe92941f95b6ea1d095bb, 0x2c18bb4bdc2e9567b1d69e17b4b5ebf64f0d51e1686cfa11c9d4b93675495599), (0x0, 0x0))),
  (0, ((0x268af1e285bc59ff651b2c6b8c292020817a633f830d777c19040571a1d72fd0, 0x12a1fa7e3b369242540ff96bae21cd8b9ae5438bede78baa381c5bce077f443d), (0x0, 0x0))),
  (-1, ((0x2c64ec81736321ee9e00376a8e9071f5ec01ddc04847fc7b2a8b63e1252d33c8, 0x8a75c4d7de5433ea8eeecd3d449e8e142ac20ab09157d7b29cea0f32a8c10c6), (0x10f5a155018003007e5b599767a1ba40a3d50747140a2e212ec2e9b0284fc029, 0x29f662322f36cfdd9fe7581aa514bb6f158632e69aaefcaf4b88b4bb9fb60279))),
  (0, ((0x110a314a02272b1734eba2621918a820ae44684a4058149e82ea51362b79be4, 0x19aa27f34ab03585409c246f762c0126a1b3b7b7e2b43963ef5055df3c249613), (0x0, 0x0))),
  (0, ((0x24134eb915104f4329ed43453f9a008d9176f00429bd4381ae4afc677ee37ed6, 0x19ac61eea40a367cab3bbde5f7bbb4df6a6b5c1981597f82bb67e90a3e72bdd2), (0x0, 0x0))),
  (0, ((0x6a38256ee96f113ab7f7dcd1ac32b86979471cfd1464269bbeafa546f559b8f, 0x1b1e60534b0a6aba350aff9be6f9652ad441a3adf14d50984e65f9bc41df4e7e), (0x0, 0x0))),
  (0, ((0x1ee364e12321904a0ec67b5fc9ea414a4020135fe0115a79120ae892a72f3dcb, 0x154877b2d190899557ffe0951f863dd0c1c2e97aa74d09666f9429c1f2041cd9), (0x0, 0x0))),
  (0, ((0x2a20f4565b7ff885fbf162264ca04ee50c70bde8e7c658aecdab4db3c83f7927, 0x27836373108925d49acdd892c48c08de047296bc45b1c2f0a1226361f42683c0), (0x0, 0x0))),
  (1, ((0x926bf992f3435b23af42a1291ba5664eccb213bb54615a75c5dd7018b27f85f, 0x2a1daf2ff030744c3a94836b4fe4ca42640266c4dfaa159c9cb9478084e9b3f2), (0x141306be18b98f72e04f9f0b5dc55e0466d590f0175ff1a8fb1f884a1c64d648, 0x11c4f4110d6de8d80af29f2e4244faf68ed0920183cdac938518421c4ba1bbdd))),
  (0, ((0x14d9838e7d1918bbf71a330019414e6fdee75700ddb4db99db681d35f71a159c, 0x7b6d981259cabd99fc93f8da38ecc2957313982203c8bac71951a5f2c653710), (0x0, 0x0))),
  (0, ((0x3d36e11420be053dc59d087c627d38334e5b969b0f04df9dec94801e48a6ff7, 0x2a2354b2882706a6ff849fcbbbe7c00c83ab5282c80f070001aa1586189e0215), (0x0, 0x0))),
  (-1, ((0x6d1faed8fb8fa9f0546c2b2e8470ae9245a4fdb2ca18b782d4cada0e8f4e370, 0x2b73fe4acb5ae0f80ba0d4352d014164e91faa625c92cad98c345b6922044040), (0x11be202bb90108748f635490979317083c1e3f0c36a76b53bd36fb441d003771, 0x14afbd1dd6381914df639a935b537a640ba48b7bdd2f49bb484579f8581f5e94))),
  (0, ((0x1b0cb1e2b5871263e1072c9a16f202ecf37fbc34a576408f8300de3a7714e6ae, 0x36ecc5dbe069dca54bea71957426f002508f7152128e2314694b663286e231e), (0x0, 0x0))),
  (0, ((0x82220659093d80bc0317843d7287bb52dbe5cefd9b3e0be3eaeb4c167709bcd, 0xac75daf6572f9cfef14cc703dfbf52a686949e93c73867a67adb04d3927aa05), (0x0, 0x0))),
  (1, ((0x1d898642fdf12b3d371c2b015cb23d0b5a63550b93c84845c1517ae7af315f, 0x1350ae329add29d769ca661d7398cf7aa2bea09b51b77253c0789e2c8f22d8d5), (0x21b34e46ccf396d43b506844dce1ba040b07bd6aa5a5da3b2f13b968a662ce03, 0x16a5d17b3c5936c0d3275eb7a79fa4380f4ab8017a1e5cc8e97e89a9c8acff51))),
  (1, ((0x2dd7f7421122e45686aa92984755f4ac0c960b3e405f09755047fffddd278d, 0xfc0fd11d282d40c30c6591e550da3ad3f698fece59b12ee539ea1e4e1186898), (0x2282b3b2eaa158fb173d81387104a8eb5c4f8cb8781d1635b8ab594e59cf6768, 0x2ce6586967686f9666d2746205c19f7388408eced24a4427b22c8cb67d0e836a))),
  (1, ((0xd225aa0be0e830121acc7dbc91dcf5c12c01ccd472ceeabc1e73b7871721631, 0x98144c835b2aa8baddd8280bb29c1aa99d38da79226ea25a54dac0a07d5aa56), (0xdc85b174385056c8e5ae0b21893a0038a9354be284519ad38492f78e2e4ba60, 0xd3d782bac58a294bae73ab32b32d997a020722f3b80e9f14fc100579ed0a062))),
  (0, ((0x100aa83cb843353efed2ea478e9a2210289079e2386d7b23c6dccb87637018c9, 0x1778918279578f5028110670fe1d38c53ffcc6f7229c5c285f049d04c3dc5ce7), (0x0, 0x0))),
  (0, ((0x16ec42b5cae83200d0cecf5c5f80926c77fd487088ca191d85be1f6c205257ef, 0x2d47a47da836d1a7564f6bebac05a4f3fb1353ac154cba82460752b94916186d), (0x0, 0x0))),
  (0, ((0x125c3bbdeb0bd2dad2439bf7b00bddc4cfb01b0c2fdc574c85cf0c0ce5e07a51, 0x2ce5e2e263725941495c01724790853548f5e4de9d664714bae53cafcb5ef55d), (0x0, 0x0))),
  (0, ((0x78ddc4573fc1fed2b8610c44d27bdbc6ba2aac5eec2912e15f6bda39d4e005e, 0x2c9ffe6d7d7e96315fe937100967d5cc544f4af148099a0da11ea21de015229d), (0x0, 0x0))),
  (-1, ((0x1ca4adf082fcb32e3f3a05078ae5675436a23ea3cb45864b47204ed8ab96ac91, 0x2f8594a6c2872014adc6e533fb28553453a2b18794098c6e940dfa8cc7d2f515), (0x16cb82e7e26b0e4c4154e148ed5d104ff20ca5b4cfa7caaaf6dc17ec4a873e4f, 0x13a8814c16ce3011f0aac9fbd129daeb91ec13a1b5803cbd06811a3085cc0092))),
  (0, ((0x299f578d0f3554e6a6ceba62ef334e6fe91301d565b71fe695e7ccd4b460dace, 0x6a7f9df6f185bf82095020d373a14d7967797aaaf781dd030a274e7ecf0cfa4), (0x0, 0x0))),
  (1, ((0xb17f984b8acf01e98e97843e169a3ce5b83f929c465e4fc7094d3bb795a11dc, 0x231fcc7029c0cb6b68e5f623a04fbf2c8fda14bcb56c9b08e36a8ada758fed06), (0x76169b09672e2edcd4290dbd2deb2d2b9dcba33519d3f6f5865e842e10c8f97, 0x34a6b061aa82776a7b7fccd8a084bdb79908606f624c6cf63118f4925964659))),
  (0, ((0x25e47927e92df0e3c90a8c79fb045c5468f14151b15bbaec50ff49d30e49f74a, 0x2d7f5e6aff2381f6ea5265282e2139c48c1953f257f66909d5d40dfb8c7b4d5c), (0x0, 0x0))),
  (0, ((0x32445cc6972799c9bc8ce4f56423009710770e89214fc3209f1518b05fd21c6, 0xf7a814d5726da4ace5a741a9847a144cfaf8c9693ef401ecd9cfae3644d22e6), (0x0, 0x0))),
  (-1, ((0x29e7694f46e3a272859afa9c7668ed6152d8cba398d8b0c4adcf27bceb305c2c, 0x12ca77d3fb8eee63d002d93ad793e154afe5b49b1d970845365594307ba97556), (0x2f5f1b92ad7ee4d44c9bf66853f1b287015ab84c64d864643668392c0e357cc4, 0x2358d94a17ec2a4451cc07c7ef28e1b8d934bc32dc33c8da5c575eef6987a0e1))),
  (0, ((0x1041ce2a69a3b159aff8f23b3fb6edb0564505e3285d1a4e8448d130b810483b, 0x25ba1c9971dad76efa8f119e473b804de4e9ef4fce1f94e9ed8d785b220e2a2b), (0x0, 0x0))),
  (1, ((0x20345595b39dfc2ff7bd18ae717dba6bd7ceabcef5ff06be8dc62128845219f3, 0x142ecb50f4f6b45f6f2c95ad247ec5b5b17889700fb6454a07fe2b8e89b39d2e), (0x162fe03c0ed7113f2bcf7a50c0f6c2aa72ff5c86d57605dd199f76e774c342ef, 0x11289ee70d449ac9977892f0e61476fbee7952d5b23c2b98be84061f4f5e6f4c))),
  (1, ((0x28a68cba13375a69bfd5d9babe4e18c1c5d72e893d446112a7be8a43998da4b1, 0x2b221f44d81ce3e4e6cc25fc149ca282545e20e486ae46f00d672a00d93e877f), (0x9b328c5cd4f4c003cab83a332a46f6ba68bc25623dc7f5a030918872b78c869, 0x9ad4bd05b6c3be6957060ccaa0f2da6575cd52e491c3e17f1c3c0af7d1493c2))),
  (0, ((0x1043b711f86bb33f53578c46b15abb39da35a56e348e15357d9299e582033136, 0x121e2d845d97269577012a4bb8751322a406024d9fa230a629b75217f0518e7c), (0x0, 0x0))),
  (0, ((0x2feaf1b1770aa7d8163c0425f66ce72daef2f53ea9e2efa41aaa98ab59728940, 0x1af2071ae77151c3ee5cb42e8b2bc999e312e0323bb7afd3c0a79b6ac2c4c063), (0x0, 0x0))),
  (1, ((0x1f2254c983599af8a6740421ce8f158f21b76b1fb3842f03e8cca77ed4456608, 0x267f02cf1956d1316a0e141e993c3c1dc953462cdbc0b4d2edb3b8ca4a4e2c18), (0x27a9769def120a91cee574580d5d98556d6d717413feb14ffebbc11e465b5c32, 0x2b2d961e785a41233ef3bcbe65c0cfe79da0c5e96652f8d5608849694e41603f))),
  (0, ((0x1ed60e5a5e778b426201d08440b28ea672b9ea93b9f05ffda3ee208f990ff3a8, 0xd1342bd01402f297888fa8b2850a0c555adb7438e8468b937854c9c00582d36), (0x0, 0x0))),
  (0, ((0x1f931e8e4343b0289233e2a95d3f3c3ff2f7e5b8e67f72c6d45f1bb04403139f, 0x1c9759def8a98ea8d99b6637ee9c73150b503ea420ef53907af71803ce3ca5ca), (0x0, 0x0))),
  (-1, ((0x15bf8aa8ed1beff6e6ca73a5498e4ccd4bb68fc76d6138c95464e5e774ae7ba0, 0x2df4a03e2588a8f1e69dd725ccc4f9dd537fe558abd7c55a134ed405b4966d3c), (0x8332e08b2eb51ed4061c36b08d5bcd408b14f199812f6145cf7e949fa207f20, 0x2acd1052fd0fefa7b71fabbdc78b1128712d32a50a4a7ae8f65ba180c523cb33))),
  (1, ((0x11c8e010353c3c1a840af44b88221d2ce08968a805279a901d2c27aff98d3e29, 0x14d55c42d3cf965ba6fa2d5cb2311e34d690bee23546db723de0f170aeaa5013), (0x2004857574c138f9e922986a112b6fd4e955559ff970f84a0f8cc6cccf27e8cb, 0x1eba5c859e534a1311b9d2964f7b0a92803ef49151ccc8d6d271a15de4bb393e))),
  (0, ((0x59009c5cf9ea66361f8c0bc7f60ad6415d5e419ce78fc6505db036c10fac771, 0x23f97fee4deda847317af5815ce5bfffc5a6bc97b3b3f697fc34d64ba053b914), (0x0, 0x0))),
  (0, ((0x2dc9f32c90b6ba3178b54b355e3c26476b0fab8272548e0d946b796842cfecd8, 0x142111e6a73d2e82d708fde97241095833ce5a08a943be83a6fc90414320753b), (0x0, 0x0))),
  (-1, ((0xe39e04564fedd0fb96092ab69fc530e27d8d8e1422e11013fe6cdd7f843391, 0x10ddd4f47445106b805257d3c2bdbc344a15ce0dbd4e81e3b4db192e11192788), (0x1366d12ee6022f7bdcffb65f4b4c21ced6b623af49173a889c697b0ab07f35bc, 0x21c91fefaf522b5fae9358c8eaf26e2fed7353f5285fdce362f7a79b89c49b5c))),
  (0, ((0x20edfb4c3eb32f52b0d72c10d07a8d407754b5cfe75a152a0ead18c25282c6d3, 0x1d47df2cd9d145c0f8c146fa613ae972f25797789e44d92fd4662163c09e342a), (0x0, 0x0))),
  (1, ((0x2c1b731efdde110430a3dae8f1b7feea18bd459342d50f87c5190e5b9c54e8b8, 0xa8b49c9032dde387e012bedaf07884805eeb65ec9dc73bd181b1fa31ea35921), (0x2e1946e9dc8044d7b35424ba3c0f8ef7d3e9068106a21c4d6b9fe7ab67715802, 0x28a382d361c558e672b1bc1b77fbc13bbf0d5ac3e63bdd896e35db30d332284c))),
  (0, ((0x249ed86afb7fbc7ec0df4c1538f98cc89c66ef7ef2f6957c2aef822e7c699093, 0x1c43fd864769a2a9fc2a7b1769f1e083d5cbcc84624bc714deaba06fc4e892df), (0x0, 0x0))),
  (1, ((0x19b2a40afc41414c249d4ec8c2f3100eb7af161fffb70a614110ecb05bea6b49, 0x39a425164665132e666266a2d004be9b2d4057c615271ba26c0eca13704acd5), (0x113c622637e07a6a54e2e48f355c70d6b75a8d7340a6e599d97cc9375ab95973, 0x16f8e70b657b3a8c60f98b28a65dc63c91def42bf624320be2445ae991f83bc7))),
  (0, ((0x2017052c72360f42ea91f311da73327e2ed407851c4759bcf7c607fe3f839d4d, 0x1795549eb0b97783fc9047885996c19e84d7d4ea38cf8a4368c0709980199fc3), (0x0, 0x0))),
  (0, ((0x26bebeb6f46c2e8cdf0506dad3f3d098c13a6386c648054e4b6134bbfd68487f, 0x1127d8b17ef2c064303f02dfe619752b1607951d9d0cdb28a94204776c6e6ba6), (0x0, 0x0))),
  (0, ((0x1bb17a4bc7b643ed60ed5b9c207d7f31fb6234ab72cc2cef2785ce4ff4e9b7af, 0x2b9a3a63bbf4af99a0e33edbbaa9de8e9c2060599424eb15b502cde7927c7530), (0x0, 0x0)))]

/-- `ξ^((q - 1) / 6)`. -/
def genFrob : ℕ × ℕ := (0x1284b71c2865a7dfe8b99fdd76e68b605c521e08292f2176d60b35dadcc9e470, 0x246996f3b4fae7e6a6327cfe12150b8e747992778eeec7e5ca5cf05f80f362ac)

theorem genFrob_eq : q2 genFrob = frobC 1 := by
  have h : genFrob = q2pow (9, 1) sixthBits := by decide +kernel
  rw [h, frobC_q2]

/-- The Miller value of the generators. -/
def genF : Q12 := ⟨
  (0x2aa64d9296b4168edc1a65fcf17f49950451b94cc07ccae24ed56d4eef02390, 0x30052470e0cd674a6c79dbc49bb8e977dce238142efe068b4e71696108a845ac),
  (0x1bb24f0e9243b9d163c3ed0258a7933d233e4616d762c05f351516881c672251, 0x1191fc4192eca20b5650e3143496098fe66dea3fa8a585b80d1e660a628711a5),
  (0x24f38264654aaff73fbd422cd8ce74d7b6dda81df726b35ec7ec33405ecf72fc, 0x1f140f8d2180bbbf811cd5b640ba4f22edd87622578be351e97c90fc8aa8b00),
  (0x1c198047725a1f5db38a0f2d54321490b1dcd1fa7c7ff159deea702c3ef21772, 0x1d94666c6622e501b6d415340acbc42ce046f9992849b68d7a993fcfda016346),
  (0x227a767b158c47bf574ba931e7c653e71f9278a26b000807c3990084fa4db17f, 0x229e15c1f9b0c614e1204c49c46df1c515100c7806d4e15905afa0bad2ec0723),
  (0x1a5c3c917fe47a99dd3aaf57a910272c8e6deed899c700efa91d03a9df45d18d, 0x2777027a464718a1b1ac92f4a56f70e06f8a8623d61dee0c4885b7c20b0817e9)⟩

/-- The whole Miller loop. -/
def ateC (g : ℕ × ℕ) (l : ℕ × ℕ) (cs : List (ℤ × (ℕ × ℕ) × (ℕ × ℕ))) (G : QPt) : Option Q12 :=
  (millerC G (qNeg G) cs q12one G).bind fun st => ptForce (qFrob g G) fun F => ptForce (qNeg (qFrob g F)) fun F2 =>
    (qAdd l st.2 F).bind fun R => ptForce R fun R => q12force (q12mul st.1 (chordC st.2 F)) fun f => some (q12mul f (chordC R F2))

theorem ateC_spec {C : G1} (hC : IsPt (3 : ZMod bn254Q) ((1 : ℕ) : ZMod bn254Q) ((2 : ℕ) : ZMod bn254Q) C) {A : G2} {G : QPt}
    (hG : AtPt G A) {g l : ℕ × ℕ} (hg : q2 g = frobC 1) {cs : List (ℤ × (ℕ × ℕ) × (ℕ × ℕ))} {f : Q12} (h : ateC g l cs G = some f) :
    ateMiller (cs.map fun c => c.1) A C = q12 f := by
  unfold ateC at h
  obtain ⟨⟨f1, R1⟩, h1, h⟩ := Option.bind_eq_some_iff.1 h
  rw [ptForce_eq, ptForce_eq] at h
  obtain ⟨R, h2, h⟩ := Option.bind_eq_some_iff.1 h
  rw [ptForce_eq, q12force_eq] at h
  obtain ⟨e1, e2⟩ := millerC_spec hC hG (qNeg_spec hG) cs q12one G A f1 R1 hG h1
  rw [q12_one] at e1 e2
  have hF := qFrob_spec hg hG
  have hF2 := qNeg_spec (qFrob_spec hg hF)
  have hR := qAdd_spec e2 hF h2
  unfold ateMiller miller
  dsimp only
  rw [e1, chordC_spec hC e2 hF, chordC_spec hC hR hF2, ← q12_mul, ← q12_mul]
  cases h
  rfl

theorem ate_gen_run : ateC genFrob (0x2c72c82fa8afe345717f8b10d469a1ee2d91f191f2d619ae78049bf9141c35cf, 0x2c13b92a9865149271506a0cf4adb8e51bb7b759b89321223b82a2dc793c0185) genCert g2Gen = some genF := by decide +kernel

theorem genCert_digits : genCert.map (fun c => c.1) = ateDigits := by decide +kernel

/-- The generators. -/
structure Gens (A : G2) (C : G1) : Prop where
  hA : IsPt g2B (q2 g2Gen.1) (q2 g2Gen.2) A
  hC : IsPt (3 : ZMod bn254Q) ((1 : ℕ) : ZMod bn254Q) ((2 : ℕ) : ZMod bn254Q) C

theorem fAte_gen {A : G2} {C : G1} (h : Gens A C) : fAte A C = q12 genF := by
  unfold fAte
  rw [← genCert_digits]
  exact ateC_spec h.hC h.hA genFrob_eq ate_gen_run

/-! ### The easy part -/

/-- The power `q⁶ - 1` of the Miller value. -/
def genY0 : Q12 := ⟨
  (0x2165d35e0b541ff3d53b6f3fe841c49a4dcb021549d26f7b503f5a60d017f5bc, 0x1f3178f91b195aceec83acdb08d3221a5dcb813b3aedc138880098bd8b8213da),
  (0x1d363407caa8347a63a8e8add69eaa278da5a4bd33f7081560b079aae39cccf3, 0x1c5c9cf4c7c4652bb9aebbe5894e1fe44384e38f7d1c9df9f16eaa85e30f618),
  (0xbe7db88d7f6a3cb5dabc7c1dbf00da113596aa92ff3a965d48ac099aa4fb569, 0xa6bf4b58355d589d6d646ef6ad4a01720fbb6582e0aefdd31f38919a6ad20cc),
  (0xb875b3b8a127358e2396396e876b4b5263c6a03dd71e39c56dafbe4b20d598, 0x6bc2600dff546a436731ae4cdeef245d9839003f4277c7ef2e7797044f0503c),
  (0xff2ee2231d2e6bf3d326ad64e5e307b88ad293580797ebbd41124e25a69c456, 0x5b1db2eaf1c41db49b44bb2b116569fada639f373890a7c673a0ff6d8fbedb1),
  (0x110cb16ae0d31158d5083634511b3871b96e5fd8513a62a1d6fe889296ec2464, 0x103ee664069c8d401704eaba9b8423f304cb79e5ab005488d795747f34427874)⟩

/-- The easy part of the Miller value. -/
def genY : Q12 := q12mul (q12frob2 (zetaN, 0) genY0) genY0

theorem easy_gen {A : G2} {C : G1} (h : Gens A C) : fAte A C ^ ((bn254Q ^ 6 - 1) * (bn254Q ^ 2 + 1)) = q12 genY := by
  have h0 : fAte A C ≠ 0 := fAte_ne (g2Gen_inG2 h.hA) h.hC.ne_zero
  have e : q12mul genY0 genF = q12conj genF := by decide +kernel
  have e1 := congrArg q12 e
  rw [q12_mul, q12_conj, ← fAte_gen h] at e1
  have hq : bn254Q ^ 6 = bn254Q ^ 6 - 1 + 1 := (Nat.sub_add_cancel (Nat.one_le_pow _ _ (by decide +kernel))).symm
  have e2 : q12 genY0 = fAte A C ^ (bn254Q ^ 6 - 1) := by
    refine mul_right_cancel₀ h0 ?_
    rw [e1, ← pow_succ, ← hq]
  unfold genY
  rw [q12_mul, q12_frob2 q2_zeta, ← pow_succ, e2, ← pow_mul]

/-! ### Powers -/

theorem decOk_of {a : Q12} (h : q2sub a.c4 (0, 0) ≠ (0, 0)) : DecOk (q12 a) := by
  intro a0 a1 a2 a3 a4 a5 hX h4
  have := (e6_inj hX).2.2.2.2.1
  have h' := q2_ne h
  rw [q2_zero] at h'
  exact absurd (this.trans h4) h'

/-- The powers of `y` along signed digits; fails if a power which would be decompressed is exceptional. -/
def decLoop (y yi : Q12) : List ℤ → Q12 → Option Q12
  | [], acc => some acc
  | z :: zs, acc => q12force (q12mul acc acc) fun a2 =>
    if z = 0 then decLoop y yi zs a2
    else if q2sub a2.c4 (0, 0) = (0, 0) then none
    else if z = 1 then q12force (q12mul a2 y) (decLoop y yi zs)
    else if z = -1 then q12force (q12mul a2 yi) (decLoop y yi zs)
    else none

theorem decLoop_spec {X : Fq12} {y yi : Q12} (hy : q12 y = X) (hyi : q12 yi * X = 1) : ∀ (zs : List ℤ) (n : ℕ) (acc r : Q12), 1 ≤ n →
    q12 acc = X ^ n → decLoop y yi zs acc = some r → (∀ e ∈ decAt n zs, DecOk (X ^ e)) ∧ q12 r = X ^ (hv n zs).toNat := by
  intro zs
  induction zs with
  | nil =>
    intro n acc r hn ha h
    cases h
    refine ⟨by simp [decAt], ?_⟩
    rw [ha]
    rfl
  | cons z zs ih =>
    intro n acc r hn ha h
    rw [decLoop, q12force_eq] at h
    have h2 : q12 (q12mul acc acc) = X ^ (2 * n) := by rw [q12_mul, ha, two_mul, pow_add]
    have hX0 : X ≠ 0 := by
      rintro rfl
      rw [mul_zero] at hyi
      exact zero_ne_one hyi
    split at h
    · rename_i h0
      subst h0
      have := ih (2 * n) _ r (by omega) h2 h
      rw [decAt, if_neg (by simp), List.nil_append]
      have e : (2 * (n : ℤ) + 0).toNat = 2 * n := by omega
      rw [e]
      refine ⟨this.1, ?_⟩
      have e' : hv (n : ℤ) (0 :: zs) = hv ((2 * n : ℕ) : ℤ) zs := by
        show hv (2 * (n : ℤ) + 0) zs = _
        congr 1
      rw [e']
      exact this.2
    rename_i h0
    split at h
    · simp at h
    rename_i hc
    have hd : DecOk (X ^ (2 * n)) := by
      rw [← h2]
      exact decOk_of hc
    have key : ∀ (m : ℕ), (2 * (n : ℤ) + z) = m → ((∀ e ∈ decAt m zs, DecOk (X ^ e)) ∧ q12 r = X ^ (hv m zs).toNat) →
        (∀ e ∈ decAt n (z :: zs), DecOk (X ^ e)) ∧ q12 r = X ^ (hv n (z :: zs)).toNat := by
      intro m hm hr
      rw [decAt, if_pos ⟨by omega, h0⟩, hm, Int.toNat_natCast]
      refine ⟨?_, ?_⟩
      · intro e he
        rcases List.mem_append.1 he with he | he
        · rw [List.mem_singleton.1 he]
          exact hd
        · exact hr.1 e he
      · have e' : hv (n : ℤ) (z :: zs) = hv (m : ℤ) zs := by
          show hv (2 * (n : ℤ) + z) zs = _
          rw [hm]
        rw [e']
        exact hr.2
    split at h
    · rename_i h1
      rw [q12force_eq] at h
      refine key (2 * n + 1) (by rw [h1]; push_cast; ring) (ih _ _ _ (by omega) ?_ h)
      rw [q12_mul, h2, hy, pow_succ]
    · split at h
      · rename_i h1
        rw [q12force_eq] at h
        refine key (2 * n - 1) (by rw [h1]; push_cast [show 1 ≤ 2 * n by omega]; ring) (ih _ _ _ (by omega) ?_ h)
        rw [q12_mul, h2]
        refine mul_right_cancel₀ hX0 ?_
        rw [mul_assoc, hyi, mul_one, ← pow_succ]
        congr 1
        omega
      · simp at h

/-- The digits of the curve parameter below the leading one. -/
def xDigits : List ℤ := (((Naf.getNaf [bnX]).getD []).reverse.dropWhile (· == 0)).drop 1

theorem xDigits_exps : bnXExps = decAt 1 xDigits ∧ hv 1 xDigits = bnX := by decide +kernel

/-- Three rounds. -/
def hardC (y : Q12) : Bool :=
  match decLoop y (q12conj y) xDigits y with
  | none => false
  | some y1 => match decLoop y1 (q12conj y1) xDigits y1 with
    | none => false
    | some y2 => (decLoop y2 (q12conj y2) xDigits y2).isSome

theorem decRound {X : Fq12} (hc : InCyc X) {y r : Q12} (hy : q12 y = X) (h : decLoop y (q12conj y) xDigits y = some r) :
    (∀ e ∈ bnXExps, DecOk (X ^ e)) ∧ q12 r = X ^ bnX := by
  have hi : q12 (q12conj y) * X = 1 := by
    rw [q12_conj, hy]
    exact hc.conj
  have := decLoop_spec hy hi xDigits 1 y r le_rfl (by rw [hy, pow_one]) h
  rw [xDigits_exps.1]
  refine ⟨this.1, ?_⟩
  rw [this.2]
  have e : hv ((1 : ℕ) : ℤ) xDigits = bnX := xDigits_exps.2
  rw [e, Int.toNat_natCast]

theorem hardC_spec {X : Fq12} (hc : InCyc X) {y : Q12} (hy : q12 y = X) (h : hardC y = true) : HardDec X := by
  unfold hardC at h
  split at h
  · simp at h
  · rename_i y1 h1
    obtain ⟨a1, a2⟩ := decRound hc hy h1
    split at h
    · simp at h
    · rename_i y2 h2
      obtain ⟨b1, b2⟩ := decRound (hc.pow _) a2 h2
      obtain ⟨y3, h3⟩ := Option.isSome_iff_exists.1 h
      obtain ⟨c1, c2⟩ := decRound ((hc.pow _).pow _) b2 h3
      intro i hi e he
      rcases (show i = 0 ∨ i = 1 ∨ i = 2 by omega) with rfl | rfl | rfl
      · rw [pow_zero, one_mul]
        exact a1 e he
      · rw [pow_one, pow_mul]
        exact b1 e he
      · rw [pow_two, pow_mul, pow_mul]
        exact c1 e he

theorem hardDec_gen {A : G2} {C : G1} (h : Gens A C) : HardDec (fAte A C ^ ((bn254Q ^ 6 - 1) * (bn254Q ^ 2 + 1))) := by
  have h0 : fAte A C ≠ 0 := fAte_ne (g2Gen_inG2 h.hA) h.hC.ne_zero
  exact hardC_spec (InCyc.easy h0) (easy_gen h).symm (by decide +kernel)

/-! ### The pairing is not degenerate -/

def powC (y : Q12) : List Bool → Q12 → Q12
  | [], acc => acc
  | b :: bs, acc => q12force (q12mul acc acc) fun a2 => if b then q12force (q12mul a2 y) (powC y bs) else powC y bs a2

theorem powC_spec {X : Fq12} {y : Q12} (hy : q12 y = X) : ∀ (bs : List Bool) (n : ℕ) (acc : Q12), q12 acc = X ^ n →
    q12 (powC y bs acc) = X ^ bs.foldl (fun n b => if b then 2 * n + 1 else 2 * n) n := by
  intro bs
  induction bs with
  | nil => intro n acc h; exact h
  | cons b bs ih =>
    intro n acc h
    have h2 : q12 (q12mul acc acc) = X ^ (2 * n) := by rw [q12_mul, h, two_mul, pow_add]
    rw [powC, q12force_eq, List.foldl_cons]
    cases b
    · rw [if_neg (by simp), if_neg (by simp)]
      exact ih _ _ h2
    · rw [if_pos rfl, if_pos rfl, q12force_eq]
      refine ih _ _ ?_
      rw [q12_mul, h2, hy, pow_succ]

def hardBits : List Bool := (List.range 762).reverse.map fun i => hardE.testBit i

theorem hardBits_eq : hardBits.foldl (fun n b => if b then 2 * n + 1 else 2 * n) 0 = hardE := by decide +kernel

theorem eAte_gen_val {A : G2} {C : G1} (h : Gens A C) : eAte A C = q12 (powC genY hardBits q12one) := by
  rw [powC_spec (X := q12 genY) rfl hardBits 0 q12one (by rw [q12_one, pow_zero]), hardBits_eq, ← easy_gen h, ← pow_mul, ← finalE_eq]
  rfl

/-- The pairing of the generators is not `1`. -/
theorem eAte_gen_ne_one {A : G2} {C : G1} (h : Gens A C) : eAte A C ≠ 1 := by
  rw [eAte_gen_val h]
  intro h1
  have hc : q2sub (powC genY hardBits q12one).c1 (0, 0) ≠ (0, 0) := by decide +kernel
  have h' := q2_ne hc
  rw [e6_one] at h1
  rw [q2_zero] at h'
  exact h' (e6_inj h1).2.1

end H2
