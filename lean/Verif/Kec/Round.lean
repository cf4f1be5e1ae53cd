import Verif.Kec.Chi

/-!
# One round
-/

set_option autoImplicit false
set_option linter.unusedSectionVars false
namespace H2.Kec
open H2.Sha (Z Z_append Z_gate Z_cond Z_gate1 Z_reqEq Z_reqZero Z_reqBool Z_flatMap ind_eq_zero ind)

variable {p : ℕ} [Fact p.Prime] {k h n : ℕ} {a : Adv (ZMod p)}

/-! ### Fixed columns -/

theorem fix_round {F : Type} [Field F] (hh : 1 ≤ h) {R : ℕ} (h1 : 1 ≤ R) (hR : R < 1 + n * 25) (i : ℕ) (hi : i < h) :
    fixedCols h n ((R * h + i : ℕ) : ℤ) = (fixRound ((R - 1) % 25) i : Fix F) := by
  have := row_lt (rot := i) hR hi
  unfold fixedCols
  rw [if_pos (by constructor <;> omega), Int.toNat_natCast]
  unfold fixAt
  have h2 : h ≤ R * h := Nat.le_mul_of_pos_left h (by omega)
  rw [if_neg (by omega), mul_comm, Nat.mul_add_div (by omega), Nat.div_eq_of_lt hi, Nat.mul_add_mod, Nat.mod_eq_of_lt hi, Nat.add_zero]

theorem fix_bs {F : Type} [Field F] (hh : 1 ≤ h) {R : ℕ} (h1 : 1 ≤ R) (hR : R < 1 + n * 25) :
    fixedCols h n (bs h R) = (fixRound ((R - 1) % 25) 0 : Fix F) := by
  have := fix_round (F := F) hh h1 hR 0 (by omega)
  rw [Nat.add_zero] at this
  exact this

theorem fix_dummy {F : Type} [Field F] {i : ℕ} (hi : i < h) : fixedCols h n (i : ℤ) = (fixDummy i : Fix F) := by
  have : i < numRows h n := by
    have := row_lt (n := n) (R := 0) (rot := i) (by omega) hi
    rwa [Nat.zero_mul, Nat.zero_add] at this
  unfold fixedCols
  rw [if_pos (by constructor <;> omega), Int.toNat_natCast]
  unfold fixAt
  rw [if_pos hi]

theorem sat_gates (hs : KecSat k h n a) (hh : 1 ≤ h) {R : ℕ} (hR : R < 1 + n * 25) : Z (gates k h (layout k h) (fixedCols h n) a (bs h R)) := by
  have := (hs (R * h) (by have := row_lt (h := h) (rot := 0) hR (by omega); omega)).1
  exact this

theorem sat_round (hs : KecSat k h n a) (hh : 1 ≤ h) {R : ℕ} (h1 : 1 ≤ R) (hR : R < 1 + n * 25) (ht : (R - 1) % 25 < 24) :
    let L := layout k h
    let r := bs h R
    decode (partsOf a r (partSizes (ps3 k) 0 false) L.absorbFat) = a.val r L.absorbFrom + a.val r L.absorbData ∧
    decode (partsOf a r (partSizes (ps3 k) 0 false) L.absorbRes) = a.val r L.absorbResult ∧
    decode (partsOf a r (partSizes 8 0 false) L.packed) = a.val r L.absorbData ∧
    (∀ i, i < 5 → decode (partsOf a r (partSizes (ps6 k) 1 false) (L.cParts.getD i [])) =
      sAt L a r i 0 + sAt L a r i 1 + sAt L a r i 2 + sAt L a r i 3 + sAt L a r i 4) ∧
    (∀ x, x < 25 → Z (splitUniGates (a.val r) (L.uparts.getD x []) (rhoAt (x % 5) (x / 5)) (ps5 k) (sAt L a r (x % 5) (x / 5) + thetaT k L a r (x % 5)))) ∧
    decode (partsOf a r (partSizes (ps3 k) 0 false) L.iotaFat) =
      chiOut k L a r 0 0 + ((packU64 (ROUND_CST.getD ((R - 1) % 25) 0) : ℕ) : ZMod p) ∧
    (∀ i, i < 5 → ∀ j, j < 5 → roundOut k L a r i j = sAt L a (bs h (R + 1)) i j) ∧
    decode (partsOf a r (partSizes 8 0 false) L.squeezePacked) = a.val r L.squeezeFrom := by
  intro L r
  have hz := sat_gates hs hh hR
  simp only [gates, Z_append] at hz
  have hz := hz.1.1.1.1.1.1.1.1
  rw [gRound, Z_gate] at hz
  have hz := hz.resolve_left (by rw [fix_bs hh h1 hR]; simp [fixRound, ind, ht])
  rw [fix_bs hh h1 hR, bs_succ] at hz
  simp only [Z_append, Z_reqEq, Z_flatMap, List.mem_range] at hz
  obtain ⟨⟨⟨⟨⟨⟨⟨e1, e2⟩, e3⟩, e4⟩, e5⟩, e6⟩, e7⟩, e8⟩ := hz
  exact ⟨e1, e2, e3, e4, e5, e6, e7, e8⟩

/-! ### Constants -/

theorem rhoAt_eq : ∀ i, i < 5 → ∀ j, j < 5 → rhoAt i j = rhoOff i j := by decide +kernel
theorem rhoAt_lt : ∀ i, i < 5 → ∀ j, j < 5 → rhoAt i j < 64 := by decide +kernel
theorem round_cst_eq : ∀ t, t < 24 → packU64 (ROUND_CST.getD t 0) = spread (RC t) := by decide +kernel

/-! ### The state -/

/-- The state cells of round `R` hold the state `A`. -/
def StIs (k h : ℕ) (a : Adv (ZMod p)) (R : ℕ) (A : St) : Prop :=
  ∀ i, i < 5 → ∀ j, j < 5 → sAt (layout k h) a (bs h R) i j = ((spread (A i j) : ℕ) : ZMod p)

theorem xor_toNat (x y : Bool) : (x ^^ y).toNat = (x.toNat + y.toNat) % 2 := by cases x <;> cases y <;> rfl
theorem toNat_le (x : Bool) : x.toNat ≤ 1 := by cases x <;> simp

theorem dig_spread_le (w : Lane) (b : ℕ) : dig (spread w) b ≤ 1 := by rw [dig_spread]; exact toNat_le _

/-- Sum of lanes, digit by digit (at most 7 lanes). -/
theorem dig_sum (l : List Lane) (hl : l.length ≤ 7) (b : ℕ) :
    dig ((l.map spread).sum) b = (l.map fun w => (w.getLsbD b).toNat).sum ∧ (l.map fun w => (w.getLsbD b).toNat).sum ≤ l.length := by
  have hle : ∀ (l : List Lane) (b : ℕ), (l.map fun w => (w.getLsbD b).toNat).sum ≤ l.length := by
    intro l b
    induction l with
    | nil => simp
    | cons w l ih => rw [List.map_cons, List.sum_cons, List.length_cons]; have := toNat_le (w.getLsbD b); omega
  refine ⟨?_, hle l b⟩
  induction l generalizing b with
  | nil => simp [dig_zero_left]
  | cons w l ih =>
    rw [List.length_cons] at hl
    rw [List.map_cons, List.sum_cons, dig_add, dig_spread, ih (by omega), List.map_cons, List.sum_cons]
    intro j
    rw [dig_spread, ih (by omega)]
    have := hle l j
    have := toNat_le (w.getLsbD j)
    omega

theorem sum_spread_lt (l : List Lane) (hl : l.length ≤ 7) : (l.map spread).sum < 8 ^ 64 := lt_of_dig fun j hj => by
  rw [(dig_sum l hl j).1]
  induction l with
  | nil => simp
  | cons w l ih => rw [List.map_cons, List.sum_cons, ih (by simp at hl; omega), BitVec.getLsbD_of_ge _ _ hj]; rfl

/-! ### Theta -/

theorem thetaC_bit (A : St) (x b : ℕ) : ((thetaC A x).getLsbD b).toNat =
    ([A x 0, A x 1, A x 2, A x 3, A x 4].map fun w => (w.getLsbD b).toNat).sum % 2 := by
  unfold thetaC
  simp only [BitVec.getLsbD_xor, xor_toNat, List.map_cons, List.map_nil, List.sum_cons, List.sum_nil]
  omega

theorem rotateLeft_bit (w : Lane) (s b : ℕ) (hs : s < 64) (hb : b < 64) : (w.rotateLeft s).getLsbD b = w.getLsbD ((b + 64 - s) % 64) := by
  rw [BitVec.getLsbD_rotateLeft, Nat.mod_eq_of_lt hs, Bool.cond_decide]
  split
  · congr 1; rw [Nat.mod_eq_of_lt (by omega)]; omega
  · rw [show b + 64 - s = b - s + 64 by omega, Nat.add_mod_right, Nat.mod_eq_of_lt (by omega)]; simp [hb]

structure GoodL (k h : ℕ) : Prop where
  hh : 1 ≤ h
  hk : Sizes k
  absorb : transOk (layout k h).looks h .norm3 (layout k h).absorbFat (layout k h).absorbRes = true ∧
    (layout k h).absorbFat.length = (partSizes (ps3 k) 0 false).length
  packed : transOk (layout k h).looks h .unpack (layout k h).packed (layout k h).inputBytes = true ∧ (layout k h).packed.length = 8
  theta : ∀ i, i < 5 → transOk (layout k h).looks h .norm6 ((layout k h).cParts.getD i []) ((layout k h).bc.getD i []) = true ∧
    ((layout k h).cParts.getD i []).length = (partSizes (ps6 k) 1 false).length
  rho : ∀ x, x < 25 → rhoShape (ps5 k) (rhoAt (x % 5) (x / 5)) ((layout k h).uparts.getD x []) = true ∧
    rangeOk (layout k h).looks h ((layout k h).uparts.getD x []) = true ∧
    transOk (layout k h).looks h .norm4 (((layout k h).uparts.getD x []).map UPart.out)
      (rpcWord (layout k h).rpc1 (64 / ps5 k) (x / 5) ((2 * (x % 5) + 3 * (x / 5)) % 5)) = true
  chi : ∀ q, q < 5 * (64 / ps5 k) → chiOk (layout k h).looks h ((layout k h).rpc1.getD q []) ((layout k h).rpc2.getD q []) = true
  iota : transOk (layout k h).looks h .norm3 (layout k h).iotaFat (layout k h).iotaRes = true ∧
    (layout k h).iotaFat.length = (partSizes (ps3 k) 0 false).length
  squeeze : transOk (layout k h).looks h .unpack (layout k h).squeezePacked (layout k h).squeezeBytes = true ∧ (layout k h).squeezePacked.length = 8

theorem GoodL.of (hg : Good k h) : GoodL k h := by
  obtain ⟨hh, h1, h2⟩ := hg
  simp only [lookGood, Bool.and_eq_true, beq_iff_eq, List.all_eq_true, List.mem_range] at h2
  obtain ⟨⟨⟨⟨⟨⟨⟨⟨⟨⟨g1, g2⟩, g3⟩, g4⟩, g5⟩, g6⟩, g7⟩, g8⟩, g9⟩, g10⟩, g11⟩ := h2
  exact ⟨hh, .of h1, ⟨g1, g2⟩, ⟨g3, g4⟩, g5, fun x hx => ⟨(g6 x hx).1.1, (g6 x hx).1.2, (g6 x hx).2⟩, g7, ⟨g8, g9⟩, ⟨g10, g11⟩⟩

theorem decode_rotParts (a : Adv (ZMod p)) (r : ℤ) (sz : List ℕ) (cells : List Cell) (c ps : ℕ) :
    decode (rotParts (partsOf a r sz cells) c ps) = ((decN (rotParts (sz.zip (cells.map (nv a r))) c ps) : ℕ) : ZMod p) := by
  rw [← decode_cast]
  congr 1
  have : partsOf a r sz cells = (sz.zip (cells.map (nv a r))).map fun q => (q.1, ((q.2 : ℕ) : ZMod p)) := by
    unfold partsOf
    rw [show cells.map (a.val r) = (cells.map (nv a r)).map (fun x => ((x : ℕ) : ZMod p)) by
      rw [List.map_map]; exact List.map_congr_left fun c _ => (cast_nv a r c).symm]
    rw [List.zip_map_right]
    rfl
  rw [this, rotParts, rotParts, rotR, rotR, List.length_map, List.map_append, List.map_drop, List.map_take]

/-- Rotating the parts of a word by one bit. -/
theorem rot1_nat {P M : ℕ} (hP : 1 ≤ P) (hm : P * M = 63) {ws : List ℕ} (lws : ws.length = M + 1) (b2 : ∀ v ∈ ws, v < 8 ^ P) {w : Lane}
    (c2 : decN ((List.replicate M P ++ [1]).zip ws) = spread w) :
    decN (rotParts ((List.replicate M P ++ [1]).zip ws) 1 P) = spread (w.rotateLeft 1) := by
  obtain ⟨ws', last, rfl⟩ : ∃ ws' last, ws = ws' ++ [last] :=
    ⟨ws.dropLast, ws.getLast (by intro h; rw [h] at lws; simp at lws), (List.dropLast_append_getLast _).symm⟩
  have lws' : ws'.length = M := by simpa using lws
  have hsz : ∀ s ∈ (List.replicate M P ++ [1]).dropLast, s = P := by
    rw [List.dropLast_concat]; intro s hs; exact List.eq_of_mem_replicate hs
  have dY : ∀ j, dig (spread w) j = dig ((ws' ++ [last]).getD (j / P) 0) (j % P) := fun j => by
    rw [← c2]; exact dig_decZ hP (by rw [lws]; simp) hsz b2 j
  have hdrop : rotParts ((List.replicate M P ++ [1]).zip (ws' ++ [last])) 1 P = (1, last) :: (List.replicate M P).zip ws' := by
    have hcnt : rotateCount 1 P = 1 := by
      unfold rotateCount
      rw [show 1 + P - 1 = P by omega, Nat.div_self hP]
    rw [rotParts, hcnt, List.zip_append (by simp [lws']), rotR, List.drop_left' (by simp), List.take_left' (by simp)]
    rfl
  have hlast : ∀ j, dig last j = if j = 0 then dig (spread w) 63 else 0 := by
    intro j
    have hlb : last < 8 ^ P := b2 last (by simp)
    by_cases hj : j < P
    · have hD := dY (P * M + j)
      rw [Nat.mul_add_div hP, Nat.div_eq_of_lt hj, Nat.mul_add_mod, Nat.mod_eq_of_lt hj, Nat.add_zero,
        List.getD_eq_getElem?_getD, List.getElem?_append_right (by omega), lws', Nat.sub_self, List.getElem?_cons_zero, Option.getD_some, hm] at hD
      rw [← hD]
      split
      · rename_i h0; rw [h0]
      · rw [dig_spread, BitVec.getLsbD_of_ge _ _ (by omega)]; rfl
    · rw [dig_of_lt hlb (by omega), if_neg (by omega)]
  have hlast8 : last < 8 ^ 1 := lt_of_dig fun j hj => by rw [hlast, if_neg (by omega)]
  rw [hdrop]
  refine eq_spread fun b => ?_
  rw [decN_cons, add_comm, dig_concat hlast8]
  split
  · rename_i hb
    obtain rfl : b = 0 := by omega
    rw [hlast, if_pos rfl, dig_spread, rotateLeft_bit _ _ _ (by norm_num) (by norm_num)]
  · rename_i hb
    rw [dig_decZ hP (by simp [lws']) (fun s hs => List.eq_of_mem_replicate (List.mem_of_mem_dropLast hs)) (fun v hv => b2 v (by simp [hv]))]
    by_cases hb64 : b < 64
    · have hlt : (b - 1) / P < M := by
        rw [Nat.div_lt_iff_lt_mul hP, mul_comm, hm]; omega
      have := dY (b - 1)
      rw [List.getD_eq_getElem?_getD, List.getElem?_append_left (by omega), ← List.getD_eq_getElem?_getD] at this
      rw [← this, dig_spread, rotateLeft_bit _ _ _ (by norm_num) hb64]
      congr 2
      omega
    · have hlt : M ≤ (b - 1) / P := by
        rw [Nat.le_div_iff_mul_le hP, mul_comm, hm]; omega
      rw [getD_ge (by omega), dig_zero_left, BitVec.getLsbD_of_ge _ _ (by omega)]; rfl

section
variable (hs : KecSat k h n a) (hg : GoodL k h) (hp : 8 ^ 82 ≤ p) {R : ℕ} (h1 : 1 ≤ R) (hR : R < 1 + n * 25) (ht : (R - 1) % 25 < 24)
  {A : St} (hA : StIs k h a R A)
include hs hg hp h1 hR ht hA

theorem theta_c {i : ℕ} (hi : i < 5) :
    decN ((partSizes (ps6 k) 1 false).zip (((layout k h).bc.getD i []).map (nv a (bs h R)))) = spread (thetaC A i) ∧
    ((layout k h).bc.getD i []).length = (partSizes (ps6 k) 1 false).length ∧
    ∀ w ∈ ((layout k h).bc.getD i []).map (nv a (bs h R)), w < 8 ^ ps6 k := by
  have he := (sat_round hs hg.hh h1 hR ht).2.2.2.1 i hi
  have hk := hg.hk
  have hm6 : ps6 k * (63 / ps6 k) = 63 := Nat.mul_div_cancel' (Nat.dvd_of_mod_eq_zero hk.div6)
  obtain ⟨_, g2, g3, g4⟩ := norm_step hs hk hp (range := 6) (ps := ps6 k) (sz := partSizes (ps6 k) 1 false)
    (X := ([A i 0, A i 1, A i 2, A i 3, A i 4].map spread).sum) rfl (by norm_num) rfl hk.h6.1 (by
      rw [hk.s6, List.dropLast_concat]; intro s hs; exact List.eq_of_mem_replicate hs) (by
      rw [hk.s6]; intro s hs
      rcases List.mem_append.mp hs with hs | hs
      · rw [List.eq_of_mem_replicate hs]; exact hk.h6.1
      · rw [List.mem_singleton.mp hs]) (by
      rw [hk.s6, List.sum_append, List.sum_replicate, smul_eq_mul, mul_comm, hm6]; rfl) (hg.theta i hi).2 (hg.theta i hi).1 hR
    (sum_spread_lt _ (by simp)) (by
      rw [he, hA i hi 0 (by norm_num), hA i hi 1 (by norm_num), hA i hi 2 (by norm_num), hA i hi 3 (by norm_num), hA i hi 4 (by norm_num)]
      simp only [List.map_cons, List.map_nil, List.sum_cons, List.sum_nil]
      push_cast
      ring)
  refine ⟨eq_spread fun b => ?_, g3, g4⟩
  rw [g2, (dig_sum _ (by simp) b).1, thetaC_bit]

theorem theta_t {i : ℕ} (hi : i < 5) :
    thetaT k (layout k h) a (bs h R) i = ((spread (thetaC A ((i + 4) % 5)) + spread ((thetaC A ((i + 1) % 5)).rotateLeft 1) : ℕ) : ZMod p) := by
  have hk := hg.hk
  obtain ⟨c1, _, _⟩ := theta_c hs hg hp h1 hR ht hA (show (i + 4) % 5 < 5 from Nat.mod_lt _ (by norm_num))
  obtain ⟨c2, l2, b2⟩ := theta_c hs hg hp h1 hR ht hA (show (i + 1) % 5 < 5 from Nat.mod_lt _ (by norm_num))
  have hm6 : ps6 k * (63 / ps6 k) = 63 := Nat.mul_div_cancel' (Nat.dvd_of_mod_eq_zero hk.div6)
  unfold thetaT
  simp only
  rw [decode_partsOf, c1, decode_rotParts]
  rw [hk.s6] at c2 l2 ⊢
  rw [rot1_nat hk.h6.1 hm6 (by rw [List.length_map, l2]; simp) b2 c2]
  push_cast
  rfl

end

end H2.Kec
