import Verif.Kec.Round

/-!
# One round: rho, pi, chi, iota
-/

set_option autoImplicit false
set_option linter.unusedSectionVars false
namespace H2.Kec
open H2.Sha (Z Z_append Z_gate Z_cond Z_gate1 Z_reqEq Z_reqZero Z_reqBool Z_flatMap ind_eq_zero ind)

variable {p : ℕ} [Fact p.Prime] {k h n : ℕ} {a : Adv (ZMod p)}

theorem rpcWord_getD (rpc : List (List Cell)) {m idx : ℕ} (hi : idx < m) (i j : ℕ) :
    (rpcWord rpc m i j).getD idx (0, 0) = (rpc.getD (j * m + idx) []).getD i (0, 0) := by
  unfold rpcWord
  rw [List.getD_eq_getElem?_getD, List.getElem?_map, List.getElem?_range hi]; rfl

theorem theta_bit (A : St) (i j b : ℕ) : ((theta A i j).getLsbD b).toNat =
    ([A i j, thetaC A ((i + 4) % 5), (thetaC A ((i + 1) % 5)).rotateLeft 1].map fun w => (w.getLsbD b).toNat).sum % 2 := by
  unfold theta thetaD
  simp only [BitVec.getLsbD_xor, xor_toNat, List.map_cons, List.map_nil, List.sum_cons, List.sum_nil]
  omega

theorem chi_bit (B : St) (i j b : ℕ) (hb : b < 64) : ((chi B i j).getLsbD b).toNat =
    (((B i j).getLsbD b).toNat + (1 - ((B ((i + 1) % 5) j).getLsbD b).toNat) * ((B ((i + 2) % 5) j).getLsbD b).toNat) % 2 := by
  unfold chi
  simp only [BitVec.getLsbD_xor, BitVec.getLsbD_and, BitVec.getLsbD_not, hb, decide_true, Bool.true_and, xor_toNat]
  cases (B i j).getLsbD b <;> cases (B ((i + 1) % 5) j).getLsbD b <;> cases (B ((i + 2) % 5) j).getLsbD b <;> rfl

/-- The word of the state that pi moves to `(i', j')`. -/
theorem pi_src : ∀ i', i' < 5 → ∀ j', j' < 5 →
    let x := 5 * i' + (i' + 3 * j') % 5
    x < 25 ∧ x % 5 = (i' + 3 * j') % 5 ∧ x / 5 = i' ∧ (2 * (x % 5) + 3 * (x / 5)) % 5 = j' := by decide

section
variable (hs : KecSat k h n a) (hg : GoodL k h) (hp : 8 ^ 82 ≤ p) {R : ℕ} (h1 : 1 ≤ R) (hR : R < 1 + n * 25) (ht : (R - 1) % 25 < 24)
  {A : St} (hA : StIs k h a R A)

/-- The normalised parts are bits with at most one overflow digit. -/
theorem rpc1_bits (hs : KecSat k h n a) (hg : GoodL k h) (hp : 8 ^ 82 ≤ p) (hR : R < 1 + n * 25) {i j idx : ℕ} (hi : i < 5) (hj : j < 5) (hx : idx < 64 / ps5 k) :
    nv a (bs h R) (((layout k h).rpc1.getD (j * (64 / ps5 k) + idx) []).getD i (0, 0)) < 8 ^ (ps5 k + 1) ∧
    ∀ l, dig (nv a (bs h R) (((layout k h).rpc1.getD (j * (64 / ps5 k) + idx) []).getD i (0, 0))) l ≤ 1 := by
  obtain ⟨x1, x2, x3, x4⟩ := pi_src i hi j hj
  obtain ⟨g1, g2, g3⟩ := hg.rho _ x1
  rw [x3, show (2 * ((5 * i + (i + 3 * j) % 5) % 5) + 3 * i) % 5 = j by rw [x3] at x4; exact x4] at g3
  obtain ⟨hlen, hmem⟩ := trans_mem hs hg.hk hp g3 hR
  obtain ⟨hul, _⟩ := rhoShape_at g1
  rw [List.length_map] at hlen hmem
  have h2 := hmem idx (by omega)
  rw [getD_map (nv a (bs h R)) (by omega : idx < (rpcWord (layout k h).rpc1 (64 / ps5 k) i j).length) 0 (0, 0), rpcWord_getD _ hx] at h2
  obtain ⟨_, b2, _, b4⟩ := norm_entry (by norm_num) h2
  refine ⟨lt_of_lt_of_le b2 (Nat.pow_le_pow_right (by norm_num) hg.hk.h4.2), fun l => ?_⟩
  have := b4 l
  simp only at this
  omega

include hs hg hp h1 hR ht hA

/-- After rho and pi: the parts hold the bits of the state. -/
theorem rho_pi {i j idx l : ℕ} (hi : i < 5) (hj : j < 5) (hx : idx < 64 / ps5 k) (hl : l < ps5 k) :
    dig (nv a (bs h R) (((layout k h).rpc1.getD (j * (64 / ps5 k) + idx) []).getD i (0, 0))) l = ((pi (rho (theta A)) i j).getLsbD (ps5 k * idx + l)).toNat := by
  obtain ⟨x1, x2, x3, x4⟩ := pi_src i hi j hj
  have hk := hg.hk
  have hm : ps5 k * (64 / ps5 k) = 64 := Nat.mul_div_cancel' (Nat.dvd_of_mod_eq_zero hk.div)
  set I := (i + 3 * j) % 5 with hI
  have hI5 : I < 5 := Nat.mod_lt _ (by norm_num)
  obtain ⟨g1, g2, g3⟩ := hg.rho _ x1
  have hz := (sat_round hs hg.hh h1 hR ht).2.2.2.2.1 _ x1
  rw [x2, x3] at g1 g3 hz
  rw [show (2 * I + 3 * i) % 5 = j by rw [x2, x3] at x4; exact x4] at g3
  -- the word
  have hX : sAt (layout k h) a (bs h R) I i + thetaT k (layout k h) a (bs h R) I =
      ((([A I i, thetaC A ((I + 4) % 5), (thetaC A ((I + 1) % 5)).rotateLeft 1].map spread).sum : ℕ) : ZMod p) := by
    rw [hA I hI5 i hi, theta_t hs hg hp h1 hR ht hA hI5]
    simp only [List.map_cons, List.map_nil, List.sum_cons, List.sum_nil]
    push_cast
    ring
  rw [hX] at hz
  have hrow : ∀ t, t < 64 / ps5 k → j * (64 / ps5 k) + t < 5 * (64 / ps5 k) := by
    intro t ht
    calc j * (64 / ps5 k) + t < (j + 1) * (64 / ps5 k) := by rw [add_mul]; omega
      _ ≤ _ := Nat.mul_le_mul_right _ (by omega)
  have hev : ∀ t, t < 64 / ps5 k → dig (nv a (bs h R) ((rpcWord (layout k h).rpc1 (64 / ps5 k) i j).getD t (0, 0))) (ps5 k) = 0 := by
    intro t ht
    rw [rpcWord_getD _ ht]
    exact (chi_step hs hk hp (hg.chi _ (hrow t ht)) hR (fun i' hi' => rpc1_bits hs hg hp hR hi' hj ht) hi).1
  have := (rho_step hs hk hp (rhoAt_lt I hI5 i hi) g1 g2 g3 hR (sum_spread_lt _ (by simp)) hz hev hx).2 l hl
  rw [rpcWord_getD _ hx] at this
  rw [this, (dig_sum _ (by simp) _).1, ← theta_bit]
  have hb : ps5 k * idx + l < 64 := by
    calc ps5 k * idx + l < ps5 k * (idx + 1) := by rw [mul_add]; omega
      _ ≤ ps5 k * (64 / ps5 k) := Nat.mul_le_mul_left _ hx
      _ = 64 := hm
  show _ = ((rho (theta A) ((i + 3 * j) % 5) i).getLsbD (ps5 k * idx + l)).toNat
  rw [← hI]
  unfold rho
  rw [← rhoAt_eq I hI5 i hi, rotateLeft_bit _ _ _ (rhoAt_lt I hI5 i hi) hb]

/-- After chi. -/
theorem chi_out {i j : ℕ} (hi : i < 5) (hj : j < 5) :
    chiOut k (layout k h) a (bs h R) i j = ((spread (chi (pi (rho (theta A))) i j) : ℕ) : ZMod p) := by
  have hk := hg.hk
  have hm : ps5 k * (64 / ps5 k) = 64 := Nat.mul_div_cancel' (Nat.dvd_of_mod_eq_zero hk.div)
  have hrow : ∀ t, t < 64 / ps5 k → j * (64 / ps5 k) + t < 5 * (64 / ps5 k) := by
    intro t ht
    calc j * (64 / ps5 k) + t < (j + 1) * (64 / ps5 k) := by rw [add_mul]; omega
      _ ≤ _ := Nat.mul_le_mul_right _ (by omega)
  have hstep : ∀ t, t < 64 / ps5 k → _ := fun t ht => chi_step hs hk hp (hg.chi _ (hrow t ht)) hR (fun i' hi' => rpc1_bits hs hg hp hR hi' hj ht) hi
  unfold chiOut
  simp only
  rw [hk.s5, List.length_replicate]
  have hcell : ∀ t, t < 64 / ps5 k → (((rpcWord (layout k h).rpc2 (64 / ps5 k) i j).map (nv a (bs h R))).getD t 0) =
      nv a (bs h R) (((layout k h).rpc2.getD (j * (64 / ps5 k) + t) []).getD i (0, 0)) := by
    intro t ht
    rw [getD_map _ (by simpa [rpcWord] using ht) 0 (0, 0), rpcWord_getD _ ht]
  have hlen : ((rpcWord (layout k h).rpc2 (64 / ps5 k) i j).map (nv a (bs h R))).length = 64 / ps5 k := by simp [rpcWord]
  have hparts : (rpcWord (layout k h).rpc2 (64 / ps5 k) i j).map (fun c => (ps5 k, a.val (bs h R) c)) =
      partsOf a (bs h R) (List.replicate (64 / ps5 k) (ps5 k)) (rpcWord (layout k h).rpc2 (64 / ps5 k) i j) := by
    unfold partsOf
    refine List.ext_getElem (by simp [rpcWord]) fun t t1 t2 => ?_
    simp
  rw [hparts, decode_partsOf]
  congr 1
  generalize hws : (rpcWord (layout k h).rpc2 (64 / ps5 k) i j).map (nv a (bs h R)) = ws at *
  generalize hM : 64 / ps5 k = M at *
  refine eq_spread fun b => ?_
  have hN := hk.h5.1
  have hmod : b % ps5 k < ps5 k := Nat.mod_lt _ hN
  rw [dig_decZ hN (by simp [hlen]) (fun s hs => List.eq_of_mem_replicate (List.mem_of_mem_dropLast hs)) (fun w hw => by
    obtain ⟨t, ht', rfl⟩ := mem_of_getD hw
    rw [hcell t (by omega)]
    exact (hstep t (by omega)).2.1)]
  by_cases hb : b < 64
  · have hq : b / ps5 k < M := by rw [Nat.div_lt_iff_lt_mul hN, mul_comm, hm]; exact hb
    rw [hcell _ hq, (hstep _ hq).2.2 _ hmod]
    subst hM
    rw [rho_pi hs hg hp h1 hR ht hA hi hj hq hmod, rho_pi hs hg hp h1 hR ht hA (Nat.mod_lt _ (by norm_num)) hj hq hmod,
      rho_pi hs hg hp h1 hR ht hA (Nat.mod_lt _ (by norm_num)) hj hq hmod, Nat.div_add_mod, chi_bit _ _ _ _ hb]
  · have hq : M ≤ b / ps5 k := by rw [Nat.le_div_iff_mul_le hN, mul_comm, hm]; omega
    rw [getD_ge (by omega), dig_zero_left, BitVec.getLsbD_of_ge _ _ (by omega)]; rfl

/-- **One round**: the next state is the round function of the state. -/
theorem round_step : StIs k h a (R + 1) (rnd ((R - 1) % 25) A) := by
  intro i hi j hj
  have hsat := sat_round hs hg.hh h1 hR ht
  obtain ⟨_, _, _, _, _, hiota, hnext, _⟩ := hsat
  have hk := hg.hk
  rw [← hnext i hi j hj]
  unfold roundOut rnd iota
  by_cases h0 : i = 0 ∧ j = 0
  · rw [if_pos h0, if_pos h0, decode_partsOf]
    rw [chi_out hs hg hp h1 hR ht hA (by norm_num) (by norm_num), round_cst_eq _ ht] at hiota
    obtain ⟨_, g2, _⟩ := norm_step hs hk hp (range := 3) (ps := ps3 k) (sz := partSizes (ps3 k) 0 false)
      (X := ([chi (pi (rho (theta A))) 0 0, RC ((R - 1) % 25)].map spread).sum) rfl (by norm_num) rfl hk.h3.1 hk.s3.1 hk.s3.2 hk.sum3 hg.iota.2 hg.iota.1 hR
      (sum_spread_lt _ (by simp)) (by
        rw [hiota]
        simp only [List.map_cons, List.map_nil, List.sum_cons, List.sum_nil]
        push_cast
        ring)
    generalize chi (pi (rho (theta A))) = C at *
    generalize RC ((R - 1) % 25) = c at *
    generalize decN ((partSizes (ps3 k) 0 false).zip ((layout k h).iotaRes.map (nv a (bs h R)))) = N at *
    have key : N = spread (C 0 0 ^^^ c) := eq_spread fun b => by
      rw [g2, (dig_sum _ (by simp) b).1]
      simp only [BitVec.getLsbD_xor, xor_toNat, List.map_cons, List.map_nil, List.sum_cons, List.sum_nil, Nat.add_zero]
    rw [key]
  · rw [if_neg h0, if_neg h0]
    exact chi_out hs hg hp h1 hR ht hA hi hj

end

end H2.Kec
