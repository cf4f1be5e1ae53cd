import Verif.Ecc.Concrete
import Verif.Ecc.Order
import Mathlib.GroupTheory.Perm.Cycle.Type
import Mathlib.Algebra.Order.BigOperators.Group.Finset

/-!
# secp256k1 has `secpN` points, BN254 `G1` has `bn254R`

A curve over a field with `q` elements has at most `2 q + 1` points.  The generator has prime order `n` with `2 q + 1 < 3 n`, and
there is no point of order two, so `n` is the order of the group.
-/

set_option autoImplicit false
namespace H2

section
variable {K : Type} [Field K] [DecidableEq K] [Fintype K] {b : K}

theorem point_finite : Finite (ECurve b) := by
  let f : ECurve b → Option (K × K) := fun g => match g with
    | .zero => none
    | .some x y _ => some (x, y)
  refine Finite.of_injective f ?_
  intro g g' h
  rcases g with _ | ⟨x, y, hxy⟩ <;> rcases g' with _ | ⟨x', y', hxy'⟩
  · rfl
  · simp [f] at h
  · simp [f] at h
  · simp only [f, Option.some.injEq, Prod.mk.injEq] at h
    obtain ⟨rfl, rfl⟩ := h
    rfl

theorem point_card : Nat.card (ECurve b) ≤ 2 * Fintype.card K + 1 := by
  classical
  have hfin : Finite (ECurve b) := point_finite
  have hft : Fintype (ECurve b) := Fintype.ofFinite _
  rw [Nat.card_eq_fintype_card]
  let f : ECurve b → K := fun g => match g with
    | .zero => 0
    | .some x _ _ => x
  have h1 : ((Finset.univ : Finset (ECurve b)).erase 0).card ≤ 2 * (((Finset.univ : Finset (ECurve b)).erase 0).image f).card := by
    refine Finset.card_le_mul_card_image _ 2 ?_
    intro a ha
    obtain ⟨g, hg, rfl⟩ := Finset.mem_image.1 ha
    have hg0 : g ≠ 0 := (Finset.mem_erase.1 hg).1
    refine (Finset.card_le_card (t := {g, -g}) ?_).trans Finset.card_le_two
    intro g' hg'
    obtain ⟨h1, h2⟩ := Finset.mem_filter.1 hg'
    have hg0' : g' ≠ 0 := (Finset.mem_erase.1 h1).1
    rw [Finset.mem_insert, Finset.mem_singleton]
    rcases g with _ | ⟨x, y, hxy⟩
    · exact absurd rfl hg0
    rcases g' with _ | ⟨x', y', hxy'⟩
    · exact absurd rfl hg0'
    have i : IsPt b x y (.some x y hxy) := ⟨hxy, rfl⟩
    have i' : IsPt b x' y' (.some x' y' hxy') := ⟨hxy', rfl⟩
    have hx : x' = x := h2
    subst hx
    rcases i'.x_eq i with h | h
    · exact .inl h.2
    · exact .inr h.2
  have h2 : (((Finset.univ : Finset (ECurve b)).erase 0).image f).card ≤ Fintype.card K := Finset.card_le_univ _
  rw [Finset.card_erase_of_mem (Finset.mem_univ _), Finset.card_univ] at h1
  omega

end

/-- If a point has prime order `n`, `2 q + 1 < 3 n` and there is no point of order two, the group has `n` elements. -/
theorem card_of_order {q n : ℕ} [Fact q.Prime] (hn : n.Prime) {b : ZMod q} {g : ECurve b} (hg : g ≠ 0) (h : n • g = 0)
    (hq : 2 * q + 1 < 3 * n) (ht : ∀ g : ECurve b, 2 • g = 0 → g = 0) : Nat.card (ECurve b) = n := by
  have hfin : Finite (ECurve b) := point_finite
  have : Fact n.Prime := ⟨hn⟩
  have : Fact (2 : ℕ).Prime := ⟨Nat.prime_two⟩
  have ho : addOrderOf g = n := addOrderOf_eq_prime h hg
  obtain ⟨c, hc⟩ : n ∣ Nat.card (ECurve b) := ho ▸ addOrderOf_dvd_natCard g
  have hle := point_card (b := b)
  rw [ZMod.card] at hle
  have hpos : 0 < Nat.card (ECurve b) := Nat.card_pos
  have hc3 : c < 3 := by
    by_contra hc3
    have : 3 * n ≤ n * c := by rw [mul_comm]; exact Nat.mul_le_mul_left n (by omega)
    omega
  interval_cases c
  · omega
  · omega
  · exfalso
    obtain ⟨x, hx⟩ := exists_prime_addOrderOf_dvd_card' 2 (G := ECurve b) (by rw [hc]; exact Dvd.intro_left n rfl)
    have h0 := ht x (by rw [← hx]; exact addOrderOf_nsmul_eq_zero x)
    rw [h0, addOrderOf_zero] at hx
    omega

/-- **secp256k1 has `secpN` points.** -/
theorem card_secp256k1 : Nat.card (ECurve (7 : ZMod secpP)) = secpN := by
  obtain ⟨g, hg⟩ := secpG_pt
  exact card_of_order (Fact.out : secpN.Prime) hg.ne_zero (secpG_order hg) (by decide +kernel) two_torsion_secp256k1

/-- **BN254 `G1` has `bn254R` points.** -/
theorem card_bn254 : Nat.card (ECurve (3 : ZMod bn254Q)) = bn254R := by
  obtain ⟨g, hg⟩ := bn254G_pt
  exact card_of_order (Fact.out : bn254R.Prime) hg.ne_zero (bn254G_order hg) (by decide +kernel) two_torsion_bn254

end H2
