import Verif.Core.Primes

/-!
# Primality of the secp256k1 base field modulus and group order

Pratt certificates, checked by the kernel.
-/

set_option autoImplicit false
namespace H2

theorem prime_13441 : Nat.Prime 13441 := by norm_num

theorem prime_31 : Nat.Prime 31 := by norm_num

theorem prime_7723 : Nat.Prime 7723 := by norm_num

theorem prime_5323 : Nat.Prime 5323 := by norm_num

theorem prime_2621 : Nat.Prime 2621 := by norm_num

theorem prime_24809 : Nat.Prime 24809 := by norm_num

theorem prime_971 : Nat.Prime 971 := by norm_num

theorem prime_1373 : Nat.Prime 1373 := by norm_num

theorem prime_13331831 : Nat.Prime 13331831 := by
  refine pratt 13331831 13 [2, 5, 971, 1373] (by norm_num) ?_ ?_ (by norm_num) (by decide +kernel) (by decide +kernel)
  · exact ⟨[1, 1, 1, 1], by norm_num, by norm_num⟩
  · simp only [List.forall_mem_cons, List.not_mem_nil, false_implies, implies_true, and_true]
    exact ⟨prime_2, prime_5, prime_971, prime_1373⟩

theorem prime_173378833005251801 : Nat.Prime 173378833005251801 := by
  refine pratt 173378833005251801 6 [2, 5, 2621, 24809, 13331831] (by norm_num) ?_ ?_ (by norm_num) (by decide +kernel) (by decide +kernel)
  · exact ⟨[3, 2, 1, 1, 1], by norm_num, by norm_num⟩
  · simp only [List.forall_mem_cons, List.not_mem_nil, false_implies, implies_true, and_true]
    exact ⟨prime_2, prime_5, prime_2621, prime_24809, prime_13331831⟩

theorem prime_22149492674086928081353 : Nat.Prime 22149492674086928081353 := by
  refine pratt 22149492674086928081353 5 [2, 3, 5323, 173378833005251801] (by norm_num) ?_ ?_ (by norm_num) (by decide +kernel) (by decide +kernel)
  · exact ⟨[3, 1, 1, 1], by norm_num, by norm_num⟩
  · simp only [List.forall_mem_cons, List.not_mem_nil, false_implies, implies_true, and_true]
    exact ⟨prime_2, prime_3, prime_5323, prime_173378833005251801⟩

theorem prime_132896956044521568488119 : Nat.Prime 132896956044521568488119 := by
  refine pratt 132896956044521568488119 6 [2, 3, 22149492674086928081353] (by norm_num) ?_ ?_ (by norm_num) (by decide +kernel) (by decide +kernel)
  · exact ⟨[1, 1, 1], by norm_num, by norm_num⟩
  · simp only [List.forall_mem_cons, List.not_mem_nil, false_implies, implies_true, and_true]
    exact ⟨prime_2, prime_3, prime_22149492674086928081353⟩

theorem prime_1627 : Nat.Prime 1627 := by norm_num

theorem prime_2657 : Nat.Prime 2657 := by norm_num

theorem prime_4423 : Nat.Prime 4423 := by norm_num

theorem prime_41201 : Nat.Prime 41201 := by norm_num

theorem prime_96557 : Nat.Prime 96557 := by norm_num

theorem prime_20113 : Nat.Prime 20113 := by norm_num

theorem prime_1206781 : Nat.Prime 1206781 := by
  refine pratt 1206781 10 [2, 3, 5, 20113] (by norm_num) ?_ ?_ (by norm_num) (by decide +kernel) (by decide +kernel)
  · exact ⟨[2, 1, 1, 1], by norm_num, by norm_num⟩
  · simp only [List.forall_mem_cons, List.not_mem_nil, false_implies, implies_true, and_true]
    exact ⟨prime_2, prime_3, prime_5, prime_20113⟩

theorem prime_7240687 : Nat.Prime 7240687 := by
  refine pratt 7240687 3 [2, 3, 1206781] (by norm_num) ?_ ?_ (by norm_num) (by decide +kernel) (by decide +kernel)
  · exact ⟨[1, 1, 1], by norm_num, by norm_num⟩
  · simp only [List.forall_mem_cons, List.not_mem_nil, false_implies, implies_true, and_true]
    exact ⟨prime_2, prime_3, prime_1206781⟩

theorem prime_53 : Nat.Prime 53 := by norm_num

theorem prime_107590001 : Nat.Prime 107590001 := by
  refine pratt 107590001 3 [2, 5, 7, 29, 53] (by norm_num) ?_ ?_ (by norm_num) (by decide +kernel) (by decide +kernel)
  · exact ⟨[4, 4, 1, 1, 1], by norm_num, by norm_num⟩
  · simp only [List.forall_mem_cons, List.not_mem_nil, false_implies, implies_true, and_true]
    exact ⟨prime_2, prime_5, prime_7, prime_29, prime_53⟩

theorem prime_255515944373312847190720520512484175977 : Nat.Prime 255515944373312847190720520512484175977 := by
  refine pratt 255515944373312847190720520512484175977 3 [2, 7, 11, 1627, 2657, 4423, 41201, 96557, 7240687, 107590001] (by norm_num) ?_ ?_ (by norm_num) (by decide +kernel) (by decide +kernel)
  · exact ⟨[3, 2, 1, 1, 1, 1, 1, 1, 1, 1], by norm_num, by norm_num⟩
  · simp only [List.forall_mem_cons, List.not_mem_nil, false_implies, implies_true, and_true]
    exact ⟨prime_2, prime_7, prime_11, prime_1627, prime_2657, prime_4423, prime_41201, prime_96557, prime_7240687, prime_107590001⟩

theorem prime_205115282021455665897114700593932402728804164701536103180137503955397371 : Nat.Prime 205115282021455665897114700593932402728804164701536103180137503955397371 := by
  refine pratt 205115282021455665897114700593932402728804164701536103180137503955397371 10 [2, 3, 5, 29, 31, 7723, 132896956044521568488119, 255515944373312847190720520512484175977] (by norm_num) ?_ ?_ (by norm_num) (by decide +kernel) (by decide +kernel)
  · exact ⟨[1, 1, 1, 2, 1, 1, 1, 1], by norm_num, by norm_num⟩
  · simp only [List.forall_mem_cons, List.not_mem_nil, false_implies, implies_true, and_true]
    exact ⟨prime_2, prime_3, prime_5, prime_29, prime_31, prime_7723, prime_132896956044521568488119, prime_255515944373312847190720520512484175977⟩

theorem prime_secpP : Nat.Prime 115792089237316195423570985008687907853269984665640564039457584007908834671663 := by
  refine pratt 115792089237316195423570985008687907853269984665640564039457584007908834671663 3 [2, 3, 7, 13441, 205115282021455665897114700593932402728804164701536103180137503955397371] (by norm_num) ?_ ?_ (by norm_num) (by decide +kernel) (by decide +kernel)
  · exact ⟨[1, 1, 1, 1, 1], by norm_num, by norm_num⟩
  · simp only [List.forall_mem_cons, List.not_mem_nil, false_implies, implies_true, and_true]
    exact ⟨prime_2, prime_3, prime_7, prime_13441, prime_205115282021455665897114700593932402728804164701536103180137503955397371⟩

theorem prime_149 : Nat.Prime 149 := by norm_num

theorem prime_631 : Nat.Prime 631 := by norm_num

theorem prime_16699 : Nat.Prime 16699 := by norm_num

theorem prime_85831 : Nat.Prime 85831 := by norm_num

theorem prime_97 : Nat.Prime 97 := by norm_num

theorem prime_2011 : Nat.Prime 2011 := by norm_num

theorem prime_4681609 : Nat.Prime 4681609 := by
  refine pratt 4681609 23 [2, 3, 97, 2011] (by norm_num) ?_ ?_ (by norm_num) (by decide +kernel) (by decide +kernel)
  · exact ⟨[3, 1, 1, 1], by norm_num, by norm_num⟩
  · simp only [List.forall_mem_cons, List.not_mem_nil, false_implies, implies_true, and_true]
    exact ⟨prime_2, prime_3, prime_97, prime_2011⟩

theorem prime_107361793816595537 : Nat.Prime 107361793816595537 := by
  refine pratt 107361793816595537 3 [2, 16699, 85831, 4681609] (by norm_num) ?_ ?_ (by norm_num) (by decide +kernel) (by decide +kernel)
  · exact ⟨[4, 1, 1, 1], by norm_num, by norm_num⟩
  · simp only [List.forall_mem_cons, List.not_mem_nil, false_implies, implies_true, and_true]
    exact ⟨prime_2, prime_16699, prime_85831, prime_4681609⟩

theorem prime_59 : Nat.Prime 59 := by norm_num

theorem prime_4051 : Nat.Prime 4051 := by norm_num

theorem prime_113 : Nat.Prime 113 := by norm_num

theorem prime_120233 : Nat.Prime 120233 := by
  refine pratt 120233 3 [2, 7, 19, 113] (by norm_num) ?_ ?_ (by norm_num) (by decide +kernel) (by decide +kernel)
  · exact ⟨[3, 1, 1, 1], by norm_num, by norm_num⟩
  · simp only [List.forall_mem_cons, List.not_mem_nil, false_implies, implies_true, and_true]
    exact ⟨prime_2, prime_7, prime_19, prime_113⟩

theorem prime_797 : Nat.Prime 797 := by norm_num

theorem prime_9349 : Nat.Prime 9349 := by norm_num

theorem prime_44706919 : Nat.Prime 44706919 := by
  refine pratt 44706919 6 [2, 3, 797, 9349] (by norm_num) ?_ ?_ (by norm_num) (by decide +kernel) (by decide +kernel)
  · exact ⟨[1, 1, 1, 1], by norm_num, by norm_num⟩
  · simp only [List.forall_mem_cons, List.not_mem_nil, false_implies, implies_true, and_true]
    exact ⟨prime_2, prime_3, prime_797, prime_9349⟩

theorem prime_174723607534414371449 : Nat.Prime 174723607534414371449 := by
  refine pratt 174723607534414371449 3 [2, 17, 59, 4051, 120233, 44706919] (by norm_num) ?_ ?_ (by norm_num) (by decide +kernel) (by decide +kernel)
  · exact ⟨[3, 1, 1, 1, 1, 1], by norm_num, by norm_num⟩
  · simp only [List.forall_mem_cons, List.not_mem_nil, false_implies, implies_true, and_true]
    exact ⟨prime_2, prime_17, prime_59, prime_4051, prime_120233, prime_44706919⟩

theorem prime_293 : Nat.Prime 293 := by norm_num

theorem prime_2731 : Nat.Prime 2731 := by norm_num

theorem prime_305873 : Nat.Prime 305873 := by
  refine pratt 305873 3 [2, 7, 2731] (by norm_num) ?_ ?_ (by norm_num) (by decide +kernel) (by decide +kernel)
  · exact ⟨[4, 1, 1], by norm_num, by norm_num⟩
  · simp only [List.forall_mem_cons, List.not_mem_nil, false_implies, implies_true, and_true]
    exact ⟨prime_2, prime_7, prime_2731⟩

theorem prime_28181 : Nat.Prime 28181 := by norm_num

theorem prime_545358713 : Nat.Prime 545358713 := by
  refine pratt 545358713 5 [2, 41, 59, 28181] (by norm_num) ?_ ?_ (by norm_num) (by decide +kernel) (by decide +kernel)
  · exact ⟨[3, 1, 1, 1], by norm_num, by norm_num⟩
  · simp only [List.forall_mem_cons, List.not_mem_nil, false_implies, implies_true, and_true]
    exact ⟨prime_2, prime_41, prime_59, prime_28181⟩

theorem prime_461 : Nat.Prime 461 := by norm_num

theorem prime_1871 : Nat.Prime 1871 := by norm_num

theorem prime_1627771 : Nat.Prime 1627771 := by
  refine pratt 1627771 3 [2, 3, 5, 29, 1871] (by norm_num) ?_ ?_ (by norm_num) (by decide +kernel) (by decide +kernel)
  · exact ⟨[1, 1, 1, 1, 1], by norm_num, by norm_num⟩
  · simp only [List.forall_mem_cons, List.not_mem_nil, false_implies, implies_true, and_true]
    exact ⟨prime_2, prime_3, prime_5, prime_29, prime_1871⟩

theorem prime_297159362677 : Nat.Prime 297159362677 := by
  refine pratt 297159362677 2 [2, 3, 11, 461, 1627771] (by norm_num) ?_ ?_ (by norm_num) (by decide +kernel) (by decide +kernel)
  · exact ⟨[2, 2, 1, 1, 1], by norm_num, by norm_num⟩
  · simp only [List.forall_mem_cons, List.not_mem_nil, false_implies, implies_true, and_true]
    exact ⟨prime_2, prime_3, prime_11, prime_461, prime_1627771⟩

theorem prime_29047611873442575647497758179 : Nat.Prime 29047611873442575647497758179 := by
  refine pratt 29047611873442575647497758179 2 [2, 293, 305873, 545358713, 297159362677] (by norm_num) ?_ ?_ (by norm_num) (by decide +kernel) (by decide +kernel)
  · exact ⟨[1, 1, 1, 1, 1], by norm_num, by norm_num⟩
  · simp only [List.forall_mem_cons, List.not_mem_nil, false_implies, implies_true, and_true]
    exact ⟨prime_2, prime_293, prime_305873, prime_545358713, prime_297159362677⟩

theorem prime_341948486974166000522343609283189 : Nat.Prime 341948486974166000522343609283189 := by
  refine pratt 341948486974166000522343609283189 2 [2, 3, 109, 29047611873442575647497758179] (by norm_num) ?_ ?_ (by norm_num) (by decide +kernel) (by decide +kernel)
  · exact ⟨[2, 3, 1, 1], by norm_num, by norm_num⟩
  · simp only [List.forall_mem_cons, List.not_mem_nil, false_implies, implies_true, and_true]
    exact ⟨prime_2, prime_3, prime_109, prime_29047611873442575647497758179⟩

theorem prime_secpN : Nat.Prime 115792089237316195423570985008687907852837564279074904382605163141518161494337 := by
  refine pratt 115792089237316195423570985008687907852837564279074904382605163141518161494337 7 [2, 3, 149, 631, 107361793816595537, 174723607534414371449, 341948486974166000522343609283189] (by norm_num) ?_ ?_ (by norm_num) (by decide +kernel) (by decide +kernel)
  · exact ⟨[6, 1, 1, 1, 1, 1, 1], by norm_num, by norm_num⟩
  · simp only [List.forall_mem_cons, List.not_mem_nil, false_implies, implies_true, and_true]
    exact ⟨prime_2, prime_3, prime_149, prime_631, prime_107361793816595537, prime_174723607534414371449, prime_341948486974166000522343609283189⟩

def secpP : ℕ := 115792089237316195423570985008687907853269984665640564039457584007908834671663

def secpN : ℕ := 115792089237316195423570985008687907852837564279074904382605163141518161494337

instance fact_secpP : Fact (Nat.Prime secpP) := ⟨prime_secpP⟩

instance fact_secpN : Fact (Nat.Prime secpN) := ⟨prime_secpN⟩

end H2
