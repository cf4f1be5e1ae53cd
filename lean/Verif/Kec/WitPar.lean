import Verif.Kec.WitHash

/-!
# Some parameters for which completeness is proved

`k = 19`, 1 row per round and `k = 10`, 4 rows per round have all their lookups (`Kec/GoodPar.lean`); `k = 12`, 5 rows and `k = 14`, 25 rows are the ones
of the repository's tests (vanilla/tests.rs:216, 243, 323).
-/

set_option autoImplicit false
namespace H2.Kec

theorem wit_19_1 : Wit 19 1 := by decide +kernel
theorem wit_10_4 : Wit 10 4 := by decide +kernel
theorem wit_12_5 : Wit 12 5 := by decide +kernel
theorem wit_14_25 : Wit 14 25 := by decide +kernel
theorem rot_19 : witRot 19 = true := by decide +kernel
theorem rot_10 : witRot 10 = true := by decide +kernel
theorem rot_12 : witRot 12 = true := by decide +kernel
theorem rot_14 : witRot 14 = true := by decide +kernel

end H2.Kec
