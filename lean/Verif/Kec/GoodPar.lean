import Verif.Kec.Good

/-!
# Some parameters with all their lookups
-/

set_option autoImplicit false
namespace H2.Kec

theorem good_19_1 : Good 19 1 := by decide +kernel
theorem good_19_2 : Good 19 2 := by decide +kernel
theorem good_20_1 : Good 20 1 := by decide +kernel
theorem good_20_2 : Good 20 2 := by decide +kernel
theorem good_10_4 : Good 10 4 := by decide +kernel

end H2.Kec
