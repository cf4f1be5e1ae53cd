import Verif.Kec.Large

/-! Parameters from which the cell manager does not wrap around: computations on the layout (`decide +kernel` on the modelled layout). -/

namespace H2.Kec

theorem noWrap_14 : ((layoutC 14 123) (CM.new 123)).isSome = true := by decide +kernel
theorem noWrap_18 : ((layoutC 18 111) (CM.new 111)).isSome = true := by decide +kernel
theorem noWrap_20 : ((layoutC 20 101) (CM.new 101)).isSome = true := by decide +kernel
theorem inFree0_14_123 : inFree 123 (layout 14 123) 0 = true := by decide +kernel
theorem inFree0_18_111 : inFree 111 (layout 18 111) 0 = true := by decide +kernel
theorem inFree0_20_101 : inFree 101 (layout 20 101) 0 = true := by decide +kernel
theorem sqFree_14_123 : sqFree 123 (layout 14 123) 7 = true := by decide +kernel
theorem sqFree_18_111 : sqFree 111 (layout 18 111) 7 = true := by decide +kernel
theorem sqFree_20_101 : sqFree 101 (layout 20 101) 7 = true := by decide +kernel

end H2.Kec
