/-
The pad index: row number in the upper, pad number in the lower 16 bits of an `int`.
-/
import Mathlib.Algebra.Order.Ring.Int
import Verif.Basic

set_option autoImplicit false
set_option linter.unusedSectionVars false

namespace Gear.PadIndex

/-- `(rowNum << 16) | (0x0000ffff & padNum)` on 32-bit `int`s, as written in
`src/gearimpl/RectangularPadRowLayout.cc` line 292, `FixedPadAngleDiskLayout.cc` line 206,
`FixedPadSizeDiskLayout.cc` line 255 and `VersatileDiskRowLayout.cc` lines 243, 401, 409, 411.
Shifting a negative value, or shifting bits out of an unsigned int, is undefined behaviour in C++11/14
([expr.shift]); both are the outcome `ub` here. -/
def encode (rowNum padNum : ℤ) : Res ℤ :=
  if 0 ≤ rowNum ∧ rowNum < 65536 then
    .ok (((BitVec.ofInt 32 rowNum) <<< 16 ||| (0x0000ffff#32 &&& BitVec.ofInt 32 padNum)).toInt)
  else .ub

/-- `( 0xffff0000 & padIndex ) >> 16`: the mask is `unsigned`, so this is a logical shift.
`RectangularPadRowLayout.cc` line 258, `VersatileDiskRowLayout.cc` line 209,
`include/gear/gearimpl/FixedPadSizeDiskLayout.h` line 157, `FixedDiskLayoutBase.h` line 46 (used by
FixedPadAngleDiskLayout). -/
def rowBits (padIndex : ℤ) : ℤ :=
  (((0xffff0000#32 &&& BitVec.ofInt 32 padIndex) >>> 16).toNat : ℤ)

/-- `( 0x0000ffff & padIndex )`: `getPadNumber` of every layout class
(`include/gear/gearimpl/RectangularPadRowLayout.h` line 179,
`VersatileDiskRowLayout.h` line 207, `FixedPadSizeDiskLayout.h` line 161, `FixedDiskLayoutBase.h`
line 51). -/
def padBits (padIndex : ℤ) : ℤ :=
  (0x0000ffff#32 &&& BitVec.ofInt 32 padIndex).toInt

end Gear.PadIndex
