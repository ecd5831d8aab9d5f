import Verif.Model.Basic
import Mathlib.Data.Rat.Defs
import Mathlib.Algebra.Order.Ring.Rat
import Mathlib.Algebra.Order.Ring.Unbundled.Rat

namespace Sinab

/-- `SpecifiedLength` (style/values/length.rs 31-34) -/
inductive SpecifiedLength where
  | absolute (px : Length)
  | em (value : ℚ)
  deriving DecidableEq, Repr

/-- `LengthOrPercentage` (style/values/length.rs 43-46); the percentage is the
unit value (`50%` is `1/2`), as in `Percentage` 16-18. -/
inductive LengthOrPercentage where
  | length (l : Length)
  | percentage (p : ℚ)
  deriving DecidableEq, Repr

/-- `SpecifiedLengthOrPercentage` (style/values/length.rs 37-40) -/
inductive SpecifiedLengthOrPercentage where
  | length (l : SpecifiedLength)
  | percentage (p : ℚ)
  deriving DecidableEq, Repr

/-- `LengthOrPercentageOrAuto` (style/values/length.rs 56-60) -/
inductive LengthOrPercentageOrAuto where
  | length (l : Length)
  | percentage (p : ℚ)
  | auto
  deriving DecidableEq, Repr

/-- `SpecifiedLengthOrPercentageOrAuto` (style/values/length.rs 49-53) -/
inductive SpecifiedLengthOrPercentageOrAuto where
  | length (l : SpecifiedLength)
  | percentage (p : ℚ)
  | auto
  deriving DecidableEq, Repr

/-- `LengthOrPercentageOrNumber` (style/values/length.rs 70-74) -/
inductive LengthOrPercentageOrNumber where
  | length (l : Length)
  | percentage (p : ℚ)
  | number (n : ℚ)
  deriving DecidableEq, Repr

/-- `SpecifiedLengthOrPercentageOrNumber` (style/values/length.rs 63-67) -/
inductive SpecifiedLengthOrPercentageOrNumber where
  | length (l : SpecifiedLength)
  | percentage (p : ℚ)
  | number (n : ℚ)
  deriving DecidableEq, Repr

/-- `LengthOrAuto` (style/values/length.rs 77-80) -/
inductive LengthOrAuto where
  | length (l : Length)
  | auto
  deriving DecidableEq, Repr

/-- style/values/length.rs 261-266 -/
def LengthOrPercentage.percentageRelativeTo (reference : Length) : LengthOrPercentage → Length
  | .length l => l
  | .percentage p => reference * p

/-- style/values/length.rs 270-276 -/
def LengthOrPercentageOrNumber.relativeTo (reference : Length) :
    LengthOrPercentageOrNumber → Length
  | .length l => l
  | .percentage p => reference * p
  | .number n => reference * n

/-- style/values/length.rs 289-295 -/
def LengthOrPercentageOrAuto.nonAuto : LengthOrPercentageOrAuto → Option LengthOrPercentage
  | .length l => some (.length l)
  | .percentage p => some (.percentage p)
  | .auto => none

/-- style/values/length.rs 297-303 -/
def LengthOrPercentageOrAuto.percentageRelativeTo (reference : Length) :
    LengthOrPercentageOrAuto → LengthOrAuto
  | .length l => .length l
  | .percentage p => .length (reference * p)
  | .auto => .auto

/-- style/values/length.rs 307-312.  The closure is replaced by its value (all
callers pass pure closures). -/
def LengthOrAuto.autoIs (auto_value : Length) : LengthOrAuto → Length
  | .length l => l
  | .auto => auto_value

/-- style/values/length.rs 314-319 -/
def LengthOrAuto.map (f : Length → Length) : LengthOrAuto → LengthOrAuto
  | .length l => .length (f l)
  | .auto => .auto

end Sinab
