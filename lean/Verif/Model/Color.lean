import Verif.Model.Basic

namespace Sinab

/-- `primitives::RGBA` (src/sinab/src/primitives.rs 14-15); also the four byte
components of `cssparser::RGBA` to which it is converted field by field
(primitives.rs 17-21). -/
structure RGBA where
  r : UInt8
  g : UInt8
  b : UInt8
  a : UInt8
  deriving DecidableEq, Repr

/-- Lower-case hexadecimal digit as produced by Rust's `{:x}`. -/
def hexDigit (n : Nat) : Char :=
  if n < 10 then Char.ofNat ('0'.toNat + n) else Char.ofNat ('a'.toNat + (n - 10))

/-- Rust's `{:02x}` on a `u8`. -/
def hex2 (b : UInt8) : List Char := [hexDigit (b.toNat / 16), hexDigit (b.toNat % 16)]

/-- `impl Display for RGBA` (src/sinab/src/primitives.rs 23-31). -/
def RGBA.chars (c : RGBA) : List Char :=
  if c.a = 255 then
    '#' :: (hex2 c.r ++ hex2 c.g ++ hex2 c.b)
  else
    '#' :: (hex2 c.r ++ hex2 c.g ++ hex2 c.b ++ hex2 c.a)

/-- `RGBA::to_string` -/
def RGBA.toStr (c : RGBA) : String := String.ofList c.chars

end Sinab
