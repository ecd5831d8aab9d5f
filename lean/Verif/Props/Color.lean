import Verif.Lemmas.Color

/-! # C03  Colour strings round-trip, C06 Graphics-context buffers -/

namespace Sinab

/-! ## Specification: reading a `#rrggbb` / `#rrggbbaa` string -/

/-- value of a hexadecimal digit in either letter case -/
def hexVal (c : Char) : Option Nat :=
  if '0' ≤ c ∧ c ≤ '9' then some (c.toNat - '0'.toNat)
  else if 'a' ≤ c ∧ c ≤ 'f' then some (c.toNat - 'a'.toNat + 10)
  else if 'A' ≤ c ∧ c ≤ 'F' then some (c.toNat - 'A'.toNat + 10)
  else none

/-- value of a list of hexadecimal digits, most significant first -/
def hexNum (acc : Nat) : List Char → Option Nat
  | [] => some acc
  | c :: cs => (hexVal c).bind fun d => hexNum (16 * acc + d) cs

/-- How R reads a colour string: `#` followed by 6 or 8 hexadecimal digits; six
digits mean full opacity. Returns the four components. -/
def readColor (s : List Char) : Option (Nat × Nat × Nat × Nat) :=
  match s with
  | '#' :: cs =>
    if cs.length = 6 then
      (hexNum 0 cs).map fun n => (n / 65536, n / 256 % 256, n % 256, 255)
    else if cs.length = 8 then
      (hexNum 0 cs).map fun n => (n / 16777216, n / 65536 % 256, n / 256 % 256, n % 256)
    else none
  | _ => none

theorem hexVal_hexDigit : ∀ n, n < 16 → hexVal (hexDigit n) = some n := by decide

/-- **C03** the colour string decodes to the four components. -/
theorem C03_color_roundtrip (c : RGBA) :
    readColor c.toStr.toList = some (c.r.toNat, c.g.toNat, c.b.toNat, c.a.toNat) := by
  have hr := c.r.toNat_lt
  have hg := c.g.toNat_lt
  have hb := c.b.toNat_lt
  have ha := c.a.toNat_lt
  unfold RGBA.toStr RGBA.chars hex2
  split
  · rename_i h
    have : c.a.toNat = 255 := by rw [h]; rfl
    simp [readColor, hexNum, hexVal_hexDigit _ (hi_lt _), hexVal_hexDigit _ (lo_lt _), this]
    omega
  · simp [readColor, hexNum, hexVal_hexDigit _ (hi_lt _), hexVal_hexDigit _ (lo_lt _)]
    omega

/-- **C03** different colours give different strings. -/
theorem C03_color_injective (c d : RGBA) (h : c.toStr = d.toStr) : c = d := by
  have hc := C03_color_roundtrip c
  have hd := C03_color_roundtrip d
  rw [h, hd] at hc
  simp only [Option.some.injEq, Prod.mk.injEq] at hc
  obtain ⟨h1, h2, h3, h4⟩ := hc
  cases c; cases d
  simp only [RGBA.mk.injEq]
  exact ⟨(UInt8.toNat_inj.mp h1).symm, (UInt8.toNat_inj.mp h2).symm,
    (UInt8.toNat_inj.mp h3).symm, (UInt8.toNat_inj.mp h4).symm⟩

/-- **C03** the alpha suffix is left out exactly for opaque colours; the
string has 7 or 9 characters. -/
theorem C03_color_length (c : RGBA) :
    c.toStr.toList.length = if c.a = 255 then 7 else 9 := by
  unfold RGBA.toStr RGBA.chars hex2
  split <;> simp

/-- **C03/C06** every colour is copied completely to the C buffer. -/
theorem C03_color_fits (gc : GCtx) (c : RGBA) :
    gc.setColor c = .ok { gc with color := c.toStr } ∧
    gc.setFill c = .ok { gc with fill := c.toStr } :=
  ⟨gc.setColor_ok c, gc.setFill_ok c⟩

example : (⟨255, 0, 16, 128⟩ : RGBA).toStr = "#ff001080" := by decide
example : (⟨255, 0, 16, 255⟩ : RGBA).toStr = "#ff0010" := by decide
example : readColor "#ff001080".toList = some (255, 0, 16, 128) := by decide

/-! ## C06 -/

/-- The full claim of **C06** for the font family setter: every font family name
is accepted without writing outside the buffer. -/
def C06_full : Prop :=
  ∀ (gc : GCtx) (name : String), gc.setFontfamily name ≠ .error .bufferOverflow

/-- **C06 is false of the code**: a 201 byte family name overflows the buffer. -/
theorem C06_full_false : ¬ C06_full := by
  intro h
  apply h GCtx.new (String.ofList (List.replicate 201 'a'))
  decide +kernel

/-- **C06, partial**: names without NUL of at most 200 bytes are stored
unchanged, and these are the only ones accepted.  Missing: longer names, for
which the claim is false (`C06_full_false`). -/
theorem C06_fontfamily_partial (gc : GCtx) (name : String) :
    (gc.setFontfamily name = .ok { gc with fontfamily := name } ↔
      ('\x00' ∉ name.toList ∧ name.utf8ByteSize ≤ 200)) ∧
    (gc.setFontfamily name = .error .bufferOverflow ↔
      ('\x00' ∉ name.toList ∧ 200 < name.utf8ByteSize)) := by
  unfold GCtx.setFontfamily cstring strcpy stringBufferSize
  by_cases h : '\x00' ∈ name.toList
  · have : (name.toList.contains '\x00') = true := by simpa using h
    rw [if_pos this]
    simp [bind, Except.bind, h]
  · have : ¬ (name.toList.contains '\x00') = true := by simpa using h
    rw [if_neg this]
    simp only [bind, Except.bind]
    by_cases h2 : name.utf8ByteSize + 1 ≤ 201
    · rw [if_pos h2]
      have h3 : name.utf8ByteSize ≤ 200 := by omega
      simp [pure, Except.pure, h, h3]
    · rw [if_neg h2]
      have h3 : 200 < name.utf8ByteSize := by omega
      simp [h, h3]

example : GCtx.new.setFontfamily "Comic Sans MS" =
    .ok { GCtx.new with fontfamily := "Comic Sans MS" } := by decide +kernel

end Sinab
