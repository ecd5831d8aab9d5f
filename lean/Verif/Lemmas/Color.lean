import Verif.Model.Color
import Verif.Model.GContext

namespace Sinab

theorem hexDigit_ne_nul : ∀ n, n < 16 → hexDigit n ≠ '\x00' := by decide
theorem hexDigit_size : ∀ n, n < 16 → (hexDigit n).utf8Size = 1 := by decide

theorem hi_lt (b : UInt8) : b.toNat / 16 < 16 := by
  have := b.toNat_lt; omega
theorem lo_lt (b : UInt8) : b.toNat % 16 < 16 := by omega

theorem String.utf8ByteSize_ofList (l : List Char) :
    (String.ofList l).utf8ByteSize = (l.map Char.utf8Size).sum := by
  induction l with
  | nil => simp
  | cons c l ih =>
    have : String.ofList (c :: l) = String.ofList [c] ++ String.ofList l := by
      rw [← String.ofList_append]; rfl
    rw [this, String.utf8ByteSize_append, ih]
    have h1 : String.ofList [c] = String.singleton c := by simp
    rw [h1, String.utf8ByteSize_singleton]
    simp

theorem RGBA.utf8ByteSize_le (c : RGBA) : c.toStr.utf8ByteSize ≤ 9 := by
  unfold RGBA.toStr
  rw [String.utf8ByteSize_ofList]
  unfold RGBA.chars hex2
  have h1 : ('#' : Char).utf8Size = 1 := by decide
  split <;> simp [hexDigit_size _ (hi_lt _), hexDigit_size _ (lo_lt _), h1]

theorem RGBA.no_nul (c : RGBA) : '\x00' ∉ c.chars := by
  have h : ∀ b : UInt8, '\x00' ∉ hex2 b := by
    intro b hb
    simp only [hex2, List.mem_cons, List.not_mem_nil, or_false] at hb
    rcases hb with h | h
    · exact hexDigit_ne_nul _ (hi_lt b) h.symm
    · exact hexDigit_ne_nul _ (lo_lt b) h.symm
  unfold RGBA.chars
  split <;> simp [h]

theorem RGBA.cstring_ok (c : RGBA) : cstring c.toStr = .ok c.toStr := by
  unfold cstring
  have : ¬ (c.toStr.toList.contains '\x00') = true := by
    simp [RGBA.toStr, RGBA.no_nul]
  rw [if_neg this]

theorem RGBA.strcpy_ok (c : RGBA) : strcpy c.toStr = .ok c.toStr := by
  unfold strcpy stringBufferSize
  have := c.utf8ByteSize_le
  rw [if_pos (by omega)]

theorem GCtx.setColor_ok (gc : GCtx) (c : RGBA) :
    gc.setColor c = .ok { gc with color := c.toStr } := by
  simp [GCtx.setColor, c.cstring_ok, c.strcpy_ok, bind, Except.bind, pure, Except.pure]

theorem GCtx.setFill_ok (gc : GCtx) (c : RGBA) :
    gc.setFill c = .ok { gc with fill := c.toStr } := by
  simp [GCtx.setFill, c.cstring_ok, c.strcpy_ok, bind, Except.bind, pure, Except.pure]

end Sinab
