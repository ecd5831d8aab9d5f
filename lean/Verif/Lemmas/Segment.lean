import Verif.Spec.Text
import Mathlib.Tactic.Linarith

namespace Sinab

theorem Char.utf8Size_ne_zero' (c : Char) : 0 < c.utf8Size := Char.utf8Size_pos c

@[simp] theorem utf8Len_append (a b : Text) : utf8Len (a ++ b) = utf8Len a + utf8Len b := by
  induction a with
  | nil => simp [utf8Len]
  | cons c cs ih => simp [utf8Len, ih, Nat.add_assoc]

theorem utf8Len_eq_zero {t : Text} : utf8Len t = 0 ↔ t = [] := by
  cases t with
  | nil => simp [utf8Len]
  | cons c cs => have := Char.utf8Size_pos c; simp [utf8Len]; omega

@[simp] theorem truncateBytes_prefix (pre t : Text) :
    truncateBytes (utf8Len pre) (pre ++ t) = .ok pre := by
  induction pre with
  | nil => cases t <;> simp [utf8Len, truncateBytes]
  | cons c cs ih =>
    have hc := Char.utf8Size_pos c
    simp only [utf8Len, List.cons_append, truncateBytes]
    rw [if_neg (by omega), if_pos (by omega)]
    have : c.utf8Size + utf8Len cs - c.utf8Size = utf8Len cs := by omega
    rw [this, ih]
    rfl

/-- a cached width is the width of the text -/
def CacheOk (E : TextEnv) (f : Font) (t : Text) (w : Option Length) : Prop :=
  ∀ l, w = some l → l = E.width f t

namespace ShapedSegment

variable {E : TextEnv} {s : ShapedSegment}

/-- the cached width, if any, is the width of the current text -/
def Fresh (E : TextEnv) (s : ShapedSegment) : Prop := CacheOk E s.font s.glyphs s.advanceWidth

theorem fresh_new (f : Font) : (new f).Fresh E := by intro l h; cases h

theorem Fresh.appendChar (c : Char) : (s.appendChar c).Fresh E := by intro l h; cases h

theorem Fresh.stripSpace (h : s.Fresh E) : s.stripSpace.Fresh E := by
  unfold ShapedSegment.stripSpace
  split
  · intro l h; cases h
  · exact h

theorem getAdvanceWidth_fst (h : s.Fresh E) : (s.getAdvanceWidth E).1 = E.width s.font s.glyphs := by
  unfold getAdvanceWidth
  split
  · rename_i l hl; exact h l hl
  · rfl

@[simp] theorem getAdvanceWidth_glyphs : (s.getAdvanceWidth E).2.glyphs = s.glyphs := by
  unfold getAdvanceWidth; split <;> rfl

@[simp] theorem getAdvanceWidth_font : (s.getAdvanceWidth E).2.font = s.font := by
  unfold getAdvanceWidth; split <;> rfl

theorem Fresh.getAdvanceWidth (h : s.Fresh E) : (s.getAdvanceWidth E).2.Fresh E := by
  unfold ShapedSegment.getAdvanceWidth
  split
  · exact h
  · intro l hl; cases hl; rfl

@[simp] theorem appendChar_glyphs (c : Char) : (s.appendChar c).glyphs = s.glyphs ++ [c] := rfl
@[simp] theorem appendChar_font (c : Char) : (s.appendChar c).font = s.font := rfl
@[simp] theorem stripSpace_font : s.stripSpace.font = s.font := by
  unfold ShapedSegment.stripSpace; split <;> rfl

theorem empty_iff : s.empty = true ↔ s.glyphs = [] := by
  simp [ShapedSegment.empty, utf8Len_eq_zero]

theorem empty_eq : s.empty = decide (s.glyphs = []) := by
  by_cases h : s.glyphs = [] <;> simp [ShapedSegment.empty, utf8Len_eq_zero, h]

end ShapedSegment

/-! ### One line of wrapped text -/

/-- a break opportunity as recorded by the scanning loop: `T` is the text from the start
of the line, `glyphs` what has been put on the line so far -/
def BreakOk (E : TextEnv) (f : Font) (avail : ℚ) (first : Bool) (T glyphs : Text) :
    Option (SegState × Text) → Prop
  | none => first = false ∧ Unbreakable glyphs
  | some (st, iter) => ∃ pre sep word, st.glyphs = utf8Len pre ∧ CacheOk E f pre st.advanceWidth ∧
      glyphs = pre ++ sep ++ word ∧ Unbreakable word ∧ T = pre ++ sep ++ iter ∧ '\n' ∉ pre ∧
      ((sep = [' '] ∧ E.width f pre ≤ avail) ∨
       (sep = [] ∧ ∃ q, pre = q ++ ['-'] ∧ E.width f q ≤ avail) ∨
       (sep = [] ∧ pre = [] ∧ first = true))

theorem overflowBreak_spec {E : TextEnv} {avail : ℚ} {first : Bool} {T glyphs rest' : Text}
    {shaped : ShapedSegment} {lb : Option (SegState × Text)} {chars : Text}
    (hg : shaped.glyphs = glyphs) (hT : T = glyphs ++ rest')
    (hrest : (rest' = [] ∧ chars = []) ∨ ∃ c, rest' = c :: chars ∧ isBreakChar c)
    (hov : avail < E.width shaped.font glyphs) (hfr : shaped.Fresh E)
    (hlb : BreakOk E shaped.font avail first T glyphs lb) :
    ∃ r dropped, overflowBreak chars shaped lb = .ok r ∧ r.shaped.Fresh E ∧
      r.shaped.font = shaped.font ∧ T = r.shaped.glyphs ++ dropped ++ r.chars ∧
      LineEnd (E.width shaped.font) avail first r.shaped.glyphs dropped r.chars r.newline := by
  match lb, hlb with
  | none, ⟨hf, hu⟩ =>
    subst hf
    rcases hrest with ⟨rfl, rfl⟩ | ⟨c, rfl, hc⟩
    · refine ⟨_, [], rfl, hfr, rfl, by simp [hT, hg], ?_⟩
      simp only [hg]
      exact .overflowEnd hov hu
    · refine ⟨_, [c], rfl, hfr, rfl, by simp [hT, hg], ?_⟩
      simp only [hg]
      exact .overflow hov hu hc
  | some (st, iter), ⟨pre, sep, word, hst, hca, hgl, hw, hT', hnl, hkind⟩ =>
    have hiter : iter = word ++ rest' := by
      have : pre ++ sep ++ iter = pre ++ sep ++ (word ++ rest') := by
        rw [← hT', hT, hgl]; simp
      exact List.append_cancel_left this
    have hnext : NextWordOverflows (E.width shaped.font) avail (pre ++ sep) iter := by
      refine ⟨word, rest', hiter, hw, ?_, hgl ▸ hov⟩
      rcases hrest with ⟨rfl, rfl⟩ | ⟨c, rfl, hc⟩
      · exact .inl rfl
      · exact .inr ⟨_, _, rfl, hc⟩
    have hres : overflowBreak chars shaped (some (st, iter)) =
        .ok ⟨iter, { shaped with glyphs := pre, advanceWidth := st.advanceWidth }, false⟩ := by
      simp only [overflowBreak, ShapedSegment.restore, hg, hgl, hst, List.append_assoc,
        truncateBytes_prefix]
      rfl
    refine ⟨_, sep, hres, hca, rfl, hT', ?_⟩
    rcases hkind with ⟨rfl, hp⟩ | ⟨rfl, q, rfl, hq⟩ | ⟨rfl, rfl, rfl⟩
    · exact .space hp hnext hnl
    · exact .hyphen hq (by simpa using hnext) fun h => hnl (by simp [h])
    · exact .start (by simpa using hnext)

theorem Unbreakable.append_char {t : Text} {c : Char} (h : Unbreakable t) (hc : ¬ isBreakChar c) :
    Unbreakable (t ++ [c]) := by
  intro d hd
  rcases List.mem_append.1 hd with hd | hd
  · exact h d hd
  · rw [List.mem_singleton.1 hd]; exact hc

theorem unbreakable_nil : Unbreakable [] := by intro c h; cases h

theorem scanLine_spec (E : TextEnv) (avail : ℚ) (first : Bool) (T : Text) :
    ∀ (chars : Text) (shaped : ShapedSegment) (lb : Option (SegState × Text)),
      shaped.Fresh E → '\n' ∉ shaped.glyphs → T = shaped.glyphs ++ chars →
      BreakOk E shaped.font avail first T shaped.glyphs lb →
      ∃ r dropped, scanLine E avail chars shaped lb = .ok r ∧ r.shaped.Fresh E ∧
        r.shaped.font = shaped.font ∧ T = r.shaped.glyphs ++ dropped ++ r.chars ∧
        LineEnd (E.width shaped.font) avail first r.shaped.glyphs dropped r.chars r.newline := by
  intro chars
  induction chars with
  | nil =>
    intro shaped lb hfr hng hT hlb
    simp only [scanLine, ShapedSegment.getAdvanceWidth_fst hfr]
    split
    · rename_i hov
      have := overflowBreak_spec (E := E) (avail := avail) (first := first) (T := T)
        (glyphs := shaped.glyphs) (rest' := []) (shaped := (shaped.getAdvanceWidth E).2) (lb := lb)
        (chars := []) (by simp) hT (.inl ⟨rfl, rfl⟩) (by simpa using hov) hfr.getAdvanceWidth
        (by simpa using hlb)
      simpa using this
    · rename_i hfit
      refine ⟨_, [], rfl, hfr.getAdvanceWidth, by simp, by simpa using hT, ?_⟩
      simp only [ShapedSegment.getAdvanceWidth_glyphs]
      exact .done (not_lt.1 hfit) hng
  | cons ch chars ih =>
    intro shaped lb hfr hng hT hlb
    rw [scanLine]
    by_cases hb : ch = ' ' ∨ ch = '\n' ∨ ch = '-'
    · rw [if_pos hb]
      simp only [ShapedSegment.getAdvanceWidth_fst hfr]
      by_cases hov : E.width shaped.font shaped.glyphs > avail
      · rw [if_pos hov]
        have := overflowBreak_spec (E := E) (avail := avail) (first := first) (T := T)
          (glyphs := shaped.glyphs) (rest' := ch :: chars) (shaped := (shaped.getAdvanceWidth E).2)
          (lb := lb) (chars := chars) (by simp) hT (.inr ⟨ch, rfl, hb⟩) (by simpa using hov)
          hfr.getAdvanceWidth (by simpa using hlb)
        simpa using this
      · rw [if_neg hov]
        have hfit := not_lt.1 hov
        have hfr' := hfr.getAdvanceWidth
        by_cases hn : ch = '\n'
        · subst hn
          rw [if_pos rfl]
          refine ⟨_, if shaped.glyphs.getLast? = some ' ' then [' ', '\n'] else ['\n'], rfl,
            hfr'.stripSpace, by simp, ?_, ?_⟩
          · unfold ShapedSegment.stripSpace
            simp only [ShapedSegment.getAdvanceWidth_glyphs]
            split
            · rename_i hl
              obtain ⟨q, hq⟩ := List.getLast?_eq_some_iff.1 hl
              simp [hT, hq]
            · simp [hT]
          · unfold ShapedSegment.stripSpace
            simp only [ShapedSegment.getAdvanceWidth_glyphs]
            split
            · rename_i hl
              obtain ⟨q, hq⟩ := List.getLast?_eq_some_iff.1 hl
              rw [hq] at hfit hng ⊢
              simp only [List.dropLast_concat]
              exact .spaceNewline hfit fun h => hng (by simp [h])
            · simp only [ShapedSegment.getAdvanceWidth_glyphs]
              exact .newline hfit hng
        · rw [if_neg hn]
          by_cases hs : ch = ' '
          · subst hs
            rw [if_pos rfl]
            have := ih ((shaped.getAdvanceWidth E).2.appendChar ' ')
              (some ((shaped.getAdvanceWidth E).2.save, chars)) (ShapedSegment.Fresh.appendChar _)
              (by simpa using hng) (by simp [hT]) ⟨shaped.glyphs, [' '], [], by simp [ShapedSegment.save],
                by simpa [ShapedSegment.save, ShapedSegment.Fresh] using hfr', by simp, unbreakable_nil, by simp [hT], hng,
                .inl ⟨rfl, by simpa using hfit⟩⟩
            simpa using this
          · rw [if_neg hs]
            obtain rfl : ch = '-' := by tauto
            have := ih ((shaped.getAdvanceWidth E).2.appendChar '-')
              (some (((shaped.getAdvanceWidth E).2.appendChar '-').save, chars))
              (ShapedSegment.Fresh.appendChar _)
              (by simpa using hng) (by simp [hT]) ⟨shaped.glyphs ++ ['-'], [], [], by simp [ShapedSegment.save],
                (by intro l hl; cases hl), by simp, unbreakable_nil,
                by simp [hT], by simpa using hng, .inr (.inl ⟨rfl, shaped.glyphs, rfl, by simpa using hfit⟩)⟩
            simpa using this
    · rw [if_neg hb]
      have hne : ch ≠ '\n' := fun h => hb (.inr (.inl h))
      have := ih (shaped.appendChar ch) lb (ShapedSegment.Fresh.appendChar _)
        (by simpa [Ne.symm hne] using hng) (by simp [hT]) (by
        match lb, hlb with
        | none, ⟨hf, hu⟩ => exact ⟨hf, hu.append_char hb⟩
        | some (st, iter), ⟨pre, sep, word, h1, h2, h3, h4, h5, h6⟩ =>
          exact ⟨pre, sep, word ++ [ch], h1, h2, by simp [h3], h4.append_char hb, h5, h6⟩)
      simpa using this

end Sinab
