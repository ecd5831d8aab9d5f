import Verif.Props.NewlineDoc
import Verif.Spec.AlignDrawn

/-! The texts of a paragraph are drawn as its alignment says (C51). -/

namespace Sinab

open Sinab.Append Vertical

theorem lines_single (E : TextEnv) (w : ℚ) (st : Style) (f : Font) (t : Text) :
    ∀ l ∈ inlineLines E w [.textRun st t f] 0, l = [] ∨ ∃ u n, l = [Item.text st f u n] := by
  intro l hl
  simp only [inlineLines, InlineLevelBox.linesOf] at hl
  by_cases h : (cutRun E (st.val .whiteSpace) f w (w - 0) t).map (fun p => [Item.text st f p.1 p.2]) = []
  · rw [h, joinLines] at hl
    exact .inl (List.mem_singleton.1 hl)
  · rw [joinLines_last _ h] at hl
    obtain ⟨p, -, rfl⟩ := List.mem_map.1 hl
    exact .inr ⟨_, _, rfl⟩

theorem placed_aligned (E : TextEnv) {cb : ContainingBlock} (hm : cb.mode = (.horizontalTb, .ltr)) (al : TextAlign)
    (root : Font) (st : Style) (f : Font) : ∀ (L : List Line) (y : ℚ), (∀ l ∈ L, l = [] ∨ ∃ u n, l = [Item.text st f u n]) →
      uprightAll (placeLines E cb al root y L) → ∀ c ∈ (callsAt ⟨0, 0⟩ (placeLines E cb al root y L)).filter DrawCall.isMark,
        c.AlignedText E cb.inlineSize al f (st.val .color)
  | [], _, _, _, c, hc => by cases hc
  | l :: L, y, h, hu, c, hc => by
    rw [placeLines, uprightAll] at hu
    rw [placeLines, callsAt_cons _ hu.1, List.filter_append, List.mem_append] at hc
    rcases hc with hc | hc
    · rw [hm, callsAt, paintAll, paintAll, paint_anonymous] at hc
      rcases h l (.head _) with rfl | ⟨u, n, rfl⟩
      · simp [place, paintAll, Trace.andThen, Trace.done, ownCalls, DrawCall.isMark] at hc
      · by_cases hn : u = []
        · simp [place, Item.place, hn, paintAll, Trace.andThen, Trace.done, ownCalls, DrawCall.isMark] at hc
        · simp [place, Item.place, hn, paintAll, paint_text, Trace.andThen, Trace.done, ownCalls, DrawCall.isMark,
            Fragment.translateBlock, Rect.addBlock, advance, Item.advance, Fragment.offset, pvec2_add, blockAt] at hc
          refine ⟨u, _, _, hn, hc.1, ?_⟩
          cases al <;> simp [TextAlign.fraction] <;> ring
    · exact placed_aligned E hm al root st f L _ (fun l hl => h l (.tail _ hl)) hu.2 c hc

/-- C51 for what is drawn: nothing is drawn for a page with a text, in any number of plain blocks, but pieces of text, and
each is at the left or the right edge of the page or in the middle, as the alignment of the paragraph says. -/
theorem C51_drawn (E : TextEnv) {ps st : Style} {f : Font} {t : Text} {w fl : Bool} {c : BlockContainer}
    {size : PVec2 Length} {fs : List Fragment} (hc : OnlyText ps [.textRun st t f] w c)
    (hf : rootLayout E (.mk c fl) size = .ok fs) :
    ∀ d ∈ (paintPage size fs).calls.filter DrawCall.isMark,
      d.AlignedText E size.x (ps.val .textAlign) f (st.val .color) := by
  have hsc : c.sound := by
    clear hf
    induction hc with
    | here => exact ⟨trivial, trivial⟩
    | same w s c _ _ ih => exact ⟨ih, trivial⟩
    | independent w s c floats _ _ ih => exact ⟨ih, trivial⟩
  obtain ⟨gs, rfl, u, k, -⟩ := page_text E hc rfl hsc hf
  rw [k]
  exact placed_aligned E rfl _ _ st f _ _ (lines_single E size.x st f t) u

/-- C51 for documents: if there is nothing to see in a document but texts with line break elements between them, in an
element `p`, then each piece of text is drawn as the `text-align` of this element says. -/
theorem C51_document {E : TextEnv} {C : BoxContext} {kids : NodeId → List NodeId} {st : Style} {cs : List Styled}
    {b : Bfc} {size : PVec2 Length} {fs : List Fragment} (h : Page C E kids st cs b size fs) (ho : st.outOfFlow = false)
    (hs : st.Frameless) {p s sb : Style} {t last : Text} {ts : List Text} (hb : sb.keepsSpace = true)
    (hc : ContentText p (brokenContent s sb (t :: ts) last) st (unwrapAll cs)) (ht : startText s t ≠ []) :
    ∀ d ∈ (paintPage size fs).calls.filter DrawCall.isMark,
      d.AlignedText E size.x (p.val .textAlign) (E.font s) (s.val .color) := by
  obtain ⟨c, fl, g, k⟩ := page_content h ho hs hc fun C hC => hC ▸ broken_boxes C (p := p) hb ts last ht
  exact C51_drawn E g k

/-! ## Examples -/

/-- lines of width 20, 10 and 30 on a page of width 35 -/
example : writtenAt ⟨35, 50⟩ (.inlineFormattingContext (plainStyle.set .textAlign TextAlign.right)
      [appendWords "ab c\ndef"]) = [("ab", 15, 68 / 5), ("c", 25, 164 / 5), ("def", 5, 52)] ∧
    writtenAt ⟨35, 50⟩ (.inlineFormattingContext (plainStyle.set .textAlign TextAlign.center)
      [appendWords "ab c\ndef"]) = [("ab", 15 / 2, 68 / 5), ("c", 25 / 2, 164 / 5), ("def", 5 / 2, 52)] := by
  decide +kernel

end Sinab
