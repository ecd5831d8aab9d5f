import Verif.Props.Newline
import Verif.Spec.NewlineLines

/-! A text with any number of newlines is drawn line by line (C100). -/

namespace Sinab

open Sinab.Append Vertical

theorem move_lower (y d : Length) (c : DrawCall) : (c.move ⟨0, d⟩).move ⟨0, y⟩ = c.move ⟨0, y + d⟩ := by
  cases c <;> simp [DrawCall.move, add_assoc, add_comm d y, Function.comp_def]

theorem move_none (c : DrawCall) : c.move ⟨0, 0⟩ = c := by
  cases c <;> simp [DrawCall.move]

theorem textPage_ok (E : TextEnv) (ps st : Style) (f : Font) (size : PVec2 Length) (t : Text) :
    ∃ fs, textPage E ps st f size t = .ok fs := by
  obtain ⟨fc, -, h⟩ := root_layout E (c := .inlineFormattingContext ps [.textRun st t f]) false
    (by simp [noAbs, inlinesNoAbs, inlineNoAbs]) size le_rfl
  exact ⟨_, h⟩

/-- C100 for texts with any number of newlines: every such text is laid out, and what is drawn for it is what is drawn for
its parts up to and including a newline, each on a page of its own, one below the other.  (No word in front of the last
newline is too long for a line, if lines are broken in the text.) -/
theorem C100_lines_partial (E : TextEnv) (ps st : Style) (f : Font) (size : PVec2 Length) :
    ∃ pages : Text → List Fragment, (∀ t, textPage E ps st f size t = .ok (pages t)) ∧
      ∀ (ts : List Text) (last : Text), (∀ t ∈ ts, TextFits E size.x st f t) →
        (paintPage size (pages (withNewlines ts last))).calls.filter DrawCall.isMark =
          oneBelowTheOther (fun t => (paintPage size (pages t)).calls.filter DrawCall.isMark)
            (fun t => linesHeightAll (pages t)) 0 ts last := by
  choose pages hp using textPage_ok E ps st f size
  refine ⟨pages, hp, fun ts last hf => ?_⟩
  have key : ∀ (ts : List Text) (y : Length), (∀ t ∈ ts, TextFits E size.x st f t) →
      ((paintPage size (pages (withNewlines ts last))).calls.filter DrawCall.isMark).map (DrawCall.move ⟨0, y⟩) =
        oneBelowTheOther (fun t => (paintPage size (pages t)).calls.filter DrawCall.isMark)
          (fun t => linesHeightAll (pages t)) y ts last := by
    intro ts
    induction ts with
    | nil => intro y _; rfl
    | cons t ts ih =>
      intro y hf
      have h := C100_newline_partial E (A := []) (B := []) (hf t (.head _)) ⟨trivial, rfl⟩ ⟨trivial, rfl⟩
        .here .here .here (hp (t ++ '\n' :: withNewlines ts last)) (hp (t ++ ['\n'])) (hp (withNewlines ts last))
      rw [withNewlines, h, List.map_append, List.map_map, oneBelowTheOther, ← ih _ fun u hu => hf u (.tail _ hu)]
      congr 1
      apply List.map_congr_left
      intro c _
      exact move_lower _ _ c
  rw [← key ts 0 hf]
  conv_lhs => rw [← List.map_id ((paintPage size (pages (withNewlines ts last))).calls.filter DrawCall.isMark)]
  apply List.map_congr_left
  intro c _
  exact (move_none c).symm

theorem newline_height (E : TextEnv) (w : ℚ) (root : Font) {st : Style} {f : Font} {t : Text} (A B : List InlineLevelBox)
    (X : Text) (h1 : TextFits E w st f t) : pageHeight E root (inlineLines E w (A ++ .textRun st (t ++ '\n' :: X) f :: B) 0) =
      pageHeight E root (inlineLines E w (A ++ [.textRun st (t ++ ['\n']) f]) 0) +
        pageHeight E root (inlineLines E w (.textRun st X f :: B) 0) := by
  obtain ⟨P, -, h⟩ := inlineLines_newline E w st f t h1 A 0
  have hb : pageHeight E root [[Item.text st f [] false]] = 0 := by
    simp [pageHeight, lineHeight, lineAscent, lineDescent, extents, Item.extents, maxAll]
  have ha : ∀ P M : List Line, pageHeight E root (P ++ M) = pageHeight E root P + pageHeight E root M := by
    intro P M
    simp [pageHeight]
  obtain ⟨Z0, M0, a1, a2, a3⟩ := h [] []
  obtain ⟨Z, M, b1, b2, b3⟩ := h X B
  have a4 := congrArg (pageHeight E root) a2
  rw [inlineLines_blank, hb, ha] at a4
  rw [a1, b1, b2, ha, ha, ha]
  have z : ∀ Z : List Line, Z = [] ∨ Z = [[Item.text st f [] false]] → pageHeight E root Z = 0 := by
    rintro Z (rfl | rfl)
    · rfl
    · exact hb
  rw [z Z0 a3] at a4
  rw [z Z b3]
  linarith

/-- C100 for heights: the lines of a text with a newline are together as high as those of the part up to and including the
newline and those of the part behind it. -/
theorem C100_height_partial (E : TextEnv) {ps st : Style} {t X : Text} {f : Font} {size : PVec2 Length}
    {fs fs1 fs2 : List Fragment} (h1 : TextFits E size.x st f t)
    (hf : textPage E ps st f size (t ++ '\n' :: X) = .ok fs) (hf1 : textPage E ps st f size (t ++ ['\n']) = .ok fs1)
    (hf2 : textPage E ps st f size X = .ok fs2) : linesHeightAll fs = linesHeightAll fs1 + linesHeightAll fs2 := by
  have hs : ∀ t, (BlockContainer.inlineFormattingContext ps [.textRun st t f]).sound := fun t => ⟨trivial, trivial⟩
  obtain ⟨gs, rfl, -, -, k⟩ := page_text E .here rfl (hs _) hf
  obtain ⟨gs1, rfl, -, -, k1⟩ := page_text E .here rfl (hs _) hf1
  obtain ⟨gs2, rfl, -, -, k2⟩ := page_text E .here rfl (hs _) hf2
  rw [k, k1, k2, linesHeight_place, linesHeight_place, linesHeight_place]
  exact newline_height E size.x (E.font ps) [] [] X h1

/-! ## Examples -/

example : withNewlines ["ab cd".toList, [], "ef".toList] "gh".toList = "ab cd\n\nef\ngh".toList := by decide

/-- four lines of text, one of them empty; the first does not fit on one line -/
example : writtenAt ⟨35, 50⟩ (.inlineFormattingContext plainStyle [appendWords "ab cd\n\nef\ngh"]) =
    [("ab", 0, 68 / 5), ("cd", 0, 164 / 5), ("ef", 0, 356 / 5), ("gh", 0, 452 / 5)] := by
  decide +kernel

/-- the height of the lines of a text -/
def newlineHeight (t : String) : Length :=
  match textPage blockEnv plainStyle plainStyle (blockEnv.font plainStyle) ⟨35, 50⟩ t.toList with
  | .ok fs => linesHeightAll fs
  | .error _ => 0

example : newlineHeight "ab cd\n" = 192 / 5 ∧ newlineHeight "\nef" = 192 / 5 ∧ newlineHeight "ab cd\n\nef" = 384 / 5 := by
  decide +kernel

end Sinab
