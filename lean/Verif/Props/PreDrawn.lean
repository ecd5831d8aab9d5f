import Verif.Props.AlignDrawn
import Verif.Spec.PreDrawn

/-! Preformatted text is drawn line by line, as it is written (C48). -/

namespace Sinab

open Sinab.Append Vertical

/-- the text on a line -/
def lineStrings : Line → List String
  | [.text _ _ u _] => if u = [] then [] else [String.ofList u]
  | _ => []

theorem placed_strings (E : TextEnv) {cb : ContainingBlock} (hm : cb.mode = (.horizontalTb, .ltr)) (al : TextAlign)
    (root : Font) (st : Style) (f : Font) : ∀ (L : List Line) (y : ℚ), (∀ l ∈ L, l = [] ∨ ∃ u n, l = [Item.text st f u n]) →
      uprightAll (placeLines E cb al root y L) →
      drawnStrings ((callsAt ⟨0, 0⟩ (placeLines E cb al root y L)).filter DrawCall.isMark) = L.flatMap lineStrings
  | [], _, _, _ => rfl
  | l :: L, y, h, hu => by
    rw [placeLines, uprightAll] at hu
    rw [placeLines, callsAt_cons _ hu.1, List.filter_append, List.flatMap_cons,
      ← placed_strings E hm al root st f L _ (fun l hl => h l (.tail _ hl)) hu.2]
    unfold drawnStrings
    rw [List.filterMap_append]
    congr 1
    rw [hm, callsAt, paintAll, paintAll, paint_anonymous]
    rcases h l (.head _) with rfl | ⟨u, n, rfl⟩
    · simp [place, paintAll, Trace.andThen, Trace.done, ownCalls, DrawCall.isMark, lineStrings]
    · by_cases hn : u = []
      · simp [place, Item.place, hn, paintAll, Trace.andThen, Trace.done, ownCalls, DrawCall.isMark, lineStrings]
      · simp [place, Item.place, hn, paintAll, paint_text, Trace.andThen, Trace.done, ownCalls, DrawCall.isMark,
          Fragment.translateBlock, lineStrings]
        rfl

theorem splitNewlines_none : ∀ (t : Text), '\n' ∉ t → splitNewlines t = [t]
  | [], _ => rfl
  | c :: t, h => by
    rw [splitNewlines, if_neg (fun e : c = '\n' => h (e ▸ .head _)), splitNewlines_none t fun e => h (.tail _ e)]

theorem splitNewlines_front (X : Text) : ∀ (t : Text), '\n' ∉ t → splitNewlines (t ++ '\n' :: X) = t :: splitNewlines X
  | [], _ => by simp [splitNewlines]
  | c :: t, h => by
    rw [List.cons_append, splitNewlines, if_neg (fun e : c = '\n' => h (e ▸ .head _)),
      splitNewlines_front X t fun e => h (.tail _ e)]

theorem splitNewlines_lines {last : Text} (hl : '\n' ∉ last) : ∀ (ts : List Text), (∀ t ∈ ts, '\n' ∉ t) →
    splitNewlines (withNewlines ts last) = ts ++ [last]
  | [], _ => splitNewlines_none last hl
  | t :: ts, h => by
    rw [withNewlines, splitNewlines_front _ t (h t (.head _)), splitNewlines_lines hl ts fun u hu => h u (.tail _ hu)]
    rfl

/-- C48 for what is drawn: for a text in which lines are not broken the lines as they are written are drawn, one after the
other, whatever the width of the page, and nothing for an empty one. -/
theorem C48_drawn (E : TextEnv) {ps st : Style} {f : Font} {ts : List Text} {last : Text} {w fl : Bool}
    {c : BlockContainer} {size : PVec2 Length} {fs : List Fragment} (hw : st.wraps = false)
    (hn : ∀ t ∈ ts ++ [last], '\n' ∉ t) (hc : OnlyText ps [.textRun st (withNewlines ts last) f] w c)
    (hf : rootLayout E (.mk c fl) size = .ok fs) :
    drawnStrings ((paintPage size fs).calls.filter DrawCall.isMark) =
      ((ts ++ [last]).filter (· ≠ [])).map String.ofList := by
  have hsc : c.sound := by
    clear hf
    induction hc with
    | here => exact ⟨trivial, trivial⟩
    | same w s c _ _ ih => exact ⟨ih, trivial⟩
    | independent w s c floats _ _ ih => exact ⟨ih, trivial⟩
  obtain ⟨gs, rfl, u, k, -⟩ := page_text E hc rfl hsc hf
  rw [k, placed_strings E rfl _ _ st f _ _ (lines_single E size.x st f _) u]
  have hcut : ∀ w : ℚ, cutRun E (st.val .whiteSpace) f w (w - 0) (withNewlines ts last) = newlinePieces (ts ++ [last]) := by
    intro w
    rw [← splitNewlines_lines (hn last (by simp)) ts fun t ht => hn t (by simp [ht])]
    unfold Style.wraps at hw
    unfold cutRun
    revert hw
    cases (st.val .whiteSpace : WhiteSpace) <;> simp
  have hp : ∀ P : List (Text × Bool), (P.map fun p => [Item.text st f p.1 p.2]).flatMap lineStrings =
      ((P.map (·.1)).filter (· ≠ [])).map String.ofList := by
    intro P
    induction P with
    | nil => rfl
    | cons l L ih =>
      rw [List.map_cons, List.flatMap_cons, ih, List.map_cons]
      by_cases hl : l.1 = []
      · rw [List.filter_cons_of_neg (by simp [hl])]
        simp [lineStrings, hl]
      · rw [List.filter_cons_of_pos (by simp [hl]), List.map_cons]
        simp [lineStrings, hl]
  have hnp : ∀ L : List Text, (newlinePieces L).map (·.1) = L := by
    intro L
    induction L with
    | nil => rfl
    | cons l L ih => cases L <;> simp_all [newlinePieces]
  have hne : ((newlinePieces (ts ++ [last])).map fun p => [Item.text st f p.1 p.2]) ≠ [] := by
    cases ts with
    | nil => simp [newlinePieces]
    | cons t ts => cases ts <;> simp [newlinePieces]
  simp only [inlineLines, InlineLevelBox.linesOf]
  rw [hcut, joinLines_last _ hne, hp, hnp]

/-- C48 for documents: if there is nothing to see in a document but a preformatted text, then its lines are drawn as they
are written, with all their spaces. -/
theorem C48_document {E : TextEnv} {C : BoxContext} {kids : NodeId → List NodeId} {st : Style} {cs : List Styled}
    {b : Bfc} {size : PVec2 Length} {fs : List Fragment} (h : Page C E kids st cs b size fs) (ho : st.outOfFlow = false)
    (hs : st.Frameless) {p s : Style} {last : Text} {ts : List Text} (hk : s.keepsSpace = true) (hw : s.wraps = false)
    (hn : ∀ t ∈ ts ++ [last], '\n' ∉ t) (h0 : withNewlines ts last ≠ [])
    (hc : ContentText p [.text s (withNewlines ts last)] st (unwrapAll cs)) :
    drawnStrings ((paintPage size fs).calls.filter DrawCall.isMark) =
      ((ts ++ [last]).filter (· ≠ [])).map String.ofList := by
  have e : startText s (withNewlines ts last) = withNewlines ts last := if_pos hk
  have h0' : startText s (withNewlines ts last) ≠ [] := by rwa [e]
  obtain ⟨c, fl, g, k⟩ := page_content h ho hs hc fun C hC => hC ▸ (line_boxes C (p := p) hk h0' h0').2.2
  rw [e] at g
  exact C48_drawn E hw hn g k

/-! ## Examples -/

/-- lines of width 50 and 30 with an empty one between them, on a page of width 35 -/
example : writtenAt ⟨35, 50⟩ (.inlineFormattingContext plainStyle
      [.textRun (plainStyle.set .whiteSpace WhiteSpace.pre) "ab  c\n\ndef".toList (blockEnv.font plainStyle)]) =
    [("ab  c", 0, 68 / 5), ("def", 0, 52)] := by decide +kernel

/-- a document with a preformatted text -/
def preDoc : Doc := pageOf [.node "pre" [.text "ab  c\n\ndef"]]

/-- the style of this text -/
def preStyle : Style := (pageStyle grownFrom).set .whiteSpace WhiteSpace.pre

example : rootCheck preDoc = true ∧ preStyle.keepsSpace = true ∧ preStyle.wraps = false ∧
    withNewlines ["ab  c".toList, []] "def".toList = "ab  c\n\ndef".toList := by decide +kernel

theorem preDoc_content : unwrapAll (rootContent preDoc) = [.elem 0 (pageStyle grownFrom) .block .flow
    [.elem 0 preStyle .block .flow [.text preStyle "ab  c\n\ndef".toList]]] := by
  apply sameAll_eq
  decide +kernel

example : ContentText preStyle [.text preStyle "ab  c\n\ndef".toList] (rootStyle preDoc) (unwrapAll (rootContent preDoc)) := by
  rw [preDoc_content]
  exact .inside _ _ _ _ _ (by constructor <;> decide +kernel) (by decide +kernel)
    (.inside _ _ _ _ _ (by constructor <;> decide +kernel) (by decide +kernel) .here)

example : pageAt preDoc 35 = some [("ab  c", 0, 68 / 5), ("def", 0, 52)] := by decide +kernel

end Sinab
