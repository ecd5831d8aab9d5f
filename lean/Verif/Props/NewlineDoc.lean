import Verif.Props.NewlineLines
import Verif.Spec.NewlineDoc

/-! A document with any number of line break elements between texts is drawn line by line (C100). -/

namespace Sinab

open Sinab.Append Vertical

theorem joinLines_last : ∀ A : List Line, A ≠ [] → joinLines A [[]] = A
  | [a], _ => by simp [joinLines]
  | a :: a' :: A, _ => by rw [joinLines, joinLines_last (a' :: A) (by simp)]

/-- there is nothing but text on the lines of a text -/
theorem lines_text (E : TextEnv) (w : ℚ) (st : Style) (f : Font) (t : Text) :
    ∀ l ∈ inlineLines E w [.textRun st t f] 0, ∀ i ∈ l, ∃ u n, i = Item.text st f u n := by
  intro l hl i hi
  simp only [inlineLines, InlineLevelBox.linesOf] at hl
  by_cases h : (cutRun E (st.val .whiteSpace) f w (w - 0) t).map (fun p => [Item.text st f p.1 p.2]) = []
  · rw [h, joinLines] at hl
    simp only [List.mem_singleton] at hl
    subst hl
    cases hi
  · rw [joinLines_last _ h] at hl
    obtain ⟨p, -, rfl⟩ := List.mem_map.1 hl
    exact ⟨_, _, List.mem_singleton.1 hi⟩

/-- text is placed without regard to the height of the containing block -/
theorem placeLines_height (E : TextEnv) {cb cb' : ContainingBlock} (h1 : cb.inlineSize = cb'.inlineSize)
    (h2 : cb.mode = cb'.mode) (al : TextAlign) (root : Font) (st : Style) (f : Font) : ∀ (L : List Line) (y : ℚ),
    (∀ l ∈ L, ∀ i ∈ l, ∃ u n, i = Item.text st f u n) → placeLines E cb al root y L = placeLines E cb' al root y L
  | [], _, _ => rfl
  | l :: L, y, h => by
    have hl : ∀ (l : List Item) (x : ℚ), (∀ i ∈ l, ∃ u n, i = Item.text st f u n) →
        place E cb l root 0 x = place E cb' l root 0 x := by
      intro l
      induction l with
      | nil => intro x _; rfl
      | cons i is ih =>
        intro x h
        obtain ⟨u, n, rfl⟩ := h i (.head _)
        rw [place, place, ih _ fun j hj => h j (.tail _ hj), h1]
        rfl
    rw [placeLines, placeLines, hl l 0 (h l (.head _)), h1, h2,
      placeLines_height E h1 h2 al root st f L _ fun l hl => h l (.tail _ hl)]

/-- a text in plain blocks looks as if there were no blocks -/
theorem text_alone (E : TextEnv) {ps st : Style} {f : Font} {t : Text} {w fl : Bool} {c : BlockContainer}
    {size : PVec2 Length} {fs fs' : List Fragment} (hc : OnlyText ps [.textRun st t f] w c)
    (hf : rootLayout E (.mk c fl) size = .ok fs) (hf' : textPage E ps st f size t = .ok fs') :
    (paintPage size fs).calls.filter DrawCall.isMark = (paintPage size fs').calls.filter DrawCall.isMark := by
  have hs : (BlockContainer.inlineFormattingContext ps [.textRun st t f]).sound := ⟨trivial, trivial⟩
  have hsc : c.sound := by
    clear hf
    induction hc with
    | here => exact hs
    | same w s c _ _ ih => exact ⟨ih, trivial⟩
    | independent w s c floats _ _ ih => exact ⟨ih, trivial⟩
  obtain ⟨gs, rfl, -, k, -⟩ := page_text E hc rfl hsc hf
  obtain ⟨gs', rfl, -, k', -⟩ := page_text E .here rfl hs hf'
  rw [k, k']
  congr 2
  apply placeLines_height E (by rfl) (by rfl) _ _ st f _ _ (lines_text E size.x st f t)

theorem startText_nil (s : Style) : startText s [] = [] := by
  unfold startText
  split <;> rfl

/-- the inline-level boxes of texts with line break elements between them -/
theorem putAll_broken (C : BoxContext) (p : Style) {s sb : Style} (hb : sb.keepsSpace = true) (last : Text) :
    ∀ (ts : List Text) (a : Text) (F : Flow), F.inl = [.textRun s (a ++ ['\n']) (C.fontOf s)] →
      putAll C p false (brokenContent s sb ts last) F =
        { F with inl := [.textRun s (a ++ '\n' :: withNewlines (ts.map (startText s)) (startText s last)) (C.fontOf s)] } := by
  have h1 : ∀ (a t : Text), textInto C s t [.textRun s (a ++ ['\n']) (C.fontOf s)] =
      [.textRun s (a ++ '\n' :: startText s t) (C.fontOf s)] := by
    intro a t
    by_cases ht : startText s t = []
    · rw [textInto_eq C s t (by simp [filledAll, InlineLevelBox.filled]), contribution,
        show atGap (inlineText [.textRun s (a ++ ['\n']) (C.fontOf s)]) = true by
          simp [inlineText, InlineLevelBox.text, atGap, htmlSpace], ht]
      unfold startText at ht
      rw [ht]
      rfl
    · rw [textInto_line C s t (by simp [filledAll, InlineLevelBox.filled])
        (by simp [inlineText, InlineLevelBox.text, atGap, htmlSpace]) ht]
      simp [appendText]
  have h2 : ∀ a : Text, textInto C sb ['\n'] [.textRun s a (C.fontOf s)] = [.textRun s (a ++ ['\n']) (C.fontOf s)] := by
    intro a
    obtain ⟨g, h⟩ := textInto_any C sb ['\n'] [.textRun s a (C.fontOf s)]
    rw [h, if_pos hb]
    rfl
  have h3 : ∀ (t a : Text) (F : Flow), F.inl = [.textRun s (a ++ ['\n']) (C.fontOf s)] →
      putAll C p false (if t = [] then [] else [.text s t]) F =
        { F with inl := [.textRun s (a ++ '\n' :: startText s t) (C.fontOf s)] } := by
    intro t a F hF
    obtain ⟨_, _, _, _⟩ := F
    subst hF
    split
    · rename_i ht
      rw [ht, startText_nil]
      rfl
    · simp [putAll, Styled.put, h1]
  intro ts
  induction ts with
  | nil =>
    intro a F hF
    exact h3 last a F hF
  | cons t ts ih =>
    intro a F hF
    rw [brokenContent, putAll_append, h3 t a F hF, putAll]
    rw [ih (a ++ '\n' :: startText s t)]
    · simp [withNewlines, Styled.put]
    · simp [Styled.put, h2]

theorem broken_boxes (C : BoxContext) {p s sb : Style} (hb : sb.keepsSpace = true) {t : Text} (ts : List Text) (last : Text)
    (ht : startText s t ≠ []) : (containerOf C p (brokenContent s sb (t :: ts) last)).1 =
      .inlineFormattingContext p
        [.textRun s (withNewlines ((t :: ts).map (startText s)) (startText s last)) (C.fontOf s)] := by
  have h0 : t ≠ [] := by
    rintro rfl
    exact ht (startText_nil s)
  have h1 : textInto C s t [] = [.textRun s (startText s t) (C.fontOf s)] := by
    rw [textInto_line C s t rfl rfl ht]
    rfl
  have h2 : textInto C sb ['\n'] [.textRun s (startText s t) (C.fontOf s)] =
      [.textRun s (startText s t ++ ['\n']) (C.fontOf s)] := by
    obtain ⟨g, h⟩ := textInto_any C sb ['\n'] [.textRun s (startText s t) (C.fontOf s)]
    rw [h, if_pos hb]
    rfl
  unfold containerOf
  rw [container_eq, brokenContent, if_neg h0, List.singleton_append, putAll, putAll,
    putAll_broken C p hb last ts (startText s t) _ (by simp [Styled.put, Flow.empty, h1, h2])]
  simp [Styled.put, Flow.empty, boxesOf, withNewlines]

/-- C100 for documents with any number of line break elements: if there is nothing to see in a document but texts with line
break elements between them, then what is seen of it is what is seen of the texts, each with a newline on a page of its
own, one below the other.  (There may be several line break elements in a row, but there is a text before the first.) -/
theorem C100_breaks_partial {E : TextEnv} {C : BoxContext} {kids : NodeId → List NodeId} {st : Style} {cs : List Styled}
    {b : Bfc} {size : PVec2 Length} {fs : List Fragment} (h : Page C E kids st cs b size fs) (ho : st.outOfFlow = false)
    (hs : st.Frameless) {p s sb : Style} {t last : Text} {ts : List Text} (hb : sb.keepsSpace = true)
    (hc : ContentText p (brokenContent s sb (t :: ts) last) st (unwrapAll cs)) (ht : startText s t ≠ [])
    (hf : ∀ u ∈ t :: ts, TextFits E size.x s (E.font s) (startText s u)) :
    ∃ pages : Text → List Fragment, (∀ t, textPage E p s (E.font s) size t = .ok (pages t)) ∧
      (paintPage size fs).calls.filter DrawCall.isMark =
        oneBelowTheOther (fun t => (paintPage size (pages t)).calls.filter DrawCall.isMark)
          (fun t => linesHeightAll (pages t)) 0 ((t :: ts).map (startText s)) (startText s last) := by
  obtain ⟨pages, h1, h2⟩ := C100_lines_partial E p s (E.font s) size
  refine ⟨pages, h1, ?_⟩
  obtain ⟨c, fl, g, k⟩ := page_content h ho hs hc fun C hC => hC ▸ broken_boxes C (p := p) hb ts last ht
  rw [text_alone E g k (h1 _)]
  refine h2 _ _ fun u hu => ?_
  obtain ⟨v, hv, rfl⟩ := List.mem_map.1 hu
  exact hf v hv

/-! ## Examples -/

/-- a document with three line break elements, two of them in a row -/
def brokenDoc : Doc :=
  pageOf [.node "p" [.text "ab cd", .node "br" [], .node "br" [], .text " ef", .node "br" [], .text "gh"]]

theorem brokenDoc_content : unwrapAll (rootContent brokenDoc) =
    newlineBody (brokenContent (pageStyle grownFrom) newlineStyle ["ab cd".toList, [], " ef".toList] "gh".toList) := by
  apply sameAll_eq
  decide +kernel

example : rootCheck brokenDoc = true := by decide +kernel

example : ContentText (pageStyle grownFrom)
    (brokenContent (pageStyle grownFrom) newlineStyle ["ab cd".toList, [], " ef".toList] "gh".toList)
    (rootStyle brokenDoc) (unwrapAll (rootContent brokenDoc)) := by
  rw [brokenDoc_content]
  have ho : (pageStyle grownFrom).outOfFlow = false := by decide +kernel
  have hs : (pageStyle grownFrom).Frameless := by constructor <;> decide +kernel
  exact .inside _ _ _ _ _ hs ho (.inside _ _ _ _ _ hs ho .here)

/-- the lines of the document, with an empty one between the second and the third -/
example : pageAt brokenDoc 35 =
    some [("ab", 0, 68 / 5), ("cd", 0, 164 / 5), ("ef", 0, 356 / 5), ("gh", 0, 452 / 5)] := by decide +kernel

end Sinab
