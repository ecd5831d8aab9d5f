import Verif.Lemmas.SpannedContent
import Verif.Props.Pruned

/-! A plain inline element makes no difference (C96). -/

namespace Sinab

open Sinab.Append

/-- C96: if some consecutive inline boxes are put in an inline box without margins, padding, borders and background, of
the same font and not shifted, in any place and at any depth, then the page can be laid out as before, and the same is drawn,
in the same places and in the same order. -/
theorem C96_flow (E : TextEnv) (root root' : Bfc) (h : Spanned E root.contents root'.contents) (hs : root.sound)
    (size : PVec2 Length) : ∃ fs fs', rootLayout E root size = .ok fs ∧ rootLayout E root' size = .ok fs' ∧
      (paintPage size fs').calls.filter DrawCall.isMark = (paintPage size fs).calls.filter DrawCall.isMark := by
  obtain ⟨fs, fs', h1, h2, h3⟩ := spanned_root E root root' h hs size
  refine ⟨fs, fs', h1, h2, ?_⟩
  unfold paintPage
  rw [callsAt_own ⟨0, 0⟩ h3.up _ rfl, callsAt_own ⟨0, 0⟩ h3.up' _ rfl]
  exact h3.seen ⟨0, 0⟩

/-- boxes for the example: lines with an absolutely positioned box and a box of its own colour in them -/
def spannedFrom : Bfc :=
  .mk (.blockLevelBoxes [.sameFormattingContextBlock (plainStyle.set .position Position.relative)
    (.inlineFormattingContext plainStyle
      [.textRun plainStyle "ab cd ".toList (blockEnv.font plainStyle),
       .outOfFlowAbsolutelyPositionedBox liftedStyle (.mk (.inlineFormattingContext plainStyle
         [.textRun plainStyle "xy".toList (blockEnv.font plainStyle)]) false),
       .inlineBox (plainStyle.set .marginLeft (.length 5)) true true
         [.textRun plainStyle "ef gh".toList (blockEnv.font plainStyle)],
       .textRun plainStyle " ij".toList (blockEnv.font plainStyle)])]) false

/-- the same, with a box around some of this and another one in the middle of it -/
def spannedTo : Bfc :=
  .mk (.blockLevelBoxes [.sameFormattingContextBlock (plainStyle.set .position Position.relative)
    (.inlineFormattingContext plainStyle
      ([.textRun plainStyle "ab cd ".toList (blockEnv.font plainStyle),
        .inlineBox plainStyle true true
        [.outOfFlowAbsolutelyPositionedBox liftedStyle (.mk (.inlineFormattingContext plainStyle
           [.textRun plainStyle "xy".toList (blockEnv.font plainStyle)]) false),
         .inlineBox (plainStyle.set .marginLeft (.length 5)) true true
           [.inlineBox plainStyle true true [.textRun plainStyle "ef gh".toList (blockEnv.font plainStyle)]],
         .textRun plainStyle " ij".toList (blockEnv.font plainStyle)]]))]) false

theorem plainStyle_unmarked : plainStyle.Unmarked := by
  constructor <;> decide +kernel

theorem spanned_example : Spanned blockEnv spannedFrom.contents spannedTo.contents := by
  refine .blocks _ _ (.cons _ _ _ _ (.same _ _ _ (.inlines _ _ _ (.cons _ _ _ _ _ (.refl _) ?_))) .nil)
  refine .wrap _ plainStyle true true [_, _, _] _ [] [] plainStyle_unmarked rfl ?_ (.nil _)
  refine .cons _ _ _ _ _ (.refl _) (.cons _ _ _ _ _ (.box _ _ _ _ _ ?_) (.refl _ _))
  exact .wrap _ plainStyle true true [_] _ [] [] plainStyle_unmarked (by decide +kernel) (.refl _ _) (.nil _)

example : writtenAt ⟨60, 40⟩ spannedFrom.contents = writtenAt ⟨60, 40⟩ spannedTo.contents ∧
    writtenAt ⟨60, 40⟩ spannedTo.contents =
      [("ab cd ", 0, 68 / 5), ("ef gh", 0, 164 / 5), ("ij", 0, 52), ("xy", 60, 83 / 5)] := by decide +kernel

/-! ## Documents -/

variable {E : TextEnv} {C C' : BoxContext} {kids kids' : NodeId → List NodeId} {st : Style} {cs cs' : List Styled}
  {b b' : Bfc} {size : PVec2 Length} {fs fs' : List Fragment}

/-- C96 for documents: if some words, and inline elements and elements out of flow among them, are put in an inline element
without margins, padding, borders and background, of the same font and not shifted, which begins at the beginning of a line
or next to another element and does not separate texts, then the same is drawn, in the same places and in the same order. -/
theorem C96_document_partial (h : Page C E kids st cs b size fs) (h' : Page C' E kids' st cs' b' size fs')
    (ho : st.outOfFlow = false) (hc : SpannedContent E spanPlace st (unwrapAll cs) (unwrapAll cs')) :
    (paintPage size fs').calls.filter DrawCall.isMark = (paintPage size fs).calls.filter DrawCall.isMark := by
  obtain ⟨root, hr, hid, hst, hs⟩ := h.content
  obtain ⟨root', hr', hid', hst', hs'⟩ := h'.content
  obtain ⟨n, hb⟩ := h.boxes
  obtain ⟨n', hb'⟩ := h'.boxes
  obtain ⟨-, e1⟩ := boxTree_eq h.forest hr hid hst h.shown ho hs hb
  obtain ⟨-, e2⟩ := boxTree_eq h'.forest hr' hid' hst' h'.shown ho hs' hb'
  have hE : C.fontOf = E.font := by
    obtain ⟨_, _, _, _, _, _, rfl⟩ := h.context
    rfl
  have hf : C'.fontOf = C.fontOf := by
    obtain ⟨_, _, _, _, _, _, rfl⟩ := h.context
    obtain ⟨_, _, _, _, _, _, rfl⟩ := h'.context
    rfl
  have hsound : b.sound := by
    obtain ⟨S, K, tokenize, ua, author, d, rfl⟩ := h.context
    exact boxTree_sound (styleSound_of K tokenize ua author d E) hb
  have hg := containerOf_spanned hE hc
  rw [← containerOf_unwrap rfl, ← containerOf_unwrap hf] at hg
  have hp : Spanned E b.contents b'.contents := by
    rw [e1, e2]
    exact .blocks _ _ (.cons _ _ _ _ (.independent _ _ _ _ _ hg) .nil)
  obtain ⟨gs, gs', k1, k2, k3⟩ := C96_flow E b b' hp hsound size
  cases h.laidOut.symm.trans k1
  cases h'.laidOut.symm.trans k2
  exact k3

/-- C96 in full: if some words are put in such an element anywhere, also in the middle of text, then there are texts at the
same heights as before. -/
def C96_full : Prop :=
  ∀ {E : TextEnv} {C C' : BoxContext} {kids kids' : NodeId → List NodeId} {st : Style} {cs cs' : List Styled}
    {b b' : Bfc} {size : PVec2 Length} {fs fs' : List Fragment}, Page C E kids st cs b size fs →
    Page C' E kids' st cs' b' size fs' → st.outOfFlow = false →
    SpannedContent E (fun _ _ _ => True) st (unwrapAll cs) (unwrapAll cs') →
    ∀ y, y ∈ flowBaselines size fs ↔ y ∈ flowBaselines size fs'

/-- a `span` of the examples -/
def spanOf (ks : List Styled) : Styled := .elem 0 grownInline .inline .flow ks

/-- a text in a `span` of the examples -/
def spanText (t : String) : Styled := .text grownInline t.toList

theorem grownInline_unmarked : grownInline.Unmarked := by
  constructor <;> decide +kernel

theorem grownInline_same : (pageStyle grownFrom).SameText grownInline := by
  constructor <;> decide +kernel

theorem spanText_restyled (t : String) : Restyled readEnv grownInline (prunedText t) (spanText t) :=
  .text _ _ grownInline_same (by decide +kernel)

/-- a document for the example: a paragraph, in which are an element that is out of flow and an `em` element -/
def spannedPageFrom : Doc :=
  pageOf [.text " ", .node "p" [.text " ab cd ", .node "abs" [.text "xy"], .node "em" [.text "ef"], .text "gh ij"], .text "kl"]

/-- the same document, with a `span` around the `em` element and the text after it -/
def spannedPageTo : Doc :=
  pageOf [.text " ", .node "p" [.text " ab cd ", .node "abs" [.text "xy"],
    .node "span" [.node "em" [.text "ef"], .text "gh ij"]], .text "kl"]

theorem spannedPageFrom_content : unwrapAll (rootContent spannedPageFrom) =
    prunedBody ([prunedText " "] ++ .elem 0 (pageStyle grownFrom) .block .flow ([prunedText " ab cd ", prunedAbs "xy"] ++
      ([spanOf [spanText "ef"], prunedText "gh ij"] ++ [])) :: [prunedText "kl"]) := by
  apply sameAll_eq
  decide +kernel

theorem spannedPageTo_content : unwrapAll (rootContent spannedPageTo) =
    prunedBody ([prunedText " "] ++ .elem 0 (pageStyle grownFrom) .block .flow ([prunedText " ab cd ", prunedAbs "xy"] ++
      spanOf [spanOf [spanText "ef"], spanText "gh ij"] :: []) :: [prunedText "kl"]) := by
  apply sameAll_eq
  decide +kernel

example : SpannedContent readEnv spanPlace (rootStyle spannedPageFrom) (unwrapAll (rootContent spannedPageFrom))
    (unwrapAll (rootContent spannedPageTo)) := by
  rw [spannedPageFrom_content, spannedPageTo_content]
  refine .block _ _ _ _ _ _ _ _ (by decide +kernel) (.block _ _ _ _ _ _ _ _ (by decide +kernel)
    (.here _ _ _ _ _ _ _ _ grownInline_unmarked (by decide +kernel) (by decide +kernel)
      (.cons (.elem _ _ _ _ _) (.cons (spanText_restyled _) .nil)) ⟨.elem _ _ _ _ _ _ (by decide +kernel), .inl (by simp)⟩))

/-- other places: all words of an element, with white space around them; before an element -/
example : spanPlace [] [prunedText " ", prunedText "ab", prunedAbs "x", prunedText " "] [] ∧
    spanPlace [] [prunedText "ab "] [spanOf [spanText "cd"], prunedText "ef"] ∧
    spanPlace [prunedText "ab", spanOf [spanText "cd"]] [prunedText "ef"] [prunedAbs "x", prunedText "gh"] :=
  ⟨⟨.first _ [_] _ (prunedText "ab") (by decide +kernel) (by decide +kernel) (by decide +kernel), .inl (by simp)⟩,
    ⟨.first _ [] _ (prunedText "ab ") (by decide +kernel) (by decide +kernel) (by decide +kernel), .inl (by simp [spanOf, Styled.isElem])⟩,
    ⟨.text [_] _ (spanOf [spanText "cd"]) _ 'e' _ rfl (.inr (by decide +kernel)), .inl (by simp [prunedAbs, Styled.isElem])⟩⟩

example : rootCheck spannedPageFrom = true ∧ rootCheck spannedPageTo = true ∧
    (rootStyle spannedPageFrom).outOfFlow = false ∧ rootStyle spannedPageTo = rootStyle spannedPageFrom ∧
    pageAt spannedPageFrom 75 = pageAt spannedPageTo 75 ∧ pageAt spannedPageTo 75 =
      some [("ab cd ", 0, 68 / 5), ("ef", 0, 164 / 5), ("gh ij", 20, 164 / 5), ("kl", 0, 52), ("xy", 60, 68 / 5)] := by
  decide +kernel

/-- `abcd` -/
def midFrom : Doc := pageOf [.text "ab", .comment, .text "cd"]

/-- `ab<span>cd</span>` -/
def midTo : Doc := pageOf [.text "ab", .node "span" [.text "cd"]]

theorem midFrom_content : unwrapAll (rootContent midFrom) =
    prunedBody ([prunedText "ab"] ++ ([prunedText "cd"] ++ [])) := by
  apply sameAll_eq
  decide +kernel

theorem midTo_content : unwrapAll (rootContent midTo) = prunedBody ([prunedText "ab"] ++ spanOf [spanText "cd"] :: []) := by
  apply sameAll_eq
  decide +kernel

/-- C96 in full is false: the beginning of an element within a word is a place where a line may end. -/
theorem C96_full_false : ¬ C96_full := by
  intro h
  have hp : ∀ d : Doc, (pageRead readEnv d 25).isSome = true → ∃ b fs, pageRead readEnv d 25 = some (b, fs) := by
    intro d hd
    obtain ⟨⟨b, fs⟩, he⟩ := Option.isSome_iff_exists.1 hd
    exact ⟨b, fs, he⟩
  obtain ⟨b, fs, hb⟩ := hp midFrom (by decide +kernel)
  obtain ⟨b', fs', hb'⟩ := hp midTo (by decide +kernel)
  have hr : rootStyle midTo = rootStyle midFrom := by decide +kernel
  have p := rootCheck_page rfl (by decide +kernel) hb
  have p' := rootCheck_page rfl (by decide +kernel) hb'
  rw [hr] at p'
  have hc : SpannedContent readEnv (fun _ _ _ => True) (rootStyle midFrom) (unwrapAll (rootContent midFrom))
      (unwrapAll (rootContent midTo)) := by
    rw [midFrom_content, midTo_content]
    exact .block _ _ _ _ _ _ _ _ (by decide +kernel) (.here _ _ _ _ _ _ _ _ grownInline_unmarked (by decide +kernel)
      (by decide +kernel) (.cons (spanText_restyled _) .nil) trivial)
  have key := h p p' (by decide +kernel) hc (164 / 5)
  have e : (pageRead readEnv midFrom 25).map (fun p => decide ((164 / 5 : ℚ) ∈ flowBaselines ⟨25, 100⟩ p.2)) = some false := by
    decide +kernel
  have e' : (pageRead readEnv midTo 25).map (fun p => decide ((164 / 5 : ℚ) ∈ flowBaselines ⟨25, 100⟩ p.2)) = some true := by
    decide +kernel
  rw [hb] at e
  rw [hb'] at e'
  simp only [Option.map_some, Option.some.injEq, decide_eq_true_eq, decide_eq_false_iff_not] at e e'
  exact e (key.2 e')

end Sinab
