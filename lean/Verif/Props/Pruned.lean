import Verif.Lemmas.Pruned
import Verif.Lemmas.PrunedContent
import Verif.Props.AppendDoc

/-! What is out of flow has no influence on the rest (C95). -/

namespace Sinab

open Sinab.Append

/-- C95: if some boxes that are absolutely positioned, or floats, are removed from a page, at any depth, then everything in
the flow is laid out as before, and everything that is still drawn is drawn as before: in the same places, in the same
order. -/
theorem C95_flow (E : TextEnv) (root root' : Bfc) (h : Pruned root.contents root'.contents) (hs : root.sound)
    (size : PVec2 Length) : ∃ fs fs', rootLayout E root size = .ok fs ∧ rootLayout E root' size = .ok fs' ∧
      flowParts fs' = flowParts fs ∧ (paintPage size fs').calls.Sublist (paintPage size fs).calls := by
  obtain ⟨fs, fs', h1, h2, h3⟩ := pruned_root E root root' h hs size
  exact ⟨fs, fs', h1, h2, h3.flow, h3.paint (rootLayout_up h1) _⟩

/-- a style for examples -/
def liftedStyle : Style :=
  (plainStyle.set .position Position.absolute).set .top (.length 3)

/-- boxes for the example: a block with lines, in which are two absolutely positioned boxes, one of them in a block of
its own -/
def prunedFrom : Bfc :=
  .mk (.blockLevelBoxes [.outOfFlowAbsolutelyPositionedBox liftedStyle (.mk (.inlineFormattingContext plainStyle
      [.textRun plainStyle "xy".toList (blockEnv.font plainStyle)]) false),
    .sameFormattingContextBlock (plainStyle.set .position Position.relative) (.inlineFormattingContext plainStyle
      [.textRun plainStyle "ab ".toList (blockEnv.font plainStyle),
       .outOfFlowAbsolutelyPositionedBox liftedStyle (.mk (.blockLevelBoxes [blockOf 1 1]) false),
       .textRun plainStyle "cd".toList (blockEnv.font plainStyle)]),
    .outOfFlowAbsolutelyPositionedBox (plainStyle.set .position Position.absolute) (.mk (.inlineFormattingContext plainStyle
      [.textRun plainStyle "uv".toList (blockEnv.font plainStyle)]) false)]) false

/-- the same, without two of the absolutely positioned boxes -/
def prunedTo : Bfc :=
  .mk (.blockLevelBoxes [.sameFormattingContextBlock (plainStyle.set .position Position.relative)
      (.inlineFormattingContext plainStyle [.textRun plainStyle "ab ".toList (blockEnv.font plainStyle),
        .textRun plainStyle "cd".toList (blockEnv.font plainStyle)]),
    .outOfFlowAbsolutelyPositionedBox (plainStyle.set .position Position.absolute) (.mk (.inlineFormattingContext plainStyle
      [.textRun plainStyle "uv".toList (blockEnv.font plainStyle)]) false)]) false

theorem liftedStyle_position : liftedStyle.val .position = Position.absolute := by decide +kernel

theorem pruned_example : Pruned prunedFrom.contents prunedTo.contents := by
  refine .blocks _ _ (.drop _ _ _ liftedStyle_position (.keep _ _ _ _ (.same _ _ _ (.inlines _ _ _ ?_)) (.refl _)))
  exact .keep _ _ _ _ (.refl _) (.drop _ _ _ liftedStyle_position (.refl _))

example : writtenAt ⟨40, 40⟩ prunedFrom.contents =
      [("ab ", 0, 68 / 5), ("cd", 0, 164 / 5), ("xy", 0, 83 / 5), ("uv", 0, 52)] ∧
    writtenAt ⟨40, 40⟩ prunedTo.contents = [("ab ", 0, 68 / 5), ("cd", 0, 164 / 5), ("uv", 0, 52)] := by decide +kernel

/-! ## Documents -/

variable {E : TextEnv} {C C' : BoxContext} {kids kids' : NodeId → List NodeId} {st : Style} {cs cs' : List Styled}
  {b b' : Bfc} {size : PVec2 Length} {fs fs' : List Fragment}

/-- C95 for documents: if an element that is absolutely positioned, or a float, and stands next to a block or at the end
of an element, is removed, and this changes the styles of nothing else, then everything in the flow is laid out as before,
and everything that is still drawn is drawn as before: in the same places, in the same order. -/
theorem C95_document_partial (h : Page C E kids st cs b size fs) (h' : Page C' E kids' st cs' b' size fs')
    (ho : st.outOfFlow = false) (hc : PrunedContent nextToBlock (unwrapAll cs) (unwrapAll cs')) :
    flowParts fs' = flowParts fs ∧ (paintPage size fs').calls.Sublist (paintPage size fs).calls := by
  obtain ⟨root, hr, hid, hst, hs⟩ := h.content
  obtain ⟨root', hr', hid', hst', hs'⟩ := h'.content
  obtain ⟨n, hb⟩ := h.boxes
  obtain ⟨n', hb'⟩ := h'.boxes
  obtain ⟨-, e1⟩ := boxTree_eq h.forest hr hid hst h.shown ho hs hb
  obtain ⟨-, e2⟩ := boxTree_eq h'.forest hr' hid' hst' h'.shown ho hs' hb'
  have hf : C'.fontOf = C.fontOf := by
    obtain ⟨_, _, _, _, _, _, rfl⟩ := h.context
    obtain ⟨_, _, _, _, _, _, rfl⟩ := h'.context
    rfl
  have hsound : b.sound := by
    obtain ⟨S, K, tokenize, ua, author, d, rfl⟩ := h.context
    exact boxTree_sound (styleSound_of K tokenize ua author d E) hb
  have hg := containerOf_pruned C hc st
  rw [← containerOf_unwrap rfl, ← containerOf_unwrap hf] at hg
  have hp : Pruned b.contents b'.contents := by
    rw [e1, e2]
    exact .blocks _ _ (.keep _ _ _ _ (.independent _ _ _ _ _ hg) .nil)
  obtain ⟨gs, gs', k1, k2, k3⟩ := C95_flow E b b' hp hsound size
  cases h.laidOut.symm.trans k1
  cases h'.laidOut.symm.trans k2
  exact k3

/-- the heights of the texts in the flow -/
def flowBaselines (size : PVec2 Length) (fs : List Fragment) : List Length :=
  (paintPage size (flowParts fs)).calls.filterMap fun
    | .text _ _ y _ _ => some y
    | _ => none

/-- C95 in full: if an element that is absolutely positioned, or a float, is removed anywhere, also among words, then
there are texts in the flow at the same heights as before. -/
def C95_full : Prop :=
  ∀ {E : TextEnv} {C C' : BoxContext} {kids kids' : NodeId → List NodeId} {st : Style} {cs cs' : List Styled}
    {b b' : Bfc} {size : PVec2 Length} {fs fs' : List Fragment}, Page C E kids st cs b size fs →
    Page C' E kids' st cs' b' size fs' → st.outOfFlow = false →
    PrunedContent (fun _ _ => True) (unwrapAll cs) (unwrapAll cs') →
    ∀ y, y ∈ flowBaselines size fs ↔ y ∈ flowBaselines size fs'

/-- the style of an absolutely positioned element of a page -/
def liftedPageStyle : Style :=
  { (pageStyle grownFrom).set .position Position.absolute with specifiedDisplay := .generatingBox .inline .flow }

/-- the content of a page, given that of its body -/
def prunedBody (ks : List Styled) : List Styled := [] ++ .elem 0 (pageStyle grownFrom) .block .flow ks :: []

/-- an absolutely positioned element of the examples -/
def prunedAbs (t : String) : Styled :=
  .elem 0 liftedPageStyle .block .flow [.text liftedPageStyle t.toList]

/-- a text of the examples -/
def prunedText (t : String) : Styled := .text (pageStyle grownFrom) t.toList

/-- `ab<!-- --><abs>x</abs>cd` -/
def splitFrom : Doc := pageOf [.text "ab", .comment, .node "abs" [.text "x"], .text "cd"]

/-- `ab<!-- -->cd` -/
def splitTo : Doc := pageOf [.text "ab", .comment, .text "cd"]

theorem splitFrom_content : unwrapAll (rootContent splitFrom) =
    prunedBody ([prunedText "ab"] ++ prunedAbs "x" :: [prunedText "cd"]) := by
  apply sameAll_eq
  decide +kernel

theorem splitTo_content : unwrapAll (rootContent splitTo) = prunedBody ([prunedText "ab"] ++ [prunedText "cd"]) := by
  apply sameAll_eq
  decide +kernel

/-- a document for the example: paragraphs, and elements that are out of flow -/
def prunedPageFrom : Doc :=
  pageOf [.text " ", .node "p" [.text "ab cd", .node "abs" [.text "xy"]], .text " ", .node "abs" [.text "uv"], .text "ef"]

/-- the same document without one of these elements -/
def prunedPageTo : Doc :=
  pageOf [.text " ", .node "p" [.text "ab cd"], .text " ", .node "abs" [.text "uv"], .text "ef"]

theorem prunedPageFrom_content : unwrapAll (rootContent prunedPageFrom) =
    prunedBody ([prunedText " "] ++ .elem 0 (pageStyle grownFrom) .block .flow ([prunedText "ab cd"] ++ prunedAbs "xy" :: []) ::
      [prunedText " ", prunedAbs "uv", prunedText "ef"]) := by
  apply sameAll_eq
  decide +kernel

theorem prunedPageTo_content : unwrapAll (rootContent prunedPageTo) =
    prunedBody ([prunedText " "] ++ .elem 0 (pageStyle grownFrom) .block .flow ([prunedText "ab cd"] ++ []) ::
      [prunedText " ", prunedAbs "uv", prunedText "ef"]) := by
  apply sameAll_eq
  decide +kernel

example : PrunedContent nextToBlock (unwrapAll (rootContent prunedPageFrom)) (unwrapAll (rootContent prunedPageTo)) := by
  rw [prunedPageFrom_content, prunedPageTo_content]
  exact .block _ _ _ _ _ _ _ (by decide +kernel) (.block _ _ _ _ _ _ _ (by decide +kernel)
    (.here _ _ _ _ _ _ (by decide +kernel) (.inl (by simp))))

/-- the place of the other element: after a block -/
example : nextToBlock [prunedText " ", .elem 0 (pageStyle grownFrom) .block .flow [prunedText "ab cd"], prunedText " "]
    [prunedText "ef"] :=
  .inr (.inl ⟨[prunedText " "], _, [prunedText " "], rfl, by decide +kernel, by decide +kernel⟩)

example : rootCheck prunedPageFrom = true ∧ rootCheck prunedPageTo = true ∧
    (rootStyle prunedPageFrom).outOfFlow = false ∧
    pageAt prunedPageFrom 55 = some [("ab cd", 0, 68 / 5), ("ef", 0, 164 / 5), ("xy", 50, 68 / 5), ("uv", 0, 164 / 5)] ∧
    pageAt prunedPageTo 55 = some [("ab cd", 0, 68 / 5), ("ef", 0, 164 / 5), ("uv", 0, 164 / 5)] := by
  decide +kernel

/-- C95 in full is false: an absolutely positioned element within a word is a place where a line may end. -/
theorem C95_full_false : ¬ C95_full := by
  intro h
  have hp : ∀ d : Doc, (pageRead readEnv d 25).isSome = true → ∃ b fs, pageRead readEnv d 25 = some (b, fs) := by
    intro d hd
    obtain ⟨⟨b, fs⟩, he⟩ := Option.isSome_iff_exists.1 hd
    exact ⟨b, fs, he⟩
  obtain ⟨b, fs, hb⟩ := hp splitFrom (by decide +kernel)
  obtain ⟨b', fs', hb'⟩ := hp splitTo (by decide +kernel)
  have hr : rootStyle splitTo = rootStyle splitFrom := by decide +kernel
  have p := rootCheck_page rfl (by decide +kernel) hb
  have p' := rootCheck_page rfl (by decide +kernel) hb'
  rw [hr] at p'
  have hc : PrunedContent (fun _ _ => True) (unwrapAll (rootContent splitFrom)) (unwrapAll (rootContent splitTo)) := by
    rw [splitFrom_content, splitTo_content]
    exact .block _ _ _ _ _ _ _ (by decide +kernel) (.here _ _ _ _ _ _ (by decide +kernel) trivial)
  have key := h p p' (by decide +kernel) hc (164 / 5)
  have e : (pageRead readEnv splitFrom 25).map (fun p => decide ((164 / 5 : ℚ) ∈ flowBaselines ⟨25, 100⟩ p.2)) = some true := by
    decide +kernel
  have e' : (pageRead readEnv splitTo 25).map (fun p => decide ((164 / 5 : ℚ) ∈ flowBaselines ⟨25, 100⟩ p.2)) = some false := by
    decide +kernel
  rw [hb] at e
  rw [hb'] at e'
  simp only [Option.map_some, Option.some.injEq, decide_eq_true_eq, decide_eq_false_iff_not] at e e'
  exact e' (key.1 e)

end Sinab
