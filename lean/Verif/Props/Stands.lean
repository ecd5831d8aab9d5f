import Verif.Lemmas.Stands
import Verif.Props.Pruned
import Verif.Props.GroupedDoc

/-! A block looks the same wherever it stands (C97). -/

namespace Sinab

open Sinab.Append
open Vertical (widthIn)
open Horizontal (contentLeft)

/-- C97: a block in the flow of a page, at any depth and with anything around it, is drawn exactly as on a page on which it
stands alone and which is as wide as the room for it, but in another place: its contents begin where the blocks around
it say.  What belongs to the block is drawn consecutively.  (Its height is not a percentage of the height around it, and
nothing in it is positioned with respect to something outside.) -/
theorem C97_block (E : TextEnv) {b : BlockLevelBox} {c : BlockContainer} {floats floats' : Bool}
    {size size' : PVec2 Length} {x : Length} {fs own : List Fragment} (h : Stands b size.x 0 c size'.x x) (hs : c.sound)
    (hb : b.heightFree) (hh : b.held = []) (hf : rootLayout E (.mk c floats) size = .ok fs)
    (ho : rootLayout E (.mk (.blockLevelBoxes [b]) floats') size' = .ok own) :
    ∃ y pre post, (paintPage size fs).calls =
      pre ++ (paintPage size' own).calls.map (DrawCall.move ⟨x, y⟩) ++ post := by
  have hu := rootLayout_up hf
  have hu' := rootLayout_up ho
  obtain ⟨⟨fc, abs⟩, h1, hf⟩ := bind_eq_ok.1 hf
  obtain ⟨more, -, hf⟩ := bind_eq_ok.1 hf
  cases hf
  obtain ⟨⟨fc0, abs0⟩, h2, h1⟩ := bind_eq_ok.1 h1
  cases h1
  obtain ⟨hsb, f, e, k1, k2⟩ := stands_shown E h _ _ _ _ _ _ _ _ rfl (by rfl) hs le_rfl h2
  obtain ⟨⟨fc', abs'⟩, h1', ho⟩ := bind_eq_ok.1 ho
  obtain ⟨more', h3, ho⟩ := bind_eq_ok.1 ho
  cases ho
  obtain ⟨⟨fc1, abs1⟩, h2', h1'⟩ := bind_eq_ok.1 h1'
  cases h1'
  obtain ⟨f', d, o, fl, e1, e2, e3⟩ := only_child h2'
  have hn : o = [] := found_nothing (boxFinds E _ b _ 0 [] fl f' o hsb e2) hh
  rw [e3 hn] at h3
  cases h3
  have hff : f' = f := k1.unique ⟨_, _, _, _, _, _, rfl, by rfl, blockDepth_mem (by simp), e2⟩ hsb hb
  subst hff
  obtain ⟨hfu, k3⟩ := k2.more [] more hu
  obtain ⟨pre, post, k4⟩ := k3 ⟨0, 0⟩
  refine ⟨e - d, pre, post, ?_⟩
  have p1 : (paintPage size (fc0.fragments ++ more)).calls = callsAt ⟨0, 0⟩ (fc0.fragments ++ more) := by
    rw [paintPage, callsAt_own ⟨0, 0⟩ hu _ rfl]
  have p2 : (paintPage size' (fc1.fragments ++ [])).calls = callsAt ⟨0, 0⟩ [f'.translateBlock d] := by
    rw [paintPage, callsAt_own ⟨0, 0⟩ hu' _ rfl, List.append_nil, e1]
  have p3 : (⟨0, 0⟩ : PVec2 Length) + ⟨x - 0, e⟩ = ⟨0, 0⟩ + ⟨0, d⟩ + ⟨x, e - d⟩ := by
    simp [pvec2_add]
  refine p1.trans (k4.trans ?_)
  rw [p2, callsAt_down _ _ hfu, ← callsAt_move ⟨0, 0⟩ ⟨0, d⟩ (fs := [f']) ⟨hfu, trivial⟩,
    ← callsAt_move _ ⟨x, e - d⟩ (fs := [f']) ⟨hfu, trivial⟩, p3]

variable {E : TextEnv} {C C' : BoxContext} {kids kids' : NodeId → List NodeId} {st st' : Style} {cs cs' : List Styled}
  {b b' : Bfc} {size size' : PVec2 Length} {fs fs' : List Fragment}

/-- C97 for documents: a block-level element in the flow is drawn exactly as in a document of which nothing is seen but
this element, on a page as wide as the room for it, but in another place.  (Its height is not a percentage, and nothing
in it is positioned with respect to something outside.) -/
theorem C97_document (h : Page C E kids st cs b size fs) (h' : Page C' E kids' st' cs' b' size' fs')
    (ho : st.outOfFlow = false) (ho' : st'.outOfFlow = false) {e : Styled} (he : e.heightFree) (hc : e.closed)
    {x : Length} (hx : StandsContent e (widthIn size.x st) (contentLeft false size.x 0 st) (unwrapAll cs) size'.x x)
    (hs : st'.Frameless) (hl : LoneContent e (unwrapAll cs')) :
    ∃ y pre post, (paintPage size fs).calls.filter DrawCall.isMark =
      pre ++ ((paintPage size' fs').calls.filter DrawCall.isMark).map (DrawCall.move ⟨x, y⟩) ++ post := by
  obtain ⟨root, hr, hid, hst, hsh⟩ := h.content
  obtain ⟨root', hr', hid', hst', hsh'⟩ := h'.content
  obtain ⟨n, hb⟩ := h.boxes
  obtain ⟨n', hb'⟩ := h'.boxes
  obtain ⟨-, e1⟩ := boxTree_eq h.forest hr hid hst h.shown ho hsh hb
  obtain ⟨-, e2⟩ := boxTree_eq h'.forest hr' hid' hst' h'.shown ho' hsh' hb'
  have hf : C'.fontOf = C.fontOf := by
    obtain ⟨_, _, _, _, _, _, rfl⟩ := h.context
    obtain ⟨_, _, _, _, _, _, rfl⟩ := h'.context
    rfl
  have hsound : b.sound := by
    obtain ⟨S, K, tokenize, ua, author, d, rfl⟩ := h.context
    exact boxTree_sound (styleSound_of K tokenize ua author d E) hb
  have hsound' : b'.sound := by
    obtain ⟨S, K, tokenize, ua, author, d, rfl⟩ := h'.context
    exact boxTree_sound (styleSound_of K tokenize ua author d E) hb'
  have g1 := containerOf_stands C hx st
  have g2 := containerOf_lone C hl st'
  rw [← containerOf_unwrap rfl] at g1
  rw [← containerOf_unwrap hf] at g2
  have hbe : ((e.blockBox C).heightFree) ∧ (e.blockBox C).held = [] := by
    have hi : e.inFlowBlock = true := by
      clear g2 g1
      generalize unwrapAll cs' = l at hl
      induction hl with
      | here he => exact he
      | inside _ _ _ _ _ _ _ ih => exact ih
    match e, hi with
    | .elem id s .block ins ks, _ =>
      refine ⟨?_, blockBox_held C _ _ _ _ _ hc⟩
      cases ins <;> exact he
  have hfs := h.laidOut
  have hfs' := h'.laidOut
  subst e1 e2
  have hu := rootLayout_up hfs
  have hu' := rootLayout_up hfs'
  obtain ⟨⟨fc, abs⟩, h1, hfs⟩ := bind_eq_ok.1 hfs
  obtain ⟨more, -, hfs⟩ := bind_eq_ok.1 hfs
  cases hfs
  obtain ⟨⟨fc0, abs0⟩, h2, h1⟩ := bind_eq_ok.1 h1
  cases h1
  obtain ⟨hsb, f, y, k1, k2⟩ := stands_shown E (.independent _ _ _ _ _ [] [] _ _ g1) _ _ _ _ _ _ _ _ rfl (by rfl) hsound le_rfl h2
  obtain ⟨⟨fc', abs'⟩, h1', hfs'⟩ := bind_eq_ok.1 hfs'
  obtain ⟨more', h3, hfs'⟩ := bind_eq_ok.1 hfs'
  cases hfs'
  obtain ⟨⟨fc1, abs1⟩, h2', h1'⟩ := bind_eq_ok.1 h1'
  cases h1'
  obtain ⟨-, hn, f', y', k1', k2'⟩ := lone_shown E (.independent _ _ _ hs g2) hbe.2 _ _ _ _ _ _ _ (by rfl) hsound' le_rfl h2'
  rw [hn] at h3
  cases h3
  have hff : f' = f := k1.unique k1' hsb hbe.1
  subst hff
  obtain ⟨hfu, k3⟩ := k2.more [] more hu
  rw [List.append_nil] at hu'
  obtain ⟨-, k3'⟩ := k2' hu'
  obtain ⟨pre, post, k4⟩ := k3 ⟨0, 0⟩
  have k4' := k3' ⟨0, 0⟩
  refine ⟨y - y', pre.filter DrawCall.isMark, post.filter DrawCall.isMark, ?_⟩
  have p1 : (paintPage size (fc0.fragments ++ more)).calls = callsAt ⟨0, 0⟩ (fc0.fragments ++ more) := by
    rw [paintPage, callsAt_own ⟨0, 0⟩ hu _ rfl]
  have p2 : (paintPage size' fc1.fragments).calls = callsAt ⟨0, 0⟩ fc1.fragments := by
    rw [paintPage, callsAt_own ⟨0, 0⟩ hu' _ rfl]
  have p3 : (⟨0, 0⟩ : PVec2 Length) + ⟨x - 0, y⟩ = ⟨0, 0⟩ + ⟨0, y'⟩ + ⟨x, y - y'⟩ := by
    simp [pvec2_add]
  refine (congrArg _ (p1.trans k4)).trans ?_
  rw [List.append_nil, p2, k4', List.filter_append, List.filter_append, ← filter_move isMark_eye,
    ← callsAt_move _ ⟨x, y - y'⟩ (fs := [f']) ⟨hfu, trivial⟩, p3]

/-- what is drawn of a page with some blocks -/
def blocksDrawn (bs : List BlockLevelBox) (width : Length) : List DrawCall :=
  match rootLayout blockEnv (.mk (.blockLevelBoxes bs) false) ⟨width, 50⟩ with
  | .ok fs => (paintPage ⟨width, 50⟩ fs).calls
  | .error _ => []

/-- a block for the example: padding of a tenth of the width, a background, and two words -/
def standsBlock : BlockLevelBox :=
  .sameFormattingContextBlock ((plainStyle.set .paddingLeft (.percentage (1 / 10))).set .backgroundColor (.rgba ⟨255, 0, 0, 255⟩))
    (.inlineFormattingContext plainStyle [.textRun plainStyle "ab cd".toList (blockEnv.font plainStyle)])

/-- the style of the block around it -/
def standsAround : Style := (plainStyle.set .marginLeft (.length 20)).set .paddingRight (.length 30)

/-- the boxes of the example -/
def standsPage : List BlockLevelBox :=
  [blockOf 4 5, .sameFormattingContextBlock standsAround (.blockLevelBoxes ([blockOf 3 0] ++ standsBlock :: [blockOf 1 1]))]

example : Stands standsBlock 100 0 (.blockLevelBoxes standsPage) 50 20 := by
  have e1 : widthIn 100 standsAround = 50 := by decide +kernel
  have e2 : contentLeft false 100 0 standsAround = 20 := by decide +kernel
  refine .same _ _ _ _ [blockOf 4 5] [] _ _ ?_
  rw [e1, e2]
  exact .here _ _ _ _

example : standsBlock.held = [] := by decide +kernel

example : (blocksDrawn standsPage 100).drop 3 =
    (blocksDrawn [standsBlock] 50).map (DrawCall.move ⟨20, 29⟩) ++ [.bbox 20 (337 / 5) 50 12] ∧
    (blocksDrawn [standsBlock] 50).length = 8 := by decide +kernel

/-- a block for the counterexample: half the height around, with a background -/
def halfBlock : BlockLevelBox :=
  emptyBlock ((plainStyle.set .height (.percentage (1 / 2))).set .backgroundColor (.rgba ⟨255, 0, 0, 255⟩))

/-- the heights of the backgrounds on a page with some blocks -/
def paintedHeights (cs : List DrawCall) : List Length :=
  cs.filterMap fun
    | .rect _ _ _ h _ => some h
    | _ => none

theorem paintedHeights_move (v : PVec2 Length) (cs : List DrawCall) :
    paintedHeights (cs.map (DrawCall.move v)) = paintedHeights cs := by
  induction cs with
  | nil => rfl
  | cons c cs ih =>
    unfold paintedHeights at ih ⊢
    rw [List.map_cons, List.filterMap_cons, List.filterMap_cons, ih]
    cases c <;> rfl

/-- C97 is false for blocks whose height is a percentage: half of the height of the page is something, half of the height
of a block that is as high as its contents is nothing. -/
theorem C97_heights_false : ¬ ∀ (E : TextEnv) (b : BlockLevelBox) (c : BlockContainer) (floats floats' : Bool)
    (size size' : PVec2 Length) (x : Length) (fs own : List Fragment), Stands b size.x 0 c size'.x x → c.sound →
    b.held = [] → rootLayout E (.mk c floats) size = .ok fs →
    rootLayout E (.mk (.blockLevelBoxes [b]) floats') size' = .ok own →
    ∃ y pre post, (paintPage size fs).calls =
      pre ++ (paintPage size' own).calls.map (DrawCall.move ⟨x, y⟩) ++ post := by
  intro h
  have e1 : paintedHeights (blocksDrawn [.sameFormattingContextBlock plainStyle (.blockLevelBoxes ([] ++ halfBlock :: []))] 100) = [0] := by
    decide +kernel
  have e2 : paintedHeights (blocksDrawn [halfBlock] 100) = [25] := by decide +kernel
  unfold blocksDrawn at e1 e2
  split at e1
  · rename_i fs hfs
    split at e2
    · rename_i own hown
      obtain ⟨y, pre, post, k⟩ := h _ halfBlock (.blockLevelBoxes
        [.sameFormattingContextBlock plainStyle (.blockLevelBoxes ([] ++ halfBlock :: []))]) _ _ ⟨100, 50⟩ ⟨100, 50⟩ 0 _ _ (by
        refine .same _ _ _ _ [] [] _ _ ?_
        have e1 : widthIn 100 plainStyle = 100 := by decide +kernel
        have e2 : contentLeft false 100 0 plainStyle = 0 := by decide +kernel
        rw [e1, e2]
        exact .here _ _ _ _) (by simp [BlockContainer.sound, blockSound, BlockLevelBox.sound, halfBlock, emptyBlock]) (by decide +kernel) hfs hown
      have k' := congrArg paintedHeights k
      rw [e1] at k'
      unfold paintedHeights at k'
      rw [List.filterMap_append, List.filterMap_append] at k'
      have k2 := paintedHeights_move ⟨0, y⟩ (paintPage ⟨100, 50⟩ own).calls
      rw [e2] at k2
      unfold paintedHeights at k2
      rw [k2] at k'
      have : (25 : ℚ) ∈ ([0] : List ℚ) := by rw [k']; simp
      revert this
      decide
    · cases e2
  · cases e1

/-- a document for the example: a paragraph somewhere -/
def standsDoc : Doc :=
  pageOf [.text "xy", .node "div" [.node "p" [.text "zz"], .node "p" [.text "ab cd"]], .text "ef"]

/-- a document with nothing but this paragraph -/
def standsLone : Doc := pageOf [.node "p" [.text "ab cd"]]

theorem standsDoc_content : unwrapAll (rootContent standsDoc) =
    [] ++ .elem 0 (pageStyle grownFrom) .block .flow
      ([groupedText "xy"] ++ .elem 0 (pageStyle grownFrom) .block .flow
        ([groupedPara "zz"] ++ groupedPara "ab cd" :: []) :: [groupedText "ef"]) :: [] := by
  apply sameAll_eq
  decide +kernel

theorem standsLone_content : unwrapAll (rootContent standsLone) =
    [.elem 0 (pageStyle grownFrom) .block .flow [groupedPara "ab cd"]] := by
  apply sameAll_eq
  decide +kernel

example : rootCheck standsDoc = true ∧ rootCheck standsLone = true := by decide +kernel

example : StandsContent (groupedPara "ab cd") 30 0 (unwrapAll (rootContent standsDoc)) 30 0 ∧
    LoneContent (groupedPara "ab cd") (unwrapAll (rootContent standsLone)) := by
  rw [standsDoc_content, standsLone_content]
  have e1 : widthIn 30 (pageStyle grownFrom) = 30 := by decide +kernel
  have e2 : contentLeft false 30 0 (pageStyle grownFrom) = 0 := by decide +kernel
  have ho : (pageStyle grownFrom).outOfFlow = false := by decide +kernel
  have hp : (groupedPara "ab cd").inFlowBlock = true := by decide +kernel
  constructor
  · refine .inside _ _ _ _ _ _ _ _ _ _ ho ?_
    rw [e1, e2]
    refine .inside _ _ _ _ _ _ _ _ _ _ ho ?_
    rw [e1, e2]
    exact .here _ _ _ _ hp
  · exact .inside _ _ _ _ (by constructor <;> decide +kernel) ho (.here hp)

example : (pageAt standsLone 30, pageAt standsDoc 30) =
    (some [("ab", 0, 68 / 5), ("cd", 0, 164 / 5)],
      some [("xy", 0, 68 / 5), ("zz", 0, 164 / 5), ("ab", 0, 52), ("cd", 0, 356 / 5), ("ef", 0, 452 / 5)]) := by decide +kernel

end Sinab
