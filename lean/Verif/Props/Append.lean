import Verif.Lemmas.AppendBlocks
import Verif.Props.Rows

/-! Content that is added at the end (C80): what was there before stays where it is. -/

namespace Sinab

open Sinab.Append

/-- the texts drawn on a page: what, where, with which font and colour -/
def textsAt (size : PVec2 Length) (fs : List Fragment) : List DrawCall :=
  (paintPage size fs).calls.filter DrawCall.isText

/-- what is compared: all, or all but the last line -/
def keptLines (words : Bool) (fs : List Fragment) : List Fragment := if words then withoutLastLine fs else fs

/-- C80 in full: if content is added at the end of a page without absolutely positioned boxes, then what was
drawn on it is drawn first, in the same places; if words may have been added to the last line, all before that line. -/
def C80_full : Prop :=
  ∀ (E : TextEnv) (words : Bool) (c c' : BlockContainer) (floats floats' : Bool) (size : PVec2 Length)
    (fs fs' : List Fragment), Longer words (fun _ => True) (joinsOk E) c c' → noAbs c → noAbs c' →
    rootLayout E (.mk c floats) size = .ok fs → rootLayout E (.mk c' floats') size = .ok fs' →
    textsAt size (keptLines words fs) <+: textsAt size fs'

namespace Append

theorem root_layout (E : TextEnv) {c : BlockContainer} (fl : Bool) (ha : noAbs c) (size : PVec2 Length) {N : Nat}
    (hN : c.noFloats.depth ≤ N) : ∃ fc,
    bfcLayout E (boxLayout E N) (.mk c.noFloats false) ⟨size.x, .length size.y, (.horizontalTb, .ltr)⟩ 0 [] =
      .ok (fc, []) ∧ rootLayout E (.mk c fl) size = .ok fc.fragments := by
  have hsame := same_layout E (Bfc.mk c fl).depth N
  obtain ⟨fc, new, h1, h1', -, -⟩ := sameBfc E hsame.1
    (cb := ⟨size.x, .length size.y, (.horizontalTb, .ltr)⟩) rfl (.mk c fl) (noAbs_sound c ha) le_rfl hN 0
  have h2 := h1' []
  simp only [Bfc.noFloats, List.nil_append] at h2
  have h3 := (bfc_solid (boxSolid E N) (noFloats_noAbs c ha) (noFloats_twice c) h2).1
  rw [List.map_eq_nil_iff] at h3
  subst h3
  refine ⟨fc, h2, ?_⟩
  simp only [rootLayout, rootLayoutWith, h1, bind, Except.bind, layoutAbsEach, pure, Except.pure,
    List.append_nil]

mutual

theorem fragment_upright : ∀ f : Fragment, f.upright → uprightAll f.withoutLastLine
  | .box st g m cs, h => by
    simp only [Fragment.withoutLastLine, uprightAll, Fragment.upright, and_true] at h ⊢
    exact withoutLastLine_upright cs h
  | .anonymous .., _ => by simp [Fragment.withoutLastLine, uprightAll]
  | .text .., _ => by simp [Fragment.withoutLastLine, uprightAll]

theorem withoutLastLine_upright : ∀ fs : List Fragment, uprightAll fs → uprightAll (withoutLastLine fs)
  | [], h => by simp [withoutLastLine, uprightAll]
  | f :: fs, h => by
    simp only [uprightAll] at h
    rw [withoutLastLine]
    split
    · exact fragment_upright f h.1
    · simp only [uprightAll]
      exact ⟨h.1, withoutLastLine_upright fs h.2⟩

end

end Append

/-- C80, except if a block is added after inline content in which an element is moved by a percentage of the
height around it: if content is added at the end of a page without absolutely positioned boxes, then what was
drawn on it is drawn first, in the same places; if words may have been added to the last line, all before that line. -/
theorem C80_append_partial (E : TextEnv) (words : Bool) (c c' : BlockContainer) (floats floats' : Bool)
    (size : PVec2 Length) (h : Longer words inlinesFixed (joinsOk E) c c') (ha : noAbs c) (ha' : noAbs c') :
    ∃ fs fs', rootLayout E (.mk c floats) size = .ok fs ∧ rootLayout E (.mk c' floats') size = .ok fs' ∧
      textsAt size (keptLines words fs) <+: textsAt size fs' := by
  obtain ⟨fc, h1, h2⟩ := root_layout E floats ha size (le_max_left c.noFloats.depth c'.noFloats.depth)
  obtain ⟨fc', h1', h2'⟩ := root_layout E floats' ha' size (le_max_right c.noFloats.depth c'.noFloats.depth)
  refine ⟨_, _, h2, h2', ?_⟩
  have hu := rootLayout_up h2
  have hk : uprightAll (keptLines words fc.fragments) := by
    cases words with
    | true => exact withoutLastLine_upright _ hu
    | false => exact hu
  unfold textsAt
  rw [paintPage_textBoxes size hk, paintPage_textBoxes size (rootLayout_up h2')]
  have := (bfc_longer (boxLonger E words _) (boxSolid E _) (boxWraps E _) (longer_noFloats h) (noFloats_noAbs c ha)
    (noFloats_noAbs c' ha') (noFloats_twice c) (noFloats_twice c') h1 h1').ext 0 0
  exact List.IsPrefix.map _ this

/-- words for examples -/
def appendWords (t : String) : InlineLevelBox := .textRun plainStyle t.toList (blockEnv.font plainStyle)

/-- a block with a margin and inline content -/
def appendLines (bs : List InlineLevelBox) : BlockLevelBox :=
  .sameFormattingContextBlock (plainStyle.set .marginTop (.length 7)) (.inlineFormattingContext plainStyle bs)

/-- an element that is moved by half the height of the block around -/
def appendMoved : InlineLevelBox :=
  .inlineBox ((plainStyle.set .position Position.relative).set .top (.percentage (1 / 2))) true true [appendWords "ab"]

/-- a block of a given height -/
def appendTall (c : BlockContainer) : BlockLevelBox :=
  .sameFormattingContextBlock (plainStyle.set .height (.length 40)) c

/-- the texts drawn on a page, if there is one -/
def writtenTexts (size : PVec2 Length) : Except Panic (List Fragment) → List DrawCall
  | .ok fs => textsAt size fs
  | .error _ => []

/-- C80 is false: the block that is put around the words has no height of its own. -/
theorem C80_full_false : ¬ C80_full := by
  intro h
  have hL : Longer false (fun _ => True) (joinsOk blockEnv)
      (.blockLevelBoxes ([] ++ [appendTall (.inlineFormattingContext plainStyle [appendMoved])]))
      (.blockLevelBoxes ([] ++ [appendTall (.blockLevelBoxes (.sameFormattingContextBlock
        (Style.anonymousInheritingFrom (some plainStyle)) (.inlineFormattingContext plainStyle [appendMoved]) ::
        [appendLines [appendWords "cd"]]))])) :=
    .last _ _ _ _ (.same _ _ _ (.wrapped _ _ _ trivial (Or.inr rfl) _))
  have n1 : noAbs (.blockLevelBoxes ([] ++ [appendTall (.inlineFormattingContext plainStyle [appendMoved])])) := by
    simp [noAbs, blocksNoAbs, blockNoAbs, appendTall, inlinesNoAbs, inlineNoAbs, appendMoved, appendWords]
  have n2 : noAbs (.blockLevelBoxes ([] ++ [appendTall (.blockLevelBoxes (.sameFormattingContextBlock
        (Style.anonymousInheritingFrom (some plainStyle)) (.inlineFormattingContext plainStyle [appendMoved]) ::
        [appendLines [appendWords "cd"]]))])) := by
    simp [noAbs, blocksNoAbs, blockNoAbs, appendTall, inlinesNoAbs, inlineNoAbs, appendMoved, appendWords, appendLines]
  obtain ⟨fc, -, h1⟩ := root_layout blockEnv false n1 ⟨100, 100⟩ le_rfl
  obtain ⟨fc', -, h2⟩ := root_layout blockEnv false n2 ⟨100, 100⟩ le_rfl
  have := h blockEnv false _ _ false false ⟨100, 100⟩ _ _ hL n1 n2 h1 h2
  have e1 := congrArg (writtenTexts ⟨100, 100⟩) h1
  have e2 := congrArg (writtenTexts ⟨100, 100⟩) h2
  simp only [keptLines, Bool.false_eq_true, if_false] at this
  simp only [writtenTexts] at e1 e2
  rw [← e1, ← e2] at this
  revert this
  decide +kernel

/-- content before the addition -/
def appendBefore : BlockContainer :=
  .blockLevelBoxes ([appendLines [appendWords "ab"]] ++ [appendTall (.inlineFormattingContext plainStyle [appendWords "cd ef gh"])])

/-- the same with a word added to the last line -/
def appendAfter : BlockContainer :=
  .blockLevelBoxes ([appendLines [appendWords "ab"]] ++
    appendTall (.inlineFormattingContext plainStyle ([appendWords "cd ef gh"] ++ [appendWords "ij kl"])) ::
    [appendLines [appendWords "mn"]])

example : Longer true inlinesFixed (joinsOk blockEnv) appendBefore appendAfter :=
  .last _ _ _ _ (.same _ _ _ (.words rfl _ _ _ (.more _ _)))

/-- the texts and positions of a page -/
def writtenAt (size : PVec2 Length) (c : BlockContainer) : List (String × ℚ × ℚ) :=
  (writtenTexts size (rootLayout blockEnv (.mk c false) size)).filterMap fun
    | .text t x y _ _ => some (t, x, y)
    | _ => none

example : writtenAt ⟨55, 100⟩ appendBefore = [("ab", 0, 103 / 5), ("cd ef", 0, 199 / 5), ("gh", 0, 59)] := by
  decide +kernel

example : writtenAt ⟨55, 100⟩ appendAfter = [("ab", 0, 103 / 5), ("cd ef", 0, 199 / 5), ("gh", 0, 59),
    ("ij", 20, 59), ("kl", 0, 391 / 5), ("mn", 0, 434 / 5)] := by decide +kernel

end Sinab
