import Verif.Model.Block
import Verif.Spec.Text
import Verif.Spec.Boxes

/-! Vocabulary for statements about content that is added at the end of a page. -/

namespace Sinab.Append

mutual

/-- nothing in it is absolutely positioned -/
def noAbs : BlockContainer → Prop
  | .blockLevelBoxes bs => blocksNoAbs bs
  | .inlineFormattingContext _ bs => inlinesNoAbs bs

/-- see `noAbs` -/
def bfcNoAbs : Bfc → Prop
  | .mk c _ => noAbs c

/-- see `noAbs` -/
def blockNoAbs : BlockLevelBox → Prop
  | .sameFormattingContextBlock _ c => noAbs c
  | .outOfFlowAbsolutelyPositionedBox _ _ => False
  | .outOfFlowFloatBox _ c => bfcNoAbs c
  | .independent _ c => bfcNoAbs c

/-- see `noAbs` -/
def blocksNoAbs : List BlockLevelBox → Prop
  | [] => True
  | b :: bs => blockNoAbs b ∧ blocksNoAbs bs

/-- see `noAbs` -/
def inlineNoAbs : InlineLevelBox → Prop
  | .inlineBox _ _ _ children => inlinesNoAbs children
  | .textRun .. => True
  | .outOfFlowAbsolutelyPositionedBox _ _ => False
  | .outOfFlowFloatBox _ c => bfcNoAbs c

/-- see `noAbs` -/
def inlinesNoAbs : List InlineLevelBox → Prop
  | [] => True
  | b :: bs => inlineNoAbs b ∧ inlinesNoAbs bs

end

/-- not a relative offset that depends on the height of the block around -/
def fixedOffsets (st : Style) : Prop :=
  st.val .position = Position.relative → (∀ p, st.val .top ≠ .percentage p) ∧ ∀ p, st.val .bottom ≠ .percentage p

mutual

/-- no inline element in it has a relative offset that depends on the height of the block around -/
def inlineFixed : InlineLevelBox → Prop
  | .inlineBox st _ _ children => fixedOffsets st ∧ inlinesFixed children
  | _ => True

/-- see `inlineFixed` -/
def inlinesFixed : List InlineLevelBox → Prop
  | [] => True
  | b :: bs => inlineFixed b ∧ inlinesFixed bs

end

/-- two texts meet in the middle of a word, i.e. a line cannot be broken between them -/
def midWord (t t' : Text) : Prop :=
  ∃ c d, t.getLast? = some c ∧ t'.head? = some d ∧ ¬ isBreakChar c ∧ ¬ isBreakChar d

/-- a text can be added to another one: not in the middle of a word, or longer texts are at least as wide -/
def joinsOk (E : TextEnv) (f : Font) (t t' : Text) : Prop :=
  ¬ midWord t t' ∨ ∀ a b, E.width f a ≤ E.width f (a ++ b)

/-- The second one is the first one with more inline content at its end: words and elements after it, words in its
last run of text (if `joins`), any of this at the end of its last inline element, and so on. -/
inductive LongerInlines (joins : Font → Text → Text → Prop) : List InlineLevelBox → List InlineLevelBox → Prop
  | more (bs m : List InlineLevelBox) : LongerInlines joins bs (bs ++ m)
  | text (bs : List InlineLevelBox) (st : Style) (t t' : Text) (f : Font) (h : joins f t t') :
    LongerInlines joins (bs ++ [.textRun st t f]) (bs ++ [.textRun st (t ++ t') f])
  | inside (bs : List InlineLevelBox) (st : Style) (first last : Bool) (cs cs' : List InlineLevelBox)
    (h : LongerInlines joins cs cs') :
    LongerInlines joins (bs ++ [.inlineBox st first last cs]) (bs ++ [.inlineBox st first last cs'])
  | trans (bs bs' bs'' : List InlineLevelBox) (h : LongerInlines joins bs bs') (h' : LongerInlines joins bs' bs'') :
    LongerInlines joins bs bs''

mutual

/-- The second one is the first one with more content at its end: more blocks, or (only if `words`) more
words and inline elements, there or at the end of the last block, and so on.  If blocks are added after inline content,
an anonymous block is put around the latter; this must satisfy `may`. -/
inductive Longer (words : Bool) (may : List InlineLevelBox → Prop) (joins : Font → Text → Text → Prop) :
    BlockContainer → BlockContainer → Prop
  | blocks (bs more : List BlockLevelBox) :
    Longer words may joins (.blockLevelBoxes bs) (.blockLevelBoxes (bs ++ more))
  | empty (c : BlockContainer) : Longer words may joins (.blockLevelBoxes []) c
  | last (bs more : List BlockLevelBox) (b b' : BlockLevelBox) (h : LongerBlock words may joins b b') :
    Longer words may joins (.blockLevelBoxes (bs ++ [b])) (.blockLevelBoxes (bs ++ b' :: more))
  | words (h : words = true) (st : Style) (bs bs' : List InlineLevelBox) (hb : LongerInlines joins bs bs') :
    Longer words may joins (.inlineFormattingContext st bs) (.inlineFormattingContext st bs')
  | wrapped (st : Style) (bs bs' : List InlineLevelBox) (h : may bs)
    (hb : (words = true ∧ LongerInlines joins bs bs') ∨ bs' = bs) (more : List BlockLevelBox) :
    Longer words may joins (.inlineFormattingContext st bs) (.blockLevelBoxes (.sameFormattingContextBlock
      (Style.anonymousInheritingFrom (some st)) (.inlineFormattingContext st bs') :: more))

/-- see `Longer`; that there are floats in a box may be new -/
inductive LongerBlock (words : Bool) (may : List InlineLevelBox → Prop) (joins : Font → Text → Text → Prop) :
    BlockLevelBox → BlockLevelBox → Prop
  | same (st : Style) (c c' : BlockContainer) (h : Longer words may joins c c') :
    LongerBlock words may joins (.sameFormattingContextBlock st c) (.sameFormattingContextBlock st c')
  | independent (st : Style) (c c' : BlockContainer) (floats floats' : Bool) (h : Longer words may joins c c') :
    LongerBlock words may joins (.independent st (.mk c floats)) (.independent st (.mk c' floats'))

end

mutual

/-- without the last line: a line goes, a block loses its last one -/
def _root_.Sinab.Fragment.withoutLastLine : Fragment → List Fragment
  | .box st g m cs => [.box st g m (withoutLastLine cs)]
  | _ => []

/-- without the last line of the last block -/
def withoutLastLine : List Fragment → List Fragment
  | [] => []
  | f :: fs => if fs.isEmpty then f.withoutLastLine else f :: withoutLastLine fs

end

/-! ## Documents -/

/-- an element that makes a block in the flow -/
def isBlock : Styled → Bool
  | .elem _ st .block _ _ => !st.outOfFlow
  | _ => false

/-- something that shows nothing -/
def isNothing : Styled → Bool
  | .other | .hidden _ => true
  | _ => false

/-- the content begins with a block -/
def opensBlock (cs : List Styled) : Bool := (cs.find? fun c => !isNothing c).any isBlock

/-- the content ends with a block -/
def endsBlock (cs : List Styled) : Bool := opensBlock cs.reverse

/-- The second content is the first one with more at its end: there, or at the end of its last text or element, and so
on.  Unless `words`, what is added begins with a block, or comes after one, i.e. the last line stays as it is. -/
inductive Grown (words : Bool) : List Styled → List Styled → Prop
  | more (cs m : List Styled) (h : words = true ∨ opensBlock m = true ∨ endsBlock cs = true) : Grown words cs (cs ++ m)
  | text (h : words = true) (cs m : List Styled) (st : Style) (t t' : Text) :
    Grown words (cs ++ [.text st t]) (cs ++ .text st (t ++ t') :: m)
  | contents (cs m : List Styled) (id : NodeId) (ks ks' : List Styled) (h : Grown words ks ks') :
    Grown words (cs ++ [.contents id ks]) (cs ++ .contents id ks' :: m)
  | block (cs m : List Styled) (id : NodeId) (st : Style) (inside : DisplayInside) (ks ks' : List Styled)
    (hst : st.outOfFlow = false) (h : Grown words ks ks') :
    Grown words (cs ++ [.elem id st .block inside ks]) (cs ++ .elem id st .block inside ks' :: m)
  | inline (hw : words = true) (cs m : List Styled) (id : NodeId) (st : Style) (inside : DisplayInside)
    (ks ks' : List Styled) (h : Grown words ks ks') :
    Grown words (cs ++ [.elem id st .inline inside ks]) (cs ++ .elem id st .inline inside ks' :: m)

mutual

/-- no absolutely positioned element, and no inline element with a relative offset that depends on the height of
the block around -/
def staysPut : Styled → Prop
  | .other | .hidden _ | .text _ _ => True
  | .contents _ ks => staysPutAll ks
  | .elem _ st .inline _ ks => fixedOffsets st ∧ staysPutAll ks
  | .elem _ st .block _ ks => (st.val .position).isAbsolutelyPositioned = false ∧ staysPutAll ks

/-- `staysPut` for each entry -/
def staysPutAll : List Styled → Prop
  | [] => True
  | c :: cs => staysPut c ∧ staysPutAll cs

end

end Sinab.Append
