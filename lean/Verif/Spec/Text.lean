import Verif.Model.Inline

/-! Vocabulary for statements about line breaking: what a line may end with, and how a
text is cut to lines.  Independent of the code: a line is a pair of the characters
shown on it and the characters dropped at its end. -/

namespace Sinab

/-- characters at which wrapped text can be cut -/
def isBreakChar (c : Char) : Prop := c = ' ' ∨ c = '\n' ∨ c = '-'

/-- a piece of text without break characters -/
def Unbreakable (t : Text) : Prop := ∀ c ∈ t, ¬ isBreakChar c

/-- The next word of `rest` does not fit behind `shown`. -/
def NextWordOverflows (W : Text → ℚ) (avail : ℚ) (shown rest : Text) : Prop :=
  ∃ word rest', rest = word ++ rest' ∧ Unbreakable word ∧
    (rest' = [] ∨ ∃ c r, rest' = c :: r ∧ isBreakChar c) ∧ avail < W (shown ++ word)

/-- `LineEnd W avail first shown dropped rest newline`: a line of width `avail` shows
`shown`, drops `dropped`, leaves `rest`; `first`: the line may be left empty because
there may be something before it.  A newline character is never shown: it ends the line. -/
inductive LineEnd (W : Text → ℚ) (avail : ℚ) :
    (first : Bool) → (shown dropped rest : Text) → (newline : Bool) → Prop
  /-- the rest of the text fits -/
  | done {first shown} : W shown ≤ avail → '\n' ∉ shown → LineEnd W avail first shown [] [] false
  /-- a newline, also dropping a space before it -/
  | newline {first shown rest} : W shown ≤ avail → '\n' ∉ shown →
      LineEnd W avail first shown ['\n'] rest true
  | spaceNewline {first shown rest} : W (shown ++ [' ']) ≤ avail → '\n' ∉ shown →
      LineEnd W avail first shown [' ', '\n'] rest true
  /-- at a space, because the next word does not fit -/
  | space {first shown rest} : W shown ≤ avail → NextWordOverflows W avail (shown ++ [' ']) rest →
      '\n' ∉ shown → LineEnd W avail first shown [' '] rest false
  /-- after a hyphen, because the next word does not fit -/
  | hyphen {first shown rest} : W shown ≤ avail →
      NextWordOverflows W avail (shown ++ ['-']) rest → '\n' ∉ shown →
      LineEnd W avail first (shown ++ ['-']) [] rest false
  /-- before the first word, because it does not fit behind what is on the line already -/
  | start {rest} : NextWordOverflows W avail [] rest → LineEnd W avail true [] [] rest false
  /-- a word that cannot be broken is too long for a whole line; the break character
  behind it is dropped -/
  | overflow {shown c rest} : avail < W shown → Unbreakable shown → isBreakChar c →
      LineEnd W avail false shown [c] rest false
  | overflowEnd {shown} : avail < W shown → Unbreakable shown →
      LineEnd W avail false shown [] [] false

/-- One line of a broken text: shown characters, dropped characters, whether it was
ended by a newline character. -/
structure BrokenLine where
  shown : Text
  dropped : Text
  newline : Bool
  deriving DecidableEq, Repr

/-- shown and dropped characters -/
def BrokenLine.text (l : BrokenLine) : Text := l.shown ++ l.dropped

/-- `Wrapped W full avail first text lines`: `text` is cut to `lines`, where the first
line has width `avail` and the others `full`. -/
inductive Wrapped (W : Text → ℚ) (full : ℚ) :
    (avail : ℚ) → (first : Bool) → Text → List BrokenLine → Prop
  | last {avail first shown dropped} : LineEnd W avail first shown dropped [] false →
      Wrapped W full avail first (shown ++ dropped) [⟨shown, dropped, false⟩]
  | more {avail first shown dropped rest newline lines} :
      LineEnd W avail first shown dropped rest newline → (rest ≠ [] ∨ newline = true) →
      Wrapped W full full false rest lines →
      Wrapped W full avail first (shown ++ dropped ++ rest) (⟨shown, dropped, newline⟩ :: lines)

/-- `text.split('\n')`: the pieces between newlines -/
def splitNewlines : Text → List Text
  | [] => [[]]
  | c :: cs =>
    if c = '\n' then [] :: splitNewlines cs
    else match splitNewlines cs with
      | [] => [[c]]
      | l :: ls => (c :: l) :: ls

/-- lines, of which all but the last are ended by a newline -/
def newlinePieces : List Text → List (Text × Bool)
  | [] => []
  | [l] => [(l, false)]
  | l :: ls => (l, true) :: newlinePieces ls

/-- How the text of a run is cut to pieces, depending on `white-space`.  A piece is the
shown text and whether a newline ends it. -/
def RunPieces (E : TextEnv) (st : Style) (font : Font) (full avail : ℚ) (text : Text)
    (pieces : List (Text × Bool)) : Prop :=
  match (st.val .whiteSpace : WhiteSpace) with
  | .nowrap | .pre => pieces = newlinePieces (splitNewlines text)
  | _ => ∃ lines, Wrapped (E.width font) full avail true text lines ∧
      pieces = lines.map fun l => (l.shown, l.newline)

/-- A piece of text shown, with the style it is shown in. -/
abbrev Leaf := Style × Text

mutual
/-- texts shown by a fragment, in order -/
def Fragment.leaves : Fragment → List Leaf
  | .box _ _ _ children => leavesOf children
  | .anonymous _ children _ => leavesOf children
  | .text style _ seg => [(style, seg.glyphs)]

/-- texts shown by a list of fragments, in order -/
def leavesOf : List Fragment → List Leaf
  | [] => []
  | f :: fs => f.leaves ++ leavesOf fs
end

/-- texts of the boxes that are still open, outermost first -/
def stackLeaves : List PartialBox → List Leaf
  | [] => []
  | p :: ps => stackLeaves ps ++ leavesOf p.parent.fragmentsSoFar

/-- texts on the line under construction -/
def IfcState.pending (s : IfcState) : List Leaf :=
  stackLeaves s.stack ++ leavesOf s.current.fragmentsSoFar

/-- texts of every line, the line under construction last -/
def IfcState.lineLeaves (s : IfcState) : List (List Leaf) :=
  s.lines.map Fragment.leaves ++ [s.pending]

/-- a piece of text as a list of leaves (an empty piece shows nothing) -/
def leafOf (style : Style) (t : Text) : List Leaf := if t = [] then [] else [(style, t)]

/-- Adds pieces of text to a page: the first piece goes to the last line, every other
piece to a line of its own. -/
def addPieces (style : Style) : List (List Leaf) → List Text → List (List Leaf)
  | page, [] => page
  | page, piece :: pieces =>
    page.dropLast ++ [page.getLast?.getD [] ++ leafOf style piece]
      ++ pieces.map (leafOf style)

end Sinab
