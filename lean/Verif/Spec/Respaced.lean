import Verif.Spec.Boxes

/-! Vocabulary for C91: white space in the source. -/

namespace Sinab

/-- only white space -/
def blank (t : Text) : Prop := ∀ c ∈ t, htmlSpace c = true

/-- the text begins with white space -/
def blankFirst (t : Text) : Bool := t.head?.elim false htmlSpace

/-- the text ends with white space -/
def blankLast (t : Text) : Bool := t.getLast?.elim false htmlSpace

/-- The texts consist of the same words, with white space between the same words and at the same ends; what white space
it is, and how much, may differ. -/
structure SameWords (t t' : Text) : Prop where
  words : words t = words t'
  first : blankFirst t = blankFirst t'
  last : blankLast t = blankLast t'

/-- The same as `SameWords`, but also white space before the first word may be there in one of the texts only. -/
structure SameWordsAtStart (t t' : Text) : Prop where
  words : words t = words t'
  last : Sinab.words t ≠ [] → blankLast t = blankLast t'

/-- The contents differ only in white space that does not matter, and in comments.  `inl`: we are directly inside an
inline element.  `gap`: nothing precedes on the line in this block or inline element, or white space precedes; `after`: the
same behind the contents.  Texts whose white space is preserved are the same.  With `ends`, moreover, a hidden element is
the last child of an element in both or in none. -/
inductive Respaced (ends : Prop) : (inl gap after : Bool) → List Styled → List Styled → Prop
  | nil {inl gap} : Respaced ends inl gap gap [] []
  /-- a comment -/
  | otherLeft {inl gap after cs cs'} : Respaced ends inl gap after cs cs' →
    Respaced ends inl gap after (.other :: cs) cs'
  | otherRight {inl gap after cs cs'} : Respaced ends inl gap after cs cs' →
    Respaced ends inl gap after cs (.other :: cs')
  /-- white space at the start of an element, before, between and after blocks, after line breaks, and after other white
  space -/
  | blankLeft {inl after st t cs cs'} : (Styled.text st t).good inl = true → st.keepsSpace = false → blank t →
    Respaced ends inl true after cs cs' → Respaced ends inl true after (.text st t :: cs) cs'
  | blankRight {inl after st t cs cs'} : (Styled.text st t).good inl = true → st.keepsSpace = false → blank t →
    Respaced ends inl true after cs cs' → Respaced ends inl true after cs (.text st t :: cs')
  /-- text in such places -/
  | start {inl after st t t' cs cs'} : st.keepsSpace = false → SameWordsAtStart t t' →
    Respaced ends inl (blankLast t) after cs cs' →
    Respaced ends inl true after (.text st t :: cs) (.text st t' :: cs')
  /-- text anywhere -/
  | text {inl gap after st t t' cs cs'} : st.keepsSpace = false → SameWords t t' →
    Respaced ends inl (blankLast t) after cs cs' →
    Respaced ends inl gap after (.text st t :: cs) (.text st t' :: cs')
  /-- text with preserved white space, line breaks -/
  | kept {inl gap after st t cs cs'} : st.keepsSpace = true →
    Respaced ends inl (!t.isEmpty && atGap t) after cs cs' →
    Respaced ends inl gap after (.text st t :: cs) (.text st t :: cs')
  /-- elements that are not displayed -/
  | hidden {inl gap after i i' cs cs'} : Respaced ends inl gap after cs cs' →
    Respaced ends inl gap after (.hidden i :: cs) (.hidden i' :: cs')
  /-- elements that are replaced by their content -/
  | contents {inl gap mid after i i' ks ks' cs cs'} : Respaced ends inl gap mid ks ks' →
    (ends → endsHidden ks = endsHidden ks') → Respaced ends inl mid after cs cs' →
    Respaced ends inl gap after (.contents i ks :: cs) (.contents i' ks' :: cs')
  /-- inline elements -/
  | inline {inl gap last after i i' st ins ks ks' cs cs'} : Respaced ends true true last ks ks' →
    (ends → endsHidden ks = endsHidden ks') → Respaced ends inl (gap && last) after cs cs' →
    Respaced ends inl gap after (.elem i st .inline ins ks :: cs) (.elem i' st .inline ins ks' :: cs')
  /-- blocks -/
  | block {inl gap last after i i' st ins ks ks' cs cs'} : Respaced ends false true last ks ks' →
    (ends → endsHidden ks = endsHidden ks') → Respaced ends inl (gap || !st.outOfFlow) after cs cs' →
    Respaced ends inl gap after (.elem i st .block ins ks :: cs) (.elem i' st .block ins ks' :: cs')

mutual

/-- the texts of an entry, with their styles -/
def Styled.allTexts : Styled → List (Style × Text)
  | .other | .hidden _ => []
  | .text st t => [(st, t)]
  | .contents _ ks | .elem _ _ _ _ ks => allTextsOf ks

/-- the texts of content, with their styles -/
def allTextsOf : List Styled → List (Style × Text)
  | [] => []
  | c :: cs => c.allTexts ++ allTextsOf cs

end

end Sinab
