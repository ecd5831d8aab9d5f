import Verif.Model.Style

/-!
Vocabulary for the statements about style.  Nothing here uses the functions of
the model that read values, resolve them or run the cascade.
-/

namespace Sinab

/-- The declarations of a block in order, each with its `!important` flag. -/
def Block.entries (b : Block) : List (Decl × Bool) := b.declarations.zip b.important

/-- Physical length of a specified length for font size `fs`. -/
def SpecifiedLength.inPx (fs : ℚ) : SpecifiedLength → ℚ
  | .absolute px => px
  | .em v => v * fs

/-- CSS computed value: lengths become absolute, keywords, percentages and numbers
stay, `currentcolor` stays except for `color` where it is the parent's colour.
`fs` is the font size of the element itself; `font-size` uses the parent's. -/
def Longhand.computedValue (parent : Style) (fs : ℚ) : (p : Longhand) → p.Spec → p.Comp
  | .fontSize, v => SpecifiedLength.inPx (parent.val .fontSize) v
  | .color, v => match v with
    | CssColor.currentColor => parent.val .color
    | CssColor.rgba c => c
  | .lineHeight, v => match v with
    | .length l => .length (l.inPx fs)
    | .percentage q => .percentage q
    | .number q => .number q
  | .verticalAlign, v => match v with
    | .length l => .length (l.inPx fs)
    | .percentage q => .percentage q
    | .baseline => .baseline
    | .sub => .sub
    | .super => .super
    | .top => .top
    | .textTop => .textTop
    | .middle => .middle
    | .bottom => .bottom
    | .textBottom => .textBottom
  | .top, v | .left, v | .bottom, v | .right, v | .width, v | .height, v
  | .marginTop, v | .marginRight, v | .marginBottom, v | .marginLeft, v => match v with
    | .length l => .length (l.inPx fs)
    | .percentage q => .percentage q
    | .auto => .auto
  | .paddingTop, v | .paddingRight, v | .paddingBottom, v | .paddingLeft, v
  | .borderTopWidth, v | .borderRightWidth, v | .borderBottomWidth, v | .borderLeftWidth, v =>
    match v with
    | .length l => .length (l.inPx fs)
    | .percentage q => .percentage q
  | .fontStyle, v | .fontWeight, v | .fontFamily, v | .textAlign, v | .whiteSpace, v
  | .position, v | .float, v | .display, v
  | .borderTopColor, v | .borderRightColor, v | .borderBottomColor, v | .borderLeftColor, v
  | .borderTopStyle, v | .borderRightStyle, v | .borderBottomStyle, v | .borderLeftStyle, v
  | .backgroundColor, v => v

/-- The CSS properties (of those supported) that are inherited. -/
def inheritedLonghands : List Longhand :=
  [.color, .fontFamily, .fontSize, .fontStyle, .fontWeight, .lineHeight, .textAlign, .whiteSpace]

/-- The value of a property without any declaration. -/
def Longhand.defaultValue (parent : Style) (p : Longhand) : p.Comp :=
  if p ∈ inheritedLonghands then parent.val p else p.initial

/-- What a declaration says about its longhand. -/
inductive Says (parent : Style) (fs : ℚ) : Decl → (p : Longhand) → p.Comp → Prop where
  | value (p : Longhand) (v : p.Spec) : Says parent fs (.value p v) p (p.computedValue parent fs v)
  | initial (p : Longhand) : Says parent fs (.cssWide p .initial) p p.initial
  | inherit (p : Longhand) : Says parent fs (.cssWide p .inherit) p (parent.val p)
  | unset (p : Longhand) : Says parent fs (.cssWide p .unset) p (p.defaultValue parent)

/-- CSS 2 §9.7 and §8.5.3: display is blockified for floating and absolutely
positioned elements, the width of a side without border style is zero.  `s` is
the computed style, `v` the cascaded value of `p`. -/
def Longhand.adjusted (s : Style) : (p : Longhand) → p.Comp → p.Comp
  | .display, v => match v with
    | Display.generatingBox o i =>
      if s.val .position = Position.absolute ∨ s.val .float ≠ Float'.none
      then Display.generatingBox .block i else Display.generatingBox o i
    | d => d
  | .borderTopWidth, v => if s.val .borderTopStyle = LineStyle.none then .length 0 else v
  | .borderRightWidth, v => if s.val .borderRightStyle = LineStyle.none then .length 0 else v
  | .borderBottomWidth, v => if s.val .borderBottomStyle = LineStyle.none then .length 0 else v
  | .borderLeftWidth, v => if s.val .borderLeftStyle = LineStyle.none then .length 0 else v
  | _, v => v

variable {S : SelectorEngine}

/-- `Applies ua author attr d n k decl`: declaration `decl` applies to node `n`.
`ua` and `author` are the rules in order of appearance, `attr` the block of the
style attribute.  The key `k` gives its place in the cascade, compared
lexicographically: origin and importance, style attribute or not, specificity,
index of the rule, index within the block. -/
inductive Applies (ua author : List (S.Sel × Block)) (attr : Option Block) (d : Doc) (n : NodeId) :
    List Nat → Decl → Prop where
  | ua {i j sel b decl imp} :
      ua[i]? = some (sel, b) → S.matches_ sel d n = .ok true → b.entries[j]? = some (decl, imp) →
      Applies ua author attr d n [if imp then 3 else 0, 0, S.specificity sel, i, j] decl
  | author {i j sel b decl imp} :
      author[i]? = some (sel, b) → S.matches_ sel d n = .ok true →
      b.entries[j]? = some (decl, imp) →
      Applies ua author attr d n [if imp then 2 else 1, 0, S.specificity sel, i, j] decl
  | attr {j b decl imp} :
      attr = some b → b.entries[j]? = some (decl, imp) →
      Applies ua author attr d n [if imp then 2 else 1, 1, 0, 0, j] decl

/-- Declaration `w` at key `k` is the winner for longhand `p`. -/
structure Wins (ua author : List (S.Sel × Block)) (attr : Option Block) (d : Doc) (n : NodeId)
    (p : Longhand) (k : List Nat) (w : Decl) : Prop where
  applies : Applies ua author attr d n k w
  about : w.longhand = p
  last : ∀ k' d', Applies ua author attr d n k' d' → d'.longhand = p → k' = k ∧ d' = w ∨ k' < k

/-- the namespaces of HTML, SVG and MathML -/
def styledNamespaces : List String :=
  ["http://www.w3.org/1999/xhtml", "http://www.w3.org/2000/svg", "http://www.w3.org/1998/Math/MathML"]

/-- The block of the style attribute of an element, if it takes part in the cascade. -/
def StyleAttr (C : CssColors) (tokenize : AttrTokenizer) (e : ElementData) (attr : Option Block) :
    Prop :=
  match attr with
  | some b => e.name.ns ∈ styledNamespaces ∧
      ∃ t, e.getAttr "style" = some t ∧ Block.parse C (tokenize t) = .ok b
  | none => e.name.ns ∉ styledNamespaces ∨ e.getAttr "style" = none

/-- The block was read by the parser. -/
def Block.Parsed (C : CssColors) (b : Block) : Prop := ∃ items, Block.parse C items = .ok b

/-- Styles the engine can compute for boxes: starting from the initial style, from
any parent style with any matching blocks that were read by the parser. -/
inductive Style.Computed (C : CssColors) : Style → Prop where
  | root (m : Option Matching) :
      (∀ m', m = some m' → ∀ b, b ∈ m'.ua ∨ b ∈ m'.author → b.Parsed C) →
      Style.Computed C (Style.new none m)
  | child (parent : Style) (m : Option Matching) : Style.Computed C parent →
      (∀ m', m = some m' → ∀ b, b ∈ m'.ua ∨ b ∈ m'.author → b.Parsed C) →
      Style.Computed C (Style.new (some parent) m)

/-- What is used of the table of CSS colour names: none of them is one of the
keywords of border-style, border-width or a CSS-wide keyword. -/
def CssColors.Sane (C : CssColors) : Prop :=
  ∀ s ∈ ["none", "solid", "dotted", "dashed", "thin", "medium", "thick",
    "inherit", "initial", "unset"], C.keyword (String.toList s) = none

/-! ### Borders -/

/-- a component of a border declaration -/
inductive BorderPart where
  | style (s : LineStyle)
  | color (c : CssColor)
  | width (w : SpecifiedLineWidth)

/-- which of the three kinds of component it is -/
def BorderPart.kind : BorderPart → Fin 3
  | .style _ => 0
  | .color _ => 1
  | .width _ => 2

/-- the style, if it is one -/
def BorderPart.style? : BorderPart → Option LineStyle
  | .style s => some s
  | _ => none

/-- the colour, if it is one -/
def BorderPart.color? : BorderPart → Option CssColor
  | .color s => some s
  | _ => none

/-- the width, if it is one -/
def BorderPart.width? : BorderPart → Option SpecifiedLineWidth
  | .width s => some s
  | _ => none

end Sinab
