import Verif.Model.Length
import Verif.Model.GContext
import Verif.Model.Dom

/-!
CSS values and their grammars: style/values/*.rs and the `Parse` derive macro.

A declaration value is the list of its component values as `cssparser` delivers
them to `Parser::next` (white space and comments are skipped; a function with its
arguments is one component).  The tokenizer of `cssparser` is not modelled.
A parser either fails or returns a value and the remaining components.  The
position after a failure is not modelled: every caller either restores it
(`Parser::try`) or gives up on the declaration.
-/

namespace Sinab

/-- Component values (`cssparser::Token`, restricted to what the value parsers
of style/values can tell apart; everything else is `other`). -/
inductive Tok where
  | ident (s : Text)
  | quoted (s : Text)
  | number (v : ℚ)
  /-- `unit_value` of the token: `50%` is `1/2` -/
  | percentage (v : ℚ)
  | dimension (v : ℚ) (unit : Text)
  | hash (s : Text)
  | func (name args : Text)
  | delim (c : Char)
  | other (n : Nat)
  deriving DecidableEq, Repr

/-- `fn parse(&mut Parser) -> Result<Self, _>` (style/values/mod.rs 24-26) -/
abbrev P (α : Type) := List Tok → Option (α × List Tok)

/-- apply a constructor to the value of a parser (`Ok(Ctor(value))`) -/
def P.map {α β : Type} (f : α → β) (p : P α) : P β := fun ts => (p ts).map fun r => (f r.1, r.2)

/-! ### The derive macro -/

/-- loop of `camel_case_to_kebab_case` (sinab-derive/src/style.rs 187-201).  The
compile-time panic on other characters is left out: such characters are dropped. -/
def camelToKebabFrom : (out : Text) → Text → Text
  | out, [] => out
  | out, c :: cs =>
    if c.isLower then camelToKebabFrom (out ++ [c]) cs
    else if c.isUpper then
      camelToKebabFrom ((if out.isEmpty then out else out ++ ['-']) ++ [c.toLower]) cs
    else camelToKebabFrom out cs

/-- `camel_case_to_kebab_case` (sinab-derive/src/style.rs 185-203) -/
def camelToKebab (s : String) : Text := camelToKebabFrom [] s.toList

/-- The function generated by `#[derive(Parse)]` (sinab-derive/src/style.rs
149-183): first the single-field variants in order of declaration, then an
identifier that is compared with the kebab-case names of the unit variants. -/
def deriveParse {α : Type} (fields : List (P α)) (units : List (String × α)) : P α := fun ts =>
  match fields.findSome? (fun p => p ts) with
  | some r => some r
  | none =>
    match ts with
    | .ident s :: rest =>
      (units.find? fun u => camelToKebab u.1 = s).map fun u => (u.2, rest)
    | _ => none

/-! ### Lengths -/

/-- `SpecifiedLength::parse` (style/values/length.rs 82-107);
`match_ignore_ascii_case!` compares the lower-cased unit. -/
def SpecifiedLength.parse : P SpecifiedLength
  | .dimension v unit :: rest =>
    let u := unit.map Char.toLower
    if u = "px".toList then some (.absolute v, rest)
    else if u = "pt".toList then some (.absolute (v / 72 * 96), rest)
    else if u = "in".toList then some (.absolute (v * 96), rest)
    else if u = "cm".toList then some (.absolute (v * 96 / (254 / 100)), rest)
    else if u = "mm".toList then some (.absolute (v * 96 / (254 / 10)), rest)
    else if u = "pc".toList then some (.absolute (v * 16), rest)
    else if u = "em".toList then some (.em v, rest)
    else none
  | .number v :: rest => if v = 0 then some (.absolute 0, rest) else none
  | _ => none

/-- `Percentage::parse` (style/values/length.rs 122-128) -/
def parsePercentage : P ℚ
  | .percentage v :: rest => some (v, rest)
  | _ => none

/-- `Number::parse` (style/values/length.rs 130-136) -/
def parseNumber : P ℚ
  | .number v :: rest => some (v, rest)
  | _ => none

/-- derived (style/values/length.rs 36-40) -/
def SpecifiedLengthOrPercentage.parse : P SpecifiedLengthOrPercentage :=
  deriveParse [SpecifiedLength.parse.map .length, parsePercentage.map .percentage] []

/-- derived (style/values/length.rs 48-53) -/
def SpecifiedLengthOrPercentageOrAuto.parse : P SpecifiedLengthOrPercentageOrAuto :=
  deriveParse [SpecifiedLength.parse.map .length, parsePercentage.map .percentage]
    [("Auto", .auto)]

/-- derived (style/values/length.rs 62-67) -/
def SpecifiedLengthOrPercentageOrNumber.parse : P SpecifiedLengthOrPercentageOrNumber :=
  deriveParse [SpecifiedLength.parse.map .length, parsePercentage.map .percentage,
    parseNumber.map .number] []

/-- `FromSpecified for Length` (style/values/length.rs 113-120); `fontSize` is
`context.this.font_size()` -/
def SpecifiedLength.compute (fontSize : Length) : SpecifiedLength → Length
  | .absolute px => px
  | .em v => fontSize * v

/-- derived `FromSpecified` (style/values/length.rs 42-46, sinab-derive/src/style.rs 29-111) -/
def SpecifiedLengthOrPercentage.compute (fontSize : Length) :
    SpecifiedLengthOrPercentage → LengthOrPercentage
  | .length l => .length (l.compute fontSize)
  | .percentage p => .percentage p

/-- derived `FromSpecified` (style/values/length.rs 55-60) -/
def SpecifiedLengthOrPercentageOrAuto.compute (fontSize : Length) :
    SpecifiedLengthOrPercentageOrAuto → LengthOrPercentageOrAuto
  | .length l => .length (l.compute fontSize)
  | .percentage p => .percentage p
  | .auto => .auto

/-- derived `FromSpecified` (style/values/length.rs 69-74) -/
def SpecifiedLengthOrPercentageOrNumber.compute (fontSize : Length) :
    SpecifiedLengthOrPercentageOrNumber → LengthOrPercentageOrNumber
  | .length l => .length (l.compute fontSize)
  | .percentage p => .percentage p
  | .number n => .number n

/-! ### Keywords -/

/-- `CssWideKeyword` (style/values/mod.rs 57-62) -/
inductive CssWideKeyword where
  | inherit | initial | unset
  deriving DecidableEq, Repr

/-- derived (style/values/mod.rs 57) -/
def CssWideKeyword.parse : P CssWideKeyword :=
  deriveParse [] [("Inherit", .inherit), ("Initial", .initial), ("Unset", .unset)]

/-- derived (style/values/border.rs 6-12) -/
def LineStyle.parse : P LineStyle :=
  deriveParse [] [("None", .none), ("Solid", .solid), ("Dotted", .dotted), ("Dashed", .dashed)]

/-- derived (style/values/fonts.rs 25-30) -/
def FontStyle.parse : P FontStyle :=
  deriveParse [] [("Normal", .normal), ("Italic", .italic), ("Oblique", .oblique)]

/-- derived (style/values/fonts.rs 32-36) -/
def FontWeight.parse : P FontWeight :=
  deriveParse [] [("Normal", .normal), ("Bold", .bold)]

/-- `Float` (style/values/box_.rs 111-116) -/
inductive Float' where
  | none | left | right
  deriving DecidableEq, Repr

/-- derived (style/values/box_.rs 111) -/
def Float'.parse : P Float' :=
  deriveParse [] [("None", .none), ("Left", .left), ("Right", .right)]

/-- `is_floating` (style/values/box_.rs 119-124) -/
def Float'.isFloating : Float' → Bool
  | .none => false
  | .left | .right => true

/-- `Position` (style/values/box_.rs 128-133) -/
inductive Position where
  | static | relative | absolute
  deriving DecidableEq, Repr

/-- derived (style/values/box_.rs 128) -/
def Position.parse : P Position :=
  deriveParse [] [("Static", .static), ("Relative", .relative), ("Absolute", .absolute)]

/-- `is_relatively_positioned` (style/values/box_.rs 136-138) -/
def Position.isRelativelyPositioned (p : Position) : Bool := p = .relative

/-- `is_absolutely_positioned` (style/values/box_.rs 140-142) -/
def Position.isAbsolutelyPositioned (p : Position) : Bool := p = .absolute

/-- `WhiteSpace` (style/values/text.rs 4-11) -/
inductive WhiteSpace where
  | normal | nowrap | pre | preWrap | preLine | breakSpaces
  deriving DecidableEq, Repr

/-- derived (style/values/text.rs 3) -/
def WhiteSpace.parse : P WhiteSpace :=
  deriveParse [] [("Normal", .normal), ("Nowrap", .nowrap), ("Pre", .pre),
    ("PreWrap", .preWrap), ("PreLine", .preLine), ("BreakSpaces", .breakSpaces)]

/-- `TextAlign` and `SpecifiedTextAlign` (style/values/text.rs 13-31); both have
the same contents since a percentage is its own computed value. -/
inductive TextAlign where
  | left | right | center | justify
  | percentage (p : ℚ)
  deriving DecidableEq, Repr

/-- derived (style/values/text.rs 13) -/
def TextAlign.parse : P TextAlign :=
  deriveParse [parsePercentage.map .percentage]
    [("Left", .left), ("Right", .right), ("Center", .center), ("Justify", .justify)]

/-- `SpecifiedVerticalAlign` (style/values/line.rs 3-15) -/
inductive SpecifiedVerticalAlign where
  | baseline | sub | super | top | textTop | middle | bottom | textBottom
  | length (l : SpecifiedLength)
  | percentage (p : ℚ)
  deriving DecidableEq, Repr

/-- `VerticalAlign` (style/values/line.rs 17-29) -/
inductive VerticalAlign where
  | baseline | sub | super | top | textTop | middle | bottom | textBottom
  | length (l : Length)
  | percentage (p : ℚ)
  deriving DecidableEq, Repr

/-- derived (style/values/line.rs 3) -/
def SpecifiedVerticalAlign.parse : P SpecifiedVerticalAlign :=
  deriveParse [SpecifiedLength.parse.map .length, parsePercentage.map .percentage]
    [("Baseline", .baseline), ("Sub", .sub), ("Super", .super), ("Top", .top),
     ("TextTop", .textTop), ("Middle", .middle), ("Bottom", .bottom), ("TextBottom", .textBottom)]

/-- derived `FromSpecified` (style/values/line.rs 17) -/
def SpecifiedVerticalAlign.compute (fontSize : Length) : SpecifiedVerticalAlign → VerticalAlign
  | .baseline => .baseline
  | .sub => .sub
  | .super => .super
  | .top => .top
  | .textTop => .textTop
  | .middle => .middle
  | .bottom => .bottom
  | .textBottom => .textBottom
  | .length l => .length (l.compute fontSize)
  | .percentage p => .percentage p

/-! ### Fonts -/

/-- `FontFamily` (style/values/fontfamily.rs 7-15) -/
inductive FontFamily where
  | familyName (s : Text)
  | genericSerif | genericSans | genericCursive | genericFantasy | genericMonospace
  deriving DecidableEq, Repr

/-- `FontFamily::parse` (style/values/fontfamily.rs 17-43) -/
def FontFamily.parse : P FontFamily := fun ts =>
  match ts with
  | [] => none
  | t :: rest =>
    let result : Option FontFamily :=
      match t with
      | .ident s =>
        let l := s.map Char.toLower
        if l = "sans-serif".toList then some .genericSans
        else if l = "serif".toList then some .genericSerif
        else if l = "cursive".toList then some .genericCursive
        else if l = "fantasy".toList then some .genericFantasy
        else if l = "monospace".toList then some .genericMonospace
        else some (.familyName s)
      | .quoted s => some (.familyName s)
      | _ => none
    match rest with
    | _ :: _ => none
    | [] => result.map fun f => (f, rest)

/-! ### Display -/

/-- `DisplayOutside` (style/values/box_.rs 32-35) -/
inductive DisplayOutside | inline | block
  deriving DecidableEq, Repr

/-- `DisplayInside` (style/values/box_.rs 39-42) -/
inductive DisplayInside | flow | flowRoot
  deriving DecidableEq, Repr

/-- `Display` with `DisplayGeneratingBox` (style/values/box_.rs 8-28), whose only
variant is `OutsideInside` -/
inductive Display where
  | none
  | contents
  | generatingBox (outside : DisplayOutside) (inside : DisplayInside)
  deriving DecidableEq, Repr

/-- `Display::INITIAL` (style/values/box_.rs 45-48) -/
def Display.initial : Display := .generatingBox .inline .flow

/-- `Display::blockify` (style/values/box_.rs 51-64) -/
def Display.blockify : Display → Display
  | .generatingBox _ inside => .generatingBox .block inside
  | other => other

/-- `Display::parse` (style/values/box_.rs 79-107) -/
def Display.parse : P Display
  | .ident s :: rest =>
    if s = "none".toList then some (.none, rest)
    else if s = "contents".toList then some (.contents, rest)
    else if s = "block".toList then some (.generatingBox .block .flow, rest)
    else if s = "flow-root".toList then some (.generatingBox .block .flowRoot, rest)
    else if s = "inline".toList then some (.generatingBox .inline .flow, rest)
    else Option.none
  | _ => Option.none

/-! ### Colours -/

/-- `cssparser::Color` -/
inductive CssColor where
  | rgba (c : RGBA)
  | currentColor
  deriving DecidableEq, Repr

/-- The parts of `cssparser::Color::parse` that are not modelled: hexadecimal
notation, the table of colour names and the colour functions. -/
structure CssColors where
  hash : Text → Option RGBA
  keyword : Text → Option CssColor
  function : Text → Text → Option CssColor

/-- `Color::parse` (style/values/color.rs 6-10, `cssparser`): one hash,
identifier or function. -/
def CssColor.parse (C : CssColors) : P CssColor
  | .hash s :: rest => (C.hash s).map fun c => (.rgba c, rest)
  | .ident s :: rest => (C.keyword s).map fun c => (c, rest)
  | .func n a :: rest => (C.function n a).map fun c => (c, rest)
  | _ => none

/-- `FromSpecified for RGBA` (style/values/color.rs 27-37); `inheritedColor` is
`context.inherited.color.color` -/
def CssColor.computeColor (inheritedColor : RGBA) : CssColor → RGBA
  | .rgba c => c
  | .currentColor => inheritedColor

/-- `BLACK` (style/values/color.rs 39-44) -/
def RGBA.black : RGBA := ⟨0, 0, 0, 255⟩

/-- `cssparser::RGBA::transparent()` -/
def RGBA.transparent : RGBA := ⟨0, 0, 0, 0⟩

/-! ### Borders -/

/-- `SpecifiedLineWidth` (style/values/border.rs 22-23), a wrapper -/
abbrev SpecifiedLineWidth := SpecifiedLengthOrPercentage

/-- `LineWidth` (style/values/border.rs 25-26), a wrapper -/
abbrev LineWidth := LengthOrPercentage

/-- `ParsedLineWidth` (style/values/border.rs 14-20) -/
inductive ParsedLineWidth where
  | thin | medium | thick
  | other (v : SpecifiedLengthOrPercentage)

/-- derived (style/values/border.rs 14) -/
def ParsedLineWidth.parse : P ParsedLineWidth :=
  deriveParse [SpecifiedLengthOrPercentage.parse.map .other]
    [("Thin", .thin), ("Medium", .medium), ("Thick", .thick)]

/-- `SpecifiedLineWidth::parse` (style/values/border.rs 39-51) -/
def parseLineWidth : P SpecifiedLineWidth :=
  ParsedLineWidth.parse.map fun
    | .thin => .length (.absolute 1)
    | .medium => .length (.absolute 3)
    | .thick => .length (.absolute 5)
    | .other v => v

/-- `LineWidth::MEDIUM` (style/values/border.rs 29-30) -/
def LengthOrPercentage.medium : LineWidth := .length 3

/-- `LineWidth::fixup` (style/values/border.rs 32-36) -/
def lineWidthFixup (w : LineWidth) (style : LineStyle) : LineWidth :=
  match style with
  | .none => .length 0
  | _ => w

/-- `BorderSide` (style/values/border.rs 89-94) -/
structure BorderSide where
  style : Option LineStyle
  color : Option CssColor
  width : Option SpecifiedLineWidth
  deriving DecidableEq, Repr

/-- one round of the loop of `parse_one_or_more!` (style/values/border.rs 61-72,
83-87): the first unset field, in the order style, colour, width, that parses;
`none` is `break` -/
def BorderSide.step (C : CssColors) (v : BorderSide) (ts : List Tok) :
    Option (BorderSide × List Tok) :=
  let tryWidth : Option (BorderSide × List Tok) :=
    if v.width.isNone then
      match parseLineWidth ts with
      | some (w, rest) => some ({ v with width := some w }, rest)
      | none => none
    else none
  let tryColor : Option (BorderSide × List Tok) :=
    if v.color.isNone then
      match CssColor.parse C ts with
      | some (c, rest) => some ({ v with color := some c }, rest)
      | none => tryWidth
    else tryWidth
  if v.style.isNone then
    match LineStyle.parse ts with
    | some (s, rest) => some ({ v with style := some s }, rest)
    | none => tryColor
  else tryColor

/-- the loop of `parse_one_or_more!` (style/values/border.rs 61-72).  Every round
but the last sets one of three unset fields, so three rounds are enough
(`BorderSide.loop_fuel`). -/
def BorderSide.loop (C : CssColors) : Nat → BorderSide → List Tok → BorderSide × List Tok
  | 0, v, ts => (v, ts)
  | n + 1, v, ts =>
    match v.step C ts with
    | some (v', ts') => BorderSide.loop C n v' ts'
    | none => (v, ts)

/-- `BorderSide::parse` (style/values/border.rs 53-87); `any` is true exactly if
a field has been set -/
def BorderSide.parse (C : CssColors) : P BorderSide := fun ts =>
  let r := BorderSide.loop C 3 ⟨none, none, none⟩ ts
  if r.1 = ⟨none, none, none⟩ then none else some r

/-! ### Four sides -/

/-- `FourSides` (style/values/generic.rs 5-11) -/
structure FourSides (α : Type) where
  top : α
  right : α
  bottom : α
  left : α
  deriving DecidableEq, Repr

/-- `FourSides::parse` (style/values/generic.rs 13-60) -/
def FourSides.parse {α : Type} (p : P α) : P (FourSides α) := fun ts =>
  match p ts with
  | none => none
  | some (top, ts) =>
    match p ts with
    | none => some (⟨top, top, top, top⟩, ts)
    | some (right, ts) =>
      match p ts with
      | none => some (⟨top, right, top, right⟩, ts)
      | some (bottom, ts) =>
        match p ts with
        | none => some (⟨top, right, bottom, right⟩, ts)
        | some (left, ts) => some (⟨top, right, bottom, left⟩, ts)

end Sinab
