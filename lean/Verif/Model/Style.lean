import Verif.Model.Values
import Verif.Model.Geom

/-!
Properties, declaration blocks and computed values: style/properties/*.rs and
style/declaration_block.rs.

The grouping of computed values in reference-counted structs (`Arc::make_mut`)
is not part of this file: a style is one function from longhands to computed values.
Model/StyleHeap has the structs in memory; C77 says that the values are the same.
-/

namespace Sinab

/-- `LonghandId` (style/properties/definitions.rs 9-79) -/
inductive Longhand where
  | fontSize | fontStyle | fontWeight | fontFamily
  | lineHeight
  | verticalAlign
  | color
  | textAlign | whiteSpace
  | position | float | display
  | top | left | bottom | right | width | height
  | marginTop | marginRight | marginBottom | marginLeft
  | paddingTop | paddingRight | paddingBottom | paddingLeft
  | borderTopColor | borderRightColor | borderBottomColor | borderLeftColor
  | borderTopStyle | borderRightStyle | borderBottomStyle | borderLeftStyle
  | borderTopWidth | borderRightWidth | borderBottomWidth | borderLeftWidth
  | backgroundColor
  deriving DecidableEq, Repr

namespace Longhand

/-- specified value types (style/properties/definitions.rs 9-79) -/
@[reducible] def Spec : Longhand → Type
  | fontSize => SpecifiedLength
  | fontStyle => FontStyle
  | fontWeight => FontWeight
  | fontFamily => FontFamily
  | lineHeight => SpecifiedLengthOrPercentageOrNumber
  | verticalAlign => SpecifiedVerticalAlign
  | color => CssColor
  | textAlign => TextAlign
  | whiteSpace => WhiteSpace
  | position => Position
  | float => Float'
  | display => Display
  | top | left | bottom | right | width | height => SpecifiedLengthOrPercentageOrAuto
  | marginTop | marginRight | marginBottom | marginLeft => SpecifiedLengthOrPercentageOrAuto
  | paddingTop | paddingRight | paddingBottom | paddingLeft => SpecifiedLengthOrPercentage
  | borderTopColor | borderRightColor | borderBottomColor | borderLeftColor => CssColor
  | borderTopStyle | borderRightStyle | borderBottomStyle | borderLeftStyle => LineStyle
  | borderTopWidth | borderRightWidth | borderBottomWidth | borderLeftWidth => SpecifiedLineWidth
  | backgroundColor => CssColor

/-- computed value types (style/properties/definitions.rs 9-79) -/
@[reducible] def Comp : Longhand → Type
  | fontSize => Length
  | fontStyle => FontStyle
  | fontWeight => FontWeight
  | fontFamily => FontFamily
  | lineHeight => LengthOrPercentageOrNumber
  | verticalAlign => VerticalAlign
  | color => RGBA
  | textAlign => TextAlign
  | whiteSpace => WhiteSpace
  | position => Position
  | float => Float'
  | display => Display
  | top | left | bottom | right | width | height => LengthOrPercentageOrAuto
  | marginTop | marginRight | marginBottom | marginLeft => LengthOrPercentageOrAuto
  | paddingTop | paddingRight | paddingBottom | paddingLeft => LengthOrPercentage
  | borderTopColor | borderRightColor | borderBottomColor | borderLeftColor => CssColor
  | borderTopStyle | borderRightStyle | borderBottomStyle | borderLeftStyle => LineStyle
  | borderTopWidth | borderRightWidth | borderBottomWidth | borderLeftWidth => LineWidth
  | backgroundColor => CssColor

/-- `initial = …` (style/properties/definitions.rs 9-79) -/
def initial : (p : Longhand) → p.Comp
  | fontSize => (16 : ℚ)
  | fontStyle => FontStyle.normal
  | fontWeight => FontWeight.normal
  | fontFamily => FontFamily.genericSans
  | lineHeight => LengthOrPercentageOrNumber.number (12 / 10)
  | verticalAlign => VerticalAlign.baseline
  | color => RGBA.black
  | textAlign => TextAlign.left
  | whiteSpace => WhiteSpace.normal
  | position => Position.static
  | float => Float'.none
  | display => Display.initial
  | top | left | bottom | right | width | height => LengthOrPercentageOrAuto.auto
  | marginTop | marginRight | marginBottom | marginLeft => LengthOrPercentageOrAuto.length 0
  | paddingTop | paddingRight | paddingBottom | paddingLeft => LengthOrPercentage.length 0
  | borderTopColor | borderRightColor | borderBottomColor | borderLeftColor =>
    CssColor.currentColor
  | borderTopStyle | borderRightStyle | borderBottomStyle | borderLeftStyle => LineStyle.none
  | borderTopWidth | borderRightWidth | borderBottomWidth | borderLeftWidth =>
    LengthOrPercentage.medium
  | backgroundColor => CssColor.rgba RGBA.transparent

/-- `inherited struct` or `reset struct` (style/properties/definitions.rs 9-79) -/
def inherited : Longhand → Bool
  | fontSize | fontStyle | fontWeight | fontFamily => true
  | lineHeight => true
  | color => true
  | textAlign | whiteSpace => true
  | _ => false

/-- `is_early` (style/properties/macros.rs 68-81); `@early` is on `font_size` only
(style/properties/definitions.rs 10) -/
def isEarly : Longhand → Bool
  | fontSize => true
  | _ => false

/-- the value grammar of each longhand: `Parse::parse` of its specified type
(style/properties/macros.rs 259-268) -/
def parse (C : CssColors) : (p : Longhand) → P p.Spec
  | fontSize => SpecifiedLength.parse
  | fontStyle => FontStyle.parse
  | fontWeight => FontWeight.parse
  | fontFamily => FontFamily.parse
  | lineHeight => SpecifiedLengthOrPercentageOrNumber.parse
  | verticalAlign => SpecifiedVerticalAlign.parse
  | color => CssColor.parse C
  | textAlign => TextAlign.parse
  | whiteSpace => WhiteSpace.parse
  | position => Position.parse
  | float => Float'.parse
  | display => Display.parse
  | top | left | bottom | right | width | height => SpecifiedLengthOrPercentageOrAuto.parse
  | marginTop | marginRight | marginBottom | marginLeft => SpecifiedLengthOrPercentageOrAuto.parse
  | paddingTop | paddingRight | paddingBottom | paddingLeft => SpecifiedLengthOrPercentage.parse
  | borderTopColor | borderRightColor | borderBottomColor | borderLeftColor => CssColor.parse C
  | borderTopStyle | borderRightStyle | borderBottomStyle | borderLeftStyle => LineStyle.parse
  | borderTopWidth | borderRightWidth | borderBottomWidth | borderLeftWidth => parseLineWidth
  | backgroundColor => CssColor.parse C

end Longhand

/-- `LonghandDeclaration` (style/properties/macros.rs 97-102) -/
inductive Decl where
  | value (p : Longhand) (v : p.Spec)
  | cssWide (p : Longhand) (k : CssWideKeyword)

/-- the longhand a declaration is about -/
def Decl.longhand : Decl → Longhand
  | .value p _ => p
  | .cssWide p _ => p

/-- `PerPhase<bool>` (style/properties/mod.rs 118-122) -/
structure PerPhase where
  early : Bool
  late : Bool
  deriving DecidableEq, Repr

/-- `PropertyData` (style/properties/mod.rs 129-132) -/
structure PropertyData where
  longhands : List Longhand
  parse : P (List Decl × PerPhase)

/-- table entry of a longhand (style/properties/macros.rs 259-269) -/
def longhandData (C : CssColors) (p : Longhand) : PropertyData where
  longhands := [p]
  parse := (p.parse C).map fun v => ([.value p v], ⟨p.isEarly, !p.isEarly⟩)

/-- flags of a shorthand (style/properties/macros.rs 293-296) -/
def shorthandPhases (ls : List Longhand) : PerPhase :=
  ⟨ls.any (·.isEarly), ls.any (!·.isEarly)⟩

/-- table entry of a shorthand (style/properties/macros.rs 272-298); `decls` are
the pushed declarations, one per longhand in the order of the table -/
def shorthandData {α : Type} (ls : List Longhand) (p : P α) (decls : α → List Decl) :
    PropertyData where
  longhands := ls
  parse := p.map fun v => (decls v, shorthandPhases ls)

/-- `ValueOrInitial for Option<T>` (style/properties/mod.rs 149-159) -/
def orInitial (p : Longhand) : Option p.Spec → Decl
  | some v => .value p v
  | none => .cssWide p .initial

/-- the longhands with their names (style/properties/definitions.rs 9-79), with
the spelling of line 62 -/
def longhandNames : List (String × Longhand) :=
  [("font-size", .fontSize), ("font-style", .fontStyle), ("font-weight", .fontWeight),
   ("font-family", .fontFamily),
   ("line-height", .lineHeight),
   ("vertical-align", .verticalAlign),
   ("color", .color),
   ("text-align", .textAlign), ("white-space", .whiteSpace),
   ("position", .position), ("float", .float), ("display", .display),
   ("top", .top), ("left", .left), ("bottom", .bottom), ("right", .right),
   ("width", .width), ("height", .height),
   ("margin-top", .marginTop), ("margin-right", .marginRight),
   ("margin-bottom", .marginBottom), ("margin-left", .marginLeft),
   ("padding-top", .paddingTop), ("padding-right", .paddingRight),
   ("padding-bottom", .paddingBottom), ("padding-left", .paddingLeft),
   ("border-top-color", .borderTopColor), ("border-color-right", .borderRightColor),
   ("border-bottom-color", .borderBottomColor), ("border-left-color", .borderLeftColor),
   ("border-top-style", .borderTopStyle), ("border-right-style", .borderRightStyle),
   ("border-bottom-style", .borderBottomStyle), ("border-left-style", .borderLeftStyle),
   ("border-top-width", .borderTopWidth), ("border-right-width", .borderRightWidth),
   ("border-bottom-width", .borderBottomWidth), ("border-left-width", .borderLeftWidth),
   ("background-color", .backgroundColor)]

/-- the shorthands (style/properties/definitions.rs 81-149); `BorderFourSides`
(style/values/border.rs 96-131) repeats one `BorderSide`; `Background` is
style/values/background.rs 4-15 -/
def shorthandTable (C : CssColors) : List (String × PropertyData) :=
  [("margin", shorthandData [.marginTop, .marginLeft, .marginBottom, .marginRight]
      (FourSides.parse SpecifiedLengthOrPercentageOrAuto.parse) fun s =>
      [.value .marginTop s.top, .value .marginLeft s.left,
       .value .marginBottom s.bottom, .value .marginRight s.right]),
   ("padding", shorthandData [.paddingTop, .paddingLeft, .paddingBottom, .paddingRight]
      (FourSides.parse SpecifiedLengthOrPercentage.parse) fun s =>
      [.value .paddingTop s.top, .value .paddingLeft s.left,
       .value .paddingBottom s.bottom, .value .paddingRight s.right]),
   ("border-style", shorthandData
      [.borderTopStyle, .borderLeftStyle, .borderBottomStyle, .borderRightStyle]
      (FourSides.parse LineStyle.parse) fun s =>
      [.value .borderTopStyle s.top, .value .borderLeftStyle s.left,
       .value .borderBottomStyle s.bottom, .value .borderRightStyle s.right]),
   ("border-color", shorthandData
      [.borderTopColor, .borderLeftColor, .borderBottomColor, .borderRightColor]
      (FourSides.parse (CssColor.parse C)) fun s =>
      [.value .borderTopColor s.top, .value .borderLeftColor s.left,
       .value .borderBottomColor s.bottom, .value .borderRightColor s.right]),
   ("border-width", shorthandData
      [.borderTopWidth, .borderLeftWidth, .borderBottomWidth, .borderRightWidth]
      (FourSides.parse parseLineWidth) fun s =>
      [.value .borderTopWidth s.top, .value .borderLeftWidth s.left,
       .value .borderBottomWidth s.bottom, .value .borderRightWidth s.right]),
   ("border-top", shorthandData [.borderTopStyle, .borderTopColor, .borderTopWidth]
      (BorderSide.parse C) fun b =>
      [orInitial .borderTopStyle b.style, orInitial .borderTopColor b.color,
       orInitial .borderTopWidth b.width]),
   ("border-right", shorthandData [.borderRightStyle, .borderRightColor, .borderRightWidth]
      (BorderSide.parse C) fun b =>
      [orInitial .borderRightStyle b.style, orInitial .borderRightColor b.color,
       orInitial .borderRightWidth b.width]),
   ("border-bottom", shorthandData [.borderBottomStyle, .borderBottomColor, .borderBottomWidth]
      (BorderSide.parse C) fun b =>
      [orInitial .borderBottomStyle b.style, orInitial .borderBottomColor b.color,
       orInitial .borderBottomWidth b.width]),
   ("border-left", shorthandData [.borderLeftStyle, .borderLeftColor, .borderLeftWidth]
      (BorderSide.parse C) fun b =>
      [orInitial .borderLeftStyle b.style, orInitial .borderLeftColor b.color,
       orInitial .borderLeftWidth b.width]),
   ("border", shorthandData
      [.borderTopStyle, .borderRightStyle, .borderBottomStyle, .borderLeftStyle,
       .borderTopColor, .borderRightColor, .borderBottomColor, .borderLeftColor,
       .borderTopWidth, .borderRightWidth, .borderBottomWidth, .borderLeftWidth]
      (BorderSide.parse C) fun b =>
      [orInitial .borderTopStyle b.style, orInitial .borderRightStyle b.style,
       orInitial .borderBottomStyle b.style, orInitial .borderLeftStyle b.style,
       orInitial .borderTopColor b.color, orInitial .borderRightColor b.color,
       orInitial .borderBottomColor b.color, orInitial .borderLeftColor b.color,
       orInitial .borderTopWidth b.width, orInitial .borderRightWidth b.width,
       orInitial .borderBottomWidth b.width, orInitial .borderLeftWidth b.width]),
   ("background", shorthandData [.backgroundColor] (CssColor.parse C) fun c =>
      [orInitial .backgroundColor (some c)])]

/-- the table of `property_data_by_name` (style/properties/macros.rs 256-301) -/
def propertyTable (C : CssColors) : List (String × PropertyData) :=
  longhandNames.map (fun e => (e.1, longhandData C e.2)) ++ shorthandTable C

/-- `property_data_by_name` (style/properties/macros.rs 256-257):
`ascii_case_insensitive_phf_map!` looks up the lower-cased name. -/
def propertyDataByName (C : CssColors) (name : Text) : Option PropertyData :=
  ((propertyTable C).find? fun e => e.1.toList = name.map Char.toLower).map (·.2)

/-! ### Declaration blocks -/

/-- `DeclarationBlock` (style/declaration_block.rs 8-14) -/
structure Block where
  declarations : List Decl
  important : List Bool
  anyImportant : PerPhase
  anyNormal : PerPhase

/-- `DeclarationBlock::default()` -/
def Block.empty : Block := ⟨[], [], ⟨false, false⟩, ⟨false, false⟩⟩

/-- `cssparser::parse_important`: `!` and the identifier `important` in any case -/
def parseImportant : P Unit
  | .delim '!' :: .ident s :: rest =>
    if s.map Char.toLower = "important".toList then some ((), rest) else none
  | _ => none

/-- `parser.try(cssparser::parse_important).is_ok()` (style/declaration_block.rs 107)
with the components that are left -/
def tryImportant (ts : List Tok) : Bool × List Tok :=
  match parseImportant ts with
  | some ((), rest) => (true, rest)
  | none => (false, ts)

/-- An item of a declaration list as `cssparser::DeclarationListParser` sees it: a
name, a colon and the components up to the next semicolon, or something that is
not a declaration (at-rules are rejected, style/declaration_block.rs 125-130). -/
inductive RawItem where
  | decl (name : Text) (value : List Tok)
  | junk
  deriving DecidableEq, Repr

/-- the flags of a CSS-wide keyword (style/declaration_block.rs 93-103) -/
def cssWidePhases (ls : List Longhand) : PerPhase :=
  ls.foldl (fun parsed l => if l.isEarly then { parsed with early := true }
    else { parsed with late := true }) ⟨false, false⟩

/-- `any.early |= …; any.late |= …` (style/declaration_block.rs 116-117) -/
def PerPhase.or (a b : PerPhase) : PerPhase := ⟨a.early || b.early, a.late || b.late⟩

/-- the part of `parse_value` that reads the value (style/declaration_block.rs 91-106) -/
def parseDecls (data : PropertyData) : P (List Decl × PerPhase) := fun ts =>
  match CssWideKeyword.parse ts with
  | some (k, rest) => some ((data.longhands.map fun l => .cssWide l k, cssWidePhases data.longhands), rest)
  | none => data.parse ts

/-- `parse_value` (style/declaration_block.rs 84-122).  The result is the new block,
which has been modified in place, and the components that are left over, or `none`
for `Err`; in the latter case the block is unchanged because value parsers push
only after success. -/
def Block.parseValue (C : CssColors) (b : Block) (name : Text) (ts : List Tok) :
    Except Panic (Option (Block × List Tok)) :=
  match propertyDataByName C name with
  | none => .ok none
  | some data =>
    match parseDecls data ts with
    | none => .ok none
    | some ((decls, parsed), ts) =>
      let important := (tryImportant ts).1
      let count := decls.length
      if ¬ count > 0 then .error .assertion
      else .ok (some
        ({ declarations := b.declarations ++ decls
           important := b.important ++ List.replicate count important
           anyImportant := if important then b.anyImportant.or parsed else b.anyImportant
           anyNormal := if important then b.anyNormal else b.anyNormal.or parsed },
         (tryImportant ts).2))

/-- one round of the loop of `DeclarationBlock::parse` (style/declaration_block.rs
24-38).  `DeclarationListParser::next` wraps `parse_value` in `parse_entirely`: if
components are left over the item is an `Err` although `parse_value` has already
extended the block, and the assertion of line 30 fails. -/
def Block.parseItem (C : CssColors) (b : Block) : RawItem → Except Panic Block
  | .junk => .ok b
  | .decl name ts => do
    match ← b.parseValue C name ts with
    | none => return b
    | some (b', []) => return b'
    | some (b', _ :: _) =>
      if b'.declarations.length = b.declarations.length then return b'
      else .error .assertion

/-- `DeclarationBlock::parse` (style/declaration_block.rs 17-48) from block `b`.
The `debug_assert`s of lines 34-46 are theorems (`C25_flags`). -/
def Block.parseFrom (C : CssColors) : Block → List RawItem → Except Panic Block
  | b, [] => .ok b
  | b, i :: is => do
    let b ← b.parseItem C i
    Block.parseFrom C b is

/-- `DeclarationBlock::parse` (style/declaration_block.rs 17-48) -/
def Block.parse (C : CssColors) (items : List RawItem) : Except Panic Block :=
  Block.parseFrom C Block.empty items

/-! ### Computed values and the cascade -/

/-- `ComputedValues` (style/properties/macros.rs 166-171) -/
@[ext] structure Style where
  val : (p : Longhand) → p.Comp
  specifiedDisplay : Display

namespace Style

/-- `Arc::make_mut(&mut computed.$struct).$ident = v` -/
def set (s : Style) (p : Longhand) (v : p.Comp) : Style :=
  { s with val := Function.update s.val p v }

/-- `INITIAL_VALUES` (style/properties/macros.rs 198-209) -/
def initial : Style := ⟨Longhand.initial, Display.initial⟩

end Style

/-- `cascade_css_wide_keyword_into` (style/properties/macros.rs 37-65) -/
def Longhand.cascadeCssWide (p : Longhand) (k : CssWideKeyword) (computed inherited : Style) :
    Style :=
  let isInitial := match k with
    | .initial => true
    | .inherit => false
    | .unset => !p.inherited
  computed.set p (if isInitial then p.initial else inherited.val p)

/-- `EarlyFromSpecified` of the early longhands (style/values/fonts.rs 16-23);
`none` for the late ones (`if_early!`, style/properties/macros.rs 83-86) -/
def Longhand.earlyFromSpecified (inherited : Style) : (p : Longhand) → p.Spec → Option p.Comp
  | .fontSize, .absolute px => some px
  | .fontSize, .em v => some (inherited.val .fontSize * v)
  | _, _ => none

/-- `FromSpecified` of the late longhands; `none` for the early ones (`if_late!`,
style/properties/macros.rs 88-91).  `this` is the style under construction of
which only `font_size()` can be read (style/properties/macros.rs 245-254). -/
def Longhand.fromSpecified (inherited this : Style) : (p : Longhand) → p.Spec → Option p.Comp
  | .fontSize, _ => none
  | .fontStyle, v | .fontWeight, v | .fontFamily, v => some v
  | .lineHeight, v => some (SpecifiedLengthOrPercentageOrNumber.compute (this.val .fontSize) v)
  | .verticalAlign, v => some (SpecifiedVerticalAlign.compute (this.val .fontSize) v)
  | .color, v => some (CssColor.computeColor (inherited.val .color) v)
  | .textAlign, v | .whiteSpace, v | .position, v | .float, v | .display, v => some v
  | .top, v | .left, v | .bottom, v | .right, v | .width, v | .height, v
  | .marginTop, v | .marginRight, v | .marginBottom, v | .marginLeft, v =>
    some (SpecifiedLengthOrPercentageOrAuto.compute (this.val .fontSize) v)
  | .paddingTop, v | .paddingRight, v | .paddingBottom, v | .paddingLeft, v =>
    some (SpecifiedLengthOrPercentage.compute (this.val .fontSize) v)
  | .borderTopColor, v | .borderRightColor, v | .borderBottomColor, v | .borderLeftColor, v =>
    some v
  | .borderTopStyle, v | .borderRightStyle, v | .borderBottomStyle, v | .borderLeftStyle, v =>
    some v
  | .borderTopWidth, v | .borderRightWidth, v | .borderBottomWidth, v | .borderLeftWidth, v =>
    some (SpecifiedLengthOrPercentage.compute (this.val .fontSize) v)
  | .backgroundColor, v => some v

/-- `EarlyCascadeContext` or `CascadeContext` (style/properties/mod.rs 93-116) -/
inductive Phase | early | late
  deriving DecidableEq, Repr

/-- `Phase::select` (style/properties/mod.rs 99-101, 109-111) -/
def Phase.select : Phase → PerPhase → Bool
  | .early, p => p.early
  | .late, p => p.late

/-- `if_early_cascade_into` (style/properties/macros.rs 104-132) -/
def Decl.ifEarlyCascadeInto (inherited this : Style) : Decl → Style
  | .value p v =>
    match p.earlyFromSpecified inherited v with
    | some c => this.set p c
    | none => this
  | .cssWide p k => if p.isEarly then p.cascadeCssWide k this inherited else this

/-- `if_late_cascade_into` (style/properties/macros.rs 134-162) -/
def Decl.ifLateCascadeInto (inherited this : Style) : Decl → Style
  | .value p v =>
    match p.fromSpecified inherited this v with
    | some c => this.set p c
    | none => this
  | .cssWide p k => if !p.isEarly then p.cascadeCssWide k this inherited else this

/-- `Phase::cascade` (style/properties/mod.rs 103-105, 113-115) -/
def Phase.cascade (ph : Phase) (inherited this : Style) (d : Decl) : Style :=
  match ph with
  | .early => d.ifEarlyCascadeInto inherited this
  | .late => d.ifLateCascadeInto inherited this

/-- `DeclarationBlock::cascade` (style/declaration_block.rs 58-68) -/
def Block.cascade (b : Block) (important : Bool) (any : PerPhase) (ph : Phase)
    (inherited this : Style) : Style :=
  if ph.select any then
    (b.declarations.zip b.important).foldl
      (fun this di => if di.2 = important then ph.cascade inherited this di.1 else this) this
  else this

/-- `cascade_normal` (style/declaration_block.rs 50-52) -/
def Block.cascadeNormal (b : Block) (ph : Phase) (inherited this : Style) : Style :=
  b.cascade false b.anyNormal ph inherited this

/-- `cascade_important` (style/declaration_block.rs 54-56) -/
def Block.cascadeImportant (b : Block) (ph : Phase) (inherited this : Style) : Style :=
  b.cascade true b.anyImportant ph inherited this

/-- `MatchingDeclarations` (style/cascade.rs 72-75) -/
structure Matching where
  ua : List Block
  author : List Block

/-- `MatchingDeclarations::cascade` (style/cascade.rs 78-84) -/
def Matching.cascade (m : Matching) (ph : Phase) (inherited this : Style) : Style :=
  let this := m.ua.foldl (fun t b => b.cascadeNormal ph inherited t) this
  let this := m.author.foldl (fun t b => b.cascadeNormal ph inherited t) this
  let this := m.author.foldl (fun t b => b.cascadeImportant ph inherited t) this
  m.ua.foldl (fun t b => b.cascadeImportant ph inherited t) this

namespace Style

/-- `Display::fixup` (style/values/box_.rs 67-75).  The comparison of line 71 only
avoids a copy. -/
def displayFixup (s : Style) : Style :=
  let s := { s with specifiedDisplay := s.val .display }
  if (s.val .position).isAbsolutelyPositioned || (s.val .float).isFloating then
    let display := (s.val .display).blockify
    if display ≠ s.val .display then s.set .display display else s
  else s

/-- `post_cascade_fixups` (style/properties/mod.rs 22-30) -/
def postCascadeFixups (s : Style) : Style :=
  let s := s.set .borderTopWidth (lineWidthFixup (s.val .borderTopWidth) (s.val .borderTopStyle))
  let s := s.set .borderLeftWidth (lineWidthFixup (s.val .borderLeftWidth) (s.val .borderLeftStyle))
  let s := s.set .borderBottomWidth
    (lineWidthFixup (s.val .borderBottomWidth) (s.val .borderBottomStyle))
  let s := s.set .borderRightWidth
    (lineWidthFixup (s.val .borderRightWidth) (s.val .borderRightStyle))
  s.displayFixup

/-- starting point of the cascade (style/properties/macros.rs 212-221) -/
def start (inherited : Style) : Style where
  val p := if p.inherited then inherited.val p else p.initial
  specifiedDisplay := Display.initial

/-- `ComputedValues::new` (style/properties/macros.rs 193-234) -/
def new (inherited : Option Style) (matching : Option Matching) : Style :=
  let inherited := inherited.getD Style.initial
  let computed := start inherited
  let computed := match matching with
    | some m => m.cascade .late inherited (m.cascade .early inherited computed)
    | none => computed
  computed.postCascadeFixups

/-- `anonymous_inheriting_from` (style/properties/mod.rs 18-20) -/
def anonymousInheritingFrom (parent : Option Style) : Style := new parent none

/-- `writing_mode` (style/properties/mod.rs 32-35) -/
def writingMode (_ : Style) : Mode := (.horizontalTb, .ltr)

/-- `box_offsets` (style/properties/mod.rs 37-45) -/
def boxOffsets (s : Style) : Sides LengthOrPercentageOrAuto :=
  (PSides.mk (s.val .top) (s.val .left) (s.val .bottom) (s.val .right)).toFlowRelative s.writingMode

/-- `box_size` (style/properties/mod.rs 47-53) -/
def boxSize (s : Style) : Vec2 LengthOrPercentageOrAuto :=
  (PVec2.mk (s.val .width) (s.val .height)).sizeToFlowRelative s.writingMode

/-- `padding` (style/properties/mod.rs 55-63) -/
def padding (s : Style) : Sides LengthOrPercentage :=
  (PSides.mk (s.val .paddingTop) (s.val .paddingLeft) (s.val .paddingBottom)
    (s.val .paddingRight)).toFlowRelative s.writingMode

/-- `border_width` (style/properties/mod.rs 65-73) -/
def borderWidth (s : Style) : Sides LengthOrPercentage :=
  (PSides.mk (s.val .borderTopWidth) (s.val .borderLeftWidth) (s.val .borderBottomWidth)
    (s.val .borderRightWidth)).toFlowRelative s.writingMode

/-- `margin` (style/properties/mod.rs 75-83) -/
def margin (s : Style) : Sides LengthOrPercentageOrAuto :=
  (PSides.mk (s.val .marginTop) (s.val .marginLeft) (s.val .marginBottom)
    (s.val .marginRight)).toFlowRelative s.writingMode

/-- `to_rgba` (style/properties/mod.rs 85-90) -/
def toRgba (s : Style) : CssColor → RGBA
  | .rgba c => c
  | .currentColor => s.val .color

end Style

/-! ### Style sheets -/

/-- The external crate `selectors`: parsed selectors, their specificity, and
matching, which may abort (style/selectors.rs 270-274). -/
structure SelectorEngine where
  Sel : Type
  specificity : Sel → Nat
  matches_ : Sel → Doc → NodeId → Except Panic Bool

variable (S : SelectorEngine)

/-- An item of a style sheet as `cssparser::RuleListParser` delivers it: a style
rule with its selector list and declaration list (style/rules.rs 34-44), or an
error (invalid selectors, at-rules), which is skipped (style/cascade.rs 41-43). -/
inductive RawRule where
  | rule (selectors : List S.Sel) (items : List RawItem)
  | error

/-- `StyleSet` (style/cascade.rs 12-14) -/
structure StyleSet where
  rules : List (S.Sel × Block)

variable {S}

/-- `StyleSetBuilder::add_stylesheet` (style/cascade.rs 31-46) -/
def StyleSet.addStylesheet (C : CssColors) : StyleSet S → List (RawRule S) →
    Except Panic (StyleSet S)
  | s, [] => .ok s
  | s, .error :: rs => StyleSet.addStylesheet C s rs
  | s, .rule selectors items :: rs => do
    let block ← Block.parse C items
    StyleSet.addStylesheet C ⟨s.rules ++ selectors.map fun sel => (sel, block)⟩ rs

/-- successive calls of `add_stylesheet` -/
def StyleSet.addStylesheets (C : CssColors) : StyleSet S → List (List (RawRule S)) →
    Except Panic (StyleSet S)
  | s, [] => .ok s
  | s, sheet :: sheets => do
    let s ← s.addStylesheet C sheet
    StyleSet.addStylesheets C s sheets

/-- `StyleSetBuilder::finish` (style/cascade.rs 48-54): Rust's `sort_by_key` is a
stable sort, here the (stable) merge sort of Lean. -/
def StyleSet.finish (s : StyleSet S) : StyleSet S :=
  ⟨s.rules.mergeSort fun a b => S.specificity a.1 ≤ S.specificity b.1⟩

/-- loop of `push_matching` (style/cascade.rs 64-68) -/
def pushMatching (d : Doc) (n : NodeId) : List (S.Sel × Block) → Except Panic (List Block)
  | [] => .ok []
  | (sel, b) :: rs => do
    let m ← S.matches_ sel d n
    let bs ← pushMatching d n rs
    return if m then b :: bs else bs

/-- The tokenizer applied to the text of a `style` attribute (external). -/
abbrev AttrTokenizer := Text → List RawItem

/-- `style_for_element` (style/cascade.rs 87-114).  `ua` is `USER_AGENT_STYLESHEET`
(16-22). -/
def styleForElement (C : CssColors) (tokenize : AttrTokenizer) (ua author : StyleSet S)
    (d : Doc) (n : NodeId) (parentStyle : Option Style) : Except Panic Style := do
  let nd ← d.get n
  match nd.data.asElement with
  | none => return Style.new parentStyle none
  | some element =>
    let uaBlocks ← pushMatching d n ua.rules
    let authorBlocks ← pushMatching d n author.rules
    if element.name.ns = nsHtml ∨ element.name.ns = nsSvg ∨ element.name.ns = nsMathml then
      match element.getAttr "style" with
      | some styleAttr =>
        let block ← Block.parse C (tokenize styleAttr)
        return Style.new parentStyle (some ⟨uaBlocks, authorBlocks ++ [block]⟩)
      | none => return Style.new parentStyle (some ⟨uaBlocks, authorBlocks⟩)
    else return Style.new parentStyle (some ⟨uaBlocks, authorBlocks⟩)

end Sinab
