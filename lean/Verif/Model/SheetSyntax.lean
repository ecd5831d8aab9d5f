import Verif.Model.Style

/-! The syntax of style sheets: which rules and declarations the loops of `cssparser` (external, version 0.27) hand
to the parsers of this repository (style/rules.rs, style/declaration_block.rs 75-130), and what these make of them. -/

namespace Sinab

/-- A component value: a token, or a block with its content.  This is the input of `cssparser::Parser` (external):
blocks are balanced, the end of the input closes all open blocks. -/
inductive Comp where
  | space
  | comment
  | semicolon
  | colon
  | cdo
  | cdc
  | atKeyword (name : Text)
  | tok (t : Tok)
  | curly (content : List Comp)
  | square (content : List Comp)
  | paren (content : List Comp)
  | func (name : Text) (content : List Comp)

/-- The external parts of reading a style sheet.

* `selectors`: `SelectorList::parse` of the crate `selectors` with the `Parser` of style/selectors.rs 60-63, on a
  whole prelude; `none` for `Err`;
* `other`: how a component that is not a single token appears to the parsers of values. -/
structure SheetReader (S : SelectorEngine) where
  selectors : List Comp → Option (List S.Sel)
  other : Comp → Tok

/-- `Parser::next` skips white space and comments (external) -/
def Comp.skipped : Comp → Bool
  | .space | .comment => true
  | _ => false

/-- `Delimiter::Semicolon` -/
def Comp.isSemicolon : Comp → Bool
  | .semicolon => true
  | _ => false

/-- `Delimiter::CurlyBracketBlock` -/
def Comp.isCurly : Comp → Bool
  | .curly _ => true
  | _ => false

/-- `Parser::skip_cdc_and_cdo` (external) -/
def skipCdcAndCdo : List Comp → List Comp
  | [] => []
  | c :: cs =>
    match c with
    | .space | .comment | .cdo | .cdc => skipCdcAndCdo cs
    | _ => c :: cs

/-- `Parser::parse_until_before` (external): the components before the delimiter, and the rest starting with it.
Whatever the inner parser does, all of the first part is consumed. -/
def untilBefore (stop : Comp → Bool) : List Comp → List Comp × List Comp
  | [] => ([], [])
  | c :: cs =>
    if stop c then ([], c :: cs)
    else (c :: (untilBefore stop cs).1, (untilBefore stop cs).2)

/-- `Parser::parse_until_after` (external): the delimiter is consumed as well -/
def untilAfter (stop : Comp → Bool) (cs : List Comp) : List Comp × List Comp :=
  ((untilBefore stop cs).1, (untilBefore stop cs).2.tail)

/-- what is left after an at-rule (`parse_at_rule`, external).  `RulesParser` and `LonghandDeclarationParser` have the
default `AtRuleParser::parse_prelude` (style/rules.rs 47-52, style/declaration_block.rs 125-130), which returns `Err`
for every at-rule, so that the prelude and the block or semicolon are skipped. -/
def afterAtRule (cs : List Comp) : List Comp :=
  (untilAfter (fun c => c.isSemicolon || c.isCurly) cs).2

namespace SheetReader

variable {S : SelectorEngine} (R : SheetReader S)

/-- the tokens that the parsers of values see: `Parser::next` skips white space and comments -/
def value : List Comp → List Tok
  | [] => []
  | c :: cs =>
    match c with
    | .space | .comment => value cs
    | .tok t => t :: value cs
    | c => R.other c :: value cs

/-- `expect_colon` (external) at the start of a declaration -/
def expectColon : List Comp → Option (List Comp)
  | [] => none
  | c :: cs =>
    match c with
    | .space | .comment => expectColon cs
    | .colon => some cs
    | _ => none

/-- the calls of `DeclarationListParser::next` (external), made by the loop of `DeclarationBlock::parse`
(style/declaration_block.rs 18-38).  `fuel` bounds the number of rounds, each of which consumes a component. -/
def itemsFrom : Nat → List Comp → List RawItem
  | 0, _ => []
  | _ + 1, [] => []
  | fuel + 1, c :: cs =>
    match c with
    | .space | .comment | .semicolon => itemsFrom fuel cs
    | .tok (.ident name) =>
      let (decl, rest) := untilAfter Comp.isSemicolon cs
      match expectColon decl with
      | some v => .decl name (R.value v) :: itemsFrom fuel rest
      | none => .junk :: itemsFrom fuel rest
    | .atKeyword _ => .junk :: itemsFrom fuel (afterAtRule cs)
    | _ => .junk :: itemsFrom fuel (untilAfter Comp.isSemicolon cs).2

/-- the items of a declaration block (style/declaration_block.rs 17-48) -/
def items (cs : List Comp) : List RawItem := R.itemsFrom (cs.length + 1) cs

/-- `parse_qualified_rule` (external) with `RulesParser::parse_prelude` and `parse_block` (style/rules.rs 26-44): the
block is consumed even if the prelude is invalid; without a block there is an error at the end of the input. -/
def qualifiedRule (cs : List Comp) : RawRule S × List Comp :=
  let (prelude, rest) := untilBefore Comp.isCurly cs
  match rest with
  | .curly content :: rest =>
    match R.selectors prelude with
    | some sels => (.rule sels (R.items content), rest)
    | none => (.error, rest)
  | rest => (.error, rest)

/-- the calls of `RuleListParser::next` (external) made by the loop of `add_stylesheet` (style/cascade.rs 34-45).
`any` is the field `any_rule_so_far`: a `@charset` rule at the start is skipped without an error.  `fuel` bounds the
number of rounds, each of which consumes a component. -/
def sheetFrom : Nat → (any : Bool) → List Comp → List (RawRule S)
  | 0, _, _ => []
  | fuel + 1, any, cs =>
    match skipCdcAndCdo cs with
    | [] => []
    | .atKeyword name :: cs =>
      if any = false ∧ name.map Char.toLower = "charset".toList then
        sheetFrom fuel true (untilAfter (fun c => c.isSemicolon || c.isCurly) cs).2
      else .error :: sheetFrom fuel true (afterAtRule cs)
    | cs => (R.qualifiedRule cs).1 :: sheetFrom fuel true (R.qualifiedRule cs).2

/-- the results of `RuleListParser::new_for_stylesheet` (style/cascade.rs 34) -/
def sheet (cs : List Comp) : List (RawRule S) := R.sheetFrom (cs.length + 1) false cs

end SheetReader

end Sinab
