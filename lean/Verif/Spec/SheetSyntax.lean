import Verif.Model.SheetSyntax

/-! The grammar of style sheets and of blocks of declarations (CSS Syntax, as far as it concerns rules and
declarations), stated without the parser: how a sheet is cut into pieces. -/

namespace Sinab

/-- white space or a comment -/
inductive Comp.Blank : Comp → Prop where
  | space : Comp.Blank .space
  | comment : Comp.Blank .comment

/-- what may stand between rules without a meaning: white space, comments, `<!--` and `-->` -/
inductive Comp.Idle : Comp → Prop where
  | blank {c : Comp} : c.Blank → Comp.Idle c
  | cdo : Comp.Idle .cdo
  | cdc : Comp.Idle .cdc

/-- no `;` outside of blocks -/
def NoSemicolon (cs : List Comp) : Prop := Comp.semicolon ∉ cs

/-- no `{…}` outside of other blocks -/
def NoCurly (cs : List Comp) : Prop := ∀ b, Comp.curly b ∉ cs

/-- an at-rule: `@name …;` or `@name … {…}` -/
inductive AtRule : List Comp → Prop where
  | semicolon (name : Text) {pre : List Comp} : NoSemicolon pre → NoCurly pre →
      AtRule (.atKeyword name :: pre ++ [.semicolon])
  | block (name : Text) {pre : List Comp} (b : List Comp) : NoSemicolon pre → NoCurly pre →
      AtRule (.atKeyword name :: pre ++ [.curly b])

/-- an at-rule that is cut off by the end of the text -/
inductive AtRuleOpen : List Comp → Prop where
  | mk (name : Text) {pre : List Comp} : NoSemicolon pre → NoCurly pre → AtRuleOpen (.atKeyword name :: pre)

/-- the part of a style rule before its block: it starts with something meaningful that is no at-keyword -/
def RulePrelude (pre : List Comp) : Prop :=
  NoCurly pre ∧ ∀ c, pre.head? = some c → ¬ c.Idle ∧ ∀ name, c ≠ .atKeyword name

/-- A complete piece of a style sheet; for a style rule, its prelude and the content of its block. -/
inductive SheetPiece : List Comp → Option (List Comp × List Comp) → Prop where
  | idle {c : Comp} : c.Idle → SheetPiece [c] none
  | atRule {cs : List Comp} : AtRule cs → SheetPiece cs none
  | rule {pre : List Comp} (b : List Comp) : RulePrelude pre → SheetPiece (pre ++ [.curly b]) (some (pre, b))

/-- Complete pieces, one after the other, and the style rules among them. -/
inductive SheetPieces : List Comp → List (List Comp × List Comp) → Prop where
  | nil : SheetPieces [] []
  | cons {p cs : List Comp} {r : Option (List Comp × List Comp)} {rs : List (List Comp × List Comp)} :
      SheetPiece p r → SheetPieces cs rs → SheetPieces (p ++ cs) (r.toList ++ rs)

/-- what may be left at the end: nothing, an at-rule that is cut off, a rule without a block -/
inductive SheetRest : List Comp → Prop where
  | nil : SheetRest []
  | atRule {cs : List Comp} : AtRuleOpen cs → SheetRest cs
  | prelude {pre : List Comp} : RulePrelude pre → SheetRest pre

/-- the style sheet `cs` consists of the style rules `rs`, and of things that are no style rules -/
def SheetReads (cs : List Comp) (rs : List (List Comp × List Comp)) : Prop :=
  ∃ w t, cs = w ++ t ∧ SheetPieces w rs ∧ SheetRest t

/-- The part of a block of declarations up to a semicolon; for a declaration, its name and what follows the colon. -/
inductive DeclBody : List Comp → Option (Text × List Comp) → Prop where
  | decl (name : Text) {gap v : List Comp} : (∀ c ∈ gap, c.Blank) → NoSemicolon v →
      DeclBody (.tok (.ident name) :: gap ++ .colon :: v) (some (name, v))
  | noColon (name : Text) {v : List Comp} : NoSemicolon v →
      (∀ gap w, (∀ c ∈ gap, c.Blank) → v ≠ gap ++ .colon :: w) → DeclBody (.tok (.ident name) :: v) none
  | other {c : Comp} {v : List Comp} : ¬ c.Blank → c ≠ .semicolon → (∀ name, c ≠ .atKeyword name) →
      (∀ name, c ≠ .tok (.ident name)) → NoSemicolon v → DeclBody (c :: v) none

/-- A complete piece of a block of declarations. -/
inductive DeclPiece : List Comp → Option (Text × List Comp) → Prop where
  | blank {c : Comp} : c.Blank → DeclPiece [c] none
  | semicolon : DeclPiece [.semicolon] none
  | atRule {cs : List Comp} : AtRule cs → DeclPiece cs none
  | body {cs : List Comp} {d : Option (Text × List Comp)} : DeclBody cs d → DeclPiece (cs ++ [.semicolon]) d

/-- Complete pieces, one after the other, and the declarations among them. -/
inductive DeclPieces : List Comp → List (Text × List Comp) → Prop where
  | nil : DeclPieces [] []
  | cons {p cs : List Comp} {d : Option (Text × List Comp)} {ds : List (Text × List Comp)} :
      DeclPiece p d → DeclPieces cs ds → DeclPieces (p ++ cs) (d.toList ++ ds)

/-- the end of a block of declarations: the last semicolon may be missing -/
inductive DeclRest : List Comp → Option (Text × List Comp) → Prop where
  | nil : DeclRest [] none
  | atRule {cs : List Comp} : AtRuleOpen cs → DeclRest cs none
  | body {cs : List Comp} {d : Option (Text × List Comp)} : DeclBody cs d → DeclRest cs d

/-- the block `cs` consists of the declarations `ds`, and of things that are no declarations -/
def DeclsRead (cs : List Comp) (ds : List (Text × List Comp)) : Prop :=
  ∃ w t ds' d, cs = w ++ t ∧ ds = ds' ++ d.toList ∧ DeclPieces w ds' ∧ DeclRest t d

/-- the tokens of a value: blanks do not count, blocks appear as `other` says -/
inductive ValueTokens (other : Comp → Tok) : List Comp → List Tok → Prop where
  | nil : ValueTokens other [] []
  | blank {c : Comp} {cs : List Comp} {ts : List Tok} : c.Blank → ValueTokens other cs ts →
      ValueTokens other (c :: cs) ts
  | tok (t : Tok) {cs : List Comp} {ts : List Tok} : ValueTokens other cs ts →
      ValueTokens other (.tok t :: cs) (t :: ts)
  | block {c : Comp} {cs : List Comp} {ts : List Tok} : ¬ c.Blank → (∀ t, c ≠ .tok t) → ValueTokens other cs ts →
      ValueTokens other (c :: cs) (other c :: ts)

/-- What a list of style rules means: rules whose prelude is not a list of selectors are ignored; the others apply the
declarations of their block to their selectors. -/
inductive SheetMeans {S : SelectorEngine} (R : SheetReader S) :
    List (List Comp × List Comp) → List (RawRule S) → Prop where
  | nil : SheetMeans R [] []
  | invalid {pre b : List Comp} {rs : List (List Comp × List Comp)} {qs : List (RawRule S)} :
      R.selectors pre = none → SheetMeans R rs qs → SheetMeans R ((pre, b) :: rs) qs
  | valid {pre b : List Comp} {sels : List S.Sel} {ds : List (Text × List Comp)} {is : List RawItem}
      {rs : List (List Comp × List Comp)} {qs : List (RawRule S)} :
      R.selectors pre = some sels → DeclsRead b ds →
      List.Forall₂ (fun d i => ∃ ts, ValueTokens R.other d.2 ts ∧ i = RawItem.decl d.1 ts) ds is →
      SheetMeans R rs qs → SheetMeans R ((pre, b) :: rs) (.rule sels is :: qs)

end Sinab
