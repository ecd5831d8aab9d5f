import Verif.Model.Selectors
import Verif.Model.Style

/-!
`matches` (style/selectors.rs 14-26): matching of a selector by the crate `selectors`
(version 0.22, Cargo.toml) through the element view of style/selectors.rs 128-275.

The crate is not part of the repository.  Modelled is its interface as it is used here:
which callbacks are asked for each kind of simple selector, and the search over candidates
for each combinator.  The selectors are those that the parser of style/selectors.rs 65-68
accepts: it declares no namespaces (so a type selector has no namespace constraint), no
pseudo-elements and no pseudo-classes of its own (`PseudoClass` and `PseudoElement`,
35-39, are empty), hence `:hover`, `:link`, `::before` … are parse errors.

Simplification: the crate prunes the search over candidates if a failure further left
cannot be repaired by another candidate; the model tries all candidates.
-/

namespace Sinab

/-- combinators -/
inductive Combinator where
  | child
  | descendant
  | nextSibling
  | laterSibling
  deriving DecidableEq, Repr

/-- simple selectors -/
inductive SimpleSel where
  /-- `*` and `*|*` -/
  | universal
  /-- `p` -/
  | type (name : String)
  /-- `|p` (the part in front of the name) -/
  | noNamespace
  /-- `#v` -/
  | id (v : Text)
  /-- `.v` -/
  | cls (v : Text)
  /-- `[name]`, `[name=v]` …; `ns = none` for `[*|name]`, `some ""` for `[name]`.  The test
  `op` (`AttrSelectorOperation::eval_str`) may depend on whether the element is an HTML
  element, because the values of some attributes are compared caselessly then. -/
  | attr (ns : Option String) (name : String) (op : Bool → Text → Bool)
  | root
  | empty
  | firstChild
  | lastChild
  | onlyChild
  /-- `:nth-child(an+b)` -/
  | nthChild (a b : Int)
  | nthLastChild (a b : Int)
  /-- `:nth-of-type(an+b)`; `:first-of-type` is `:nth-of-type(0n+1)` -/
  | nthOfType (a b : Int)
  | nthLastOfType (a b : Int)
  | onlyOfType

/-- a simple selector, or its negation `:not(…)` -/
structure SelPart where
  negated : Bool
  simple : SimpleSel

/-- a compound selector, with combinators and compound selectors to its left -/
inductive ComplexSel where
  | compound (parts : List SelPart)
  | comb (left : ComplexSel) (k : Combinator) (parts : List SelPart)

namespace Doc

/-- the name that is compared (`select_name` of the crate) -/
def selectName (html : Bool) (name : String) : String := if html then name.toLower else name

/-- loop of `nth_child_index`: number of elements (of the same type) in one direction -/
def countSiblings (d : Doc) (step : NodeId → Except Panic (Option NodeId)) (ofType : Bool)
    (n : NodeId) : (fuel : Nat) → NodeId → Except Panic Nat
  | 0, _ => .error .outOfFuel
  | fuel + 1, cur => do
    match ← step cur with
    | none => return 0
    | some e =>
      let same ← if ofType then d.isSameType n e else .ok true
      let k ← countSiblings d step ofType n fuel e
      return if same then k + 1 else k

/-- is there a `k ≥ 0` with `a k + b = index`? (`matches_generic_nth_child`) -/
def isNth (a b : Int) (index : Int) : Bool :=
  let an := index - b
  if a = 0 then an = 0 else 0 ≤ an.tdiv a && a * an.tdiv a = an

/-- `matches_generic_nth_child` -/
def nthMatches (d : Doc) (n : NodeId) (a b : Int) (ofType fromEnd : Bool) : Except Panic Bool := do
  let k ← d.countSiblings
    (if fromEnd then d.nextSiblingElement d.len else d.prevSiblingElement d.len) ofType n (d.len + 1) n
  return isNth a b (k + 1)

/-- `matches_simple_selector` -/
def matchesSimple (d : Doc) (n : NodeId) : SimpleSel → Except Panic Bool
  | .universal => .ok true
  | .type name => do
    let html ← d.isHtmlElement n
    d.hasLocalName n (selectName html name)
  | .noNamespace => d.hasNamespace n ""
  | .id v => d.hasId n v .caseSensitive
  | .cls v => d.hasClass n v .caseSensitive
  | .attr ns name op => do
    let html ← d.isHtmlElement n
    d.attrMatches n ns (selectName html name) (op html)
  | .root => d.isRoot n
  | .empty => d.isEmpty d.len n
  | .firstChild => do
    let e ← d.prevSiblingElement d.len n
    return e.isNone
  | .lastChild => do
    let e ← d.nextSiblingElement d.len n
    return e.isNone
  | .onlyChild => do
    let e ← d.prevSiblingElement d.len n
    if e.isNone then
      let e ← d.nextSiblingElement d.len n
      return e.isNone
    else return false
  | .nthChild a b => d.nthMatches n a b false false
  | .nthLastChild a b => d.nthMatches n a b false true
  | .nthOfType a b => d.nthMatches n a b true false
  | .nthLastOfType a b => d.nthMatches n a b true true
  | .onlyOfType => do
    let first ← d.nthMatches n 0 1 true false
    if first then d.nthMatches n 0 1 true true else return false

/-- `matches_compound_selector` -/
def matchesCompound (d : Doc) (n : NodeId) : List SelPart → Except Panic Bool
  | [] => .ok true
  | part :: parts => do
    let m ← d.matchesSimple n part.simple
    if m = part.negated then return false else matchesCompound d n parts

/-- search over the candidates in one direction -/
def searchFrom (step : NodeId → Except Panic (Option NodeId)) (f : NodeId → Except Panic Bool) :
    (fuel : Nat) → NodeId → Except Panic Bool
  | 0, _ => .error .outOfFuel
  | fuel + 1, n => do
    match ← step n with
    | none => return false
    | some m =>
      let found ← f m
      if found then return true else searchFrom step f fuel m

/-- a single candidate -/
def tryNext (step : NodeId → Except Panic (Option NodeId)) (f : NodeId → Except Panic Bool)
    (n : NodeId) : Except Panic Bool := do
  match ← step n with
  | none => return false
  | some m => f m

/-- `next_element_for_combinator`, and the loop of `matches_complex_selector_internal` -/
def matchesLeft (d : Doc) (f : NodeId → Except Panic Bool) (n : NodeId) :
    Combinator → Except Panic Bool
  | .child => tryNext d.parentElement f n
  | .descendant => searchFrom d.parentElement f (d.len + 1) n
  | .nextSibling => tryNext (d.prevSiblingElement d.len) f n
  | .laterSibling => searchFrom (d.prevSiblingElement d.len) f (d.len + 1) n

/-- `matches_selector` (called in style/selectors.rs 14-26) -/
def matchesSelector (d : Doc) : ComplexSel → NodeId → Except Panic Bool
  | .compound parts, n => d.matchesCompound n parts
  | .comb left k parts, n => do
    let m ← d.matchesCompound n parts
    if m then d.matchesLeft (d.matchesSelector left) n k else return false

end Doc

/-- specificity of a simple selector: ids, classes (with attributes and pseudo-classes),
types -/
def SimpleSel.weight : SimpleSel → Nat × Nat × Nat
  | .universal | .noNamespace => (0, 0, 0)
  | .type _ => (0, 0, 1)
  | .id _ => (1, 0, 0)
  | _ => (0, 1, 0)

/-- all simple selectors of a selector -/
def ComplexSel.parts : ComplexSel → List SelPart
  | .compound ps => ps
  | .comb left _ ps => left.parts ++ ps

/-- `Selector::specificity`: three counts of 10 bits each -/
def ComplexSel.specificity (s : ComplexSel) : Nat :=
  let ws := s.parts.map (·.simple.weight)
  min (ws.map (·.1)).sum 1023 * 2 ^ 20 + min (ws.map (·.2.1)).sum 1023 * 2 ^ 10 +
    min (ws.map (·.2.2)).sum 1023

/-- the crate `selectors` with the element view of the repository -/
def cssEngine : SelectorEngine where
  Sel := ComplexSel
  specificity := ComplexSel.specificity
  matches_ s d n := d.matchesSelector s n

end Sinab
