import Verif.Model.Dom

/-!
The element view given to the selector matcher: style/selectors.rs 92-275.
The matcher itself is the external crate `selectors`.
-/

namespace Sinab
namespace Doc

/-- loop of `find_element` (style/selectors.rs 118-124).  Fuel bounds the number
of nodes visited. -/
def findElementLoop (d : Doc) (next : Node → Option NodeId) :
    (fuel : Nat) → Option NodeId → Except Panic (Option NodeId)
  | _, none => .ok none
  | 0, some _ => .error .outOfFuel
  | fuel + 1, some n => do
    let nd ← d.get n
    if nd.data.asElement.isSome then return some n
    else findElementLoop d next fuel (next nd)

/-- `parent_element` (style/selectors.rs 134-141) -/
def parentElement (d : Doc) (n : NodeId) : Except Panic (Option NodeId) := do
  let nd ← d.get n
  match nd.parent with
  | none => return none
  | some p =>
    let pd ← d.get p
    if pd.data.asElement.isSome then return some p else return none

/-- `next_sibling_element` (style/selectors.rs 143-147) -/
def nextSiblingElement (d : Doc) (fuel : Nat) (n : NodeId) : Except Panic (Option NodeId) := do
  let nd ← d.get n
  d.findElementLoop (·.nextSibling) fuel nd.nextSibling

/-- `prev_sibling_element` (style/selectors.rs 149-153) -/
def prevSiblingElement (d : Doc) (fuel : Nat) (n : NodeId) : Except Panic (Option NodeId) := do
  let nd ← d.get n
  d.findElementLoop (·.previousSibling) fuel nd.previousSibling

/-- loop of `is_empty` (style/selectors.rs 248-261) -/
def isEmptyLoop (d : Doc) : (fuel : Nat) → Option NodeId → Except Panic Bool
  | _, none => .ok true
  | 0, some _ => .error .outOfFuel
  | fuel + 1, some n => do
    let nd ← d.get n
    if nd.data.asElement.isSome then return false
    else match nd.data.asText with
      | some t => if !t.isEmpty then return false else isEmptyLoop d fuel nd.nextSibling
      | none => isEmptyLoop d fuel nd.nextSibling

/-- `is_empty` (style/selectors.rs 245-263) -/
def isEmpty (d : Doc) (fuel : Nat) (n : NodeId) : Except Panic Bool := do
  let nd ← d.get n
  d.isEmptyLoop fuel nd.firstChild

/-- `is_root` (style/selectors.rs 265-267) -/
def isRoot (d : Doc) (n : NodeId) : Except Panic Bool := do
  return (← d.parentElement n).isNone

/-- `self.node().as_element().unwrap()` -/
def element (d : Doc) (n : NodeId) : Except Panic ElementData := do
  let nd ← d.get n
  match nd.data.asElement with
  | some e => return e
  | none => .error .panicked

/-- `selectors::attr::CaseSensitivity`, applied to two strings -/
inductive CaseSensitivity where
  | caseSensitive
  | asciiCaseInsensitive
  deriving DecidableEq, Repr

/-- `CaseSensitivity::eq` of the `selectors` crate -/
def CaseSensitivity.eq : CaseSensitivity → Text → Text → Bool
  | .caseSensitive, a, b => a = b
  | .asciiCaseInsensitive, a, b => eqIgnoreAsciiCase a b

/-- `has_id` (style/selectors.rs 225-233) -/
def hasId (d : Doc) (n : NodeId) (id : Text) (cs : CaseSensitivity) : Except Panic Bool := do
  let e ← d.element n
  return match e.getAttr "id" with
    | some a => cs.eq id a
    | none => false

/-- `has_class` (style/selectors.rs 235-243) -/
def hasClass (d : Doc) (n : NodeId) (cls : Text) (cs : CaseSensitivity) : Except Panic Bool := do
  let e ← d.element n
  return match e.getAttr "class" with
    | some a => cs.eq cls a
    | none => false

/-- `is_link` (style/selectors.rs 215-223) -/
def isLink (d : Doc) (n : NodeId) : Except Panic Bool := do
  let e ← d.element n
  return e.name.ns = nsHtml ∧
    (e.name.localName = "a" ∨ e.name.localName = "area" ∨ e.name.localName = "link") ∧
    (e.getAttr "href").isSome

/-- `attr_matches` (style/selectors.rs 179-193); `op` is
`AttrSelectorOperation::eval_str` of the `selectors` crate -/
def attrMatches (d : Doc) (n : NodeId) (ns : Option String) (localName : String)
    (op : Text → Bool) : Except Panic Bool := do
  let e ← d.element n
  return e.attrs.any fun a => decide (a.name.localName = localName) &&
    (match ns with
    | none => true
    | some ns => decide (a.name.ns = ns)) && op a.value

/-- `is_html_element_in_html_document` (style/selectors.rs 155-157);
`in_html_document` is constantly true (dom/mod.rs 281-284) -/
def isHtmlElement (d : Doc) (n : NodeId) : Except Panic Bool := do
  let e ← d.element n
  return e.name.ns = nsHtml

/-- `has_local_name` (style/selectors.rs 159-161) -/
def hasLocalName (d : Doc) (n : NodeId) (localName : String) : Except Panic Bool := do
  let e ← d.element n
  return e.name.localName = localName

/-- `has_namespace` (style/selectors.rs 163-165) -/
def hasNamespace (d : Doc) (n : NodeId) (ns : String) : Except Panic Bool := do
  let e ← d.element n
  return e.name.ns = ns

/-- `is_same_type` (style/selectors.rs 271) is not implemented: `todo!()` -/
def isSameType (_d : Doc) (_a _b : NodeId) : Except Panic Bool := .error .unimplemented

end Doc
end Sinab
