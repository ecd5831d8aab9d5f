import Verif.Model.Dom
import Verif.Spec.Style

/-! How elements look by default: the table of HTML's section on rendering
(<https://html.spec.whatwg.org/multipage/rendering.html>), as far as the built-in style sheet
of the package implements it. -/

namespace Sinab

/-- the element has an attribute -/
def HasAttr (e : ElementData) (name : String) : Prop :=
  ∃ a ∈ e.attrs, a.name.ns = "" ∧ a.name.localName = name

/-- `<input type=hidden>` -/
def HiddenInput (e : ElementData) : Prop :=
  e.name.localName = "input" ∧ ∃ a ∈ e.attrs, a.name.ns = "" ∧ a.name.localName = "type" ∧
    a.value.map Char.toLower = "hidden".toList

/-- elements that are not rendered -/
def invisibleElements : List String :=
  ["area", "base", "basefont", "datalist", "head", "link", "meta", "noembed", "noframes", "param",
   "rp", "script", "source", "style", "template", "track", "title"]

/-- elements that are rendered as blocks -/
def blockElements : List String :=
  ["html", "body", "address", "blockquote", "center", "dialog", "div", "figure", "figcaption",
   "footer", "form", "header", "hr", "legend", "listing", "main", "p", "plaintext", "pre", "xmp"]

open Classical in
/-- the value that the built-in style sheet gives to a property of an element, if it does;
`parent` is the style of the parent -/
noncomputable def builtIn (e : ElementData) (parent : Style) : (p : Longhand) → Option p.Comp
  | .display =>
    if HiddenInput e then some .none
    else if HasAttr e "hidden" then
      if e.name.localName = "embed" then some (.generatingBox .inline .flow) else some .none
    else if e.name.localName ∈ invisibleElements then some .none
    else if e.name.localName ∈ blockElements then some (.generatingBox .block .flow)
    else none
  | .width | .height =>
    if e.name.localName = "embed" ∧ HasAttr e "hidden" then some (.length 0) else none
  | .marginTop | .marginRight | .marginBottom | .marginLeft =>
    if e.name.localName = "body" then some (.length 0) else none
  | .fontStyle => if e.name.localName = "em" then some .italic else none
  | .fontWeight => if e.name.localName = "strong" then some .bold else none
  | .fontFamily => if e.name.localName = "code" then some .genericMonospace else none
  | .fontSize =>
    if e.name.localName = "sub" ∨ e.name.localName = "sup" then some (4 / 5 * parent.val .fontSize)
    else none
  | .verticalAlign =>
    if e.name.localName = "sub" then some .sub
    else if e.name.localName = "sup" then some .super else none
  | .whiteSpace => if e.name.localName = "br" ∨ e.name.localName = "pre" then some .pre else none
  | _ => none

end Sinab
