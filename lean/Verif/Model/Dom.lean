import Verif.Model.Basic
import Mathlib.Logic.Function.Basic

/-! `dom/mod.rs` and `dom/html.rs`: the arena of nodes and the tree sink.

Representation: the `Vec<Node>` is a length and a total function; indexing
checks the bound (`Panic.indexBounds`).  `NodeId` is the index (index 0 is the
dummy, 1 the document node).  `String` text is its list of characters.
`debug_assert!` is modelled as an abort.  `layout_data` of elements is left out
here (see Model/BoxSlots.lean). -/

namespace Sinab

abbrev Text := List Char

/-- html5ever's `QualName`: equality compares prefix, namespace and local name. -/
structure QualName where
  pfx : Option String
  ns : String
  localName : String
  deriving DecidableEq, Repr

/-- `ns!(html)` -/
def nsHtml : String := "http://www.w3.org/1999/xhtml"
/-- `ns!(svg)` -/
def nsSvg : String := "http://www.w3.org/2000/svg"
/-- `ns!(mathml)` -/
def nsMathml : String := "http://www.w3.org/1998/Math/MathML"

/-- `Attribute` (dom/mod.rs 255-260) -/
structure Attribute where
  name : QualName
  value : Text
  deriving DecidableEq, Repr

/-- `ElementData` (dom/mod.rs 247-252) -/
structure ElementData where
  name : QualName
  attrs : List Attribute
  deriving DecidableEq, Repr

/-- `ElementData::get_attr` (dom/mod.rs 263-268) -/
def ElementData.getAttr (e : ElementData) (name : String) : Option Text :=
  (e.attrs.find? (fun a => a.name.ns = "" ∧ a.name.localName = name)).map (·.value)

/-- `NodeData` (dom/mod.rs 226-244) -/
inductive NodeData where
  | document
  | doctype (name publicId systemId : Text)
  | text (contents : Text)
  | comment (contents : Text)
  | element (e : ElementData)
  | pi (target contents : Text)
  deriving DecidableEq, Repr

def NodeData.isText : NodeData → Bool
  | .text _ => true
  | _ => false

/-- `as_element` (dom/mod.rs 286-291) -/
def NodeData.asElement : NodeData → Option ElementData
  | .element e => some e
  | _ => none

/-- `as_text` (dom/mod.rs 293-298) -/
def NodeData.asText : NodeData → Option Text
  | .text t => some t
  | _ => none

abbrev NodeId := Nat

/-- `Node` (dom/mod.rs 20-27) -/
structure Node where
  parent : Option NodeId
  nextSibling : Option NodeId
  previousSibling : Option NodeId
  firstChild : Option NodeId
  lastChild : Option NodeId
  data : NodeData
  deriving DecidableEq, Repr

/-- `Node::new` (dom/mod.rs 300-309) -/
def Node.new (data : NodeData) : Node := ⟨none, none, none, none, none, data⟩

/-- `Document` (dom/mod.rs 15-18) -/
structure Doc where
  len : Nat
  node : NodeId → Node
  styleElements : List NodeId

namespace Doc

/-- `Document::new` (dom/mod.rs 33-42) -/
def new : Doc where
  len := 2
  node := fun _ => Node.new .document
  styleElements := []

/-- `document_node_id` (dom/mod.rs 44-46) -/
def documentNodeId : NodeId := 1

/-- `Index::index` (dom/mod.rs 209-216) -/
def get (d : Doc) (i : NodeId) : Except Panic Node :=
  if i < d.len then .ok (d.node i) else .error .indexBounds

/-- `IndexMut::index_mut` (dom/mod.rs 218-223) followed by an assignment through
the reference -/
def modify (d : Doc) (i : NodeId) (f : Node → Node) : Except Panic Doc :=
  if i < d.len then .ok { d with node := Function.update d.node i (f (d.node i)) }
  else .error .indexBounds

/-- `push_node` (dom/mod.rs 108-112) -/
def pushNode (d : Doc) (n : Node) : Doc × NodeId :=
  ({ d with len := d.len + 1, node := Function.update d.node d.len n }, d.len)

/-- `assert!`/`debug_assert!` -/
def check (b : Bool) : Except Panic Unit := if b then .ok () else .error .assertion

/-- `detach` (dom/mod.rs 114-135) -/
def detach (d : Doc) (node : NodeId) : Except Panic Doc := do
  let nd ← d.get node
  let d ← d.modify node fun x => { x with parent := none, previousSibling := none, nextSibling := none }
  let d ← match nd.nextSibling with
    | some nx => d.modify nx fun x => { x with previousSibling := nd.previousSibling }
    | none => match nd.parent with
      | some p => d.modify p fun x => { x with lastChild := nd.previousSibling }
      | none => pure d
  match nd.previousSibling with
    | some pv => d.modify pv fun x => { x with nextSibling := nd.nextSibling }
    | none => match nd.parent with
      | some p => d.modify p fun x => { x with firstChild := nd.nextSibling }
      | none => pure d

/-- `append` (dom/mod.rs 137-149) -/
def append (d : Doc) (parent newChild : NodeId) : Except Panic Doc := do
  let d ← d.detach newChild
  let d ← d.modify newChild fun x => { x with parent := some parent }
  let p ← d.get parent
  let d ← d.modify parent fun x => { x with lastChild := none }
  let d ← match p.lastChild with
    | some lastChild => do
      let d ← d.modify newChild fun x => { x with previousSibling := some lastChild }
      let l ← d.get lastChild
      check l.nextSibling.isNone
      d.modify lastChild fun x => { x with nextSibling := some newChild }
    | none => do
      let p ← d.get parent
      check p.firstChild.isNone
      d.modify parent fun x => { x with firstChild := some newChild }
  d.modify parent fun x => { x with lastChild := some newChild }

/-- `insert_before` (dom/mod.rs 151-164) -/
def insertBefore (d : Doc) (sibling newSibling : NodeId) : Except Panic Doc := do
  let d ← d.detach newSibling
  let s ← d.get sibling
  let d ← d.modify newSibling fun x => { x with parent := s.parent }
  let d ← d.modify newSibling fun x => { x with nextSibling := some sibling }
  let s ← d.get sibling
  let d ← d.modify sibling fun x => { x with previousSibling := none }
  let d ← match s.previousSibling with
    | some pv => do
      let d ← d.modify newSibling fun x => { x with previousSibling := some pv }
      let l ← d.get pv
      check (l.nextSibling = some sibling)
      d.modify pv fun x => { x with nextSibling := some newSibling }
    | none => do
      let s ← d.get sibling
      match s.parent with
      | some parent => do
        let p ← d.get parent
        check (p.firstChild = some sibling)
        d.modify parent fun x => { x with firstChild := some newSibling }
      | none => pure d
  d.modify sibling fun x => { x with previousSibling := some newSibling }

/-- `node_and_following_siblings` (dom/mod.rs 182-187) collected to a list.  Fuel
bounds the number of items. -/
def followingSiblings (d : Doc) : (fuel : Nat) → NodeId → Except Panic (List NodeId)
  | 0, _ => .error .outOfFuel
  | fuel + 1, n => do
    let nd ← d.get n
    match nd.nextSibling with
    | none => return [n]
    | some m => return n :: (← followingSiblings d fuel m)

/-- `self.node_and_ancestors(node).find_map(|a| self[a].next_sibling)`
(dom/mod.rs 189-194, 198-199).  Fuel bounds the number of ancestors visited. -/
def nextOfAncestors (d : Doc) : (fuel : Nat) → NodeId → Except Panic (Option NodeId)
  | 0, _ => .error .outOfFuel
  | fuel + 1, n => do
    let nd ← d.get n
    match nd.nextSibling with
    | some m => return some m
    | none => match nd.parent with
      | none => return none
      | some p => nextOfAncestors d fuel p

/-- `next_in_tree_order` (dom/mod.rs 196-201) -/
def nextInTreeOrder (d : Doc) (fuel : Nat) (n : NodeId) : Except Panic (Option NodeId) := do
  let nd ← d.get n
  match nd.firstChild with
  | some c => return some c
  | none => nextOfAncestors d fuel n

/-- `nodes` (dom/mod.rs 203-206), iterated to its end starting with `n`. -/
def nodesFrom (d : Doc) : (fuel : Nat) → NodeId → Except Panic (List NodeId)
  | 0, _ => .error .outOfFuel
  | fuel + 1, n => do
    match ← nextInTreeOrder d fuel n with
    | none => return [n]
    | some m => return n :: (← nodesFrom d fuel m)

/-- `nodes()` (dom/mod.rs 203-206) -/
def nodes (d : Doc) (fuel : Nat) : Except Panic (List NodeId) := d.nodesFrom fuel documentNodeId

/-- loop of `child_text_content` (dom/mod.rs 168-178).  The `Option<Cow<String>>`
accumulator is the concatenation so far. -/
def childTextLoop (d : Doc) : (fuel : Nat) → Option NodeId → Text → Except Panic Text
  | _, none, acc => .ok acc
  | 0, some _, _ => .error .outOfFuel
  | fuel + 1, some c, acc => do
    let nd ← d.get c
    let acc := match nd.data with
      | .text t => acc ++ t
      | _ => acc
    childTextLoop d fuel nd.nextSibling acc

/-- `child_text_content` (dom/mod.rs 167-180) -/
def childTextContent (d : Doc) (fuel : Nat) (n : NodeId) : Except Panic Text := do
  let nd ← d.get n
  childTextLoop d fuel nd.firstChild []

/-! ### The tree sink (dom/html.rs) -/

/-- html5ever's `NodeOrText` -/
inductive NodeOrText where
  | node (n : NodeId)
  | text (t : Text)
  deriving DecidableEq, Repr

/-- `Sink::new_node` (dom/html.rs 26-28) -/
def newNode (d : Doc) (data : NodeData) : Doc × NodeId := d.pushNode (Node.new data)

/-- the text arm of `append_common` up to line 47 (dom/html.rs 36-47): extends
the text node `previous` if there is one; `none` if there is not -/
def extendText (d : Doc) (previous : Option NodeId) (t : Text) : Except Panic (Option Doc) :=
  match previous with
  | none => .ok none
  | some id => do
    let nd ← d.get id
    match nd.data with
    | .text contents => do
      let d ← d.modify id fun x => { x with data := .text (contents ++ t) }
      return some d
    | _ => return none

/-- `append_common` (dom/html.rs 30-56); `previous` is the result of the closure
(which only reads), `app` the second closure. -/
def appendCommon (d : Doc) (child : NodeOrText) (previous : Option NodeId)
    (app : Doc → NodeId → Except Panic Doc) : Except Panic Doc :=
  match child with
  | .node n => app d n
  | .text t => do
    match ← d.extendText previous t with
    | some d => return d
    | none =>
      let (d, n) := d.newNode (.text t)
      app d n

/-- `TreeSink::append` (dom/html.rs 137-143) -/
def sinkAppend (d : Doc) (parent : NodeId) (child : NodeOrText) : Except Panic Doc :=
  match child with
  | .node n => d.append parent n
  | .text _ => do
    let p ← d.get parent
    d.appendCommon child p.lastChild fun d n => d.append parent n

/-- `TreeSink::append_before_sibling` (dom/html.rs 145-151) -/
def sinkAppendBeforeSibling (d : Doc) (sibling : NodeId) (child : NodeOrText) : Except Panic Doc :=
  match child with
  | .node n => d.insertBefore sibling n
  | .text _ => do
    let s ← d.get sibling
    d.appendCommon child s.previousSibling fun d n => d.insertBefore sibling n

/-- `TreeSink::append_based_on_parent_node` (dom/html.rs 153-164) -/
def sinkAppendBasedOnParentNode (d : Doc) (element prevElement : NodeId) (child : NodeOrText) :
    Except Panic Doc := do
  let e ← d.get element
  if e.parent.isSome then d.sinkAppendBeforeSibling element child
  else d.sinkAppend prevElement child

/-- `name.expanded() == expanded_name!(html "style")` (dom/html.rs 111) -/
def isStyle (name : QualName) : Bool := name.ns = nsHtml ∧ name.localName = "style"

/-- `TreeSink::create_element` (dom/html.rs 102-122) -/
def createElement (d : Doc) (name : QualName) (attrs : List Attribute) : Doc × NodeId :=
  let (d, n) := d.newNode (.element ⟨name, attrs⟩)
  if isStyle name then ({ d with styleElements := d.styleElements ++ [n] }, n) else (d, n)

/-- `TreeSink::append_doctype_to_document` (dom/html.rs 166-178) -/
def sinkAppendDoctype (d : Doc) (name publicId systemId : Text) : Except Panic Doc :=
  let (d, n) := d.newNode (.doctype name publicId systemId)
  d.append documentNodeId n

/-- the extension of the attribute list in `add_attrs_if_missing`
(dom/html.rs 186-196) -/
def mergeAttrs (old new : List Attribute) : List Attribute :=
  let existing := old.map (·.name)
  old ++ new.filter (fun a => !existing.contains a.name)

/-- `TreeSink::add_attrs_if_missing` (dom/html.rs 180-197) -/
def sinkAddAttrs (d : Doc) (target : NodeId) (attrs : List Attribute) : Except Panic Doc := do
  let t ← d.get target
  match t.data with
  | .element e =>
    d.modify target fun x => { x with data := .element { e with attrs := mergeAttrs e.attrs attrs } }
  | _ => .error .panicked

/-- loop of `TreeSink::reparent_children` (dom/html.rs 204-209) -/
def reparentLoop (d : Doc) (node newParent : NodeId) : (fuel : Nat) → Option NodeId →
    Except Panic Doc
  | _, none => .ok d
  | 0, some _ => .error .outOfFuel
  | fuel + 1, some child => do
    let c ← d.get child
    check (c.parent = some node)
    let d ← d.append newParent child
    let c ← d.get child
    reparentLoop d node newParent fuel c.nextSibling

/-- `TreeSink::reparent_children` (dom/html.rs 203-210) -/
def sinkReparentChildren (d : Doc) (fuel : Nat) (node newParent : NodeId) : Except Panic Doc := do
  let n ← d.get node
  reparentLoop d node newParent fuel n.firstChild

/-- Calls the HTML parser makes to build the tree (the `TreeSink` methods of
dom/html.rs 59-216 that have an effect on the document) -/
inductive SinkOp where
  | createElement (name : QualName) (attrs : List Attribute)
  | createComment (t : Text)
  | createPi (target contents : Text)
  | append (parent : NodeId) (child : NodeOrText)
  | appendBeforeSibling (sibling : NodeId) (child : NodeOrText)
  | appendBasedOnParentNode (element prevElement : NodeId) (child : NodeOrText)
  | appendDoctype (name publicId systemId : Text)
  | addAttrsIfMissing (target : NodeId) (attrs : List Attribute)
  | removeFromParent (target : NodeId)
  | reparentChildren (node newParent : NodeId)
  deriving DecidableEq, Repr

/-- Effect of one call on the document: `create_element` 102-122, `create_comment`
124-128, `create_pi` 130-135, the methods above, `remove_from_parent` 199-201
(dom/html.rs).  The loop of `reparent_children` gets the number of nodes as fuel. -/
def sinkStep (d : Doc) : SinkOp → Except Panic Doc
  | .createElement name attrs => .ok (d.createElement name attrs).1
  | .createComment t => .ok (d.newNode (.comment t)).1
  | .createPi t c => .ok (d.newNode (.pi t c)).1
  | .append p c => d.sinkAppend p c
  | .appendBeforeSibling s c => d.sinkAppendBeforeSibling s c
  | .appendBasedOnParentNode e p c => d.sinkAppendBasedOnParentNode e p c
  | .appendDoctype n p s => d.sinkAppendDoctype n p s
  | .addAttrsIfMissing t a => d.sinkAddAttrs t a
  | .removeFromParent c => d.detach c
  | .reparentChildren n p => d.sinkReparentChildren d.len n p

/-- `root_element`, loop body over the children of the document node
(dom/mod.rs 90-105) -/
def rootLoop (d : Doc) : List NodeId → Option NodeId → Except Panic (Option NodeId)
  | [], root => .ok root
  | c :: cs, root => do
    let nd ← d.get c
    match nd.data with
    | .doctype .. | .comment _ | .pi .. => rootLoop d cs root
    | .document | .text _ => .error .panicked
    | .element _ => do
      check root.isNone
      rootLoop d cs (some c)

/-- `root_element` (dom/mod.rs 84-106) -/
def rootElement (d : Doc) (fuel : Nat) : Except Panic NodeId := do
  let dn ← d.get documentNodeId
  check (dn.data = .document)
  check dn.parent.isNone
  check dn.nextSibling.isNone
  check dn.previousSibling.isNone
  match dn.firstChild with
  | none => .error .panicked
  | some c => do
    let cs ← d.followingSiblings fuel c
    match ← rootLoop d cs none with
    | some r => return r
    | none => .error .panicked

/-- `str::eq_ignore_ascii_case`: ASCII letters compare equal irrespective of case -/
def eqIgnoreAsciiCase (a b : Text) : Bool := a.map Char.toLower = b.map Char.toLower

/-- The texts given to `add_stylesheet` by the loop of `parse_stylesheets`
(dom/mod.rs 55-64) -/
def styleTexts (d : Doc) (fuel : Nat) : List NodeId → Except Panic (List Text)
  | [] => .ok []
  | id :: ids => do
    let nd ← d.get id
    match nd.data with
    | .element e =>
      match e.getAttr "type" with
      | some ty =>
        if !eqIgnoreAsciiCase ty "text/css".toList then styleTexts d fuel ids
        else return (← d.childTextContent fuel id) :: (← styleTexts d fuel ids)
      | none => return (← d.childTextContent fuel id) :: (← styleTexts d fuel ids)
    | _ => .error .panicked

/-- Arguments of the successive `add_stylesheet` calls of `parse_stylesheets`
(dom/mod.rs 48-66) -/
def stylesheetTexts (d : Doc) (fuel : Nat) (userCss : Option Text) : Except Panic (List Text) := do
  return userCss.toList ++ (← d.styleTexts fuel d.styleElements)

end Doc

end Sinab
