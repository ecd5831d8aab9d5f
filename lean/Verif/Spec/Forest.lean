import Verif.Model.Dom
import Mathlib.Logic.Relation

namespace Sinab
namespace Doc

/-! ## The abstract forest -/

/-- `l` is a doubly linked segment of siblings in `d` with `pv` in front of it
and `nx` behind it. -/
def Seg (d : Doc) (pv : Option NodeId) : List NodeId → Option NodeId → Prop
  | [], _ => True
  | c :: l, nx =>
    (d.node c).previousSibling = pv ∧ (d.node c).nextSibling = l.head?.or nx ∧ Seg d (some c) l nx

/-- The links of `d` describe the ordered forest whose child lists are `kids`. -/
structure WF (d : Doc) (kids : NodeId → List NodeId) : Prop where
  /-- child lists contain allocated nodes only -/
  bound : ∀ p c, c ∈ kids p → p < d.len ∧ c < d.len
  /-- no node is twice in a child list -/
  nodup : ∀ p, (kids p).Nodup
  /-- parent links and child lists agree -/
  par : ∀ p c, p < d.len → c < d.len → ((d.node c).parent = some p ↔ c ∈ kids p)
  /-- parent links stay inside the arena -/
  parBound : ∀ c p, c < d.len → (d.node c).parent = some p → p < d.len
  /-- first and last child are the ends of the child list -/
  first : ∀ p, p < d.len → (d.node p).firstChild = (kids p).head?
  last : ∀ p, p < d.len → (d.node p).lastChild = (kids p).getLast?
  /-- sibling links are the neighbours in the child list -/
  seg : ∀ p, d.Seg none (kids p) none
  /-- nodes without parent have no siblings -/
  orphan : ∀ c, c < d.len → (d.node c).parent = none →
    (d.node c).previousSibling = none ∧ (d.node c).nextSibling = none
  /-- depth increases from parent to child, so there are no cycles -/
  depth : ∃ f : NodeId → Nat, ∀ c p, c < d.len → (d.node c).parent = some p → f p < f c

/-- `a` is `x` or an ancestor of `x` -/
def Anc (d : Doc) (a x : NodeId) : Prop :=
  Relation.ReflTransGen (fun c p => c < d.len ∧ (d.node c).parent = some p) x a

/-! ## Edits of a forest -/

/-- the forest after taking `c` out of its child list -/
def without (kids : NodeId → List NodeId) (c : NodeId) : NodeId → List NodeId :=
  fun p => (kids p).filter (· ≠ c)

/-- the forest after putting `c` at the end of the child list of `p` -/
def withLast (kids : NodeId → List NodeId) (p c : NodeId) : NodeId → List NodeId :=
  fun q => if q = p then kids q ++ [c] else kids q

/-- put `c` directly in front of `s` -/
def insertIn (s c : NodeId) : List NodeId → List NodeId
  | [] => []
  | a :: l => if a = s then c :: a :: l else a :: insertIn s c l

/-- the forest after putting `c` in front of `s` in the child list of which `s` is a member -/
def withBefore (kids : NodeId → List NodeId) (s c : NodeId) : NodeId → List NodeId :=
  fun q => insertIn s c (kids q)

/-! ## Document order -/

/-- `l` is the list of all nodes of the trees with roots `rs` (from left to
right), each node in front of its descendants and the subtree of each child in
front of the subtrees of its later siblings. -/
inductive TreeOrder (kids : NodeId → List NodeId) : List NodeId → List NodeId → Prop
  | nil : TreeOrder kids [] []
  | cons {r : NodeId} {rs l1 l2 : List NodeId} :
    TreeOrder kids (kids r) l1 → TreeOrder kids rs l2 → TreeOrder kids (r :: rs) (r :: l1 ++ l2)

/-! ## What the tree builder may ask for -/

/-- A call is legal if it names existing nodes, never moves the document node,
and would not make a node its own ancestor. -/
def SinkOp.Legal (d : Doc) : SinkOp → Prop
  | .createElement _ _ | .createComment _ | .createPi _ _ | .appendDoctype _ _ _ => True
  | .append p (.node c) => p < d.len ∧ c < d.len ∧ c ≠ documentNodeId ∧ ¬ d.Anc c p
  | .append p (.text _) => p < d.len
  | .appendBeforeSibling s (.node c) =>
    s < d.len ∧ c < d.len ∧ c ≠ documentNodeId ∧ (d.node s).parent ≠ none ∧ ¬ d.Anc c s
  | .appendBeforeSibling s (.text _) => s < d.len ∧ (d.node s).parent ≠ none
  | .appendBasedOnParentNode e p (.node c) =>
    e < d.len ∧ p < d.len ∧ c < d.len ∧ c ≠ documentNodeId ∧ ¬ d.Anc c e ∧ ¬ d.Anc c p
  | .appendBasedOnParentNode e p (.text _) => e < d.len ∧ p < d.len
  | .addAttrsIfMissing t _ => t < d.len ∧ ∃ e, (d.node t).data = .element e
  | .removeFromParent c => c < d.len ∧ c ≠ documentNodeId
  | .reparentChildren n p => n < d.len ∧ p < d.len ∧ ¬ d.Anc n p

/-- Documents the tree builder can produce -/
inductive Reachable : Doc → Prop
  | new : Reachable Doc.new
  | step {d d' : Doc} {op : SinkOp} : Reachable d → op.Legal d → d.sinkStep op = .ok d' →
    Reachable d'

end Doc
end Sinab
