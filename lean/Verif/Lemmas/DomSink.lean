import Verif.Lemmas.Dom
import Verif.Model.Selectors
import Mathlib.Data.List.Perm.Subperm
import Mathlib.Data.List.Range

namespace Sinab
namespace Doc

/-! ## Extensionality -/

theorem node_ext {a b : Node} (h1 : a.parent = b.parent) (h2 : a.nextSibling = b.nextSibling)
    (h3 : a.previousSibling = b.previousSibling) (h4 : a.firstChild = b.firstChild)
    (h5 : a.lastChild = b.lastChild) (h6 : a.data = b.data) : a = b := by
  cases a; cases b; simp_all

theorem doc_ext {a b : Doc} (h1 : a.len = b.len) (h2 : ∀ x, a.node x = b.node x)
    (h3 : a.styleElements = b.styleElements) : a = b := by
  cases a; cases b; simp_all; funext x; exact h2 x

/-! ## Ancestors -/

theorem Anc.refl (d : Doc) (x : NodeId) : d.Anc x x := Relation.ReflTransGen.refl

theorem Anc.step {d : Doc} {a p x : NodeId} (hx : x < d.len) (hp : (d.node x).parent = some p)
    (h : d.Anc a p) : d.Anc a x := Relation.ReflTransGen.head ⟨hx, hp⟩ h

theorem Anc.up {d : Doc} {a q x : NodeId} (ha : a < d.len) (hq : (d.node a).parent = some q)
    (h : d.Anc a x) : d.Anc q x := Relation.ReflTransGen.tail h ⟨ha, hq⟩

theorem not_anc_new {d : Doc} {kids} (h : d.WF kids) (data : NodeData) {p : NodeId}
    (hp : p < d.len) : ¬ (d.newNode data).1.Anc d.len p := by
  intro ha
  have key : ∀ x y, Relation.ReflTransGen (fun c q => c < (d.newNode data).1.len ∧
      ((d.newNode data).1.node c).parent = some q) x y → x < d.len → y < d.len := by
    intro x y hxy
    induction hxy with
    | refl => exact id
    | @tail b c hab hbc ih =>
      intro hx
      have hb := ih hx
      have hpar := hbc.2
      have hn : (d.newNode data).1.node b = d.node b := by
        show Function.update d.node d.len (Node.new data) b = d.node b
        rw [Function.update_of_ne (Nat.ne_of_lt hb)]
      rw [hn] at hpar
      exact h.parBound b c hb hpar
  exact Nat.lt_irrefl _ (key _ _ ha hp)

/-! ## Text arms -/

theorem appendCommon_extend (d : Doc) (t t0 : Text) (id : NodeId) (hid : id < d.len)
    (hd : (d.node id).data = .text t0) (app : Doc → NodeId → Except Panic Doc) :
    d.appendCommon (.text t) (some id) app =
      .ok { d with
        node := Function.update d.node id { d.node id with data := .text (t0 ++ t) } } := by
  simp only [appendCommon, extendText]
  rw [get_ok d id hid]
  simp only [bind, Except.bind, hd]
  rw [modify_ok d id _ hid]
  rfl

theorem appendCommon_new (d : Doc) (t : Text) (prev : Option NodeId)
    (hp : ∀ id, prev = some id → id < d.len ∧ (d.node id).data.isText = false)
    (app : Doc → NodeId → Except Panic Doc) :
    d.appendCommon (.text t) prev app = app (d.newNode (.text t)).1 d.len := by
  cases prev with
  | none => rfl
  | some id =>
    obtain ⟨h1, h2⟩ := hp id rfl
    simp only [appendCommon, extendText]
    rw [get_ok d id h1]
    simp only [bind, Except.bind]
    cases hd : (d.node id).data <;> simp_all [NodeData.isText, pure, Except.pure] <;> rfl

theorem WF.withLast_new {d : Doc} {kids} (h : d.WF kids) (p : NodeId) :
    withLast (without kids d.len) p d.len = withLast kids p d.len := by
  have : without kids d.len = kids := by
    funext q; exact filter_ne_of_not_mem (h.not_mem_of_ge (le_refl _))
  rw [this]

theorem WF.withBefore_new {d : Doc} {kids} (h : d.WF kids) (s : NodeId) :
    withBefore (without kids d.len) s d.len = withBefore kids s d.len := by
  have : without kids d.len = kids := by
    funext q; exact filter_ne_of_not_mem (h.not_mem_of_ge (le_refl _))
  rw [this]

theorem newNode_node (d : Doc) (data : NodeData) (x : NodeId) :
    (d.newNode data).1.node x = if x = d.len then Node.new data else d.node x := by
  show Function.update d.node d.len (Node.new data) x = _
  rw [Function.update_apply]

/-! ## What a step does -/

/-- is this an HTML `style` element? -/
def isStyleData : NodeData → Bool
  | .element e => isStyle e.name
  | _ => false

/-- style elements are recorded in creation order -/
def StyleInv (d : Doc) : Prop :=
  d.styleElements = (List.range d.len).filter fun i => isStyleData (d.node i).data

/-- the invariant of documents under construction -/
structure Inv (d : Doc) (kids : NodeId → List NodeId) : Prop where
  wf : d.WF kids
  two : 2 ≤ d.len
  root : (d.node documentNodeId).parent = none
  style : StyleInv d
  docData : ∀ x, x < d.len → (d.node x).data = .document → x < 2
  docNode : (d.node documentNodeId).data = .document

theorem Inv.docLt {d : Doc} {kids} (h : d.Inv kids) : documentNodeId < d.len :=
  Nat.lt_of_lt_of_le (by decide) h.two

theorem StyleInv.same {d d' : Doc} (h : StyleInv d) (hl : d'.len = d.len)
    (hs : d'.styleElements = d.styleElements)
    (hd : ∀ x, isStyleData (d'.node x).data = isStyleData (d.node x).data) : StyleInv d' := by
  unfold StyleInv at *
  rw [hs, hl, h]
  simp only [hd]

theorem StyleInv.push {d : Doc} (h : StyleInv d) (data : NodeData) (hn : isStyleData data = false) :
    StyleInv (d.newNode data).1 := by
  unfold StyleInv at *
  show d.styleElements = (List.range (d.len + 1)).filter _
  rw [List.range_succ, List.filter_append, h]
  have h1 : (List.filter (fun i => isStyleData ((d.newNode data).1.node i).data) (List.range d.len))
      = List.filter (fun i => isStyleData (d.node i).data) (List.range d.len) := by
    apply List.filter_congr
    intro x hx
    rw [List.mem_range] at hx
    rw [newNode_node, if_neg (Nat.ne_of_lt hx)]
  rw [h1]
  simp [newNode_node, Node.new, hn]

theorem StyleInv.pushStyle {d : Doc} (h : StyleInv d) (data : NodeData) (hn : isStyleData data = true) :
    StyleInv { (d.newNode data).1 with styleElements := d.styleElements ++ [d.len] } := by
  unfold StyleInv at *
  show d.styleElements ++ [d.len] = (List.range (d.len + 1)).filter _
  rw [List.range_succ, List.filter_append, h]
  have h1 : (List.filter (fun i => isStyleData ((d.newNode data).1.node i).data) (List.range d.len))
      = List.filter (fun i => isStyleData (d.node i).data) (List.range d.len) := by
    apply List.filter_congr
    intro x hx
    rw [List.mem_range] at hx
    rw [newNode_node, if_neg (Nat.ne_of_lt hx)]
  show _ = List.filter (fun i => isStyleData ((d.newNode data).1.node i).data) (List.range d.len) ++ _
  rw [h1]
  simp [newNode_node, Node.new, hn]

theorem Inv.push {d : Doc} {kids} (h : d.Inv kids) (data : NodeData) (hn : isStyleData data = false)
    (hd : data ≠ .document) : (d.newNode data).1.Inv kids := by
  have h2 := h.docLt
  refine ⟨h.wf.newNode data, Nat.le_succ_of_le h.two, ?_, h.style.push data hn, ?_, ?_⟩
  · rw [newNode_node, if_neg (Nat.ne_of_lt h2)]; exact h.root
  · intro x hx
    rw [newNode_node]
    split_ifs with hxl
    · intro e; exact absurd e hd
    · intro e
      exact h.docData x (Nat.lt_of_le_of_ne (Nat.lt_succ_iff.1 hx) hxl) e
  · rw [newNode_node, if_neg (Nat.ne_of_lt h2)]; exact h.docNode

theorem Inv.pushStyle {d : Doc} {kids} (h : d.Inv kids) (data : NodeData)
    (hn : isStyleData data = true) :
    Inv { (d.newNode data).1 with styleElements := d.styleElements ++ [d.len] } kids := by
  have h2 := h.docLt
  have hd : data ≠ .document := by rintro rfl; cases hn
  refine ⟨(h.wf.newNode data).of_links rfl (fun x => ⟨rfl, rfl, rfl, rfl, rfl⟩),
    Nat.le_succ_of_le h.two, ?_, h.style.pushStyle data hn, ?_, ?_⟩
  · show ((d.newNode data).1.node documentNodeId).parent = none
    rw [newNode_node, if_neg (Nat.ne_of_lt h2)]; exact h.root
  · intro x hx
    show ((d.newNode data).1.node x).data = _ → _
    rw [newNode_node]
    split_ifs with hxl
    · intro e; exact absurd e hd
    · intro e
      exact h.docData x (Nat.lt_of_le_of_ne (Nat.lt_succ_iff.1 hx) hxl) e
  · show ((d.newNode data).1.node documentNodeId).data = _
    rw [newNode_node, if_neg (Nat.ne_of_lt h2)]; exact h.docNode

theorem Inv.append {d : Doc} {kids} (h : d.Inv kids) {p c : NodeId} (hc : c < d.len)
    (hp : p < d.len) (hanc : ¬ d.Anc c p) (hdoc : c ≠ documentNodeId) :
    ∃ d', d.append p c = .ok d' ∧ d'.Inv (withLast (without kids c) p c) ∧ d'.len = d.len ∧
      ∀ x, (d'.node x).data = (d.node x).data := by
  obtain ⟨d', h1, h2, h3, h4, h5, h6⟩ := h.wf.append hc hp hanc
  refine ⟨d', h1, ⟨h6, by rw [h2]; exact h.two, ?_, h.style.same h2 h3 (fun x => by rw [h4]), ?_, ?_⟩,
    h2, h4⟩
  · rw [h5, if_neg hdoc.symm]; exact h.root
  · intro x; rw [h4, h2]; exact h.docData x
  · rw [h4]; exact h.docNode

theorem Inv.insertBefore {d : Doc} {kids} (h : d.Inv kids) {s c p : NodeId} (hc : c < d.len)
    (hs : s < d.len) (hp : (d.node s).parent = some p) (hanc : ¬ d.Anc c s)
    (hdoc : c ≠ documentNodeId) :
    ∃ d', d.insertBefore s c = .ok d' ∧ d'.Inv (withBefore (without kids c) s c) ∧
      d'.len = d.len ∧ ∀ x, (d'.node x).data = (d.node x).data := by
  have hsc : s ≠ c := by rintro rfl; exact hanc (Anc.refl _ _)
  obtain ⟨d', h1, h2, h3, h4, h5, h6⟩ := h.wf.insertBefore hc hs hsc hp
    (fun ha => hanc (Anc.step hs hp ha))
  refine ⟨d', h1, ⟨h6, by rw [h2]; exact h.two, ?_, h.style.same h2 h3 (fun x => by rw [h4]), ?_, ?_⟩,
    h2, h4⟩
  · rw [h5, if_neg hdoc.symm]; exact h.root
  · intro x; rw [h4, h2]; exact h.docData x
  · rw [h4]; exact h.docNode

theorem Inv.detach {d : Doc} {kids} (h : d.Inv kids) {c : NodeId} (hc : c < d.len) :
    ∃ d', d.detach c = .ok d' ∧ d'.Inv (without kids c) := by
  obtain ⟨d', h1, D, h6⟩ := h.wf.detach hc
  refine ⟨d', h1, ⟨h6, by rw [D.len]; exact h.two, ?_,
    h.style.same D.len D.style (fun x => by rw [D.data]), ?_, ?_⟩⟩
  · rw [D.parent]; split_ifs; · rfl
    exact h.root
  · intro x; rw [D.data, D.len]; exact h.docData x
  · rw [D.data]; exact h.docNode

/-- replacing the data of a node by similar data -/
theorem Inv.setData {d : Doc} {kids} (h : d.Inv kids) (i : NodeId)
    (data : NodeData) (hs : isStyleData data = isStyleData (d.node i).data)
    (hd : data = .document ↔ (d.node i).data = .document) :
    Inv { d with node := Function.update d.node i { d.node i with data := data } } kids := by
  have hnode : ∀ x, Function.update d.node i { d.node i with data := data } x =
      if x = i then { d.node i with data := data } else d.node x := fun x => by
    rw [Function.update_apply]
  refine ⟨h.wf.of_links rfl (fun x => ?_), h.two, ?_, h.style.same rfl rfl (fun x => ?_), ?_, ?_⟩
  · simp only [hnode]; split_ifs with e
    · subst e; exact ⟨rfl, rfl, rfl, rfl, rfl⟩
    · exact ⟨rfl, rfl, rfl, rfl, rfl⟩
  · simp only [hnode]; split_ifs with e
    · subst e; exact h.root
    · exact h.root
  · simp only [hnode]; split_ifs with e
    · subst e; exact hs
    · rfl
  · intro x hx; simp only [hnode]; split_ifs with e
    · subst e; intro e2; exact h.docData x hx (hd.1 e2)
    · exact h.docData x hx
  · simp only [hnode]; split_ifs with e
    · subst e; exact hd.2 h.docNode
    · exact h.docNode

/-- `append` of text: extends the last child if that is a text node, otherwise
adds a new last child -/
theorem Inv.sinkAppendText {d : Doc} {kids} (h : d.Inv kids) {p : NodeId} (hp : p < d.len)
    (t : Text) :
    ∃ d', d.sinkAppend p (.text t) = .ok d' ∧
      ((∃ id t0, (kids p).getLast? = some id ∧ (d.node id).data = .text t0 ∧ id < d.len ∧
        d' = { d with node := Function.update d.node id { d.node id with data := .text (t0 ++ t) } } ∧
        d'.Inv kids) ∨
      ((∀ id, (kids p).getLast? = some id → (d.node id).data.isText = false) ∧
        (d.newNode (.text t)).1.append p d.len = .ok d' ∧ d'.Inv (withLast kids p d.len) ∧
        d'.len = d.len + 1 ∧
        ∀ x, (d'.node x).data = if x = d.len then .text t else (d.node x).data)) := by
  have hlast := h.wf.last p hp
  have hb : ∀ id, (d.node p).lastChild = some id → id < d.len := by
    intro id e; rw [hlast] at e; exact (h.wf.bound p id (List.mem_of_mem_getLast? e)).2
  simp only [sinkAppend]
  rw [get_ok d p hp]
  simp only [bind, Except.bind]
  have hnew : (∀ id, (d.node p).lastChild = some id → id < d.len ∧ (d.node id).data.isText = false) →
      ∃ d', d.appendCommon (.text t) (d.node p).lastChild (fun d n => d.append p n) = .ok d' ∧
        ((d.newNode (.text t)).1.append p d.len = .ok d' ∧ d'.Inv (withLast kids p d.len) ∧
        d'.len = d.len + 1 ∧
        ∀ x, (d'.node x).data = if x = d.len then .text t else (d.node x).data) := by
    intro hno
    rw [appendCommon_new d t _ hno]
    have hI := h.push (.text t) rfl (by simp)
    obtain ⟨d', h1, h2, h3, h4⟩ := hI.append (p := p) (c := d.len) (Nat.lt_succ_self _)
      (Nat.lt_succ_of_lt hp) (not_anc_new h.wf _ hp) (Ne.symm (Nat.ne_of_lt h.docLt))
    rw [h.wf.withLast_new] at h2
    refine ⟨d', h1, h1, h2, h3, fun x => ?_⟩
    rw [h4, newNode_node]
    split_ifs <;> rfl
  by_cases hx : ∃ id t0, (d.node p).lastChild = some id ∧ (d.node id).data = .text t0
  · obtain ⟨id, t0, e1, e2⟩ := hx
    refine ⟨_, by rw [e1]; exact appendCommon_extend d t t0 id (hb id e1) e2 _, Or.inl ?_⟩
    refine ⟨id, t0, by rw [← hlast]; exact e1, e2, hb id e1, rfl, ?_⟩
    exact h.setData id _ (by rw [e2]; rfl) (by rw [e2]; simp)
  · have hno : ∀ id, (d.node p).lastChild = some id → (d.node id).data.isText = false := by
      intro id e
      cases hd : (d.node id).data with
      | text t0 => exact absurd ⟨id, t0, e, hd⟩ hx
      | _ => rfl
    obtain ⟨d', h1, h2⟩ := hnew (fun id e => ⟨hb id e, hno id e⟩)
    exact ⟨d', h1, Or.inr ⟨by rw [← hlast]; exact hno, h2⟩⟩

/-- the element in front of `s` in a list -/
def before (s : NodeId) : List NodeId → Option NodeId
  | a :: b :: l => if b = s then some a else before s (b :: l)
  | _ => none

/-- insertion of text before a sibling -/
theorem Inv.sinkInsertText {d : Doc} {kids} (h : d.Inv kids) {s : NodeId} (hs : s < d.len)
    (hp : (d.node s).parent ≠ none) (t : Text) :
    ∃ d', d.sinkAppendBeforeSibling s (.text t) = .ok d' ∧
      ((∃ id t0, (d.node s).previousSibling = some id ∧ (d.node id).data = .text t0 ∧ id < d.len ∧
        d' = { d with node := Function.update d.node id { d.node id with data := .text (t0 ++ t) } } ∧
        d'.Inv kids) ∨
      ((∀ id, (d.node s).previousSibling = some id → (d.node id).data.isText = false) ∧
        (d.newNode (.text t)).1.insertBefore s d.len = .ok d' ∧ d'.Inv (withBefore kids s d.len) ∧
        d'.len = d.len + 1 ∧
        ∀ x, (d'.node x).data = if x = d.len then .text t else (d.node x).data)) := by
  obtain ⟨p, hp⟩ := Option.ne_none_iff_exists'.1 hp
  have hb : ∀ id, (d.node s).previousSibling = some id → id < d.len := by
    intro id e
    have hm := h.wf.mem_of_parent hs hp
    obtain ⟨l1, l2, hl⟩ := List.append_of_mem hm
    rw [(h.wf.mid hl).1] at e
    exact (h.wf.bound p id (by rw [hl]; simp [List.mem_of_mem_getLast? e])).2
  simp only [sinkAppendBeforeSibling]
  rw [get_ok d s hs]
  simp only [bind, Except.bind]
  by_cases hx : ∃ id t0, (d.node s).previousSibling = some id ∧ (d.node id).data = .text t0
  · obtain ⟨id, t0, e1, e2⟩ := hx
    refine ⟨_, by rw [e1]; exact appendCommon_extend d t t0 id (hb id e1) e2 _, Or.inl ?_⟩
    refine ⟨id, t0, e1, e2, hb id e1, rfl, ?_⟩
    exact h.setData id _ (by rw [e2]; rfl) (by rw [e2]; simp)
  · have hno : ∀ id, (d.node s).previousSibling = some id → (d.node id).data.isText = false := by
      intro id e
      cases hd : (d.node id).data with
      | text t0 => exact absurd ⟨id, t0, e, hd⟩ hx
      | _ => rfl
    rw [appendCommon_new d t _ (fun id e => ⟨hb id e, hno id e⟩)]
    have hI := h.push (.text t) rfl (by simp)
    obtain ⟨d', h1, h2, h3, h4⟩ := hI.insertBefore (s := s) (c := d.len) (p := p)
      (Nat.lt_succ_self _) (Nat.lt_succ_of_lt hs)
      (by rw [newNode_node, if_neg (Nat.ne_of_lt hs)]; exact hp)
      (not_anc_new h.wf _ hs) (Ne.symm (Nat.ne_of_lt h.docLt))
    rw [h.wf.withBefore_new] at h2
    refine ⟨d', h1, Or.inr ⟨hno, h1, h2, h3, fun x => ?_⟩⟩
    rw [h4, newNode_node]
    split_ifs <;> rfl

/-- `reparent_children` moves the first child and then stops. -/
theorem Inv.reparent {d : Doc} {kids} (h : d.Inv kids) {n p : NodeId} (fuel : Nat)
    (hn : n < d.len) (hp : p < d.len) (hanc : ¬ d.Anc n p) (hdoc : ∀ c ∈ kids n, c ≠ documentNodeId) :
    ∃ d', d.sinkReparentChildren (fuel + 1) n p = .ok d' ∧
      d'.Inv (match kids n with
        | [] => kids
        | c :: _ => withLast (without kids c) p c) ∧ d'.len = d.len ∧
      ∀ x, (d'.node x).data = (d.node x).data := by
  simp only [sinkReparentChildren]
  rw [get_ok d n hn]
  simp only [bind, Except.bind]
  rw [h.wf.first n hn]
  cases hk : kids n with
  | nil => exact ⟨d, rfl, h, rfl, fun _ => rfl⟩
  | cons c l =>
    have hm : c ∈ kids n := by rw [hk]; simp
    have hc := (h.wf.bound n c hm).2
    have hpar := h.wf.parent_of_mem hm
    obtain ⟨d', h1, h2, h3, h4⟩ := h.append (p := p) (c := c) hc hp
      (fun ha => hanc (Anc.up hc hpar ha)) (hdoc c hm)
    refine ⟨d', ?_, h2, h3, h4⟩
    simp only [List.head?_cons, reparentLoop]
    rw [get_ok d c hc]
    simp only [bind, Except.bind, hpar]
    have hck : check (decide True) = .ok () := by simp [check]
    rw [hck]
    simp only [h1]
    rw [get_ok d' c (by rw [h3]; exact hc)]
    simp only
    have hlast : withLast (without kids c) p c p = without kids c p ++ c :: [] := by
      simp [withLast]
    rw [(h2.wf.mid hlast).2]
    simp [reparentLoop]

/-- Every legal call succeeds and keeps the invariant. -/
theorem Inv.step {d : Doc} {kids} (h : d.Inv kids) {op : SinkOp} (hl : op.Legal d) :
    ∃ d' kids', d.sinkStep op = .ok d' ∧ d'.Inv kids' := by
  cases op with
  | createElement name attrs =>
    simp only [sinkStep, createElement]
    by_cases hs : isStyle name = true
    · rw [if_pos hs]
      exact ⟨_, kids, rfl, h.pushStyle (.element ⟨name, attrs⟩) hs⟩
    · rw [if_neg hs]
      exact ⟨_, kids, rfl, h.push (.element ⟨name, attrs⟩) (by simpa [isStyleData] using hs) (by simp)⟩
  | createComment t => exact ⟨_, kids, rfl, h.push _ rfl (by simp)⟩
  | createPi t c => exact ⟨_, kids, rfl, h.push _ rfl (by simp)⟩
  | append p ch =>
    cases ch with
    | node c =>
      obtain ⟨h1, h2, h3, h4⟩ := hl
      obtain ⟨d', e1, e2, _⟩ := h.append h2 h1 h4 h3
      exact ⟨d', _, e1, e2⟩
    | text t =>
      obtain ⟨d', e1, e2⟩ := h.sinkAppendText hl t
      rcases e2 with ⟨_, _, _, _, _, _, e⟩ | ⟨_, _, e, _⟩
      · exact ⟨d', _, e1, e⟩
      · exact ⟨d', _, e1, e⟩
  | appendBeforeSibling s ch =>
    cases ch with
    | node c =>
      obtain ⟨h1, h2, h3, h4, h5⟩ := hl
      obtain ⟨p, hp⟩ := Option.ne_none_iff_exists'.1 h4
      obtain ⟨d', e1, e2, _⟩ := h.insertBefore h2 h1 hp h5 h3
      exact ⟨d', _, e1, e2⟩
    | text t =>
      obtain ⟨d', e1, e2⟩ := h.sinkInsertText hl.1 hl.2 t
      rcases e2 with ⟨_, _, _, _, _, _, e⟩ | ⟨_, _, e, _⟩
      · exact ⟨d', _, e1, e⟩
      · exact ⟨d', _, e1, e⟩
  | appendBasedOnParentNode el pv ch =>
    simp only [sinkStep, sinkAppendBasedOnParentNode]
    cases ch with
    | node c =>
      obtain ⟨h1, h2, h3, h4, h5, h6⟩ := hl
      rw [get_ok d el h1]
      simp only [bind, Except.bind]
      cases hp : (d.node el).parent with
      | none =>
        obtain ⟨d', e1, e2, _⟩ := h.append h3 h2 h6 h4
        exact ⟨d', _, e1, e2⟩
      | some p =>
        obtain ⟨d', e1, e2, _⟩ := h.insertBefore h3 h1 hp h5 h4
        exact ⟨d', _, e1, e2⟩
    | text t =>
      obtain ⟨h1, h2⟩ := hl
      rw [get_ok d el h1]
      simp only [bind, Except.bind]
      cases hp : (d.node el).parent with
      | none =>
        obtain ⟨d', e1, e2⟩ := h.sinkAppendText h2 t
        rcases e2 with ⟨_, _, _, _, _, _, e⟩ | ⟨_, _, e, _⟩
        · exact ⟨d', _, e1, e⟩
        · exact ⟨d', _, e1, e⟩
      | some p =>
        obtain ⟨d', e1, e2⟩ := h.sinkInsertText h1 (by rw [hp]; simp) t
        rcases e2 with ⟨_, _, _, _, _, _, e⟩ | ⟨_, _, e, _⟩
        · exact ⟨d', _, e1, e⟩
        · exact ⟨d', _, e1, e⟩
  | appendDoctype n p s =>
    have hI := h.push (.doctype n p s) rfl (by simp)
    obtain ⟨d', h1, h2, _⟩ := hI.append (p := documentNodeId) (c := d.len) (Nat.lt_succ_self _)
      (Nat.lt_succ_of_lt h.docLt) (not_anc_new h.wf _ h.docLt) (Ne.symm (Nat.ne_of_lt h.docLt))
    exact ⟨d', _, h1, h2⟩
  | addAttrsIfMissing t a =>
    obtain ⟨h1, e, h2⟩ := hl
    simp only [sinkStep, sinkAddAttrs]
    rw [get_ok d t h1]
    simp only [bind, Except.bind, h2]
    rw [modify_ok d t _ h1]
    exact ⟨_, kids, rfl, h.setData t _ (by rw [h2]; rfl) (by rw [h2]; simp)⟩
  | removeFromParent c =>
    obtain ⟨d', e1, e2⟩ := h.detach hl.1
    exact ⟨d', _, e1, e2⟩
  | reparentChildren n p =>
    obtain ⟨h1, h2, h3⟩ := hl
    obtain ⟨m, hm⟩ : ∃ m, d.len = m + 1 := ⟨d.len - 1, by have := h.two; omega⟩
    obtain ⟨d', e1, e2, _⟩ := h.reparent m h1 h2 h3 (fun c hc => by
      rintro rfl
      have := h.wf.parent_of_mem hc
      rw [h.root] at this; cases this)
    refine ⟨d', _, ?_, e2⟩
    simp only [sinkStep]
    rw [hm]; exact e1

theorem Inv_new : Doc.new.Inv (fun _ => []) := by
  refine ⟨WF_new, by decide, rfl, ?_, fun x hx _ => hx, rfl⟩
  simp [StyleInv, Doc.new, isStyleData, Node.new]

theorem Reachable.inv {d : Doc} (h : Reachable d) : ∃ kids, d.Inv kids := by
  induction h with
  | new => exact ⟨_, Inv_new⟩
  | step _ hl hs ih =>
    obtain ⟨kids, hk⟩ := ih
    obtain ⟨d', kids', e1, e2⟩ := hk.step hl
    rw [hs] at e1; cases e1
    exact ⟨kids', e2⟩

/-! ## Traversal -/

/-- relational version of the ancestor search in `next_in_tree_order` -/
inductive NextAnc (d : Doc) : NodeId → Option NodeId → Prop
  | sib {n m} : n < d.len → (d.node n).nextSibling = some m → NextAnc d n (some m)
  | up {n p r} : n < d.len → (d.node n).nextSibling = none → (d.node n).parent = some p →
    NextAnc d p r → NextAnc d n r
  | top {n} : n < d.len → (d.node n).nextSibling = none → (d.node n).parent = none → NextAnc d n none

theorem NextAnc.fuel {d : Doc} {n r} (h : NextAnc d n r) :
    ∃ N, ∀ fuel, N ≤ fuel → d.nextOfAncestors fuel n = .ok r := by
  induction h with
  | sib hn h =>
    refine ⟨1, fun fuel hf => ?_⟩
    obtain ⟨k, rfl⟩ : ∃ k, fuel = k + 1 := ⟨fuel - 1, by omega⟩
    simp only [nextOfAncestors]
    rw [get_ok _ _ hn]
    simp only [bind, Except.bind, h]; rfl
  | up hn h1 h2 _ ih =>
    obtain ⟨N, hN⟩ := ih
    refine ⟨N + 1, fun fuel hf => ?_⟩
    obtain ⟨k, rfl⟩ : ∃ k, fuel = k + 1 := ⟨fuel - 1, by omega⟩
    simp only [nextOfAncestors]
    rw [get_ok _ _ hn]
    simp only [bind, Except.bind, h1, h2]
    exact hN k (by omega)
  | top hn h1 h2 =>
    refine ⟨1, fun fuel hf => ?_⟩
    obtain ⟨k, rfl⟩ : ∃ k, fuel = k + 1 := ⟨fuel - 1, by omega⟩
    simp only [nextOfAncestors]
    rw [get_ok _ _ hn]
    simp only [bind, Except.bind, h1, h2]; rfl

/-- relational version of the iteration of `nodes` -/
inductive Trav (d : Doc) : Option NodeId → List NodeId → Prop
  | done : Trav d none []
  | step {n m l} : n < d.len →
    ((∃ c, (d.node n).firstChild = some c ∧ m = some c) ∨
      ((d.node n).firstChild = none ∧ NextAnc d n m)) → Trav d m l → Trav d (some n) (n :: l)

theorem Trav.fuel {d : Doc} {o l} (h : Trav d o l) :
    ∀ n, o = some n → ∃ N, ∀ fuel, N ≤ fuel → d.nodesFrom fuel n = .ok l := by
  induction h with
  | done => intro n e; cases e
  | @step n m l hn hnext _ ih =>
    intro n' e
    cases e
    have hnx : ∃ N, ∀ fuel, N ≤ fuel → d.nextInTreeOrder fuel n = .ok m := by
      rcases hnext with ⟨c, h1, h2⟩ | ⟨h1, h2⟩
      · refine ⟨0, fun fuel _ => ?_⟩
        simp only [nextInTreeOrder]
        rw [get_ok _ _ hn]
        simp only [bind, Except.bind, h1, h2]; rfl
      · obtain ⟨N, hN⟩ := h2.fuel
        refine ⟨N, fun fuel hf => ?_⟩
        simp only [nextInTreeOrder]
        rw [get_ok _ _ hn]
        simp only [bind, Except.bind, h1]
        exact hN fuel hf
    obtain ⟨N1, hN1⟩ := hnx
    cases m with
    | none =>
      rename_i ht
      cases ht
      refine ⟨N1 + 1, fun fuel hf => ?_⟩
      obtain ⟨k, rfl⟩ : ∃ k, fuel = k + 1 := ⟨fuel - 1, by omega⟩
      simp only [nodesFrom]
      rw [hN1 k (by omega)]
      rfl
    | some m =>
      obtain ⟨N2, hN2⟩ := ih m rfl
      refine ⟨max N1 N2 + 1, fun fuel hf => ?_⟩
      obtain ⟨k, rfl⟩ : ∃ k, fuel = k + 1 := ⟨fuel - 1, by omega⟩
      simp only [nodesFrom]
      rw [hN1 k (by omega)]
      simp only [bind, Except.bind]
      rw [hN2 k (by omega)]
      rfl

theorem TreeOrder.trav {d : Doc} {kids} (h : d.WF kids) {rs l : List NodeId}
    (ht : TreeOrder kids rs l) : ∀ (p : NodeId) (l0 : List NodeId) (cont : Option NodeId)
      (rest : List NodeId), kids p = l0 ++ rs → NextAnc d p cont → Trav d cont rest →
      Trav d (rs.head?.or cont) (l ++ rest) := by
  induction ht with
  | nil => intro p l0 cont rest _ _ ht; simpa using ht
  | @cons r rs l1 l2 h1 h2 ih1 ih2 =>
    intro p l0 cont rest hk hn ht
    have hm : r ∈ kids p := by rw [hk]; simp
    have hr := (h.bound p r hm).2
    have t2 := ih2 p (l0 ++ [r]) cont rest (by rw [hk]; simp) hn ht
    have hnr : NextAnc d r (rs.head?.or cont) := by
      have hmid := (h.mid hk).2
      cases rs with
      | nil => exact NextAnc.up hr (by simpa using hmid) (h.parent_of_mem hm) (by simpa using hn)
      | cons a rs => exact NextAnc.sib hr (by simpa using hmid)
    have t1 := ih1 r [] (rs.head?.or cont) (l2 ++ rest) (by simp) hnr t2
    simp only [List.head?_cons, Option.some_or, List.cons_append, List.append_assoc]
    refine Trav.step hr ?_ t1
    rw [h.first r hr]
    cases hkr : kids r with
    | nil => right; exact ⟨rfl, by simpa using hnr⟩
    | cons a as => left; exact ⟨a, rfl, rfl⟩

/-- a bound on all depths -/
theorem bounded_depth (f : Nat → Nat) (n : Nat) : ∃ M, ∀ x, x < n → f x ≤ M := by
  induction n with
  | zero => exact ⟨0, fun x hx => absurd hx (Nat.not_lt_zero _)⟩
  | succ n ih =>
    obtain ⟨M, hM⟩ := ih
    refine ⟨max M (f n), fun x hx => ?_⟩
    rcases Nat.lt_succ_iff_lt_or_eq.1 hx with h | rfl
    · exact le_trans (hM x h) (Nat.le_max_left _ _)
    · exact Nat.le_max_right _ _

theorem WF.treeOrder {d : Doc} {kids} (h : d.WF kids) (rs : List NodeId)
    (hrs : ∀ r ∈ rs, r < d.len) : ∃ l, TreeOrder kids rs l := by
  obtain ⟨f, hf⟩ := h.depth
  obtain ⟨M, hM⟩ := bounded_depth f d.len
  have key : ∀ k r, r < d.len → M - f r ≤ k → ∃ l, TreeOrder kids (kids r) l := by
    intro k
    induction k with
    | zero =>
      intro r hr hk
      have : kids r = [] := by
        rw [List.eq_nil_iff_forall_not_mem]
        intro c hc
        have hcl := (h.bound r c hc).2
        have h1 := hf c r hcl (h.parent_of_mem hc)
        have h2 := hM c hcl
        omega
      rw [this]; exact ⟨[], TreeOrder.nil⟩
    | succ k ih =>
      intro r hr hk
      have hall : ∀ c ∈ kids r, ∃ l, TreeOrder kids (kids c) l := by
        intro c hc
        have hcl := (h.bound r c hc).2
        have h1 := hf c r hcl (h.parent_of_mem hc)
        have h2 := hM c hcl
        exact ih c hcl (by omega)
      generalize kids r = cs at hall
      induction cs with
      | nil => exact ⟨[], TreeOrder.nil⟩
      | cons c cs ih2 =>
        obtain ⟨l1, h1⟩ := hall c (by simp)
        obtain ⟨l2, h2⟩ := ih2 (fun x hx => hall x (by simp [hx]))
        exact ⟨_, TreeOrder.cons h1 h2⟩
  induction rs with
  | nil => exact ⟨[], TreeOrder.nil⟩
  | cons r rs ih =>
    obtain ⟨l1, h1⟩ := key _ r (hrs r (by simp)) (le_refl _)
    obtain ⟨l2, h2⟩ := ih (fun x hx => hrs x (by simp [hx]))
    exact ⟨_, TreeOrder.cons h1 h2⟩

theorem TreeOrder.mem {d : Doc} {kids} (h : d.WF kids) {rs l : List NodeId}
    (ht : TreeOrder kids rs l) : (∀ r ∈ rs, r < d.len) →
    ∀ x, x ∈ l ↔ ∃ r ∈ rs, d.Anc r x := by
  induction ht with
  | nil => intro _ x; simp
  | @cons r rs l1 l2 h1 h2 ih1 ih2 =>
    intro hrs x
    have i1 := ih1 (fun c hc => (h.bound r c hc).2) x
    have i2 := ih2 (fun c hc => hrs c (by simp [hc])) x
    simp only [List.cons_append, List.mem_cons, List.mem_append, i1, i2]
    constructor
    · rintro (rfl | ⟨c, hc, ha⟩ | ⟨c, hc, ha⟩)
      · exact ⟨x, Or.inl rfl, Anc.refl _ _⟩
      · exact ⟨r, Or.inl rfl, Anc.up (h.bound r c hc).2 (h.parent_of_mem hc) ha⟩
      · exact ⟨c, Or.inr hc, ha⟩
    · rintro ⟨c, rfl | hc, ha⟩
      · rcases Relation.ReflTransGen.cases_tail ha with e | ⟨y, hy, hyl, hyp⟩
        · exact Or.inl e.symm
        · exact Or.inr (Or.inl ⟨y, h.mem_of_parent hyl hyp, hy⟩)
      · exact Or.inr (Or.inr ⟨c, hc, ha⟩)

theorem Anc.linear {d : Doc} {a b x : NodeId} (ha : d.Anc a x) (hb : d.Anc b x) :
    d.Anc a b ∨ d.Anc b a := by
  induction ha using Relation.ReflTransGen.head_induction_on with
  | refl => exact Or.inr hb
  | head hxy hya ih =>
    rename_i x y
    rcases Relation.ReflTransGen.cases_head hb with e | ⟨z, hz, hzb⟩
    · subst e
      exact Or.inl (Relation.ReflTransGen.head hxy hya)
    · have : z = y := by
        have := hz.2.symm.trans hxy.2
        exact Option.some.inj this
      subst this
      exact ih hzb

theorem WF.anc_depth {d : Doc} {f : NodeId → Nat}
    (hf : ∀ c p, c < d.len → (d.node c).parent = some p → f p < f c) {a x : NodeId}
    (h : d.Anc a x) : f a ≤ f x := by
  induction h using Relation.ReflTransGen.head_induction_on with
  | refl => exact le_refl _
  | head hxy _ ih => have := hf _ _ hxy.1 hxy.2; omega

/-- siblings are not below one another -/
theorem WF.sibling_anc {d : Doc} {kids} (h : d.WF kids) {p a b : NodeId} (ha : a ∈ kids p)
    (hb : b ∈ kids p) (hab : d.Anc a b) : a = b := by
  obtain ⟨f, hf⟩ := h.depth
  rcases Relation.ReflTransGen.cases_head hab with e | ⟨y, hy, hya⟩
  · exact e.symm
  · have : y = p := Option.some.inj (hy.2.symm.trans (h.parent_of_mem hb))
    subst this
    have h1 := WF.anc_depth hf hya
    have h2 := hf a y (h.bound y a ha).2 (h.parent_of_mem ha)
    omega

theorem TreeOrder.nodup {d : Doc} {kids} (h : d.WF kids) {rs l : List NodeId}
    (ht : TreeOrder kids rs l) : (∃ p l0, kids p = l0 ++ rs) ∨ (∃ r, rs = [r] ∧ r < d.len) →
    l.Nodup := by
  induction ht with
  | nil => intro _; simp
  | @cons r rs l1 l2 h1 h2 ih1 ih2 =>
    intro hrs
    have hrl : r < d.len := by
      rcases hrs with ⟨p, l0, hk⟩ | ⟨r', e, hr⟩
      · exact (h.bound p r (by rw [hk]; simp)).2
      · cases e; exact hr
    have n1 := ih1 (Or.inl ⟨r, [], by simp⟩)
    have m1 := h1.mem h (fun c hc => (h.bound r c hc).2)
    have n2 : l2.Nodup := by
      rcases hrs with ⟨p, l0, hk⟩ | ⟨r', e, hr⟩
      · exact ih2 (Or.inl ⟨p, l0 ++ [r], by rw [hk]; simp⟩)
      · cases e; cases h2; simp
    obtain ⟨f, hf⟩ := h.depth
    have hr1 : r ∉ l1 := by
      intro hm
      obtain ⟨c, hc, ha⟩ := (m1 r).1 hm
      have e1 := WF.anc_depth hf ha
      have e2 := hf c r (h.bound r c hc).2 (h.parent_of_mem hc)
      omega
    have hdis : ∀ x, (x = r ∨ x ∈ l1) → x ∉ l2 := by
      intro x hx hx2
      have hax : d.Anc r x := by
        rcases hx with rfl | hx
        · exact Anc.refl _ _
        · obtain ⟨c, hc, ha⟩ := (m1 x).1 hx
          exact Anc.up (h.bound r c hc).2 (h.parent_of_mem hc) ha
      rcases hrs with ⟨p, l0, hk⟩ | ⟨r', e, hr⟩
      · have m2 := h2.mem h (fun c hc => (h.bound p c (by rw [hk]; simp [hc])).2)
        obtain ⟨c, hc, ha⟩ := (m2 x).1 hx2
        have hnd := h.nodup p
        rw [hk, List.nodup_append, List.nodup_cons] at hnd
        have hrc : r ≠ c := by rintro rfl; exact hnd.2.1.1 hc
        rcases hax.linear ha with e | e
        · exact hrc (h.sibling_anc (p := p) (by rw [hk]; simp) (by rw [hk]; simp [hc]) e)
        · exact hrc (h.sibling_anc (p := p) (by rw [hk]; simp [hc]) (by rw [hk]; simp) e).symm
      · cases e; cases h2; cases hx2
    rw [List.cons_append, List.nodup_cons, List.nodup_append]
    refine ⟨?_, n1, n2, ?_⟩
    · rw [List.mem_append]
      rintro (e | e)
      · exact hr1 e
      · exact hdis r (Or.inl rfl) e
    · intro a ha b hb e
      subst e
      exact hdis a (Or.inr ha) hb

/-! ## Sibling walks -/

theorem WF.findElement {d : Doc} {kids} (h : d.WF kids) (p : NodeId) :
    ∀ (rs l0 : List NodeId), kids p = l0 ++ rs → ∀ fuel, rs.length ≤ fuel →
      d.findElementLoop (·.nextSibling) fuel rs.head? =
        .ok (rs.find? fun x => (d.node x).data.asElement.isSome) := by
  intro rs
  induction rs with
  | nil => intro l0 _ fuel _; cases fuel <;> rfl
  | cons r rs ih =>
    intro l0 hk fuel hf
    obtain ⟨k, rfl⟩ : ∃ k, fuel = k + 1 := ⟨fuel - 1, by simp at hf; omega⟩
    have hr := (h.bound p r (by rw [hk]; simp)).2
    simp only [List.head?_cons, findElementLoop]
    rw [get_ok d r hr]
    simp only [bind, Except.bind, List.find?_cons]
    by_cases he : (d.node r).data.asElement.isSome = true
    · rw [he]; rfl
    · simp only [he]
      rw [(h.mid hk).2]
      exact ih (l0 ++ [r]) (by rw [hk]; simp) k (by simp at hf; omega)

theorem WF.findElementBack {d : Doc} {kids} (h : d.WF kids) (p : NodeId) :
    ∀ (rs l2 : List NodeId), kids p = rs.reverse ++ l2 → ∀ fuel, rs.length ≤ fuel →
      d.findElementLoop (·.previousSibling) fuel rs.head? =
        .ok (rs.find? fun x => (d.node x).data.asElement.isSome) := by
  intro rs
  induction rs with
  | nil => intro l0 _ fuel _; cases fuel <;> rfl
  | cons r rs ih =>
    intro l2 hk fuel hf
    obtain ⟨k, rfl⟩ : ∃ k, fuel = k + 1 := ⟨fuel - 1, by simp at hf; omega⟩
    have hk' : kids p = rs.reverse ++ r :: l2 := by rw [hk]; simp
    have hr := (h.bound p r (by rw [hk]; simp)).2
    simp only [List.head?_cons, findElementLoop]
    rw [get_ok d r hr]
    simp only [bind, Except.bind, List.find?_cons]
    by_cases he : (d.node r).data.asElement.isSome = true
    · rw [he]; rfl
    · simp only [he]
      rw [(h.mid hk').1, List.getLast?_reverse]
      exact ih (r :: l2) (by rw [hk]; simp) k (by simp at hf; omega)

theorem WF.isEmptyLoop {d : Doc} {kids} (h : d.WF kids) (p : NodeId) :
    ∀ (rs l0 : List NodeId), kids p = l0 ++ rs → ∀ fuel, rs.length ≤ fuel →
      d.isEmptyLoop fuel rs.head? =
        .ok (rs.all fun x => match (d.node x).data with
          | .element _ => false
          | .text t => t.isEmpty
          | _ => true) := by
  intro rs
  induction rs with
  | nil => intro l0 _ fuel _; cases fuel <;> rfl
  | cons r rs ih =>
    intro l0 hk fuel hf
    obtain ⟨k, rfl⟩ : ∃ k, fuel = k + 1 := ⟨fuel - 1, by simp at hf; omega⟩
    have hr := (h.bound p r (by rw [hk]; simp)).2
    have hrec := ih (l0 ++ [r]) (by rw [hk]; simp) k (by simp at hf; omega)
    simp only [List.head?_cons, Doc.isEmptyLoop]
    rw [get_ok d r hr]
    simp only [bind, Except.bind, List.all_cons]
    rw [(h.mid hk).2]
    cases hd : (d.node r).data with
    | text t =>
      simp only [NodeData.asElement, NodeData.asText]
      cases ht : t.isEmpty <;> simp [hrec, pure, Except.pure]
    | element e => simp [NodeData.asElement, pure, Except.pure]
    | _ => simp [NodeData.asElement, NodeData.asText, hrec]

theorem WF.childText {d : Doc} {kids} (h : d.WF kids) (p : NodeId) :
    ∀ (rs l0 : List NodeId) (acc : Text), kids p = l0 ++ rs → ∀ fuel, rs.length ≤ fuel →
      d.childTextLoop fuel rs.head? acc =
        .ok (acc ++ rs.flatMap fun x => match (d.node x).data with
          | .text t => t
          | _ => []) := by
  intro rs
  induction rs with
  | nil => intro l0 acc _ fuel _; cases fuel <;> simp [childTextLoop]
  | cons r rs ih =>
    intro l0 acc hk fuel hf
    obtain ⟨k, rfl⟩ : ∃ k, fuel = k + 1 := ⟨fuel - 1, by simp at hf; omega⟩
    have hr := (h.bound p r (by rw [hk]; simp)).2
    simp only [List.head?_cons, childTextLoop]
    rw [get_ok d r hr]
    simp only [bind, Except.bind]
    rw [(h.mid hk).2, ih (l0 ++ [r]) _ (by rw [hk]; simp) k (by simp at hf; omega)]
    cases hd : (d.node r).data <;> simp [hd]

/-- a child list is not longer than the arena -/
theorem WF.kids_length {d : Doc} {kids} (h : d.WF kids) (p : NodeId) :
    (kids p).length ≤ d.len := by
  have hsub : kids p ⊆ List.range d.len := by
    intro x hx
    rw [List.mem_range]
    exact (h.bound p x hx).2
  have := (List.Nodup.subperm (h.nodup p) hsub).length_le
  simpa using this

end Doc
end Sinab
