import Verif.Lemmas.DomSink

/-!
Document tree: C09 – C15 and C31.  The forest vocabulary (`WF`, `Anc`,
`without`, `withLast`, `withBefore`, `TreeOrder`, `Legal`, `Reachable`) is in
`Verif/Spec/Forest.lean`.
-/

namespace Sinab
open Doc

/-! ## C09 -/

/-- Every document which can be produced by legal calls is a well-formed forest. -/
theorem C09_wellFormed {d : Doc} (h : Reachable d) : ∃ kids, d.WF kids := by
  obtain ⟨kids, hk⟩ := h.inv
  exact ⟨kids, hk.wf⟩

/-- No legal call aborts. -/
theorem C09_total {d : Doc} (h : Reachable d) {op : SinkOp} (hl : op.Legal d) :
    ∃ d', d.sinkStep op = .ok d' := by
  obtain ⟨kids, hk⟩ := h.inv
  obtain ⟨d', _, h1, _⟩ := hk.step hl
  exact ⟨d', h1⟩

/-- Every allocated node with a parent is a member of exactly one child list, once. -/
theorem C09_once {d : Doc} {kids} (h : d.WF kids) {c p : NodeId} (hc : c < d.len)
    (hp : (d.node c).parent = some p) :
    (kids p).count c = 1 ∧ ∀ q, q ≠ p → c ∉ kids q := by
  have hm := h.mem_of_parent hc hp
  exact ⟨List.count_eq_one_of_mem (h.nodup p) hm, fun q hq hmq => hq (h.unique hmq hm)⟩

/-- Sibling links are inverse to each other, and connect children of one parent. -/
theorem C09_symmetric {d : Doc} {kids} (h : d.WF kids) {a b : NodeId} (ha : a < d.len)
    (hb : b < d.len) :
    ((d.node a).nextSibling = some b ↔ (d.node b).previousSibling = some a) ∧
    ((d.node a).nextSibling = some b → (d.node a).parent = (d.node b).parent ∧
      (d.node a).parent ≠ none) := by
  have fwd : (d.node a).nextSibling = some b → (d.node b).previousSibling = some a ∧
      (d.node a).parent = (d.node b).parent ∧ (d.node a).parent ≠ none := by
    intro hn
    cases hp : (d.node a).parent with
    | none => rw [(h.orphan a ha hp).2] at hn; cases hn
    | some p =>
      obtain ⟨l1, l2, hl⟩ := List.append_of_mem (h.mem_of_parent ha hp)
      rw [(h.mid hl).2] at hn
      obtain ⟨l3, rfl⟩ : ∃ l3, l2 = b :: l3 := by
        cases l2 with
        | nil => cases hn
        | cons x l => cases hn; exact ⟨l, rfl⟩
      have hl' : kids p = (l1 ++ [a]) ++ b :: l3 := by rw [hl]; simp
      refine ⟨by rw [(h.mid hl').1]; simp, ?_, by simp⟩
      exact (h.parent_of_mem (p := p) (by rw [hl']; simp)).symm
  have bwd : (d.node b).previousSibling = some a → (d.node a).nextSibling = some b := by
    intro hn
    cases hp : (d.node b).parent with
    | none => rw [(h.orphan b hb hp).1] at hn; cases hn
    | some p =>
      obtain ⟨l1, l2, hl⟩ := List.append_of_mem (h.mem_of_parent hb hp)
      rw [(h.mid hl).1] at hn
      rcases List.eq_nil_or_concat l1 with e | ⟨l3, x, e⟩
      · rw [e] at hn; cases hn
      · rw [e] at hn; simp at hn; subst hn
        have hl' : kids p = l3 ++ x :: b :: l2 := by rw [hl, e]; simp
        rw [(h.mid hl').2]; rfl
  exact ⟨⟨fun e => (fwd e).1, bwd⟩, fun e => (fwd e).2⟩

/-- No node is a proper ancestor of itself. -/
theorem C09_acyclic {d : Doc} {kids} (h : d.WF kids) {c p : NodeId} (hc : c < d.len)
    (hp : (d.node c).parent = some p) : ¬ d.Anc c p := by
  intro ha
  obtain ⟨f, hf⟩ := h.depth
  have h1 := WF.anc_depth hf ha
  have h2 := hf c p hc hp
  omega

/-- the child lists are determined by the document -/
theorem C09_unique {d : Doc} {kids kids'} (h : d.WF kids) (h' : d.WF kids') : kids = kids' := by
  have key : ∀ p, ∀ (l0 l l0' l' : List NodeId), kids p = l0 ++ l → kids' p = l0' ++ l' →
      l.head? = l'.head? → l = l' := by
    intro p l0 l
    induction l generalizing l0 with
    | nil =>
      intro l0' l' _ _ e
      cases l' with
      | nil => rfl
      | cons => cases e
    | cons a l ih =>
      intro l0' l' h1 h2 e
      cases l' with
      | nil => cases e
      | cons b l' =>
        simp only [List.head?_cons, Option.some.injEq] at e
        subst e
        have e1 := (h.mid h1).2
        have e2 := (h'.mid h2).2
        rw [ih (l0 ++ [a]) (l0' ++ [a]) l' (by rw [h1]; simp) (by rw [h2]; simp) (e1.symm.trans e2)]
  funext p
  by_cases hp : p < d.len
  · exact key p [] (kids p) [] (kids' p) rfl rfl ((h.first p hp).symm.trans (h'.first p hp))
  · rw [h.kids_of_ge (Nat.le_of_not_lt hp), h'.kids_of_ge (Nat.le_of_not_lt hp)]

private def pName : QualName := ⟨none, nsHtml, "p"⟩

private def demoOps : List SinkOp :=
  [.createElement pName [], .createElement pName [], .append 1 (.node 2), .append 2 (.node 3),
    .append 2 (.text "x".toList), .appendBeforeSibling 3 (.text "y".toList), .removeFromParent 4]

/-- seven calls on a new document, leaving 1 ─ 2 ─ [5, 3] and the detached text 4 -/
example : ((demoOps.foldlM sinkStep Doc.new).map fun d =>
    [some d.len, (d.node 1).firstChild, (d.node 2).firstChild, (d.node 5).nextSibling,
      (d.node 3).nextSibling, (d.node 4).parent, (d.node 2).lastChild])
    = .ok [some 6, some 2, some 5, some 3, none, none, some 3] := by decide +kernel

/-- an actual document of the legal kind -/
example : ∃ d, Reachable d ∧ d.len = 3 ∧ (d.node 2).parent = some 1 := by
  have h1 : Reachable (Doc.new.createElement pName []).1 :=
    Reachable.step (op := .createElement pName []) Reachable.new trivial rfl
  obtain ⟨kids, hk⟩ := h1.inv
  have hleg : (SinkOp.append 1 (.node 2)).Legal (Doc.new.createElement pName []).1 :=
    ⟨by decide, by decide, by decide, not_anc_new WF_new _ (by decide)⟩
  obtain ⟨d', e1, e2, e3, _, e4, _⟩ := hk.wf.append (p := 1) (c := 2) hleg.2.1 hleg.1 hleg.2.2.2
  exact ⟨d', Reachable.step h1 hleg e1, e2, by rw [e4]; rfl⟩

/-! ## C10 -/

/-- Removing takes the node out of its child list and changes nothing else. -/
theorem C10_detach {d : Doc} {kids} (h : d.WF kids) {c : NodeId} (hc : c < d.len) :
    ∃ d', d.detach c = .ok d' ∧ d'.WF (fun p => (kids p).filter (· ≠ c)) ∧
      (d'.node c).parent = none ∧ d'.len = d.len ∧ d'.styleElements = d.styleElements ∧
      ∀ x, (d'.node x).data = (d.node x).data := by
  obtain ⟨d', h1, D, h2⟩ := h.detach hc
  exact ⟨d', h1, h2, by rw [D.parent, if_pos rfl], D.len, D.style, D.data⟩

/-- Appending takes the node out of its former position and puts it behind the other
children of `p`; no other child list, parent or content changes. -/
theorem C10_append {d : Doc} {kids} (h : d.WF kids) {p c : NodeId} (hc : c < d.len)
    (hp : p < d.len) (hanc : ¬ d.Anc c p) :
    ∃ d', d.append p c = .ok d' ∧
      d'.WF (fun q => (kids q).filter (· ≠ c) ++ if q = p then [c] else []) ∧
      d'.len = d.len ∧ d'.styleElements = d.styleElements ∧
      (∀ x, (d'.node x).data = (d.node x).data) ∧
      (∀ x, (d'.node x).parent = if x = c then some p else (d.node x).parent) := by
  obtain ⟨d', h1, h2, h3, h4, h5, h6⟩ := h.append hc hp hanc
  refine ⟨d', h1, ?_, h2, h3, h4, h5⟩
  convert h6 using 1
  funext q
  unfold withLast without
  split_ifs <;> simp

/-- Inserting before `s` puts the node directly in front of `s`. -/
theorem C10_insertBefore {d : Doc} {kids} (h : d.WF kids) {s c p : NodeId} (hc : c < d.len)
    (hs : s < d.len) (hsc : s ≠ c) (hp : (d.node s).parent = some p) (hanc : ¬ d.Anc c p) :
    ∃ d' l1 l2, d.insertBefore s c = .ok d' ∧ (kids p).filter (· ≠ c) = l1 ++ s :: l2 ∧
      d'.WF (fun q => if q = p then l1 ++ c :: s :: l2 else (kids q).filter (· ≠ c)) ∧
      d'.len = d.len ∧ d'.styleElements = d.styleElements ∧
      (∀ x, (d'.node x).data = (d.node x).data) ∧
      (∀ x, (d'.node x).parent = if x = c then some p else (d.node x).parent) := by
  obtain ⟨d', h1, h2, h3, h4, h5, h6⟩ := h.insertBefore hc hs hsc hp hanc
  have hm := h.mem_of_parent hs hp
  have hm' : s ∈ (kids p).filter (· ≠ c) := by simp [hm, hsc]
  have hnd : ((kids p).filter (· ≠ c)).Nodup := (h.nodup p).filter _
  obtain ⟨l1, l2, hl⟩ := List.append_of_mem hm'
  have hs1 : s ∉ l1 := by
    rw [hl, List.nodup_append] at hnd
    exact fun hx => hnd.2.2 s hx s (by simp) rfl
  refine ⟨d', l1, l2, h1, hl, ?_, h2, h3, h4, h5⟩
  convert h6 using 1
  funext q
  unfold withBefore without
  split_ifs with hq
  · subst hq; rw [hl, insertIn_mid hs1]
  · rw [insertIn_not_mem]
    intro hx
    exact hq (h.unique (List.mem_of_mem_filter hx) hm)

/-- moving a middle child to the front of its siblings -/
example : ((([.createComment [], .createComment [], .createComment [], .append 1 (.node 2),
      .append 1 (.node 3), .append 1 (.node 4), .appendBeforeSibling 2 (.node 3)] : List SinkOp).foldlM
      sinkStep Doc.new).bind fun d => d.nodes 10) = .ok [1, 3, 2, 4] := by decide +kernel

/-! ## C11 -/

/-- Iterating over the nodes of a document ends and visits exactly the nodes below
(or equal to) the document node, each once, in document order. -/
theorem C11_documentOrder {d : Doc} (hd : Reachable d) {kids} (h : d.WF kids) :
    ∃ l N, (∀ fuel, N ≤ fuel → d.nodes fuel = .ok l) ∧ TreeOrder kids [documentNodeId] l ∧
      l.Nodup ∧ ∀ x, x ∈ l ↔ d.Anc documentNodeId x := by
  obtain ⟨kids', hI⟩ := hd.inv
  have hdl := hI.docLt
  obtain ⟨l, hl⟩ := h.treeOrder [documentNodeId] (by simpa using hdl)
  have hlc := hl
  have horph := h.orphan _ hdl hI.root
  cases hl with
  | cons h1 h2 =>
    cases h2
    have hn : NextAnc d documentNodeId none := NextAnc.top hdl horph.2 hI.root
    have ht := h1.trav h documentNodeId [] none [] (by simp) hn Trav.done
    have ht' : Trav d (some documentNodeId) (documentNodeId :: _) := Trav.step hdl (by
      rw [h.first _ hdl]
      cases hk : kids documentNodeId with
      | nil => right; exact ⟨rfl, by simpa [hk] using hn⟩
      | cons a as => left; exact ⟨a, rfl, rfl⟩) ht
    obtain ⟨N, hN⟩ := ht'.fuel _ rfl
    refine ⟨_, N, hN, hlc, hlc.nodup h (Or.inr ⟨_, rfl, hdl⟩), fun x => ?_⟩
    have := hlc.mem h (by simpa using hdl) x
    simpa using this

/-- Document order in other words: a proper ancestor comes first, and of two subtrees
below one parent that of the earlier child comes first. -/
theorem C11_order {d : Doc} {kids} (h : d.WF kids) {rs l : List NodeId}
    (ht : TreeOrder kids rs l) (hrs : ∀ r ∈ rs, r < d.len) :
    (∀ r x, r ∈ l → d.Anc r x → r ≠ x → ∃ l1 l2, l = l1 ++ r :: l2 ∧ x ∈ l2) ∧
    (∀ p a b k1 k2 k3, p ∈ l → kids p = k1 ++ a :: k2 ++ b :: k3 → ∀ x y, d.Anc a x → d.Anc b y →
      ∃ l1 l2, l = l1 ++ l2 ∧ x ∈ l1 ∧ y ∈ l2) := by
  induction ht with
  | nil => exact ⟨by simp, by simp⟩
  | @cons r rs l1 l2 h1 h2 ih1 ih2 =>
    obtain ⟨i1, i2⟩ := ih1 (fun c hc => (h.bound r c hc).2)
    obtain ⟨j1, j2⟩ := ih2 (fun c hc => hrs c (by simp [hc]))
    have m1 := h1.mem h (fun c hc => (h.bound r c hc).2)
    constructor
    · intro q x hq hqx hne
      rw [List.cons_append, List.mem_cons, List.mem_append] at hq
      rcases hq with rfl | hq | hq
      · refine ⟨[], l1 ++ l2, rfl, ?_⟩
        rw [List.mem_append, m1]
        left
        rcases Relation.ReflTransGen.cases_tail hqx with e | ⟨y, hy, hyl, hyp⟩
        · exact absurd e hne
        · exact ⟨y, h.mem_of_parent hyl hyp, hy⟩
      · obtain ⟨k1, k2, e, hx⟩ := i1 q x hq hqx hne
        exact ⟨r :: k1, k2 ++ l2, by rw [e]; simp, by simp [hx]⟩
      · obtain ⟨k1, k2, e, hx⟩ := j1 q x hq hqx hne
        exact ⟨r :: l1 ++ k1, k2, by rw [e]; simp, hx⟩
    · intro p a b k1 k2 k3 hp hk x y hax hby
      rw [List.cons_append, List.mem_cons, List.mem_append] at hp
      rcases hp with rfl | hp | hp
      · have split : ∀ (rs l : List NodeId), TreeOrder kids rs l → (∀ r ∈ rs, r < d.len) →
            ∀ k1 k2, rs = k1 ++ k2 → ∃ m1 m2, l = m1 ++ m2 ∧ TreeOrder kids k1 m1 ∧
              TreeOrder kids k2 m2 := by
          intro rs l ht
          induction ht with
          | nil =>
            intro _ k1 k2 e
            obtain ⟨rfl, rfl⟩ := List.append_eq_nil_iff.1 e.symm
            exact ⟨[], [], rfl, TreeOrder.nil, TreeOrder.nil⟩
          | @cons r rs l1 l2 t1 t2 _ jh =>
            intro hb k1 k2 e
            cases k1 with
            | nil => exact ⟨[], _, rfl, TreeOrder.nil, by rw [← (show r :: rs = k2 from e)]; exact TreeOrder.cons t1 t2⟩
            | cons z k1 =>
              simp only [List.cons_append, List.cons.injEq] at e
              obtain ⟨rfl, rfl⟩ := e
              obtain ⟨m1, m2, e1, e2, e3⟩ := jh (fun c hc => hb c (by simp [hc])) k1 k2 rfl
              exact ⟨r :: l1 ++ m1, m2, by rw [e1]; simp, TreeOrder.cons t1 e2, e3⟩
        have hb := fun c hc => (h.bound p c hc).2
        obtain ⟨m1', m2', e1, e2, e3⟩ := split _ _ h1 hb (k1 ++ a :: k2) (b :: k3) (by rw [hk])
        refine ⟨p :: m1', m2' ++ l2, by rw [e1]; simp, ?_, ?_⟩
        · rw [List.mem_cons]
          right
          rw [e2.mem h (fun c hc => hb c (by rw [hk]; simp at hc ⊢; tauto))]
          exact ⟨a, by simp, hax⟩
        · rw [List.mem_append]
          left
          rw [e3.mem h (fun c hc => hb c (by rw [hk]; simp at hc ⊢; tauto))]
          exact ⟨b, by simp, hby⟩
      · obtain ⟨n1, n2, e, hx, hy⟩ := i2 p a b k1 k2 k3 hp hk x y hax hby
        exact ⟨r :: n1, n2 ++ l2, by rw [e]; simp, by simp [hx], by simp [hy]⟩
      · obtain ⟨n1, n2, e, hx, hy⟩ := j2 p a b k1 k2 k3 hp hk x y hax hby
        exact ⟨r :: l1 ++ n1, n2, by rw [e]; simp, by simp [hx], hy⟩

/-- document 1 with children 2 (children 4, 5) and 3: order 1 2 4 5 3 -/
example : ((([.createComment [], .createComment [], .createComment [], .createComment [],
      .append 1 (.node 2), .append 1 (.node 3), .append 2 (.node 4), .append 2 (.node 5)] :
      List SinkOp).foldlM sinkStep Doc.new).bind fun d => d.nodes 10) = .ok [1, 2, 4, 5, 3] := by
  decide +kernel

/-! ## C12 -/

/-- Adding two pieces of text one after the other is the same as adding them at once. -/
theorem C12_append {d : Doc} (hd : Reachable d) {p : NodeId} (hp : p < d.len) (a b : Text) :
    (d.sinkAppend p (.text a)).bind (fun d => d.sinkAppend p (.text b)) =
      d.sinkAppend p (.text (a ++ b)) := by
  obtain ⟨kids, h⟩ := hd.inv
  obtain ⟨d1, e1, c1⟩ := h.sinkAppendText hp a
  obtain ⟨d2, e2, c2⟩ := h.sinkAppendText hp (a ++ b)
  rw [e1, e2]
  show d1.sinkAppend p (.text b) = _
  rcases c1 with ⟨id, t0, g1, g2, g3, g4, g5⟩ | ⟨g1, g2, g3, g4, g5⟩
  · have hp1 : p < d1.len := by rw [g4]; exact hp
    obtain ⟨d3, e3, c3⟩ := g5.sinkAppendText hp1 b
    rw [e3]
    congr 1
    rcases c2 with ⟨id', t0', k1, k2, k3, k4, _⟩ | ⟨k1, _⟩
    · rw [g1] at k1; cases k1
      rw [g2] at k2; cases k2
      rcases c3 with ⟨id3, t3, m1, m2, m3, m4, _⟩ | ⟨m1, _⟩
      · rw [g1] at m1; cases m1
        subst g4
        simp only [Function.update_self] at m2
        cases m2
        rw [m4, k4]
        simp
      · have := m1 id g1
        rw [g4] at this
        simp [NodeData.isText] at this
    · have := k1 id g1
      rw [g2] at this; cases this
  · rcases c2 with ⟨id', t0', k1, k2, _⟩ | ⟨_, k2, k3, k4, k5⟩
    · have := g1 id' k1
      rw [k2] at this; cases this
    · have hp1 : p < d1.len := by rw [g4]; exact Nat.lt_succ_of_lt hp
      obtain ⟨d3, e3, c3⟩ := g3.sinkAppendText hp1 b
      rw [e3]
      congr 1
      have hlast : (withLast kids p d.len p).getLast? = some d.len := by simp [withLast]
      rcases c3 with ⟨id3, t3, m1, m2, m3, m4, _⟩ | ⟨m1, _⟩
      · rw [hlast] at m1; cases m1
        rw [g5, if_pos rfl] at m2
        cases m2
        -- compare the two appends pointwise
        have W1 := (h.push (.text a) rfl (by simp)).wf
        have W2 := (h.push (.text (a ++ b)) rfl (by simp)).wf
        have hpn := not_anc_new h.wf (.text a) hp
        have hpn2 := not_anc_new h.wf (.text (a ++ b)) hp
        obtain ⟨x1, X1, D1, V1⟩ := W1.detach (c := d.len) (Nat.lt_succ_self _)
        obtain ⟨x2, X2, D2, V2⟩ := W2.detach (c := d.len) (Nat.lt_succ_self _)
        obtain ⟨y1, Y1, A1, _⟩ := V1.appendTail (p := p) (c := d.len)
          (by rw [D1.len]; exact Nat.lt_succ_self _) (by rw [D1.len]; exact Nat.lt_succ_of_lt hp)
          (by rw [D1.parent, if_pos rfl]) (fun ha => hpn (D1.anc ha))
        obtain ⟨y2, Y2, A2, _⟩ := V2.appendTail (p := p) (c := d.len)
          (by rw [D2.len]; exact Nat.lt_succ_self _) (by rw [D2.len]; exact Nat.lt_succ_of_lt hp)
          (by rw [D2.parent, if_pos rfl]) (fun ha => hpn2 (D2.anc ha))
        have q1 : d1 = y1 := by
          rw [append_eq, X1] at g2
          exact (Except.ok.inj (Y1.symm.trans g2)).symm
        have q2 : d2 = y2 := by
          rw [append_eq, X2] at k2
          exact (Except.ok.inj (Y2.symm.trans k2)).symm
        subst q1 q2
        have links : ∀ x, ((d.newNode (.text a)).1.node x).parent =
              ((d.newNode (.text (a ++ b))).1.node x).parent ∧
            ((d.newNode (.text a)).1.node x).nextSibling =
              ((d.newNode (.text (a ++ b))).1.node x).nextSibling ∧
            ((d.newNode (.text a)).1.node x).previousSibling =
              ((d.newNode (.text (a ++ b))).1.node x).previousSibling ∧
            ((d.newNode (.text a)).1.node x).firstChild =
              ((d.newNode (.text (a ++ b))).1.node x).firstChild ∧
            ((d.newNode (.text a)).1.node x).lastChild =
              ((d.newNode (.text (a ++ b))).1.node x).lastChild := by
          intro x
          simp only [newNode_node]
          split_ifs <;> exact ⟨rfl, rfl, rfl, rfl, rfl⟩
        rw [m4]
        apply doc_ext
        · exact g4.trans k4.symm
        · intro x
          have same : (d1.node x).parent = (d2.node x).parent ∧
              (d1.node x).nextSibling = (d2.node x).nextSibling ∧
              (d1.node x).previousSibling = (d2.node x).previousSibling ∧
              (d1.node x).firstChild = (d2.node x).firstChild ∧
              (d1.node x).lastChild = (d2.node x).lastChild := by
            simp only [A1.parent, A2.parent, A1.next, A2.next, A1.prev, A2.prev, A1.first, A2.first,
              A1.last, A2.last, D1.parent, D2.parent, D1.next, D2.next, D1.prev, D2.prev, D1.first,
              D2.first, D1.last, D2.last, (links _).1, (links _).2.1, (links _).2.2.1,
              (links _).2.2.2.1, (links _).2.2.2.2, and_self]
          obtain ⟨s1, s2, s3, s4, s5⟩ := same
          simp only [Function.update_apply]
          by_cases hx : x = d.len
          · subst hx
            simp only [if_true]
            exact node_ext s1 s2 s3 s4 s5 (by rw [k5, if_pos rfl])
          · rw [if_neg hx]
            exact node_ext s1 s2 s3 s4 s5 (by rw [g5, k5, if_neg hx, if_neg hx])
        · show d1.styleElements = d2.styleElements
          rw [A1.style, A2.style, D1.style, D2.style]; rfl
      · have := m1 d.len hlast
        rw [g5, if_pos rfl] at this; cases this

/-- The same for insertion in front of a sibling. -/
theorem C12_insert {d : Doc} (hd : Reachable d) {s : NodeId} (hs : s < d.len)
    (hpar : (d.node s).parent ≠ none) (a b : Text) :
    (d.sinkAppendBeforeSibling s (.text a)).bind
        (fun d => d.sinkAppendBeforeSibling s (.text b)) =
      d.sinkAppendBeforeSibling s (.text (a ++ b)) := by
  obtain ⟨kids, h⟩ := hd.inv
  obtain ⟨d1, e1, c1⟩ := h.sinkInsertText hs hpar a
  obtain ⟨d2, e2, c2⟩ := h.sinkInsertText hs hpar (a ++ b)
  rw [e1, e2]
  show d1.sinkAppendBeforeSibling s (.text b) = _
  rcases c1 with ⟨id, t0, g1, g2, g3, g4, g5⟩ | ⟨g1, g2, g3, g4, g5⟩
  · have hs1 : s < d1.len := by rw [g4]; exact hs
    have hlink : (d1.node s).parent = (d.node s).parent ∧
        (d1.node s).previousSibling = (d.node s).previousSibling := by
      rw [g4]; simp only [Function.update_apply]; split_ifs with hx
      · subst hx; exact ⟨rfl, rfl⟩
      · exact ⟨rfl, rfl⟩
    obtain ⟨d3, e3, c3⟩ := g5.sinkInsertText hs1 (by rw [hlink.1]; exact hpar) b
    rw [hlink.2] at c3
    rw [e3]
    congr 1
    rcases c2 with ⟨id', t0', k1, k2, k3, k4, _⟩ | ⟨k1, _⟩
    · rw [g1] at k1; cases k1
      rw [g2] at k2; cases k2
      rcases c3 with ⟨id3, t3, m1, m2, m3, m4, _⟩ | ⟨m1, _⟩
      · rw [g1] at m1; cases m1
        subst g4
        simp only [Function.update_self] at m2
        cases m2
        rw [m4, k4]
        simp
      · have := m1 id g1
        rw [g4] at this
        simp [NodeData.isText] at this
    · have := k1 id g1
      rw [g2] at this; cases this
  · rcases c2 with ⟨id', t0', k1, k2, _⟩ | ⟨_, k2, k3, k4, k5⟩
    · have := g1 id' k1
      rw [k2] at this; cases this
    · obtain ⟨p, hp⟩ := Option.ne_none_iff_exists'.1 hpar
      have hpl := h.wf.parBound s p hs hp
      -- compare the two insertions pointwise
      have W1 := (h.push (.text a) rfl (by simp)).wf
      have W2 := (h.push (.text (a ++ b)) rfl (by simp)).wf
      have hpn := not_anc_new h.wf (.text a) hpl
      have hpn2 := not_anc_new h.wf (.text (a ++ b)) hpl
      obtain ⟨x1, X1, D1, V1⟩ := W1.detach (c := d.len) (Nat.lt_succ_self _)
      obtain ⟨x2, X2, D2, V2⟩ := W2.detach (c := d.len) (Nat.lt_succ_self _)
      have hsne : s ≠ d.len := Nat.ne_of_lt hs
      obtain ⟨y1, Y1, A1, _⟩ := V1.insertTail (s := s) (c := d.len) (p := p)
        (by rw [D1.len]; exact Nat.lt_succ_self _) (by rw [D1.len]; exact Nat.lt_succ_of_lt hs)
        (by rw [D1.parent, if_pos rfl])
        (by rw [D1.parent, if_neg hsne, newNode_node, if_neg hsne, hp])
        (fun ha => hpn (D1.anc ha))
      obtain ⟨y2, Y2, A2, _⟩ := V2.insertTail (s := s) (c := d.len) (p := p)
        (by rw [D2.len]; exact Nat.lt_succ_self _) (by rw [D2.len]; exact Nat.lt_succ_of_lt hs)
        (by rw [D2.parent, if_pos rfl])
        (by rw [D2.parent, if_neg hsne, newNode_node, if_neg hsne, hp])
        (fun ha => hpn2 (D2.anc ha))
      have q1 : d1 = y1 := by
        rw [insertBefore_eq, X1] at g2
        exact (Except.ok.inj (Y1.symm.trans g2)).symm
      have q2 : d2 = y2 := by
        rw [insertBefore_eq, X2] at k2
        exact (Except.ok.inj (Y2.symm.trans k2)).symm
      subst q1 q2
      have hs1 : s < d1.len := by rw [g4]; exact Nat.lt_succ_of_lt hs
      have hpar1 : (d1.node s).parent ≠ none := by
        rw [A1.parent, if_neg hsne, D1.parent, if_neg hsne, newNode_node, if_neg hsne]
        exact hpar
      have hprev : (d1.node s).previousSibling = some d.len := by
        rw [A1.prev, if_neg hsne, if_pos rfl]
      obtain ⟨d3, e3, c3⟩ := g3.sinkInsertText hs1 hpar1 b
      rw [hprev] at c3
      rw [e3]
      congr 1
      rcases c3 with ⟨id3, t3, m1, m2, m3, m4, _⟩ | ⟨m1, _⟩
      · cases m1
        rw [g5, if_pos rfl] at m2
        cases m2
        have links : ∀ x, ((d.newNode (.text a)).1.node x).parent =
              ((d.newNode (.text (a ++ b))).1.node x).parent ∧
            ((d.newNode (.text a)).1.node x).nextSibling =
              ((d.newNode (.text (a ++ b))).1.node x).nextSibling ∧
            ((d.newNode (.text a)).1.node x).previousSibling =
              ((d.newNode (.text (a ++ b))).1.node x).previousSibling ∧
            ((d.newNode (.text a)).1.node x).firstChild =
              ((d.newNode (.text (a ++ b))).1.node x).firstChild ∧
            ((d.newNode (.text a)).1.node x).lastChild =
              ((d.newNode (.text (a ++ b))).1.node x).lastChild := by
          intro x
          simp only [newNode_node]
          split_ifs <;> exact ⟨rfl, rfl, rfl, rfl, rfl⟩
        rw [m4]
        apply doc_ext
        · exact g4.trans k4.symm
        · intro x
          have same : (d1.node x).parent = (d2.node x).parent ∧
              (d1.node x).nextSibling = (d2.node x).nextSibling ∧
              (d1.node x).previousSibling = (d2.node x).previousSibling ∧
              (d1.node x).firstChild = (d2.node x).firstChild ∧
              (d1.node x).lastChild = (d2.node x).lastChild := by
            simp only [A1.parent, A2.parent, A1.next, A2.next, A1.prev, A2.prev, A1.first, A2.first,
              A1.last, A2.last, D1.parent, D2.parent, D1.next, D2.next, D1.prev, D2.prev, D1.first,
              D2.first, D1.last, D2.last, (links _).1, (links _).2.1, (links _).2.2.1,
              (links _).2.2.2.1, (links _).2.2.2.2, and_self]
          obtain ⟨s1, s2, s3, s4, s5⟩ := same
          simp only [Function.update_apply]
          by_cases hx : x = d.len
          · subst hx
            simp only [if_true]
            exact node_ext s1 s2 s3 s4 s5 (by rw [k5, if_pos rfl])
          · rw [if_neg hx]
            exact node_ext s1 s2 s3 s4 s5 (by rw [g5, k5, if_neg hx, if_neg hx])
        · show d1.styleElements = d2.styleElements
          rw [A1.style, A2.style, D1.style, D2.style]; rfl
      · have := m1 d.len rfl
        rw [g5, if_pos rfl] at this; cases this

/-- Any number of pieces: the result only depends on their concatenation. -/
theorem C12_pieces {d : Doc} (hd : Reachable d) {p : NodeId} (hp : p < d.len) (t : Text)
    (ts : List Text) :
    (t :: ts).foldlM (fun d t => d.sinkAppend p (.text t)) d =
      d.sinkAppend p (.text (t :: ts).flatten) := by
  induction ts generalizing d t with
  | nil => simp [List.foldlM_cons]
  | cons u us ih =>
    have key : (t :: u :: us).foldlM (fun d t => d.sinkAppend p (.text t)) d =
        ((d.sinkAppend p (.text t)).bind fun d => (u :: us).foldlM
          (fun d t => d.sinkAppend p (.text t)) d) := by
      simp only [List.foldlM_cons]; rfl
    rw [key]
    have hleg : (SinkOp.append p (.text t)).Legal d := hp
    obtain ⟨d1, e1⟩ := C09_total hd hleg
    have e1' : d.sinkAppend p (.text t) = .ok d1 := e1
    have hr1 := Reachable.step hd hleg e1
    obtain ⟨kids, h⟩ := hd.inv
    have hl1 : p < d1.len := by
      obtain ⟨d', q1, q2⟩ := h.sinkAppendText hp t
      rw [e1'] at q1; cases q1
      rcases q2 with ⟨_, _, _, _, _, q, _⟩ | ⟨_, _, _, q, _⟩
      · rw [q]; exact hp
      · rw [q]; exact Nat.lt_succ_of_lt hp
    rw [e1']
    show (u :: us).foldlM (fun d t => d.sinkAppend p (.text t)) d1 = _
    rw [ih hr1 hl1]
    have := C12_append hd hp t (u :: us).flatten
    rw [e1'] at this
    rw [List.flatten_cons]
    exact this

/-- The last child of `p` afterwards is a text node which consists of the text that
was there (if the last child was a text node) and the added text; no other node changes. -/
theorem C12_content {d d' : Doc} (hd : Reachable d) {p : NodeId} (hp : p < d.len) (t : Text)
    (hok : d.sinkAppend p (.text t) = .ok d') :
    ∃ id, (d'.node p).lastChild = some id ∧
      (d'.node id).data = .text ((match (d.node p).lastChild with
        | some l => ((d.node l).data.asText).getD []
        | none => []) ++ t) ∧
      ∀ x, x < d.len → x ≠ id → (d'.node x).data = (d.node x).data := by
  obtain ⟨kids, h⟩ := hd.inv
  obtain ⟨d1, e1, c1⟩ := h.sinkAppendText hp t
  rw [hok] at e1; cases e1
  have hlast := h.wf.last p hp
  rcases c1 with ⟨id, t0, g1, g2, g3, g4, g5⟩ | ⟨g1, g2, g3, g4, g5⟩
  · refine ⟨id, ?_, ?_, ?_⟩
    · rw [g5.wf.last p (by rw [g4]; exact hp)]; exact g1
    · rw [hlast, g1, g4]; simp [g2, NodeData.asText]
    · intro x _ hx
      rw [g4]; simp only [Function.update_of_ne hx]
  · refine ⟨d.len, ?_, ?_, ?_⟩
    · rw [g3.wf.last p (by rw [g4]; exact Nat.lt_succ_of_lt hp)]; simp [withLast]
    · rw [g5, if_pos rfl, hlast]
      congr 1
      cases hk : (kids p).getLast? with
      | none => rfl
      | some l =>
        have := g1 l hk
        cases hd : (d.node l).data <;> simp_all [NodeData.isText, NodeData.asText]
    · intro x hx _
      rw [g5, if_neg (Nat.ne_of_lt hx)]

/-- no two neighbouring children are both text -/
def NoAdjacentText (d : Doc) (kids : NodeId → List NodeId) : Prop :=
  ∀ p l1 a b l2, kids p = l1 ++ a :: b :: l2 →
    ¬ ((d.node a).data.isText = true ∧ (d.node b).data.isText = true)

theorem isChain_of_mem {R S : NodeId → NodeId → Prop} : ∀ {l : List NodeId}, l.IsChain R →
    (∀ a b, a ∈ l → b ∈ l → R a b → S a b) → l.IsChain S
  | [], _, _ => List.IsChain.nil
  | [a], _, _ => List.IsChain.singleton a
  | a :: b :: l, h, hrs => by
    rw [List.isChain_cons_cons] at h ⊢
    exact ⟨hrs a b (by simp) (by simp) h.1,
      isChain_of_mem h.2 (fun x y hx hy => hrs x y (by simp [hx]) (by simp [hy]))⟩

theorem noAdjacentText_iff (d : Doc) (kids : NodeId → List NodeId) :
    NoAdjacentText d kids ↔ ∀ p, List.IsChain (fun a b =>
      ¬ ((d.node a).data.isText = true ∧ (d.node b).data.isText = true)) (kids p) := by
  unfold NoAdjacentText
  refine forall_congr' fun p => ?_
  rw [List.isChain_iff_forall_rel_of_append_cons_cons]
  constructor
  · intro h a b l1 l2 e; exact h l1 a b l2 e
  · intro h l1 a b l2 e; exact h e

/-- Appending text never creates two neighbouring text nodes. -/
theorem C12_noAdjacent_append {d d' : Doc} (hd : Reachable d) {kids kids'} (h : d.WF kids)
    (h' : d'.WF kids') {p : NodeId} (hp : p < d.len) (t : Text)
    (hok : d.sinkAppend p (.text t) = .ok d') (hno : NoAdjacentText d kids) :
    NoAdjacentText d' kids' := by
  obtain ⟨kids0, hI⟩ := hd.inv
  obtain rfl := C09_unique h hI.wf
  obtain ⟨d1, e1, c1⟩ := hI.sinkAppendText hp t
  rw [hok] at e1; cases e1
  rw [noAdjacentText_iff] at hno ⊢
  rcases c1 with ⟨id, t0, g1, g2, g3, g4, g5⟩ | ⟨g1, g2, g3, g4, g5⟩
  · obtain rfl := C09_unique g5.wf h'
    have : ∀ x, (d'.node x).data.isText = (d.node x).data.isText := by
      intro x; rw [g4]; simp only [Function.update_apply]; split_ifs with hx
      · subst hx; rw [g2]; rfl
      · rfl
    simp only [this]; exact hno
  · obtain rfl := C09_unique g3.wf h'
    intro q
    have hold : List.IsChain (fun a b =>
        ¬ ((d'.node a).data.isText = true ∧ (d'.node b).data.isText = true)) (kids q) := by
      refine isChain_of_mem (hno q) ?_
      intro a b ha hb hab
      have ha' : a ≠ d.len := Nat.ne_of_lt (h.bound q a ha).2
      have hb' : b ≠ d.len := Nat.ne_of_lt (h.bound q b hb).2
      rw [g5, g5, if_neg ha', if_neg hb']
      exact hab
    unfold withLast
    split_ifs with hq
    · subst hq
      rw [List.isChain_append]
      refine ⟨hold, by simp, ?_⟩
      intro x hx y hy
      have hxl : x ≠ d.len :=
        Nat.ne_of_lt (h.bound q x (List.mem_of_mem_getLast? hx)).2
      have := g1 x hx
      rw [g5, if_neg hxl, this]
      simp
    · exact hold

/-- Inserting text in front of a node that is not text never creates two neighbouring
text nodes. -/
theorem C12_noAdjacent_insert {d d' : Doc} (hd : Reachable d) {kids kids'} (h : d.WF kids)
    (h' : d'.WF kids') {s : NodeId} (hs : s < d.len) (hpar : (d.node s).parent ≠ none)
    (hst : (d.node s).data.isText = false) (t : Text)
    (hok : d.sinkAppendBeforeSibling s (.text t) = .ok d') (hno : NoAdjacentText d kids) :
    NoAdjacentText d' kids' := by
  obtain ⟨kids0, hI⟩ := hd.inv
  obtain rfl := C09_unique h hI.wf
  obtain ⟨d1, e1, c1⟩ := hI.sinkInsertText hs hpar t
  rw [hok] at e1; cases e1
  rw [noAdjacentText_iff] at hno ⊢
  rcases c1 with ⟨id, t0, g1, g2, g3, g4, g5⟩ | ⟨g1, g2, g3, g4, g5⟩
  · obtain rfl := C09_unique g5.wf h'
    have : ∀ x, (d'.node x).data.isText = (d.node x).data.isText := by
      intro x; rw [g4]; simp only [Function.update_apply]; split_ifs with hx
      · subst hx; rw [g2]; rfl
      · rfl
    simp only [this]; exact hno
  · obtain rfl := C09_unique g3.wf h'
    intro q
    have hold : List.IsChain (fun a b =>
        ¬ ((d'.node a).data.isText = true ∧ (d'.node b).data.isText = true)) (kids q) := by
      refine isChain_of_mem (hno q) ?_
      intro a b ha hb hab
      have ha' : a ≠ d.len := Nat.ne_of_lt (h.bound q a ha).2
      have hb' : b ≠ d.len := Nat.ne_of_lt (h.bound q b hb).2
      rw [g5, g5, if_neg ha', if_neg hb']
      exact hab
    unfold withBefore
    by_cases hq : s ∈ kids q
    · obtain ⟨l1, l2, hl⟩ := List.append_of_mem hq
      have hs1 : s ∉ l1 := by
        have hnd := h.nodup q
        rw [hl, List.nodup_append] at hnd
        exact fun hx => hnd.2.2 s hx s (by simp) rfl
      rw [hl, insertIn_mid hs1]
      rw [hl] at hold
      rw [List.isChain_append] at hold ⊢
      have hsl : s ≠ d.len := Nat.ne_of_lt hs
      refine ⟨hold.1, ?_, ?_⟩
      · rw [List.isChain_cons_cons]
        refine ⟨?_, hold.2.1⟩
        rw [g5 s, if_neg hsl, hst]; simp
      · intro x hx y hy
        have hpv := (h.mid hl).1
        have hx' : (d.node s).previousSibling = some x := by rw [hpv]; exact hx
        have hxl : x ≠ d.len := Nat.ne_of_lt (h.bound q x (by
          rw [hl]; simp [List.mem_of_mem_getLast? hx])).2
        rw [g5, if_neg hxl, g1 x hx']
        simp
    · rw [insertIn_not_mem hq]; exact hold

/-- Adding text leaves every element as it was. -/
theorem C12_elements {d d' : Doc} (hd : Reachable d) {p : NodeId} (hp : p < d.len) (t : Text)
    (hok : d.sinkAppend p (.text t) = .ok d') {x : NodeId} (hx : x < d.len) :
    (d'.node x).data.asElement = (d.node x).data.asElement := by
  obtain ⟨kids, h⟩ := hd.inv
  obtain ⟨d1, e1, c1⟩ := h.sinkAppendText hp t
  rw [hok] at e1; cases e1
  rcases c1 with ⟨id, t0, g1, g2, g3, g4, g5⟩ | ⟨g1, g2, g3, g4, g5⟩
  · rw [g4]; simp only [Function.update_apply]; split_ifs with he
    · subst he; rw [g2]; rfl
    · rfl
  · rw [g5, if_neg (Nat.ne_of_lt hx)]

/-- three pieces, one node -/
example : ((([.createElement pName [], .append 2 (.text "a".toList), .append 2 (.text "b ".toList),
      .append 2 (.text "c".toList)] : List SinkOp).foldlM sinkStep Doc.new).map fun d =>
      [(d.node 2).firstChild, (d.node 2).lastChild]) = .ok [some 3, some 3] ∧
    ((([.createElement pName [], .append 2 (.text "a".toList), .append 2 (.text "b ".toList),
      .append 2 (.text "c".toList)] : List SinkOp).foldlM sinkStep Doc.new).map fun d =>
      (d.node 3).data) = .ok (.text "ab c".toList) := by decide +kernel

/-! ## C13 -/

/-- Merging: the old attributes stay in front, unchanged; of the new ones exactly those
with a name not present are added, in order and unchanged. -/
theorem C13_merge (old new : List Attribute) :
    ∃ added, mergeAttrs old new = old ++ added ∧ added.Sublist new ∧
      (∀ a ∈ new, a ∈ added ↔ ∀ b ∈ old, b.name ≠ a.name) := by
  refine ⟨_, rfl, List.filter_sublist, ?_⟩
  intro a ha
  simp [List.mem_filter, ha]

/-- No name occurs twice afterwards if none did in either list. -/
theorem C13_nodup (old new : List Attribute) (h1 : (old.map (·.name)).Nodup)
    (h2 : (new.map (·.name)).Nodup) : ((mergeAttrs old new).map (·.name)).Nodup := by
  simp only [mergeAttrs, List.map_append]
  rw [List.nodup_append]
  refine ⟨h1, h2.sublist (List.filter_sublist.map _), ?_⟩
  intro a ha b hb e
  subst e
  simp only [List.mem_map, List.mem_filter] at hb ha
  obtain ⟨x, ⟨_, hx⟩, rfl⟩ := hb
  obtain ⟨y, hy, hyn⟩ := ha
  simp at hx
  exact hx y hy hyn

/-- Looking up an attribute that was present gives the old value, otherwise the new one. -/
theorem C13_lookup (e : ElementData) (new : List Attribute) (name : String) :
    (⟨e.name, mergeAttrs e.attrs new⟩ : ElementData).getAttr name =
      (e.getAttr name).or ((⟨e.name, new.filter (fun a => e.attrs.all (fun b => b.name ≠ a.name))⟩ :
        ElementData).getAttr name) := by
  simp only [ElementData.getAttr, mergeAttrs, List.find?_append]
  have : (fun a : Attribute => !(List.map (fun x => x.name) e.attrs).contains a.name) =
      fun a => e.attrs.all (fun b => b.name ≠ a.name) := by
    funext a
    induction e.attrs with
    | nil => rfl
    | cons b l ih =>
      simp only [List.map_cons, List.contains_cons, List.all_cons, Bool.not_or, ih]
      congr 1
      by_cases hb : b.name = a.name
      · simp [hb]
      · simp [hb, Ne.symm hb]
  rw [this]
  cases e.attrs.find? _ <;> simp

/-- The call changes the attributes of its target in this way and nothing else. -/
theorem C13_document {d : Doc} {t : NodeId} (ht : t < d.len) {e : ElementData}
    (he : (d.node t).data = .element e) (new : List Attribute) :
    ∃ d', d.sinkAddAttrs t new = .ok d' ∧
      (d'.node t).data = .element ⟨e.name, mergeAttrs e.attrs new⟩ ∧
      (∀ x, x ≠ t → d'.node x = d.node x) ∧
      (∀ kids, d.WF kids → d'.WF kids) := by
  obtain ⟨d', h1, h2, h3, h4, h5⟩ := modify_data d t ht (.element ⟨e.name, mergeAttrs e.attrs new⟩)
  refine ⟨d', ?_, by rw [h4, if_pos rfl], ?_, fun kids hk => hk.of_links h2 h5⟩
  · simp only [sinkAddAttrs]
    rw [get_ok d t ht]
    simp only [bind, Except.bind, he]
    exact h1
  · intro x hx
    obtain ⟨q1, q2, q3, q4, q5⟩ := h5 x
    exact node_ext q1 q2 q3 q4 q5 (by rw [h4, if_neg hx])

example : mergeAttrs [⟨⟨none, "", "class"⟩, "a".toList⟩]
    [⟨⟨none, "", "class"⟩, "b".toList⟩, ⟨⟨none, "", "id"⟩, "c".toList⟩]
    = [⟨⟨none, "", "class"⟩, "a".toList⟩, ⟨⟨none, "", "id"⟩, "c".toList⟩] := by decide

/-! ## C14 -/

/-- The full claim: all children are moved, in order. -/
def C14_full : Prop :=
  ∀ (d : Doc) (kids : NodeId → List NodeId) (n p : NodeId), Reachable d → d.WF kids →
    n < d.len → p < d.len → ¬ d.Anc n p →
    ∃ d' kids', d.sinkReparentChildren d.len n p = .ok d' ∧ d'.WF kids' ∧
      kids' n = [] ∧ kids' p = kids p ++ kids n

/-- What happens: only the first child is moved. -/
theorem C14_first {d : Doc} (hd : Reachable d) {kids} (h : d.WF kids) {n p : NodeId}
    (hn : n < d.len) (hp : p < d.len) (hanc : ¬ d.Anc n p) {c : NodeId} {cs : List NodeId}
    (hk : kids n = c :: cs) :
    ∃ d' kids', d.sinkReparentChildren d.len n p = .ok d' ∧ d'.WF kids' ∧
      kids' n = cs ∧ kids' p = kids p ++ [c] ∧ (∀ q, q ≠ n → q ≠ p → kids' q = kids q) := by
  obtain ⟨kids0, hI⟩ := hd.inv
  obtain rfl := C09_unique h hI.wf
  obtain ⟨m, hm⟩ : ∃ m, d.len = m + 1 := ⟨d.len - 1, by have := hI.two; omega⟩
  obtain ⟨d', e1, e2, _⟩ := hI.reparent m hn hp hanc (fun c hc => by
    rintro rfl
    have := h.parent_of_mem hc
    rw [hI.root] at this; cases this)
  rw [hk] at e2
  have hnp : n ≠ p := by rintro rfl; exact hanc (Anc.refl _ _)
  have hcm : c ∈ kids n := by rw [hk]; simp
  have hcn : ∀ q, q ≠ n → without kids c q = kids q := fun q hq =>
    filter_ne_of_not_mem (fun hx => hq (h.unique hx hcm))
  have hnd := h.nodup n
  rw [hk, List.nodup_cons] at hnd
  refine ⟨d', _, by rw [hm]; exact e1, e2.wf, ?_, ?_, ?_⟩
  · simp only [withLast, if_neg hnp, without, hk]
    rw [List.filter_cons_of_neg (by simp)]
    exact filter_ne_of_not_mem hnd.1
  · simp only [withLast, if_true]
    rw [hcn p hnp.symm]
  · intro q h1 h2
    simp only [withLast, if_neg h2]
    exact hcn q h1

/-- The claim holds for at most one child.  Missing: two or more children, for which it
is false (`C14_full_false`). -/
theorem C14_reparent_partial {d : Doc} (hd : Reachable d) {kids} (h : d.WF kids) {n p : NodeId}
    (hn : n < d.len) (hp : p < d.len) (hanc : ¬ d.Anc n p) (h1 : (kids n).length ≤ 1) :
    ∃ d' kids', d.sinkReparentChildren d.len n p = .ok d' ∧ d'.WF kids' ∧
      kids' n = [] ∧ kids' p = kids p ++ kids n := by
  cases hk : kids n with
  | nil =>
    refine ⟨d, kids, ?_, h, hk, by simp⟩
    simp only [sinkReparentChildren]
    rw [get_ok d n hn]
    simp only [bind, Except.bind]
    rw [h.first n hn, hk]
    cases d.len <;> rfl
  | cons c cs =>
    rw [hk] at h1
    obtain rfl : cs = [] := by simpa using h1
    obtain ⟨d', kids', e1, e2, e3, e4, _⟩ := C14_first hd h hn hp hanc hk
    exact ⟨d', kids', e1, e2, e3, e4⟩

theorem not_anc_of_orphan {d : Doc} {a x : NodeId} (h : (d.node x).parent = none) (hne : x ≠ a) :
    ¬ d.Anc a x := by
  intro ha
  rcases Relation.ReflTransGen.cases_head ha with e | ⟨y, hy, _⟩
  · exact hne e
  · rw [hy.2] at h; cases h

/-- comments 2, 3, 4, 5 with 4 and 5 below 2 -/
private theorem reparentWitness : ∃ d kids, Reachable d ∧ d.WF kids ∧ d.len = 6 ∧
    (d.node 3).parent = none ∧ kids 2 = [4, 5] := by
  have r0 := Reachable.new
  have r1 := Reachable.step (op := .createComment []) r0 trivial rfl
  have r2 := Reachable.step (op := .createComment []) r1 trivial rfl
  have r3 := Reachable.step (op := .createComment []) r2 trivial rfl
  have r4 := Reachable.step (op := .createComment []) r3 trivial rfl
  obtain ⟨k4, i4⟩ := r4.inv
  obtain rfl := C09_unique i4.wf
    (((((WF_new).newNode (.comment [])).newNode (.comment [])).newNode (.comment [])).newNode
      (.comment []))
  generalize hd4 : (newNode _ (NodeData.comment [])).1 = d4 at r4 i4
  have hlen : d4.len = 6 := by rw [← hd4]; rfl
  have hpar : ∀ x, (d4.node x).parent = none := by
    intro x; rw [← hd4]
    simp only [newNode_node, Doc.new, Node.new]
    split_ifs <;> rfl
  have a1 : ¬ d4.Anc 4 2 := not_anc_of_orphan (hpar 2) (by decide)
  obtain ⟨d5, e5, l5, s5, dt5, p5, w5⟩ := i4.wf.append (p := 2) (c := 4) (by rw [hlen]; decide)
    (by rw [hlen]; decide) a1
  have r5 := Reachable.step (op := .append 2 (.node 4)) r4
    ⟨by rw [hlen]; decide, by rw [hlen]; decide, by decide, a1⟩ e5
  have a2 : ¬ d5.Anc 5 2 := not_anc_of_orphan (by rw [p5, if_neg (by decide)]; exact hpar 2) (by decide)
  obtain ⟨d6, e6, l6, s6, dt6, p6, w6⟩ := w5.append (p := 2) (c := 5) (by rw [l5, hlen]; decide)
    (by rw [l5, hlen]; decide) a2
  have r6 := Reachable.step (op := .append 2 (.node 5)) r5
    ⟨by rw [l5, hlen]; decide, by rw [l5, hlen]; decide, by decide, a2⟩ e6
  refine ⟨d6, _, r6, w6, by rw [l6, l5, hlen], ?_, ?_⟩
  · rw [p6, if_neg (by decide), p5, if_neg (by decide)]; exact hpar 3
  · simp [withLast, without]

/-- The full claim is false: with two children the second one stays where it was. -/
theorem C14_full_false : ¬ C14_full := by
  intro hfull
  obtain ⟨d, kids, hr, hw, hlen, hpar, hk⟩ := reparentWitness
  have hanc : ¬ d.Anc 2 3 := not_anc_of_orphan hpar (by decide)
  have hn : (2 : NodeId) < d.len := by rw [hlen]; decide
  have hp : (3 : NodeId) < d.len := by rw [hlen]; decide
  obtain ⟨d1, k1, e1, w1, q1, _⟩ := hfull d kids 2 3 hr hw hn hp hanc
  obtain ⟨d2, k2, e2, w2, q2, _⟩ := C14_first hr hw hn hp hanc hk
  rw [e1] at e2; cases e2
  obtain rfl := C09_unique w1 w2
  rw [q1] at q2; cases q2

example : ((([.createComment [], .createComment [], .createComment [], .createComment [],
      .append 2 (.node 4), .append 2 (.node 5), .reparentChildren 2 3] :
      List SinkOp).foldlM sinkStep Doc.new).map fun d =>
      [(d.node 2).firstChild, (d.node 3).firstChild, (d.node 3).lastChild])
    = .ok [some 5, some 4, some 4] := by decide +kernel

/-! ## C15 -/

/-- the `type` attribute allows CSS -/
def cssType : Option Text → Bool
  | none => true
  | some t => t.map Char.toLower = "text/css".toList

/-- ids, in creation order, of the HTML style elements with an acceptable type -/
def cssStyleElements (d : Doc) : List NodeId :=
  (List.range d.len).filter fun i => match (d.node i).data with
    | .element e => decide (e.name.ns = nsHtml ∧ e.name.localName = "style") && cssType (e.getAttr "type")
    | _ => false

/-- concatenation of the text children -/
def textOf (d : Doc) (kids : NodeId → List NodeId) (n : NodeId) : Text :=
  (kids n).flatMap fun c => match (d.node c).data with
    | .text t => t
    | _ => []

/-- The style sheets of a document are the argument of the caller followed by the texts
of the CSS style elements in creation order. -/
theorem C15_sheets {d : Doc} (hd : Reachable d) {kids} (h : d.WF kids) (css : Option Text)
    {fuel : Nat} (hf : d.len ≤ fuel) :
    d.stylesheetTexts fuel css = .ok (css.toList ++ (cssStyleElements d).map (textOf d kids)) := by
  obtain ⟨kids0, hI⟩ := hd.inv
  obtain rfl := C09_unique h hI.wf
  have key : ∀ ids : List NodeId, (∀ i ∈ ids, i < d.len ∧ isStyleData (d.node i).data = true) →
      d.styleTexts fuel ids = .ok ((ids.filter fun i => match (d.node i).data with
        | .element e => cssType (e.getAttr "type")
        | _ => false).map (textOf d kids)) := by
    intro ids
    induction ids with
    | nil => intro _; rfl
    | cons i ids ih =>
      intro hids
      obtain ⟨hi, hs⟩ := hids i (by simp)
      have ih' := ih (fun x hx => hids x (by simp [hx]))
      have htext : d.childTextContent fuel i = .ok (textOf d kids i) := by
        simp only [childTextContent]
        rw [get_ok d i hi]
        simp only [bind, Except.bind]
        rw [h.first i hi, h.childText i (kids i) [] [] (by simp) fuel
          (le_trans (h.kids_length i) hf)]
        rfl
      simp only [styleTexts]
      rw [get_ok d i hi]
      simp only [bind, Except.bind]
      cases hdata : (d.node i).data with
      | element e =>
        simp only [List.filter_cons, hdata]
        cases hty : e.getAttr "type" with
        | none =>
          simp only [cssType, htext, ih', pure, Except.pure]
          rfl
        | some ty =>
          have : eqIgnoreAsciiCase ty "text/css".toList = cssType (some ty) := by
            simp only [eqIgnoreAsciiCase, cssType]
            rfl
          simp only [this]
          cases hc : cssType (some ty)
          · simpa using ih'
          · simp only [htext, ih', pure, Except.pure]
            rfl
      | _ => rw [hdata] at hs; cases hs
  simp only [stylesheetTexts]
  rw [hI.style, key _ (by
    intro i hi
    simp only [List.mem_filter, List.mem_range] at hi
    exact hi)]
  simp only [bind, Except.bind, pure, Except.pure]
  congr 3
  rw [List.filter_filter]
  unfold cssStyleElements
  apply List.filter_congr
  intro i _
  cases hdata : (d.node i).data <;> simp [isStyleData, isStyle, Bool.and_comm]

private def styleName : QualName := ⟨none, nsHtml, "style"⟩
private def typeAttr (s : String) : Attribute := ⟨⟨none, "", "type"⟩, s.toList⟩

/-- a Less sheet is left out, the other two count in creation order, after the argument -/
example : (([.createElement styleName [typeAttr "TEXT/css"], .createElement styleName [typeAttr "text/less"],
      .createElement styleName [], .append 4 (.text "c".toList), .append 3 (.text "b".toList),
      .append 2 (.text "a".toList)] : List SinkOp).foldlM sinkStep Doc.new).bind
      (fun d => d.stylesheetTexts 9 (some "u".toList))
    = .ok ["u".toList, "a".toList, "c".toList] := by decide +kernel

/-! ## C31 -/

/-- is this node an element? -/
def isElem (d : Doc) (x : NodeId) : Bool := (d.node x).data.asElement.isSome

/-- The next element is the first element among the later siblings. -/
theorem C31_next {d : Doc} {kids} (h : d.WF kids) {p n : NodeId} {l1 l2 : List NodeId}
    (hk : kids p = l1 ++ n :: l2) {fuel : Nat} (hf : d.len ≤ fuel) :
    d.nextSiblingElement fuel n = .ok (l2.find? (isElem d)) := by
  have hn := (h.bound p n (by rw [hk]; simp)).2
  simp only [nextSiblingElement]
  rw [get_ok d n hn]
  simp only [bind, Except.bind]
  rw [(h.mid hk).2]
  have := h.kids_length p
  rw [hk] at this
  simp at this
  exact h.findElement p l2 (l1 ++ [n]) (by rw [hk]; simp) fuel (by omega)

/-- The previous element is the last element among the earlier siblings. -/
theorem C31_prev {d : Doc} {kids} (h : d.WF kids) {p n : NodeId} {l1 l2 : List NodeId}
    (hk : kids p = l1 ++ n :: l2) {fuel : Nat} (hf : d.len ≤ fuel) :
    d.prevSiblingElement fuel n = .ok (l1.reverse.find? (isElem d)) := by
  have hn := (h.bound p n (by rw [hk]; simp)).2
  simp only [prevSiblingElement]
  rw [get_ok d n hn]
  simp only [bind, Except.bind]
  rw [(h.mid hk).1]
  have := h.kids_length p
  rw [hk] at this
  simp at this
  have := h.findElementBack p l1.reverse (n :: l2) (by rw [hk]; simp) fuel (by simp; omega)
  rw [List.head?_reverse] at this
  exact this

/-- Nodes without parent have no sibling elements. -/
theorem C31_orphan {d : Doc} {kids} (h : d.WF kids) {n : NodeId} (hn : n < d.len)
    (hp : (d.node n).parent = none) (fuel : Nat) :
    d.nextSiblingElement fuel n = .ok none ∧ d.prevSiblingElement fuel n = .ok none ∧
      d.parentElement n = .ok none := by
  obtain ⟨h1, h2⟩ := h.orphan n hn hp
  simp only [nextSiblingElement, prevSiblingElement, parentElement]
  rw [get_ok d n hn]
  simp only [bind, Except.bind, h1, h2, hp]
  cases fuel <;> exact ⟨rfl, rfl, rfl⟩

/-- Between elements, "next element" and "previous element" are mutually inverse. -/
theorem C31_inverse {d : Doc} {kids} (h : d.WF kids) {a b : NodeId} (ha : a < d.len)
    (hb : b < d.len) (ea : isElem d a = true) (eb : isElem d b = true) {fuel : Nat}
    (hf : d.len ≤ fuel) :
    d.nextSiblingElement fuel a = .ok (some b) ↔ d.prevSiblingElement fuel b = .ok (some a) := by
  constructor
  · intro hn
    cases hp : (d.node a).parent with
    | none => rw [(C31_orphan h ha hp fuel).1] at hn; cases hn
    | some p =>
      obtain ⟨l1, l2, hl⟩ := List.append_of_mem (h.mem_of_parent ha hp)
      rw [C31_next h hl hf] at hn
      have hn' : l2.find? (isElem d) = some b := Except.ok.inj hn
      obtain ⟨_, m1, m2, e, hno⟩ := List.find?_eq_some_iff_append.1 hn'
      have hl' : kids p = (l1 ++ a :: m1) ++ b :: m2 := by rw [hl, e]; simp
      rw [C31_prev h hl' hf]
      congr 1
      simp only [List.reverse_append, List.reverse_cons, List.find?_append]
      have : m1.reverse.find? (isElem d) = none := by
        rw [List.find?_eq_none]; intro x hx; simpa using hno x (by simpa using hx)
      simp [this, ea]
  · intro hn
    cases hp : (d.node b).parent with
    | none => rw [(C31_orphan h hb hp fuel).2.1] at hn; cases hn
    | some p =>
      obtain ⟨l1, l2, hl⟩ := List.append_of_mem (h.mem_of_parent hb hp)
      rw [C31_prev h hl hf] at hn
      have hn' : l1.reverse.find? (isElem d) = some a := Except.ok.inj hn
      obtain ⟨_, m1, m2, e, hno⟩ := List.find?_eq_some_iff_append.1 hn'
      have e' : l1 = m2.reverse ++ a :: m1.reverse := by
        have := congrArg List.reverse e
        simpa using this
      have hl' : kids p = m2.reverse ++ a :: (m1.reverse ++ b :: l2) := by rw [hl, e']; simp
      rw [C31_next h hl' hf]
      congr 1
      rw [List.find?_append]
      have : m1.reverse.find? (isElem d) = none := by
        rw [List.find?_eq_none]; intro x hx; simpa using hno x (by simpa using hx)
      simp [this, eb]

/-- The parent element is the parent, provided that is an element; the root is exactly
an element whose parent is not an element. -/
theorem C31_parent {d : Doc} {kids} (h : d.WF kids) {n : NodeId} (hn : n < d.len) :
    (∀ p, d.parentElement n = .ok (some p) ↔ n ∈ kids p ∧ isElem d p = true) ∧
    (d.isRoot n = .ok true ↔ ∀ p, n ∈ kids p → isElem d p = false) ∧
    (d.isRoot n = .ok false ↔ ∃ p, n ∈ kids p ∧ isElem d p = true) := by
  cases hp : (d.node n).parent with
  | none =>
    have hno : ∀ p, n ∉ kids p := fun p hm => by
      rw [h.parent_of_mem hm] at hp; cases hp
    have hpe : d.parentElement n = .ok none := by
      simp only [parentElement]; rw [get_ok d n hn]; simp only [bind, Except.bind, hp]; rfl
    have hr : d.isRoot n = .ok true := by
      simp only [isRoot, hpe, bind, Except.bind]; rfl
    refine ⟨fun p => ?_, ?_, ?_⟩
    · rw [hpe]; simp [hno]
    · rw [hr]; simp [hno]
    · rw [hr]; simp [hno]
  | some q =>
    have hm := h.mem_of_parent hn hp
    have hq := h.parBound n q hn hp
    have huniq : ∀ p, n ∈ kids p → p = q := fun p hx => h.unique hx hm
    by_cases he : isElem d q = true
    · have hpe : d.parentElement n = .ok (some q) := by
        simp only [parentElement]; rw [get_ok d n hn]; simp only [bind, Except.bind, hp]
        rw [get_ok d q hq]
        simp only
        rw [if_pos (by exact he)]; rfl
      have hr : d.isRoot n = .ok false := by
        simp only [isRoot, hpe, bind, Except.bind]; rfl
      refine ⟨fun p => ?_, ?_, ?_⟩
      · rw [hpe]
        constructor
        · intro e; cases e; exact ⟨hm, he⟩
        · rintro ⟨h1, _⟩; rw [huniq p h1]
      · rw [hr]
        constructor
        · intro e; cases e
        · intro hh; rw [hh q hm] at he; cases he
      · rw [hr]; simp; exact ⟨q, hm, he⟩
    · have hpe : d.parentElement n = .ok none := by
        simp only [parentElement]; rw [get_ok d n hn]; simp only [bind, Except.bind, hp]
        rw [get_ok d q hq]
        simp only
        rw [if_neg (by exact he)]; rfl
      have hr : d.isRoot n = .ok true := by
        simp only [isRoot, hpe, bind, Except.bind]; rfl
      have he' : isElem d q = false := by simpa using he
      refine ⟨fun p => ?_, ?_, ?_⟩
      · rw [hpe]
        constructor
        · intro e; cases e
        · rintro ⟨h1, h2⟩; rw [huniq p h1, he'] at h2; cases h2
      · rw [hr]
        simp only [true_iff]
        intro p hx; rw [huniq p hx]; exact he'
      · rw [hr]
        constructor
        · intro e; cases e
        · rintro ⟨p, h1, h2⟩; rw [huniq p h1, he'] at h2; cases h2

/-- `:empty` holds exactly without element children and non-empty text children. -/
theorem C31_empty {d : Doc} {kids} (h : d.WF kids) {n : NodeId} (hn : n < d.len) {fuel : Nat}
    (hf : d.len ≤ fuel) :
    ∃ b, d.isEmpty fuel n = .ok b ∧
      (b = true ↔ ∀ c ∈ kids n, isElem d c = false ∧ ∀ t, (d.node c).data = .text t → t = []) := by
  simp only [Doc.isEmpty]
  rw [get_ok d n hn]
  simp only [bind, Except.bind]
  rw [h.first n hn, h.isEmptyLoop n (kids n) [] (by simp) fuel (le_trans (h.kids_length n) hf)]
  refine ⟨_, rfl, ?_⟩
  rw [List.all_eq_true]
  refine forall₂_congr fun c _ => ?_
  unfold isElem
  cases hd : (d.node c).data <;> simp [NodeData.asElement]

/-- siblings: element, text, element, comment -/
example : (([.createElement pName [], .createElement pName [], .append 2 (.node 3),
      .append 2 (.text "x".toList), .createElement pName [], .append 2 (.node 5), .createComment [],
      .append 2 (.node 6)] : List SinkOp).foldlM sinkStep Doc.new).bind (fun d => do
        return [← d.nextSiblingElement 9 3, ← d.prevSiblingElement 9 5, ← d.nextSiblingElement 9 5,
          ← d.parentElement 5, ← d.parentElement 2])
    = .ok [some 5, some 3, none, some 2, none] := by decide +kernel

end Sinab
