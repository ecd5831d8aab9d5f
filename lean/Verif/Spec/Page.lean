import Verif.Spec.Boxes
import Verif.Model.Inline

/-! Small documents for examples and counterexamples: a tree notation, a style sheet with
element selectors, and a check that the links of a concrete document describe a forest. -/

namespace Sinab

/-- a document tree in short notation -/
inductive Tree where
  | text (t : String)
  | comment
  | node (name : String) (children : List Tree)

/-- an HTML name -/
def htmlName (s : String) : QualName := ⟨none, nsHtml, s⟩

mutual

/-- insert a tree as the last child, with the operations of the parser's tree sink -/
def Tree.build (parent : NodeId) : Tree → Doc → Except Panic Doc
  | .text t, d => d.sinkAppend parent (.text t.toList)
  | .comment, d =>
    let (d, n) := d.newNode (.comment [])
    d.sinkAppend parent (.node n)
  | .node name ks, d => do
    let (d, n) := d.createElement (htmlName name) []
    let d ← d.sinkAppend parent (.node n)
    buildAll n ks d

/-- insert trees -/
def buildAll (parent : NodeId) : List Tree → Doc → Except Panic Doc
  | [], d => .ok d
  | t :: ts, d => do
    let d ← t.build parent d
    buildAll parent ts d

end

/-- the document `<html><body>…</body></html>` -/
def pageOf (ts : List Tree) : Doc :=
  match buildAll 1 [.node "html" [.node "body" ts]] Doc.new with
  | .ok d => d
  | .error _ => Doc.new

/-- the sibling list that starts with a node -/
def siblingsFrom (d : Doc) : Nat → Option NodeId → List NodeId
  | 0, _ | _, none => []
  | fuel + 1, some c => c :: siblingsFrom d fuel (d.node c).nextSibling

/-- child lists read off the links -/
def linkedKids (d : Doc) (p : NodeId) : List NodeId :=
  if p < d.len then siblingsFrom d d.len (d.node p).firstChild else []

/-- sibling links of a list agree with the list -/
def segCheck (d : Doc) (pv : Option NodeId) : List NodeId → Bool
  | [] => true
  | c :: l => decide ((d.node c).previousSibling = pv) && decide ((d.node c).nextSibling = l.head?) &&
    segCheck d (some c) l

/-- a check that the links describe the forest `linkedKids`, for documents in which
children come after their parents -/
def forestCheck (d : Doc) : Bool :=
  (List.range d.len).all fun p =>
    let ks := linkedKids d p
    ks.all (fun c => decide (c < d.len)) && decide ks.Nodup &&
    decide ((d.node p).lastChild = ks.getLast?) && decide ((d.node p).firstChild = ks.head?) &&
    segCheck d none ks &&
    (List.range d.len).all (fun c => decide ((d.node c).parent = some p ↔ c ∈ ks)) &&
    (match (d.node p).parent with
      | none => decide ((d.node p).previousSibling = none) && decide ((d.node p).nextSibling = none)
      | some q => decide (q < p))

/-- content of a list of nodes, computed -/
def readContent (C : BoxContext) (kids : NodeId → List NodeId) :
    Nat → Style → List NodeId → Option (List Styled)
  | 0, _, _ => none
  | _ + 1, _, [] => some []
  | fuel + 1, st, i :: l => do
    let cs ← readContent C kids fuel st l
    match (C.doc.node i).data with
    | .text t => return .text st t :: cs
    | .element e =>
      match C.styleOf i (some st) with
      | .error _ => none
      | .ok s =>
        if e.name.localName = "br" then return .text s ['\n'] :: cs
        else match s.val .display with
          | .none => return .hidden i :: cs
          | .contents => return .contents i (← readContent C kids fuel s (kids i)) :: cs
          | .generatingBox o ins => return .elem i s o ins (← readContent C kids fuel s (kids i)) :: cs
    | _ => return .other :: cs

theorem segCheck_seg {d : Doc} : ∀ {l : List NodeId} {pv}, segCheck d pv l = true → d.Seg pv l none
  | [], _, _ => by simp [Doc.Seg]
  | c :: l, pv, h => by
    simp only [segCheck, Bool.and_eq_true, decide_eq_true_eq] at h
    refine ⟨h.1.1, ?_, segCheck_seg h.2⟩
    rw [h.1.2]; cases l <;> rfl

theorem forestCheck_wf {d : Doc} (h : forestCheck d = true) : d.WF (linkedKids d) := by
  have h' : ∀ p, p < d.len → _ := fun p hp => List.all_eq_true.1 h p (List.mem_range.2 hp)
  simp only [Bool.and_eq_true, decide_eq_true_eq, List.all_eq_true, List.mem_range] at h'
  have hk : ∀ p, ¬ p < d.len → linkedKids d p = [] := fun p hp => by simp [linkedKids, hp]
  refine ⟨?_, ?_, ?_, ?_, ?_, ?_, ?_, ?_, ⟨fun n => n, ?_⟩⟩
  · intro p c hc
    by_cases hp : p < d.len
    · exact ⟨hp, (h' p hp).1.1.1.1.1.1 c hc⟩
    · simp [hk p hp] at hc
  · intro p
    by_cases hp : p < d.len
    · exact (h' p hp).1.1.1.1.1.2
    · simp [hk p hp]
  · intro p c hp hc
    exact (h' p hp).1.2 c hc
  · intro c p hc hpar
    have := (h' c hc).2
    rw [hpar] at this
    simp only [decide_eq_true_eq] at this
    exact Nat.lt_trans this hc
  · intro p hp; exact (h' p hp).1.1.1.2
  · intro p hp; exact (h' p hp).1.1.1.1.2
  · intro p
    by_cases hp : p < d.len
    · exact segCheck_seg (h' p hp).1.1.2
    · simp [hk p hp, Doc.Seg]
  · intro c hc hpar
    have := (h' c hc).2
    rw [hpar] at this
    simpa using this
  · intro c p hc hpar
    have := (h' c hc).2
    rw [hpar] at this
    simpa using this

theorem readContent_shows {C : BoxContext} {kids : NodeId → List NodeId} :
    ∀ {n st l cs}, readContent C kids n st l = some cs → Shows C kids st l cs
  | 0, _, _, _, h => by simp [readContent] at h
  | n + 1, st, [], cs, h => by
    simp only [readContent, Option.some.injEq] at h; subst h; exact .nil
  | n + 1, st, i :: l, cs, h => by
    simp only [readContent, Option.bind_eq_bind, Option.bind_eq_some_iff] at h
    obtain ⟨cs', h1, h⟩ := h
    have ih := readContent_shows h1
    split at h
    · rename_i t ht
      simp at h; subst h; exact .text ht ih
    · rename_i e he
      split at h
      · simp at h
      · rename_i s hs
        split at h
        · rename_i hb
          simp at h; subst h; exact .br he hb hs ih
        · rename_i hb
          split at h
          · rename_i hd
            simp at h; subst h; exact .hidden he hb hs hd ih
          · rename_i hd
            simp only [Option.bind_eq_some_iff] at h
            obtain ⟨ks, h2, h⟩ := h
            simp at h; subst h
            exact .contents he hb hs hd (readContent_shows h2) ih
          · rename_i o ins hd
            simp only [Option.bind_eq_some_iff] at h
            obtain ⟨ks, h2, h⟩ := h
            simp at h; subst h
            exact .elem he hb hs hd (readContent_shows h2) ih
    · rename_i h1 h2
      simp at h; subst h
      refine .other ?_ ih
      constructor
      · generalize hdd : (C.doc.node i).data = dd at *
        cases dd <;> simp_all [NodeData.asText]
      · generalize hdd : (C.doc.node i).data = dd at *
        cases dd <;> simp_all [NodeData.asElement]

mutual

/-- comparison of content -/
def Styled.same : Styled → Styled → Bool
  | .other, .other => true
  | .text s t, .text s' t' => decide (s = s' ∧ t = t')
  | .hidden i, .hidden i' => decide (i = i')
  | .contents i ks, .contents i' ks' => decide (i = i') && sameAll ks ks'
  | .elem i s o ins ks, .elem i' s' o' ins' ks' =>
    decide (i = i' ∧ s = s' ∧ o = o' ∧ ins = ins') && sameAll ks ks'
  | _, _ => false

/-- comparison of lists of content -/
def sameAll : List Styled → List Styled → Bool
  | [], [] => true
  | c :: cs, c' :: cs' => c.same c' && sameAll cs cs'
  | _, _ => false

end

mutual

theorem Styled.same_eq : ∀ (a b : Styled), a.same b = true → a = b
  | .other, b, h => by cases b <;> simp_all [Styled.same]
  | .text s t, b, h => by cases b <;> simp_all [Styled.same]
  | .hidden i, b, h => by cases b <;> simp_all [Styled.same]
  | .contents i ks, b, h => by
    cases b <;> simp_all [Styled.same]
    exact sameAll_eq _ _ h.2
  | .elem i s o ins ks, b, h => by
    cases b <;> simp_all [Styled.same]
    exact sameAll_eq _ _ h.2

theorem sameAll_eq : ∀ (a b : List Styled), sameAll a b = true → a = b
  | [], b, h => by cases b <;> simp_all [sameAll]
  | c :: cs, b, h => by
    cases b with
    | nil => simp [sameAll] at h
    | cons c' cs' =>
      simp only [sameAll, Bool.and_eq_true] at h
      rw [Styled.same_eq _ _ h.1, sameAll_eq _ _ h.2]

end

/-! ### A style sheet -/

/-- selectors by element name -/
def nameEngine : SelectorEngine where
  Sel := String
  specificity _ := 1
  matches_ s d n := .ok (match (d.node n).data with
    | .element e => e.name.localName = s
    | _ => false)

/-- a normal declaration of a longhand other than `font-size` and `color` -/
def Block.one (d : Decl) : Block := ⟨[d], [false], ⟨false, false⟩, ⟨false, true⟩⟩

/-- a style sheet: the rules of the user agent style sheet for the elements in examples,
and `<block>`, `<contents>`, `<prewrap>`, `<preline>`, `<abs>`, `<float>` elements for
declarations that an author could make -/
def nameSheet : StyleSet nameEngine where
  rules :=
    [("html", .one (.value .display (.generatingBox .block .flow))),
     ("body", .one (.value .display (.generatingBox .block .flow))),
     ("p", .one (.value .display (.generatingBox .block .flow))),
     ("div", .one (.value .display (.generatingBox .block .flow))),
     ("br", ⟨[.value .whiteSpace .pre], [true], ⟨false, true⟩, ⟨false, false⟩⟩),
     ("script", .one (.value .display .none)),
     ("pre", .one (.value .display (.generatingBox .block .flow))),
     ("pre", .one (.value .whiteSpace .pre)),
     ("contents", .one (.value .display .contents)),
     ("prewrap", .one (.value .whiteSpace .preWrap)),
     ("preline", .one (.value .whiteSpace .preLine)),
     ("abs", .one (.value .position .absolute)),
     ("float", .one (.value .float .left)),
     ("pin", .one (.value .position .absolute)),
     ("pin", .one (.value .left (.length (.absolute 7))))]

/-- the context in which the boxes of a document are constructed -/
def pageContext (d : Doc) : BoxContext :=
  .of (S := nameEngine) ⟨fun _ => none, fun _ => none, fun _ _ => none⟩ (fun _ => []) nameSheet ⟨[]⟩ d
    ⟨fun st => ⟨st.val .fontSize, 12, 4, 4, GCtx.new⟩, fun _ t => 10 * t.length⟩

theorem page_font (d d' : Doc) : (pageContext d).fontOf = (pageContext d').fontOf := rfl

/-- the style of the body of a page -/
def pageStyle (d : Doc) : Style :=
  match (pageContext d).styleOf 2 none with
  | .ok s => match (pageContext d).styleOf 3 (some s) with
    | .ok s => s
    | .error _ => s
  | .error _ => Style.initial

/-- the content of the body of a page -/
def pageContent (d : Doc) : List Styled :=
  (readContent (pageContext d) (linkedKids d) 40 (pageStyle d) (linkedKids d 3)).getD []

/-- the boxes of the body of a page -/
def pageBoxes (d : Doc) : Except Panic (BlockContainer × Bool × LayoutData) :=
  constructContainer (pageContext d) 40 (pageStyle d) 3 LayoutData.fresh

/-- the text directly in the body of a page, as far as it reaches the boxes -/
def pageText (d : Doc) : Except Panic Text :=
  (pageBoxes d).map fun r => r.1.ownText

/-- a page is a forest, and its content can be read -/
def pageCheck (d : Doc) : Bool :=
  forestCheck d && decide (3 < d.len) &&
    (readContent (pageContext d) (linkedKids d) 40 (pageStyle d) (linkedKids d 3)).isSome

theorem pageCheck_wf {d : Doc} (h : pageCheck d = true) : (pageContext d).doc.WF (linkedKids d) :=
  forestCheck_wf (by simp only [pageCheck, Bool.and_eq_true] at h; exact h.1.1)

theorem pageCheck_len {d : Doc} (h : pageCheck d = true) : 3 < (pageContext d).doc.len := by
  simp only [pageCheck, Bool.and_eq_true, decide_eq_true_eq] at h; exact h.1.2

theorem pageCheck_shows {d : Doc} (h : pageCheck d = true) :
    Shows (pageContext d) (linkedKids d) (pageStyle d) (linkedKids d 3) (pageContent d) := by
  simp only [pageCheck, Bool.and_eq_true] at h
  obtain ⟨cs, hcs⟩ := Option.isSome_iff_exists.1 h.2
  rw [pageContent, hcs]
  exact readContent_shows hcs

end Sinab
