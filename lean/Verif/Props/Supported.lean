import Verif.Lemmas.PageChars
import Verif.Props.UserAgent
import Verif.Props.Selectors
import Verif.Props.Positioned
import Verif.Props.Construct
import Verif.Spec.SameTree

/-! # Which pages can be rendered: C72 -/

namespace Sinab

open Doc

/-! ## The root element -/

/-- `root` is the only element of the document that is in no other one, and there is no text
beside it -/
def OneRoot (d : Doc) (kids : NodeId → List NodeId) (root : NodeId) : Prop :=
  ∃ a b, kids documentNodeId = a ++ root :: b ∧ IsElement d root ∧
    ∀ x ∈ a ++ b, (d.node x).data.Outside

theorem WF.following {d : Doc} {kids} (h : d.WF kids) (p : NodeId) :
    ∀ (rs l0 : List NodeId) (r : NodeId), kids p = l0 ++ r :: rs → ∀ fuel, rs.length < fuel →
      d.followingSiblings fuel r = .ok (r :: rs) := by
  intro rs
  induction rs with
  | nil =>
    intro l0 r hk fuel hf
    obtain ⟨k, rfl⟩ : ∃ k, fuel = k + 1 := ⟨fuel - 1, by simp at hf; omega⟩
    have hr := (h.bound p r (by rw [hk]; simp)).2
    simp only [followingSiblings]
    rw [get_ok d r hr]
    simp only [bind, Except.bind]
    rw [(h.mid hk).2]
    rfl
  | cons r' rs ih =>
    intro l0 r hk fuel hf
    obtain ⟨k, rfl⟩ : ∃ k, fuel = k + 1 := ⟨fuel - 1, by simp at hf; omega⟩
    have hr := (h.bound p r (by rw [hk]; simp)).2
    simp only [followingSiblings]
    rw [get_ok d r hr]
    simp only [bind, Except.bind]
    rw [(h.mid hk).2]
    simp only [List.head?_cons]
    rw [ih (l0 ++ [r]) r' (by rw [hk]; simp) k (by simp at hf; omega)]
    rfl

theorem rootLoop_iff {d : Doc} : ∀ (cs : List NodeId) (acc : Option NodeId) (root : NodeId),
    (∀ c ∈ cs, c < d.len) →
    (d.rootLoop cs acc = .ok (some root) ↔
      (acc = some root ∧ ∀ x ∈ cs, (d.node x).data.Outside) ∨
      (acc = none ∧ ∃ a b, cs = a ++ root :: b ∧ IsElement d root ∧
        ∀ x ∈ a ++ b, (d.node x).data.Outside))
  | [], acc, root, _ => by simp [rootLoop]
  | c :: cs, acc, root, hl => by
    have ih := fun acc => rootLoop_iff cs acc root fun x hx => hl x (by simp [hx])
    have hout : (d.node c).data.Outside →
        (((acc = some root ∧ ∀ x ∈ cs, (d.node x).data.Outside) ∨
          (acc = none ∧ ∃ a b, cs = a ++ root :: b ∧ IsElement d root ∧
            ∀ x ∈ a ++ b, (d.node x).data.Outside)) ↔
        ((acc = some root ∧ ∀ x ∈ c :: cs, (d.node x).data.Outside) ∨
          (acc = none ∧ ∃ a b, c :: cs = a ++ root :: b ∧ IsElement d root ∧
            ∀ x ∈ a ++ b, (d.node x).data.Outside))) := by
      intro ho
      constructor
      · rintro (⟨h1, h2⟩ | ⟨h1, a, b, h2, h3, h4⟩)
        · exact .inl ⟨h1, by simpa [ho] using h2⟩
        · exact .inr ⟨h1, c :: a, b, by simp [h2], h3, by simpa [ho] using h4⟩
      · rintro (⟨h1, h2⟩ | ⟨h1, a, b, h2, h3, h4⟩)
        · exact .inl ⟨h1, fun x hx => h2 x (by simp [hx])⟩
        · cases a with
          | nil =>
            simp only [List.nil_append, List.cons.injEq] at h2
            obtain ⟨rfl, rfl⟩ := h2
            obtain ⟨e, he⟩ := h3
            rw [ElementAt] at he
            rw [he] at ho
            exact absurd ho id
          | cons a0 a =>
            simp only [List.cons_append, List.cons.injEq] at h2
            obtain ⟨rfl, rfl⟩ := h2
            exact .inr ⟨h1, a, b, rfl, h3, fun x hx => h4 x (by simp at hx ⊢; exact .inr hx)⟩
    have hbad : ¬ (d.node c).data.Outside → ¬ IsElement d c →
        ¬ ((acc = some root ∧ ∀ x ∈ c :: cs, (d.node x).data.Outside) ∨
          (acc = none ∧ ∃ a b, c :: cs = a ++ root :: b ∧ IsElement d root ∧
            ∀ x ∈ a ++ b, (d.node x).data.Outside)) := by
      rintro h1 h2 (⟨_, h⟩ | ⟨_, a, b, h, h3, h4⟩)
      · exact h1 (h c (by simp))
      · cases a with
        | nil =>
          simp only [List.nil_append, List.cons.injEq] at h
          exact h2 (h.1 ▸ h3)
        | cons a0 a =>
          simp only [List.cons_append, List.cons.injEq] at h
          exact h1 (h.1 ▸ h4 a0 (by simp))
    rw [rootLoop, get_ok d c (hl c (by simp))]
    simp only [bind, Except.bind]
    cases hd : (d.node c).data with
    | doctype a b e => rw [← hout (by rw [hd]; trivial)]; exact ih acc
    | comment a => rw [← hout (by rw [hd]; trivial)]; exact ih acc
    | pi a b => rw [← hout (by rw [hd]; trivial)]; exact ih acc
    | document =>
      simp only [reduceCtorEq, false_iff]
      exact hbad (by rw [hd]; exact id) (by rintro ⟨e, he⟩; rw [ElementAt, hd] at he; cases he)
    | text t =>
      simp only [reduceCtorEq, false_iff]
      exact hbad (by rw [hd]; exact id) (by rintro ⟨e, he⟩; rw [ElementAt, hd] at he; cases he)
    | element e =>
      have hc : IsElement d c := ⟨e, hd⟩
      have hno : ¬ (d.node c).data.Outside := by rw [hd]; exact id
      cases acc with
      | some r =>
        simp only [check, Option.isNone, Bool.false_eq_true, if_false, reduceCtorEq, false_iff]
        rintro (⟨_, h⟩ | ⟨h, _⟩)
        · exact hno (h c (by simp))
        · cases h
      | none =>
        simp only [check, Option.isNone, if_true]
        rw [ih (some c)]
        constructor
        · rintro (⟨h1, h2⟩ | ⟨h1, _⟩)
          · cases h1
            exact .inr ⟨by trivial, [], cs, rfl, hc, by simpa using h2⟩
          · cases h1
        · rintro (⟨h1, _⟩ | ⟨_, a, b, h2, h3, h4⟩)
          · cases h1
          · cases a with
            | nil =>
              simp only [List.nil_append, List.cons.injEq] at h2
              obtain ⟨rfl, rfl⟩ := h2
              exact .inl ⟨rfl, by simpa using h4⟩
            | cons a0 a =>
              simp only [List.cons_append, List.cons.injEq] at h2
              exact absurd (h2.1 ▸ h4 a0 (by simp)) hno

/-- which node is the root element -/
theorem rootElement_iff {d : Doc} (hd : Reachable d) {kids} (h : d.WF kids) (root : NodeId) :
    d.rootElement d.len = .ok root ↔ OneRoot d kids root := by
  obtain ⟨kids0, hI⟩ := hd.inv
  obtain rfl := C09_unique h hI.wf
  have ho := h.orphan _ hI.docLt hI.root
  unfold rootElement
  rw [get_ok d _ hI.docLt]
  simp only [bind, Except.bind, check, hI.docNode, hI.root, ho.1, ho.2, decide_true, if_true,
    Option.isNone_none]
  rw [h.first _ hI.docLt]
  cases hk : kids documentNodeId with
  | nil =>
    simp only [List.head?_nil, reduceCtorEq, false_iff]
    rintro ⟨a, b, h1, _⟩
    rw [hk] at h1
    simp at h1
  | cons c cs =>
    simp only [List.head?_cons]
    have hlen : cs.length < d.len := by
      have := h.kids_length documentNodeId
      rw [hk] at this
      simpa [Nat.lt_iff_add_one_le] using this
    rw [WF.following h documentNodeId cs [] c (by simpa using hk) d.len hlen]
    simp only
    have hl : ∀ x ∈ c :: cs, x < d.len := fun x hx => (h.bound documentNodeId x (by rw [hk]; exact hx)).2
    have key := rootLoop_iff (d := d) (c :: cs) none root hl
    simp only [reduceCtorEq, false_and, true_and, false_or] at key
    unfold OneRoot
    rw [hk, ← key]
    cases hr : d.rootLoop (c :: cs) none with
    | error p => simp
    | ok o => cases o <;> simp [pure, Except.pure]

/-! ## Style sheets and attributes that can be read -/

/-- whatever is accepted as the value of a declaration is the whole of it, as for every value
without superfluous tokens at the end (see C16) -/
def Clean (C : CssColors) (items : List RawItem) : Prop :=
  ∀ name ts, .decl name ts ∈ items → ∀ k, Accepted C name (ts.take k) → Accepted C name ts

theorem Clean.parse {C : CssColors} {items : List RawItem} (h : Clean C items) :
    ∃ b, Block.parse C items = .ok b := by
  cases hb : Block.parse C items with
  | ok b => exact ⟨b, rfl⟩
  | error e =>
    obtain ⟨name, ts, k, h1, h2, h3, _⟩ := C16_abort C items e hb
    exact absurd (h name ts h1 k h2) h3

/-- the selector can be matched with every element of the document -/
def Answers (S : SelectorEngine) (d : Doc) (s : S.Sel) : Prop :=
  ∀ n, n < d.len → IsElement d n → ∃ b, S.matches_ s d n = .ok b

/-- the style sheets and the style attributes of a page can be read -/
structure Legible (X : Externals) (d : Doc) (kids : NodeId → List NodeId) (css : Text) : Prop where
  builtIn : ∀ r ∈ X.userAgent.rules, Answers X.engine d r.1
  sheets : ∀ t ∈ css :: (cssStyleElements d).map (textOf d kids), ∀ sels items,
    .rule sels items ∈ X.css t → Clean X.colors items ∧ ∀ s ∈ sels, Answers X.engine d s
  attrs : ∀ n e a, n < d.len → ElementAt d n e → e.getAttr "style" = some a → Clean X.colors (X.attr a)

theorem addStylesheet_total {S : SelectorEngine} {C : CssColors} {P : S.Sel × Block → Prop} :
    ∀ (rs : List (RawRule S)) (s : StyleSet S), (∀ r ∈ s.rules, P r) →
      (∀ sels items, .rule sels items ∈ rs → Clean C items ∧
        ∀ x ∈ sels, ∀ b, Block.parse C items = .ok b → P (x, b)) →
      ∃ s', StyleSet.addStylesheet C s rs = .ok s' ∧ ∀ r ∈ s'.rules, P r
  | [], s, hs, _ => ⟨s, rfl, hs⟩
  | .error :: rs, s, hs, h => by
    obtain ⟨s', h1, h2⟩ := addStylesheet_total rs s hs fun a b hab => h a b (by simp [hab])
    exact ⟨s', by rw [StyleSet.addStylesheet]; exact h1, h2⟩
  | .rule sels items :: rs, s, hs, h => by
    obtain ⟨hc, hp⟩ := h sels items (by simp)
    obtain ⟨b, hb⟩ := hc.parse
    obtain ⟨s', h1, h2⟩ := addStylesheet_total rs ⟨s.rules ++ sels.map fun sel => (sel, b)⟩ (by
      intro r hr
      rcases List.mem_append.1 hr with hr | hr
      · exact hs r hr
      · obtain ⟨x, hx, rfl⟩ := List.mem_map.1 hr
        exact hp x hx b hb) fun a b hab => h a b (by simp [hab])
    exact ⟨s', by rw [StyleSet.addStylesheet, hb]; exact h1, h2⟩

theorem addStylesheets_total {S : SelectorEngine} {C : CssColors} {P : S.Sel × Block → Prop} :
    ∀ (l : List (List (RawRule S))) (s : StyleSet S), (∀ r ∈ s.rules, P r) →
      (∀ rs ∈ l, ∀ sels items, .rule sels items ∈ rs → Clean C items ∧
        ∀ x ∈ sels, ∀ b, Block.parse C items = .ok b → P (x, b)) →
      ∃ s', StyleSet.addStylesheets C s l = .ok s' ∧ ∀ r ∈ s'.rules, P r
  | [], s, hs, _ => ⟨s, rfl, hs⟩
  | rs :: l, s, hs, h => by
    obtain ⟨s1, h1, h2⟩ := addStylesheet_total rs s hs (h rs (by simp))
    obtain ⟨s2, h3, h4⟩ := addStylesheets_total l s1 h2 fun x hx => h x (by simp [hx])
    exact ⟨s2, by rw [StyleSet.addStylesheets, h1]; exact h3, h4⟩

/-- the rules that the style sheets of a page contribute -/
theorem Legible.rules {X : Externals} {d : Doc} (hd : Reachable d) {kids} (h : d.WF kids) {css : Text}
    (hl : Legible X d kids css) {P : X.engine.Sel × Block → Prop}
    (hP : ∀ t ∈ css :: (cssStyleElements d).map (textOf d kids), ∀ sels items,
      .rule sels items ∈ X.css t → ∀ x ∈ sels, ∀ b, Block.parse X.colors items = .ok b → P (x, b)) :
    ∃ rs, X.parseStylesheets d (some css) = .ok (StyleSet.finish ⟨rs⟩) ∧ ∀ r ∈ rs, P r := by
  obtain ⟨s, h1, h2⟩ := addStylesheets_total (S := X.engine) (C := X.colors) (P := P)
    ((css :: (cssStyleElements d).map (textOf d kids)).map X.css) ⟨[]⟩ (by simp) (by
      intro rs hrs
      obtain ⟨t, ht, rfl⟩ := List.mem_map.1 hrs
      exact fun sels items hr => ⟨(hl.sheets t ht sels items hr).1, hP t ht sels items hr⟩)
  refine ⟨s.rules, ?_, h2⟩
  unfold Externals.parseStylesheets
  rw [C15_sheets hd h (some css) le_rfl]
  simp only [bind, Except.bind, Option.toList_some, List.singleton_append]
  rw [h1]
  rfl

theorem mem_finish {S : SelectorEngine} {rs : List (S.Sel × Block)} {r : S.Sel × Block} :
    r ∈ (StyleSet.finish ⟨rs⟩).rules ↔ r ∈ rs := by
  unfold StyleSet.finish
  exact (List.mergeSort_perm _ _).mem_iff

theorem Legible.author {X : Externals} {d : Doc} (hd : Reachable d) {kids} (h : d.WF kids) {css : Text}
    (hl : Legible X d kids css) :
    ∃ a, X.parseStylesheets d (some css) = .ok a ∧ ∀ r ∈ a.rules, Answers X.engine d r.1 := by
  obtain ⟨rs, h1, h2⟩ := hl.rules hd h (P := fun r => Answers X.engine d r.1)
    fun t ht sels items hr x hx _ _ => (hl.sheets t ht sels items hr).2 x hx
  exact ⟨_, h1, fun r hr => h2 r (mem_finish.1 hr)⟩

theorem pushMatching_total {S : SelectorEngine} {d : Doc} {n : NodeId} (hn : n < d.len)
    (he : IsElement d n) : ∀ rs : List (S.Sel × Block), (∀ r ∈ rs, Answers S d r.1) →
      ∃ bs, pushMatching d n rs = .ok bs
  | [], _ => ⟨[], rfl⟩
  | (sel, b) :: rs, h => by
    obtain ⟨m, hm⟩ := h (sel, b) (by simp) n hn he
    obtain ⟨bs, hb⟩ := pushMatching_total hn he rs fun r hr => h r (by simp [hr])
    exact ⟨if m then b :: bs else bs, by simp only [pushMatching, hm, hb, bind, Except.bind]; rfl⟩

theorem Legible.style {X : Externals} {d : Doc} {kids} {css : Text} (hl : Legible X d kids css)
    {a : StyleSet X.engine} (ha : ∀ r ∈ a.rules, Answers X.engine d r.1) (n : NodeId)
    (parent : Option Style) (hn : n < d.len) :
    ∃ s, styleForElement X.colors X.attr X.userAgent a d n parent = .ok s := by
  unfold styleForElement
  rw [get_ok d n hn]
  simp only [bind, Except.bind]
  cases he : (d.node n).data.asElement with
  | none => exact ⟨_, rfl⟩
  | some e =>
    have he' : ElementAt d n e := by
      rw [ElementAt]
      cases hd : (d.node n).data <;> simp [hd, NodeData.asElement] at he
      rw [he]
    obtain ⟨b1, h1⟩ := pushMatching_total hn ⟨e, he'⟩ X.userAgent.rules hl.builtIn
    obtain ⟨b2, h2⟩ := pushMatching_total hn ⟨e, he'⟩ a.rules ha
    simp only [h1, h2]
    split
    · cases hs : e.getAttr "style" with
      | none => exact ⟨_, rfl⟩
      | some v =>
        obtain ⟨b, hb⟩ := (hl.attrs n e v hn he' hs).parse
        simp only [hb]
        exact ⟨_, rfl⟩
    · exact ⟨_, rfl⟩

/-! ## The pages that can be rendered -/

/-- The page can be handled: it has one root element; and this is hidden, or has content that
the construction of boxes can handle. -/
def Supported (C : BoxContext) (kids : NodeId → List NodeId) : Prop :=
  ∃ root st, OneRoot C.doc kids root ∧ C.styleOf root none = .ok st ∧
    (st.val .display = .none ∨ ∃ cs, Shows C kids st (kids root) cs ∧ goodContent cs = true)

theorem boxTree_iff {C : BoxContext} {kids} (hd : Reachable C.doc) (hw : C.doc.WF kids)
    (hs : ∀ i p, i < C.doc.len → ∃ s, C.styleOf i p = .ok s) :
    (∃ n b, boxTree C n = .ok b) ↔ Supported C kids := by
  have hlt : ∀ root, OneRoot C.doc kids root → root < C.doc.len := by
    rintro root ⟨a, b, hk, _⟩
    exact (hw.bound documentNodeId root (by rw [hk]; simp)).2
  have hfresh : ∀ l, Fresh' LayoutData.fresh l := fun l _ _ => rfl
  constructor
  · rintro ⟨n, b, h⟩
    unfold boxTree at h
    obtain ⟨root, hr, h⟩ := bind_eq_ok.1 h
    obtain ⟨st, hst, h⟩ := bind_eq_ok.1 h
    obtain ⟨r, h1, _⟩ := bind_eq_ok.1 h
    have hroot := (rootElement_iff hd hw root).1 hr
    refine ⟨root, st, hroot, hst, ?_⟩
    by_cases hdisp : st.val .display = .none
    · exact .inl hdisp
    · right
      unfold constructRoot at h1
      rw [if_neg hdisp] at h1
      obtain ⟨r2, h2, _⟩ := bind_eq_ok.1 h1
      obtain ⟨l, hl⟩ := hw.treeOrder (kids root) fun x hx => (hw.bound root x hx).2
      obtain ⟨cs, hcs⟩ := Shows.exists hw hs hl st fun x hx => (hw.bound root x hx).2
      exact ⟨cs, hcs, (construct_iff hw (hlt root hroot) hcs (hfresh _)).1 ⟨n, r2, h2⟩⟩
  · rintro ⟨root, st, hroot, hst, h⟩
    have hr := (rootElement_iff hd hw root).2 hroot
    rcases h with hdisp | ⟨cs, hcs, hg⟩
    · refine ⟨0, ?_⟩
      unfold boxTree constructRoot
      simp only [hr, hst, bind, Except.bind, if_pos hdisp]
      exact ⟨_, rfl⟩
    · obtain ⟨n, r, h⟩ := (construct_iff hw (hlt root hroot) hcs (hfresh _)).2 hg
      refine ⟨n, ?_⟩
      unfold boxTree constructRoot
      by_cases hdisp : st.val .display = .none
      · simp only [hr, hst, bind, Except.bind, if_pos hdisp]
        exact ⟨_, rfl⟩
      · by_cases hp : (st.val .position).isAbsolutelyPositioned = true
        · simp only [hr, hst, bind, Except.bind, if_neg hdisp, h, if_pos hp]
          exact ⟨_, rfl⟩
        · by_cases hf : (st.val .float).isFloating = true
          · simp only [hr, hst, bind, Except.bind, if_neg hdisp, h, if_neg hp, if_pos hf]
            exact ⟨_, rfl⟩
          · simp only [hr, hst, bind, Except.bind, if_neg hdisp, h, if_neg hp, if_neg hf]
            exact ⟨_, rfl⟩

/-- no text of the document contains the character NUL -/
def NulFree (d : Doc) : Prop := ∀ i t, i < d.len → (d.node i).data = .text t → '\x00' ∉ t

theorem laid_nulFree {X : Externals} {a : StyleSet X.engine} {d : Doc} {kids} (hd : Reachable d)
    (hw : d.WF kids) (hs : ∀ i p, i < d.len → ∃ s, styleForElement X.colors X.attr X.userAgent a d i p = .ok s)
    (hn : NulFree d) {n : Nat} {b : Bfc} {size : PVec2 Length} {fs : List Fragment}
    (hb : boxTree (BoxContext.of X.colors X.attr X.userAgent a d X.env) n = .ok b)
    (hf : rootLayout X.env b size = .ok fs) : hasNulAll fs = false := by
  cases hh : hasNulAll fs with
  | false => rfl
  | true =>
    exfalso
    have hv : htmlSpace '\x00' = false := by decide
    obtain ⟨i, hi, hc⟩ := rootLayout_chars
      (boxTree_sound (styleSound_of X.colors X.attr X.userAgent a d X.env) hb) hf (hasNulAll_inked _ hh)
    have hm := Bfc.ifcs_marks hv b i hi hc
    have hb' := hb
    unfold boxTree at hb'
    obtain ⟨root, hr, h⟩ := bind_eq_ok.1 hb'
    obtain ⟨st, hst, h⟩ := bind_eq_ok.1 h
    by_cases hdisp : st.val .display = .none
    · unfold constructRoot at h
      rw [if_pos hdisp] at h
      cases h
      simp [Bfc.ifcs, BlockContainer.ifcs, blockIfcs] at hi
    · have hroot := (rootElement_iff hd hw root).1 hr
      have hlt : root < d.len := by
        obtain ⟨a, b, hk, _⟩ := hroot
        exact (hw.bound documentNodeId root (by rw [hk]; simp)).2
      obtain ⟨l, hl⟩ := hw.treeOrder (kids root) fun x hx => (hw.bound root x hx).2
      obtain ⟨cs, hcs⟩ := Shows.exists (C := BoxContext.of X.colors X.attr X.userAgent a d X.env)
        hw hs hl st fun x hx => (hw.bound root x hx).2
      rw [C35_page (C := BoxContext.of X.colors X.attr X.userAgent a d X.env) hw hr hlt hst hdisp hcs hb] at hm
      simp only [List.cons_append, List.mem_cons, reduceCtorEq, List.mem_append, List.not_mem_nil,
        or_false, false_or] at hm
      obtain ⟨j, t, hlt, hj, ht⟩ := hcs.chars hv hm hw fun x hx => (hw.bound root x hx).2
      exact hn j t hlt hj ht

/-- **C72**: a page whose style sheets can be read and whose text contains no NUL is drawn if and
only if it is supported; otherwise nothing is drawn. -/
theorem C72_supported (X : Externals) {text css : ByteArray} {html sheet : Text}
    (ht : X.Html text html) (hc : Decodes css sheet) {ops : List SinkOp} (hops : X.html html = .ok ops)
    (hleg : LegalRun Doc.new ops) {d : Doc} (hrun : Doc.new.runSink ops = .ok d) {kids} (hw : d.WF kids)
    (hl : Legible X d kids sheet) (hn : NulFree d) {dev : RDev} {gs : List Grob} (hdev : dev.Holds gs)
    (size : PVec2 Length) :
    ∃ author, X.parseStylesheets d (some sheet) = .ok author ∧
      ((∃ n dev', X.testRenderer n dev (some text) (some css) size = .ok (dev', false)) ↔
        Supported (.of X.colors X.attr X.userAgent author d X.env) kids) ∧
      (¬ Supported (.of X.colors X.attr X.userAgent author d X.env) kids →
        ∀ n dev' b, X.testRenderer n dev (some text) (some css) size = .ok (dev', b) →
          b = true ∧ dev' = dev) := by
  have hd : Reachable d := by
    obtain ⟨d', h1, h2⟩ := hleg.reachable Reachable.new
    rw [hrun] at h1
    cases h1
    exact h2
  obtain ⟨a, ha, hans⟩ := hl.author hd hw
  have hs : ∀ i p, i < d.len → ∃ s, styleForElement X.colors X.attr X.userAgent a d i p = .ok s :=
    fun i p hi => hl.style hans i p hi
  have key : (∃ n fs, X.layoutHtml n html sheet size = .ok fs) ↔
      Supported (.of X.colors X.attr X.userAgent a d X.env) kids := by
    rw [← boxTree_iff (C := .of X.colors X.attr X.userAgent a d X.env) hd hw hs]
    have hparse : X.parseHtml html = .ok d := by
      simp only [Externals.parseHtml, hops, bind, Except.bind, hrun]
    constructor
    · rintro ⟨n, fs, h⟩
      simp only [Externals.layoutHtml, hparse, Externals.layoutDoc, ha, bind, Except.bind] at h
      cases hb : boxTree (.of X.colors X.attr X.userAgent a d X.env) n with
      | error p => rw [hb] at h; cases h
      | ok b => exact ⟨n, b, hb⟩
    · rintro ⟨n, b, hb⟩
      obtain ⟨fs, hf⟩ := C42_layout_completes X.colors X.attr X.userAgent a d X.env X.env n b hb size
      refine ⟨n, fs, ?_⟩
      simp only [Externals.layoutHtml, hparse, Externals.layoutDoc, ha, bind, Except.bind, hb, hf,
        laid_nulFree hd hw hs hn hb hf]
      rfl
  refine ⟨a, ha, ?_, ?_⟩
  · rw [← key]
    constructor
    · rintro ⟨n, dev', h⟩
      rcases C59_all_or_nothing X ht hc n hdev size false h with ⟨h1, _⟩ | ⟨_, fs, h1, _⟩
      · cases h1
      · exact ⟨n, fs, h1⟩
    · rintro ⟨n, fs, h⟩
      obtain ⟨dev', h1, _⟩ := C59_drawn X ht hc n hdev size fs h
      exact ⟨n, dev', h1⟩
  · rw [← key]
    intro hno n dev' b h
    rcases C59_all_or_nothing X ht hc n hdev size b h with ⟨h1, h2, _⟩ | ⟨_, fs, h1, _⟩
    · exact ⟨h1, h2⟩
    · exact absurd ⟨n, fs, h1⟩ hno

theorem uaFlat_typeFree : ∀ q ∈ uaFlat, q.1.TypeFree := by
  have h : (uaFlat.all fun q => q.1.parts.all fun p => match p.simple with
      | .nthOfType .. | .nthLastOfType .. | .onlyOfType => false
      | _ => true) = true := by decide +kernel
  intro q hq p hp
  have := List.all_eq_true.1 (List.all_eq_true.1 h q hq) p hp
  cases hs : p.simple <;> simp [hs] at this ⊢ <;> trivial

/-- every selector of the built-in style sheet can be matched -/
theorem userAgent_answers {C : CssColors} {sheet₀ : StyleSet cssEngine} (h : userAgentSheet C = .ok sheet₀)
    {d : Doc} {kids} (hw : d.WF kids) : ∀ r ∈ sheet₀.rules, Answers cssEngine d r.1 := by
  obtain ⟨ua, h1, h2⟩ := ua_known C
  simp only [userAgentSheet, h1, bind, Except.bind, pure, Except.pure, Except.ok.injEq] at h
  subst h
  intro r hr n hn he
  unfold StyleSet.finish at hr
  have hr := (List.mergeSort_perm _ _).mem_iff.1 hr
  obtain ⟨i, hi, hri⟩ := List.getElem_of_mem hr
  have hq := h2.get hi (h2.length_eq ▸ hi)
  simp only [List.get_eq_getElem] at hq
  rw [hri] at hq
  obtain ⟨b, hb, _⟩ := selector_ok hw (uaFlat_typeFree _ (List.getElem_mem _)) hn he
  exact ⟨b, by rw [hq.1]; exact hb⟩

/-- Selectors that can be matched: no `:nth-of-type()` and no relative of it. -/
theorem legible_css {markdown : Text → Except Panic Text} {parse : Text → Except Panic (List SinkOp)}
    {readCss : Text → List (RawRule cssEngine)} {readAttr : AttrTokenizer} {colors : CssColors}
    {env : TextEnv} {sheet₀ : StyleSet cssEngine} (hua : userAgentSheet colors = .ok sheet₀)
    {d : Doc} {kids} (hw : d.WF kids) {css : Text}
    (hsheets : ∀ t ∈ css :: (cssStyleElements d).map (textOf d kids), ∀ sels items,
      .rule sels items ∈ readCss t → Clean colors items ∧ ∀ s ∈ sels, ComplexSel.TypeFree s)
    (hattrs : ∀ n e a, n < d.len → ElementAt d n e → e.getAttr "style" = some a →
      Clean colors (readAttr a)) :
    Legible ⟨cssEngine, markdown, parse, readCss, readAttr, colors, sheet₀, env⟩ d kids css where
  builtIn := userAgent_answers hua hw
  sheets t ht sels items hr := ⟨(hsheets t ht sels items hr).1, fun s hs n hn he => by
    obtain ⟨b, hb, _⟩ := selector_ok hw ((hsheets t ht sels items hr).2 s hs) hn he
    exact ⟨b, hb⟩⟩
  attrs := hattrs

/-! ## Pages whose layout is determined by the names of the elements -/

/-- the properties that decide which boxes an element has -/
def boxProperties : List Longhand := [.display, .position, .float, .whiteSpace]

/-- the style sheets and style attributes do not mention `display`, `position`, `float` and
`white-space` -/
structure LeavesBoxes (X : Externals) (d : Doc) (kids : NodeId → List NodeId) (css : Text) : Prop where
  sheets : ∀ t ∈ css :: (cssStyleElements d).map (textOf d kids), ∀ sels items b,
    .rule sels items ∈ X.css t → Block.parse X.colors items = .ok b →
    ∀ w ∈ b.entries, w.1.longhand ∉ boxProperties
  attrs : ∀ n e a b, n < d.len → ElementAt d n e → e.getAttr "style" = some a →
    Block.parse X.colors (X.attr a) = .ok b → ∀ w ∈ b.entries, w.1.longhand ∉ boxProperties

/-- elements that are not rendered by default -/
def Invisible (e : ElementData) : Prop :=
  HiddenInput e ∨ (HasAttr e "hidden" ∧ e.name.localName ≠ "embed") ∨
    e.name.localName ∈ invisibleElements

/-- elements that are blocks by default -/
def IsBlock (e : ElementData) : Prop :=
  ¬ Invisible e ∧ e.name.localName ∈ blockElements ∧ ¬ HasAttr e "hidden"

/-- `Simple d kids inl l`: the nodes `l` can be the content of an inline element (`inl`) or of a
block: the last one is not an invisible element, and there are no blocks in inline elements. -/
inductive Simple (d : Doc) (kids : NodeId → List NodeId) : Bool → List NodeId → Prop
  | nil {inl} : Simple d kids inl []
  | other {inl i l} : ¬ IsElement d i → Simple d kids inl l → Simple d kids inl (i :: l)
  | br {inl i l e} : ElementAt d i e → e.name.localName = "br" → Simple d kids inl l →
    Simple d kids inl (i :: l)
  | invisible {inl i l e} : ElementAt d i e → e.name.localName ≠ "br" → Invisible e → l ≠ [] →
    Simple d kids inl l → Simple d kids inl (i :: l)
  | block {i l e} : ElementAt d i e → e.name.localName ≠ "br" → IsBlock e →
    Simple d kids false (kids i) → Simple d kids false l → Simple d kids false (i :: l)
  | inline {inl i l e} : ElementAt d i e → e.name.localName ≠ "br" → ¬ Invisible e → ¬ IsBlock e →
    Simple d kids true (kids i) → Simple d kids inl l → Simple d kids inl (i :: l)

/-- the default values of the properties that decide about boxes -/
structure DefaultBoxes (e : ElementData) (parent s : Style) : Prop where
  inFlow : s.outOfFlow = false
  none : Invisible e → s.val .display = Display.none
  block : IsBlock e → s.val .display = Display.generatingBox .block .flow
  inline : ¬ Invisible e → ¬ IsBlock e → s.val .display = Display.generatingBox .inline .flow
  space : s.val .whiteSpace = WhiteSpace.pre ∨ s.val .whiteSpace = parent.val .whiteSpace

theorem defaultBoxes {C : CssColors} {tokenize : AttrTokenizer} {ua author : List (cssEngine.Sel × Block)}
    {d : Doc} {n : NodeId} {parent : Option Style} {attr : Option Block} {s : Style} {e : ElementData}
    (hua : StyleSet.addStylesheet C ⟨[]⟩ userAgentCss = .ok ⟨ua⟩)
    (h : StyledElement C tokenize ua author d n parent attr s) (he : (d.node n).data = .element e)
    (hno : ∀ k w, Applies (S := cssEngine) [] author attr d n k w → w.longhand ∉ boxProperties) :
    DefaultBoxes e (parent.getD Style.initial) s := by
  have key : ∀ p ∈ boxProperties, s.val p = p.adjusted s ((builtIn e (parent.getD Style.initial) p).getD
      (p.defaultValue (parent.getD Style.initial))) := fun p hp =>
    C68_defaults hua h he p fun k w hw hh => hno k w hw (hh ▸ hp)
  have hpos : s.val .position = Position.static := by
    rw [key .position (by simp [boxProperties])]; rfl
  have hfl : s.val .float = Float'.none := by
    rw [key .float (by simp [boxProperties])]; rfl
  have hdisp := key .display (by simp [boxProperties])
  have hadj : ∀ v : Display, Longhand.adjusted s .display v = v := by
    intro v
    cases v <;> simp [Longhand.adjusted, hpos, hfl]
  rw [hadj] at hdisp
  have hsp := key .whiteSpace (by simp [boxProperties])
  refine ⟨?_, ?_, ?_, ?_, ?_⟩
  · simp [Style.outOfFlow, hpos, hfl, Position.isAbsolutelyPositioned, Float'.isFloating]
  · intro hi
    rw [hdisp]
    rcases hi with hi | ⟨hi, hi2⟩ | hi
    · simp [builtIn, hi]
    · by_cases h1 : HiddenInput e <;> simp [builtIn, hi, hi2, h1]
    · by_cases h1 : HiddenInput e
      · simp [builtIn, h1]
      · by_cases h2 : HasAttr e "hidden"
        · have : e.name.localName ≠ "embed" := by
            intro hh; rw [hh] at hi; revert hi; decide
          simp [builtIn, h1, h2, this]
        · simp [builtIn, h1, h2, hi]
  · rintro ⟨h1, h2, h3⟩
    rw [hdisp]
    simp only [Invisible, not_or] at h1
    simp [builtIn, h1.1, h3, h1.2.2, h2]
  · intro h1 h2
    rw [hdisp]
    have h1' := h1
    simp only [Invisible, not_or, not_and, not_not] at h1'
    by_cases h3 : HasAttr e "hidden"
    · simp [builtIn, h1'.1, h3, h1'.2.1 h3]
    · have h4 : e.name.localName ∉ blockElements := fun hh => h2 ⟨h1, hh, h3⟩
      simp only [builtIn, h1'.1, h3, h1'.2.2, h4, if_false, Option.getD_none]
      rfl
  · rw [hsp]
    by_cases h1 : e.name.localName = "br" ∨ e.name.localName = "pre"
    · left
      simp only [builtIn, if_pos h1]
      rfl
    · right
      simp only [builtIn, if_neg h1]
      rfl

/-- a mode of `white-space` that the built-in style sheet uses -/
def UsualSpace (s : Style) : Prop := s.val .whiteSpace = WhiteSpace.normal ∨ s.val .whiteSpace = WhiteSpace.pre

theorem DefaultBoxes.usual {e : ElementData} {parent s : Style} (h : DefaultBoxes e parent s)
    (hp : UsualSpace parent) : UsualSpace s := by
  rcases h.space with h | h
  · exact .inr h
  · unfold UsualSpace; rw [h]; exact hp

theorem good_text {st : Style} (h : UsualSpace st) (inl : Bool) (t : Text) :
    (Styled.text st t).good inl = true := by
  rcases h with h | h <;> simp [Styled.good, h]

theorem endsHidden_cons {c : Styled} {cs : List Styled} (h : cs ≠ []) :
    endsHidden (c :: cs) = endsHidden cs := by
  cases cs with
  | nil => exact absurd rfl h
  | cons a l => simp [endsHidden, List.getLast?_cons_cons]

theorem endsHidden_shown {c : Styled} {cs : List Styled} (h : ∀ i, c ≠ .hidden i) :
    endsHidden (c :: cs) = endsHidden cs := by
  cases cs with
  | nil => cases c <;> first | rfl | exact absurd rfl (h _)
  | cons a l => exact endsHidden_cons (by simp)

theorem Shows.length_eq {C : BoxContext} {kids} {st : Style} {l : List NodeId} {cs : List Styled}
    (h : Shows C kids st l cs) : l.length = cs.length := by
  induction h <;> simp_all

theorem simple_iff {C : BoxContext} {kids} {st : Style} {l : List NodeId} {cs : List Styled}
    (hC : ∀ i e parent s, ElementAt C.doc i e → C.styleOf i (some parent) = .ok s → DefaultBoxes e parent s)
    (h : Shows C kids st l cs) (hst : UsualSpace st) (inl : Bool) :
    (endsHidden cs = false ∧ goodAll inl cs = true) ↔ Simple C.doc kids inl l := by
  induction h generalizing inl with
  | nil => exact ⟨fun _ => .nil, fun _ => ⟨rfl, rfl⟩⟩
  | @other st i l cs ho _ ih =>
    rw [endsHidden_shown (by simp)]
    simp only [goodAll, Styled.good, Bool.true_and]
    rw [ih hst]
    have hne : ¬ IsElement C.doc i := by
      rintro ⟨e, he⟩
      rw [ElementAt] at he
      simp [NodeData.isOther, he, NodeData.asElement] at ho
    exact ⟨.other hne, fun h => by
      cases h with
      | other _ h => exact h
      | br he _ _ | invisible he _ _ _ _ | block he _ _ _ _ | inline he _ _ _ _ _ => exact absurd ⟨_, he⟩ hne⟩
  | @text st i l cs t ht _ ih =>
    rw [endsHidden_shown (by simp)]
    simp only [goodAll, good_text hst, Bool.true_and]
    rw [ih hst]
    have hne : ¬ IsElement C.doc i := by
      rintro ⟨e, he⟩
      rw [ElementAt, ht] at he
      cases he
    exact ⟨.other hne, fun h => by
      cases h with
      | other _ h => exact h
      | br he _ _ | invisible he _ _ _ _ | block he _ _ _ _ | inline he _ _ _ _ _ => exact absurd ⟨_, he⟩ hne⟩
  | @br st i l cs e s he hbr hs _ ih =>
    rw [endsHidden_shown (by simp)]
    simp only [goodAll, good_text ((hC i e st s he hs).usual hst), Bool.true_and]
    rw [ih hst]
    refine ⟨.br he hbr, fun h => ?_⟩
    cases h with
    | other h _ => exact absurd ⟨_, he⟩ h
    | br _ _ h => exact h
    | invisible he' hn _ _ _ | block he' hn _ _ _ | inline he' hn _ _ _ _ =>
      rw [ElementAt] at he'
      rw [he] at he'
      cases he'
      exact absurd hbr hn
  | @hidden st i l cs e s he hbr hs hd hcs ih =>
    have hB := hC i e st s he hs
    have hi : Invisible e := by
      by_contra hi
      by_cases hb : IsBlock e
      · rw [hB.block hb] at hd; cases hd
      · rw [hB.inline hi hb] at hd; cases hd
    have hlen := hcs.length_eq
    by_cases hl : cs = []
    · subst hl
      have : l = [] := List.length_eq_zero_iff.1 (by simpa using hlen)
      subst this
      constructor
      · rintro ⟨h, _⟩; cases h
      · intro h
        cases h with
        | other h _ => exact absurd ⟨_, he⟩ h
        | br he' hn _ | block he' _ hn _ _ | inline he' _ hn _ _ _ =>
          rw [ElementAt] at he'
          rw [he] at he'
          cases he'
          first | exact absurd hn hbr | exact absurd hi hn.1 | exact absurd hi hn
        | invisible _ _ _ h _ => exact absurd rfl h
    · have hl' : l ≠ [] := by
        rintro rfl
        exact hl (List.length_eq_zero_iff.1 (by simpa using hlen.symm))
      rw [endsHidden_cons hl]
      simp only [goodAll, Styled.good, Bool.true_and]
      rw [ih hst]
      refine ⟨.invisible he hbr hi hl', fun h => ?_⟩
      cases h with
      | other h _ => exact absurd ⟨_, he⟩ h
      | br he' hn _ | block he' _ hn _ _ | inline he' _ hn _ _ _ =>
        rw [ElementAt] at he'
        rw [he] at he'
        cases he'
        first | exact absurd hn hbr | exact absurd hi hn.1 | exact absurd hi hn
      | invisible _ _ _ _ h => exact h
  | @contents st i l cs e s ks he hbr hs hd _ _ _ _ =>
    have hB := hC i e st s he hs
    exfalso
    by_cases hi : Invisible e
    · rw [hB.none hi] at hd; cases hd
    by_cases hb : IsBlock e
    · rw [hB.block hb] at hd; cases hd
    · rw [hB.inline hi hb] at hd; cases hd
  | @elem st i l cs e s o ins ks he hbr hs hd _ _ ihk ih =>
    have hB := hC i e st s he hs
    have hu := hB.usual hst
    rw [endsHidden_shown (by simp)]
    have hi : ¬ Invisible e := by
      intro hi
      rw [hB.none hi] at hd; cases hd
    by_cases hb : IsBlock e
    · rw [hB.block hb] at hd
      cases hd
      simp only [goodAll, Styled.good, hB.inFlow, Bool.or_false, Bool.and_eq_true, Bool.not_eq_true']
      constructor
      · rintro ⟨h1, ⟨rfl, h2, h3⟩, h4⟩
        exact .block he hbr hb ((ihk hu false).1 ⟨h2, h3⟩) ((ih hst false).1 ⟨h1, h4⟩)
      · intro h
        cases h with
        | other h _ => exact absurd ⟨_, he⟩ h
        | br he' hn _ | invisible he' _ hn _ _ | inline he' _ _ hn _ _ =>
          rw [ElementAt] at he'
          rw [he] at he'
          cases he'
          first | exact absurd hn hbr | exact absurd hn hi | exact absurd hb hn
        | block _ _ _ h1 h2 =>
          obtain ⟨k1, k2⟩ := (ihk hu false).2 h1
          obtain ⟨k3, k4⟩ := (ih hst false).2 h2
          exact ⟨k3, ⟨rfl, k1, k2⟩, k4⟩
    · rw [hB.inline hi hb] at hd
      cases hd
      simp only [goodAll, Styled.good, Bool.and_eq_true, Bool.not_eq_true']
      constructor
      · rintro ⟨h1, ⟨h2, h3⟩, h4⟩
        exact .inline he hbr hi hb ((ihk hu true).1 ⟨h2, h3⟩) ((ih hst inl).1 ⟨h1, h4⟩)
      · intro h
        cases h with
        | other h _ => exact absurd ⟨_, he⟩ h
        | br he' hn _ | invisible he' _ hn _ _ | block he' _ hn _ _ =>
          rw [ElementAt] at he'
          rw [he] at he'
          cases he'
          first | exact absurd hn hbr | exact absurd hn hi | exact absurd hn hb
        | inline _ _ _ _ h1 h2 =>
          obtain ⟨k1, k2⟩ := (ihk hu true).2 h1
          obtain ⟨k3, k4⟩ := (ih hst _).2 h2
          exact ⟨k3, ⟨k1, k2⟩, k4⟩

/-- what is known about the rendering of a page with the built-in style sheet -/
structure PlainPage (X : Externals) (text css : ByteArray) (d : Doc) (kids : NodeId → List NodeId) :
    Prop where
  /-- the text is read as a document, without violating the rules of the tree builder -/
  parsed : ∃ html ops, X.Html text html ∧ X.html html = .ok ops ∧ LegalRun Doc.new ops ∧
    Doc.new.runSink ops = .ok d
  tree : d.WF kids
  /-- the style sheets can be read and do not mention the properties that decide about boxes -/
  styles : ∃ sheet, Decodes css sheet ∧ Legible X d kids sheet ∧ LeavesBoxes X d kids sheet
  nulFree : NulFree d

/-- **C73**: with the built-in style sheet, and style sheets and attributes that do not mention
`display`, `position`, `float` and `white-space`, the names of the elements and their `hidden` and
`type` attributes decide whether a page is drawn. -/
theorem C73_names {markdown : Text → Except Panic Text} {parse : Text → Except Panic (List SinkOp)}
    {readCss : Text → List (RawRule cssEngine)} {readAttr : AttrTokenizer} {colors : CssColors}
    {env : TextEnv} {sheet₀ : StyleSet cssEngine} (hua : userAgentSheet colors = .ok sheet₀)
    {X : Externals} (hX : X = ⟨cssEngine, markdown, parse, readCss, readAttr, colors, sheet₀, env⟩)
    {text css : ByteArray} {d : Doc} {kids} (hp : PlainPage X text css d kids)
    {dev : RDev} {gs : List Grob} (hdev : dev.Holds gs) (size : PVec2 Length) :
    (∃ n dev', X.testRenderer n dev (some text) (some css) size = .ok (dev', false)) ↔
      ∃ root e, OneRoot d kids root ∧ ElementAt d root e ∧
        (Invisible e ∨ Simple d kids false (kids root)) := by
  obtain ⟨⟨html, ops, ht, hops, hleg, hrun⟩, hw, ⟨sheet, hc, hl, hb⟩, hn⟩ := hp
  obtain ⟨a, ha, hiff, -⟩ := C72_supported X ht hc hops hleg hrun hw hl hn hdev size
  rw [hiff]
  have hd : Reachable d := by
    obtain ⟨d', h1, h2⟩ := hleg.reachable Reachable.new
    rw [hrun] at h1
    cases h1
    exact h2
  obtain ⟨rs, hrs, hP⟩ := hl.rules hd hw (P := fun r => r.2.Parsed X.colors ∧
      ∀ w ∈ r.2.entries, w.1.longhand ∉ boxProperties)
    fun t ht sels items hr x _ b hbl => ⟨⟨items, hbl⟩, hb.sheets t ht sels items b hr hbl⟩
  rw [ha] at hrs
  cases hrs
  obtain ⟨ua, u1, u2, u3⟩ := C68_sheet colors
  rw [hua] at u2
  cases u2
  subst hX
  have facts : ∀ i e parent s, ElementAt d i e →
      styleForElement colors readAttr (StyleSet.finish ⟨ua⟩) (StyleSet.finish ⟨rs⟩) d i parent = .ok s →
      DefaultBoxes e (parent.getD Style.initial) s := by
    intro i e parent s he hs
    have hget : ∃ nd, d.get i = .ok nd := by
      unfold styleForElement at hs
      obtain ⟨nd, h1, _⟩ := bind_eq_ok.1 hs
      exact ⟨nd, h1⟩
    obtain ⟨nd, hnd⟩ := hget
    have hi : i < d.len := by
      by_contra hh
      simp [Doc.get, hh] at hnd
    have hnd' := get_ok d i hi
    rw [hnd] at hnd'
    cases hnd'
    obtain ⟨us, as, attr, h1, h2, h3, -⟩ := styleForElement_ok hnd he hs
    refine defaultBoxes u1 ⟨u3, fun r hr => (hP r hr).1, ⟨_, e, hnd, he, h3⟩, hs⟩ he ?_
    intro k w hw
    cases hw with
    | ua h _ _ => simp at h
    | author h _ hj => exact (hP _ (List.mem_of_getElem? h)).2 _ (List.mem_of_getElem? hj)
    | attr h hj =>
      subst h
      obtain ⟨_, t, ht, hbl⟩ := h3
      exact hb.attrs i e t _ hi he ht hbl _ (List.mem_of_getElem? hj)
  have hinit : UsualSpace Style.initial := .inl rfl
  constructor
  · rintro ⟨root, st, hroot, hst, h⟩
    obtain ⟨_, _, _, ⟨e, he⟩, _⟩ := id hroot
    have hB := facts root e none st he hst
    refine ⟨root, e, hroot, he, ?_⟩
    by_cases hi : Invisible e
    · exact .inl hi
    · right
      rcases h with h | ⟨cs, hcs, hg⟩
      · exfalso
        by_cases hbl : IsBlock e
        · rw [hB.block hbl] at h; cases h
        · rw [hB.inline hi hbl] at h; cases h
      · simp only [goodContent, Bool.and_eq_true, Bool.not_eq_true'] at hg
        exact (simple_iff (fun i e parent s => facts i e (some parent) s) hcs (hB.usual hinit) false).1 hg
  · rintro ⟨root, e, hroot, he, h⟩
    have hlt : root < d.len := by
      obtain ⟨a, b, hk, _⟩ := hroot
      exact (hw.bound documentNodeId root (by rw [hk]; simp)).2
    have hans : ∀ i p, i < d.len → ∃ s, styleForElement colors readAttr (StyleSet.finish ⟨ua⟩)
        (StyleSet.finish ⟨rs⟩) d i p = .ok s := by
      obtain ⟨a', ha', hans⟩ := hl.author hd hw
      rw [ha] at ha'
      cases ha'
      exact fun i p hi => hl.style hans i p hi
    obtain ⟨st, hst⟩ := hans root none hlt
    have hB := facts root e none st he hst
    refine ⟨root, st, hroot, hst, ?_⟩
    rcases h with h | h
    · exact .inl (hB.none h)
    · right
      obtain ⟨l, hl⟩ := hw.treeOrder (kids root) fun x hx => (hw.bound root x hx).2
      obtain ⟨cs, hcs⟩ := Shows.exists (C := .of colors readAttr (StyleSet.finish ⟨ua⟩)
        (StyleSet.finish ⟨rs⟩) d env) hw hans hl st fun x hx => (hw.bound root x hx).2
      refine ⟨cs, hcs, ?_⟩
      have := (simple_iff (fun i e parent s => facts i e (some parent) s) hcs (hB.usual hinit) false).2 h
      simp [goodContent, this.1, this.2]

/-- `i` is the element `root` or in it, and so are all elements between them, and it is not
invisible -/
inductive Displayed (d : Doc) (kids : NodeId → List NodeId) (root : NodeId) : NodeId → Prop
  | root {e} : ElementAt d root e → ¬ Invisible e → Displayed d kids root root
  | child {p i e} : Displayed d kids root p → i ∈ kids p → ElementAt d i e → ¬ Invisible e →
    e.name.localName ≠ "br" → Displayed d kids root i

theorem Simple.child {d : Doc} {kids} {inl : Bool} {l : List NodeId} (h : Simple d kids inl l) {i : NodeId}
    (hi : i ∈ l) {e : ElementData} (he : ElementAt d i e) (hv : ¬ Invisible e) (hbr : e.name.localName ≠ "br") :
    (IsBlock e ∧ inl = false ∧ Simple d kids false (kids i)) ∨
    (¬ IsBlock e ∧ Simple d kids true (kids i)) := by
  induction h with
  | nil => simp at hi
  | other hne _ ih =>
    rcases List.mem_cons.1 hi with rfl | hi
    · exact absurd ⟨_, he⟩ hne
    · exact ih hi
  | br he' hn _ ih =>
    rcases List.mem_cons.1 hi with rfl | hi
    · rw [ElementAt, he] at he'; cases he'; exact absurd hn hbr
    · exact ih hi
  | invisible he' _ hn _ _ ih =>
    rcases List.mem_cons.1 hi with rfl | hi
    · rw [ElementAt, he] at he'; cases he'; exact absurd hn hv
    · exact ih hi
  | block he' _ hn hk _ _ ih =>
    rcases List.mem_cons.1 hi with rfl | hi
    · rw [ElementAt, he] at he'; cases he'; exact .inl ⟨hn, rfl, hk⟩
    · exact ih hi
  | inline he' _ _ hn hk _ _ ih =>
    rcases List.mem_cons.1 hi with rfl | hi
    · rw [ElementAt, he] at he'; cases he'; exact .inr ⟨hn, hk⟩
    · exact ih hi

theorem Simple.last {d : Doc} {kids} {inl : Bool} {l : List NodeId} (h : Simple d kids inl l) {i : NodeId}
    (hi : l.getLast? = some i) {e : ElementData} (he : ElementAt d i e) (hbr : e.name.localName ≠ "br") :
    ¬ Invisible e := by
  intro hv
  have key : ∀ {j : NodeId} {l : List NodeId}, (j :: l).getLast? = some i → (l = [] ∧ j = i) ∨
      l.getLast? = some i := by
    intro j l h
    cases l with
    | nil => exact .inl ⟨rfl, by simpa using h⟩
    | cons a l => exact .inr (by simpa [List.getLast?_cons_cons] using h)
  induction h with
  | nil => simp at hi
  | other hne _ ih =>
    rcases key hi with ⟨_, rfl⟩ | hi
    · exact absurd ⟨_, he⟩ hne
    · exact ih hi
  | br he' hn _ ih =>
    rcases key hi with ⟨_, rfl⟩ | hi
    · rw [ElementAt, he] at he'; cases he'; exact absurd hn hbr
    · exact ih hi
  | invisible he' _ _ hl _ ih =>
    rcases key hi with ⟨h, _⟩ | hi
    · exact hl h
    · exact ih hi
  | block he' _ hn _ _ _ ih =>
    rcases key hi with ⟨_, rfl⟩ | hi
    · rw [ElementAt, he] at he'; cases he'; exact hn.1 hv
    · exact ih hi
  | inline he' _ hn _ _ _ _ ih =>
    rcases key hi with ⟨_, rfl⟩ | hi
    · rw [ElementAt, he] at he'; cases he'; exact hn hv
    · exact ih hi

theorem Displayed.simple {d : Doc} {kids} {root : NodeId} (hr : Simple d kids false (kids root)) {i : NodeId}
    (h : Displayed d kids root i) : ∃ inl, Simple d kids inl (kids i) ∧
      (i ≠ root → ∀ e, ElementAt d i e → ¬ IsBlock e → inl = true) := by
  induction h with
  | root => exact ⟨false, hr, fun h => absurd rfl h⟩
  | child _ hi he hv hbr ih =>
    obtain ⟨inl, hs, _⟩ := ih
    rcases hs.child hi he hv hbr with ⟨hb, _, h⟩ | ⟨hb, h⟩
    · exact ⟨false, h, fun _ e' he' hnb => absurd (by rw [ElementAt, he] at he'; cases he'; exact hb) hnb⟩
    · exact ⟨true, h, fun _ _ _ _ => rfl⟩

section
variable {markdown : Text → Except Panic Text} {parse : Text → Except Panic (List SinkOp)}
  {readCss : Text → List (RawRule cssEngine)} {readAttr : AttrTokenizer} {colors : CssColors}
  {env : TextEnv} {sheet₀ : StyleSet cssEngine}

/-- **C73, invisible elements**: such a page is not drawn if a displayed element ends with an
invisible one, like `<script>`. -/
theorem C73_ends_invisible (hua : userAgentSheet colors = .ok sheet₀)
    {X : Externals} (hX : X = ⟨cssEngine, markdown, parse, readCss, readAttr, colors, sheet₀, env⟩)
    {text css : ByteArray} {d : Doc} {kids} (hp : PlainPage X text css d kids)
    {dev : RDev} {gs : List Grob} (hdev : dev.Holds gs) (size : PVec2 Length)
    {root p i : NodeId} {e : ElementData} (hr : root ∈ kids documentNodeId) (hd : Displayed d kids root p)
    (hi : (kids p).getLast? = some i) (he : ElementAt d i e) (hv : Invisible e)
    (hbr : e.name.localName ≠ "br") (n : Nat) (dev' : RDev) :
    X.testRenderer n dev (some text) (some css) size ≠ .ok (dev', false) := by
  intro h
  obtain ⟨root', e', h1, h2, h3⟩ := (C73_names hua hX hp hdev size).1 ⟨n, dev', h⟩
  have hre : ∃ er, ElementAt d root er ∧ ¬ Invisible er := by
    clear hi
    induction hd with
    | root he hv => exact ⟨_, he, hv⟩
    | child _ _ _ _ _ ih => exact ih
  obtain ⟨er, hre, hrv⟩ := hre
  have : root = root' := by
    obtain ⟨a, b, hk, _, hout⟩ := h1
    rw [hk] at hr
    by_contra hne
    have : root ∈ a ++ b := by
      simp only [List.mem_append, List.mem_cons] at hr ⊢
      tauto
    have := hout root this
    rw [hre] at this
    exact this
  subst this
  rw [ElementAt] at h2
  rw [hre] at h2
  cases h2
  rcases h3 with h3 | h3
  · exact hrv h3
  · obtain ⟨inl, hs, _⟩ := hd.simple h3
    exact hs.last hi he hbr hv

/-- **C73, blocks in inline elements**: such a page is not drawn if a displayed element (other than the
root element) that is not a block has a block as a child, like `<p>` in `<li>`. -/
theorem C73_block_in_inline (hua : userAgentSheet colors = .ok sheet₀)
    {X : Externals} (hX : X = ⟨cssEngine, markdown, parse, readCss, readAttr, colors, sheet₀, env⟩)
    {text css : ByteArray} {d : Doc} {kids} (hp : PlainPage X text css d kids)
    {dev : RDev} {gs : List Grob} (hdev : dev.Holds gs) (size : PVec2 Length)
    {root p i : NodeId} {e ep : ElementData} (hr : root ∈ kids documentNodeId) (hd : Displayed d kids root p)
    (hne : p ≠ root) (hep : ElementAt d p ep) (hnb : ¬ IsBlock ep)
    (hi : i ∈ kids p) (he : ElementAt d i e) (hb : IsBlock e) (hbr : e.name.localName ≠ "br")
    (n : Nat) (dev' : RDev) :
    X.testRenderer n dev (some text) (some css) size ≠ .ok (dev', false) := by
  intro h
  obtain ⟨root', e', h1, h2, h3⟩ := (C73_names hua hX hp hdev size).1 ⟨n, dev', h⟩
  have hre : ∃ er, ElementAt d root er ∧ ¬ Invisible er := by
    clear hi hne hep
    induction hd with
    | root he hv => exact ⟨_, he, hv⟩
    | child _ _ _ _ _ ih => exact ih
  obtain ⟨er, hre, hrv⟩ := hre
  have : root = root' := by
    obtain ⟨a, b, hk, _, hout⟩ := h1
    rw [hk] at hr
    by_contra hne
    have : root ∈ a ++ b := by
      simp only [List.mem_append, List.mem_cons] at hr ⊢
      tauto
    have := hout root this
    rw [hre] at this
    exact this
  subst this
  rw [ElementAt] at h2
  rw [hre] at h2
  cases h2
  rcases h3 with h3 | h3
  · exact hrv h3
  · obtain ⟨inl, hs, hin⟩ := hd.simple h3
    have := hin hne ep hep hnb
    subst this
    rcases hs.child hi he hb.1 hbr with ⟨_, h, _⟩ | ⟨h, _⟩
    · cases h
    · exact h hb

end

/-! ## Examples -/

theorem legalRun_sound : ∀ {ops : List SinkOp} {d d' : Doc}, legalRun d ops = some d' →
    LegalRun d ops ∧ d.runSink ops = .ok d'
  | [], d, d', h => by simp only [legalRun, Option.some.injEq] at h; subst h; exact ⟨.nil d, rfl⟩
  | op :: ops, d, d', h => by
    simp only [legalRun] at h
    split at h
    · rename_i hl
      split at h
      · rename_i d₁ hs
        obtain ⟨h1, h2⟩ := legalRun_sound h
        exact ⟨.cons (legalCheck_sound hl) hs h1, by simp only [runSink, hs, bind, Except.bind]; exact h2⟩
      · cases h
    · cases h

/-- rendering of a fixed page with the built-in style sheet alone -/
def barePage (ops : List SinkOp) : Externals where
  engine := cssEngine
  markdown t := .ok t
  html _ := .ok ops
  css _ := []
  attr _ := []
  colors := noColors
  userAgent := uaInOrder noColors
  env := ⟨fun st => ⟨st.val .fontSize, 12, 4, 4, GCtx.new⟩, fun _ t => 10 * t.length⟩

/-- the document that these calls make -/
def docOf (ops : List SinkOp) : Doc := (legalRun Doc.new ops).getD Doc.new

/-- a computable check for `barePage_plain` -/
def bareCheck (ops : List SinkOp) : Bool :=
  (legalRun Doc.new ops).isSome && forestCheck (docOf ops) &&
    (List.range (docOf ops).len).all fun i => match ((docOf ops).node i).data with
      | .text t => !t.contains '\x00'
      | _ => true

theorem barePage_plain {ops : List SinkOp} (h : bareCheck ops = true) :
    PlainPage (barePage ops) ⟨#[0x61]⟩ ⟨#[]⟩ (docOf ops) (linkedKids (docOf ops)) := by
  simp only [bareCheck, Bool.and_eq_true] at h
  obtain ⟨⟨h1, h2⟩, h3⟩ := h
  obtain ⟨d, hd⟩ := Option.isSome_iff_exists.1 h1
  have hdoc : docOf ops = d := by simp [docOf, hd]
  obtain ⟨k1, k2⟩ := legalRun_sound hd
  refine ⟨⟨['a'], ops, .inl ⟨['a'], by decide +kernel, rfl⟩, rfl, k1, by rw [hdoc]; exact k2⟩,
    forestCheck_wf h2, ⟨[], .inl (by decide +kernel), ?_, ?_⟩, ?_⟩
  · exact legible_css (userAgentSheet_eq _) (forestCheck_wf h2) (by simp) (by
      intro n e a _ _ _ name ts hm
      simp at hm)
  · refine ⟨fun t _ sels items b hr => ?_, ?_⟩
    · exact absurd hr (List.not_mem_nil (a := RawRule.rule sels items))
    · intro n e a b _ _ _ hb
      have : Block.parse noColors [] = .ok b := hb
      have h0 : Block.parse noColors [] = .ok Block.empty := rfl
      rw [h0] at this
      cases this
      simp [Block.entries, Block.empty]
  · intro i t hi ht hn
    have := List.all_eq_true.1 h3 i (List.mem_range.2 hi)
    simp only [ht] at this
    simp [hn] at this

/-- `<head></head><p>a<b>b</b></p><script></script>c` -/
def drawnOps : List SinkOp :=
  [.createElement (htmlName "html") [], .append 1 (.node 2),
   .createElement (htmlName "head") [], .append 2 (.node 3),
   .createElement (htmlName "body") [], .append 2 (.node 4),
   .createElement (htmlName "p") [], .append 4 (.node 5), .append 5 (.text "a".toList),
   .createElement (htmlName "b") [], .append 5 (.node 7), .append 7 (.text "b".toList),
   .createElement (htmlName "script") [], .append 4 (.node 9), .append 4 (.text "c".toList)]

/-- `<p>a</p><script></script>` -/
def scriptOps : List SinkOp :=
  [.createElement (htmlName "html") [], .append 1 (.node 2),
   .createElement (htmlName "head") [], .append 2 (.node 3),
   .createElement (htmlName "body") [], .append 2 (.node 4),
   .createElement (htmlName "p") [], .append 4 (.node 5), .append 5 (.text "a".toList),
   .createElement (htmlName "script") [], .append 4 (.node 7)]

/-- `<ul><li><p>a</p></li></ul>`, as for a list in Markdown with empty lines between the items -/
def looseOps : List SinkOp :=
  [.createElement (htmlName "html") [], .append 1 (.node 2),
   .createElement (htmlName "head") [], .append 2 (.node 3),
   .createElement (htmlName "body") [], .append 2 (.node 4),
   .createElement (htmlName "ul") [], .append 4 (.node 5),
   .createElement (htmlName "li") [], .append 5 (.node 6),
   .createElement (htmlName "p") [], .append 6 (.node 7), .append 7 (.text "a".toList)]

instance (d : Doc) (n : NodeId) (e : ElementData) : Decidable (ElementAt d n e) :=
  inferInstanceAs (Decidable (_ = _))

theorem not_invisible {name : String} (h : name ∉ invisibleElements) : ¬ Invisible ⟨htmlName name, []⟩ := by
  rintro (⟨_, a, ha, _⟩ | ⟨⟨a, ha, _⟩, _⟩ | h')
  · simp at ha
  · simp at ha
  · exact h h'

theorem name_block {name : String} (h : name ∉ invisibleElements) :
    IsBlock ⟨htmlName name, []⟩ ↔ name ∈ blockElements :=
  ⟨fun h => h.2.1, fun hb => ⟨not_invisible h, hb, by rintro ⟨a, ha, _⟩; simp at ha⟩⟩

-- a page that is drawn: the `<script>` is not the last element
example : ∃ n dev', (barePage drawnOps).testRenderer n (RDev.new 0) (some ⟨#[0x61]⟩) (some ⟨#[]⟩) ⟨100, 100⟩ =
    .ok (dev', false) := by
  refine (C73_names (userAgentSheet_eq _) rfl (barePage_plain (by decide +kernel)) (RDev.new_holds 0) _).2
    ⟨2, ⟨htmlName "html", []⟩, ⟨[], [], by decide +kernel, ⟨⟨htmlName "html", []⟩, by decide +kernel⟩, by simp⟩,
      by decide +kernel, .inr ?_⟩
  have k2 : linkedKids (docOf drawnOps) 2 = [3, 4] := by decide +kernel
  have k3 : linkedKids (docOf drawnOps) 3 = [] := by decide +kernel
  have k4 : linkedKids (docOf drawnOps) 4 = [5, 9, 10] := by decide +kernel
  have k5 : linkedKids (docOf drawnOps) 5 = [6, 7] := by decide +kernel
  have k7 : linkedKids (docOf drawnOps) 7 = [8] := by decide +kernel
  have text : ∀ i ∈ [6, 8, 10], ¬ IsElement (docOf drawnOps) i := by
    have : ∀ i ∈ [6, 8, 10], ((docOf drawnOps).node i).data.asElement = none := by decide +kernel
    rintro i hi ⟨e, he⟩
    have := this i hi
    rw [he] at this
    cases this
  have head : ElementAt (docOf drawnOps) 3 ⟨htmlName "head", []⟩ := by decide +kernel
  have body : ElementAt (docOf drawnOps) 4 ⟨htmlName "body", []⟩ := by decide +kernel
  have p : ElementAt (docOf drawnOps) 5 ⟨htmlName "p", []⟩ := by decide +kernel
  have b : ElementAt (docOf drawnOps) 7 ⟨htmlName "b", []⟩ := by decide +kernel
  have script : ElementAt (docOf drawnOps) 9 ⟨htmlName "script", []⟩ := by decide +kernel
  rw [k2]
  refine .invisible head (by decide) (.inr (.inr (by decide))) (by simp)
    (.block body (by decide) ((name_block (by decide)).2 (by decide)) ?_ .nil)
  rw [k4]
  refine .block p (by decide) ((name_block (by decide)).2 (by decide)) ?_
    (.invisible script (by decide) (.inr (.inr (by decide))) (by simp) (.other (text 10 (by simp)) .nil))
  rw [k5]
  refine .other (text 6 (by simp)) (.inline b (by decide) (not_invisible (by decide))
    (fun h => absurd ((name_block (by decide)).1 h) (by decide)) ?_ .nil)
  rw [k7]
  exact .other (text 8 (by simp)) .nil

-- C72 applies to this page as well
example : ∃ author, (barePage drawnOps).parseStylesheets (docOf drawnOps) (some []) = .ok author ∧
    ((∃ n dev', (barePage drawnOps).testRenderer n (RDev.new 0) (some ⟨#[0x61]⟩) (some ⟨#[]⟩) ⟨100, 100⟩ =
        .ok (dev', false)) ↔
      Supported (.of noColors (barePage drawnOps).attr (uaInOrder noColors) author (docOf drawnOps)
        (barePage drawnOps).env) (linkedKids (docOf drawnOps))) := by
  have hc : bareCheck drawnOps = true := by decide +kernel
  have hl : Legible (barePage drawnOps) (docOf drawnOps) (linkedKids (docOf drawnOps)) [] :=
    legible_css (userAgentSheet_eq _) (barePage_plain hc).tree (by simp) (by
      intro n e a _ _ _ name ts hm
      simp at hm)
  obtain ⟨html, ops, h1, h2, h3, h4⟩ := (barePage_plain hc).parsed
  obtain ⟨a, h5, h6, -⟩ := C72_supported (barePage drawnOps) h1 (css := ⟨#[]⟩) (sheet := [])
    (.inl (by decide +kernel)) h2 h3 h4 (barePage_plain hc).tree hl (barePage_plain hc).nulFree
    (RDev.new_holds 0) ⟨100, 100⟩
  exact ⟨a, h5, h6⟩

-- a page that is not drawn: the last element of the body is a `<script>`
example (n : Nat) (dev' : RDev) (size : PVec2 Length) : (barePage scriptOps).testRenderer n (RDev.new 0)
    (some ⟨#[0x61]⟩) (some ⟨#[]⟩) size ≠ .ok (dev', false) :=
  C73_ends_invisible (root := 2) (p := 4) (i := 7) (e := ⟨htmlName "script", []⟩) (userAgentSheet_eq _) rfl
    (barePage_plain (by decide +kernel)) (RDev.new_holds 0) size
    (by decide +kernel)
    (.child (e := ⟨htmlName "body", []⟩) (.root (e := ⟨htmlName "html", []⟩) (by decide +kernel)
      (not_invisible (by decide))) (by decide +kernel) (by decide +kernel) (not_invisible (by decide)) (by decide))
    (by decide +kernel) (by decide +kernel) (.inr (.inr (by decide))) (by decide) n dev'

-- a page that is not drawn: a paragraph in an item of a list
example (n : Nat) (dev' : RDev) (size : PVec2 Length) : (barePage looseOps).testRenderer n (RDev.new 0)
    (some ⟨#[0x61]⟩) (some ⟨#[]⟩) size ≠ .ok (dev', false) :=
  C73_block_in_inline (root := 2) (p := 6) (i := 7) (ep := ⟨htmlName "li", []⟩) (e := ⟨htmlName "p", []⟩)
    (userAgentSheet_eq _) rfl
    (barePage_plain (by decide +kernel)) (RDev.new_holds 0) size
    (by decide +kernel)
    (.child (p := 5) (e := ⟨htmlName "li", []⟩) (.child (p := 4) (e := ⟨htmlName "ul", []⟩) (.child (e := ⟨htmlName "body", []⟩)
      (.root (e := ⟨htmlName "html", []⟩) (by decide +kernel) (not_invisible (by decide)))
      (by decide +kernel) (by decide +kernel) (not_invisible (by decide)) (by decide))
      (by decide +kernel) (by decide +kernel) (not_invisible (by decide)) (by decide))
      (by decide +kernel) (by decide +kernel) (not_invisible (by decide)) (by decide))
    (by decide) (by decide +kernel) (fun h => absurd ((name_block (by decide)).1 h) (by decide))
    (by decide +kernel) (by decide +kernel) ((name_block (by decide)).2 (by decide)) (by decide) n dev'

theorem barePage_sheets (ops : List SinkOp) (d : Doc) (css : Option Text) :
    (barePage ops).parseStylesheets d css = do
      let _ ← d.stylesheetTexts d.len css
      return ⟨[]⟩ := by
  have key : ∀ texts : List Text, StyleSet.addStylesheets (barePage ops).colors ⟨[]⟩
      (texts.map (barePage ops).css) = .ok ⟨[]⟩ := by
    intro texts
    induction texts with
    | nil => rfl
    | cons t ts ih => exact ih
  unfold Externals.parseStylesheets
  simp only [key, bind, Except.bind, pure, Except.pure]
  have : StyleSet.finish (S := (barePage ops).engine) ⟨[]⟩ = ⟨[]⟩ := by simp [StyleSet.finish]
  rw [this]

-- what becomes of these pages: drawn, an endless loop (see C59), and an abort of the process (see C36)
example : labels ((barePage drawnOps).renderMarkdown 80 [⟨#[0x61]⟩] [⟨#[]⟩] 1 1) = some ["a", "b", "c"] ∧
    failure ((barePage scriptOps).renderMarkdown 80 [⟨#[0x61]⟩] [⟨#[]⟩] 1 1) = some .outOfFuel ∧
    failure ((barePage looseOps).renderMarkdown 80 [⟨#[0x61]⟩] [⟨#[]⟩] 1 1) = some .abort := by
  unfold Externals.renderMarkdown Externals.testRenderer Externals.renderHtml Externals.layoutHtml
    Externals.layoutDoc
  simp only [barePage_sheets]
  decide +kernel

end Sinab
