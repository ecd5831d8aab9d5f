import Verif.Lemmas.SameContent

/-! # The drawing is determined by the elements and texts of the document: C83 -/

namespace Sinab

open Doc

/-! ## The root element -/

theorem Alike.outside {txt : Text → Text → Prop} {ends : Prop} {d d' : Doc} {kids kids' : NodeId → List NodeId} {l l' : List NodeId}
    (h : Alike txt ends d kids d' kids' l l') (hl : ∀ x ∈ l, (d.node x).data.Outside) :
    ∀ x ∈ l', (d'.node x).data.Outside := by
  induction h with
  | nil => simp
  | @text i _ _ _ t _ h1 _ _ _ _ =>
    have := hl i (by simp)
    rw [h1] at this
    exact absurd this id
  | @elem i _ _ _ e h1 _ _ _ _ _ _ =>
    have := hl i (by simp)
    rw [ElementAt] at h1
    rw [h1] at this
    exact absurd this id
  | left _ _ ih => exact ih fun x hx => hl x (by simp [hx])
  | right h _ ih =>
    intro x hx
    rcases List.mem_cons.1 hx with rfl | hx
    · exact h
    · exact ih hl x hx

theorem OneRoot.lt {d : Doc} {kids} (hw : d.WF kids) {root : NodeId} (h : OneRoot d kids root) :
    root < d.len := by
  obtain ⟨a, b, hk, _⟩ := h
  exact (hw.bound documentNodeId root (by rw [hk]; simp)).2

theorem OneRoot.unique {d : Doc} {kids} (hd : Reachable d) (hw : d.WF kids) {r r' : NodeId}
    (h : OneRoot d kids r) (h' : OneRoot d kids r') : r = r' := by
  have h1 := (rootElement_iff hd hw r).2 h
  have h2 := (rootElement_iff hd hw r').2 h'
  rw [h1] at h2
  exact Except.ok.inj h2

theorem OneRoot.same {txt : Text → Text → Prop} {ends : Prop} {d d' : Doc} {kids kids' : NodeId → List NodeId} (hw : d.WF kids)
    (ht : SameTree txt ends d kids d' kids') {root : NodeId} (h : OneRoot d kids root) :
    ∃ root', OneRoot d' kids' root' ∧ Counterpart txt ends d kids d' kids' root root' := by
  obtain ⟨a, b, hk, he, ho⟩ := h
  rcases Alike.find ht with ⟨hn, -⟩ | ⟨x, i, y, x', i', y', e1, e2, e3, -, e5, e6, e7⟩
  · rw [List.find?_eq_none] at hn
    exact absurd ((isElem_iff root).2 he) (hn root (by rw [hk]; simp))
  · have hi : i = root := by
      have hm : i ∈ kids documentNodeId := by rw [e1]; simp
      rw [hk] at hm
      simp only [List.mem_append, List.mem_cons] at hm
      have hie : isElem d i = true := by
        obtain ⟨⟨e, h1, -⟩, -⟩ := e7
        exact (isElem_iff i).2 ⟨e, h1⟩
      by_contra hne
      have : (d.node i).data.Outside := ho i (by simp; rcases hm with h | h | h; exacts [.inl h, absurd h hne, .inr h])
      rw [Outside.not_elem this] at hie
      cases hie
    subst hi
    obtain ⟨rfl, rfl⟩ := split_nodup (hw.nodup documentNodeId) hk e1
    have hab : Alike txt ends d kids d' kids' (a ++ b) (x' ++ y') := e5.append e6
    obtain ⟨⟨e, h1, h2⟩, -⟩ := id e7
    exact ⟨i', ⟨x', y', e2, ⟨e, h2⟩, hab.outside ho⟩, .top (.of e1 e2 e5 e6 e7)⟩

/-! ## Boxes -/

/-- the block formatting context of the page, from style and content of the root element -/
def rootBfc (st : Style) (c : BlockContainer) (floats : Bool) : Bfc :=
  if (st.val .position).isAbsolutelyPositioned then
    .mk (.blockLevelBoxes [.outOfFlowAbsolutelyPositionedBox st (.mk c floats)]) false
  else if (st.val .float).isFloating then
    .mk (.blockLevelBoxes [.outOfFlowFloatBox st (.mk c floats)]) true
  else .mk (.blockLevelBoxes [.independent st (.mk c floats)]) false

/-- which boxes the page has -/
theorem boxTree_eq {C : BoxContext} {kids} (hd : Reachable C.doc) (hw : C.doc.WF kids) {b : Bfc} {root : NodeId}
    {st : Style} (hr : OneRoot C.doc kids root) (hst : C.styleOf root none = .ok st) :
    (st.val .display = .none → ((∃ n, boxTree C n = .ok b) ↔ b = .mk (.blockLevelBoxes []) false)) ∧
    (st.val .display ≠ .none → ∀ cs, Shows C kids st (kids root) cs →
      ((∃ n, boxTree C n = .ok b) ↔ goodContent cs = true ∧
        b = rootBfc st (containerOf C st cs).1 (containerOf C st cs).2.1)) := by
  have hr' := (rootElement_iff hd hw root).2 hr
  have hfresh : ∀ l, Fresh' LayoutData.fresh l := fun l _ _ => rfl
  refine ⟨fun hn => ?_, fun hn cs hcs => ?_⟩
  · have : ∀ n, boxTree C n = .ok (.mk (.blockLevelBoxes []) false) := by
      intro n
      unfold boxTree constructRoot
      simp only [hr', hst, bind, Except.bind, if_pos hn]
      rfl
    simp only [this, Except.ok.injEq]
    exact ⟨fun ⟨_, h⟩ => h.symm, fun h => ⟨0, h.symm⟩⟩
  · have key : ∀ n r, constructContainer C n st root LayoutData.fresh = .ok r →
        boxTree C n = .ok (rootBfc st r.1 r.2.1) := by
      intro n r h
      unfold boxTree constructRoot rootBfc
      by_cases hp : (st.val .position).isAbsolutelyPositioned = true
      · simp only [hr', hst, bind, Except.bind, if_neg hn, h, if_pos hp]
        rfl
      · by_cases hf : (st.val .float).isFloating = true
        · simp only [hr', hst, bind, Except.bind, if_neg hn, h, if_neg hp, if_pos hf]
          rfl
        · simp only [hr', hst, bind, Except.bind, if_neg hn, h, if_neg hp, if_neg hf]
          rfl
    have hlt := hr.lt hw
    constructor
    · rintro ⟨n, h⟩
      cases hc : constructContainer C n st root LayoutData.fresh with
      | error p =>
        unfold boxTree constructRoot at h
        simp only [hr', hst, bind, Except.bind, if_neg hn, hc] at h
        cases h
      | ok r =>
        rw [key n r hc] at h
        obtain ⟨h1, h2⟩ := construct_result hw hlt hcs (hfresh _) hc
        subst h2
        exact ⟨h1, (Except.ok.inj h).symm⟩
    · rintro ⟨hg, rfl⟩
      obtain ⟨n, r, h⟩ := (construct_iff hw hlt hcs (hfresh _)).2 hg
      obtain ⟨-, h2⟩ := construct_result hw hlt hcs (hfresh _) h
      exact ⟨n, by rw [key n r h, h2]⟩

section

variable {txt : Text → Text → Prop} {ends : Prop} {C C' : BoxContext} {kids kids' : NodeId → List NodeId}
  (hd : Reachable C.doc) (hd' : Reachable C'.doc) (hw : C.doc.WF kids) (hw' : C'.doc.WF kids')
  (ht : SameTree txt ends C.doc kids C'.doc kids')
  (hs : ∀ i p, i < C.doc.len → ∃ s, C.styleOf i p = .ok s)
  (hC : ∀ i i', Counterpart txt ends C.doc kids C'.doc kids' i i' → ∀ p, C.styleOf i p = C'.styleOf i' p)
  (hbox : ∀ root st cs cs', C.doc.rootElement C.doc.len = .ok root → C.styleOf root none = .ok st →
    Shows C kids st (kids root) cs → SameContent txt ends cs cs' →
    (containerOf C st cs).1 = (containerOf C' st cs').1 ∧ (containerOf C st cs).2.1 = (containerOf C' st cs').2.1)

include hd hd' hw hw' ht hs hC hbox

/-- The boxes of documents with the same elements and texts. -/
theorem boxTree_same : ∃ good good' : Prop, ∃ b₀, (ends → (good ↔ good')) ∧
    (∀ b, (∃ n, boxTree C n = .ok b) ↔ good ∧ b = b₀) ∧ (∀ b, (∃ n, boxTree C' n = .ok b) ↔ good' ∧ b = b₀) := by
  by_cases hr : ∃ root, OneRoot C.doc kids root
  · obtain ⟨root, hr⟩ := hr
    obtain ⟨root', hr', hcp⟩ := hr.same hw ht
    obtain ⟨st, hst⟩ := hs root none (hr.lt hw)
    have hst' : C'.styleOf root' none = .ok st := by rw [← hC root root' hcp, hst]
    by_cases hdisp : st.val .display = .none
    · refine ⟨True, True, .mk (.blockLevelBoxes []) false, fun _ => Iff.rfl, fun b => ?_, fun b => ?_⟩
      · simpa using (boxTree_eq hd hw hr hst).1 hdisp
      · simpa using (boxTree_eq hd' hw' hr' hst').1 hdisp
    · obtain ⟨l, hl⟩ := hw.treeOrder (kids root) fun x hx => (hw.bound root x hx).2
      obtain ⟨cs, hcs⟩ := Shows.exists hw hs hl st fun x hx => (hw.bound root x hx).2
      obtain ⟨cs', hcs', h1, h2⟩ := content_same hC hcp hcs
      obtain ⟨e1, e2⟩ := hbox root st cs cs' ((rootElement_iff hd hw root).2 hr) hst hcs h1
      refine ⟨goodContent cs = true, goodContent cs' = true,
        rootBfc st (containerOf C st cs).1 (containerOf C st cs).2.1, fun he => by rw [h2 he],
        fun b => (boxTree_eq hd hw hr hst).2 hdisp cs hcs, fun b => ?_⟩
      rw [e1, e2]
      exact (boxTree_eq hd' hw' hr' hst').2 hdisp cs' hcs'
  · have hr' : ¬ ∃ root', OneRoot C'.doc kids' root' := by
      rintro ⟨root', hr'⟩
      obtain ⟨root, h, -⟩ := hr'.same hw' (Alike.symm ht)
      exact hr ⟨root, h⟩
    have key : ∀ {C : BoxContext} {kids}, Reachable C.doc → C.doc.WF kids → (¬ ∃ root, OneRoot C.doc kids root) →
        ∀ b, ¬ ∃ n, boxTree C n = .ok b := by
      rintro C kids hd hw hr b ⟨n, h⟩
      unfold boxTree at h
      obtain ⟨root, h1, -⟩ := bind_eq_ok.1 h
      exact hr ⟨root, (rootElement_iff hd hw root).1 h1⟩
    refine ⟨False, False, .mk (.blockLevelBoxes []) false, fun _ => Iff.rfl, fun b => ?_, fun b => ?_⟩
    · simpa using key hd hw hr b
    · simpa using key hd' hw' hr' b

end

/-! ## Drawing -/

/-- the texts of the style elements of the documents are the same -/
def SameSheets (d : Doc) (kids : NodeId → List NodeId) (d' : Doc) (kids' : NodeId → List NodeId) : Prop :=
  (cssStyleElements d).map (textOf d kids) = (cssStyleElements d').map (textOf d' kids')

theorem parseStylesheets_same {X : Externals} {d d' : Doc} {kids kids'} (hd : Reachable d) (hd' : Reachable d')
    (hw : d.WF kids) (hw' : d'.WF kids') (h : SameSheets d kids d' kids') (css : Option Text) :
    X.parseStylesheets d css = X.parseStylesheets d' css := by
  unfold Externals.parseStylesheets
  rw [C15_sheets hd hw css le_rfl, C15_sheets hd' hw' css le_rfl, h]

/-- the layouts of documents with the same elements and texts -/
theorem layoutDoc_same {X : Externals} {txt : Text → Text → Prop} (hS : X.engine.ReadsTree txt) {ends : Prop} {d d' : Doc} {kids kids'}
    (hd : Reachable d) (hd' : Reachable d') (hw : d.WF kids) (hw' : d'.WF kids')
    (ht : SameTree txt ends d kids d' kids') (hsh : SameSheets d kids d' kids') {sheet : Text}
    (hl : Legible X d kids sheet)
    (hbox : ∀ a, X.parseStylesheets d (some sheet) = .ok a → ∀ root st cs cs', d.rootElement d.len = .ok root →
      styleForElement X.colors X.attr X.userAgent a d root none = .ok st →
      Shows (.of X.colors X.attr X.userAgent a d X.env) kids st (kids root) cs → SameContent txt ends cs cs' →
      (containerOf (.of X.colors X.attr X.userAgent a d X.env) st cs).1 =
        (containerOf (.of X.colors X.attr X.userAgent a d' X.env) st cs').1 ∧
      (containerOf (.of X.colors X.attr X.userAgent a d X.env) st cs).2.1 =
        (containerOf (.of X.colors X.attr X.userAgent a d' X.env) st cs').2.1)
    (size : PVec2 Length) :
    ∃ good good' : Prop, ∃ fs₀, (ends → (good ↔ good')) ∧
      (∀ fs, (∃ n, X.layoutDoc n d size (some sheet) = .ok fs) ↔ good ∧ fs = fs₀) ∧
      (∀ fs, (∃ n, X.layoutDoc n d' size (some sheet) = .ok fs) ↔ good' ∧ fs = fs₀) := by
  obtain ⟨a, ha, hans⟩ := hl.author hd hw
  have ha' := ha
  rw [parseStylesheets_same hd hd' hw hw' hsh] at ha'
  obtain ⟨good, good', b₀, h1, h2, h3⟩ := boxTree_same (ends := ends)
    (C := .of X.colors X.attr X.userAgent a d X.env) (C' := .of X.colors X.attr X.userAgent a d' X.env)
    hd hd' hw hw' ht (fun i p hi => hl.style hans i p hi)
    (fun i i' hi p => styleForElement_same hS hd hd' hw hw' ht hi _ _ _ _ p) (hbox a ha)
  have key : ∀ (d : Doc) (good : Prop), X.parseStylesheets d (some sheet) = .ok a →
      (∀ b, (∃ n, boxTree (.of X.colors X.attr X.userAgent a d X.env) n = .ok b) ↔ good ∧ b = b₀) →
      ∀ fs, (∃ n, X.layoutDoc n d size (some sheet) = .ok fs) ↔
        good ∧ (do
          let fs ← rootLayout X.env b₀ size
          if hasNulAll fs then .error Panic.interiorNul else .ok fs) = .ok fs := by
    intro d good ha h fs
    constructor
    · rintro ⟨n, hn⟩
      unfold Externals.layoutDoc at hn
      obtain ⟨a', h0, hn⟩ := bind_eq_ok.1 hn
      rw [ha] at h0
      cases h0
      obtain ⟨b, h4, h5⟩ := bind_eq_ok.1 hn
      obtain ⟨hg, hb⟩ := (h b).1 ⟨n, h4⟩
      rw [hb] at h5
      exact ⟨hg, h5⟩
    · rintro ⟨hg, hn⟩
      obtain ⟨n, h1⟩ := (h b₀).2 ⟨hg, rfl⟩
      refine ⟨n, ?_⟩
      unfold Externals.layoutDoc
      simp only [ha, h1, bind, Except.bind]
      exact hn
  cases hres : (do
      let fs ← rootLayout X.env b₀ size
      if hasNulAll fs then .error Panic.interiorNul else .ok fs : Except Panic (List Fragment)) with
  | error p =>
    refine ⟨False, False, [], fun _ => Iff.rfl, fun fs => ?_, fun fs => ?_⟩
    · rw [key d good ha h2, hres]; simp
    · rw [key d' good' ha' h3, hres]; simp
  | ok fs₀ =>
    refine ⟨good, good', fs₀, h1, fun fs => ?_, fun fs => ?_⟩
    · rw [key d good ha h2, hres]; simp [eq_comm]
    · rw [key d' good' ha' h3, hres]; simp [eq_comm]

/-- the text is read as the document `d`, without violating the rules of the tree builder -/
def Externals.Reads (X : Externals) (text : ByteArray) (d : Doc) : Prop :=
  ∃ html ops, X.Html text html ∧ X.html html = .ok ops ∧ LegalRun Doc.new ops ∧ Doc.new.runSink ops = .ok d

theorem Externals.Reads.reachable {X : Externals} {text : ByteArray} {d : Doc} (h : X.Reads text d) :
    Reachable d := by
  obtain ⟨html, ops, -, -, hleg, hrun⟩ := h
  obtain ⟨d', h1, h2⟩ := hleg.reachable Reachable.new
  rw [hrun] at h1
  cases h1
  exact h2

/-- what is drawn for a text is what is painted for the layout of its document -/
theorem drawn_iff {X : Externals} {text css : ByteArray} {d : Doc} (h : X.Reads text d) {sheet : Text}
    (hc : Decodes css sheet) {dev : RDev} {gs : List Grob} (hdev : dev.Holds gs) (size : PVec2 Length)
    (dev' : RDev) : (∃ n, X.testRenderer n dev (some text) (some css) size = .ok (dev', false)) ↔
      ∃ fs, (∃ n, X.layoutDoc n d size (some sheet) = .ok fs) ∧
        dev.execAll (paintPage size fs).calls = .ok dev' := by
  obtain ⟨html, ops, h1, h2, h3, h4⟩ := h
  have he : ∀ n, X.layoutHtml n html sheet size = X.layoutDoc n d size (some sheet) := by
    intro n
    simp only [Externals.layoutHtml, Externals.parseHtml, h2, h4, bind, Except.bind]
  constructor
  · rintro ⟨n, hn⟩
    rcases C59_all_or_nothing X h1 hc n hdev size false hn with ⟨h, -⟩ | ⟨-, fs, h5, h6⟩
    · cases h
    · exact ⟨fs, ⟨n, by rw [← he, h5]⟩, h6⟩
  · rintro ⟨fs, ⟨n, hn⟩, hx⟩
    obtain ⟨dev2, h5, -⟩ := C59_drawn X h1 hc n hdev size fs (by rw [he, hn])
    rcases C59_all_or_nothing X h1 hc n hdev size false h5 with ⟨h, -⟩ | ⟨-, fs', h6, h7⟩
    · cases h
    · rw [he, hn] at h6
      cases h6
      rw [hx] at h7
      cases h7
      exact ⟨n, h5⟩

/-! ### C83 -/

/-- **C83** Whether a selector matches an element depends on the elements and texts of the document
only: comments, processing instructions, the doctype and the numbers of the nodes do not matter. -/
theorem C83_selectors : cssEngine.ReadsTree Eq :=
  fun _ _ _ _ hd hd' hw hw' _ _ _ hi s => hi.selector (by rintro _ _ rfl; rfl) hd hd' hw hw' s

/-- **C83, full statement**: two texts whose documents have the same elements and texts, and the same
style sheets, are drawn in the same way, or none of them is drawn. -/
def C83_full : Prop :=
  ∀ (X : Externals), X.engine.ReadsTree Eq → ∀ (text text' css : ByteArray) (sheet : Text) (d d' : Doc)
    (kids kids' : NodeId → List NodeId), X.Reads text d → X.Reads text' d' → d.WF kids → d'.WF kids' →
    SameTree Eq False d kids d' kids' → SameSheets d kids d' kids' → Decodes css sheet →
    Legible X d kids sheet → ∀ (dev : RDev) (gs : List Grob), dev.Holds gs → ∀ (size : PVec2 Length) (dev' : RDev),
    (∃ n, X.testRenderer n dev (some text) (some css) size = .ok (dev', false)) ↔
      ∃ n, X.testRenderer n dev (some text') (some css) size = .ok (dev', false)

section

variable {X : Externals} (hS : X.engine.ReadsTree Eq) {text text' css : ByteArray} {sheet : Text} {d d' : Doc}
  {kids kids' : NodeId → List NodeId} (h : X.Reads text d) (h' : X.Reads text' d') (hw : d.WF kids)
  (hw' : d'.WF kids') (hsh : SameSheets d kids d' kids')
  (hc : Decodes css sheet) (hl : Legible X d kids sheet) {dev : RDev} {gs : List Grob} (hdev : dev.Holds gs)
  (size : PVec2 Length)

include hS h h' hw hw' hsh hc hl hdev

/-- **C83, what holds**: if both texts are drawn, then in the same way. -/
theorem C83_drawing_partial (ht : SameTree Eq False d kids d' kids') {n n' : Nat} {r r' : RDev}
    (h1 : X.testRenderer n dev (some text) (some css) size = .ok (r, false))
    (h2 : X.testRenderer n' dev (some text') (some css) size = .ok (r', false)) : r = r' := by
  obtain ⟨good, good', fs₀, -, k2, k3⟩ := layoutDoc_same hS h.reachable h'.reachable hw hw' ht hsh hl (fun _ _ _ _ _ _ _ _ _ h => containerOf_strip (by rfl) _ h.strip) size
  obtain ⟨fs, e1, e2⟩ := (drawn_iff h hc hdev size r).1 ⟨n, h1⟩
  obtain ⟨fs', e3, e4⟩ := (drawn_iff h' hc hdev size r').1 ⟨n', h2⟩
  obtain ⟨-, rfl⟩ := (k2 fs).1 e1
  obtain ⟨-, rfl⟩ := (k3 fs').1 e3
  rw [e2] at e4
  exact Except.ok.inj e4

/-- **C83, what holds**: if, moreover, the content of each element ends with an element in both
documents or in none, then both are drawn or none. -/
theorem C83_same_partial (ht : SameTree Eq True d kids d' kids') (dev' : RDev) :
    (∃ n, X.testRenderer n dev (some text) (some css) size = .ok (dev', false)) ↔
      ∃ n, X.testRenderer n dev (some text') (some css) size = .ok (dev', false) := by
  obtain ⟨good, good', fs₀, k1, k2, k3⟩ := layoutDoc_same hS h.reachable h'.reachable hw hw' ht hsh hl (fun _ _ _ _ _ _ _ _ _ h => containerOf_strip (by rfl) _ h.strip) size
  rw [drawn_iff h hc hdev size, drawn_iff h' hc hdev size]
  refine exists_congr fun fs => and_congr_left' ?_
  rw [k2, k3, k1 trivial]

end

/-! ### Examples -/

/-- doctype, comment or processing instruction -/
def outsideB (d : Doc) (i : NodeId) : Bool :=
  match (d.node i).data with
  | .doctype .. | .comment _ | .pi .. => true
  | _ => false

theorem outsideB_iff {d : Doc} {i : NodeId} (h : outsideB d i = true) : (d.node i).data.Outside := by
  unfold outsideB at h
  cases hd : (d.node i).data <;> rw [hd] at h <;> cases h <;> trivial

/-- a computable `EndsInElement` -/
def endsB (d : Doc) (l : List NodeId) : Bool :=
  match l.getLast? with
  | some i => isElem d i
  | none => false

theorem endsB_iff {d : Doc} {l : List NodeId} : endsB d l = true ↔ EndsInElement d l := by
  unfold endsB EndsInElement
  cases hl : l.getLast? with
  | none =>
    have : l = [] := by simpa using hl
    subst this
    simp
  | some i =>
    obtain ⟨a, rfl⟩ := List.getLast?_eq_some_iff.1 hl
    simp only [isElem_iff]
    constructor
    · exact fun h => ⟨a, i, rfl, h⟩
    · rintro ⟨b, j, h1, h2⟩
      have := List.append_inj_right' h1 rfl
      cases this
      exact h2

/-- a computable check for `Alike` -/
def alikeBy (same : Text → Text → Bool) (strict : Bool) (d : Doc) (kids : NodeId → List NodeId) (d' : Doc) (kids' : NodeId → List NodeId) :
    Nat → List NodeId → List NodeId → Bool
  | 0, _, _ => false
  | n + 1, l, l' => match l with
    | i :: m =>
      if outsideB d i then alikeBy same strict d kids d' kids' n m l' else match l' with
      | i' :: m' =>
        if outsideB d' i' then alikeBy same strict d kids d' kids' n l m' else
        match (d.node i).data, (d'.node i').data with
        | .text t, .text t' => same t t' && alikeBy same strict d kids d' kids' n m m'
        | .element e, .element e' => decide (e = e') && alikeBy same strict d kids d' kids' n (kids i) (kids' i') &&
          (!strict || endsB d (kids i) == endsB d' (kids' i')) && alikeBy same strict d kids d' kids' n m m'
        | _, _ => false
      | [] => false
    | [] => match l' with
      | [] => true
      | i' :: m' => outsideB d' i' && alikeBy same strict d kids d' kids' n [] m'

theorem alikeBy_sound {txt : Text → Text → Prop} {same : Text → Text → Bool}
    (hsame : ∀ t t', same t t' = true → txt t t') {strict : Bool} {d : Doc} {kids} {d' : Doc} {kids'} : ∀ (n : Nat) (l l' : List NodeId),
    alikeBy same strict d kids d' kids' n l l' = true → Alike txt (strict = true) d kids d' kids' l l'
  | 0, _, _, h => by cases h
  | n + 1, [], [], _ => .nil
  | n + 1, [], i' :: m', h => by
    simp only [alikeBy, Bool.and_eq_true] at h
    exact .right (outsideB_iff h.1) (alikeBy_sound hsame n _ _ h.2)
  | n + 1, i :: m, l', h => by
    unfold alikeBy at h
    by_cases hi : outsideB d i = true
    · simp only [hi, if_true] at h
      exact .left (outsideB_iff hi) (alikeBy_sound hsame n _ _ h)
    · simp only [hi, Bool.false_eq_true, if_false] at h
      cases l' with
      | nil => cases h
      | cons i' m' =>
        by_cases hi' : outsideB d' i' = true
        · simp only [hi', if_true] at h
          exact .right (outsideB_iff hi') (alikeBy_sound hsame n _ _ h)
        · simp only [hi', Bool.false_eq_true, if_false] at h
          cases h1 : (d.node i).data with
          | text t =>
            cases h2 : (d'.node i').data with
            | text t' =>
              simp only [h1, h2, Bool.and_eq_true] at h
              exact .text h1 h2 (hsame _ _ h.1) (alikeBy_sound hsame n _ _ h.2)
            | _ => simp only [h1, h2] at h; cases h
          | element e =>
            cases h2 : (d'.node i').data with
            | element e' =>
              simp only [h1, h2, Bool.and_eq_true, decide_eq_true_eq, Bool.or_eq_true, Bool.not_eq_true',
                beq_iff_eq] at h
              obtain ⟨⟨⟨rfl, h3⟩, h4⟩, h5⟩ := h
              refine .elem h1 h2 (alikeBy_sound hsame n _ _ h3) (fun hs => ?_) (alikeBy_sound hsame n _ _ h5)
              rcases h4 with h4 | h4
              · rw [hs] at h4; cases h4
              · rw [← endsB_iff, ← endsB_iff, h4]
            | _ => simp only [h1, h2] at h; cases h
          | _ => simp only [h1] at h; cases h

/-- `alikeBy` for equal texts -/
abbrev alikeB (strict : Bool) (d : Doc) (kids : NodeId → List NodeId) (d' : Doc) (kids' : NodeId → List NodeId) :
    Nat → List NodeId → List NodeId → Bool := alikeBy (fun t t' => decide (t = t')) strict d kids d' kids'

theorem alikeB_sound {strict : Bool} {d : Doc} {kids} {d' : Doc} {kids'} (n : Nat) (l l' : List NodeId)
    (h : alikeB strict d kids d' kids' n l l' = true) : Alike Eq (strict = true) d kids d' kids' l l' :=
  alikeBy_sound (fun _ _ h => by simpa using h) n l l' h

/-- two pages: that of the text `a` and that of all other texts -/
def twoPages (ops ops' : List SinkOp) : Externals :=
  { barePage ops with html := fun t => .ok (if t = ['a'] then ops else ops') }

theorem twoPages_reads {ops ops' : List SinkOp} (h : (legalRun Doc.new ops).isSome = true)
    (h' : (legalRun Doc.new ops').isSome = true) :
    (twoPages ops ops').Reads ⟨#[0x61]⟩ (docOf ops) ∧ (twoPages ops ops').Reads ⟨#[0x62]⟩ (docOf ops') := by
  obtain ⟨d, hd⟩ := Option.isSome_iff_exists.1 h
  obtain ⟨d', hd'⟩ := Option.isSome_iff_exists.1 h'
  obtain ⟨k1, k2⟩ := legalRun_sound hd
  obtain ⟨k3, k4⟩ := legalRun_sound hd'
  refine ⟨⟨['a'], ops, .inl ⟨['a'], by decide +kernel, rfl⟩, rfl, k1, by rw [docOf, hd]; exact k2⟩,
    ⟨['b'], ops', .inl ⟨['b'], by decide +kernel, rfl⟩, rfl, k3, by rw [docOf, hd']; exact k4⟩⟩

theorem twoPages_legible {ops ops' : List SinkOp} {d : Doc} {kids} (hw : d.WF kids) :
    Legible (twoPages ops ops') d kids [] :=
  legible_css (userAgentSheet_eq _) hw
    (fun _ _ sels items hm => absurd hm (List.not_mem_nil (a := RawRule.rule sels items))) (by
    intro n e a _ _ _ name ts hm
    exact absurd hm List.not_mem_nil)

/-- the checks for two pages -/
def twoCheck (strict : Bool) (ops ops' : List SinkOp) : Bool :=
  (legalRun Doc.new ops).isSome && (legalRun Doc.new ops').isSome && forestCheck (docOf ops) &&
    forestCheck (docOf ops') &&
    alikeB strict (docOf ops) (linkedKids (docOf ops)) (docOf ops') (linkedKids (docOf ops')) 40
      (linkedKids (docOf ops) documentNodeId) (linkedKids (docOf ops') documentNodeId) &&
    ((cssStyleElements (docOf ops)).isEmpty && (cssStyleElements (docOf ops')).isEmpty)

structure TwoPages (strict : Bool) (ops ops' : List SinkOp) : Prop where
  left : (twoPages ops ops').Reads ⟨#[0x61]⟩ (docOf ops)
  right : (twoPages ops ops').Reads ⟨#[0x62]⟩ (docOf ops')
  leftForest : (docOf ops).WF (linkedKids (docOf ops))
  rightForest : (docOf ops').WF (linkedKids (docOf ops'))
  same : SameTree Eq (strict = true) (docOf ops) (linkedKids (docOf ops)) (docOf ops') (linkedKids (docOf ops'))
  sheets : SameSheets (docOf ops) (linkedKids (docOf ops)) (docOf ops') (linkedKids (docOf ops'))

theorem twoCheck_sound {strict : Bool} {ops ops' : List SinkOp} (h : twoCheck strict ops ops' = true) :
    TwoPages strict ops ops' := by
  simp only [twoCheck, Bool.and_eq_true, List.isEmpty_iff] at h
  obtain ⟨⟨⟨⟨⟨h1, h2⟩, h3⟩, h4⟩, h5⟩, h6, h7⟩ := h
  obtain ⟨k1, k2⟩ := twoPages_reads h1 h2
  exact ⟨k1, k2, forestCheck_wf h3, forestCheck_wf h4, alikeB_sound _ _ _ h5, by simp [SameSheets, h6, h7]⟩

/-- `<!DOCTYPE html><!--x--><p><!--y-->a<b>b</b></p><script></script>c`, with nodes created in another
order than in `drawnOps` -/
def commentOps : List SinkOp :=
  [.appendDoctype "html".toList [] [], .createComment "x".toList, .append 1 (.node 3),
   .createElement (htmlName "html") [], .append 1 (.node 4), .createElement (htmlName "body") [],
   .createElement (htmlName "head") [], .append 4 (.node 6), .append 4 (.node 5),
   .createElement (htmlName "script") [],
   .createElement (htmlName "p") [], .append 5 (.node 8), .createComment "y".toList, .append 8 (.node 9),
   .append 8 (.text "a".toList), .createElement (htmlName "b") [], .append 8 (.node 11),
   .append 11 (.text "b".toList), .append 5 (.node 7), .append 5 (.text "c".toList)]

-- the two pages are drawn in the same way
example (size : PVec2 Length) (dev' : RDev) :
    (∃ n, (twoPages drawnOps commentOps).testRenderer n (RDev.new 0) (some ⟨#[0x61]⟩) (some ⟨#[]⟩) size =
      .ok (dev', false)) ↔
    ∃ n, (twoPages drawnOps commentOps).testRenderer n (RDev.new 0) (some ⟨#[0x62]⟩) (some ⟨#[]⟩) size =
      .ok (dev', false) := by
  have h : TwoPages true drawnOps commentOps := twoCheck_sound (by decide +kernel)
  exact C83_same_partial C83_selectors h.left h.right h.leftForest h.rightForest h.sheets
    (sheet := []) (.inl (by decide +kernel)) (twoPages_legible h.leftForest) (RDev.new_holds 0) size
    (by simpa using h.same) dev'

theorem twoPages_sheets (ops ops' : List SinkOp) (d : Doc) (css : Option Text) :
    (twoPages ops ops').parseStylesheets d css = do
      let _ ← d.stylesheetTexts d.len css
      return ⟨[]⟩ := barePage_sheets ops d css

/-- is the text drawn? -/
def drawnB (r : Except Panic (RDev × Bool)) : Bool :=
  match r with
  | .ok (_, false) => true
  | _ => false

-- and they are drawn indeed
example : drawnB ((twoPages drawnOps commentOps).testRenderer 80 (RDev.new 0) (some ⟨#[0x61]⟩) (some ⟨#[]⟩)
      ⟨100, 100⟩) = true ∧
    drawnB ((twoPages drawnOps commentOps).testRenderer 80 (RDev.new 0) (some ⟨#[0x62]⟩) (some ⟨#[]⟩)
      ⟨100, 100⟩) = true := by
  unfold Externals.testRenderer Externals.renderHtml Externals.layoutHtml Externals.layoutDoc
  simp only [twoPages_sheets]
  decide +kernel

/-- `<p>a</p><script></script><!--x-->` -/
def trailingOps : List SinkOp := scriptOps ++ [.createComment "x".toList, .append 4 (.node 8)]

theorem trailing_drawn : drawnB ((twoPages scriptOps trailingOps).testRenderer 80 (RDev.new 0)
    (some ⟨#[0x62]⟩) (some ⟨#[]⟩) ⟨100, 100⟩) = true := by
  unfold Externals.testRenderer Externals.renderHtml Externals.layoutHtml Externals.layoutDoc
  simp only [twoPages_sheets]
  decide +kernel

/-- **C83 is false**: `<p>a</p><script></script>` is not drawn, but it is if a comment follows. -/
theorem C83_full_false : ¬ C83_full := by
  intro hfull
  have h : TwoPages false scriptOps trailingOps := twoCheck_sound (by decide +kernel)
  cases hr : (twoPages scriptOps trailingOps).testRenderer 80 (RDev.new 0) (some ⟨#[0x62]⟩) (some ⟨#[]⟩)
      ⟨100, 100⟩ with
  | error p => have := trailing_drawn; rw [hr] at this; cases this
  | ok r =>
    obtain ⟨dev', b⟩ := r
    cases b with
    | true => have := trailing_drawn; rw [hr] at this; cases this
    | false =>
      obtain ⟨n, hn⟩ := (hfull (twoPages scriptOps trailingOps) C83_selectors _ _ _ [] _ _ _ _ h.left h.right
        h.leftForest h.rightForest (by simpa using h.same) h.sheets (.inl (by decide +kernel))
        (twoPages_legible h.leftForest) _ _ (RDev.new_holds 0) ⟨100, 100⟩ dev').2 ⟨80, hr⟩
      have hp := barePage_plain (ops := scriptOps) (by decide +kernel)
      have hp' : PlainPage (twoPages scriptOps trailingOps) ⟨#[0x61]⟩ ⟨#[]⟩ (docOf scriptOps)
          (linkedKids (docOf scriptOps)) := by
        obtain ⟨sheet, k1, k2, k3⟩ := hp.styles
        exact ⟨h.left, h.leftForest, ⟨sheet, k1, ⟨k2.builtIn, k2.sheets, k2.attrs⟩, ⟨k3.sheets, k3.attrs⟩⟩,
          hp.nulFree⟩
      exact C73_ends_invisible (root := 2) (p := 4) (i := 7) (e := ⟨htmlName "script", []⟩) (userAgentSheet_eq _) rfl
        hp' (RDev.new_holds 0) _ (by decide +kernel)
        (.child (e := ⟨htmlName "body", []⟩) (.root (e := ⟨htmlName "html", []⟩) (by decide +kernel)
          (not_invisible (by decide))) (by decide +kernel) (by decide +kernel) (not_invisible (by decide)) (by decide))
        (by decide +kernel) (by decide +kernel) (.inr (.inr (by decide))) (by decide) n dev' hn

-- selectors do not see comments: every selector matches both `<b>` elements or none of them
example (s : ComplexSel) : (docOf drawnOps).matchesSelector s 7 = (docOf commentOps).matchesSelector s 11 := by
  have h : TwoPages false drawnOps commentOps := twoCheck_sound (by decide +kernel)
  have place : ∀ {p p' i i' : NodeId} (e : ElementData) (a b a' b' : List NodeId),
      linkedKids (docOf drawnOps) p = a ++ i :: b → linkedKids (docOf commentOps) p' = a' ++ i' :: b' →
      (alikeB false (docOf drawnOps) (linkedKids (docOf drawnOps)) (docOf commentOps) (linkedKids (docOf commentOps))
        40 a a' && alikeB false (docOf drawnOps) (linkedKids (docOf drawnOps)) (docOf commentOps)
        (linkedKids (docOf commentOps)) 40 b b' && alikeB false (docOf drawnOps) (linkedKids (docOf drawnOps))
        (docOf commentOps) (linkedKids (docOf commentOps)) 40 (linkedKids (docOf drawnOps) i)
        (linkedKids (docOf commentOps) i')) = true →
      ElementAt (docOf drawnOps) i e → ElementAt (docOf commentOps) i' e →
      SamePlace Eq False (docOf drawnOps) (linkedKids (docOf drawnOps)) (docOf commentOps)
        (linkedKids (docOf commentOps)) p p' i i' := by
    intro p p' i i' e a b a' b' h1 h2 h3 h4 h5
    simp only [Bool.and_eq_true] at h3
    exact ⟨a, b, a', b', h1, h2, by simpa using alikeB_sound _ _ _ h3.1.1, by simpa using alikeB_sound _ _ _ h3.1.2,
      ⟨e, h4, h5⟩, by simpa using alikeB_sound _ _ _ h3.2, False.elim⟩
  refine C83_selectors _ _ _ _ h.left.reachable h.right.reachable h.leftForest h.rightForest
    (by simpa using h.same) 7 11 ?_ s
  exact .inside (.inside (.inside (.top
    (place ⟨htmlName "html", []⟩ [] [] [2, 3] [] (i := 2) (i' := 4) (by decide +kernel) (by decide +kernel)
      (by decide +kernel) (by decide +kernel) (by decide +kernel)))
    (place ⟨htmlName "body", []⟩ [3] [] [6] [] (i := 4) (i' := 5) (by decide +kernel) (by decide +kernel)
      (by decide +kernel) (by decide +kernel) (by decide +kernel)))
    (place ⟨htmlName "p", []⟩ [] [9, 10] [] [7, 13] (i := 5) (i' := 8) (by decide +kernel) (by decide +kernel)
      (by decide +kernel) (by decide +kernel) (by decide +kernel)))
    (place ⟨htmlName "b", []⟩ [6] [] [9, 10] [] (by decide +kernel) (by decide +kernel)
      (by decide +kernel) (by decide +kernel) (by decide +kernel))

end Sinab
