import Verif.Lemmas.Respaced
import Verif.Props.Zoom

/-! C91: how white space is written in the source does not matter. -/

namespace Sinab

open Doc

/-! ## Content -/

/-- C91 for content: if the contents of two documents differ only in white space that does not matter, then the pages have
the same boxes, and the same is drawn. -/
theorem C91_document {E : TextEnv} {C C' : BoxContext} {kids kids' : NodeId → List NodeId} {st : Style}
    {cs cs' : List Styled} {b b' : Bfc} {size : PVec2 Length} {fs fs' : List Fragment} (h : Page C E kids st cs b size fs)
    (h' : Page C' E kids' st cs' b' size fs') {after : Bool} (hcs : Respaced False false true after cs cs') :
    b = b' ∧ fs = fs' := by
  have hC : C.fontOf = C'.fontOf := by
    obtain ⟨_, _, _, _, _, _, rfl⟩ := h.context
    obtain ⟨_, _, _, _, _, _, rfl⟩ := h'.context
    rfl
  obtain ⟨c1, c2⟩ := hcs.container hC st
  have hb : b = b' := by rw [h.boxes_eq, h'.boxes_eq, c1, c2]
  subst hb
  exact ⟨rfl, Except.ok.inj (h.laidOut.symm.trans h'.laidOut)⟩

/-- C91 for content: if, moreover, the content of each element ends with a hidden element in both documents or in none,
then the second document is laid out if the first one is. -/
theorem C91_laid_out {S : SelectorEngine} {K : CssColors} {tokenize : AttrTokenizer} {ua author : StyleSet S} {d d' : Doc}
    {E : TextEnv} {kids kids' : NodeId → List NodeId} {st : Style}
    {cs cs' : List Styled} {b : Bfc} {size : PVec2 Length} {fs : List Fragment}
    (h : Page (.of K tokenize ua author d E) E kids st cs b size fs) (hd' : Reachable d') (hw' : d'.WF kids') {root' : NodeId}
    (hr' : OneRoot d' kids' root') (hst' : styleForElement K tokenize ua author d' root' none = .ok st)
    (hs' : Shows (.of K tokenize ua author d' E) kids' st (kids' root') cs') {after : Bool}
    (hcs : Respaced True false true after cs cs') (hends : endsHidden cs = endsHidden cs') :
    Page (.of K tokenize ua author d' E) E kids' st cs' b size fs := by
  refine ⟨hw', ⟨_, _, _, _, _, _, rfl⟩, ⟨root', (rootElement_iff hd' hw' root').2 hr', hr'.lt hw', hst', hs'⟩, h.shown, ?_,
    h.laidOut⟩
  have hg : goodContent cs' = true := by
    rw [← h.tree.1]
    unfold goodContent
    rw [hends, hcs.good trivial]
  refine ((boxTree_eq (C := .of K tokenize ua author d' E) hd' hw' hr' hst').2 h.shown cs' hs').2 ⟨hg, ?_⟩
  obtain ⟨c1, c2⟩ := hcs.container (C' := .of K tokenize ua author d' E) (C := .of K tokenize ua author d E) (by rfl) st
  rw [h.boxes_eq, rootBfc, c1, c2]

/-! ## Texts -/

/-- the white space of a text may be changed if the text is one of `W` -/
def Respelled (W : Text → Prop) (t t' : Text) : Prop := W t ∧ SameWords t t'

theorem SameWords.isEmpty {t t' : Text} (h : SameWords t t') : t.isEmpty = t'.isEmpty := by
  have key : ∀ {t t' : Text}, SameWords t t' → t = [] → t' = [] := by
    rintro t t' h rfl
    cases t' with
    | nil => rfl
    | cons c t' =>
      have hw : Sinab.words (c :: t') = [] := h.words.symm
      have hf : blankFirst (c :: t') = false := h.first.symm
      have hc : htmlSpace c = false := by simpa [blankFirst] using hf
      exact absurd hw (by simpa [Sinab.words, wordsFrom, hc] using wordsFrom_ne_nil t' [c] (by simp))
  rw [Bool.eq_iff_iff, List.isEmpty_iff, List.isEmpty_iff]
  exact ⟨key h, key ⟨h.words.symm, h.first.symm, h.last.symm⟩⟩

/-- C91 for selectors: whether a selector matches an element does not depend on how white space is written in the texts. -/
theorem C91_selectors (W : Text → Prop) : cssEngine.ReadsTree (Respelled W) :=
  fun _ _ _ _ hd hd' hw hw' _ _ _ hi s => hi.selector (fun _ _ h => h.2.isEmpty) hd hd' hw hw' s

theorem SameWords.refl (t : Text) : SameWords t t := ⟨rfl, rfl, rfl⟩

theorem SameContent.respaced {W : Text → Prop} {ends : Prop} {cs cs' : List Styled}
    (h : SameContent (Respelled W) ends cs cs') :
    (∀ p ∈ allTextsOf cs, W p.2 → p.1.keepsSpace = false) → ∀ inl gap, ∃ after, Respaced ends inl gap after cs cs' := by
  induction h with
  | nil => exact fun _ inl gap => ⟨gap, .nil⟩
  | left _ ih =>
    intro hW inl gap
    obtain ⟨a, h⟩ := ih hW inl gap
    exact ⟨a, .otherLeft h⟩
  | right _ ih =>
    intro hW inl gap
    obtain ⟨a, h⟩ := ih hW inl gap
    exact ⟨a, .otherRight h⟩
  | @text st t t' cs cs' ht _ ih =>
    intro hW inl gap
    have ih := ih fun p hp => hW p (by simp [allTextsOf, hp])
    by_cases hk : st.keepsSpace = true
    · rcases ht with rfl | ht
      · obtain ⟨a, h⟩ := ih inl (!t.isEmpty && atGap t)
        exact ⟨a, .kept hk h⟩
      · have := hW (st, t) (by simp [allTextsOf, Styled.allTexts]) ht.1
        rw [hk] at this
        cases this
    · obtain ⟨a, h⟩ := ih inl (blankLast t)
      refine ⟨a, .text (by simpa using hk) ?_ h⟩
      rcases ht with rfl | ht
      · exact .refl t
      · exact ht.2
  | hidden _ ih =>
    intro hW inl gap
    obtain ⟨a, h⟩ := ih hW inl gap
    exact ⟨a, .hidden h⟩
  | contents _ he _ ih1 ih2 =>
    intro hW inl gap
    obtain ⟨m, h1⟩ := ih1 (fun p hp => hW p (by simp [allTextsOf, Styled.allTexts, hp])) inl gap
    obtain ⟨a, h2⟩ := ih2 (fun p hp => hW p (by simp [allTextsOf, hp])) inl m
    exact ⟨a, .contents h1 he h2⟩
  | @elem _ _ st o _ _ _ _ _ _ he _ ih1 ih2 =>
    intro hW inl gap
    cases o with
    | inline =>
      obtain ⟨m, h1⟩ := ih1 (fun p hp => hW p (by simp [allTextsOf, Styled.allTexts, hp])) true true
      obtain ⟨a, h2⟩ := ih2 (fun p hp => hW p (by simp [allTextsOf, hp])) inl (gap && m)
      exact ⟨a, .inline h1 he h2⟩
    | block =>
      obtain ⟨m, h1⟩ := ih1 (fun p hp => hW p (by simp [allTextsOf, Styled.allTexts, hp])) false true
      obtain ⟨a, h2⟩ := ih2 (fun p hp => hW p (by simp [allTextsOf, hp])) inl (gap || !st.outOfFlow)
      exact ⟨a, .block h1 he h2⟩

/-! ## Drawing -/

/-- Texts of the page that are among `W` are shown with collapsed white space. -/
def Collapsed (X : Externals) (d : Doc) (kids : NodeId → List NodeId) (sheet : Text) (W : Text → Prop) : Prop :=
  ∀ a, X.parseStylesheets d (some sheet) = .ok a → ∀ root st cs, d.rootElement d.len = .ok root →
    styleForElement X.colors X.attr X.userAgent a d root none = .ok st →
    Shows (.of X.colors X.attr X.userAgent a d X.env) kids st (kids root) cs →
    ∀ p ∈ allTextsOf cs, W p.2 → p.1.keepsSpace = false

section

variable {X : Externals} {W : Text → Prop} (hS : X.engine.ReadsTree (Respelled W)) {text text' css : ByteArray} {sheet : Text}
  {d d' : Doc} {kids kids' : NodeId → List NodeId} (h : X.Reads text d) (h' : X.Reads text' d') (hw : d.WF kids)
  (hw' : d'.WF kids') (hsh : SameSheets d kids d' kids')
  (hc : Decodes css sheet) (hl : Legible X d kids sheet) (hW : Collapsed X d kids sheet W)
  {dev : RDev} {gs : List Grob} (hdev : dev.Holds gs) (size : PVec2 Length)

include hS h h' hw hw' hsh hl hW

theorem layoutDoc_respelled {ends : Prop} (ht : SameTree (Respelled W) ends d kids d' kids') :
    ∃ good good' : Prop, ∃ fs₀, (ends → (good ↔ good')) ∧
      (∀ fs, (∃ n, X.layoutDoc n d size (some sheet) = .ok fs) ↔ good ∧ fs = fs₀) ∧
      (∀ fs, (∃ n, X.layoutDoc n d' size (some sheet) = .ok fs) ↔ good' ∧ fs = fs₀) := by
  refine layoutDoc_same hS h.reachable h'.reachable hw hw' ht hsh hl ?_ size
  intro a ha root st cs cs' hr hst hs hsc
  obtain ⟨after, hres⟩ := hsc.respaced (hW a ha root st cs hr hst hs) false true
  exact hres.container (by rfl) st

include hc hdev

/-- C91: if the texts of two documents differ only in how white space is written, and both are drawn, then in the same
way. -/
theorem C91_drawing (ht : SameTree (Respelled W) False d kids d' kids') {n n' : Nat} {r r' : RDev}
    (h1 : X.testRenderer n dev (some text) (some css) size = .ok (r, false))
    (h2 : X.testRenderer n' dev (some text') (some css) size = .ok (r', false)) : r = r' := by
  obtain ⟨good, good', fs₀, -, k2, k3⟩ := layoutDoc_respelled hS h h' hw hw' hsh hl hW size ht
  obtain ⟨fs, e1, e2⟩ := (drawn_iff h hc hdev size r).1 ⟨n, h1⟩
  obtain ⟨fs', e3, e4⟩ := (drawn_iff h' hc hdev size r').1 ⟨n', h2⟩
  obtain ⟨-, rfl⟩ := (k2 fs).1 e1
  obtain ⟨-, rfl⟩ := (k3 fs').1 e3
  rw [e2] at e4
  exact Except.ok.inj e4

/-- C91: if, moreover, the content of each element ends with an element in both documents or in none, then both are drawn,
in the same way, or none. -/
theorem C91_same (ht : SameTree (Respelled W) True d kids d' kids') (dev' : RDev) :
    (∃ n, X.testRenderer n dev (some text) (some css) size = .ok (dev', false)) ↔
      ∃ n, X.testRenderer n dev (some text') (some css) size = .ok (dev', false) := by
  obtain ⟨good, good', fs₀, k1, k2, k3⟩ := layoutDoc_respelled hS h h' hw hw' hsh hl hW size ht
  rw [drawn_iff h hc hdev size, drawn_iff h' hc hdev size]
  refine exists_congr fun fs => and_congr_left' ?_
  rw [k2, k3, k1 trivial]

end


/-! ## Examples -/

instance (t t' : Text) : Decidable (SameWords t t') :=
  decidable_of_iff (words t = words t' ∧ blankFirst t = blankFirst t' ∧ blankLast t = blankLast t')
    ⟨fun ⟨a, b, c⟩ => ⟨a, b, c⟩, fun ⟨a, b, c⟩ => ⟨a, b, c⟩⟩

instance (t t' : Text) : Decidable (SameWordsAtStart t t') :=
  decidable_of_iff (words t = words t' ∧ (words t ≠ [] → blankLast t = blankLast t'))
    ⟨fun ⟨a, b⟩ => ⟨a, b⟩, fun ⟨a, b⟩ => ⟨a, b⟩⟩

instance (t : Text) : Decidable (blank t) := inferInstanceAs (Decidable (∀ c ∈ t, htmlSpace c = true))

example : SameWords "a b\nc ".toList "a\t b   c\n".toList := by decide +kernel
example : ¬ SameWords "ab".toList "a b".toList ∧ ¬ SameWords " a".toList "a".toList := by decide +kernel
example : SameWordsAtStart "  a b".toList "a\n b".toList := by decide +kernel

/-- an entry that does not matter -/
def skips (inl gap : Bool) : Styled → Bool
  | .other => true
  | .text st t => gap && (Styled.text st t).good inl && !st.keepsSpace && decide (blank t)
  | _ => false

/-- a computable check for `Respaced` -/
def respacedB : Nat → (inl gap : Bool) → List Styled → List Styled → Option Bool
  | 0, _, _, _, _ => none
  | n + 1, inl, gap, cs, cs' =>
    if cs.head?.elim false (skips inl gap) then respacedB n inl gap cs.tail cs'
    else if cs'.head?.elim false (skips inl gap) then respacedB n inl gap cs cs'.tail
    else match cs, cs' with
      | [], [] => some gap
      | .text st t :: ks, .text st' t' :: ks' =>
        if st = st' then
          if st.keepsSpace then if t = t' then respacedB n inl (!t.isEmpty && atGap t) ks ks' else none
          else if SameWords t t' ∨ gap = true ∧ SameWordsAtStart t t' then respacedB n inl (blankLast t) ks ks' else none
        else none
      | .hidden _ :: ks, .hidden _ :: ks' => respacedB n inl gap ks ks'
      | .contents _ xs :: ks, .contents _ xs' :: ks' =>
        if endsHidden xs = endsHidden xs' then
          (respacedB n inl gap xs xs').bind fun mid => respacedB n inl mid ks ks'
        else none
      | .elem _ st o ins xs :: ks, .elem _ st' o' ins' xs' :: ks' =>
        if st = st' ∧ o = o' ∧ ins = ins' ∧ endsHidden xs = endsHidden xs' then
          (respacedB n (o = .inline) true xs xs').bind fun last =>
            respacedB n inl (if o = .inline then gap && last else gap || !st.outOfFlow) ks ks'
        else none
      | _, _ => none

theorem respacedB_sound : ∀ (n : Nat) (inl gap after : Bool) (cs cs' : List Styled),
    respacedB n inl gap cs cs' = some after → Respaced True inl gap after cs cs'
  | 0, _, _, _, _, _, h => by cases h
  | n + 1, inl, gap, after, cs, cs', h => by
    unfold respacedB at h
    have skip : ∀ {l : List Styled}, l.head?.elim false (skips inl gap) = true →
        (∃ ks, l = .other :: ks) ∨ ∃ st t ks, l = .text st t :: ks ∧ gap = true ∧
          (Styled.text st t).good inl = true ∧ st.keepsSpace = false ∧ blank t := by
      intro l hl
      cases l with
      | nil => cases hl
      | cons c ks =>
        cases c with
        | other => exact .inl ⟨ks, rfl⟩
        | text st t =>
          simp only [List.head?_cons, Option.elim, skips, Bool.and_eq_true, Bool.not_eq_true', decide_eq_true_eq] at hl
          exact .inr ⟨st, t, ks, rfl, hl.1.1.1, hl.1.1.2, hl.1.2, hl.2⟩
        | _ => cases hl
    split at h
    · rename_i hs
      have ih := respacedB_sound n _ _ _ _ _ h
      rcases skip hs with ⟨ks, rfl⟩ | ⟨st, t, ks, rfl, rfl, h1, h2, h3⟩
      · exact .otherLeft ih
      · exact .blankLeft h1 h2 h3 ih
    split at h
    · rename_i hs
      have ih := respacedB_sound n _ _ _ _ _ h
      rcases skip hs with ⟨ks, rfl⟩ | ⟨st, t, ks, rfl, rfl, h1, h2, h3⟩
      · exact .otherRight ih
      · exact .blankRight h1 h2 h3 ih
    split at h
    · cases h
      exact .nil
    · split at h
      · rename_i hst
        subst hst
        split at h
        · rename_i hk
          split at h
          · rename_i ht
            subst ht
            exact .kept hk (respacedB_sound n _ _ _ _ _ h)
          · cases h
        · rename_i hk
          split at h
          · rename_i hw
            have ih := respacedB_sound n _ _ _ _ _ h
            rcases hw with hw | ⟨rfl, hw⟩
            · exact .text (by simpa using hk) hw ih
            · exact .start (by simpa using hk) hw ih
          · cases h
      · cases h
    · exact .hidden (respacedB_sound n _ _ _ _ _ h)
    · split at h
      · rename_i he
        obtain ⟨mid, h1, h2⟩ := Option.bind_eq_some_iff.1 h
        exact .contents (respacedB_sound n _ _ _ _ _ h1) (fun _ => he) (respacedB_sound n _ _ _ _ _ h2)
      · cases h
    · split at h
      · rename_i st o ins xs ks i' st' o' ins' xs' ks' _ _ he
        obtain ⟨rfl, rfl, rfl, he⟩ := he
        obtain ⟨last, h1, h2⟩ := Option.bind_eq_some_iff.1 h
        have i1 := respacedB_sound n _ _ _ _ _ h1
        have i2 := respacedB_sound n _ _ _ _ _ h2
        cases o with
        | inline => exact .inline i1 (fun _ => he) i2
        | block => exact .block i1 (fun _ => he) i2
      · cases h
    · cases h

/-- a page, and the same with other white space: indented, with a comment, with line breaks within the texts -/
def spacedDoc (indented : Bool) : Doc :=
  pageOf (if indented then
      [.text "\n  ", .node "p" [.text "\n    ab\n    cd ", .node "i" [.text " ef"]], .text "\n  \n", .node "p" [.text "gh\t\tij"],
        .text "\n"]
    else [.node "p" [.text "ab cd ", .node "i" [.text "ef"]], .node "p" [.text "gh ij"]])

def spacedContext (indented : Bool) : BoxContext :=
  .of (S := nameEngine) ⟨fun _ => none, fun _ => none, fun _ _ => none⟩ (fun _ => []) nameSheet
    ⟨[("html", ⟨[.value .fontSize (.absolute 8)], [false], ⟨false, false⟩, ⟨true, false⟩⟩)]⟩ (spacedDoc indented) zoomEnv

/-- the style of its root element -/
def spacedStyle : Style :=
  match (spacedContext true).styleOf 2 none with
  | .ok s => s
  | .error _ => Style.initial

/-- its content -/
def spacedContent (indented : Bool) : List Styled :=
  (readContent (spacedContext indented) (linkedKids (spacedDoc indented)) 60 spacedStyle
    (linkedKids (spacedDoc indented) 2)).getD []

-- the contents differ only in white space that does not matter
example : respacedB 60 false true (spacedContent true) (spacedContent false) = some true := by decide +kernel

/-- what is drawn -/
def spacedDrawn (indented : Bool) : Option (List Fragment) :=
  match boxTree (spacedContext indented) 60 with
  | .ok b => (rootLayout zoomEnv b ⟨100, 100⟩).toOption
  | .error _ => none

-- the same is drawn
example (indented : Bool) : (spacedDrawn indented).map (fun fs => drawnMarks (paintPage ⟨100, 100⟩ fs).calls) =
    some [("ab cd ", 0, 34 / 5, 8), ("ef", 24, 34 / 5, 8), ("gh ij", 0, 82 / 5, 8)] := by
  cases indented
  · decide +kernel
  · decide +kernel

theorem Respaced.mono {ends : Prop} {inl gap after : Bool} {cs cs' : List Styled} (h : Respaced ends inl gap after cs cs') :
    Respaced False inl gap after cs cs' := by
  induction h with
  | nil => exact .nil
  | otherLeft _ ih => exact .otherLeft ih
  | otherRight _ ih => exact .otherRight ih
  | blankLeft h1 h2 h3 _ ih => exact .blankLeft h1 h2 h3 ih
  | blankRight h1 h2 h3 _ ih => exact .blankRight h1 h2 h3 ih
  | start h1 h2 _ ih => exact .start h1 h2 ih
  | text h1 h2 _ ih => exact .text h1 h2 ih
  | kept h1 _ ih => exact .kept h1 ih
  | hidden _ ih => exact .hidden ih
  | contents _ _ _ ih1 ih2 => exact .contents ih1 False.elim ih2
  | inline _ _ _ ih1 ih2 => exact .inline ih1 False.elim ih2
  | block _ _ _ ih1 ih2 => exact .block ih1 False.elim ih2

-- on every page
example {b b' : Bfc} {size : PVec2 Length} {fs fs' : List Fragment}
    (h : Page (spacedContext true) zoomEnv (linkedKids (spacedDoc true)) spacedStyle (spacedContent true) b size fs)
    (h' : Page (spacedContext false) zoomEnv (linkedKids (spacedDoc false)) spacedStyle (spacedContent false) b' size fs') :
    fs = fs' :=
  (C91_document h h' (respacedB_sound 60 false true true _ _ (by decide +kernel)).mono).2

/-- the content of a page without style sheets, computed -/
def bareContent (d : Doc) : Option (List Styled) :=
  match d.rootElement d.len with
  | .error _ => none
  | .ok root =>
    match styleForElement (S := cssEngine) noColors (fun _ => []) (uaInOrder noColors) ⟨[]⟩ d root none with
    | .error _ => none
    | .ok st => readContent (.of (S := cssEngine) noColors (fun _ => []) (uaInOrder noColors) ⟨[]⟩ d (barePage []).env)
        (linkedKids d) 60 st (linkedKids d root)

theorem collapsed_of {ops ops' : List SinkOp} {d : Doc} {W : Text → Prop} {cs : List Styled} (h : bareContent d = some cs)
    (hW : ∀ p ∈ allTextsOf cs, W p.2 → p.1.keepsSpace = false) :
    Collapsed (twoPages ops ops') d (linkedKids d) [] W := by
  intro a ha root st cs' hr hst hs
  have ha' : a = ⟨[]⟩ := by
    rw [twoPages_sheets] at ha
    obtain ⟨_, -, h⟩ := bind_eq_ok.1 ha
    exact (Except.ok.inj h).symm
  subst ha'
  unfold bareContent at h
  rw [hr] at h
  simp only at h
  have hst' : styleForElement (S := cssEngine) noColors (fun _ => []) (uaInOrder noColors) ⟨[]⟩ d root none = .ok st := hst
  rw [hst'] at h
  have := hs.unique (readContent_shows h)
  subst this
  exact hW

/-- `<p>a<b>b </b>…` -/
def wrappedOps (p q : String) : List SinkOp :=
  [.createElement (htmlName "html") [], .append 1 (.node 2),
   .createElement (htmlName "head") [], .append 2 (.node 3),
   .createElement (htmlName "body") [], .append 2 (.node 4),
   .createElement (htmlName "p") [], .append 4 (.node 5), .append 5 (.text p.toList),
   .createElement (htmlName "b") [], .append 5 (.node 7), .append 7 (.text q.toList)]

-- two pages with the same words are drawn in the same way
example (size : PVec2 Length) (dev' : RDev) :
    (∃ n, (twoPages (wrappedOps "ab cd " "ef gh") (wrappedOps "ab\n  cd\t" "ef\ngh")).testRenderer n (RDev.new 0)
      (some ⟨#[0x61]⟩) (some ⟨#[]⟩) size = .ok (dev', false)) ↔
    ∃ n, (twoPages (wrappedOps "ab cd " "ef gh") (wrappedOps "ab\n  cd\t" "ef\ngh")).testRenderer n (RDev.new 0)
      (some ⟨#[0x62]⟩) (some ⟨#[]⟩) size = .ok (dev', false) := by
  generalize hops : wrappedOps "ab cd " "ef gh" = ops
  generalize hops' : wrappedOps "ab\n  cd\t" "ef\ngh" = ops'
  obtain ⟨h1, h2⟩ := twoPages_reads (ops := ops) (ops' := ops') (by subst hops; decide +kernel) (by subst hops'; decide +kernel)
  have w1 : (docOf ops).WF (linkedKids (docOf ops)) := forestCheck_wf (by subst hops; decide +kernel)
  have w2 : (docOf ops').WF (linkedKids (docOf ops')) := forestCheck_wf (by subst hops'; decide +kernel)
  have hc : ∃ cs, bareContent (docOf ops) = some cs ∧ ∀ p ∈ allTextsOf cs, p.1.keepsSpace = false := by
    have : (bareContent (docOf ops)).elim false (fun cs => (allTextsOf cs).all fun p => !p.1.keepsSpace) = true := by
      subst hops; decide +kernel
    cases hb : bareContent (docOf ops) with
    | none => rw [hb] at this; cases this
    | some cs =>
      rw [hb] at this
      refine ⟨cs, rfl, fun p hp => ?_⟩
      simpa using List.all_eq_true.1 this p hp
  obtain ⟨cs, hcs, hk⟩ := hc
  refine C91_same (W := fun _ => True) (C91_selectors _) h1 h2 w1 w2 ?_ (sheet := []) (.inl (by decide +kernel))
    (twoPages_legible w1) (collapsed_of hcs fun p hp _ => hk p hp) (RDev.new_holds 0) size ?_ dev'
  · have e1 : cssStyleElements (docOf ops) = [] := by subst hops; decide +kernel
    have e2 : cssStyleElements (docOf ops') = [] := by subst hops'; decide +kernel
    simp [SameSheets, e1, e2]
  · have hs : alikeBy (fun t t' => decide (SameWords t t')) true (docOf ops) (linkedKids (docOf ops)) (docOf ops')
        (linkedKids (docOf ops')) 40 (linkedKids (docOf ops) documentNodeId) (linkedKids (docOf ops') documentNodeId) = true := by
      subst hops hops'; decide +kernel
    simpa [SameTree] using alikeBy_sound (txt := Respelled fun _ => True)
      (fun t t' h => ⟨trivial, by simpa using h⟩) _ _ _ hs

-- and they are drawn indeed
example : drawnB ((twoPages (wrappedOps "ab cd " "ef gh") (wrappedOps "ab\n  cd\t" "ef\ngh")).testRenderer 80 (RDev.new 0)
    (some ⟨#[0x62]⟩) (some ⟨#[]⟩) ⟨100, 100⟩) = true := by
  unfold Externals.testRenderer Externals.renderHtml Externals.layoutHtml Externals.layoutDoc
  simp only [twoPages_sheets]
  decide +kernel

end Sinab
