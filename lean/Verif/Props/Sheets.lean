import Verif.Props.Render
import Verif.Props.Dom
import Verif.Props.Cascade

/-! C15 and C23 for rendered pages: which declarations reach an element of a page, from the
arguments of the R function to the computed style. -/

namespace Sinab

open Doc

/-- what a rule of a style sheet contributes: one rule for each of its selectors, all with
the declarations of the rule; an unreadable rule contributes nothing -/
def RuleGives {S : SelectorEngine} (C : CssColors) : RawRule S → List (S.Sel × Block) → Prop
  | .rule sels items, rs => ∃ b, Block.parse C items = .ok b ∧ rs = sels.map fun sel => (sel, b)
  | .error, rs => rs = []

/-- what a style sheet contributes: its rules in order -/
def SheetGives (X : Externals) (sheet : Text) (rs : List (X.engine.Sel × Block)) : Prop :=
  ∃ parts, List.Forall₂ (RuleGives X.colors) (X.css sheet) parts ∧ rs = parts.flatten

/-- what several style sheets contribute: their rules, sheet by sheet -/
def SheetsGive (X : Externals) (sheets : List Text) (rs : List (X.engine.Sel × Block)) : Prop :=
  ∃ parts, List.Forall₂ (SheetGives X) sheets parts ∧ rs = parts.flatten

/-- the parser respects the conditions of the calls it makes -/
inductive LegalRun : Doc → List SinkOp → Prop
  | nil (d : Doc) : LegalRun d []
  | cons {d d' : Doc} {op : SinkOp} {ops : List SinkOp} : op.Legal d → d.sinkStep op = .ok d' →
      LegalRun d' ops → LegalRun d (op :: ops)

theorem LegalRun.reachable {d : Doc} {ops : List SinkOp} (h : LegalRun d ops) (hd : Reachable d) :
    ∃ d', d.runSink ops = .ok d' ∧ Reachable d' := by
  induction h with
  | nil d => exact ⟨d, rfl, hd⟩
  | cons hl hs _ ih =>
    obtain ⟨d', h1, h2⟩ := ih (hd.step hl hs)
    refine ⟨d', ?_, h2⟩
    simp only [Doc.runSink, hs, bind, Except.bind]
    exact h1

theorem addStylesheet_gives (X : Externals) (sheet : List (RawRule X.engine)) :
    ∀ s₀ s : StyleSet X.engine, StyleSet.addStylesheet X.colors s₀ sheet = .ok s →
    ∃ parts, List.Forall₂ (RuleGives X.colors) sheet parts ∧ s.rules = s₀.rules ++ parts.flatten := by
  induction sheet with
  | nil =>
    intro s₀ s h
    simp only [StyleSet.addStylesheet, Except.ok.injEq] at h
    subst h
    exact ⟨[], .nil, by simp⟩
  | cons r rs ih =>
    intro s₀ s h
    cases r with
    | error =>
      simp only [StyleSet.addStylesheet] at h
      obtain ⟨parts, h1, h2⟩ := ih s₀ s h
      exact ⟨[] :: parts, .cons rfl h1, by simpa using h2⟩
    | rule sels items =>
      simp only [StyleSet.addStylesheet] at h
      obtain ⟨b, hb, h⟩ := bind_eq_ok.1 h
      obtain ⟨parts, h1, h2⟩ := ih _ s h
      exact ⟨_ :: parts, .cons ⟨b, hb, rfl⟩ h1, by simp [h2]⟩

theorem addStylesheets_gives (X : Externals) (sheets : List Text) :
    ∀ s₀ s : StyleSet X.engine,
      StyleSet.addStylesheets X.colors s₀ (sheets.map X.css) = .ok s →
    ∃ rs, SheetsGive X sheets rs ∧ s.rules = s₀.rules ++ rs := by
  induction sheets with
  | nil =>
    intro s₀ s h
    simp only [List.map_nil, StyleSet.addStylesheets, Except.ok.injEq] at h
    subst h
    exact ⟨[], ⟨[], .nil, rfl⟩, by simp⟩
  | cons t ts ih =>
    intro s₀ s h
    simp only [List.map_cons, StyleSet.addStylesheets] at h
    obtain ⟨s₁, h1, h⟩ := bind_eq_ok.1 h
    obtain ⟨parts, k1, k2⟩ := addStylesheet_gives X _ s₀ s₁ h1
    obtain ⟨rs, ⟨pp, m1, m2⟩, k3⟩ := ih s₁ s h
    exact ⟨parts.flatten ++ rs, ⟨parts.flatten :: pp, .cons ⟨parts, k1, rfl⟩ m1, by simp [m2]⟩,
      by simp [k3, k2]⟩

theorem forall₂_right {α β : Type*} {R : α → β → Prop} {l₁ : List α} {l₂ : List β}
    (h : List.Forall₂ R l₁ l₂) : ∀ b ∈ l₂, ∃ a ∈ l₁, R a b := by
  induction h with
  | nil => simp
  | cons h1 _ ih =>
    intro b hb
    rcases List.mem_cons.1 hb with rfl | hb
    · exact ⟨_, List.mem_cons_self, h1⟩
    · obtain ⟨a, ha, hr⟩ := ih b hb
      exact ⟨a, List.mem_cons_of_mem _ ha, hr⟩

theorem SheetsGive.parsed {X : Externals} {sheets : List Text} {rs : List (X.engine.Sel × Block)}
    (h : SheetsGive X sheets rs) : ∀ r ∈ rs, r.2.Parsed X.colors := by
  obtain ⟨parts, h1, rfl⟩ := h
  intro r hr
  obtain ⟨part, hp, hr⟩ := List.mem_flatten.1 hr
  obtain ⟨t, -, qs, h2, rfl⟩ := forall₂_right h1 part hp
  obtain ⟨q, hq, hr⟩ := List.mem_flatten.1 hr
  obtain ⟨raw, -, h3⟩ := forall₂_right h2 q hq
  cases raw with
  | error => cases h3; cases hr
  | rule sels items =>
    obtain ⟨b, hb, rfl⟩ := h3
    obtain ⟨sel, -, rfl⟩ := List.mem_map.1 hr
    exact ⟨items, hb⟩

/-- **C15** The rules that style a document are those of the argument of the caller followed
by those of the style elements, sheet by sheet, sorted by specificity only. -/
theorem C15_page (X : Externals) {d : Doc} (hd : Reachable d) {kids} (hk : d.WF kids)
    (css : Option Text) {s : StyleSet X.engine} (h : X.parseStylesheets d css = .ok s) :
    ∃ author, SheetsGive X (css.toList ++ (cssStyleElements d).map (textOf d kids)) author ∧
      s = StyleSet.finish ⟨author⟩ := by
  unfold Externals.parseStylesheets at h
  rw [C15_sheets hd hk css (Nat.le_refl _)] at h
  obtain ⟨ts, ht, h⟩ := bind_eq_ok.1 h
  cases ht
  obtain ⟨s', h1, h2⟩ := bind_eq_ok.1 h
  cases h2
  obtain ⟨rs, h3, h4⟩ := addStylesheets_gives X _ _ _ h1
  refine ⟨rs, h3, ?_⟩
  have : s' = ⟨rs⟩ := by cases s'; simpa using h4
  rw [this]

/-- **C15** Every rule of an earlier sheet stands before every rule of a later one (so by C23
the later one wins, all else being equal). -/
theorem C15_sheet_order (X : Externals) (sheets later : List Text)
    {author : List (X.engine.Sel × Block)} (h : SheetsGive X (sheets ++ later) author) :
    ∃ first last, SheetsGive X sheets first ∧ SheetsGive X later last ∧ author = first ++ last := by
  obtain ⟨parts, h1, rfl⟩ := h
  refine ⟨_, _, ⟨parts.take sheets.length, ?_, rfl⟩, ⟨parts.drop sheets.length, ?_, rfl⟩,
    by rw [← List.flatten_append, List.take_append_drop]⟩
  · have := List.forall₂_take sheets.length h1
    simpa using this
  · have := List.forall₂_drop sheets.length h1
    simpa using this

/-- **C15 for the R function**: if anything is drawn, it is the page that is laid out with
the styles that the cascade gives to each element from the rules of the user agent, the
`css` argument, the style elements of the document in this order, and the style attribute. -/
theorem C15_styled (X : Externals) {ua : List (X.engine.Sel × Block)}
    (hua : X.userAgent = StyleSet.finish ⟨ua⟩) (hup : ∀ r ∈ ua, r.2.Parsed X.colors)
    {text css : ByteArray} {html sheet : Text} (ht : X.Html text html) (hc : Decodes css sheet)
    {ops : List SinkOp} (hops : X.html html = .ok ops) (hl : LegalRun Doc.new ops)
    (n : Nat) (width height : ℚ) (ts cs : List ByteArray) {r : Released}
    (hr : X.renderMarkdown n (text :: ts) (css :: cs) width height = .ok r) (hne : r.grobs ≠ []) :
    ∃ d kids author root fs, ∃ styleOf : NodeId → Option Style → Except Panic Style,
      Doc.new.runSink ops = .ok d ∧ d.WF kids ∧
      SheetsGive X (sheet :: (cssStyleElements d).map (textOf d kids)) author ∧
      boxTree ⟨d, styleOf, X.env.font⟩ n = .ok root ∧
      rootLayout X.env root ⟨width * 96, height * 96⟩ = .ok fs ∧
      r.grobs = ((paintPage ⟨width * 96, height * 96⟩ fs).calls.filterMap (·.grob 0)).map some ∧
      ∀ i e parent attr s, (d.node i).data = .element e → i < d.len →
        StyleAttr X.colors X.attr e attr → styleOf i parent = .ok s →
        StyledElement X.colors X.attr ua author d i parent attr s := by
  have hlay : ∃ fs, X.layoutHtml n html sheet ⟨width * 96, height * 96⟩ = .ok fs := by
    cases hlay : X.layoutHtml n html sheet ⟨width * 96, height * 96⟩ with
    | ok fs => exact ⟨fs, rfl⟩
    | error p =>
      exfalso
      by_cases hp : p.caught = true
      · rw [C59_nothing_drawn_partial X ht hc n width height ts cs p ((caught_iff p).1 hp) hlay] at hr
        cases hr
        exact hne rfl
      · unfold Externals.renderMarkdown at hr
        simp only [testRenderer_eq X ht hc, Externals.renderHtml, hlay, Trace.after, outcome,
          RDev.perform, hp] at hr
        cases hr
  obtain ⟨fs, hlay⟩ := hlay
  obtain ⟨r', hr', hg⟩ := C59_returned X ht hc n width height ts cs fs hlay
  rw [hr] at hr'
  cases hr'
  obtain ⟨d, hrun, hd⟩ := hl.reachable .new
  obtain ⟨kids, hk⟩ := C09_wellFormed hd
  simp only [Externals.layoutHtml, Externals.parseHtml, hops, hrun, bind, Except.bind] at hlay
  unfold Externals.layoutDoc at hlay
  obtain ⟨s, h1, hlay⟩ := bind_eq_ok.1 hlay
  obtain ⟨root, h2, hlay⟩ := bind_eq_ok.1 hlay
  obtain ⟨fs', h3, hlay⟩ := bind_eq_ok.1 hlay
  split at hlay
  · cases hlay
  cases hlay
  obtain ⟨author, h4, rfl⟩ := C15_page X hd hk (some sheet) h1
  refine ⟨d, kids, author, root, fs, _, hrun, hk, h4, h2, h3, hg, ?_⟩
  intro i e parent attr s he hi ha hs
  exact ⟨hup, h4.parsed, ⟨_, e, get_ok d i hi, he, ha⟩, by rw [← hua]; exact hs⟩

/-- **C15, C23 for the R function**: if anything is drawn, it is the page that is laid out
with a style for each element in which every property has the value given by the winning
declaration – over the rules of the user agent, the `css` argument, the style elements of
the document in this order, and the style attribute – or else its default. -/
theorem C15_rendered (X : Externals) {ua : List (X.engine.Sel × Block)}
    (hua : X.userAgent = StyleSet.finish ⟨ua⟩) (hup : ∀ r ∈ ua, r.2.Parsed X.colors)
    {text css : ByteArray} {html sheet : Text} (ht : X.Html text html) (hc : Decodes css sheet)
    {ops : List SinkOp} (hops : X.html html = .ok ops) (hl : LegalRun Doc.new ops)
    (n : Nat) (width height : ℚ) (ts cs : List ByteArray) {r : Released}
    (hr : X.renderMarkdown n (text :: ts) (css :: cs) width height = .ok r) (hne : r.grobs ≠ []) :
    ∃ d kids author root fs, ∃ styleOf : NodeId → Option Style → Except Panic Style,
      Doc.new.runSink ops = .ok d ∧ d.WF kids ∧
      SheetsGive X (sheet :: (cssStyleElements d).map (textOf d kids)) author ∧
      boxTree ⟨d, styleOf, X.env.font⟩ n = .ok root ∧
      rootLayout X.env root ⟨width * 96, height * 96⟩ = .ok fs ∧
      r.grobs = ((paintPage ⟨width * 96, height * 96⟩ fs).calls.filterMap (·.grob 0)).map some ∧
      ∀ i e parent attr s, (d.node i).data = .element e → i < d.len →
        StyleAttr X.colors X.attr e attr → styleOf i parent = .ok s → ∀ p : Longhand,
        (∀ k w, Wins ua author attr d i p k w →
          ∃ v, Says (parent.getD Style.initial) (s.val .fontSize) w p v ∧
            s.val p = p.adjusted s v) ∧
        ((∀ k w, Applies ua author attr d i k w → w.longhand ≠ p) →
          s.val p = p.adjusted s (p.defaultValue (parent.getD Style.initial))) := by
  obtain ⟨d, kids, author, root, fs, styleOf, h1, h2, h3, h4, h5, h6, h7⟩ :=
    C15_styled X hua hup ht hc hops hl n width height ts cs hr hne
  refine ⟨d, kids, author, root, fs, styleOf, h1, h2, h3, h4, h5, h6, ?_⟩
  intro i e parent attr s he hi ha hs p
  have hS := h7 i e parent attr s he hi ha hs
  exact ⟨fun k w hw => C23_winner _ _ _ _ _ _ _ _ _ hS p k w hw,
    fun h => C27_default _ _ _ _ _ _ _ _ _ hS p h⟩

/-! ## Example -/

/-- the calls of the parser for `<style>nowrap</style>a  b` -/
def styledOps (sheet : Text) : List SinkOp :=
  [.createElement (htmlName "html") [], .append 1 (.node 2),
   .createElement (htmlName "style") [], .append 2 (.node 3), .append 3 (.text sheet),
   .createElement (htmlName "p") [], .append 2 (.node 5), .append 5 (.text "a  b".toList)]

/-- a rendering in which the style sheet `w` stands for `p { white-space: w }` -/
def sheetExternals (sheet : Text) : Externals :=
  { opsExternals (styledOps sheet) with
    userAgent := ⟨[("html", .one (.value .display (.generatingBox .block .flow))),
      ("style", .one (.value .display .none))]⟩
    css := fun t => [.error, .rule ["p"] [.decl "white-space".toList [.ident t]]] }

/-- The selectors of the example have the same specificity. -/
theorem sheetExternals_finish (sheet : Text) (s : StyleSet (sheetExternals sheet).engine) :
    s.finish = s := by
  have : s.rules.mergeSort (fun a b => nameEngine.specificity a.1 ≤ nameEngine.specificity b.1) =
      s.rules := List.mergeSort_of_pairwise
    (List.pairwise_of_forall (fun _ _ => by simp [nameEngine]))
  exact congrArg StyleSet.mk this

-- the default …
example : labels ((sheetExternals "?".toList).renderMarkdown 40 [⟨#[0x61]⟩] [⟨#[]⟩] 1 1) =
    some ["a b"] := by
  unfold Externals.renderMarkdown Externals.testRenderer Externals.renderHtml Externals.layoutHtml
    Externals.layoutDoc Externals.parseStylesheets
  simp only [sheetExternals_finish]
  decide +kernel

-- … is overridden by the `css` argument `pre` …
example : labels ((sheetExternals "?".toList).renderMarkdown 40 [⟨#[0x61]⟩] [⟨#[0x70, 0x72, 0x65]⟩] 1 1) =
    some ["a  b"] := by
  unfold Externals.renderMarkdown Externals.testRenderer Externals.renderHtml Externals.layoutHtml
    Externals.layoutDoc Externals.parseStylesheets
  simp only [sheetExternals_finish]
  decide +kernel

-- … and that by a style element
example : labels ((sheetExternals "normal".toList).renderMarkdown 40 [⟨#[0x61]⟩] [⟨#[0x70, 0x72, 0x65]⟩] 1 1) =
    some ["a b"] := by
  unfold Externals.renderMarkdown Externals.testRenderer Externals.renderHtml Externals.layoutHtml
    Externals.layoutDoc Externals.parseStylesheets
  simp only [sheetExternals_finish]
  decide +kernel

end Sinab
