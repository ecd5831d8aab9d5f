import Verif.Spec.UserAgent
import Verif.Lemmas.UserAgent
import Verif.Props.Sheets
import Verif.Props.Values

/-! C68: the built-in style sheet. -/

namespace Sinab

open Doc

/-- rules of a single declaration for each of several names -/
def forNames (names : List String) (x : Decl × Bool) : List (ComplexSel × List (Decl × Bool)) :=
  names.map fun nm => (typeSel nm, [x])

theorem typeSel_specificity (nm : String) : (typeSel nm).specificity = 1 := by
  simp [typeSel, ComplexSel.specificity, ComplexSel.parts, SimpleSel.weight]

theorem hidden_specificity : (ComplexSel.compound [⟨false, hiddenAttr⟩]).specificity = 1024 := by decide +kernel

theorem embed_specificity :
    (ComplexSel.compound [⟨false, .type "embed"⟩, ⟨false, hiddenAttr⟩]).specificity = 1025 := by decide +kernel

theorem input_specificity :
    (ComplexSel.compound [⟨false, .type "input"⟩, ⟨false, typeHiddenAttr⟩]).specificity = 1025 := by decide +kernel

theorem forNames_filter (names : List String) (x : Decl × Bool) (k : Nat) :
    (forNames names x).filter (fun q => q.1.specificity = k) = if 1 = k then forNames names x else [] := by
  unfold forNames
  rw [List.filter_map]
  split
  · rename_i h
    subst h
    rw [List.filter_eq_self.2]
    intro a _
    simp [typeSel_specificity]
  · rename_i h
    rw [List.filter_eq_nil_iff.2, List.map_nil]
    intro a _
    simpa [typeSel_specificity] using h

theorem uaFlat_eq : uaFlat =
    (.compound [⟨false, hiddenAttr⟩], [(.value .display .none, false)]) ::
    (forNames uaHiddenNames (.value .display .none, false) ++
    ((.compound [⟨false, .type "embed"⟩, ⟨false, hiddenAttr⟩],
       [(.value .display (.generatingBox .inline .flow), false),
        (.value .height (.length (.absolute 0)), false), (.value .width (.length (.absolute 0)), false)]) ::
    (.compound [⟨false, .type "input"⟩, ⟨false, typeHiddenAttr⟩], [(.value .display .none, true)]) ::
    (forNames ["html", "body"] (.value .display (.generatingBox .block .flow), false) ++
    ((typeSel "body",
      [(.value .marginTop (.length (.absolute 0)), false), (.value .marginLeft (.length (.absolute 0)), false),
       (.value .marginBottom (.length (.absolute 0)), false), (.value .marginRight (.length (.absolute 0)), false)]) ::
     (typeSel "em", [(.value .fontStyle .italic, false)]) ::
     (typeSel "strong", [(.value .fontWeight .bold, false)]) ::
    (forNames uaBlockNames (.value .display (.generatingBox .block .flow), false) ++
    [(typeSel "br", [(.value .whiteSpace .pre, true)]),
     (typeSel "sub", [(.value .verticalAlign .sub, false), (.value .fontSize (.em (4 / 5)), false)]),
     (typeSel "sup", [(.value .verticalAlign .super, false), (.value .fontSize (.em (4 / 5)), false)]),
     (typeSel "pre", [(.value .whiteSpace .pre, false)]),
     (typeSel "code", [(.value .fontFamily .genericMonospace, false)])]))))) := by
  simp only [uaFlat, uaTable, forNames, List.flatMap_cons, List.flatMap_nil, List.map_cons, List.map_map,
    List.map_nil, List.cons_append, List.nil_append, List.append_nil]
  rfl

theorem uaSorted_eq : uaSorted =
    forNames uaHiddenNames (.value .display .none, false) ++
    (forNames ["html", "body"] (.value .display (.generatingBox .block .flow), false) ++
    ([(typeSel "body",
      [(.value .marginTop (.length (.absolute 0)), false), (.value .marginLeft (.length (.absolute 0)), false),
       (.value .marginBottom (.length (.absolute 0)), false), (.value .marginRight (.length (.absolute 0)), false)]),
      (typeSel "em", [(.value .fontStyle .italic, false)]),
      (typeSel "strong", [(.value .fontWeight .bold, false)])] ++
    (forNames uaBlockNames (.value .display (.generatingBox .block .flow), false) ++
    [(typeSel "br", [(.value .whiteSpace .pre, true)]),
     (typeSel "sub", [(.value .verticalAlign .sub, false), (.value .fontSize (.em (4 / 5)), false)]),
     (typeSel "sup", [(.value .verticalAlign .super, false), (.value .fontSize (.em (4 / 5)), false)]),
     (typeSel "pre", [(.value .whiteSpace .pre, false)]),
     (typeSel "code", [(.value .fontFamily .genericMonospace, false)]),
     (.compound [⟨false, hiddenAttr⟩], [(.value .display .none, false)]),
     (.compound [⟨false, .type "embed"⟩, ⟨false, hiddenAttr⟩],
       [(.value .display (.generatingBox .inline .flow), false),
        (.value .height (.length (.absolute 0)), false), (.value .width (.length (.absolute 0)), false)]),
     (.compound [⟨false, .type "input"⟩, ⟨false, typeHiddenAttr⟩], [(.value .display .none, true)])]))) := by
  simp only [uaSorted, uaFlat_eq, List.filter_append, List.filter_cons, List.filter_nil, forNames_filter,
    typeSel_specificity, hidden_specificity, embed_specificity, input_specificity, reduceIte,
    List.nil_append, List.append_nil, List.append_assoc, List.cons_append, Nat.reduceEqDiff, decide_true,
    decide_false, Bool.false_eq_true, Nat.reduceEqDiff, OfNat.one_ne_ofNat, OfNat.ofNat_ne_one]

/-! ### Which rules match -/

theorem element_get {d : Doc} {n : NodeId} {nd : Node} {e : ElementData} (hn : d.get n = .ok nd)
    (he : nd.data = .element e) : d.element n = .ok e := by
  simp [Doc.element, hn, he, bind, Except.bind, NodeData.asElement, pure, Except.pure]

variable {d : Doc} {n : NodeId} {e : ElementData}

theorem type_simple (h : d.element n = .ok e) (nm : String) (hl : nm.toLower = nm) :
    d.matchesSimple n (.type nm) = .ok (decide (e.name.localName = nm)) := by
  simp only [matchesSimple, isHtmlElement, hasLocalName, h, bind, Except.bind, pure, Except.pure, selectName, hl,
    ite_self]

theorem attr_simple (h : d.element n = .ok e) (nm : String) (hl : nm.toLower = nm) (op : Text → Bool) :
    d.matchesSimple n (.attr (some "") nm fun _ => op) =
      .ok (e.attrs.any fun a => decide (a.name.localName = nm) && decide (a.name.ns = "") && op a.value) := by
  simp only [matchesSimple, isHtmlElement, attrMatches, h, bind, Except.bind, pure, Except.pure, selectName, hl,
    ite_self]

/-- does a rule match? -/
def matched (d : Doc) (n : NodeId) (s : ComplexSel) : Bool := hit (d.matchesSelector s n)

theorem matched_type (h : d.element n = .ok e) (nm : String) (hl : nm.toLower = nm) :
    matched d n (typeSel nm) = decide (e.name.localName = nm) := by
  have : d.matchesSelector (typeSel nm) n = .ok (decide (e.name.localName = nm)) := by
    simp only [matchesSelector, typeSel, matchesCompound, type_simple h nm hl, bind, Except.bind, pure, Except.pure]
    by_cases hh : e.name.localName = nm <;> simp [hh]
  exact congrArg hit this

theorem matched_hidden (h : d.element n = .ok e) :
    matched d n (.compound [⟨false, hiddenAttr⟩]) = true ↔ HasAttr e "hidden" := by
  have : d.matchesSelector (.compound [⟨false, hiddenAttr⟩]) n = .ok (e.attrs.any fun a =>
      decide (a.name.localName = "hidden") && decide (a.name.ns = "") && true) := by
    simp only [matchesSelector, matchesCompound, hiddenAttr, attr_simple h "hidden" (by decide +kernel), bind,
      Except.bind, pure, Except.pure]
    generalize (e.attrs.any fun a => _) = b
    cases b <;> rfl
  unfold matched
  rw [this]
  simp [hit, HasAttr, and_comm]

theorem matched_two (h : d.element n = .ok e) (nm at_ : String) (hl : nm.toLower = nm) (hl' : at_.toLower = at_)
    (op : Text → Bool) :
    matched d n (.compound [⟨false, .type nm⟩, ⟨false, .attr (some "") at_ fun _ => op⟩]) = true ↔
      e.name.localName = nm ∧ ∃ a ∈ e.attrs, a.name.ns = "" ∧ a.name.localName = at_ ∧ op a.value = true := by
  have : d.matchesSelector (.compound [⟨false, .type nm⟩, ⟨false, .attr (some "") at_ fun _ => op⟩]) n =
      .ok (decide (e.name.localName = nm) && e.attrs.any fun a =>
        decide (a.name.localName = at_) && decide (a.name.ns = "") && op a.value) := by
    simp only [matchesSelector, matchesCompound, type_simple h nm hl, attr_simple h at_ hl' op, bind,
      Except.bind, pure, Except.pure]
    by_cases hh : e.name.localName = nm
    · simp only [hh, decide_true, Bool.true_eq_false, if_false, Bool.true_and]
      generalize (e.attrs.any fun a => _) = b
      cases b <;> rfl
    · simp [hh]
  unfold matched
  rw [this]
  simp [hit, and_comm, and_left_comm, and_assoc]

theorem matched_embed (h : d.element n = .ok e) :
    matched d n (.compound [⟨false, .type "embed"⟩, ⟨false, hiddenAttr⟩]) = true ↔
      e.name.localName = "embed" ∧ HasAttr e "hidden" := by
  rw [hiddenAttr, matched_two h "embed" "hidden" (by decide +kernel) (by decide +kernel) fun _ => true]
  simp [HasAttr]

theorem matched_input (h : d.element n = .ok e) :
    matched d n (.compound [⟨false, .type "input"⟩, ⟨false, typeHiddenAttr⟩]) = true ↔ HiddenInput e := by
  rw [typeHiddenAttr, matched_two h "input" "type" (by decide +kernel) (by decide +kernel)
    fun v => eqIgnoreAsciiCase v "hidden".toList]
  simp only [HiddenInput, eqIgnoreAsciiCase, decide_eq_true_eq]
  have : "hidden".toList.map Char.toLower = "hidden".toList := by decide +kernel
  rw [this]

/-! ### What the rules say -/

/-- the last value that applies -/
def lastSaid {α : Type*} (d : Doc) (n : NodeId) (T : List (ComplexSel × α)) : Option α :=
  ((T.filter fun x => matched d n x.1).map (·.2)).getLast?

theorem lastSaid_append {α : Type*} (A B : List (ComplexSel × α)) :
    lastSaid d n (A ++ B) = (lastSaid d n B).or (lastSaid d n A) := by
  simp [lastSaid, List.getLast?_append]

theorem lastSaid_cons {α : Type*} (x : ComplexSel × α) (B : List (ComplexSel × α)) :
    lastSaid d n (x :: B) = (lastSaid d n B).or (if matched d n x.1 then some x.2 else none) := by
  rw [← List.singleton_append, lastSaid_append]
  congr 1
  simp only [lastSaid, List.filter_cons, List.filter_nil]
  split <;> rfl

theorem lastSaid_nil {α : Type*} : lastSaid (α := α) d n [] = none := rfl

theorem lastSaid_names {α : Type*} (h : d.element n = .ok e) (v : α) : ∀ names : List String,
    (∀ nm ∈ names, nm.toLower = nm) →
    lastSaid d n (names.map fun nm => (typeSel nm, v)) = if e.name.localName ∈ names then some v else none
  | [], _ => by simp [lastSaid]
  | nm :: names, hl => by
    rw [List.map_cons, lastSaid_cons, lastSaid_names h v names fun x hx => hl x (List.mem_cons_of_mem _ hx),
      matched_type h nm (hl nm List.mem_cons_self)]
    by_cases h1 : e.name.localName ∈ names
    · simp [h1]
    · by_cases h2 : e.name.localName = nm
      · rw [if_neg h1, if_pos (by simpa using h2), if_pos (by simp [h2])]; rfl
      · simp [h1, h2]

theorem about_append (parent : Style) (fs : ℚ) (p : Longhand) (imp : Bool)
    (A B : List (ComplexSel × List (Decl × Bool))) :
    aboutTable parent fs p imp (A ++ B) = aboutTable parent fs p imp A ++ aboutTable parent fs p imp B := by
  simp [aboutTable]

theorem about_names (parent : Style) (fs : ℚ) (p : Longhand) (imp imp' : Bool) (names : List String) (x : Decl) :
    aboutTable parent fs p imp (forNames names (x, imp')) =
      match (if imp' = imp then Decl.at parent fs p x else none) with
      | some v => names.map fun nm => (typeSel nm, v)
      | none => [] := by
  induction names with
  | nil => split <;> rfl
  | cons nm names ih =>
    simp only [forNames, List.map_cons, aboutTable, List.flatMap_cons] at ih ⊢
    rw [ih]
    by_cases hi : imp' = imp
    · simp only [List.filter_cons, hi, decide_true, if_true, List.filter_nil]
      cases hd : Decl.at parent fs p x <;> simp [hd]
    · simp [hi]

/-! ### All rules together -/

theorem at_same (parent : Style) (fs : ℚ) (p : Longhand) (v : p.Spec) :
    Decl.at parent fs p (.value p v) = some (p.computedValue parent fs v) :=
  (Decl.at_eq_some _ _ _ _ _).2 (.value p v)

theorem at_other (parent : Style) (fs : ℚ) (p q : Longhand) (v : q.Spec) (h : q ≠ p) :
    Decl.at parent fs p (.value q v) = none := by
  simp [Decl.at, Decl.longhand, h]

theorem said_important (h : d.element n = .ok e) (parent : Style) (fs : ℚ) :
    ∀ p : Longhand, lastSaid d n (aboutTable parent fs p true uaSorted) =
      match p with
      | .display => open Classical in if HiddenInput e then some .none else none
      | .whiteSpace => if e.name.localName = "br" then some .pre else none
      | _ => none := by
  intro p
  rw [uaSorted_eq]
  simp only [about_append, about_names, Bool.false_eq_true, if_false, List.nil_append]
  have hb := matched_type h "br" (by decide +kernel)
  have hi := matched_input h
  simp only [aboutTable, List.flatMap_cons, List.flatMap_nil, List.filter_cons, List.filter_nil, Bool.false_eq_true,
    decide_false, decide_true, if_true, if_false, List.filterMap_nil, List.nil_append, List.append_nil]
  cases p <;> simp only [List.filterMap_cons, List.filterMap_nil, at_same, at_other, ne_eq, reduceCtorEq,
    not_false_eq_true, Option.map_none, Option.map_some, List.nil_append, List.append_nil, lastSaid_cons,
    lastSaid_nil, hb, hi, Option.none_or, decide_eq_true_eq]
  · rfl
  · by_cases hh : HiddenInput e
    · rw [if_pos (hi.2 hh), if_pos hh]; rfl
    · rw [if_neg (fun h => hh (hi.1 h)), if_neg hh]

theorem said_normal (h : d.element n = .ok e) (parent : Style) (fs : ℚ) (p : Longhand) :
    (lastSaid d n (aboutTable parent fs p true uaSorted)).or
      (lastSaid d n (aboutTable parent fs p false uaSorted)) = builtIn e parent p := by
  rw [said_important h, uaSorted_eq]
  simp only [about_append, about_names, if_true]
  have t : ∀ nm ∈ ["body", "em", "strong", "br", "sub", "sup", "pre", "code"],
      matched d n (typeSel nm) = decide (e.name.localName = nm) := fun nm hnm => matched_type h nm (by
    revert nm
    decide +kernel)
  have tb := t "body" (by decide)
  have te := t "em" (by decide)
  have ts := t "strong" (by decide)
  have tu := t "sub" (by decide)
  have tp := t "sup" (by decide)
  have tr := t "pre" (by decide)
  have tc := t "code" (by decide)
  have l2 : ∀ nm ∈ uaHiddenNames, nm.toLower = nm := by decide +kernel
  have l3 : ∀ nm ∈ ["html", "body"], nm.toLower = nm := by decide +kernel
  have l4 : ∀ nm ∈ uaBlockNames, nm.toLower = nm := by decide +kernel
  have hh := matched_hidden h
  have hm := matched_embed h
  have hi := matched_input h
  simp only [aboutTable, List.flatMap_cons, List.flatMap_nil, List.filter_cons, List.filter_nil, Bool.true_eq_false,
    decide_false, decide_true, if_true, if_false, List.filterMap_nil, List.nil_append, List.append_nil]
  cases p <;> simp only [List.filterMap_cons, List.filterMap_nil, at_same, at_other, ne_eq, reduceCtorEq,
    not_false_eq_true, Option.map_none, Option.map_some, List.nil_append, List.append_nil, lastSaid_cons,
    lastSaid_nil, lastSaid_append, Option.none_or, Option.or_none, builtIn, List.cons_append, Bool.false_eq_true, if_false, tb, te, ts, tu, tp, tr, tc, decide_eq_true_eq, lastSaid_names h _ _ l2,
    lastSaid_names h _ _ l3, lastSaid_names h _ _ l4]
  case fontSize => split_ifs <;> simp_all <;> rfl
  case fontStyle => rfl
  case fontWeight => rfl
  case fontFamily => rfl
  case verticalAlign => split_ifs <;> simp_all <;> rfl
  case whiteSpace => split_ifs <;> simp_all <;> rfl
  case display =>
    by_cases h1 : HiddenInput e
    · rw [if_pos h1, if_pos h1]; rfl
    rw [if_neg h1, if_neg h1, Option.none_or]
    by_cases h2 : HasAttr e "hidden"
    · rw [if_pos h2, if_pos (hh.2 h2)]
      by_cases h3 : e.name.localName = "embed"
      · rw [if_pos (hm.2 ⟨h3, h2⟩), if_pos h3]; rfl
      · rw [if_neg fun h => h3 (hm.1 h).1, if_neg h3]; rfl
    · rw [if_neg h2, if_neg fun h => h2 (hh.1 h), if_neg fun h => h2 (hm.1 h).2]
      simp only [Option.none_or]
      have e1 : e.name.localName ∈ invisibleElements ↔ e.name.localName ∈ uaHiddenNames := Iff.rfl
      have e2 : e.name.localName ∈ blockElements ↔
          e.name.localName ∈ ["html", "body"] ∨ e.name.localName ∈ uaBlockNames := by
        rw [← List.mem_append]; exact Iff.rfl
      have e3 : e.name.localName ∈ uaHiddenNames → e.name.localName ∉ blockElements := by
        have : ∀ x ∈ uaHiddenNames, x ∉ blockElements := by decide +kernel
        exact this _
      by_cases h4 : e.name.localName ∈ uaHiddenNames
      · have := e3 h4
        rw [e2, not_or] at this
        rw [if_neg this.1, if_neg this.2, if_pos h4, if_pos (e1.2 h4)]; rfl
      · rw [if_neg h4, if_neg fun h => h4 (e1.1 h)]
        by_cases h5 : e.name.localName ∈ uaBlockNames
        · rw [if_pos h5, if_pos (e2.2 (.inr h5))]; rfl
        · by_cases h6 : e.name.localName ∈ ["html", "body"]
          · rw [if_neg h5, if_pos h6, if_pos (e2.2 (.inl h6))]; rfl
          · rw [if_neg h5, if_neg h6, if_neg fun h => (e2.1 h).elim h6 h5]; rfl
  case width =>
    by_cases hx : e.name.localName = "embed" ∧ HasAttr e "hidden"
    · rw [if_pos (hm.2 hx), if_pos hx]; rfl
    · rw [if_neg (fun h => hx (hm.1 h)), if_neg hx]
  case height =>
    by_cases hx : e.name.localName = "embed" ∧ HasAttr e "hidden"
    · rw [if_pos (hm.2 hx), if_pos hx]; rfl
    · rw [if_neg (fun h => hx (hm.1 h)), if_neg hx]
  all_goals rfl

/-! ## C68 -/

section
variable {C : CssColors} {tokenize : AttrTokenizer} {ua author : List (cssEngine.Sel × Block)}
  {parent : Option Style} {attr : Option Block} {s : Style}

theorem StyledElement.element_eq (h : StyledElement C tokenize ua author d n parent attr s)
    (he : (d.node n).data = .element e) : d.element n = .ok e := by
  obtain ⟨nd, e', hn, he', -⟩ := h.element
  have : nd = d.node n := by
    unfold Doc.get at hn
    split at hn
    · cases hn; rfl
    · cases hn
  subst this
  exact element_get hn he

theorem uaSaid (hua : StyleSet.addStylesheet C ⟨[]⟩ userAgentCss = .ok ⟨ua⟩) {us : List Block}
    (hu : pushMatching d n (StyleSet.finish ⟨ua⟩).rules = .ok us) (p : Longhand) (P : Style) (fs : ℚ)
    (imp : Bool) (layer : Nat) :
    (((keyedRules d n ua imp layer).map (·.2)).filterMap (Decl.at P fs p)).getLast? =
      lastSaid d n (aboutTable P fs p imp uaSorted) := by
  obtain ⟨rules, h1, h2⟩ := ua_known C
  rw [hua] at h1
  cases h1
  rw [keyedRules_map d n ua imp layer hu, pushMatching_ok hu]
  have := about_map (ua_sorted h2) P fs p imp (matched d n)
  unfold lastSaid
  rw [← this]
  rfl

theorem styled_last (hua : StyleSet.addStylesheet C ⟨[]⟩ userAgentCss = .ok ⟨ua⟩)
    (h : StyledElement C tokenize ua author d n parent attr s) (p : Longhand) :
    s.val p = p.adjusted s ((((lastSaid d n (aboutTable (parent.getD Style.initial) (s.val .fontSize) p true uaSorted)).or
      (((keyedAll d n [] author attr).map (·.2)).filterMap
        (Decl.at (parent.getD Style.initial) (s.val .fontSize) p)).getLast?).or
      (lastSaid d n (aboutTable (parent.getD Style.initial) (s.val .fontSize) p false uaSorted))).getD
      (p.defaultValue (parent.getD Style.initial))) := by
  obtain ⟨nd, e, hn, he, hat⟩ := h.element
  obtain ⟨us, as, attr', hu, ha, hat', -⟩ := styleForElement_ok hn he h.style
  refine (h.val p).trans (congrArg (fun o : Option p.Comp => p.adjusted s
    (o.getD (p.defaultValue (parent.getD Style.initial)))) ?_)
  have hnil : ∀ imp layer, keyedRules (S := cssEngine) d n [] imp layer = [] := by
    intro imp layer
    simp [keyedRules, idxRules]
  simp only [keyedAll, hnil, List.nil_append, List.append_nil, List.map_append, List.filterMap_append,
    List.getLast?_append, uaSaid hua hu, Option.or_assoc]

/-- **C68** The built-in style sheet is accepted. -/
theorem C68_sheet (C : CssColors) : ∃ ua : List (cssEngine.Sel × Block),
    StyleSet.addStylesheet C ⟨[]⟩ userAgentCss = .ok ⟨ua⟩ ∧
    userAgentSheet C = .ok (StyleSet.finish ⟨ua⟩) ∧ ∀ r ∈ ua, r.2.Parsed C := by
  obtain ⟨rules, h1, h2⟩ := ua_known C
  refine ⟨rules, h1, ?_, ?_⟩
  · simp only [userAgentSheet, h1, bind, Except.bind]
    rfl
  · intro r hr
    obtain ⟨q, -, hq⟩ := forall₂_left' h2 r hr
    exact hq.2.2

/-- **C68** A property about which neither style sheets nor the style attribute say anything
has the value of the table of the HTML specification; if the table has none, it is inherited
or initial. -/
theorem C68_defaults (hua : StyleSet.addStylesheet C ⟨[]⟩ userAgentCss = .ok ⟨ua⟩)
    (h : StyledElement C tokenize ua author d n parent attr s) (he : (d.node n).data = .element e)
    (p : Longhand) (hp : ∀ k w, Applies (S := cssEngine) [] author attr d n k w → w.longhand ≠ p) :
    s.val p = p.adjusted s ((builtIn e (parent.getD Style.initial) p).getD
      (p.defaultValue (parent.getD Style.initial))) := by
  have hv := styled_last hua h p
  have : ((keyedAll d n [] author attr).map (·.2)).filterMap
      (Decl.at (parent.getD Style.initial) (s.val .fontSize) p) = [] := by
    rw [List.filterMap_eq_nil_iff]
    intro a ha
    obtain ⟨x, hx, rfl⟩ := List.mem_map.1 ha
    have hne := hp x.1 x.2 ((mem_keyedAll d n [] author attr x.1 x.2).1 hx)
    simp [Decl.at, hne]
  rw [this, List.getLast?_nil, Option.or_none, said_normal (h.element_eq he)] at hv
  exact hv

/-- **C68** Style sheets and style attributes override the built-in style sheet, except for
the two declarations of `C68_important`. -/
theorem C68_author (hua : StyleSet.addStylesheet C ⟨[]⟩ userAgentCss = .ok ⟨ua⟩)
    (h : StyledElement C tokenize ua author d n parent attr s) (he : (d.node n).data = .element e)
    (p : Longhand) {k : List Nat} {w : Decl} (hw : Wins (S := cssEngine) [] author attr d n p k w)
    (h1 : ¬ (p = .display ∧ HiddenInput e)) (h2 : ¬ (p = .whiteSpace ∧ e.name.localName = "br")) :
    ∃ v, Says (parent.getD Style.initial) (s.val .fontSize) w p v ∧ s.val p = p.adjusted s v := by
  have hv := styled_last hua h p
  have himp : lastSaid d n (aboutTable (parent.getD Style.initial) (s.val .fontSize) p true uaSorted) = none := by
    rw [said_important (h.element_eq he)]
    split
    · rw [if_neg fun hh => h1 ⟨rfl, hh⟩]
    · rw [if_neg fun hh => h2 ⟨rfl, hh⟩]
    · rfl
  rw [himp, Option.none_or, getLast_winner _ _ p (keyedAll_pairwise d n [] author attr)
    ((mem_keyedAll d n [] author attr k w).2 hw.applies) hw.about
    (fun k' d' hm => hw.last k' d' ((mem_keyedAll d n [] author attr k' d').1 hm))] at hv
  have hs : (Decl.at (parent.getD Style.initial) (s.val .fontSize) p w).isSome = true := by
    rw [Decl.at_isSome]; simpa using hw.about
  obtain ⟨v, hv'⟩ := Option.isSome_iff_exists.1 hs
  rw [hv'] at hv
  exact ⟨v, (Decl.at_eq_some _ _ p w v).1 hv', hv⟩

/-- **C68** Hidden input elements are not displayed and `<br>` breaks the line, whatever style
sheets and style attributes say. -/
theorem C68_important (hua : StyleSet.addStylesheet C ⟨[]⟩ userAgentCss = .ok ⟨ua⟩)
    (h : StyledElement C tokenize ua author d n parent attr s) (he : (d.node n).data = .element e) :
    (HiddenInput e → s.val .display = Display.none) ∧
    (e.name.localName = "br" → s.val .whiteSpace = WhiteSpace.pre) := by
  have h1 := styled_last hua h .display
  have h2 := styled_last hua h .whiteSpace
  rw [said_important (h.element_eq he)] at h1 h2
  refine ⟨fun hh => ?_, fun hh => ?_⟩
  · simp only [if_pos hh] at h1
    exact h1
  · simp only [if_pos hh] at h2
    exact h2

end

/-- **C68 for the R function**: if anything is drawn, it is the page that is laid out with a
style for each element that has, for every property, the value that style sheets and style
attribute declare, or else that of the table of the HTML specification, or else the inherited or
initial value; except that hidden input elements are never displayed and `<br>` always
breaks the line. -/
theorem C68_rendered {markdown : Text → Except Panic Text} {parse : Text → Except Panic (List SinkOp)}
    {readCss : Text → List (RawRule cssEngine)} {readAttr : AttrTokenizer} {colors : CssColors}
    {env : TextEnv} {sheet₀ : StyleSet cssEngine} (hua : userAgentSheet colors = .ok sheet₀)
    {X : Externals} (hX : X = ⟨cssEngine, markdown, parse, readCss, readAttr, colors, sheet₀, env⟩)
    {text css : ByteArray} {html sheet : Text} (ht : X.Html text html) (hc : Decodes css sheet)
    {ops : List SinkOp} (hops : X.html html = .ok ops) (hl : LegalRun Doc.new ops)
    (n : Nat) (width height : ℚ) (ts cs : List ByteArray) {r : Released}
    (hr : X.renderMarkdown n (text :: ts) (css :: cs) width height = .ok r) (hne : r.grobs ≠ []) :
    ∃ d, ∃ author : List (cssEngine.Sel × Block), ∃ root fs,
      ∃ styleOf : NodeId → Option Style → Except Panic Style,
      Doc.new.runSink ops = .ok d ∧ boxTree ⟨d, styleOf, env.font⟩ n = .ok root ∧
      rootLayout env root ⟨width * 96, height * 96⟩ = .ok fs ∧
      r.grobs = ((paintPage ⟨width * 96, height * 96⟩ fs).calls.filterMap (·.grob 0)).map some ∧
      ∀ i e parent attr s, (d.node i).data = .element e → i < d.len →
        StyleAttr colors readAttr e attr → styleOf i parent = .ok s →
        (HiddenInput e → s.val .display = Display.none) ∧
        (e.name.localName = "br" → s.val .whiteSpace = WhiteSpace.pre) ∧
        ∀ p : Longhand,
          ((∀ k w, Applies (S := cssEngine) [] author attr d i k w → w.longhand ≠ p) →
            s.val p = p.adjusted s ((builtIn e (parent.getD Style.initial) p).getD
              (p.defaultValue (parent.getD Style.initial)))) ∧
          ∀ k w, Wins (S := cssEngine) [] author attr d i p k w →
            ¬ (p = .display ∧ HiddenInput e) → ¬ (p = .whiteSpace ∧ e.name.localName = "br") →
            ∃ v, Says (parent.getD Style.initial) (s.val .fontSize) w p v ∧ s.val p = p.adjusted s v := by
  obtain ⟨ua, h1, h2, h3⟩ := C68_sheet colors
  rw [hua] at h2
  cases h2
  subst hX
  obtain ⟨d, kids, author, root, fs, styleOf, k1, k2, k3, k4, k5, k6, k7⟩ :=
    C15_styled _ (ua := ua) rfl h3 ht hc hops hl n width height ts cs hr hne
  refine ⟨d, author, root, fs, styleOf, k1, k4, k5, k6, ?_⟩
  intro i e parent attr s he hi ha hs
  have hS := k7 i e parent attr s he hi ha hs
  exact ⟨(C68_important h1 hS he).1, (C68_important h1 hS he).2, fun p => ⟨C68_defaults h1 hS he p,
    fun k w hw h1' h2' => C68_author h1 hS he p hw h1' h2'⟩⟩

/-! ## Examples -/

/-- the rules of the built-in style sheet -/
def uaRulesOf (C : CssColors) : List (cssEngine.Sel × Block) :=
  match StyleSet.addStylesheet C ⟨[]⟩ userAgentCss with
  | .ok s => s.rules
  | .error _ => []

/-- … in the order in which they are applied -/
def uaInOrder (C : CssColors) : StyleSet cssEngine :=
  ⟨(uaRulesOf C).filter (fun r => cssEngine.specificity r.1 = 1) ++
    (uaRulesOf C).filter (fun r => cssEngine.specificity r.1 = 1024) ++
    (uaRulesOf C).filter (fun r => cssEngine.specificity r.1 = 1025)⟩

theorem userAgentSheet_eq (C : CssColors) : userAgentSheet C = .ok (uaInOrder C) := by
  obtain ⟨ua, h1, h2⟩ := ua_known C
  have hr : uaRulesOf C = ua := by simp [uaRulesOf, h1]
  simp only [userAgentSheet, h1, bind, Except.bind, uaInOrder, hr]
  refine congrArg (fun l => Except.ok (StyleSet.mk l)) ?_
  have hv : ∀ q ∈ uaFlat, q.1.specificity = 1 ∨ q.1.specificity = 1024 ∨ q.1.specificity = 1025 := by
    have : (uaFlat.map fun q => q.1.specificity).all (fun k => k = 1 ∨ k = 1024 ∨ k = 1025) = true := by
      decide +kernel
    intro q hq
    simpa using List.all_eq_true.1 this _ (List.mem_map_of_mem hq)
  have hv' : ∀ r ∈ (StyleSet.finish ⟨ua⟩).rules, cssEngine.specificity r.1 = 1 ∨
      cssEngine.specificity r.1 = 1024 ∨ cssEngine.specificity r.1 = 1025 := by
    intro r hr
    obtain ⟨q, hq, hrq⟩ := forall₂_left' h2 r ((C24_perm ua).mem_iff.1 hr)
    rw [hrq.1]
    exact hv q hq
  rw [← C24_stable ua 1, ← C24_stable ua 1024, ← C24_stable ua 1025]
  exact sorted_split _ _ (C24_sorted ua) (by decide : 1 < 1024) (by decide : 1024 < 1025) hv'

/-- the calls of the parser for `<head><title>t</title></head><p>a<br>b</p><pre>c  d</pre>`, the
`<br>` and the `<pre>` with a `style` attribute if `st` is given -/
def htmlOps (st : Option Text) : List SinkOp :=
  [.createElement (htmlName "html") [], .append 1 (.node 2),
   .createElement (htmlName "head") [], .append 2 (.node 3),
   .createElement (htmlName "title") [], .append 3 (.node 4), .append 4 (.text ['t']),
   .createElement (htmlName "body") [], .append 2 (.node 6),
   .createElement (htmlName "p") [], .append 6 (.node 7), .append 7 (.text "a".toList),
   .createElement (htmlName "br") (st.toList.map fun t => ⟨⟨none, "", "style"⟩, t⟩), .append 7 (.node 9),
   .append 7 (.text "b".toList),
   .createElement (htmlName "pre") (st.toList.map fun t => ⟨⟨none, "", "style"⟩, t⟩), .append 6 (.node 11),
   .append 11 (.text "c  d".toList)]

/-- a rendering with the built-in style sheet in which the style attribute `w` stands for
`white-space: w` -/
def htmlExternals (st : Option Text) : Externals where
  engine := cssEngine
  markdown t := .ok t
  html _ := .ok (htmlOps st)
  css _ := []
  attr t := [.decl "white-space".toList [.ident t]]
  colors := noColors
  userAgent := uaInOrder noColors
  env := ⟨fun st => ⟨st.val .fontSize, 12, 4, 4, GCtx.new⟩, fun _ t => 10 * t.length⟩

theorem htmlExternals_sheets (st : Option Text) (d : Doc) (css : Option Text) :
    (htmlExternals st).parseStylesheets d css = do
      let _ ← d.stylesheetTexts d.len css
      return ⟨[]⟩ := by
  have key : ∀ texts : List Text, StyleSet.addStylesheets (htmlExternals st).colors ⟨[]⟩
      (texts.map (htmlExternals st).css) = .ok ⟨[]⟩ := by
    intro texts
    induction texts with
    | nil => rfl
    | cons t ts ih => exact ih
  unfold Externals.parseStylesheets
  simp only [key, bind, Except.bind, pure, Except.pure]
  have : StyleSet.finish (S := (htmlExternals st).engine) ⟨[]⟩ = ⟨[]⟩ := by simp [StyleSet.finish]
  rw [this]

-- the title is not shown, and `<br>` and `<pre>` have their usual meaning
example : labels ((htmlExternals none).renderMarkdown 80 [⟨#[0x61]⟩] [⟨#[]⟩] 1 1) =
    some ["a", "b", "c  d"] := by
  unfold Externals.renderMarkdown Externals.testRenderer Externals.renderHtml Externals.layoutHtml
    Externals.layoutDoc
  simp only [htmlExternals_sheets]
  decide +kernel

-- `style="white-space: normal"` has an effect on `<pre>` but not on `<br>`
example : labels ((htmlExternals (some "normal".toList)).renderMarkdown 80 [⟨#[0x61]⟩] [⟨#[]⟩] 1 1) =
    some ["a", "b", "c d"] := by
  unfold Externals.renderMarkdown Externals.testRenderer Externals.renderHtml Externals.layoutHtml
    Externals.layoutDoc
  simp only [htmlExternals_sheets]
  decide +kernel

-- this is a rendering with the built-in style sheet
example (st : Option Text) : userAgentSheet (htmlExternals st).colors = .ok (htmlExternals st).userAgent :=
  userAgentSheet_eq _

/-- `<input type=Hidden>` -/
def hiddenInput : ElementData := ⟨htmlName "input", [⟨⟨none, "", "type"⟩, "Hidden".toList⟩]⟩

-- some entries of the table
example : builtIn hiddenInput Style.initial .display = some .none ∧
    builtIn ⟨htmlName "sup", []⟩ Style.initial .fontSize = some (4 / 5 * 16) ∧
    builtIn ⟨htmlName "sup", []⟩ Style.initial .display = none := by
  refine ⟨if_pos ⟨rfl, _, List.mem_cons_self, rfl, rfl, by decide +kernel⟩, ?_, ?_⟩
  · simp only [builtIn, htmlName, or_true, if_true]
    rfl
  simp [builtIn, HiddenInput, HasAttr, htmlName, invisibleElements, blockElements]

end Sinab
