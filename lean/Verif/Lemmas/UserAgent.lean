import Verif.Model.UserAgent
import Verif.Lemmas.Parse
import Verif.Props.Cascade
import Mathlib.Data.List.Forall2

namespace Sinab

theorem entries_longhand (C : CssColors) {nm : String} {p : Longhand}
    (hm : (nm, p) ∈ longhandNames ∧ nm.toList.map Char.toLower = nm.toList) {ts rest : List Tok}
    {v : p.Spec} {imp : Bool} (hk : CssWideKeyword.parse ts = none)
    (hp : p.parse C ts = some (v, rest)) (hi : tryImportant rest = (imp, [])) :
    (RawItem.decl nm.toList ts).entries? C = some [(.value p v, imp)] := by
  simp only [RawItem.entries?, propertyDataByName_longhand' C hm, parseDecls, hk, longhandData, P.map, hp,
    Option.map_some, hi]
  rfl

/-- the entries of the built-in style sheet, rule by rule -/
def uaTable : List (List ComplexSel × List (Decl × Bool)) :=
  [(.compound [⟨false, hiddenAttr⟩] :: uaHiddenNames.map typeSel, [(.value .display .none, false)]),
   ([.compound [⟨false, .type "embed"⟩, ⟨false, hiddenAttr⟩]],
     [(.value .display (.generatingBox .inline .flow), false),
      (.value .height (.length (.absolute 0)), false), (.value .width (.length (.absolute 0)), false)]),
   ([.compound [⟨false, .type "input"⟩, ⟨false, typeHiddenAttr⟩]], [(.value .display .none, true)]),
   ([typeSel "html", typeSel "body"], [(.value .display (.generatingBox .block .flow), false)]),
   ([typeSel "body"],
     [(.value .marginTop (.length (.absolute 0)), false), (.value .marginLeft (.length (.absolute 0)), false),
      (.value .marginBottom (.length (.absolute 0)), false), (.value .marginRight (.length (.absolute 0)), false)]),
   ([typeSel "em"], [(.value .fontStyle .italic, false)]),
   ([typeSel "strong"], [(.value .fontWeight .bold, false)]),
   (uaBlockNames.map typeSel, [(.value .display (.generatingBox .block .flow), false)]),
   ([typeSel "br"], [(.value .whiteSpace .pre, true)]),
   ([typeSel "sub"], [(.value .verticalAlign .sub, false), (.value .fontSize (.em (4 / 5)), false)]),
   ([typeSel "sup"], [(.value .verticalAlign .super, false), (.value .fontSize (.em (4 / 5)), false)]),
   ([typeSel "pre"], [(.value .whiteSpace .pre, false)]),
   ([typeSel "code"], [(.value .fontFamily .genericMonospace, false)])]

theorem ua_display (C : CssColors) {kw : String} {v : Display}
    (h : Display.parse [.ident kw.toList] = some (v, []))
    (hk : CssWideKeyword.parse [.ident kw.toList] = none) :
    (keywordDecl "display" kw).entries? C = some [(.value .display v, false)] :=
  entries_longhand C (p := .display) (by decide +kernel) hk h rfl

theorem ua_rules (C : CssColors) : List.Forall₂
    (fun (r : RawRule cssEngine) (q : List ComplexSel × List (Decl × Bool)) => ∃ items ess,
      r = .rule q.1 items ∧ items.mapM (RawItem.entries? C) = some ess ∧ ess.flatten = q.2)
    userAgentCss.tail uaTable := by
  have dnone : (keywordDecl "display" "none").entries? C = some [(.value .display .none, false)] :=
    ua_display C (by decide +kernel) (by decide +kernel)
  have inl : (keywordDecl "display" "inline").entries? C =
    some [(.value .display (.generatingBox .inline .flow), false)] :=
    ua_display C (by decide +kernel) (by decide +kernel)
  have block : (keywordDecl "display" "block").entries? C =
    some [(.value .display (.generatingBox .block .flow), false)] :=
    ua_display C (by decide +kernel) (by decide +kernel)
  have height : (RawItem.decl "height".toList [.number 0]).entries? C =
    some [(.value .height (.length (.absolute 0)), false)] :=
    entries_longhand C (p := .height) (by decide +kernel) (by decide +kernel)
      (by exact (by decide +kernel : SpecifiedLengthOrPercentageOrAuto.parse [.number 0] =
        some (.length (.absolute 0), []))) rfl
  have width : (RawItem.decl "width".toList [.number 0]).entries? C =
    some [(.value .width (.length (.absolute 0)), false)] :=
    entries_longhand C (p := .width) (by decide +kernel) (by decide +kernel)
      (by exact (by decide +kernel : SpecifiedLengthOrPercentageOrAuto.parse [.number 0] =
        some (.length (.absolute 0), []))) rfl
  have none' : (importantDecl "display" "none").entries? C = some [(.value .display .none, true)] :=
    entries_longhand C (p := .display) (rest := [.delim '!', .ident "important".toList])
      (by decide +kernel) (by decide +kernel)
      (by exact (by decide +kernel : Display.parse [.ident "none".toList, .delim '!', .ident "important".toList]
        = some (.none, [.delim '!', .ident "important".toList]))) (by decide +kernel)
  have pre' : (importantDecl "white-space" "pre").entries? C = some [(.value .whiteSpace .pre, true)] :=
    entries_longhand C (p := .whiteSpace) (rest := [.delim '!', .ident "important".toList])
      (by decide +kernel) (by decide +kernel)
      (by exact (by decide +kernel : WhiteSpace.parse [.ident "pre".toList, .delim '!', .ident "important".toList]
        = some (.pre, [.delim '!', .ident "important".toList]))) (by decide +kernel)
  have margin : (RawItem.decl "margin".toList [.dimension 0 "px".toList]).entries? C =
    some [(.value .marginTop (.length (.absolute 0)), false), (.value .marginLeft (.length (.absolute 0)), false),
      (.value .marginBottom (.length (.absolute 0)), false), (.value .marginRight (.length (.absolute 0)), false)] := by
    have hd := propertyDataByName_shorthand C (nm := "margin") (name := "margin".toList)
      (List.mem_of_getElem? (i := 0) rfl) (by decide +kernel)
    have hp : FourSides.parse SpecifiedLengthOrPercentageOrAuto.parse [.dimension 0 "px".toList] =
        some (⟨.length (.absolute 0), .length (.absolute 0), .length (.absolute 0), .length (.absolute 0)⟩, []) := by
      decide +kernel
    have hk : CssWideKeyword.parse [.dimension 0 "px".toList] = none := by decide +kernel
    simp only [RawItem.entries?, hd, parseDecls, hk, shorthandData, P.map, hp, Option.map_some]
    rfl
  have italic : (keywordDecl "font-style" "italic").entries? C = some [(.value .fontStyle .italic, false)] :=
    entries_longhand C (p := .fontStyle) (by decide +kernel) (by decide +kernel)
      (by exact (by decide +kernel : FontStyle.parse [.ident "italic".toList] = some (.italic, []))) rfl
  have bold : (keywordDecl "font-weight" "bold").entries? C = some [(.value .fontWeight .bold, false)] :=
    entries_longhand C (p := .fontWeight) (by decide +kernel) (by decide +kernel)
      (by exact (by decide +kernel : FontWeight.parse [.ident "bold".toList] = some (.bold, []))) rfl
  have sub : (keywordDecl "vertical-align" "sub").entries? C = some [(.value .verticalAlign .sub, false)] :=
    entries_longhand C (p := .verticalAlign) (by decide +kernel) (by decide +kernel)
      (by exact (by decide +kernel : SpecifiedVerticalAlign.parse [.ident "sub".toList] = some (.sub, []))) rfl
  have sup : (keywordDecl "vertical-align" "super").entries? C = some [(.value .verticalAlign .super, false)] :=
    entries_longhand C (p := .verticalAlign) (by decide +kernel) (by decide +kernel)
      (by exact (by decide +kernel : SpecifiedVerticalAlign.parse [.ident "super".toList] = some (.super, []))) rfl
  have em : (RawItem.decl "font-size".toList [.dimension (4 / 5) "em".toList]).entries? C =
    some [(.value .fontSize (.em (4 / 5)), false)] :=
    entries_longhand C (p := .fontSize) (by decide +kernel) (by decide +kernel)
      (by exact (by decide +kernel : SpecifiedLength.parse [.dimension (4 / 5) "em".toList] =
        some (.em (4 / 5), []))) rfl
  have pre : (keywordDecl "white-space" "pre").entries? C = some [(.value .whiteSpace .pre, false)] :=
    entries_longhand C (p := .whiteSpace) (by decide +kernel) (by decide +kernel)
      (by exact (by decide +kernel : WhiteSpace.parse [.ident "pre".toList] = some (.pre, []))) rfl
  have mono : (keywordDecl "font-family" "monospace").entries? C = some [(.value .fontFamily .genericMonospace, false)] :=
    entries_longhand C (p := .fontFamily) (by decide +kernel) (by decide +kernel)
      (by exact (by decide +kernel : FontFamily.parse [.ident "monospace".toList] = some (.genericMonospace, []))) rfl
  have one : ∀ {i : RawItem} {es}, i.entries? C = some es → ([i] : List RawItem).mapM (RawItem.entries? C) = some [es] := by
    intro i es h; simp [h]
  refine .cons ⟨_, _, rfl, one dnone, rfl⟩ (.cons ⟨_, [_, _, _], rfl, by simp only [List.mapM_cons, inl, height, width, List.mapM_nil]; rfl, rfl⟩
    (.cons ⟨_, _, rfl, one none', rfl⟩ (.cons ⟨_, _, rfl, one block, rfl⟩ (.cons ⟨_, _, rfl, one margin, rfl⟩
    (.cons ⟨_, _, rfl, one italic, rfl⟩ (.cons ⟨_, _, rfl, one bold, rfl⟩ (.cons ⟨_, _, rfl, one block, rfl⟩
    (.cons ⟨_, _, rfl, one pre', rfl⟩ (.cons ⟨_, [_, _], rfl, by simp only [List.mapM_cons, sub, em, List.mapM_nil]; rfl, rfl⟩
    (.cons ⟨_, [_, _], rfl, by simp only [List.mapM_cons, sup, em, List.mapM_nil]; rfl, rfl⟩ (.cons ⟨_, _, rfl, one pre, rfl⟩
    (.cons ⟨_, _, rfl, one mono, rfl⟩ .nil))))))))))))

/-- the rules of the built-in style sheet, one per selector -/
def uaFlat : List (ComplexSel × List (Decl × Bool)) := uaTable.flatMap fun q => q.1.map fun s => (s, q.2)

/-- a rule with known declarations -/
def RuleIs (C : CssColors) (r : cssEngine.Sel × Block) (q : ComplexSel × List (Decl × Bool)) : Prop :=
  r.1 = q.1 ∧ r.2.entries = q.2 ∧ r.2.Parsed C

theorem parse_items {C : CssColors} {items : List RawItem} {ess}
    (h : items.mapM (RawItem.entries? C) = some ess) :
    ∃ b, Block.parse C items = .ok b ∧ b.entries = ess.flatten := by
  obtain ⟨b, hb⟩ := Block.parseFrom_total items Block.Inv.empty h
  obtain ⟨-, ess', h1, h2⟩ := Block.parseFrom_ok items Block.Inv.empty hb
  rw [h] at h1
  cases h1
  exact ⟨b, hb, by simpa [Block.entries, Block.empty] using h2⟩

theorem forall₂_left' {α β : Type*} {R : α → β → Prop} {l : List α} {m : List β}
    (h : List.Forall₂ R l m) : ∀ a ∈ l, ∃ b ∈ m, R a b := by
  induction h with
  | nil => simp
  | cons h _ ih =>
    intro a ha
    rcases List.mem_cons.1 ha with rfl | ha
    · exact ⟨_, List.mem_cons_self, h⟩
    · obtain ⟨b, hb, hr⟩ := ih a ha
      exact ⟨b, List.mem_cons_of_mem _ hb, hr⟩

theorem ruleIs_map {C : CssColors} {b : Block} {es : List (Decl × Bool)} (he : b.entries = es)
    (hb : b.Parsed C) : ∀ sels : List cssEngine.Sel,
    List.Forall₂ (RuleIs C) (sels.map fun sel => (sel, b)) (sels.map fun s => (s, es))
  | [] => .nil
  | _ :: sels => .cons ⟨rfl, he, hb⟩ (ruleIs_map he hb sels)

theorem addStylesheet_known {C : CssColors} {sheet : List (RawRule cssEngine)}
    {T : List (List ComplexSel × List (Decl × Bool))}
    (h : List.Forall₂ (fun (r : RawRule cssEngine) (q : List ComplexSel × List (Decl × Bool)) => ∃ items ess,
      r = .rule q.1 items ∧ items.mapM (RawItem.entries? C) = some ess ∧ ess.flatten = q.2) sheet T)
    (s₀ : StyleSet cssEngine) : ∃ rules, StyleSet.addStylesheet C s₀ sheet = .ok ⟨s₀.rules ++ rules⟩ ∧
      List.Forall₂ (RuleIs C) rules (T.flatMap fun q => q.1.map fun s => (s, q.2)) := by
  induction h generalizing s₀ with
  | nil => exact ⟨[], by simp [StyleSet.addStylesheet], .nil⟩
  | @cons r q rs T hr _ ih =>
    obtain ⟨items, ess, rfl, h1, h2⟩ := hr
    obtain ⟨b, hb, he⟩ := parse_items h1
    obtain ⟨rules, h3, h4⟩ := ih ⟨s₀.rules ++ q.1.map fun sel : cssEngine.Sel => (sel, b)⟩
    refine ⟨(q.1.map fun sel : cssEngine.Sel => (sel, b)) ++ rules, ?_, ?_⟩
    · simp only [StyleSet.addStylesheet, hb, bind, Except.bind]
      rw [h3]
      simp
    · rw [List.flatMap_cons]
      exact List.rel_append (ruleIs_map (by rw [he, h2]) ⟨_, hb⟩ q.1) h4

theorem ua_known (C : CssColors) : ∃ rules : List (cssEngine.Sel × Block),
    StyleSet.addStylesheet C ⟨[]⟩ userAgentCss = .ok ⟨rules⟩ ∧ List.Forall₂ (RuleIs C) rules uaFlat := by
  obtain ⟨rules, h1, h2⟩ := addStylesheet_known (ua_rules C) ⟨[]⟩
  exact ⟨rules, h1, h2⟩

theorem sorted_split {α : Type*} (f : α → Nat) (l : List α) (hs : l.Pairwise fun a b => f a ≤ f b)
    {i j k : Nat} (hij : i < j) (hjk : j < k) (hv : ∀ a ∈ l, f a = i ∨ f a = j ∨ f a = k) :
    l = l.filter (fun a => f a = i) ++ l.filter (fun a => f a = j) ++ l.filter (fun a => f a = k) := by
  induction l with
  | nil => rfl
  | cons a l ih =>
    obtain ⟨h1, h2⟩ := List.pairwise_cons.1 hs
    have ih := ih h2 fun x hx => hv x (List.mem_cons_of_mem _ hx)
    have below : ∀ m, m < f a → l.filter (fun x => f x = m) = [] := by
      intro m hm
      rw [List.filter_eq_nil_iff]
      intro x hx
      have := h1 x hx
      simp only [decide_eq_true_eq]
      omega
    rcases hv a List.mem_cons_self with h | h | h
    · simp only [List.filter_cons, h, decide_true, decide_false, if_true, Bool.false_eq_true, if_false,
        List.cons_append, show ¬ i = j by omega, show ¬ i = k by omega]
      rw [← ih]
    · have := below i (by omega)
      rw [this, List.nil_append] at ih
      simp only [List.filter_cons, h, decide_true, decide_false, if_true, Bool.false_eq_true, if_false,
        this, List.nil_append, List.cons_append, show ¬ j = i by omega, show ¬ j = k by omega]
      rw [← ih]
    · have h1 := below i (by omega)
      have h2 := below j (by omega)
      rw [h1, h2, List.nil_append, List.nil_append] at ih
      simp only [List.filter_cons, h, decide_true, decide_false, if_true, Bool.false_eq_true, if_false,
        h1, h2, List.nil_append, show ¬ k = i by omega, show ¬ k = j by omega]
      rw [← ih]

/-- the rules of the built-in style sheet in the order in which they are applied -/
def uaSorted : List (ComplexSel × List (Decl × Bool)) :=
  uaFlat.filter (fun q => q.1.specificity = 1) ++ uaFlat.filter (fun q => q.1.specificity = 1024) ++
    uaFlat.filter fun q => q.1.specificity = 1025

theorem RuleIs.filter {C : CssColors} {rules : List (cssEngine.Sel × Block)}
    {T : List (ComplexSel × List (Decl × Bool))} (h : List.Forall₂ (RuleIs C) rules T) (f : ComplexSel → Bool) :
    List.Forall₂ (RuleIs C) (rules.filter fun r => f r.1) (T.filter fun q => f q.1) := by
  induction h with
  | nil => exact .nil
  | cons h _ ih =>
    simp only [List.filter_cons, h.1]
    split
    · exact .cons h ih
    · exact ih

theorem ua_sorted {C : CssColors} {rules : List (cssEngine.Sel × Block)}
    (h : List.Forall₂ (RuleIs C) rules uaFlat) :
    List.Forall₂ (RuleIs C) (StyleSet.finish ⟨rules⟩).rules uaSorted := by
  have hv : ∀ q ∈ uaFlat, q.1.specificity = 1 ∨ q.1.specificity = 1024 ∨ q.1.specificity = 1025 := by
    have : (uaFlat.map fun q => q.1.specificity).all (fun k => k = 1 ∨ k = 1024 ∨ k = 1025) = true := by
      decide +kernel
    intro q hq
    simpa using List.all_eq_true.1 this _ (List.mem_map_of_mem hq)
  have hv' : ∀ r ∈ (StyleSet.finish ⟨rules⟩).rules, cssEngine.specificity r.1 = 1 ∨
      cssEngine.specificity r.1 = 1024 ∨ cssEngine.specificity r.1 = 1025 := by
    intro r hr
    obtain ⟨q, hq, hrq⟩ := forall₂_left' h r ((C24_perm rules).mem_iff.1 hr)
    rw [hrq.1]
    exact hv q hq
  rw [sorted_split _ _ (C24_sorted rules) (by decide : 1 < 1024) (by decide : 1024 < 1025) hv',
    C24_stable, C24_stable, C24_stable]
  exact List.rel_append (List.rel_append (RuleIs.filter h fun s => decide (s.specificity = 1))
    (RuleIs.filter h fun s => decide (s.specificity = 1024))) (RuleIs.filter h fun s => decide (s.specificity = 1025))

/-- what the rules say about a longhand -/
def aboutTable (parent : Style) (fs : ℚ) (p : Longhand) (imp : Bool)
    (T : List (ComplexSel × List (Decl × Bool))) : List (ComplexSel × p.Comp) :=
  T.flatMap fun q => (q.2.filter fun x => x.2 = imp).filterMap fun x => (Decl.at parent fs p x.1).map (q.1, ·)

theorem about_map {C : CssColors} {rules : List (cssEngine.Sel × Block)}
    {T : List (ComplexSel × List (Decl × Bool))} (h : List.Forall₂ (RuleIs C) rules T) (parent : Style) (fs : ℚ)
    (p : Longhand) (imp : Bool) (f : ComplexSel → Bool) :
    ((((rules.filter fun r => f r.1).map (·.2)).flatMap (·.declsWith imp)).filterMap (Decl.at parent fs p)) =
      ((aboutTable parent fs p imp T).filter fun x => f x.1).map (·.2) := by
  induction h with
  | nil => rfl
  | @cons r q rs T h _ ih =>
    simp only [aboutTable, List.flatMap_cons, List.filter_append, List.map_append] at ih ⊢
    rw [← ih]
    have hr : r.1 = q.1 := h.1
    by_cases hf : f q.1 = true
    · rw [List.filter_cons_of_pos (by rw [hr]; exact hf), List.map_cons, List.flatMap_cons, List.filterMap_append]
      congr 1
      have : ((q.2.filter fun x => x.2 = imp).filterMap fun x => (Decl.at parent fs p x.1).map (q.1, ·)).filter
          (fun x => f x.1) =
          (q.2.filter fun x => x.2 = imp).filterMap fun x => (Decl.at parent fs p x.1).map (q.1, ·) := by
        rw [List.filter_eq_self]
        intro x hx
        obtain ⟨y, -, hy⟩ := List.mem_filterMap.1 hx
        obtain ⟨v, -, rfl⟩ := Option.map_eq_some_iff.1 hy
        exact hf
      rw [this, Block.declsWith, h.2.1, List.filterMap_map, List.map_filterMap]
      congr 1
      funext x
      simp [Function.comp_def]
    · rw [List.filter_cons_of_neg (by rw [hr]; exact hf)]
      have : ((q.2.filter fun x => x.2 = imp).filterMap fun x => (Decl.at parent fs p x.1).map (q.1, ·)).filter
          (fun x => f x.1) = [] := by
        rw [List.filter_eq_nil_iff]
        intro x hx
        obtain ⟨y, -, hy⟩ := List.mem_filterMap.1 hx
        obtain ⟨v, -, rfl⟩ := Option.map_eq_some_iff.1 hy
        exact hf
      rw [this]
      rfl

end Sinab
