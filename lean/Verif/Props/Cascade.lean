import Verif.Lemmas.Cascade

namespace Sinab

variable {S : SelectorEngine}

/-! ### C24 -/

/-- **C24** Finishing a rule set keeps every rule exactly as often as it was added. -/
theorem C24_perm (rules : List (S.Sel × Block)) :
    (StyleSet.finish ⟨rules⟩).rules.Perm rules :=
  List.mergeSort_perm _ _

/-- a selector engine for examples: a selector is its specificity and whether it matches -/
def demoEngine : SelectorEngine := ⟨Nat × Bool, (·.1), fun s _ _ => .ok s.2⟩

/-- `font-size: 2em; margin-top: 1em` -/
def demoBlock₁ : Block := ⟨[.value .fontSize (.em 2), .value .marginTop (.length (.em 1))],
  [false, false], ⟨false, false⟩, ⟨true, true⟩⟩

/-- `margin-top: 3px; margin-left: auto !important` -/
def demoBlock₂ : Block := ⟨[.value .marginTop (.length (.absolute 3)), .value .marginLeft .auto],
  [false, true], ⟨false, true⟩, ⟨false, true⟩⟩

/-- the rules of a sheet: specificity 2, then 1, then 2 again, then one that does not match -/
def demoRules : List (demoEngine.Sel × Block) :=
  [((2, true), demoBlock₁), ((1, true), demoBlock₂), ((2, true), demoBlock₂), ((9, false), demoBlock₁)]

theorem demo_finish : StyleSet.finish (S := demoEngine) ⟨demoRules⟩ = ⟨[((1, true), demoBlock₂),
    ((2, true), demoBlock₁), ((2, true), demoBlock₂), ((9, false), demoBlock₁)]⟩ := by
  simp [StyleSet.finish, demoRules, List.mergeSort, List.MergeSort.Internal.splitInTwo,
    demoEngine]

example : (StyleSet.finish (S := demoEngine) ⟨demoRules⟩).rules.map (·.1.1) = [1, 2, 2, 9] := by
  rw [demo_finish]
  rfl

/-- **C24** The rules are sorted by specificity. -/
theorem C24_sorted (rules : List (S.Sel × Block)) :
    (StyleSet.finish ⟨rules⟩).rules.Pairwise fun a b => S.specificity a.1 ≤ S.specificity b.1 := by
  have := List.pairwise_mergeSort (le := ruleLE (S := S)) ruleLE_trans ruleLE_total rules
  exact this.imp fun h => by simpa [ruleLE] using h

/-- **C24** Rules of equal specificity stay in order of appearance. -/
theorem C24_stable (rules : List (S.Sel × Block)) (k : Nat) :
    (StyleSet.finish ⟨rules⟩).rules.filter (fun r => S.specificity r.1 = k) =
      rules.filter fun r => S.specificity r.1 = k := by
  symm
  apply List.Sublist.eq_of_length
  · have hpw : (rules.filter fun r => decide (S.specificity r.1 = k)).Pairwise
        (fun a b => ruleLE a b = true) := by
      refine List.Pairwise.imp_of_mem (R := fun _ _ => True) ?_ (List.pairwise_of_forall fun _ _ => trivial)
      intro a b ha hb _
      simp only [List.mem_filter, decide_eq_true_eq] at ha hb
      simp [ruleLE, ha.2, hb.2]
    have := List.sublist_mergeSort (le := ruleLE (S := S)) ruleLE_trans ruleLE_total hpw
      List.filter_sublist
    have h2 := this.filter fun r => decide (S.specificity r.1 = k)
    rw [List.filter_filter] at h2
    simp only [Bool.and_self] at h2
    exact h2
  · exact ((C24_perm rules).filter _).length_eq.symm

-- the two rules of specificity 2 stay in order
example : (StyleSet.finish (S := demoEngine) ⟨demoRules⟩).rules.map (·.2.important) =
    [[false, true], [false, false], [false, true], [false, false]] := by
  rw [demo_finish]
  rfl

theorem addStylesheet_rules (C : CssColors) (sheet : List (RawRule S)) (s₀ s : StyleSet S)
    (h : StyleSet.addStylesheet C s₀ sheet = .ok s) :
    ∃ bs : List (RawRule S × List (S.Sel × Block)), bs.map (·.1) = sheet ∧
      (∀ r ∈ bs, match r.1 with
        | .rule sels items => ∃ b, Block.parse C items = .ok b ∧ r.2 = sels.map fun sel => (sel, b)
        | .error => r.2 = []) ∧
      s.rules = s₀.rules ++ bs.flatMap (·.2) := by
  induction sheet generalizing s₀ with
  | nil =>
    simp only [StyleSet.addStylesheet, Except.ok.injEq] at h
    subst h
    exact ⟨[], rfl, by simp, by simp⟩
  | cons r rs ih =>
    cases r with
    | error =>
      simp only [StyleSet.addStylesheet] at h
      obtain ⟨bs, h1, h2, h3⟩ := ih s₀ h
      refine ⟨(.error, []) :: bs, by simp [h1], ?_, by simp [h3]⟩
      intro r hr
      rcases List.mem_cons.1 hr with rfl | hr
      · rfl
      · exact h2 r hr
    | rule sels items =>
      simp only [StyleSet.addStylesheet, bind, Except.bind] at h
      cases hb : Block.parse C items with
      | error e => simp [hb] at h
      | ok b =>
        simp only [hb] at h
        obtain ⟨bs, h1, h2, h3⟩ := ih _ h
        refine ⟨(.rule sels items, sels.map fun sel => (sel, b)) :: bs, by simp [h1], ?_,
          by simp [h3]⟩
        intro r hr
        rcases List.mem_cons.1 hr with rfl | hr
        · exact ⟨b, hb, rfl⟩
        · exact h2 r hr

/-- **C24** The rules of several style sheets are, in order of appearance, one pair
per selector of each readable rule, each with the block read from its rule. -/
theorem C24_rules (C : CssColors) (sheets : List (List (RawRule S))) (s₀ s : StyleSet S)
    (h : StyleSet.addStylesheets C s₀ sheets = .ok s) :
    ∃ bs : List (RawRule S × List (S.Sel × Block)), bs.map (·.1) = sheets.flatten ∧
      (∀ r ∈ bs, match r.1 with
        | .rule sels items => ∃ b, Block.parse C items = .ok b ∧ r.2 = sels.map fun sel => (sel, b)
        | .error => r.2 = []) ∧
      s.rules = s₀.rules ++ bs.flatMap (·.2) := by
  induction sheets generalizing s₀ with
  | nil =>
    simp only [StyleSet.addStylesheets, Except.ok.injEq] at h
    subst h
    exact ⟨[], rfl, by simp, by simp⟩
  | cons sh shs ih =>
    simp only [StyleSet.addStylesheets, bind, Except.bind] at h
    cases hs : StyleSet.addStylesheet C s₀ sh with
    | error e => simp [hs] at h
    | ok s₁ =>
      simp only [hs] at h
      obtain ⟨bs₁, h1, h2, h3⟩ := addStylesheet_rules C sh s₀ s₁ hs
      obtain ⟨bs₂, k1, k2, k3⟩ := ih s₁ h
      refine ⟨bs₁ ++ bs₂, by simp [h1, k1], ?_, by simp [k3, h3]⟩
      intro r hr
      rcases List.mem_append.1 hr with hr | hr
      · exact h2 r hr
      · exact k2 r hr

-- an invalid rule between two valid ones is skipped; two selectors give two rules
example : (StyleSet.addStylesheets (S := demoEngine) ⟨fun _ => none, fun _ => none, fun _ _ => none⟩ ⟨[]⟩
    [[.rule [(3, true), (1, true)] [.junk]], [.error, .rule [(2, true)] []]]).toOption.map
      (·.rules.map (·.1.1)) = some [3, 1, 2] := by decide +kernel

/-- Every block of a rule set built from style sheets was read by the parser. -/
theorem rules_parsed {C : CssColors} {sheets : List (List (RawRule S))} {s : StyleSet S}
    (h : StyleSet.addStylesheets C ⟨[]⟩ sheets = .ok s) : ∀ r ∈ s.rules, r.2.Parsed C := by
  obtain ⟨bs, -, h2, h3⟩ := C24_rules C sheets ⟨[]⟩ s h
  rw [h3]
  intro r hr
  simp only [List.nil_append, List.mem_flatMap] at hr
  obtain ⟨x, hx, hr⟩ := hr
  have := h2 x hx
  obtain ⟨raw, pairs⟩ := x
  cases raw with
  | error => simp only at this; subst this; simp at hr
  | rule sels items =>
    obtain ⟨b, hb, hp⟩ := this
    simp only at hp hr
    subst hp
    obtain ⟨sel, -, rfl⟩ := List.mem_map.1 hr
    exact ⟨items, hb⟩

/-! ### C25 -/

/-- **C25** Skipping a block whose flag for the phase is off gives the same style as
applying it: for every block read by the parser, every phase and importance. -/
theorem C25_skip (C : CssColors) (b : Block) (h : b.Parsed C) (ph : Phase) (parent t : Style) :
    b.cascadeNormal ph parent t = b.cascade false ⟨true, true⟩ ph parent t ∧
    b.cascadeImportant ph parent t = b.cascade true ⟨true, true⟩ ph parent t := by
  have hi := h.inv
  rw [Block.cascadeNormal_eq hi, Block.cascadeImportant_eq hi]
  unfold Block.cascade
  have : ph.select ⟨true, true⟩ = true := by cases ph <;> rfl
  rw [if_pos this, if_pos this, foldl_entries, foldl_entries]
  exact ⟨rfl, rfl⟩

/-- **C25** The flags are exact: a flag is on if and only if the block has a
declaration of that importance and phase. -/
theorem C25_flags (C : CssColors) (b : Block) (h : b.Parsed C) :
    (b.anyNormal.early = true ↔ ∃ e ∈ b.entries, e.2 = false ∧ e.1.longhand = .fontSize) ∧
    (b.anyNormal.late = true ↔ ∃ e ∈ b.entries, e.2 = false ∧ e.1.longhand ≠ .fontSize) ∧
    (b.anyImportant.early = true ↔ ∃ e ∈ b.entries, e.2 = true ∧ e.1.longhand = .fontSize) ∧
    (b.anyImportant.late = true ↔ ∃ e ∈ b.entries, e.2 = true ∧ e.1.longhand ≠ .fontSize) ∧
    b.important.length = b.declarations.length := by
  have hi := h.inv
  have he : ∀ p : Longhand, p.isEarly = true ↔ p = .fontSize := by
    intro p; cases p <;> simp [Longhand.isEarly]
  have hl : ∀ p : Longhand, (!p.isEarly) = true ↔ p ≠ .fontSize := by
    intro p; cases p <;> simp [Longhand.isEarly]
  refine ⟨?_, ?_, ?_, ?_, hi.len⟩
  · rw [hi.anyNormal]; simp only [flagsOf, List.any_eq_true, Bool.and_eq_true, beq_iff_eq, he]
  · rw [hi.anyNormal]; simp only [flagsOf, List.any_eq_true, Bool.and_eq_true, beq_iff_eq, hl]
  · rw [hi.anyImportant]; simp only [flagsOf, List.any_eq_true, Bool.and_eq_true, beq_iff_eq, he]
  · rw [hi.anyImportant]; simp only [flagsOf, List.any_eq_true, Bool.and_eq_true, beq_iff_eq, hl]

example : demoBlock₂.Parsed ⟨fun _ => none, fun _ => none, fun _ _ => none⟩ :=
  ⟨[.decl "margin-top".toList [.dimension 3 "px".toList],
    .decl "margin-left".toList [.ident "auto".toList, .delim '!', .ident "IMPORTANT".toList]], by rfl⟩

example : demoBlock₁.Parsed ⟨fun _ => none, fun _ => none, fun _ _ => none⟩ :=
  ⟨[.decl "font-size".toList [.dimension 2 "em".toList], .junk,
    .decl "margin-top".toList [.dimension 1 "em".toList]], by rfl⟩

/-! ### C23 -/

/-- What `style_for_element` does for an element, in terms of the matching blocks. -/
theorem styleForElement_ok {C : CssColors} {tokenize : AttrTokenizer} {ua author : StyleSet S}
    {d : Doc} {n : NodeId} {parent : Option Style} {s : Style} {nd : Node} {e : ElementData}
    (hn : d.get n = .ok nd) (he : nd.data = .element e)
    (h : styleForElement C tokenize ua author d n parent = .ok s) :
    ∃ us as attr, pushMatching d n ua.rules = .ok us ∧ pushMatching d n author.rules = .ok as ∧
      StyleAttr C tokenize e attr ∧ s = Style.new parent (some ⟨us, as ++ attr.toList⟩) := by
  unfold styleForElement at h
  simp only [hn, he, NodeData.asElement, bind, Except.bind, pure, Except.pure] at h
  cases hu : pushMatching d n ua.rules with
  | error _ => simp [hu] at h
  | ok us =>
    cases ha : pushMatching d n author.rules with
    | error _ => simp [hu, ha] at h
    | ok as =>
      simp only [hu, ha] at h
      by_cases hns : e.name.ns = nsHtml ∨ e.name.ns = nsSvg ∨ e.name.ns = nsMathml
      · have hmem : e.name.ns ∈ styledNamespaces := by
          simp only [styledNamespaces, List.mem_cons, List.not_mem_nil, or_false]; exact hns
        rw [if_pos hns] at h
        cases hst : e.getAttr "style" with
        | none =>
          simp only [hst, Except.ok.injEq] at h
          exact ⟨us, as, none, rfl, rfl, .inr hst, by simp [h]⟩
        | some t =>
          simp only [hst] at h
          cases hb : Block.parse C (tokenize t) with
          | error _ => simp [hb] at h
          | ok b =>
            simp only [hb, Except.ok.injEq] at h
            exact ⟨us, as, some b, rfl, rfl, ⟨hmem, t, hst, hb⟩, by simp [h]⟩
      · have hmem : e.name.ns ∉ styledNamespaces := by
          simp only [styledNamespaces, List.mem_cons, List.not_mem_nil, or_false]; exact hns
        rw [if_neg hns] at h
        simp only [Except.ok.injEq] at h
        exact ⟨us, as, none, rfl, rfl, .inl hmem, by simp [h]⟩

theorem StyleAttr.unique {C : CssColors} {tokenize : AttrTokenizer} {e : ElementData}
    {a b : Option Block} (ha : StyleAttr C tokenize e a) (hb : StyleAttr C tokenize e b) : a = b := by
  cases a with
  | none =>
    cases b with
    | none => rfl
    | some b =>
      obtain ⟨h1, t, h2, h3⟩ := hb
      rcases ha with h | h
      · exact absurd h1 h
      · rw [h] at h2; cases h2
  | some a =>
    obtain ⟨h1, t, h2, h3⟩ := ha
    cases b with
    | none =>
      rcases hb with h | h
      · exact absurd h1 h
      · rw [h] at h2; cases h2
    | some b =>
      obtain ⟨-, t', h2', h3'⟩ := hb
      rw [h2] at h2'; cases h2'
      rw [h3] at h3'; cases h3'
      rfl

theorem pushMatching_mem {d : Doc} {n : NodeId} {rules : List (S.Sel × Block)} {bs : List Block}
    (h : pushMatching d n rules = .ok bs) : ∀ b ∈ bs, ∃ r ∈ rules, r.2 = b := by
  rw [pushMatching_ok h]
  intro b hb
  obtain ⟨r, hr, rfl⟩ := List.mem_map.1 hb
  exact ⟨r, (List.mem_filter.1 hr).1, rfl⟩

/-- Common setting of C22, C23, C26 and C27: node `n` is an element, `ua` and
`author` are the rules in order of appearance, read by the parser, and `s` is the
computed style of the element. -/
structure StyledElement (C : CssColors) (tokenize : AttrTokenizer) (ua author : List (S.Sel × Block))
    (d : Doc) (n : NodeId) (parent : Option Style) (attr : Option Block) (s : Style) : Prop where
  uaParsed : ∀ r ∈ ua, r.2.Parsed C
  authorParsed : ∀ r ∈ author, r.2.Parsed C
  element : ∃ nd e, d.get n = .ok nd ∧ nd.data = .element e ∧ StyleAttr C tokenize e attr
  style : styleForElement C tokenize (StyleSet.finish ⟨ua⟩) (StyleSet.finish ⟨author⟩) d n parent
    = .ok s

theorem StyledElement.val {C : CssColors} {tokenize : AttrTokenizer}
    {ua author : List (S.Sel × Block)} {d : Doc} {n : NodeId} {parent : Option Style}
    {attr : Option Block} {s : Style} (h : StyledElement C tokenize ua author d n parent attr s)
    (p : Longhand) :
    s.val p = p.adjusted s ((((keyedAll d n ua author attr).map (·.2)).filterMap
      (Decl.at (parent.getD Style.initial) (s.val .fontSize) p)).getLast?.getD
      (p.defaultValue (parent.getD Style.initial))) := by
  obtain ⟨nd, e, hn, he, hat⟩ := h.element
  obtain ⟨us, as, attr', hu, ha, hat', rfl⟩ := styleForElement_ok hn he h.style
  cases StyleAttr.unique hat hat'
  rw [keyedAll_map d n ua author attr hu ha]
  refine Style.new_val parent ?_ p
  intro b hb
  rcases hb with hb | hb
  · obtain ⟨r, hr, rfl⟩ := pushMatching_mem hu b hb
    exact (h.uaParsed r ((C24_perm ua).subset hr)).inv
  · rcases List.mem_append.1 hb with hb | hb
    · obtain ⟨r, hr, rfl⟩ := pushMatching_mem ha b hb
      exact (h.authorParsed r ((C24_perm author).subset hr)).inv
    · simp only [Option.mem_toList] at hb
      subst hb
      obtain ⟨-, t, -, hb⟩ := hat
      exact Block.Parsed.inv ⟨_, hb⟩

/-- **C23** For every longhand the winning declaration, by origin and importance, then
style attribute, specificity, order of rules and order in the block, alone
determines the computed value. -/
theorem C23_winner (C : CssColors) (tokenize : AttrTokenizer) (ua author : List (S.Sel × Block))
    (d : Doc) (n : NodeId) (parent : Option Style) (attr : Option Block) (s : Style)
    (h : StyledElement C tokenize ua author d n parent attr s)
    (p : Longhand) (k : List Nat) (w : Decl) (hw : Wins ua author attr d n p k w) :
    ∃ v, Says (parent.getD Style.initial) (s.val .fontSize) w p v ∧ s.val p = p.adjusted s v := by
  have hv := h.val p
  rw [getLast_winner _ _ p (keyedAll_pairwise d n ua author attr)
    ((mem_keyedAll d n ua author attr k w).2 hw.applies) hw.about
    (fun k' d' hm => hw.last k' d' ((mem_keyedAll d n ua author attr k' d').1 hm))] at hv
  have hs : (Decl.at (parent.getD Style.initial) (s.val .fontSize) p w).isSome = true := by
    rw [Decl.at_isSome]; simpa using hw.about
  obtain ⟨v, hv'⟩ := Option.isSome_iff_exists.1 hs
  rw [hv'] at hv
  exact ⟨v, (Decl.at_eq_some _ _ p w v).1 hv', hv⟩

/-- **C23** Whenever some declaration about a longhand applies there is a winner, and
only one. -/
theorem C23_unique (ua author : List (S.Sel × Block)) (attr : Option Block) (d : Doc) (n : NodeId)
    (p : Longhand) (h : ∃ k w, Applies ua author attr d n k w ∧ w.longhand = p) :
    ∃ k w, Wins ua author attr d n p k w ∧
      ∀ k' w', Wins ua author attr d n p k' w' → k' = k ∧ w' = w := by
  obtain ⟨k₀, w₀, h₀, hp₀⟩ := h
  let L := (keyedAll d n ua author attr).filter fun x => x.2.longhand = p
  have hmem : ∀ x, x ∈ L ↔ Applies ua author attr d n x.1 x.2 ∧ x.2.longhand = p := by
    intro x
    simp only [L, List.mem_filter, decide_eq_true_eq]
    rw [← mem_keyedAll]
  have hpw : L.Pairwise fun x y => x.1 < y.1 := (keyedAll_pairwise d n ua author attr).filter _
  have hne : L ≠ [] := List.ne_nil_of_mem ((hmem (k₀, w₀)).2 ⟨h₀, hp₀⟩)
  obtain ⟨L', x, hL⟩ : ∃ L' x, L = L' ++ [x] :=
    ⟨L.dropLast, L.getLast hne, (List.dropLast_concat_getLast hne).symm⟩
  have hx := (hmem x).1 (by rw [hL]; simp)
  have hlast : ∀ k' d', Applies ua author attr d n k' d' → d'.longhand = p →
      k' = x.1 ∧ d' = x.2 ∨ k' < x.1 := by
    intro k' d' ha hd
    have hm := (hmem (k', d')).2 ⟨ha, hd⟩
    rw [hL, List.mem_append, List.mem_singleton] at hm
    rcases hm with hm | hm
    · right
      rw [hL, List.pairwise_append] at hpw
      exact hpw.2.2 (k', d') hm x (by simp)
    · left; rw [← hm]; exact ⟨rfl, rfl⟩
  refine ⟨x.1, x.2, ⟨hx.1, hx.2, hlast⟩, ?_⟩
  intro k' w' hw
  rcases hlast k' w' hw.applies hw.about with h | h
  · exact h
  · rcases hw.last x.1 x.2 hx.1 hx.2 with h' | h'
    · rw [h'.1] at h; exact absurd h (List.lt_irrefl _)
    · exact absurd (List.lt_trans h h') (List.lt_irrefl _)

/-- a document that consists of one `p` element -/
def demoDoc : Doc := ⟨1, fun _ => Node.new (.element ⟨⟨none, nsHtml, "p"⟩, []⟩), []⟩

theorem demo_parsed : ∀ r ∈ demoRules, r.2.Parsed ⟨fun _ => none, fun _ => none, fun _ _ => none⟩ := by
  intro r hr
  simp only [demoRules, List.mem_cons, List.not_mem_nil, or_false] at hr
  have h1 : demoBlock₁.Parsed ⟨fun _ => none, fun _ => none, fun _ _ => none⟩ :=
    ⟨[.decl "font-size".toList [.dimension 2 "em".toList],
      .decl "margin-top".toList [.dimension 1 "em".toList]], by rfl⟩
  have h2 : demoBlock₂.Parsed ⟨fun _ => none, fun _ => none, fun _ _ => none⟩ :=
    ⟨[.decl "margin-top".toList [.dimension 3 "px".toList],
      .decl "margin-left".toList [.ident "auto".toList, .delim '!', .ident "important".toList]], by rfl⟩
  rcases hr with rfl | rfl | rfl | rfl
  · exact h1
  · exact h2
  · exact h2
  · exact h1

/-- the premises of the theorems about the cascade can be met -/
theorem demo_styled : ∃ s, StyledElement (S := demoEngine) ⟨fun _ => none, fun _ => none, fun _ _ => none⟩
    (fun _ => []) [] demoRules demoDoc 0 none none s ∧
    s.val .fontSize = 32 ∧ s.val .marginTop = .length 3 ∧ s.val .marginLeft = .auto := by
  have h : styleForElement (S := demoEngine) ⟨fun _ => none, fun _ => none, fun _ _ => none⟩
      (fun _ => []) (StyleSet.finish ⟨[]⟩) (StyleSet.finish ⟨demoRules⟩) demoDoc 0 none =
      .ok (Style.new none (some ⟨[], [demoBlock₂, demoBlock₁, demoBlock₂]⟩)) := by
    rw [demo_finish]
    have : StyleSet.finish (S := demoEngine) ⟨[]⟩ = ⟨[]⟩ := by simp [StyleSet.finish]
    rw [this]
    rfl
  exact ⟨_, ⟨by simp, demo_parsed, ⟨_, _, rfl, rfl, Or.inr rfl⟩, h⟩, by decide +kernel,
    by decide +kernel, by decide +kernel⟩

-- the last of the rules of specificity 2 wins for `margin-top`
example : Wins (S := demoEngine) [] demoRules none demoDoc 0 .marginTop [1, 0, 2, 2, 0]
    (.value .marginTop (.length (.absolute 3))) := by
  have h0 := Applies.author (S := demoEngine) (ua := []) (author := demoRules) (attr := none)
    (d := demoDoc) (n := 0) (i := 2) (j := 0) (sel := (2, true)) (b := demoBlock₂) (imp := false)
    (decl := .value .marginTop (.length (.absolute 3))) rfl rfl rfl
  refine ⟨h0, rfl, ?_⟩
  intro k' d' h hp
  cases h with
  | ua h1 => simp at h1
  | attr h1 => cases h1
  | @author i j sel b decl imp h1 h2 h3 =>
    rcases i with _ | _ | _ | _ | i
    all_goals simp only [demoRules, List.getElem?_cons_zero, List.getElem?_cons_succ,
      Option.some.injEq, List.getElem?_nil, reduceCtorEq] at h1
    all_goals obtain ⟨rfl, rfl⟩ := h1
    all_goals rcases j with _ | _ | j
    all_goals simp only [demoBlock₁, demoBlock₂, Block.entries, List.zip_cons_cons, List.zip_nil_right,
      List.getElem?_cons_zero, List.getElem?_cons_succ,
      Option.some.injEq, Prod.mk.injEq, List.getElem?_nil, reduceCtorEq] at h3
    all_goals obtain ⟨rfl, rfl⟩ := h3
    all_goals simp only [Decl.longhand, reduceCtorEq] at hp
    all_goals first
      | exact Or.inl ⟨rfl, rfl⟩
      | exact Or.inr (by decide)
      | exact absurd h2 (by decide)

/-! ### C27 -/

/-- **C27** A longhand about which no declaration applies has the parent's value if it
is inherited and the initial value otherwise. -/
theorem C27_default (C : CssColors) (tokenize : AttrTokenizer) (ua author : List (S.Sel × Block))
    (d : Doc) (n : NodeId) (parent : Option Style) (attr : Option Block) (s : Style)
    (h : StyledElement C tokenize ua author d n parent attr s)
    (p : Longhand) (hp : ∀ k w, Applies ua author attr d n k w → w.longhand ≠ p) :
    s.val p = p.adjusted s (p.defaultValue (parent.getD Style.initial)) := by
  have hv := h.val p
  have : ((keyedAll d n ua author attr).map (·.2)).filterMap
      (Decl.at (parent.getD Style.initial) (s.val .fontSize) p) = [] := by
    rw [List.filterMap_eq_nil_iff]
    intro a ha
    obtain ⟨x, hx, rfl⟩ := List.mem_map.1 ha
    have hne := hp x.1 x.2 ((mem_keyedAll d n ua author attr x.1 x.2).1 hx)
    simp [Decl.at, hne]
  rw [this] at hv
  exact hv

/-- **C27** Inherited longhands about which nothing is declared are passed on exactly. -/
theorem C27_inherited (C : CssColors) (tokenize : AttrTokenizer)
    (ua author : List (S.Sel × Block))
    (d : Doc) (n : NodeId) (parent : Style) (attr : Option Block) (s : Style)
    (h : StyledElement C tokenize ua author d n (some parent) attr s)
    (p : Longhand) (hi : p ∈ inheritedLonghands)
    (hp : ∀ k w, Applies ua author attr d n k w → w.longhand ≠ p) :
    s.val p = parent.val p := by
  rw [C27_default C tokenize ua author d n (some parent) attr s h p hp]
  simp only [Longhand.defaultValue, hi, if_true]
  simp only [inheritedLonghands, List.mem_cons, List.not_mem_nil, or_false] at hi
  rcases hi with h | h | h | h | h | h | h | h <;> subst h <;> rfl

/-- **C27** Anonymous boxes: inherited values from the parent, all others initial,
except that a side without border style has no border width. -/
theorem C27_anonymous (parent : Style) (p : Longhand) :
    (p ∈ inheritedLonghands →
      (Style.anonymousInheritingFrom (some parent)).val p = parent.val p) ∧
    (p ∉ inheritedLonghands →
      p ∉ [.borderTopWidth, .borderRightWidth, .borderBottomWidth, .borderLeftWidth] →
      (Style.anonymousInheritingFrom (some parent)).val p = p.initial) ∧
    ((Style.anonymousInheritingFrom (some parent)).borderWidth =
      ⟨.length 0, .length 0, .length 0, .length 0⟩) := by
  have hv : ∀ q, (Style.anonymousInheritingFrom (some parent)).val q = _ :=
    Style.new_none_val (some parent)
  have hst : ∀ q, q ∈ [Longhand.position, .float, .borderTopStyle, .borderRightStyle,
      .borderBottomStyle, .borderLeftStyle] →
      (Style.new (some parent) none).val q = q.initial := by
    intro q hq
    simp only [List.mem_cons, List.not_mem_nil, or_false] at hq
    rcases hq with h | h | h | h | h | h <;> subst h <;> exact hv _
  refine ⟨?_, ?_, ?_⟩
  · intro hi
    rw [hv]
    simp only [Longhand.defaultValue, hi, if_true]
    simp only [inheritedLonghands, List.mem_cons, List.not_mem_nil, or_false] at hi
    rcases hi with h | h | h | h | h | h | h | h <;> subst h <;> rfl
  · intro hi hw
    rw [hv]
    simp only [Longhand.defaultValue, hi, if_false]
    cases p
    case display =>
      simp only [Longhand.adjusted, Longhand.initial, Display.initial]
      rw [hst .position (by simp), hst .float (by simp)]
      rfl
    all_goals first
      | rfl
      | (exfalso; revert hw; decide)
  · simp only [Style.borderWidth, PSides.toFlowRelative, Style.writingMode]
    rw [hv .borderTopWidth, hv .borderRightWidth, hv .borderBottomWidth, hv .borderLeftWidth]
    simp only [Longhand.adjusted]
    rw [hst .borderTopStyle (by simp), hst .borderRightStyle (by simp),
      hst .borderBottomStyle (by simp), hst .borderLeftStyle (by simp)]
    rfl

-- an anonymous box in a box with large text and a margin
example : ((Style.anonymousInheritingFrom (some ((Style.initial.set .fontSize (32 : ℚ)).set .marginTop
    (.length 3)))).val .fontSize = 32) ∧
    ((Style.anonymousInheritingFrom (some ((Style.initial.set .fontSize (32 : ℚ)).set .marginTop
      (.length 3)))).val .marginTop = .length 0) := by decide +kernel

end Sinab
