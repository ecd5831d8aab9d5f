import Verif.Props.Cascade

namespace Sinab

variable {S : SelectorEngine}

/-! ### C26 -/

theorem filterMap_at_filter (parent : Style) (fs : ℚ) (p : Longhand) (L : List Decl) :
    (L.filter fun d => d.longhand = p).filterMap (Decl.at parent fs p) =
      L.filterMap (Decl.at parent fs p) := by
  induction L with
  | nil => rfl
  | cons d L ih =>
    by_cases h : d.longhand = p
    · simp only [List.filter_cons, h, decide_true, if_true, List.filterMap_cons, ih]
    · have : Decl.at parent fs p d = none := by simp [Decl.at, h]
      simp only [List.filter_cons, h, decide_false, Bool.false_eq_true, if_false,
        List.filterMap_cons, this, ih]

theorem Style.new_congr (parent : Option Style) {m₁ m₂ : Matching} (h₁ : m₁.Inv) (h₂ : m₂.Inv)
    (h : ∀ p, (m₁.decls.filter fun d => d.longhand = p) = m₂.decls.filter fun d => d.longhand = p) :
    Style.new parent (some m₁) = Style.new parent (some m₂) := by
  have hf : ∀ inh fs p, m₁.decls.filterMap (Decl.at inh fs p) =
      m₂.decls.filterMap (Decl.at inh fs p) := by
    intro inh fs p
    rw [← filterMap_at_filter inh fs p m₁.decls, h, filterMap_at_filter]
  unfold Style.new
  dsimp only
  rw [Matching.cascade_eq h₁, Matching.cascade_eq h₁, Matching.cascade_eq h₂, Matching.cascade_eq h₂]
  congr 1
  generalize parent.getD Style.initial = inh
  have hE : m₁.decls.foldl (Phase.early.cascade inh) (Style.start inh) =
      m₂.decls.foldl (Phase.early.cascade inh) (Style.start inh) := by
    apply Style.ext
    · funext p
      rw [foldl_early inh 0, foldl_early inh 0, hf]
    · rw [foldl_specifiedDisplay, foldl_specifiedDisplay]
  rw [hE]
  apply Style.ext
  · funext p
    rw [foldl_late, foldl_late, hf]
  · simp only [foldl_specifiedDisplay]

theorem declsWith_filter (b : Block) (imp : Bool) (p : Longhand) :
    ((b.declsWith imp).filter fun d => d.longhand = p) =
      (((b.entries.filter fun e => e.1.longhand = p).filter fun e => e.2 = imp).map (·.1)) := by
  unfold Block.declsWith
  rw [List.filter_map, List.filter_filter, List.filter_filter]
  congr 1
  apply List.filter_congr
  intro x _
  simp [Bool.and_comm]

/-- **C26** The order of declarations about different longhands does not matter: a
block may be replaced, wherever it stands in the cascade, by any block that
has the same declarations for each longhand in the same order. -/
theorem C26_reorder (C : CssColors) (parent : Option Style) (ua pre post : List Block)
    (b₁ b₂ : Block) (hua : ∀ b ∈ ua, b.Parsed C) (hpre : ∀ b ∈ pre, b.Parsed C)
    (hpost : ∀ b ∈ post, b.Parsed C) (h₁ : b₁.Parsed C) (h₂ : b₂.Parsed C)
    (h : ∀ p, (b₁.entries.filter fun e => e.1.longhand = p) =
      b₂.entries.filter fun e => e.1.longhand = p) :
    Style.new parent (some ⟨ua, pre ++ b₁ :: post⟩) = Style.new parent (some ⟨ua, pre ++ b₂ :: post⟩) ∧
    Style.new parent (some ⟨pre ++ b₁ :: post, ua⟩) = Style.new parent (some ⟨pre ++ b₂ :: post, ua⟩) := by
  have hinv : ∀ b, b = b₁ ∨ b = b₂ ∨ b ∈ ua ∨ b ∈ pre ∨ b ∈ post → b.Inv := by
    rintro b (rfl | rfl | hb | hb | hb)
    · exact h₁.inv
    · exact h₂.inv
    · exact (hua b hb).inv
    · exact (hpre b hb).inv
    · exact (hpost b hb).inv
  have hd : ∀ imp p, ((b₁.declsWith imp).filter fun d => d.longhand = p) =
      (b₂.declsWith imp).filter fun d => d.longhand = p := by
    intro imp p
    rw [declsWith_filter, declsWith_filter, h]
  constructor
  · apply Style.new_congr
    · intro b hb
      apply hinv
      simp only [List.mem_append, List.mem_cons] at hb
      tauto
    · intro b hb
      apply hinv
      simp only [List.mem_append, List.mem_cons] at hb
      tauto
    · intro p
      simp only [Matching.decls, List.filter_append, List.flatMap_append, List.flatMap_cons, hd]
  · apply Style.new_congr
    · intro b hb
      apply hinv
      simp only [List.mem_append, List.mem_cons] at hb
      tauto
    · intro b hb
      apply hinv
      simp only [List.mem_append, List.mem_cons] at hb
      tauto
    · intro p
      simp only [Matching.decls, List.filter_append, List.flatMap_append, List.flatMap_cons, hd]

-- `margin-top: 1em; font-size: 2em` gives the same as `font-size: 2em; margin-top: 1em`
example : (Style.new none (some ⟨[], [⟨[.value .marginTop (.length (.em 1)), .value .fontSize (.em 2)],
    [false, false], ⟨false, false⟩, ⟨true, true⟩⟩]⟩)).val .marginTop = .length 32 ∧
    (Style.new none (some ⟨[], [demoBlock₁]⟩)).val .marginTop = .length 32 := by decide +kernel

/-- **C26** `font-size` in em is relative to the parent's font size (initial font size
at the root). -/
theorem C26_fontSize (C : CssColors) (tokenize : AttrTokenizer) (ua author : List (S.Sel × Block))
    (d : Doc) (n : NodeId) (parent : Option Style) (attr : Option Block) (s : Style)
    (h : StyledElement C tokenize ua author d n parent attr s) (k : List Nat) (x : ℚ)
    (hw : Wins ua author attr d n .fontSize k (.value .fontSize (.em x))) :
    s.val .fontSize = x * (parent.getD Style.initial).val .fontSize := by
  obtain ⟨v, hv, hs⟩ := C23_winner C tokenize ua author d n parent attr s h .fontSize k _ hw
  cases hv
  exact hs

/-- The longhands whose values may be lengths, except `font-size`. -/
inductive LengthValue : (p : Longhand) → (SpecifiedLength → p.Spec) → (ℚ → p.Comp) → Prop where
  | lineHeight : LengthValue .lineHeight .length .length
  | verticalAlign : LengthValue .verticalAlign .length .length
  | top : LengthValue .top .length .length
  | left : LengthValue .left .length .length
  | bottom : LengthValue .bottom .length .length
  | right : LengthValue .right .length .length
  | width : LengthValue .width .length .length
  | height : LengthValue .height .length .length
  | marginTop : LengthValue .marginTop .length .length
  | marginRight : LengthValue .marginRight .length .length
  | marginBottom : LengthValue .marginBottom .length .length
  | marginLeft : LengthValue .marginLeft .length .length
  | paddingTop : LengthValue .paddingTop .length .length
  | paddingRight : LengthValue .paddingRight .length .length
  | paddingBottom : LengthValue .paddingBottom .length .length
  | paddingLeft : LengthValue .paddingLeft .length .length
  | borderTopWidth : LengthValue .borderTopWidth .length .length
  | borderRightWidth : LengthValue .borderRightWidth .length .length
  | borderBottomWidth : LengthValue .borderBottomWidth .length .length
  | borderLeftWidth : LengthValue .borderLeftWidth .length .length

/-- **C26** Every other length in em is a multiple of the computed font size of the
same element, wherever the font size is declared.  (Border widths: if the side has
a border style.) -/
theorem C26_em (C : CssColors) (tokenize : AttrTokenizer) (ua author : List (S.Sel × Block))
    (d : Doc) (n : NodeId) (parent : Option Style) (attr : Option Block) (s : Style)
    (h : StyledElement C tokenize ua author d n parent attr s) (k : List Nat) (x : ℚ)
    (p : Longhand) (mk : SpecifiedLength → p.Spec) (mk' : ℚ → p.Comp) (hp : LengthValue p mk mk')
    (hw : Wins ua author attr d n p k (.value p (mk (.em x)))) :
    s.val p = p.adjusted s (mk' (x * s.val .fontSize)) := by
  obtain ⟨v, hv, hs⟩ := C23_winner C tokenize ua author d n parent attr s h p k _ hw
  rw [hs]
  cases hp <;> (cases hv; rfl)

-- `font-size: 2em` in a parent of 16px and `margin-top: 1em` on the same element
example : (Style.new none (some ⟨[], [demoBlock₁]⟩)).val .fontSize = 32 ∧
    (Style.new none (some ⟨[], [demoBlock₁]⟩)).val .marginTop = .length 32 := by decide +kernel

/-! ### C22 -/

theorem CssWideKeyword.parse_ident (k : CssWideKeyword) (kw : String)
    (hk : (kw, k) ∈ [("inherit", CssWideKeyword.inherit), ("initial", .initial), ("unset", .unset)]) :
    CssWideKeyword.parse [.ident kw.toList] = some (k, []) := by
  simp only [List.mem_cons, Prod.mk.injEq, List.not_mem_nil, or_false] at hk
  rcases hk with ⟨rfl, rfl⟩ | ⟨rfl, rfl⟩ | ⟨rfl, rfl⟩ <;> decide +kernel

theorem cssWide_entries (C : CssColors) (name : Text) (data : PropertyData)
    (hd : propertyDataByName C name = some data) (k : CssWideKeyword) (kw : String)
    (hk : (kw, k) ∈ [("inherit", CssWideKeyword.inherit), ("initial", .initial), ("unset", .unset)]) :
    (RawItem.decl name [.ident kw.toList]).entries? C =
      some (data.longhands.map fun l => (.cssWide l k, false)) := by
  simp only [RawItem.entries?, hd, parseDecls, CssWideKeyword.parse_ident k kw hk]
  simp only [tryImportant, parseImportant, List.map_map]
  rfl

/-- **C22** Every property and shorthand accepts the CSS-wide keywords and then
declares them for each of its longhands. -/
theorem C22_accepted (C : CssColors) (name : Text) (data : PropertyData)
    (hd : propertyDataByName C name = some data) (k : CssWideKeyword) (kw : String)
    (hk : (kw, k) ∈ [("inherit", CssWideKeyword.inherit), ("initial", .initial), ("unset", .unset)]) :
    ∃ b, Block.parse C [.decl name [.ident kw.toList]] = .ok b ∧
      b.entries = data.longhands.map fun l => (.cssWide l k, false) := by
  have he := cssWide_entries C name data hd k kw hk
  obtain ⟨b, h1, h2, -⟩ := Block.parseItem_ok Block.Inv.empty _ he
  refine ⟨b, ?_, by simpa [Block.entries, Block.empty] using h2⟩
  simp [Block.parse, Block.parseFrom, bind, Except.bind, h1]

/-- **C22** The effect on any element: if the winning declaration of a longhand is a
CSS-wide keyword then `initial` gives the initial value, `inherit` the value of
the parent (of the initial style at the root), and `unset` the one or the other. -/
theorem C22_effect (C : CssColors) (tokenize : AttrTokenizer) (ua author : List (S.Sel × Block))
    (d : Doc) (n : NodeId) (parent : Option Style) (attr : Option Block) (s : Style)
    (h : StyledElement C tokenize ua author d n parent attr s) (p : Longhand) (key : List Nat) :
    (Wins ua author attr d n p key (.cssWide p .initial) → s.val p = p.adjusted s p.initial) ∧
    (Wins ua author attr d n p key (.cssWide p .inherit) →
      s.val p = p.adjusted s ((parent.getD Style.initial).val p)) ∧
    (Wins ua author attr d n p key (.cssWide p .unset) →
      s.val p = p.adjusted s (if p ∈ inheritedLonghands then (parent.getD Style.initial).val p
        else p.initial)) := by
  refine ⟨fun hw => ?_, fun hw => ?_, fun hw => ?_⟩ <;>
    obtain ⟨v, hv, hs⟩ := C23_winner C tokenize ua author d n parent attr s h p key _ hw <;>
    rw [hs] <;> cases hv <;> rfl

-- `margin: unset; color: unset` below a red parent with a margin
example : let parent := (Style.initial.set .color (⟨255, 0, 0, 255⟩ : RGBA)).set .marginTop (.length 5)
    let s := Style.new (some parent) (some ⟨[], [⟨[.cssWide .marginTop .unset, .cssWide .color .unset],
      [false, false], ⟨false, false⟩, ⟨false, true⟩⟩]⟩)
    s.val .marginTop = .length 0 ∧ s.val .color = ⟨255, 0, 0, 255⟩ := by decide +kernel

/-! ### C28 -/

/-- The five values of `display` that exist in CSS for this engine. -/
def Display.Supported (x : Display) : Prop :=
  x = .none ∨ x = .contents ∨ x = .generatingBox .block .flow ∨
    x = .generatingBox .block .flowRoot ∨ x = .generatingBox .inline .flow

theorem Display.parse_supported {ts rest : List Tok} {x : Display}
    (h : Display.parse ts = some (x, rest)) : x.Supported := by
  unfold Display.parse at h
  split at h
  · repeat' split at h
    all_goals simp only [Option.some.injEq, Prod.mk.injEq, reduceCtorEq] at h
    all_goals first
      | (obtain ⟨rfl, -⟩ := h; simp [Display.Supported])
  · cases h

theorem Longhand.display_entry {C : CssColors} {e : String × PropertyData}
    (he : e ∈ propertyTable C) {ts rest : List Tok} {decls : List Decl} {ph : PerPhase}
    (h : e.2.parse ts = some ((decls, ph), rest)) {x : Display}
    (hx : Decl.value .display x ∈ decls) : x.Supported := by
  have hg := (propertyTable_good C e he).parse ts decls ph rest h
  rw [propertyTable, List.mem_append] at he
  rcases he with he | he
  · obtain ⟨l, hl, rfl⟩ := List.mem_map.1 he
    simp only [longhandData] at h
    obtain ⟨v, hv, h⟩ := P.map_eq_some.1 h
    simp only [Prod.mk.injEq] at h
    obtain ⟨rfl, -⟩ := h
    simp only [List.mem_singleton] at hx
    have hlh : l.2 = .display := by
      have := congrArg Decl.longhand hx
      exact this.symm
    obtain ⟨nm, lh⟩ := l
    subst hlh
    simp only [Decl.value.injEq, heq_eq_eq, true_and] at hx
    subst hx
    exact Display.parse_supported hv
  · exfalso
    have hm : Longhand.display ∈ e.2.longhands := by
      rw [← hg.1]; exact List.mem_map.2 ⟨_, hx, rfl⟩
    simp only [shorthandTable, List.mem_cons, List.not_mem_nil, or_false] at he
    rcases he with he | he | he | he | he | he | he | he | he | he | he <;> subst he <;>
      simp [shorthandData] at hm

theorem Block.Parsed.display {C : CssColors} {b : Block} (hb : b.Parsed C) {x : Display}
    {imp : Bool} (h : (Decl.value .display x, imp) ∈ b.entries) : x.Supported := by
  obtain ⟨items, hb⟩ := hb
  obtain ⟨-, ess, hess, he⟩ := Block.parseFrom_ok items Block.Inv.empty hb
  rw [he] at h
  simp only [Block.empty, Block.entries, List.zip_nil_right, List.nil_append, List.mem_flatten] at h
  obtain ⟨es, hes, hm⟩ := h
  have : ∀ (items : List RawItem) ess, items.mapM (RawItem.entries? C) = some ess → es ∈ ess →
      ∃ i, RawItem.entries? C i = some es := by
    intro items
    induction items with
    | nil => intro ess h hes; simp at h; subst h; simp at hes
    | cons i is ih =>
      intro ess h hes
      rw [List.mapM_cons] at h
      cases hi : i.entries? C with
      | none => simp [hi] at h
      | some a =>
        cases his : is.mapM (RawItem.entries? C) with
        | none => simp [hi, his] at h
        | some as =>
          simp [hi, his] at h
          subst h
          rcases List.mem_cons.1 hes with rfl | hes
          · exact ⟨i, hi⟩
          · exact ih as his hes
  obtain ⟨i, hi⟩ := this items ess hess hes
  cases i with
  | junk => simp [RawItem.entries?] at hi; subst hi; simp at hm
  | decl name ts =>
    simp only [RawItem.entries?] at hi
    cases hd : propertyDataByName C name with
    | none => simp [hd] at hi; subst hi; simp at hm
    | some data =>
      simp only [hd] at hi
      cases hp : parseDecls data ts with
      | none => simp [hp] at hi; subst hi; simp at hm
      | some r =>
        obtain ⟨⟨decls, ph⟩, ts'⟩ := r
        simp only [hp] at hi
        split at hi
        · simp only [Option.some.injEq] at hi
          subst hi
          simp only [List.mem_map, Prod.mk.injEq] at hm
          obtain ⟨dd, hdd, rfl, -⟩ := hm
          unfold parseDecls at hp
          split at hp
          · simp only [Option.some.injEq, Prod.mk.injEq] at hp
            obtain ⟨⟨rfl, -⟩, -⟩ := hp
            simp at hdd
          · unfold propertyDataByName at hd
            cases hf : (propertyTable C).find? fun e => e.1.toList = name.map Char.toLower with
            | none => simp [hf] at hd
            | some e =>
              simp only [hf, Option.map_some, Option.some.injEq] at hd
              subst hd
              exact Longhand.display_entry (List.mem_of_find?_eq_some hf) hp hdd
        · cases hi

theorem adjusted_display_supported (s : Style) (x : Display) (h : x.Supported) :
    (Longhand.adjusted s .display x).Supported := by
  rcases h with rfl | rfl | rfl | rfl | rfl <;> simp only [Longhand.adjusted] <;>
    (try split) <;> simp [Display.Supported]

/-- the parsed blocks of a matching satisfy the block invariant -/
theorem Matching.inv_of_parsed {C : CssColors} {m : Matching}
    (h : ∀ b, b ∈ m.ua ∨ b ∈ m.author → b.Parsed C) : m.Inv := fun b hb => (h b hb).inv

theorem mem_matching_decls {m : Matching} {dd : Decl} (h : dd ∈ m.decls) :
    ∃ b imp, (b ∈ m.ua ∨ b ∈ m.author) ∧ (dd, imp) ∈ b.entries := by
  have key : ∀ (bs : List Block) imp, dd ∈ bs.flatMap (·.declsWith imp) →
      ∃ b ∈ bs, (dd, imp) ∈ b.entries := by
    intro bs imp h
    obtain ⟨b, hb, h⟩ := List.mem_flatMap.1 h
    simp only [Block.declsWith, List.mem_map, List.mem_filter, decide_eq_true_eq] at h
    obtain ⟨⟨d', i'⟩, ⟨h1, h2⟩, h3⟩ := h
    simp only at h2 h3
    subst h2 h3
    exact ⟨b, hb, h1⟩
  simp only [Matching.decls, List.mem_append] at h
  rcases h with ((h | h) | h) | h <;> obtain ⟨b, hb, he⟩ := key _ _ h
  · exact ⟨b, _, .inl hb, he⟩
  · exact ⟨b, _, .inr hb, he⟩
  · exact ⟨b, _, .inr hb, he⟩
  · exact ⟨b, _, .inl hb, he⟩

theorem Display.new_supported {C : CssColors} (parent : Option Style)
    (hp : ((parent.getD Style.initial).val .display).Supported) (m : Option Matching)
    (hm : ∀ m', m = some m' → ∀ b, b ∈ m'.ua ∨ b ∈ m'.author → b.Parsed C) :
    ((Style.new parent m).val .display).Supported := by
  have hdef : ((Longhand.display).defaultValue (parent.getD Style.initial)).Supported := by
    simp [Longhand.defaultValue, inheritedLonghands, Longhand.initial, Display.initial,
      Display.Supported]
  cases m with
  | none =>
    rw [Style.new_none_val]
    exact adjusted_display_supported _ _ hdef
  | some m =>
    have hinv := Matching.inv_of_parsed (hm m rfl)
    have hv := Style.new_val parent hinv .display
    simp only at hv
    rw [hv]
    apply adjusted_display_supported
    cases hl : (m.decls.filterMap (Decl.at (parent.getD Style.initial)
      ((Style.new parent (some m)).val .fontSize) .display)).getLast? with
    | none => exact hdef
    | some x =>
      simp only [Option.getD_some]
      have hx := List.mem_of_getLast? hl
      obtain ⟨dd, hdd, hat⟩ := List.mem_filterMap.1 hx
      rw [Decl.at_eq_some] at hat
      obtain ⟨b, imp, hb, hbe⟩ := mem_matching_decls hdd
      cases hat with
      | value _ v => exact (hm m rfl b hb).display hbe
      | initial => simp [Longhand.initial, Display.initial, Display.Supported]
      | inherit => exact hp
      | unset => exact hdef

/-- **C28** The computed display of every style the engine can compute is a supported
one: in particular never an inline-level flow root. -/
theorem C28_display (C : CssColors) (s : Style) (h : s.Computed C) :
    (s.val .display).Supported ∧ s.val .display ≠ .generatingBox .inline .flowRoot := by
  have hs : (s.val .display).Supported := by
    induction h with
    | root m hm =>
      refine Display.new_supported none ?_ m hm
      simp [Style.initial, Longhand.initial, Display.initial, Display.Supported]
    | child parent m _ hm ih => exact Display.new_supported (some parent) ih m hm
  refine ⟨hs, ?_⟩
  intro he
  rw [he] at hs
  simp [Display.Supported] at hs

theorem Style.new_adjusted (parent : Option Style) (m : Option Matching)
    (hm : ∀ m', m = some m' → m'.Inv) (p : Longhand) :
    ∃ v, (Style.new parent m).val p = p.adjusted (Style.new parent m) v := by
  cases m with
  | none => exact ⟨_, Style.new_none_val parent p⟩
  | some m => exact ⟨_, Style.new_val parent (hm m rfl) p⟩

/-- **C28** In every style the engine can compute, a side without border style has
border width zero, and floating and absolutely positioned elements are not inline-level. -/
theorem C28_consistent (C : CssColors) (s : Style) (h : s.Computed C) :
    (s.val .borderTopStyle = LineStyle.none → s.val .borderTopWidth = .length 0) ∧
    (s.val .borderRightStyle = LineStyle.none → s.val .borderRightWidth = .length 0) ∧
    (s.val .borderBottomStyle = LineStyle.none → s.val .borderBottomWidth = .length 0) ∧
    (s.val .borderLeftStyle = LineStyle.none → s.val .borderLeftWidth = .length 0) ∧
    (s.val .position = Position.absolute ∨ s.val .float ≠ Float'.none →
      ∀ i, s.val .display ≠ .generatingBox .inline i) := by
  obtain ⟨parent, m, hm, rfl⟩ : ∃ parent m, (∀ m', m = some m' → Matching.Inv m') ∧
      s = Style.new parent m := by
    cases h with
    | root m hm => exact ⟨none, m, fun m' e => Matching.inv_of_parsed (hm m' e), rfl⟩
    | child parent m _ hm =>
      exact ⟨some parent, m, fun m' e => Matching.inv_of_parsed (hm m' e), rfl⟩
  refine ⟨?_, ?_, ?_, ?_, ?_⟩
  · intro h
    obtain ⟨v, hv⟩ := Style.new_adjusted parent m hm .borderTopWidth
    rw [hv, Longhand.adjusted, if_pos h]
  · intro h
    obtain ⟨v, hv⟩ := Style.new_adjusted parent m hm .borderRightWidth
    rw [hv, Longhand.adjusted, if_pos h]
  · intro h
    obtain ⟨v, hv⟩ := Style.new_adjusted parent m hm .borderBottomWidth
    rw [hv, Longhand.adjusted, if_pos h]
  · intro h
    obtain ⟨v, hv⟩ := Style.new_adjusted parent m hm .borderLeftWidth
    rw [hv, Longhand.adjusted, if_pos h]
  · intro h i
    obtain ⟨v, hv⟩ := Style.new_adjusted parent m hm .display
    rw [hv]
    cases v with
    | none => simp [Longhand.adjusted]
    | contents => simp [Longhand.adjusted]
    | generatingBox o i' => simp only [Longhand.adjusted]; rw [if_pos h]; simp

-- a float that asks for `display: inline` is a block; its border of style none has no width
example : let s := Style.new none (some ⟨[], [⟨[.value .float Float'.left,
      .value .display (.generatingBox .inline .flow), .value .borderTopWidth (.length (.absolute 5))],
      [false, false, false], ⟨false, false⟩, ⟨false, true⟩⟩]⟩)
    s.val .display = .generatingBox .block .flow ∧ s.val .borderTopWidth = .length 0 ∧
    s.specifiedDisplay = .generatingBox .inline .flow := by decide +kernel

/-- **C28** Blockification keeps everything else: what would be `none` or `contents`
stays so and the inner display type is unchanged; the specified display is kept. -/
theorem C28_specified (parent : Option Style) (m : Option Matching) :
    let s := Style.new parent m
    match s.specifiedDisplay with
    | .none => s.val .display = .none
    | .contents => s.val .display = .contents
    | .generatingBox o i => s.val .display = .generatingBox (if s.val .position = Position.absolute ∨
        s.val .float ≠ Float'.none then .block else o) i := by
  intro s
  obtain ⟨c, hc⟩ : ∃ c, s = Style.postCascadeFixups c := ⟨_, rfl⟩
  rw [hc]
  have h1 : c.postCascadeFixups.specifiedDisplay = c.val .display := by
    unfold Style.postCascadeFixups
    dsimp only
    rw [Style.displayFixup_specified]
    simp [Style.set]
  rw [h1]
  have hpos : c.postCascadeFixups.val .position = c.val .position := by rw [fixups_val]; rfl
  have hfl : c.postCascadeFixups.val .float = c.val .float := by rw [fixups_val]; rfl
  rw [fixups_val, hpos, hfl]
  cases hd : c.val .display with
  | none => rfl
  | contents => rfl
  | generatingBox o i =>
    simp only [Longhand.adjusted]
    split <;> rfl

end Sinab
