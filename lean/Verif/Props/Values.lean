import Verif.Lemmas.Parse
import Verif.Model.Selectors
import Mathlib.Data.Fintype.Card

namespace Sinab

/-- A declaration on its own is accepted: it sets something. -/
def Accepted (C : CssColors) (name : Text) (ts : List Tok) : Prop :=
  ∃ b, Block.parse C [.decl name ts] = .ok b ∧ b.entries ≠ []

/-- A declaration on its own sets exactly `ds`, without `!important`. -/
def Sets (C : CssColors) (name : Text) (ts : List Tok) (ds : List Decl) : Prop :=
  ∃ b, Block.parse C [.decl name ts] = .ok b ∧ b.entries.Perm (ds.map fun d => (d, false))

/-! ### C16 -/

theorem entries_not_nil {C : CssColors} {name : Text} {ts : List Tok}
    (h : (RawItem.decl name ts).entries? C ≠ some []) : ∃ k, Accepted C name (ts.take k) := by
  simp only [RawItem.entries?] at h
  cases hd : propertyDataByName C name with
  | none => simp [hd] at h
  | some data =>
    simp only [hd] at h
    cases hp : parseDecls data ts with
    | none => simp [hp] at h
    | some r =>
      obtain ⟨⟨decls, parsed⟩, rest⟩ := r
      obtain ⟨used, h1, h2, h3⟩ := parseDecls_local hd ts _ _ hp
      refine ⟨used.length, ?_⟩
      rw [h1, List.take_left]
      have : (RawItem.decl name used).entries? C = some (decls.map fun d => (d, false)) := by
        simp only [RawItem.entries?, hd, h3]
        rfl
      obtain ⟨b, hb, he⟩ := Block.parse_single' this
      refine ⟨b, hb, ?_⟩
      rw [he]
      obtain ⟨-, -, hne⟩ := parseDecls_good hd h3
      simpa using hne

/-- The full claim: a declaration that is not accepted has no effect on the block it
stands in; in particular reading never aborts. -/
def C16_full : Prop := ∀ (C : CssColors) (pre post : List RawItem) (name : Text) (ts : List Tok),
  ¬ Accepted C name ts →
  Block.parse C (pre ++ .decl name ts :: post) = Block.parse C (pre ++ post)

/-- a palette without named colours, for counterexamples -/
def noColors : CssColors := ⟨fun _ => none, fun _ => none, fun _ _ => none⟩

/-- **C16** is false: `display: block block` aborts. -/
theorem C16_full_false : ¬ C16_full := by
  intro h
  have h0 : (RawItem.decl "display".toList
      [.ident "block".toList, .ident "block".toList]).entries? noColors = none := rfl
  have h1 : Block.parse noColors [.decl "display".toList [.ident "block".toList, .ident "block".toList]]
      = .error .assertion := by
    simp only [Block.parse, Block.parseFrom, bind, Except.bind, Block.parseItem_error _ h0]
  have := h noColors [] [] "display".toList [.ident "block".toList, .ident "block".toList]
    (by rintro ⟨b, hb, -⟩; rw [h1] at hb; cases hb)
  simp only [List.nil_append] at this
  rw [h1] at this
  cases this

/-- **C16** A declaration with an unknown property or a value of which no beginning
is a valid value is dropped and everything else in the block keeps its effect.
Missing from the full claim: values with a valid beginning, which abort (see `C16_abort`). -/
theorem C16_partial (C : CssColors) (pre post : List RawItem) (name : Text) (ts : List Tok)
    (h : ∀ k, ¬ Accepted C name (ts.take k)) :
    Block.parse C (pre ++ .decl name ts :: post) = Block.parse C (pre ++ post) := by
  apply Block.parse_dropped
  by_contra hne
  obtain ⟨k, hk⟩ := entries_not_nil hne
  exact h k hk

-- `margin-top: 3px; width: red; margin-left: auto` keeps the first and the last declaration
example : (Block.parse noColors [.decl "margin-top".toList [.dimension 3 "px".toList],
    .decl "width".toList [.ident "red".toList], .decl "margin-left".toList [.ident "auto".toList]]).toOption.map
      (·.entries.map (·.1.longhand)) = some [.marginTop, .marginLeft] := by decide +kernel

/-- **C16** Anything that is not a declaration is dropped. -/
theorem C16_junk (C : CssColors) (pre post : List RawItem) :
    Block.parse C (pre ++ .junk :: post) = Block.parse C (pre ++ post) :=
  Block.parse_dropped rfl pre post

/-- **C16** Declarations whose name is none of the property names are not accepted. -/
theorem C16_unknown (C : CssColors) (name : Text)
    (h : ∀ e ∈ propertyTable C, e.1.toList ≠ name.map Char.toLower) (pre post : List RawItem)
    (ts : List Tok) :
    Block.parse C (pre ++ .decl name ts :: post) = Block.parse C (pre ++ post) := by
  apply Block.parse_dropped
  have : propertyDataByName C name = none := by
    cases hd : propertyDataByName C name with
    | none => rfl
    | some data =>
      obtain ⟨e, he, hn, -⟩ := propertyDataByName_mem hd
      exact absurd hn (h e he)
  simp [RawItem.entries?, this]

example : (Block.parse noColors [.decl "colour".toList [.ident "red".toList], .junk,
    .decl "margin-left".toList [.ident "auto".toList]]).toOption.map
      (·.entries.map (·.1.longhand)) = some [.marginLeft] := by decide +kernel

/-- **C16** Declarations do not interfere: the declarations of a block are those of
its parts, in order, and a block is read without abort exactly if its parts are. -/
theorem C16_independent (C : CssColors) (is js : List RawItem) :
    (∀ b, Block.parse C (is ++ js) = .ok b → ∃ b₁ b₂, Block.parse C is = .ok b₁ ∧
      Block.parse C js = .ok b₂ ∧ b.entries = b₁.entries ++ b₂.entries) ∧
    (∀ b₁ b₂, Block.parse C is = .ok b₁ → Block.parse C js = .ok b₂ →
      ∃ b, Block.parse C (is ++ js) = .ok b) := by
  have hemp : Block.empty.entries = [] := rfl
  constructor
  · intro b hb
    obtain ⟨-, ess, h1, h2⟩ := Block.parseFrom_ok (is ++ js) Block.Inv.empty hb
    rw [List.mapM_append] at h1
    cases h3 : is.mapM (RawItem.entries? C) with
    | none => simp [h3] at h1
    | some es1 =>
      cases h4 : js.mapM (RawItem.entries? C) with
      | none => simp [h3, h4] at h1
      | some es2 =>
        simp only [h3, h4, Option.pure_def, Option.bind_eq_bind, Option.bind_some,
          Option.some.injEq] at h1
        obtain ⟨b1, k1⟩ := Block.parseFrom_total is Block.Inv.empty h3
        obtain ⟨b2, k2⟩ := Block.parseFrom_total js Block.Inv.empty h4
        refine ⟨b1, b2, k1, k2, ?_⟩
        obtain ⟨-, f1, g1, e1⟩ := Block.parseFrom_ok is Block.Inv.empty k1
        obtain ⟨-, f2, g2, e2⟩ := Block.parseFrom_ok js Block.Inv.empty k2
        rw [h3] at g1; rw [h4] at g2
        cases g1; cases g2
        rw [h2, e1, e2, ← h1, hemp]
        simp
  · intro b₁ b₂ h₁ h₂
    obtain ⟨-, f1, g1, -⟩ := Block.parseFrom_ok is Block.Inv.empty h₁
    obtain ⟨-, f2, g2, -⟩ := Block.parseFrom_ok js Block.Inv.empty h₂
    refine Block.parseFrom_total (is ++ js) Block.Inv.empty (ess := f1 ++ f2) ?_
    rw [List.mapM_append, g1, g2]
    rfl

/-- **C16** The only reason for which reading a block aborts: some declaration has a
value that is not accepted but begins with one that is. -/
theorem C16_abort (C : CssColors) (items : List RawItem) (e : Panic)
    (h : Block.parse C items = .error e) :
    ∃ name ts k, .decl name ts ∈ items ∧ Accepted C name (ts.take k) ∧ ¬ Accepted C name ts ∧
      ∀ b, Block.parse C [.decl name ts] ≠ .ok b := by
  have hex : ∃ i ∈ items, RawItem.entries? C i = none := by
    by_contra hne
    simp only [not_exists, not_and] at hne
    have : ∃ ess, items.mapM (RawItem.entries? C) = some ess := by
      clear h
      induction items with
      | nil => exact ⟨[], rfl⟩
      | cons i is ih =>
        obtain ⟨ess, he⟩ := ih fun j hj => hne j (List.mem_cons_of_mem _ hj)
        cases hi : i.entries? C with
        | none => exact absurd hi (hne i (by simp))
        | some es => exact ⟨es :: ess, by simp [List.mapM_cons, hi, he]⟩
    obtain ⟨ess, he⟩ := this
    obtain ⟨b, hb⟩ := Block.parseFrom_total items Block.Inv.empty he
    unfold Block.parse at h
    rw [hb] at h
    cases h
  obtain ⟨i, hi, hn⟩ := hex
  cases i with
  | junk => simp [RawItem.entries?] at hn
  | decl name ts =>
    obtain ⟨k, hk⟩ := entries_not_nil (C := C) (name := name) (ts := ts) (by rw [hn]; simp)
    have hno : ∀ b, Block.parse C [.decl name ts] ≠ .ok b := by
      intro b hb
      have := Block.parse_single hb
      rw [hn] at this
      cases this
    exact ⟨name, ts, k, hi, hk, fun ⟨b, hb, _⟩ => hno b hb, hno⟩

-- an aborting block
example : (Block.parse noColors [.decl "width".toList [.ident "auto".toList, .ident "auto".toList]]).toOption.isNone
    = true := by decide +kernel

/-! ### Reading single values -/

theorem parse_value_iff {C : CssColors} {name : Text} {p : Longhand}
    (hd : propertyDataByName C name = some (longhandData C p)) {ts : List Tok} {v : p.Spec} :
    Sets C name ts [.value p v] ↔ CssWideKeyword.parse ts = none ∧ p.parse C ts = some (v, []) := by
  constructor
  · rintro ⟨b, hb, hperm⟩
    have he := Block.parse_single hb
    simp only [List.map_cons, List.map_nil, List.perm_singleton] at hperm
    rw [hperm] at he
    simp only [RawItem.entries?, hd, parseDecls] at he
    cases hk : CssWideKeyword.parse ts with
    | some r =>
      obtain ⟨k, rest⟩ := r
      simp only [hk, longhandData, List.map_cons, List.map_nil] at he
      split at he
      · simp at he
      · cases he
    | none =>
      simp only [hk, longhandData] at he
      cases hp : P.map (fun v => ([Decl.value p v], ({ early := p.isEarly, late := !p.isEarly } : PerPhase)))
          (p.parse C) ts with
      | none => simp [hp] at he
      | some r =>
        obtain ⟨⟨ds, ph⟩, rest⟩ := r
        simp only [hp] at he
        obtain ⟨v', hv', hf⟩ := P.map_eq_some.1 hp
        simp only [Prod.mk.injEq] at hf
        obtain ⟨rfl, -⟩ := hf
        cases hi : tryImportant rest with
        | mk imp left =>
          simp only [hi] at he
          cases left with
          | cons _ _ => simp at he
          | nil =>
            simp only [List.map_cons, List.map_nil, Option.some.injEq, List.cons.injEq,
              Prod.mk.injEq, Decl.value.injEq, heq_eq_eq, true_and, and_true] at he
            obtain ⟨rfl, rfl⟩ := he
            have : rest = [] := by
              unfold tryImportant at hi
              split at hi
              · simp at hi
              · simpa using hi
            subst this
            exact ⟨rfl, hv'⟩
  · rintro ⟨hk, hp⟩
    have : (RawItem.decl name ts).entries? C = some [(.value p v, false)] := by
      simp only [RawItem.entries?, hd, parseDecls, hk, longhandData, P.map, hp, Option.map_some]
      rfl
    obtain ⟨b, hb, he⟩ := Block.parse_single' this
    exact ⟨b, hb, by simp [he]⟩

theorem sets_of_parse {C : CssColors} {name : Text} {data : PropertyData}
    (hd : propertyDataByName C name = some data) {ts : List Tok} {ds : List Decl} {ph : PerPhase}
    (hk : CssWideKeyword.parse ts = none) (hp : data.parse ts = some ((ds, ph), []))
    {ds' : List Decl} (hperm : ds.Perm ds') : Sets C name ts ds' := by
  have : (RawItem.decl name ts).entries? C = some (ds.map fun d => (d, false)) := by
    simp only [RawItem.entries?, hd, parseDecls, hk, hp]
    rfl
  obtain ⟨b, hb, he⟩ := Block.parse_single' this
  exact ⟨b, hb, he ▸ hperm.map _⟩

theorem sets_of_shorthand {C : CssColors} {name : Text} {ls : List Longhand} {α : Type} {p : P α}
    {f : α → List Decl} (hd : propertyDataByName C name = some (shorthandData ls p f))
    {ts : List Tok} {a : α} (hk : CssWideKeyword.parse ts = none) (hp : p ts = some (a, []))
    {ds : List Decl} (hperm : (f a).Perm ds) : Sets C name ts ds :=
  sets_of_parse hd hk (ds := f a) (ph := shorthandPhases ls)
    (by simp only [shorthandData, P.map, hp, Option.map_some]) hperm

theorem tryImportant_false {ts : List Tok} (h : tryImportant ts = (false, [])) : ts = [] := by
  unfold tryImportant at h
  split at h
  · simp at h
  · simpa using h

theorem parse_of_sets {C : CssColors} {name : Text} {data : PropertyData}
    (hd : propertyDataByName C name = some data) {ts : List Tok} {ds : List Decl} (hne : ds ≠ [])
    (hk : CssWideKeyword.parse ts = none) (h : Sets C name ts ds) :
    ∃ ds' ph, data.parse ts = some ((ds', ph), []) ∧ ds'.Perm ds := by
  obtain ⟨b, hb, hperm⟩ := h
  have he := Block.parse_single hb
  simp only [RawItem.entries?, hd, parseDecls, hk] at he
  have hbe : b.entries ≠ [] := by
    intro h0
    rw [h0] at hperm
    simp at hperm
    exact hne hperm
  cases hp : data.parse ts with
  | none =>
    simp only [hp, Option.some.injEq] at he
    exact absurd he.symm hbe
  | some r =>
    obtain ⟨⟨ds', ph⟩, rest⟩ := r
    simp only [hp] at he
    cases hi : tryImportant rest with
    | mk imp left =>
      simp only [hi] at he
      cases left with
      | cons _ _ => simp at he
      | nil =>
        simp only [Option.some.injEq] at he
        have hflag : imp = false := by
          cases ds' with
          | nil => exact absurd he.symm hbe
          | cons d ds' =>
            have : (d, imp) ∈ b.entries := by rw [← he]; simp
            have := hperm.subset this
            simp only [List.mem_map, Prod.mk.injEq] at this
            obtain ⟨_, _, _, h⟩ := this
            exact h.symm
        subst hflag
        have := tryImportant_false hi
        subst this
        refine ⟨ds', ph, rfl, ?_⟩
        rw [← he] at hperm
        have := hperm.map Prod.fst
        simpa [List.map_map, Function.comp_def] using this

/-! ### C17 -/

/-- A four-sides shorthand, one of its longhands, and the declarations for the sides. -/
inductive FourSided : (shorthand longhand : String) → {α : Type} → FourSides (α → Decl) → Prop where
  | margin : FourSided "margin" "margin-top"
      ⟨.value .marginTop, .value .marginRight, .value .marginBottom, .value .marginLeft⟩
  | padding : FourSided "padding" "padding-top"
      ⟨.value .paddingTop, .value .paddingRight, .value .paddingBottom, .value .paddingLeft⟩
  | borderStyle : FourSided "border-style" "border-top-style"
      ⟨.value .borderTopStyle, .value .borderRightStyle, .value .borderBottomStyle,
        .value .borderLeftStyle⟩
  | borderColor : FourSided "border-color" "border-top-color"
      ⟨.value .borderTopColor, .value .borderRightColor, .value .borderBottomColor,
        .value .borderLeftColor⟩
  | borderWidth : FourSided "border-width" "border-top-width"
      ⟨.value .borderTopWidth, .value .borderRightWidth, .value .borderBottomWidth,
        .value .borderLeftWidth⟩

/-- The 1-to-4 value rule. -/
inductive SideValues {α : Type} : List α → FourSides α → Prop where
  | one (a) : SideValues [a] ⟨a, a, a, a⟩
  | two (vertical horizontal) :
      SideValues [vertical, horizontal] ⟨vertical, horizontal, vertical, horizontal⟩
  | three (top horizontal bottom) :
      SideValues [top, horizontal, bottom] ⟨top, horizontal, bottom, horizontal⟩
  | four (top right bottom left) :
      SideValues [top, right, bottom, left] ⟨top, right, bottom, left⟩

theorem cssWide_cons_none {t : Tok} (h : CssWideKeyword.parse [t] = none) (ts : List Tok) :
    CssWideKeyword.parse (t :: ts) = none := CssWideKeyword.parse_one.none_of h ts

theorem fourSides_of {α : Type} {p : P α} (hp : p.One) {ts : List Tok} {vs : List α}
    {f : FourSides α} (hv : SideValues vs f)
    (h : List.Forall₂ (fun t v => p [t] = some (v, [])) ts vs) :
    FourSides.parse p ts = some (f, []) := by
  cases hv with
  | one a =>
    rcases h with _ | ⟨h1, _ | _⟩
    exact FourSides.parse_one hp _ _ h1 _ hp.nil
  | two a b =>
    rcases h with _ | ⟨h1, _ | ⟨h2, _ | _⟩⟩
    exact FourSides.parse_two hp _ _ _ _ h1 h2 _ hp.nil
  | three a b c =>
    rcases h with _ | ⟨h1, _ | ⟨h2, _ | ⟨h3, _ | _⟩⟩⟩
    exact FourSides.parse_three hp _ _ _ _ _ _ h1 h2 h3 _ hp.nil
  | four a b c d =>
    rcases h with _ | ⟨h1, _ | ⟨h2, _ | ⟨h3, _ | ⟨h4, _ | _⟩⟩⟩⟩
    exact FourSides.parse_four hp _ _ _ _ _ _ _ _ h1 h2 h3 h4 _

theorem forall₂_mono {α β : Type} {R S : α → β → Prop} (hRS : ∀ a b, R a b → S a b)
    {ts : List α} {vs : List β} (h : List.Forall₂ R ts vs) : List.Forall₂ S ts vs := by
  induction h with
  | nil => exact .nil
  | cons h _ ih => exact .cons (hRS _ _ h) ih

theorem forall₂_fst {α β : Type} {R : α → β → Prop} {ts : List α} {vs : List β}
    (h : List.Forall₂ R ts vs) (hne : vs ≠ []) : ∃ t ts' v, ts = t :: ts' ∧ R t v := by
  cases h with
  | nil => exact absurd rfl hne
  | cons h _ => exact ⟨_, _, _, rfl, h⟩

theorem SideValues.ne_nil {α : Type} {vs : List α} {f : FourSides α} (h : SideValues vs f) :
    vs ≠ [] := by cases h <;> simp

theorem perm_trbl {α : Type} (a b c d : α) : [a, d, c, b].Perm [a, b, c, d] :=
  List.Perm.cons a ((List.Perm.swap c d [b]).trans
    ((List.Perm.cons c (List.Perm.swap b d [])).trans (List.Perm.swap b c [d])))

theorem fourSided_sets {C : CssColors} {short long : Text}
    {α : Type} {p : P α} (hp : p.One) (dt dr db dl : α → Decl) (ls : List Longhand)
    (hs : propertyDataByName C short = some (shorthandData ls (FourSides.parse p)
      fun s => [dt s.top, dl s.left, db s.bottom, dr s.right]))
    (hl : ∀ t v, Sets C long [t] [dt v] → CssWideKeyword.parse [t] = none ∧ p [t] = some (v, []))
    {ts : List Tok} {vs : List α} {f : FourSides α} (hv : SideValues vs f)
    (h : List.Forall₂ (fun t v => Sets C long [t] [dt v]) ts vs) :
    Sets C short ts [dt f.top, dr f.right, db f.bottom, dl f.left] := by
  obtain ⟨t, ts', v, rfl, h1⟩ := forall₂_fst h hv.ne_nil
  have hk := cssWide_cons_none (hl t v h1).1 ts'
  have hf := fourSides_of hp hv (forall₂_mono (fun t v h => (hl t v h).2) h)
  refine sets_of_parse hs (ph := shorthandPhases ls)
    (ds := [dt f.top, dl f.left, db f.bottom, dr f.right]) hk ?_ (perm_trbl _ _ _ _)
  simp only [shorthandData, P.map, hf, Option.map_some]

/-- **C17** Each of the five shorthands with one to four values, each of them valid for a
single side, sets the four sides by the rule. -/
theorem C17_four_sides (C : CssColors) (short long : String) {α : Type} (sides : FourSides (α → Decl))
    (hs : FourSided short long sides) (ts : List Tok) (vs : List α) (f : FourSides α)
    (hv : SideValues vs f)
    (h : List.Forall₂ (fun t v => Sets C long.toList [t] [sides.top v]) ts vs) :
    Sets C short.toList ts [sides.top f.top, sides.right f.right, sides.bottom f.bottom,
      sides.left f.left] := by
  cases hs with
  | margin =>
    exact fourSided_sets SpecifiedLengthOrPercentageOrAuto.parse_one (.value .marginTop)
      (.value .marginRight) (.value .marginBottom) (.value .marginLeft) _
      (propertyDataByName_shorthand C (List.mem_of_getElem? (i := 0) rfl) (by decide +kernel))
      (fun t v h => (parse_value_iff (p := .marginTop) (propertyDataByName_longhand' C (by decide +kernel))).1 h) hv h
  | padding =>
    exact fourSided_sets SpecifiedLengthOrPercentage.parse_one (.value .paddingTop)
      (.value .paddingRight) (.value .paddingBottom) (.value .paddingLeft) _
      (propertyDataByName_shorthand C (List.mem_of_getElem? (i := 1) rfl) (by decide +kernel))
      (fun t v h => (parse_value_iff (p := .paddingTop) (propertyDataByName_longhand' C (by decide +kernel))).1 h) hv h
  | borderStyle =>
    exact fourSided_sets LineStyle.parse_one (.value .borderTopStyle)
      (.value .borderRightStyle) (.value .borderBottomStyle) (.value .borderLeftStyle) _
      (propertyDataByName_shorthand C (List.mem_of_getElem? (i := 2) rfl) (by decide +kernel))
      (fun t v h => (parse_value_iff (p := .borderTopStyle) (propertyDataByName_longhand' C (by decide +kernel))).1 h) hv h
  | borderColor =>
    exact fourSided_sets (CssColor.parse_one C) (.value .borderTopColor)
      (.value .borderRightColor) (.value .borderBottomColor) (.value .borderLeftColor) _
      (propertyDataByName_shorthand C (List.mem_of_getElem? (i := 3) rfl) (by decide +kernel))
      (fun t v h => (parse_value_iff (p := .borderTopColor) (propertyDataByName_longhand' C (by decide +kernel))).1 h) hv h
  | borderWidth =>
    exact fourSided_sets parseLineWidth_one (.value .borderTopWidth)
      (.value .borderRightWidth) (.value .borderBottomWidth) (.value .borderLeftWidth) _
      (propertyDataByName_shorthand C (List.mem_of_getElem? (i := 4) rfl) (by decide +kernel))
      (fun t v h => (parse_value_iff (p := .borderTopWidth) (propertyDataByName_longhand' C (by decide +kernel))).1 h) hv h


-- `margin: 1px auto 2em`
example : Sets noColors "margin".toList
    [.dimension 1 "px".toList, .ident "auto".toList, .dimension 2 "em".toList]
    [.value .marginTop (.length (.absolute 1)), .value .marginRight .auto,
     .value .marginBottom (.length (.em 2)), .value .marginLeft .auto] :=
  ⟨_, rfl, by
    refine (List.Perm.cons _ ?_)
    exact (List.Perm.swap _ _ _).trans ((List.Perm.cons _ (List.Perm.swap _ _ _)).trans
      (List.Perm.swap _ _ _))⟩

/-! ### C18 -/

/-- Component `t` is, on its own, a value of the border longhand for the kind of `part`. -/
def IsBorderPart (C : CssColors) (t : Tok) : BorderPart → Prop
  | .style s => Sets C "border-top-style".toList [t] [.value .borderTopStyle s]
  | .color c => Sets C "border-top-color".toList [t] [.value .borderTopColor c]
  | .width w => Sets C "border-top-width".toList [t] [.value .borderTopWidth w]

theorem IsBorderPart.raw {C : CssColors} {t : Tok} {part : BorderPart} (h : IsBorderPart C t part) :
    CssWideKeyword.parse [t] = none ∧ RawPart C t part := by
  cases part with
  | style s => exact (parse_value_iff (p := .borderTopStyle)
      (propertyDataByName_longhand' C (by decide +kernel))).1 h
  | color s => exact (parse_value_iff (p := .borderTopColor)
      (propertyDataByName_longhand' C (by decide +kernel))).1 h
  | width s => exact (parse_value_iff (p := .borderTopWidth)
      (propertyDataByName_longhand' C (by decide +kernel))).1 h

theorem cssWide_ident {t : Tok} {r : CssWideKeyword × List Tok} (h : CssWideKeyword.parse [t] = some r) :
    ∃ s ∈ ["inherit", "initial", "unset"], t = .ident (String.toList s) := by
  unfold CssWideKeyword.parse deriveParse at h
  simp only [List.findSome?_nil] at h
  cases t with
  | ident s =>
    simp only [Option.map_eq_some_iff] at h
    obtain ⟨u, hu, -⟩ := h
    have h1 := List.find?_some hu
    have h2 := List.mem_of_find?_eq_some hu
    simp only [decide_eq_true_eq] at h1
    subst h1
    simp only [List.mem_cons, List.not_mem_nil, or_false] at h2
    rcases h2 with rfl | rfl | rfl
    · exact ⟨"inherit", by simp, by decide +kernel⟩
    · exact ⟨"initial", by simp, by decide +kernel⟩
    · exact ⟨"unset", by simp, by decide +kernel⟩
  | _ => cases h

theorem RawPart.isPart {C : CssColors} (hC : C.Sane) {t : Tok} {part : BorderPart}
    (h : RawPart C t part) : IsBorderPart C t part := by
  have hk : CssWideKeyword.parse [t] = none := by
    cases hk : CssWideKeyword.parse [t] with
    | none => rfl
    | some r =>
      exfalso
      obtain ⟨s, hs, rfl⟩ := cssWide_ident hk
      cases part with
      | style st =>
        simp only [RawPart] at h
        simp only [List.mem_cons, List.not_mem_nil, or_false] at hs
        have : LineStyle.parse [.ident s.toList] = none := by
          rcases hs with rfl | rfl | rfl <;> decide +kernel
        rw [this] at h; cases h
      | color c =>
        simp only [RawPart] at h
        have : C.keyword s.toList = none := hC s (by
          simp only [List.mem_cons, List.not_mem_nil, or_false] at hs ⊢; tauto)
        simp [CssColor.parse, this] at h
      | width st =>
        simp only [RawPart] at h
        simp only [List.mem_cons, List.not_mem_nil, or_false] at hs
        have : parseLineWidth [.ident s.toList] = none := by
          rcases hs with rfl | rfl | rfl <;> decide +kernel
        rw [this] at h; cases h
  cases part with
  | style s => exact (parse_value_iff (p := .borderTopStyle)
      (propertyDataByName_longhand' C (by decide +kernel))).2 ⟨hk, h⟩
  | color s => exact (parse_value_iff (p := .borderTopColor)
      (propertyDataByName_longhand' C (by decide +kernel))).2 ⟨hk, h⟩
  | width s => exact (parse_value_iff (p := .borderTopWidth)
      (propertyDataByName_longhand' C (by decide +kernel))).2 ⟨hk, h⟩

/-- The declaration of `p` with value `v`, or with the initial value if there is none. -/
def valueOrInitial (p : Longhand) : Option p.Spec → Decl
  | some v => .value p v
  | none => .cssWide p .initial

/-- What a border shorthand declares for one side, given the components present. -/
inductive BorderSideDecls (parts : List BorderPart) : String → List Decl → Prop where
  | top : BorderSideDecls parts "border-top"
      [valueOrInitial .borderTopStyle (parts.findSome? BorderPart.style?),
       valueOrInitial .borderTopColor (parts.findSome? BorderPart.color?),
       valueOrInitial .borderTopWidth (parts.findSome? BorderPart.width?)]
  | right : BorderSideDecls parts "border-right"
      [valueOrInitial .borderRightStyle (parts.findSome? BorderPart.style?),
       valueOrInitial .borderRightColor (parts.findSome? BorderPart.color?),
       valueOrInitial .borderRightWidth (parts.findSome? BorderPart.width?)]
  | bottom : BorderSideDecls parts "border-bottom"
      [valueOrInitial .borderBottomStyle (parts.findSome? BorderPart.style?),
       valueOrInitial .borderBottomColor (parts.findSome? BorderPart.color?),
       valueOrInitial .borderBottomWidth (parts.findSome? BorderPart.width?)]
  | left : BorderSideDecls parts "border-left"
      [valueOrInitial .borderLeftStyle (parts.findSome? BorderPart.style?),
       valueOrInitial .borderLeftColor (parts.findSome? BorderPart.color?),
       valueOrInitial .borderLeftWidth (parts.findSome? BorderPart.width?)]

theorem orInitial_eq (p : Longhand) (o : Option p.Spec) : orInitial p o = valueOrInitial p o := by
  cases o <;> rfl

theorem nodup_fin3 {l : List (Fin 3)} (h : l.Nodup) : l.length ≤ 3 := by
  simpa using h.length_le_card

theorem borderSide_parse {C : CssColors} (hC : C.Sane) {ts : List Tok} {parts : List BorderPart}
    (h : List.Forall₂ (IsBorderPart C) ts parts) (hne : parts ≠ [])
    (hnd : (parts.map BorderPart.kind).Nodup) :
    CssWideKeyword.parse ts = none ∧ BorderSide.parse C ts = some
      (⟨parts.findSome? BorderPart.style?, parts.findSome? BorderPart.color?,
        parts.findSome? BorderPart.width?⟩, []) := by
  constructor
  · obtain ⟨t, ts', part, rfl, h1⟩ := forall₂_fst h hne
    exact cssWide_cons_none h1.raw.1 ts'
  · have h' := forall₂_mono (fun _ _ h => IsBorderPart.raw h |>.2) h
    have hlen : parts.length ≤ 3 := by
      have := nodup_fin3 hnd
      simpa using this
    have hl : ∀ part ∈ parts, (BorderSide.mk none none none).lacks part.kind := by
      intro part _
      cases part <;> simp [BorderSide.lacks, BorderPart.kind]
    have := BorderSide.loop_parts hC 3 h' hnd hl hlen
    rw [foldl_add parts _ hnd hl] at this
    simp only [Option.none_or] at this
    unfold BorderSide.parse
    dsimp only
    rw [this, if_neg]
    simp only [BorderSide.mk.injEq, not_and]
    intro h1 h2 h3
    cases parts with
    | nil => exact hne rfl
    | cons part parts =>
      simp only [List.findSome?_cons] at h1 h2 h3
      cases part <;> simp [BorderPart.style?, BorderPart.color?, BorderPart.width?] at h1 h2 h3

/-- **C18** One to three components of different kind (style, colour, width), in any order, are
accepted by each border-side shorthand; missing ones are reset to their initial value. -/
theorem C18_side (C : CssColors) (hC : C.Sane) (name : String) (ts : List Tok)
    (parts : List BorderPart) (ds : List Decl) (hs : BorderSideDecls parts name ds)
    (h : List.Forall₂ (IsBorderPart C) ts parts) (hne : parts ≠ [])
    (hnd : (parts.map BorderPart.kind).Nodup) : Sets C name.toList ts ds := by
  obtain ⟨hk, hp⟩ := borderSide_parse hC h hne hnd
  cases hs
  all_goals simp only [← orInitial_eq]
  · exact sets_of_shorthand (propertyDataByName_shorthand C (List.mem_of_getElem? (i := 5) rfl)
      (by decide +kernel)) hk hp (.refl _)
  · exact sets_of_shorthand (propertyDataByName_shorthand C (List.mem_of_getElem? (i := 6) rfl)
      (by decide +kernel)) hk hp (.refl _)
  · exact sets_of_shorthand (propertyDataByName_shorthand C (List.mem_of_getElem? (i := 7) rfl)
      (by decide +kernel)) hk hp (.refl _)
  · exact sets_of_shorthand (propertyDataByName_shorthand C (List.mem_of_getElem? (i := 8) rfl)
      (by decide +kernel)) hk hp (.refl _)

-- `border-left: 2px dashed`: the colour is reset
example : (Block.parse noColors [.decl "border-left".toList
    [.dimension 2 "px".toList, .ident "dashed".toList]]).toOption.map (·.declarations) =
    some [.value .borderLeftStyle .dashed, .cssWide .borderLeftColor .initial,
      .value .borderLeftWidth (.length (.absolute 2))] := by rfl

theorem border_perm {α : Type} (a b c d e f g h i j k l : α) :
    [a, b, c, d, e, f, g, h, i, j, k, l].Perm
      ([a, e, i] ++ [b, f, j] ++ [c, g, k] ++ [d, h, l]) := by
  classical
  rw [List.perm_iff_count]
  intro x
  simp only [List.cons_append, List.nil_append, List.count_cons, List.count_nil]
  omega

/-- **C18** `border` declares the same for all four sides. -/
theorem C18_border (C : CssColors) (hC : C.Sane) (ts : List Tok)
    (parts : List BorderPart) (top right bottom left : List Decl)
    (ht : BorderSideDecls parts "border-top" top) (hr : BorderSideDecls parts "border-right" right)
    (hb : BorderSideDecls parts "border-bottom" bottom)
    (hl : BorderSideDecls parts "border-left" left)
    (h : List.Forall₂ (IsBorderPart C) ts parts) (hne : parts ≠ [])
    (hnd : (parts.map BorderPart.kind).Nodup) :
    Sets C "border".toList ts (top ++ right ++ bottom ++ left) := by
  obtain ⟨hk, hp⟩ := borderSide_parse hC h hne hnd
  generalize h1 : "border-top" = n1 at ht
  generalize h2 : "border-right" = n2 at hr
  generalize h3 : "border-bottom" = n3 at hb
  generalize h4 : "border-left" = n4 at hl
  cases ht <;> first | (exfalso; revert h1; decide) | skip
  cases hr <;> first | (exfalso; revert h2; decide) | skip
  cases hb <;> first | (exfalso; revert h3; decide) | skip
  cases hl <;> first | (exfalso; revert h4; decide) | skip
  simp only [← orInitial_eq]
  exact sets_of_shorthand (propertyDataByName_shorthand C (List.mem_of_getElem? (i := 9) rfl)
      (by decide +kernel)) hk hp (border_perm ..)

example : (Block.parse noColors [.decl "border".toList [.ident "solid".toList]]).toOption.map
    (·.entries.length) = some 12 := by decide +kernel

/-- **C18** Nothing else is accepted by the border shorthands: apart from CSS-wide keywords,
each component is a style, a colour or a width, and no two are of the same kind. -/
theorem C18_only (C : CssColors) (hC : C.Sane) (name : String)
    (hn : name ∈ ["border-top", "border-right", "border-bottom", "border-left", "border"])
    (ts : List Tok) (hk : ∀ s ∈ ["inherit", "initial", "unset"], ts.head? ≠ some (.ident s.toList))
    (ds : List Decl) (hne : ds ≠ []) (h : Sets C name.toList ts ds) :
    ∃ parts, List.Forall₂ (IsBorderPart C) ts parts ∧ parts ≠ [] ∧
      (parts.map BorderPart.kind).Nodup := by
  have hk' : CssWideKeyword.parse ts = none := by
    cases ts with
    | nil => rfl
    | cons t ts =>
      apply cssWide_cons_none
      cases hw : CssWideKeyword.parse [t] with
      | none => rfl
      | some r =>
        obtain ⟨s, hs, rfl⟩ := cssWide_ident hw
        exact absurd rfl (hk s hs)
  have key : ∀ (ls : List Longhand) (f : BorderSide → List Decl),
      propertyDataByName C name.toList = some (shorthandData ls (BorderSide.parse C) f) →
      ∃ parts, List.Forall₂ (IsBorderPart C) ts parts ∧ parts ≠ [] ∧
        (parts.map BorderPart.kind).Nodup := by
    intro ls f hd
    obtain ⟨ds', ph, hp, -⟩ := parse_of_sets hd hne hk' h
    simp only [shorthandData] at hp
    obtain ⟨v, hv, -⟩ := P.map_eq_some.1 hp
    unfold BorderSide.parse at hv
    dsimp only at hv
    split at hv
    · cases hv
    · rename_i hnn
      simp only [Option.some.injEq] at hv
      rw [hv] at hnn
      obtain ⟨parts, h1, h2, h3, h4⟩ := BorderSide.loop_is_parts 3 hv
      refine ⟨parts, forall₂_mono (fun _ _ h => h.isPart hC) h1, ?_, h2⟩
      rintro rfl
      exact hnn h4
  simp only [List.mem_cons, List.not_mem_nil, or_false] at hn
  rcases hn with rfl | rfl | rfl | rfl | rfl
  · exact key _ _ (propertyDataByName_shorthand C (List.mem_of_getElem? (i := 5) rfl) (by decide +kernel))
  · exact key _ _ (propertyDataByName_shorthand C (List.mem_of_getElem? (i := 6) rfl) (by decide +kernel))
  · exact key _ _ (propertyDataByName_shorthand C (List.mem_of_getElem? (i := 7) rfl) (by decide +kernel))
  · exact key _ _ (propertyDataByName_shorthand C (List.mem_of_getElem? (i := 8) rfl) (by decide +kernel))
  · exact key _ _ (propertyDataByName_shorthand C (List.mem_of_getElem? (i := 9) rfl) (by decide +kernel))

-- two widths are one too many
example : ¬ Accepted noColors "border-top".toList [.dimension 2 "px".toList, .dimension 3 "px".toList] := by
  rintro ⟨b, hb, -⟩
  have : (Block.parse noColors [.decl "border-top".toList
    [.dimension 2 "px".toList, .dimension 3 "px".toList]]).toOption.isNone = true := by decide +kernel
  rw [hb] at this
  cases this

/-! ### C19 -/

/-- CSS pixels per unit. -/
def unitRatios : List (String × ℚ) :=
  [("px", 1), ("in", 96), ("cm", 96 / (254 / 100)), ("mm", 96 / (254 / 10)), ("pt", 96 / 72), ("pc", 96 / 6)]

/-- The longhands that can be lengths, with their names. -/
inductive LengthProperty : String → (p : Longhand) → (SpecifiedLength → p.Spec) → Prop where
  | fontSize : LengthProperty "font-size" .fontSize id
  | lineHeight : LengthProperty "line-height" .lineHeight .length
  | verticalAlign : LengthProperty "vertical-align" .verticalAlign .length
  | top : LengthProperty "top" .top .length
  | left : LengthProperty "left" .left .length
  | bottom : LengthProperty "bottom" .bottom .length
  | right : LengthProperty "right" .right .length
  | width : LengthProperty "width" .width .length
  | height : LengthProperty "height" .height .length
  | marginTop : LengthProperty "margin-top" .marginTop .length
  | marginRight : LengthProperty "margin-right" .marginRight .length
  | marginBottom : LengthProperty "margin-bottom" .marginBottom .length
  | marginLeft : LengthProperty "margin-left" .marginLeft .length
  | paddingTop : LengthProperty "padding-top" .paddingTop .length
  | paddingRight : LengthProperty "padding-right" .paddingRight .length
  | paddingBottom : LengthProperty "padding-bottom" .paddingBottom .length
  | paddingLeft : LengthProperty "padding-left" .paddingLeft .length
  | borderTopWidth : LengthProperty "border-top-width" .borderTopWidth .length
  | borderRightWidth : LengthProperty "border-right-width" .borderRightWidth .length
  | borderBottomWidth : LengthProperty "border-bottom-width" .borderBottomWidth .length
  | borderLeftWidth : LengthProperty "border-left-width" .borderLeftWidth .length

theorem LengthProperty.mem {nm : String} {p : Longhand} {mk : SpecifiedLength → p.Spec}
    (h : LengthProperty nm p mk) :
    (nm, p) ∈ longhandNames ∧ nm.toList.map Char.toLower = nm.toList := by
  cases h <;> decide +kernel

theorem LengthProperty.parse {C : CssColors} {nm : String} {p : Longhand}
    {mk : SpecifiedLength → p.Spec} (h : LengthProperty nm p mk) {t : Tok} {l : SpecifiedLength}
    {rest : List Tok} (hl : SpecifiedLength.parse [t] = some (l, rest)) :
    p.parse C [t] = some (mk l, rest) := by
  have h1 : ∀ {α : Type} (f : SpecifiedLength → α) (fs : List (P α)) (us : List (String × α)),
      deriveParse (SpecifiedLength.parse.map f :: fs) us [t] = some (f l, rest) := by
    intro α f fs us
    simp [deriveParse, P.map, hl]
  cases h <;> first
    | exact hl
    | exact h1 _ _ _
    | (show parseLineWidth [t] = _
       have := h1 (α := SpecifiedLengthOrPercentage) .length [parsePercentage.map .percentage] []
       simp [parseLineWidth, ParsedLineWidth.parse, deriveParse, P.map,
         SpecifiedLengthOrPercentage.parse, hl])

theorem SpecifiedLength.parse_not_wide {t : Tok} {r : SpecifiedLength × List Tok}
    (h : SpecifiedLength.parse [t] = some r) : CssWideKeyword.parse [t] = none := by
  cases t <;> first | rfl | cases h

theorem C19_of_parse (C : CssColors) {nm : String} {p : Longhand} {mk : SpecifiedLength → p.Spec}
    (hp : LengthProperty nm p mk) {t : Tok} {l : SpecifiedLength}
    (hl : SpecifiedLength.parse [t] = some (l, [])) : Sets C nm.toList [t] [.value p (mk l)] :=
  (parse_value_iff (propertyDataByName_longhand' C hp.mem)).2
    ⟨SpecifiedLength.parse_not_wide hl, hp.parse hl⟩

/-- **C19** Every length property takes dimensions with an absolute unit, in any letter
case, as the number times the CSS ratio of the unit. -/
theorem C19_absolute (C : CssColors) (nm : String) (p : Longhand) (mk : SpecifiedLength → p.Spec)
    (hp : LengthProperty nm p mk) (v : ℚ) (unit : Text) (u : String) (r : ℚ)
    (hu : (u, r) ∈ unitRatios) (h : unit.map Char.toLower = u.toList) :
    Sets C nm.toList [.dimension v unit] [.value p (mk (.absolute (v * r)))] := by
  apply C19_of_parse C hp
  simp only [unitRatios, List.mem_cons, List.not_mem_nil, or_false, Prod.mk.injEq] at hu
  have ne : ∀ a b : String, decide (a = b) = false → a.toList ≠ b.toList := by
    intro a b hab he
    simp [String.toList_inj.1 he] at hab
  rcases hu with ⟨rfl, rfl⟩ | ⟨rfl, rfl⟩ | ⟨rfl, rfl⟩ | ⟨rfl, rfl⟩ | ⟨rfl, rfl⟩ | ⟨rfl, rfl⟩
  · simp only [SpecifiedLength.parse, h, if_true, mul_one]
  · simp only [SpecifiedLength.parse, h, if_true, if_neg (ne "in" "px" rfl),
      if_neg (ne "in" "pt" rfl)]
  · simp only [SpecifiedLength.parse, h, if_true, if_neg (ne "cm" "px" rfl),
      if_neg (ne "cm" "pt" rfl), if_neg (ne "cm" "in" rfl)]
    congr 3; ring
  · simp only [SpecifiedLength.parse, h, if_true, if_neg (ne "mm" "px" rfl),
      if_neg (ne "mm" "pt" rfl), if_neg (ne "mm" "in" rfl), if_neg (ne "mm" "cm" rfl)]
    congr 3; ring
  · simp only [SpecifiedLength.parse, h, if_true, if_neg (ne "pt" "px" rfl)]
    congr 3; ring
  · simp only [SpecifiedLength.parse, h, if_true, if_neg (ne "pc" "px" rfl),
      if_neg (ne "pc" "pt" rfl), if_neg (ne "pc" "in" rfl), if_neg (ne "pc" "cm" rfl),
      if_neg (ne "pc" "mm" rfl)]
    congr 3; ring

-- `padding-left: 1IN` is 96 px
example : (Block.parse noColors [.decl "padding-left".toList [.dimension 1 "IN".toList]]).toOption.map
    (·.declarations) = some [.value .paddingLeft (.length (.absolute 96))] := by
  have : (1 : ℚ) * 96 = 96 := by norm_num
  rw [← this]
  rfl

/-- **C19** `em`, in any letter case, and zero without unit. -/
theorem C19_em_zero (C : CssColors) (nm : String) (p : Longhand) (mk : SpecifiedLength → p.Spec)
    (hp : LengthProperty nm p mk) (v : ℚ) (unit : Text)
    (h : unit.map Char.toLower = "em".toList) :
    Sets C nm.toList [.dimension v unit] [.value p (mk (.em v))] ∧
    Sets C nm.toList [.number 0] [.value p (mk (.absolute 0))] := by
  have ne : ∀ a b : String, decide (a = b) = false → a.toList ≠ b.toList := by
    intro a b hab he
    simp [String.toList_inj.1 he] at hab
  constructor
  · apply C19_of_parse C hp
    simp only [SpecifiedLength.parse, h, if_true, if_neg (ne "em" "px" rfl),
      if_neg (ne "em" "pt" rfl), if_neg (ne "em" "in" rfl), if_neg (ne "em" "cm" rfl),
      if_neg (ne "em" "mm" rfl), if_neg (ne "em" "pc" rfl)]
  · exact C19_of_parse C hp (by simp [SpecifiedLength.parse])

/-- **C19** Dimensions with any other unit are dropped, and so are numbers other than zero
(except for `line-height`, which can be a number). -/
theorem C19_rejected (C : CssColors) (nm : String) (p : Longhand) (mk : SpecifiedLength → p.Spec)
    (hp : LengthProperty nm p mk) (v : ℚ) (unit : Text)
    (h : unit.map Char.toLower ∉ ["px", "in", "cm", "mm", "pt", "pc", "em"].map String.toList)
    (x : ℚ) (hx : x ≠ 0) :
    ¬ Accepted C nm.toList [.dimension v unit] ∧
    (p ≠ .lineHeight → ¬ Accepted C nm.toList [.number x]) := by
  have hd := propertyDataByName_longhand' C hp.mem
  have key : ∀ t, CssWideKeyword.parse [t] = none → p.parse C [t] = none →
      ¬ Accepted C nm.toList [t] := by
    rintro t h1 h2 ⟨b, hb, hne⟩
    have := Block.parse_single hb
    simp only [RawItem.entries?, hd, parseDecls, h1, longhandData, P.map, h2, Option.map_none,
      Option.some.injEq] at this
    exact hne this.symm
  have h1 : SpecifiedLength.parse [.dimension v unit] = none := by
    simp only [List.map_cons, List.map_nil, List.mem_cons, List.not_mem_nil, or_false, not_or] at h
    simp only [SpecifiedLength.parse]
    rw [if_neg h.1, if_neg h.2.2.2.2.1, if_neg h.2.1, if_neg h.2.2.1, if_neg h.2.2.2.1,
      if_neg h.2.2.2.2.2.1, if_neg h.2.2.2.2.2.2]
  have h2 : SpecifiedLength.parse [.number x] = none := by simp [SpecifiedLength.parse, hx]
  have d1 : SpecifiedLengthOrPercentage.parse [.dimension v unit] = none := by
    simp [SpecifiedLengthOrPercentage.parse, deriveParse, List.findSome?_cons, P.map, h1,
      parsePercentage]
  have d2 : SpecifiedLengthOrPercentage.parse [.number x] = none := by
    simp [SpecifiedLengthOrPercentage.parse, deriveParse, List.findSome?_cons, P.map, h2,
      parsePercentage]
  constructor
  · apply key _ rfl
    cases hp <;> first
      | exact h1
      | exact d1
      | (simp [Longhand.parse, SpecifiedLengthOrPercentageOrAuto.parse,
          SpecifiedLengthOrPercentageOrNumber.parse, SpecifiedVerticalAlign.parse, parseLineWidth,
          ParsedLineWidth.parse, deriveParse, List.findSome?_cons, P.map, h1, d1, parsePercentage,
          parseNumber])
  · intro hne
    apply key _ rfl
    cases hp <;> first
      | exact absurd rfl hne
      | exact h2
      | exact d2
      | (simp [Longhand.parse, SpecifiedLengthOrPercentageOrAuto.parse,
          SpecifiedVerticalAlign.parse, parseLineWidth,
          ParsedLineWidth.parse, deriveParse, List.findSome?_cons, P.map, h2, d2, parsePercentage])

example : (Block.parse noColors [.decl "padding-left".toList [.dimension 1 "rem".toList],
    .decl "margin-top".toList [.number 3]]).toOption.map (·.entries.length) = some 0 := by decide +kernel

/-- The part of the claim about negative lengths: padding and border widths reject them. -/
def C19_full : Prop := ∀ (C : CssColors) (nm : String) (p : Longhand)
  (mk : SpecifiedLength → p.Spec), LengthProperty nm p mk →
  p ∈ [.paddingTop, .paddingRight, .paddingBottom, .paddingLeft, .borderTopWidth,
    .borderRightWidth, .borderBottomWidth, .borderLeftWidth, .fontSize] →
  ∀ v : ℚ, v < 0 → ¬ Accepted C nm.toList [.dimension v "px".toList]

/-- **C19** Negative padding (also negative border widths and font sizes) is accepted. -/
theorem C19_full_false : ¬ C19_full := by
  intro h
  refine h noColors _ _ _ .paddingTop (by decide) (-1) (by norm_num) ?_
  obtain ⟨b, hb, hp⟩ := C19_absolute noColors _ _ _ .paddingTop (-1) "px".toList "px" 1
    (by simp [unitRatios]) (by decide +kernel)
  refine ⟨b, hb, ?_⟩
  intro h0
  rw [h0] at hp
  simp at hp

/-! ### C20 -/

/-- The property names in the documentation, with the longhands they stand for. -/
def documentedNames : List (String × List Longhand) :=
  [("color", [.color]), ("background-color", [.backgroundColor]),
   ("margin-top", [.marginTop]), ("margin-right", [.marginRight]),
   ("margin-bottom", [.marginBottom]), ("margin-left", [.marginLeft]),
   ("margin", [.marginTop, .marginRight, .marginBottom, .marginLeft]),
   ("padding-top", [.paddingTop]), ("padding-right", [.paddingRight]),
   ("padding-bottom", [.paddingBottom]), ("padding-left", [.paddingLeft]),
   ("padding", [.paddingTop, .paddingRight, .paddingBottom, .paddingLeft]),
   ("border-top-color", [.borderTopColor]), ("border-right-color", [.borderRightColor]),
   ("border-bottom-color", [.borderBottomColor]), ("border-left-color", [.borderLeftColor]),
   ("border-top-style", [.borderTopStyle]), ("border-right-style", [.borderRightStyle]),
   ("border-bottom-style", [.borderBottomStyle]), ("border-left-style", [.borderLeftStyle]),
   ("border-top-width", [.borderTopWidth]), ("border-right-width", [.borderRightWidth]),
   ("border-bottom-width", [.borderBottomWidth]), ("border-left-width", [.borderLeftWidth]),
   ("border-color", [.borderTopColor, .borderRightColor, .borderBottomColor, .borderLeftColor]),
   ("border-style", [.borderTopStyle, .borderRightStyle, .borderBottomStyle, .borderLeftStyle]),
   ("border-width", [.borderTopWidth, .borderRightWidth, .borderBottomWidth, .borderLeftWidth]),
   ("border-top", [.borderTopWidth, .borderTopStyle, .borderTopColor]),
   ("border-right", [.borderRightWidth, .borderRightStyle, .borderRightColor]),
   ("border-bottom", [.borderBottomWidth, .borderBottomStyle, .borderBottomColor]),
   ("border-left", [.borderLeftWidth, .borderLeftStyle, .borderLeftColor]),
   ("border", [.borderTopWidth, .borderRightWidth, .borderBottomWidth, .borderLeftWidth,
     .borderTopStyle, .borderRightStyle, .borderBottomStyle, .borderLeftStyle,
     .borderTopColor, .borderRightColor, .borderBottomColor, .borderLeftColor]),
   ("font-family", [.fontFamily]), ("font-size", [.fontSize]), ("font-style", [.fontStyle]),
   ("font-weight", [.fontWeight]), ("line-height", [.lineHeight]), ("text-align", [.textAlign]),
   ("vertical-align", [.verticalAlign]), ("white-space", [.whiteSpace])]

/-- The full claim: every documented name, in any letter case, selects its longhands; shown
by `name: inherit`, which declares `inherit` for exactly these. -/
def C20_full : Prop := ∀ (C : CssColors) (nm : String) (ls : List Longhand),
  (nm, ls) ∈ documentedNames → ∀ name : Text, name.map Char.toLower = nm.toList →
  Sets C name [.ident "inherit".toList] (ls.map fun l => .cssWide l .inherit)

theorem inherit_entries {C : CssColors} {name : Text} {data : PropertyData}
    (hd : propertyDataByName C name = some data) :
    (RawItem.decl name [.ident "inherit".toList]).entries? C =
      some (data.longhands.map fun l => (.cssWide l .inherit, false)) := by
  have hk : CssWideKeyword.parse [.ident "inherit".toList] = some (.inherit, []) := by
    decide +kernel
  simp only [RawItem.entries?, hd, parseDecls, hk, List.map_map]
  rfl

/-- **C20** `border-right-color` is not recognised. -/
theorem C20_full_false : ¬ C20_full := by
  intro h
  obtain ⟨b, hb, hp⟩ := h noColors "border-right-color" [.borderRightColor] (by decide)
    "border-right-color".toList (by decide +kernel)
  have hn : propertyDataByName noColors "border-right-color".toList = none := by
    unfold propertyDataByName
    rw [Option.map_eq_none_iff, List.find?_eq_none]
    intro e he
    have : e.1 ∈ tableNames := by
      rw [← propertyTable_names noColors]; exact List.mem_map.2 ⟨e, he, rfl⟩
    have hall : ∀ s ∈ tableNames, ¬ s.toList = ("border-right-color".toList).map Char.toLower := by
      decide +kernel
    simpa using hall e.1 this
  have := Block.parse_single hb
  simp only [RawItem.entries?, hn, Option.some.injEq] at this
  rw [← this] at hp
  simp at hp

/-- The longhands of each table entry. -/
def tableLonghands : List (String × List Longhand) := longhandNames.map (fun e => (e.1, [e.2])) ++
  [("margin", [.marginTop, .marginLeft, .marginBottom, .marginRight]),
   ("padding", [.paddingTop, .paddingLeft, .paddingBottom, .paddingRight]),
   ("border-style", [.borderTopStyle, .borderLeftStyle, .borderBottomStyle, .borderRightStyle]),
   ("border-color", [.borderTopColor, .borderLeftColor, .borderBottomColor, .borderRightColor]),
   ("border-width", [.borderTopWidth, .borderLeftWidth, .borderBottomWidth, .borderRightWidth]),
   ("border-top", [.borderTopStyle, .borderTopColor, .borderTopWidth]),
   ("border-right", [.borderRightStyle, .borderRightColor, .borderRightWidth]),
   ("border-bottom", [.borderBottomStyle, .borderBottomColor, .borderBottomWidth]),
   ("border-left", [.borderLeftStyle, .borderLeftColor, .borderLeftWidth]),
   ("border", [.borderTopStyle, .borderRightStyle, .borderBottomStyle, .borderLeftStyle,
       .borderTopColor, .borderRightColor, .borderBottomColor, .borderLeftColor,
       .borderTopWidth, .borderRightWidth, .borderBottomWidth, .borderLeftWidth]),
   ("background", [.backgroundColor])]

theorem propertyTable_longhands (C : CssColors) :
    (propertyTable C).map (fun e => (e.1, e.2.longhands)) = tableLonghands := by
  simp only [propertyTable, tableLonghands, List.map_append, List.map_map, shorthandTable]
  rfl

/-- **C20** Every documented name except `border-right-color` selects its property. -/
theorem C20_partial (C : CssColors) (nm : String) (ls : List Longhand)
    (h : (nm, ls) ∈ documentedNames) (hne : nm ≠ "border-right-color") (name : Text)
    (hn : name.map Char.toLower = nm.toList) :
    Sets C name [.ident "inherit".toList] (ls.map fun l => .cssWide l .inherit) := by
  have hall : ∀ e ∈ documentedNames, e.1 ≠ "border-right-color" →
      ∃ f ∈ tableLonghands, f.1 = e.1 ∧ f.2.Perm e.2 := by decide +kernel
  obtain ⟨f, hf, h1, h2⟩ := hall _ h hne
  rw [← propertyTable_longhands C] at hf
  obtain ⟨e, he, rfl⟩ := List.mem_map.1 hf
  simp only at h1 h2
  have hd := propertyDataByName_of_mem he (name := name) (by rw [h1, hn])
  obtain ⟨b, hb, hbe⟩ := Block.parse_single' (inherit_entries hd)
  refine ⟨b, hb, ?_⟩
  rw [hbe, List.map_map]
  exact h2.map _

example : (Block.parse noColors [.decl "BORDER-style".toList [.ident "inherit".toList]]).toOption.map
    (·.entries.map fun e => (e.1.longhand, e.2)) = some [(.borderTopStyle, false), (.borderLeftStyle, false),
      (.borderBottomStyle, false), (.borderRightStyle, false)] := by decide +kernel

/-! ### C21 -/

/-- `!important` in any letter case. -/
def IsImportant (imp : List Tok) : Prop :=
  ∃ s, imp = [.delim '!', .ident s] ∧ s.map Char.toLower = "important".toList

/-- The full claim: a valid declaration stays valid with `!important` and sets the same. -/
def C21_full : Prop := ∀ (C : CssColors) (name : Text) (ts : List Tok) (ds : List Decl),
  ds ≠ [] → Sets C name ts ds → ∀ imp, IsImportant imp →
  ∃ b, Block.parse C [.decl name (ts ++ imp)] = .ok b ∧ b.entries.Perm (ds.map fun d => (d, true))

/-- **C21** is false: `font-family: serif !important` is dropped. -/
theorem C21_full_false : ¬ C21_full := by
  intro h
  have hd : propertyDataByName noColors "font-family".toList =
    some (longhandData noColors .fontFamily) :=
    propertyDataByName_longhand' noColors (by decide +kernel)
  have hs : Sets noColors "font-family".toList [.ident "serif".toList]
      [.value .fontFamily FontFamily.genericSerif] :=
    (parse_value_iff hd).2 ⟨by decide +kernel, by decide +kernel⟩
  obtain ⟨b, hb, hp⟩ := h noColors _ _ _ (by simp) hs
    [.delim '!', .ident "important".toList] ⟨_, rfl, by decide +kernel⟩
  have := Block.parse_single hb
  have hw : CssWideKeyword.parse [.ident "serif".toList, .delim '!', .ident "important".toList] =
    none := by decide +kernel
  simp only [RawItem.entries?, hd, parseDecls, List.cons_append, List.nil_append, hw] at this
  have hff : (longhandData noColors .fontFamily).parse
    [.ident "serif".toList, .delim '!', .ident "important".toList] = none := rfl
  simp only [hff, Option.some.injEq] at this
  rw [← this] at hp
  simp at hp

theorem tryImportant_important {imp : List Tok} (h : IsImportant imp) :
    tryImportant imp = (true, []) := by
  obtain ⟨s, rfl, hs⟩ := h
  simp [tryImportant, parseImportant, hs]

/-- **C21** Any valid declaration, except a font family, is still valid with `!important` and
then declares the same values as important and nothing as normal. -/
theorem C21_partial (C : CssColors) (name : Text) (ts : List Tok) (ds : List Decl)
    (hne : ds ≠ []) (h : Sets C name ts ds)
    (hf : name.map Char.toLower ≠ "font-family".toList ∨
      ∃ s ∈ ["inherit", "initial", "unset"], ts = [.ident (String.toList s)])
    (imp : List Tok) (hi : IsImportant imp) :
    ∃ b, Block.parse C [.decl name (ts ++ imp)] = .ok b ∧
      b.entries.Perm (ds.map fun d => (d, true)) := by
  obtain ⟨b, hb, hperm⟩ := h
  have he := Block.parse_single hb
  have hbe : b.entries ≠ [] := by
    intro h0
    rw [h0] at hperm
    simp at hperm
    exact hne hperm
  simp only [RawItem.entries?] at he
  cases hd : propertyDataByName C name with
  | none => simp only [hd, Option.some.injEq] at he; exact absurd he.symm hbe
  | some data =>
    simp only [hd] at he
    cases hp : parseDecls data ts with
    | none => simp only [hp, Option.some.injEq] at he; exact absurd he.symm hbe
    | some r =>
      obtain ⟨⟨ds', ph⟩, rest⟩ := r
      simp only [hp] at he
      cases ht : tryImportant rest with
      | mk flag left =>
        simp only [ht] at he
        cases left with
        | cons _ _ => simp at he
        | nil =>
          simp only [Option.some.injEq] at he
          have hflag : flag = false := by
            cases ds' with
            | nil => exact absurd he.symm hbe
            | cons d ds' =>
              have : (d, flag) ∈ b.entries := by rw [← he]; simp
              have := hperm.subset this
              simp only [List.mem_map, Prod.mk.injEq] at this
              obtain ⟨_, _, _, h⟩ := this
              exact h.symm
          subst hflag
          have hr := tryImportant_false ht
          subst hr
          have hf' : name.map Char.toLower ≠ "font-family".toList ∨
              (CssWideKeyword.parse ts).isSome := by
            refine hf.imp id ?_
            rintro ⟨s, hs, rfl⟩
            simp only [List.mem_cons, List.not_mem_nil, or_false] at hs
            rcases hs with rfl | rfl | rfl <;> decide +kernel
          obtain ⟨s, himp, hs⟩ := hi
          have hbang := parseDecls_bang hd ts _ hp hf' [.ident s]
          rw [← himp] at hbang
          have : (RawItem.decl name (ts ++ imp)).entries? C = some (ds'.map fun d => (d, true)) := by
            simp only [RawItem.entries?, hd, hbang, tryImportant_important ⟨s, himp, hs⟩]
          obtain ⟨b', hb', hbe'⟩ := Block.parse_single' this
          refine ⟨b', hb', ?_⟩
          rw [hbe']
          rw [← he] at hperm
          have := hperm.map Prod.fst
          simp only [List.map_map, Function.comp_def, List.map_id'] at this
          exact this.map _

example : (Block.parse noColors [.decl "margin".toList [.ident "auto".toList, .delim '!',
    .ident "Important".toList], .decl "width".toList [.ident "auto".toList]]).toOption.map
    (·.entries.map (·.2)) = some [true, true, true, true, false] := by decide +kernel

/-! ### C29 -/

/-- White space of HTML. -/
def isHtmlSpace (c : Char) : Bool :=
  c = ' ' || c = '\t' || c = '\n' || c = '\x0c' || c = '\r'

/-- `w` is one of the white-space separated words of `a`. -/
def IsWord (w a : Text) : Prop :=
  w ≠ [] ∧ w.all (!isHtmlSpace ·) ∧ ∃ l r, a = l ++ w ++ r ∧
    (∀ c, l.getLast? = some c → isHtmlSpace c) ∧ (∀ c, r.head? = some c → isHtmlSpace c)

/-- The full claim. -/
def C29_full : Prop := ∀ (d : Doc) (n : NodeId) (e : ElementData) (cls : Text),
  d.element n = .ok e → cls ≠ [] → cls.all (!isHtmlSpace ·) →
  (d.hasClass n cls .caseSensitive = .ok true ↔ ∃ a, e.getAttr "class" = some a ∧ IsWord cls a)

/-- a document whose only node is an element with `class="a b"` -/
def twoClasses : Doc :=
  ⟨1, fun _ => Node.new (.element ⟨⟨none, nsHtml, "p"⟩,
    [⟨⟨none, "", "class"⟩, "a b".toList⟩]⟩), []⟩

/-- **C29** is false: class `a` does not match `class="a b"`. -/
theorem C29_full_false : ¬ C29_full := by
  intro h
  have := (h twoClasses 0 ⟨⟨none, nsHtml, "p"⟩, [⟨⟨none, "", "class"⟩, "a b".toList⟩]⟩
    "a".toList rfl (by decide) (by decide)).2
    ⟨"a b".toList, rfl, by decide, by decide, [], " b".toList, rfl, by simp, by simp [isHtmlSpace]⟩
  revert this
  decide +kernel

/-- **C29** A class selector never matches an element without that class, and matches
if the class attribute consists of this class only.  Missing: elements with several classes. -/
theorem C29_partial (d : Doc) (n : NodeId) (e : ElementData) (cls : Text)
    (he : d.element n = .ok e) (hne : cls ≠ []) (hcls : cls.all (!isHtmlSpace ·)) :
    (d.hasClass n cls .caseSensitive = .ok true →
      ∃ a, e.getAttr "class" = some a ∧ IsWord cls a) ∧
    (e.getAttr "class" = some cls → d.hasClass n cls .caseSensitive = .ok true) ∧
    (e.getAttr "class" = none → d.hasClass n cls .caseSensitive = .ok false) := by
  have hc : d.hasClass n cls .caseSensitive = .ok (match e.getAttr "class" with
      | some a => Doc.CaseSensitivity.caseSensitive.eq cls a
      | none => false) := by
    simp only [Doc.hasClass, he, bind, Except.bind, pure, Except.pure]
    rfl
  rw [hc]
  refine ⟨fun h => ?_, fun h => ?_, fun h => ?_⟩
  · cases ha : e.getAttr "class" with
    | none => simp [ha] at h
    | some a =>
      simp only [ha, Doc.CaseSensitivity.eq, Except.ok.injEq, decide_eq_true_eq] at h
      subst h
      exact ⟨cls, rfl, hne, hcls, [], [], by simp, by simp, by simp⟩
  · simp [h, Doc.CaseSensitivity.eq]
  · simp [h]

example : twoClasses.hasClass 0 "a b".toList .caseSensitive = .ok true ∧
    twoClasses.hasClass 0 "b".toList .caseSensitive = .ok false := by decide +kernel

/-! ### C30 -/

/-- lower-case identifiers and units -/
def Tok.lower : Tok → Tok
  | .ident s => .ident (s.map Char.toLower)
  | .dimension v u => .dimension v (u.map Char.toLower)
  | t => t

/-- lower-case units only -/
def Tok.lowerUnit : Tok → Tok
  | .dimension v u => .dimension v (u.map Char.toLower)
  | t => t

/-- The full claim: letter case of property names, keywords and units does not matter (family
names are exempt). -/
def C30_full : Prop := ∀ (C : CssColors) (name name' : Text) (ts ts' : List Tok),
  (∀ s s' : Text, s.map Char.toLower = s'.map Char.toLower → C.keyword s = C.keyword s') →
  name.map Char.toLower = name'.map Char.toLower → name.map Char.toLower ≠ "font-family".toList →
  ts.map Tok.lower = ts'.map Tok.lower → Accepted C name ts → Accepted C name' ts'

/-- **C30** is false: `display: NONE` is dropped. -/
theorem C30_full_false : ¬ C30_full := by
  intro h
  have hd : propertyDataByName noColors "display".toList = some (longhandData noColors .display) :=
    propertyDataByName_longhand' noColors (by decide +kernel)
  have h1 : Accepted noColors "display".toList [.ident "none".toList] := by
    obtain ⟨b, hb, hp⟩ := (parse_value_iff hd (v := Display.none)
      (ts := [.ident "none".toList])).2 ⟨by decide +kernel, by decide +kernel⟩
    refine ⟨b, hb, fun h0 => ?_⟩
    rw [h0] at hp
    simp at hp
  obtain ⟨b, hb, hne⟩ := h noColors "display".toList "display".toList [.ident "none".toList]
    [.ident "NONE".toList] (fun _ _ _ => rfl) rfl (by decide +kernel) (by decide +kernel) h1
  have := Block.parse_single hb
  have e0 : (RawItem.decl "display".toList [.ident "NONE".toList]).entries? noColors = some [] := by
    simp only [RawItem.entries?, hd]
    rfl
  rw [e0] at this
  simp only [Option.some.injEq] at this
  exact hne this.symm

/-- does not see the letter case of units -/
def P.Caseless {α : Type} (p : P α) : Prop :=
  ∀ ts, p (ts.map Tok.lowerUnit) = (p ts).map fun r => (r.1, r.2.map Tok.lowerUnit)

theorem Char.toLower_twice (c : Char) : c.toLower.toLower = c.toLower := by
  have key : ∀ d : Char, ¬ (d.val ≥ 'A'.val ∧ d.val ≤ 'Z'.val) → d.toLower = d := by
    intro d h
    unfold Char.toLower
    rw [dif_neg h]
  by_cases h : c.val ≥ 'A'.val ∧ c.val ≤ 'Z'.val
  · have h2 : ¬ (c.toLower.val ≥ 'A'.val ∧ c.toLower.val ≤ 'Z'.val) := by
      have : c.toLower.val = c.val + ('a'.val - 'A'.val) := by
        unfold Char.toLower; rw [dif_pos h]
      rw [this]
      obtain ⟨h1, h2⟩ := h
      intro h3
      have k1 := UInt32.le_iff_toNat_le.1 h2
      have k0 := UInt32.le_iff_toNat_le.1 h1
      have k2 := UInt32.le_iff_toNat_le.1 h3.2
      rw [UInt32.toNat_add] at k2
      simp at k0 k1 k2
      omega
    exact key _ h2
  · rw [key c h, key c h]

theorem toLower_toLower (s : Text) : (s.map Char.toLower).map Char.toLower = s.map Char.toLower := by
  rw [List.map_map]
  exact List.map_congr_left fun c _ => Char.toLower_twice c

theorem P.One.caseless {α : Type} {p : P α} (h : p.One) (h1 : ∀ t, p [t.lowerUnit] = p [t]) :
    p.Caseless := by
  intro ts
  cases ts with
  | nil => simp [h.nil]
  | cons t ts =>
    rw [List.map_cons, h.cons, h1, h.cons t ts]
    cases p [t] <;> rfl

theorem P.Caseless.map {α β : Type} {p : P α} (h : p.Caseless) (f : α → β) :
    (p.map f).Caseless := by
  intro ts
  simp only [P.map]
  rw [h ts]
  cases p ts <;> rfl

theorem map_single {α β : Type} {p : P α} {f : α → β} (h : ∀ t : Tok, p [t.lowerUnit] = p [t])
    (t : Tok) : p.map f [t.lowerUnit] = p.map f [t] := by simp only [P.map, h t]

theorem deriveParse_single {α : Type} (fields : List (P α)) (units : List (String × α))
    (h : ∀ p ∈ fields, ∀ t : Tok, p [t.lowerUnit] = p [t]) (t : Tok) :
    deriveParse fields units [t.lowerUnit] = deriveParse fields units [t] := by
  have h1 : fields.findSome? (fun p => p [t.lowerUnit]) = fields.findSome? (fun p => p [t]) := by
    clear units
    induction fields with
    | nil => rfl
    | cons p ps ih =>
      rw [List.findSome?_cons, List.findSome?_cons, h p (by simp) t,
        ih fun q hq => h q (List.mem_cons_of_mem _ hq)]
  unfold deriveParse
  rw [h1]
  cases t <;> rfl

theorem SpecifiedLength.parse_single (t : Tok) :
    SpecifiedLength.parse [t.lowerUnit] = SpecifiedLength.parse [t] := by
  cases t with
  | dimension v u => simp only [Tok.lowerUnit, SpecifiedLength.parse, toLower_toLower]
  | _ => rfl

theorem parsePercentage_single (t : Tok) :
    parsePercentage [t.lowerUnit] = parsePercentage [t] := by cases t <;> rfl

theorem parseNumber_single (t : Tok) : parseNumber [t.lowerUnit] = parseNumber [t] := by
  cases t <;> rfl

theorem lop_single (t : Tok) : SpecifiedLengthOrPercentage.parse [t.lowerUnit] =
    SpecifiedLengthOrPercentage.parse [t] := by
  refine deriveParse_single _ _ ?_ t
  intro p hp
  simp only [List.mem_cons, List.not_mem_nil, or_false] at hp
  rcases hp with rfl | rfl
  · exact map_single SpecifiedLength.parse_single
  · exact map_single parsePercentage_single

theorem lineWidth_single (t : Tok) : parseLineWidth [t.lowerUnit] = parseLineWidth [t] := by
  refine map_single (fun t => ?_) t
  refine deriveParse_single _ _ ?_ t
  intro p hp
  simp only [List.mem_cons, List.not_mem_nil, or_false] at hp
  subst hp
  exact map_single lop_single

theorem Longhand.parse_single (C : CssColors) (p : Longhand) (h : p ≠ .fontFamily) (t : Tok) :
    p.parse C [t.lowerUnit] = p.parse C [t] := by
  have hd : ∀ {α : Type} (units : List (String × α)),
      deriveParse [] units [t.lowerUnit] = deriveParse [] units [t] :=
    fun units => deriveParse_single [] units (fun p hp => absurd hp List.not_mem_nil) t
  have h2 : ∀ {α : Type} (f : SpecifiedLength → α) (g : ℚ → α) (units : List (String × α)),
      deriveParse [SpecifiedLength.parse.map f, parsePercentage.map g] units [t.lowerUnit] =
      deriveParse [SpecifiedLength.parse.map f, parsePercentage.map g] units [t] := by
    intro α f g units
    refine deriveParse_single _ _ ?_ t
    intro p hp
    simp only [List.mem_cons, List.not_mem_nil, or_false] at hp
    rcases hp with rfl | rfl
    · exact map_single SpecifiedLength.parse_single
    · exact map_single parsePercentage_single
  have h3 : SpecifiedLengthOrPercentageOrNumber.parse [t.lowerUnit] =
      SpecifiedLengthOrPercentageOrNumber.parse [t] := by
    refine deriveParse_single _ _ ?_ t
    intro p hp
    simp only [List.mem_cons, List.not_mem_nil, or_false] at hp
    rcases hp with rfl | rfl | rfl
    · exact map_single SpecifiedLength.parse_single
    · exact map_single parsePercentage_single
    · exact map_single parseNumber_single
  have h4 : TextAlign.parse [t.lowerUnit] = TextAlign.parse [t] := by
    refine deriveParse_single _ _ ?_ t
    intro p hp
    simp only [List.mem_cons, List.not_mem_nil, or_false] at hp
    subst hp
    exact map_single parsePercentage_single
  have h5 : CssColor.parse C [t.lowerUnit] = CssColor.parse C [t] := by cases t <;> rfl
  have h6 : Display.parse [t.lowerUnit] = Display.parse [t] := by cases t <;> rfl
  cases p <;> first
    | exact absurd rfl h
    | exact SpecifiedLength.parse_single t
    | exact h3
    | exact h4
    | exact h5
    | exact h6
    | exact lineWidth_single t
    | exact hd _
    | exact h2 _ _ _

theorem FourSides.caseless {α : Type} {p : P α} (h : p.Caseless) : (FourSides.parse p).Caseless := by
  intro ts
  unfold FourSides.parse
  rw [h ts]
  cases p ts with
  | none => rfl
  | some r1 =>
    simp only [Option.map_some]
    rw [h r1.2]
    cases p r1.2 with
    | none => rfl
    | some r2 =>
      simp only [Option.map_some]
      rw [h r2.2]
      cases p r2.2 with
      | none => rfl
      | some r3 =>
        simp only [Option.map_some]
        rw [h r3.2]
        cases p r3.2 with
        | none => rfl
        | some r4 => rfl

theorem LineStyle.caseless : LineStyle.parse.Caseless :=
  LineStyle.parse_one.caseless fun t =>
    deriveParse_single [] _ (fun _ hp => absurd hp List.not_mem_nil) t

theorem CssColor.caseless (C : CssColors) : (CssColor.parse C).Caseless :=
  (CssColor.parse_one C).caseless fun t => by cases t <;> rfl

theorem lineWidth_caseless : parseLineWidth.Caseless := parseLineWidth_one.caseless lineWidth_single

theorem BorderSide.step_caseless (C : CssColors) (v : BorderSide) (ts : List Tok) :
    v.step C (ts.map Tok.lowerUnit) =
      (v.step C ts).map fun r => (r.1, r.2.map Tok.lowerUnit) := by
  unfold BorderSide.step
  dsimp only
  rw [LineStyle.caseless ts, CssColor.caseless C ts, lineWidth_caseless ts]
  cases LineStyle.parse ts <;> cases CssColor.parse C ts <;> cases parseLineWidth ts <;>
    cases v.style <;> cases v.color <;> cases v.width <;> rfl

theorem BorderSide.loop_caseless (C : CssColors) (n : Nat) (v : BorderSide) (ts : List Tok) :
    BorderSide.loop C n v (ts.map Tok.lowerUnit) =
      ((BorderSide.loop C n v ts).1, (BorderSide.loop C n v ts).2.map Tok.lowerUnit) := by
  induction n generalizing v ts with
  | zero => rfl
  | succ n ih =>
    simp only [BorderSide.loop, BorderSide.step_caseless]
    cases v.step C ts with
    | none => rfl
    | some r => exact ih r.1 r.2

theorem BorderSide.caseless (C : CssColors) : (BorderSide.parse C).Caseless := by
  intro ts
  unfold BorderSide.parse
  dsimp only
  rw [BorderSide.loop_caseless]
  dsimp only
  split <;> rfl

theorem FontFamily.caseless : FontFamily.parse.Caseless := by
  intro ts
  match ts with
  | [] => rfl
  | _ :: _ :: _ => simp [FontFamily.parse]
  | [t] =>
    cases t with
    | ident s =>
      simp only [List.map_cons, List.map_nil, Tok.lowerUnit]
      cases h : FontFamily.parse [.ident s] with
      | none => rfl
      | some r =>
        change Option.map _ _ = some r at h
        obtain ⟨f, -, rfl⟩ := Option.map_eq_some_iff.1 h
        rfl
    | _ => rfl

theorem propertyTable_caseless (C : CssColors) (e : String × PropertyData) (h : e ∈ propertyTable C) :
    P.Caseless e.2.parse := by
  rw [propertyTable, List.mem_append] at h
  rcases h with h | h
  · obtain ⟨l, -, rfl⟩ := List.mem_map.1 h
    simp only [longhandData]
    obtain ⟨nm, l⟩ := l
    by_cases hl : l = .fontFamily
    · subst hl
      exact FontFamily.caseless.map _
    · exact ((Longhand.parse_one C l hl).caseless (Longhand.parse_single C l hl)).map _
  · have hc := fun q hq => (Longhand.parse_one C q hq).caseless (Longhand.parse_single C q hq)
    simp only [shorthandTable, List.mem_cons, List.not_mem_nil, or_false] at h
    rcases h with h | h | h | h | h | h | h | h | h | h | h <;> subst h <;>
      simp only [shorthandData]
    · exact (FourSides.caseless (hc .marginTop (by simp))).map _
    · exact (FourSides.caseless (hc .paddingTop (by simp))).map _
    · exact (FourSides.caseless LineStyle.caseless).map _
    · exact (FourSides.caseless (CssColor.caseless C)).map _
    · exact (FourSides.caseless lineWidth_caseless).map _
    · exact (BorderSide.caseless C).map _
    · exact (BorderSide.caseless C).map _
    · exact (BorderSide.caseless C).map _
    · exact (BorderSide.caseless C).map _
    · exact (BorderSide.caseless C).map _
    · exact (CssColor.caseless C).map _

theorem tryImportant_caseless (ts : List Tok) : tryImportant (ts.map Tok.lowerUnit) =
    ((tryImportant ts).1, (tryImportant ts).2.map Tok.lowerUnit) := by
  have h : parseImportant (ts.map Tok.lowerUnit) =
      (parseImportant ts).map fun r => (r.1, r.2.map Tok.lowerUnit) := by
    match ts with
    | [] => rfl
    | [t] => cases t <;> simp [Tok.lowerUnit, parseImportant]
    | t :: t' :: ts =>
      cases t with
      | delim c =>
        by_cases hc : c = '!'
        · subst hc
          cases t' with
          | ident s =>
            simp only [List.map_cons, Tok.lowerUnit, parseImportant]
            split <;> rfl
          | _ => rfl
        · simp only [List.map_cons, Tok.lowerUnit]
          have : ∀ l, parseImportant (.delim c :: l) = none := by
            intro l
            unfold parseImportant
            split
            · rename_i heq
              simp only [List.cons.injEq, Tok.delim.injEq] at heq
              exact absurd heq.1 hc
            · rfl
          rw [this, this]; rfl
      | _ => rfl
  unfold tryImportant
  rw [h]
  cases parseImportant ts <;> rfl

theorem entries_caseless (C : CssColors) (name : Text) (ts : List Tok) :
    (RawItem.decl name (ts.map Tok.lowerUnit)).entries? C = (RawItem.decl name ts).entries? C := by
  simp only [RawItem.entries?]
  cases hd : propertyDataByName C name with
  | none => rfl
  | some data =>
    obtain ⟨e, he, -, rfl⟩ := propertyDataByName_mem hd
    have hw : CssWideKeyword.parse.Caseless := CssWideKeyword.parse_one.caseless fun t =>
      deriveParse_single [] _ (fun p hp => absurd hp List.not_mem_nil) t
    have hp : parseDecls e.2 (ts.map Tok.lowerUnit) =
        (parseDecls e.2 ts).map fun r => (r.1, r.2.map Tok.lowerUnit) := by
      unfold parseDecls
      rw [hw ts]
      cases CssWideKeyword.parse ts with
      | none => exact propertyTable_caseless C e he ts
      | some r => rfl
    simp only [hp]
    cases parseDecls e.2 ts with
    | none => rfl
    | some r =>
      simp only [Option.map_some, tryImportant_caseless]
      cases (tryImportant r.2).2 <;> rfl

/-- **C30** Property names and units can be written in any letter case.  Missing: keywords,
which have to be in lower case. -/
theorem C30_partial (C : CssColors) (name name' : Text) (ts ts' : List Tok)
    (hn : name.map Char.toLower = name'.map Char.toLower)
    (ht : ts.map Tok.lowerUnit = ts'.map Tok.lowerUnit) :
    (∀ b, Block.parse C [.decl name ts] = .ok b →
      ∃ b', Block.parse C [.decl name' ts'] = .ok b' ∧ b'.entries = b.entries) := by
  intro b hb
  have h1 := Block.parse_single hb
  rw [← entries_caseless, ht, entries_caseless] at h1
  have h2 : (RawItem.decl name' ts').entries? C = some b.entries := by
    simp only [RawItem.entries?, propertyDataByName, hn] at h1 ⊢
    exact h1
  exact Block.parse_single' h2

example : (Block.parse noColors [.decl "Margin-TOP".toList [.dimension 3 "PX".toList]]).toOption.map
    (·.declarations) = some [.value .marginTop (.length (.absolute 3))] := by rfl

/-- **C30** The names of generic font families can be written in any letter case. -/
theorem C30_generic (C : CssColors) (s s' : Text) (h : s.map Char.toLower = s'.map Char.toLower)
    (hg : s.map Char.toLower ∈ ["sans-serif", "serif", "cursive", "fantasy", "monospace"].map
      String.toList) (f : FontFamily) :
    Sets C "font-family".toList [.ident s] [.value .fontFamily f] ↔
      Sets C "font-family".toList [.ident s'] [.value .fontFamily f] := by
  have hd : propertyDataByName C "font-family".toList = some (longhandData C .fontFamily) :=
    propertyDataByName_longhand' C (by decide +kernel)
  have hno : ∀ t : Text, t.map Char.toLower ∈ ["sans-serif", "serif", "cursive", "fantasy",
      "monospace"].map String.toList → CssWideKeyword.parse [.ident t] = none := by
    intro t ht
    cases hk : CssWideKeyword.parse [.ident t] with
    | none => rfl
    | some r =>
      obtain ⟨u, hu, he⟩ := cssWide_ident hk
      simp only [Tok.ident.injEq] at he
      subst he
      simp only [List.mem_cons, List.not_mem_nil, or_false] at hu
      rcases hu with rfl | rfl | rfl <;> exact absurd ht (by decide +kernel)
  rw [parse_value_iff hd, parse_value_iff hd, hno s hg, hno s' (h ▸ hg)]
  simp only [true_and]
  have : FontFamily.parse [.ident s] = FontFamily.parse [.ident s'] := by
    simp only [List.map_cons, List.map_nil, List.mem_cons, List.not_mem_nil, or_false] at hg
    simp only [FontFamily.parse, ← h]
    rcases hg with hg | hg | hg | hg | hg <;> rw [hg] <;> rfl
  have e : ∀ ts, Longhand.parse C .fontFamily ts = FontFamily.parse ts := fun _ => rfl
  rw [e, e, this]

/-! ### C62 -/

/-- Keywords in the documentation and their meaning. -/
def documentedKeywords : List (String × String × Decl) :=
  [("margin-top", "auto", .value .marginTop .auto), ("margin-right", "auto", .value .marginRight .auto),
   ("margin-bottom", "auto", .value .marginBottom .auto),
   ("margin-left", "auto", .value .marginLeft .auto),
   ("font-family", "sans-serif", .value .fontFamily .genericSans),
   ("font-family", "serif", .value .fontFamily .genericSerif),
   ("font-family", "monospace", .value .fontFamily .genericMonospace),
   ("font-style", "normal", .value .fontStyle .normal),
   ("font-style", "italic", .value .fontStyle .italic),
   ("font-style", "oblique", .value .fontStyle .oblique),
   ("font-weight", "normal", .value .fontWeight .normal),
   ("font-weight", "bold", .value .fontWeight .bold),
   ("line-height", "normal", .cssWide .lineHeight .initial),
   ("text-align", "left", .value .textAlign .left), ("text-align", "right", .value .textAlign .right),
   ("text-align", "center", .value .textAlign .center),
   ("vertical-align", "baseline", .value .verticalAlign .baseline),
   ("vertical-align", "sub", .value .verticalAlign .sub),
   ("vertical-align", "super", .value .verticalAlign .super),
   ("vertical-align", "middle", .value .verticalAlign .middle),
   ("white-space", "normal", .value .whiteSpace .normal),
   ("white-space", "nowrap", .value .whiteSpace .nowrap),
   ("white-space", "pre", .value .whiteSpace .pre),
   ("border-top-style", "solid", .value .borderTopStyle .solid),
   ("border-top-style", "dashed", .value .borderTopStyle .dashed),
   ("border-top-style", "dotted", .value .borderTopStyle .dotted),
   ("border-top-width", "thin", .value .borderTopWidth (.length (.absolute 1))),
   ("border-top-width", "medium", .value .borderTopWidth (.length (.absolute 3))),
   ("border-top-width", "thick", .value .borderTopWidth (.length (.absolute 5))),
   ("border-right-width", "thin", .value .borderRightWidth (.length (.absolute 1))),
   ("border-right-width", "medium", .value .borderRightWidth (.length (.absolute 3))),
   ("border-right-width", "thick", .value .borderRightWidth (.length (.absolute 5))),
   ("border-bottom-width", "thin", .value .borderBottomWidth (.length (.absolute 1))),
   ("border-bottom-width", "medium", .value .borderBottomWidth (.length (.absolute 3))),
   ("border-bottom-width", "thick", .value .borderBottomWidth (.length (.absolute 5))),
   ("border-left-width", "thin", .value .borderLeftWidth (.length (.absolute 1))),
   ("border-left-width", "medium", .value .borderLeftWidth (.length (.absolute 3))),
   ("border-left-width", "thick", .value .borderLeftWidth (.length (.absolute 5)))]

/-- The full claim: all documented keywords are accepted with their meaning. -/
def C62_full : Prop := ∀ (C : CssColors) (name kw : String) (d : Decl),
  (name, kw, d) ∈ documentedKeywords → Accepted C name.toList [.ident kw.toList]

/-- **C62** is false: `line-height: normal` is dropped. -/
theorem C62_full_false : ¬ C62_full := by
  intro h
  obtain ⟨b, hb, hne⟩ := h noColors "line-height" "normal" (.cssWide .lineHeight .initial)
    (by simp [documentedKeywords])
  have hd : propertyDataByName noColors "line-height".toList =
      some (longhandData noColors .lineHeight) :=
    propertyDataByName_longhand' noColors (by decide +kernel)
  have := Block.parse_single hb
  have e0 : (RawItem.decl "line-height".toList [.ident "normal".toList]).entries? noColors =
      some [] := by
    simp only [RawItem.entries?, hd]
    rfl
  rw [e0] at this
  simp only [Option.some.injEq] at this
  exact hne this.symm

/-- **C62** All documented keywords except `line-height: normal` are accepted and mean what
the documentation says. -/
theorem C62_partial (C : CssColors) (name kw : String) (d : Decl)
    (h : (name, kw, d) ∈ documentedKeywords) (hne : name ≠ "line-height") :
    Sets C name.toList [.ident kw.toList] [d] := by
  simp only [documentedKeywords, List.mem_cons, List.not_mem_nil, or_false, Prod.mk.injEq] at h
  rcases h with h | h | h | h | h | h | h | h | h | h | h | h | h | h | h | h | h | h | h | h | h | h | h | h | h | h | h | h | h | h | h | h | h | h | h | h | h | h <;> obtain ⟨rfl, rfl, rfl⟩ := h
  all_goals first
    | exact absurd rfl hne
    | exact (parse_value_iff (propertyDataByName_longhand' C (by decide +kernel))).2
        ⟨rfl, rfl⟩

/-- **C62** Documented percentages, numbers and family names. -/
theorem C62_values (C : CssColors) (v : ℚ) (s : Text) :
    Sets C "margin-top".toList [.percentage v] [.value .marginTop (.percentage v)] ∧
    Sets C "margin-right".toList [.percentage v] [.value .marginRight (.percentage v)] ∧
    Sets C "margin-bottom".toList [.percentage v] [.value .marginBottom (.percentage v)] ∧
    Sets C "margin-left".toList [.percentage v] [.value .marginLeft (.percentage v)] ∧
    Sets C "padding-top".toList [.percentage v] [.value .paddingTop (.percentage v)] ∧
    Sets C "padding-right".toList [.percentage v] [.value .paddingRight (.percentage v)] ∧
    Sets C "padding-bottom".toList [.percentage v] [.value .paddingBottom (.percentage v)] ∧
    Sets C "padding-left".toList [.percentage v] [.value .paddingLeft (.percentage v)] ∧
    Sets C "text-align".toList [.percentage v] [.value .textAlign (.percentage v)] ∧
    Sets C "vertical-align".toList [.percentage v] [.value .verticalAlign (.percentage v)] ∧
    Sets C "line-height".toList [.percentage v] [.value .lineHeight (.percentage v)] ∧
    (v ≠ 0 → Sets C "line-height".toList [.number v] [.value .lineHeight (.number v)]) ∧
    Sets C "font-family".toList [.quoted s] [.value .fontFamily (.familyName s)] := by
  refine ⟨?_, ?_, ?_, ?_, ?_, ?_, ?_, ?_, ?_, ?_, ?_, ?_, ?_⟩
  case refine_12 =>
    intro hv
    refine (parse_value_iff (propertyDataByName_longhand' C (by decide +kernel))).2 ⟨rfl, ?_⟩
    simp [Longhand.parse, SpecifiedLengthOrPercentageOrNumber.parse, deriveParse,
      P.map, SpecifiedLength.parse, hv]
    rfl
  all_goals exact (parse_value_iff (propertyDataByName_longhand' C (by decide +kernel))).2 ⟨rfl, rfl⟩

example : (Block.parse noColors [.decl "line-height".toList [.number 2],
    .decl "font-family".toList [.quoted "Noto".toList]]).toOption.map (·.declarations) =
    some [.value .lineHeight (.number 2), .value .fontFamily (.familyName "Noto".toList)] := by rfl

end Sinab
