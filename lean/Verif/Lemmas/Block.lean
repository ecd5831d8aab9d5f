import Verif.Lemmas.Style

namespace Sinab

/-! ### Entries of the property table -/

structure PropertyData.Good (data : PropertyData) : Prop where
  nonempty : data.longhands ≠ []
  parse : ∀ ts decls parsed rest, data.parse ts = some ((decls, parsed), rest) →
    decls.map Decl.longhand = data.longhands ∧ parsed = shorthandPhases data.longhands

theorem P.map_eq_some {α β : Type} {f : α → β} {p : P α} {ts rest : List Tok} {b : β} :
    p.map f ts = some (b, rest) ↔ ∃ a, p ts = some (a, rest) ∧ f a = b := by
  unfold P.map
  cases h : p ts with
  | none => simp
  | some r =>
    obtain ⟨a, r⟩ := r
    simp only [Option.map_some, Option.some.injEq, Prod.mk.injEq]
    constructor
    · rintro ⟨h1, h2⟩
      exact ⟨a, ⟨rfl, h2⟩, h1⟩
    · rintro ⟨a', ⟨rfl, h2⟩, h3⟩
      exact ⟨h3, h2⟩

theorem longhandData_good (C : CssColors) (p : Longhand) : (longhandData C p).Good where
  nonempty := by simp [longhandData]
  parse ts decls parsed rest h := by
    simp only [longhandData] at h ⊢
    obtain ⟨v, -, h⟩ := P.map_eq_some.1 h
    simp only [Prod.mk.injEq] at h
    obtain ⟨rfl, rfl⟩ := h
    simp [Decl.longhand, shorthandPhases]

theorem shorthandData_good {α : Type} (ls : List Longhand) (p : P α) (decls : α → List Decl)
    (hne : ls ≠ []) (h : ∀ a, (decls a).map Decl.longhand = ls) :
    (shorthandData ls p decls).Good where
  nonempty := hne
  parse ts ds parsed rest h' := by
    simp only [shorthandData] at h' ⊢
    obtain ⟨v, -, h'⟩ := P.map_eq_some.1 h'
    simp only [Prod.mk.injEq] at h'
    obtain ⟨rfl, rfl⟩ := h'
    exact ⟨h v, rfl⟩

@[simp] theorem Decl.longhand_value (p : Longhand) (v : p.Spec) : (Decl.value p v).longhand = p := rfl
@[simp] theorem Decl.longhand_cssWide (p : Longhand) (k : CssWideKeyword) :
    (Decl.cssWide p k).longhand = p := rfl

@[simp] theorem orInitial_longhand (p : Longhand) (o : Option p.Spec) :
    (orInitial p o).longhand = p := by
  cases o <;> rfl

theorem propertyTable_good (C : CssColors) (e : String × PropertyData) (h : e ∈ propertyTable C) :
    e.2.Good := by
  rw [propertyTable, List.mem_append] at h
  rcases h with h | h
  · rw [List.mem_map] at h
    obtain ⟨l, -, rfl⟩ := h
    exact longhandData_good C l.2
  · simp only [shorthandTable, List.mem_cons, List.not_mem_nil, or_false] at h
    rcases h with h | h | h | h | h | h | h | h | h | h | h <;> subst h <;>
      refine shorthandData_good _ _ _ (by simp) ?_ <;> intro a <;> simp

theorem propertyDataByName_good {C : CssColors} {name : Text} {data : PropertyData}
    (h : propertyDataByName C name = some data) : data.Good := by
  unfold propertyDataByName at h
  cases hf : (propertyTable C).find? fun e => e.1.toList = name.map Char.toLower with
  | none => simp [hf] at h
  | some e =>
    simp only [hf, Option.map_some, Option.some.injEq] at h
    subst h
    exact propertyTable_good C e (List.mem_of_find?_eq_some hf)

theorem cssWidePhases_eq (ls : List Longhand) : cssWidePhases ls = shorthandPhases ls := by
  have h : ∀ (ls : List Longhand) (pp : PerPhase),
      ls.foldl (fun parsed l => if l.isEarly then { parsed with early := true }
        else { parsed with late := true }) pp =
      ⟨pp.early || ls.any (·.isEarly), pp.late || ls.any (!·.isEarly)⟩ := by
    intro ls
    induction ls with
    | nil => intro pp; simp
    | cons l ls ih =>
      intro pp
      simp only [List.foldl_cons, ih]
      cases hl : l.isEarly <;> simp [hl]
  rw [cssWidePhases, h]
  simp [shorthandPhases]

theorem parseDecls_good {C : CssColors} {name : Text} {data : PropertyData}
    (h : propertyDataByName C name = some data) {ts rest : List Tok} {decls : List Decl}
    {parsed : PerPhase} (hp : parseDecls data ts = some ((decls, parsed), rest)) :
    decls.map Decl.longhand = data.longhands ∧ parsed = shorthandPhases data.longhands ∧
      decls ≠ [] := by
  have hg := propertyDataByName_good h
  have key : decls.map Decl.longhand = data.longhands ∧ parsed = shorthandPhases data.longhands := by
    unfold parseDecls at hp
    split at hp
    · simp only [Option.some.injEq, Prod.mk.injEq] at hp
      obtain ⟨⟨rfl, rfl⟩, rfl⟩ := hp
      refine ⟨?_, cssWidePhases_eq _⟩
      rw [List.map_map]
      exact (List.map_congr_left fun _ _ => rfl).trans (List.map_id _)
    · exact hg.parse _ _ _ _ hp
  refine ⟨key.1, key.2, ?_⟩
  rintro rfl
  exact hg.nonempty key.1.symm

/-! ### Reading one item -/

/-- Result of one item on its own: the entries it adds, `none` if it aborts. -/
def RawItem.entries? (C : CssColors) : RawItem → Option (List (Decl × Bool))
  | .junk => some []
  | .decl name ts =>
    match propertyDataByName C name with
    | none => some []
    | some data =>
      match parseDecls data ts with
      | none => some []
      | some ((decls, _), ts) =>
        match (tryImportant ts).2 with
        | [] => some (decls.map fun d => (d, (tryImportant ts).1))
        | _ :: _ => none

/-- exact flags for a list of entries -/
def flagsOf (imp : Bool) (es : List (Decl × Bool)) : PerPhase :=
  ⟨es.any fun e => e.2 == imp && e.1.longhand.isEarly,
   es.any fun e => e.2 == imp && !e.1.longhand.isEarly⟩

/-- The invariant of blocks under construction. -/
structure Block.Inv (b : Block) : Prop where
  len : b.important.length = b.declarations.length
  anyImportant : b.anyImportant = flagsOf true b.entries
  anyNormal : b.anyNormal = flagsOf false b.entries

theorem Block.Inv.empty : Block.empty.Inv := ⟨rfl, rfl, rfl⟩

theorem PerPhase.ext' {a b : PerPhase} (h1 : a.early = b.early) (h2 : a.late = b.late) : a = b := by
  cases a; cases b; simp_all

theorem flagsOf_append (imp : Bool) (es fs : List (Decl × Bool)) :
    flagsOf imp (es ++ fs) = (flagsOf imp es).or (flagsOf imp fs) := by
  simp [flagsOf, PerPhase.or]

theorem PerPhase.or_false (a : PerPhase) : a.or ⟨false, false⟩ = a := by
  cases a; simp [PerPhase.or]

theorem flagsOf_map (imp imp' : Bool) (decls : List Decl) :
    flagsOf imp (decls.map fun d => (d, imp')) =
      if imp' = imp then shorthandPhases (decls.map Decl.longhand) else ⟨false, false⟩ := by
  cases imp <;> cases imp' <;>
    simp [flagsOf, shorthandPhases, List.any_map, Function.comp_def]

theorem zip_replicate (decls : List Decl) (imp : Bool) :
    decls.zip (List.replicate decls.length imp) = decls.map fun d => (d, imp) := by
  induction decls with
  | nil => rfl
  | cons d ds ih => simp [List.replicate_succ, ih]

theorem Block.parseItem_ok {C : CssColors} {b : Block} (hb : b.Inv) (i : RawItem)
    {es : List (Decl × Bool)} (h : i.entries? C = some es) :
    ∃ b', b.parseItem C i = .ok b' ∧ b'.entries = b.entries ++ es ∧ b'.Inv := by
  cases i with
  | junk =>
    simp only [RawItem.entries?, Option.some.injEq] at h
    subst h
    exact ⟨b, rfl, by simp, hb⟩
  | decl name ts =>
    simp only [RawItem.entries?] at h
    simp only [Block.parseItem, Block.parseValue]
    cases hd : propertyDataByName C name with
    | none =>
      simp only [hd, Option.some.injEq] at h
      subst h
      exact ⟨b, rfl, by simp, hb⟩
    | some data =>
      simp only [hd] at h ⊢
      cases hp : parseDecls data ts with
      | none =>
        simp only [hp, Option.some.injEq] at h
        subst h
        exact ⟨b, rfl, by simp, hb⟩
      | some r =>
        obtain ⟨⟨decls, parsed⟩, ts'⟩ := r
        simp only [hp] at h ⊢
        obtain ⟨hl, hpar, hne⟩ := parseDecls_good hd hp
        have hlen : decls.length > 0 := List.length_pos_iff.2 hne
        generalize tryImportant ts' = ai at h ⊢
        obtain ⟨imp, rest⟩ := ai
        cases rest with
        | cons t rest => simp at h
        | nil =>
          simp only [Option.some.injEq] at h
          subst h
          simp only [not_true, hlen, if_false, bind, Except.bind, pure, Except.pure]
          have he : (Block.mk (b.declarations ++ decls)
              (b.important ++ List.replicate decls.length imp)
              (if imp then b.anyImportant.or parsed else b.anyImportant)
              (if imp then b.anyNormal else b.anyNormal.or parsed)).entries
              = b.entries ++ decls.map fun d => (d, imp) := by
            simp only [Block.entries]
            rw [List.zip_append hb.len.symm, zip_replicate]
          refine ⟨_, rfl, he, ⟨by simp [hb.len], ?_, ?_⟩⟩
          · rw [he, flagsOf_append, ← hb.anyImportant, flagsOf_map, hl, ← hpar]
            cases imp <;> simp [PerPhase.or_false]
          · rw [he, flagsOf_append, ← hb.anyNormal, flagsOf_map, hl, ← hpar]
            cases imp <;> simp [PerPhase.or_false]

theorem Block.parseItem_error {C : CssColors} {b : Block} (i : RawItem)
    (h : i.entries? C = none) : b.parseItem C i = .error .assertion := by
  cases i with
  | junk => simp [RawItem.entries?] at h
  | decl name ts =>
    simp only [RawItem.entries?] at h
    simp only [Block.parseItem, Block.parseValue]
    cases hd : propertyDataByName C name with
    | none => simp [hd] at h
    | some data =>
      simp only [hd] at h ⊢
      cases hp : parseDecls data ts with
      | none => simp [hp] at h
      | some r =>
        obtain ⟨⟨decls, parsed⟩, ts'⟩ := r
        simp only [hp] at h ⊢
        obtain ⟨hl, hpar, hne⟩ := parseDecls_good hd hp
        have hlen : decls.length > 0 := List.length_pos_iff.2 hne
        generalize tryImportant ts' = ai at h ⊢
        obtain ⟨imp, rest⟩ := ai
        cases rest with
        | nil => simp at h
        | cons t rest =>
          simp only [not_true, hlen, if_false, bind, Except.bind]
          rw [if_neg]
          simp only [List.length_append]
          omega

/-! ### Reading a block -/

theorem Block.parseFrom_ok {C : CssColors} (items : List RawItem) {b b' : Block} (hb : b.Inv)
    (h : Block.parseFrom C b items = .ok b') :
    b'.Inv ∧ ∃ ess, items.mapM (RawItem.entries? C) = some ess ∧
      b'.entries = b.entries ++ ess.flatten := by
  induction items generalizing b with
  | nil =>
    simp only [Block.parseFrom, Except.ok.injEq] at h
    subst h
    exact ⟨hb, [], by simp, by simp⟩
  | cons i is ih =>
    simp only [Block.parseFrom, bind, Except.bind] at h
    cases hi : i.entries? C with
    | none => simp [Block.parseItem_error i hi] at h
    | some es =>
      obtain ⟨b1, h1, h2, h3⟩ := Block.parseItem_ok hb i hi
      simp only [h1] at h
      obtain ⟨h4, ess, h5, h6⟩ := ih h3 h
      refine ⟨h4, es :: ess, ?_, ?_⟩
      · simp [List.mapM_cons, hi, h5]
      · rw [h6, h2]; simp

theorem Block.parseFrom_total {C : CssColors} (items : List RawItem) {b : Block} (hb : b.Inv)
    {ess : List (List (Decl × Bool))} (h : items.mapM (RawItem.entries? C) = some ess) :
    ∃ b', Block.parseFrom C b items = .ok b' := by
  induction items generalizing b ess with
  | nil => exact ⟨b, rfl⟩
  | cons i is ih =>
    rw [List.mapM_cons] at h
    cases hi : i.entries? C with
    | none => simp [hi] at h
    | some es =>
      cases his : is.mapM (RawItem.entries? C) with
      | none => simp [hi, his] at h
      | some ess' =>
        obtain ⟨b1, h1, h2, h3⟩ := Block.parseItem_ok hb i hi
        obtain ⟨b', h'⟩ := ih h3 his
        exact ⟨b', by simp [Block.parseFrom, bind, Except.bind, h1, h']⟩

theorem Block.Parsed.inv {C : CssColors} {b : Block} (h : b.Parsed C) : b.Inv := by
  obtain ⟨items, h⟩ := h
  exact (Block.parseFrom_ok items Block.Inv.empty h).1

/-! ### The cascade over blocks -/

/-- normal (or important) declarations of a block -/
def Block.declsWith (b : Block) (imp : Bool) : List Decl :=
  (b.entries.filter fun e => e.2 = imp).map (·.1)

theorem foldl_entries (ph : Phase) (imp : Bool) (parent : Style) (es : List (Decl × Bool))
    (t : Style) :
    es.foldl (fun t di => if di.2 = imp then ph.cascade parent t di.1 else t) t =
      ((es.filter fun e => e.2 = imp).map (·.1)).foldl (ph.cascade parent) t := by
  induction es generalizing t with
  | nil => rfl
  | cons e es ih =>
    simp only [List.foldl_cons, ih]
    by_cases h : e.2 = imp <;> simp [h]

theorem cascade_noop (ph : Phase) (parent t : Style) (d : Decl)
    (h : match ph with | .early => d.longhand.isEarly = false | .late => d.longhand.isEarly = true) :
    ph.cascade parent t d = t := by
  cases ph
  · show d.ifEarlyCascadeInto parent t = t
    rw [Decl.early_eq parent t 0]; simp_all
  · show d.ifLateCascadeInto parent t = t
    rw [Decl.late_eq]; simp_all

theorem Block.cascade_eq {b : Block} (hb : b.Inv) (imp : Bool) (ph : Phase) (parent t : Style) :
    b.cascade imp (if imp then b.anyImportant else b.anyNormal) ph parent t =
      (b.declsWith imp).foldl (ph.cascade parent) t := by
  have hflags : (if imp then b.anyImportant else b.anyNormal) = flagsOf imp b.entries := by
    cases imp
    · exact hb.anyNormal
    · exact hb.anyImportant
  rw [hflags]
  unfold Block.cascade
  split
  · rw [foldl_entries]; rfl
  · rename_i h
    symm
    have hall : ∀ d ∈ b.declsWith imp, ∀ t, ph.cascade parent t d = t := by
      intro d hd t
      apply cascade_noop
      simp only [Block.declsWith, List.mem_map, List.mem_filter, decide_eq_true_eq] at hd
      obtain ⟨e, ⟨he, hi⟩, rfl⟩ := hd
      cases ph
      · simp only [Phase.select, flagsOf, List.any_eq_true, not_exists, not_and,
          Bool.and_eq_true, beq_iff_eq] at h
        simpa using h e he hi
      · simp only [Phase.select, flagsOf, List.any_eq_true, not_exists, not_and,
          Bool.and_eq_true, beq_iff_eq] at h
        simpa using h e he hi
    generalize b.declsWith imp = L at hall
    clear h
    induction L with
    | nil => rfl
    | cons d L ih =>
      simp only [List.foldl_cons]
      rw [hall d (by simp)]
      exact ih fun d hd => hall d (List.mem_cons_of_mem _ hd)

theorem Block.cascadeNormal_eq {b : Block} (hb : b.Inv) (ph : Phase) (parent t : Style) :
    b.cascadeNormal ph parent t = (b.declsWith false).foldl (ph.cascade parent) t :=
  Block.cascade_eq hb false ph parent t

theorem Block.cascadeImportant_eq {b : Block} (hb : b.Inv) (ph : Phase) (parent t : Style) :
    b.cascadeImportant ph parent t = (b.declsWith true).foldl (ph.cascade parent) t :=
  Block.cascade_eq hb true ph parent t

/-- all declarations in the order of the cascade -/
def Matching.decls (m : Matching) : List Decl :=
  m.ua.flatMap (·.declsWith false) ++ m.author.flatMap (·.declsWith false) ++
    m.author.flatMap (·.declsWith true) ++ m.ua.flatMap (·.declsWith true)

/-- all blocks come from the parser -/
def Matching.Inv (m : Matching) : Prop := ∀ b, b ∈ m.ua ∨ b ∈ m.author → b.Inv

theorem foldl_blocks (f : Style → Block → Style) (g : Block → List Decl) (ph : Phase)
    (parent : Style) (bs : List Block)
    (h : ∀ b ∈ bs, ∀ t, f t b = (g b).foldl (ph.cascade parent) t) (t : Style) :
    bs.foldl f t = (bs.flatMap g).foldl (ph.cascade parent) t := by
  induction bs generalizing t with
  | nil => rfl
  | cons b bs ih =>
    simp only [List.foldl_cons, List.flatMap_cons, List.foldl_append]
    rw [h b (by simp), ih fun b hb => h b (List.mem_cons_of_mem _ hb)]

theorem Matching.cascade_eq {m : Matching} (hm : m.Inv) (ph : Phase) (parent t : Style) :
    m.cascade ph parent t = m.decls.foldl (ph.cascade parent) t := by
  unfold Matching.cascade Matching.decls
  simp only [List.foldl_append]
  rw [foldl_blocks (fun t b => b.cascadeNormal ph parent t) (·.declsWith false) ph parent m.ua
      (fun b hb t => Block.cascadeNormal_eq (hm b (.inl hb)) ph parent t),
    foldl_blocks (fun t b => b.cascadeNormal ph parent t) (·.declsWith false) ph parent m.author
      (fun b hb t => Block.cascadeNormal_eq (hm b (.inr hb)) ph parent t),
    foldl_blocks (fun t b => b.cascadeImportant ph parent t) (·.declsWith true) ph parent m.author
      (fun b hb t => Block.cascadeImportant_eq (hm b (.inr hb)) ph parent t),
    foldl_blocks (fun t b => b.cascadeImportant ph parent t) (·.declsWith true) ph parent m.ua
      (fun b hb t => Block.cascadeImportant_eq (hm b (.inl hb)) ph parent t)]

/-! ### The computed value of every longhand -/

theorem Style.start_val (parent : Style) (p : Longhand) :
    (Style.start parent).val p = p.defaultValue parent := by
  unfold Style.start Longhand.defaultValue
  by_cases h : p.inherited = true
  · simp [h, (Longhand.inherited_iff p).1 h]
  · have h' : p ∉ inheritedLonghands := fun h' => h ((Longhand.inherited_iff p).2 h')
    simp [h, h']

theorem Style.new_none_val (parent : Option Style) (p : Longhand) :
    (Style.new parent none).val p =
      p.adjusted (Style.new parent none) (p.defaultValue (parent.getD Style.initial)) := by
  unfold Style.new
  dsimp only
  rw [adjusted_fixups, fixups_val, Style.start_val]

theorem Style.new_val (parent : Option Style) {m : Matching} (hm : m.Inv) (p : Longhand) :
    let s := Style.new parent (some m)
    let inh := parent.getD Style.initial
    s.val p = p.adjusted s ((m.decls.filterMap (Decl.at inh (s.val .fontSize) p)).getLast?.getD
      (p.defaultValue inh)) := by
  intro s inh
  have hs : s = ((m.decls.foldl (Phase.late.cascade inh)
      (m.decls.foldl (Phase.early.cascade inh) (Style.start inh)))).postCascadeFixups := by
    show Style.new parent (some m) = _
    unfold Style.new
    dsimp only
    rw [Matching.cascade_eq hm, Matching.cascade_eq hm]
  generalize hc : (m.decls.foldl (Phase.late.cascade inh)
      (m.decls.foldl (Phase.early.cascade inh) (Style.start inh))) = c at hs
  have hfs : s.val .fontSize =
      (m.decls.foldl (Phase.early.cascade inh) (Style.start inh)).val .fontSize := by
    rw [hs, fixups_val, ← hc]
    exact (foldl_late inh m.decls _ .fontSize).trans rfl
  rw [hs, adjusted_fixups, fixups_val, ← hs]
  congr 1
  rw [← hc, foldl_late]
  cases hp : p.isEarly
  · simp only [Bool.false_eq_true, if_false]
    rw [← hfs, foldl_early inh 0]
    simp [hp, Style.start_val]
  · simp only [if_true]
    rw [foldl_early inh (s.val .fontSize)]
    simp [hp, Style.start_val]

end Sinab
