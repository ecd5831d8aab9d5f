import Verif.Lemmas.Block

namespace Sinab

/-! ### Parsers that read one component -/

/-- reads exactly one component and does not look further -/
structure P.One {α : Type} (p : P α) : Prop where
  nil : p [] = none
  cons : ∀ t rest, p (t :: rest) = (p [t]).map fun r => (r.1, rest)

/-- fails at an exclamation mark -/
def P.NoBang {α : Type} (p : P α) : Prop := ∀ rest, p (.delim '!' :: rest) = none

theorem P.One.map {α β : Type} {p : P α} (h : p.One) (f : α → β) : (p.map f).One where
  nil := by simp [P.map, h.nil]
  cons t rest := by
    simp only [P.map]
    rw [h.cons t rest]
    cases p [t] <;> rfl

theorem P.NoBang.map {α β : Type} {p : P α} (h : p.NoBang) (f : α → β) : (p.map f).NoBang := by
  intro rest
  simp [P.map, h rest]

theorem findSome_one {α : Type} (fields : List (P α)) (h : ∀ p ∈ fields, P.One p) :
    fields.findSome? (fun p => p []) = none ∧ ∀ t rest, fields.findSome? (fun p => p (t :: rest)) =
      (fields.findSome? fun p => p [t]).map fun r => (r.1, rest) := by
  induction fields with
  | nil => simp
  | cons p ps ih =>
    obtain ⟨ih1, ih2⟩ := ih fun q hq => h q (List.mem_cons_of_mem _ hq)
    have hp := h p (by simp)
    refine ⟨by simp [hp.nil, ih1], ?_⟩
    intro t rest
    rw [List.findSome?_cons, List.findSome?_cons, hp.cons t rest]
    cases p [t] with
    | none => simpa using ih2 t rest
    | some r => rfl

theorem deriveParse_one {α : Type} (fields : List (P α)) (units : List (String × α))
    (h : ∀ p ∈ fields, P.One p) : (deriveParse fields units).One := by
  obtain ⟨h1, h2⟩ := findSome_one fields h
  constructor
  · simp [deriveParse, h1]
  · intro t rest
    simp only [deriveParse]
    rw [h2 t rest]
    cases fields.findSome? fun p => p [t] with
    | some r => rfl
    | none =>
      simp only [Option.map_none]
      cases t with
      | ident s =>
        simp only
        cases units.find? fun u => camelToKebab u.1 = s <;> rfl
      | _ => rfl

theorem deriveParse_one_nil {α : Type} (units : List (String × α)) :
    (deriveParse [] units).One := deriveParse_one _ _ fun _ hp => absurd hp List.not_mem_nil

theorem deriveParse_noBang {α : Type} (fields : List (P α)) (units : List (String × α))
    (h : ∀ p ∈ fields, P.NoBang p) : (deriveParse fields units).NoBang := by
  intro rest
  have : fields.findSome? (fun p => p (.delim '!' :: rest)) = none := by
    rw [List.findSome?_eq_none_iff]
    intro p hp
    exact h p hp rest
  simp [deriveParse, this]

theorem SpecifiedLength.parse_one : SpecifiedLength.parse.One where
  nil := rfl
  cons t rest := by
    cases t with
    | dimension v u =>
      simp only [SpecifiedLength.parse]
      repeat' split
      all_goals rfl
    | number v =>
      simp only [SpecifiedLength.parse]
      split <;> rfl
    | _ => rfl

theorem SpecifiedLength.parse_noBang : SpecifiedLength.parse.NoBang := fun _ => rfl

theorem parsePercentage_one : parsePercentage.One where
  nil := rfl
  cons t rest := by cases t <;> rfl

theorem parseNumber_one : parseNumber.One where
  nil := rfl
  cons t rest := by cases t <;> rfl

theorem CssColor.parse_one (C : CssColors) : (CssColor.parse C).One where
  nil := rfl
  cons t rest := by
    cases t with
    | hash s => simp only [CssColor.parse]; cases C.hash s <;> rfl
    | ident s => simp only [CssColor.parse]; cases C.keyword s <;> rfl
    | func n a => simp only [CssColor.parse]; cases C.function n a <;> rfl
    | _ => rfl

theorem Display.parse_one : Display.parse.One where
  nil := rfl
  cons t rest := by
    cases t with
    | ident s =>
      simp only [Display.parse]
      repeat' split
      all_goals rfl
    | _ => rfl

theorem SpecifiedLengthOrPercentage.parse_one : SpecifiedLengthOrPercentage.parse.One := by
  refine deriveParse_one _ _ fun p hp => ?_
  simp only [List.mem_cons, List.not_mem_nil, or_false] at hp
  rcases hp with rfl | rfl
  · exact SpecifiedLength.parse_one.map _
  · exact parsePercentage_one.map _

theorem SpecifiedLengthOrPercentageOrAuto.parse_one :
    SpecifiedLengthOrPercentageOrAuto.parse.One := by
  refine deriveParse_one _ _ fun p hp => ?_
  simp only [List.mem_cons, List.not_mem_nil, or_false] at hp
  rcases hp with rfl | rfl
  · exact SpecifiedLength.parse_one.map _
  · exact parsePercentage_one.map _

theorem SpecifiedVerticalAlign.parse_one : SpecifiedVerticalAlign.parse.One := by
  refine deriveParse_one _ _ fun p hp => ?_
  simp only [List.mem_cons, List.not_mem_nil, or_false] at hp
  rcases hp with rfl | rfl
  · exact SpecifiedLength.parse_one.map _
  · exact parsePercentage_one.map _

theorem SpecifiedLengthOrPercentageOrNumber.parse_one :
    SpecifiedLengthOrPercentageOrNumber.parse.One := by
  refine deriveParse_one _ _ fun p hp => ?_
  simp only [List.mem_cons, List.not_mem_nil, or_false] at hp
  rcases hp with rfl | rfl | rfl
  · exact SpecifiedLength.parse_one.map _
  · exact parsePercentage_one.map _
  · exact parseNumber_one.map _

theorem TextAlign.parse_one : TextAlign.parse.One := by
  refine deriveParse_one _ _ fun p hp => ?_
  simp only [List.mem_cons, List.not_mem_nil, or_false] at hp
  subst hp
  exact parsePercentage_one.map _

theorem parseLineWidth_one : parseLineWidth.One := by
  refine P.One.map (deriveParse_one _ _ fun p hp => ?_) _
  simp only [List.mem_cons, List.not_mem_nil, or_false] at hp
  subst hp
  exact SpecifiedLengthOrPercentage.parse_one.map _

theorem Longhand.parse_one (C : CssColors) (p : Longhand) (h : p ≠ .fontFamily) :
    (p.parse C).One := by
  cases p <;> first
    | exact absurd rfl h
    | exact SpecifiedLength.parse_one
    | exact CssColor.parse_one C
    | exact Display.parse_one
    | exact SpecifiedLengthOrPercentage.parse_one
    | exact SpecifiedLengthOrPercentageOrAuto.parse_one
    | exact SpecifiedLengthOrPercentageOrNumber.parse_one
    | exact SpecifiedVerticalAlign.parse_one
    | exact TextAlign.parse_one
    | exact parseLineWidth_one
    | exact deriveParse_one_nil _

theorem Longhand.parse_noBang (C : CssColors) (p : Longhand) (h : p ≠ .fontFamily) :
    (p.parse C).NoBang := by
  cases p <;> first
    | exact absurd rfl h
    | exact fun _ => rfl

/-! ### Parsers that are not affected by what follows -/

/-- The components read are themselves a complete value. -/
def P.Local {α : Type} (p : P α) : Prop := ∀ ts v rest, p ts = some (v, rest) →
  ∃ used, ts = used ++ rest ∧ used ≠ [] ∧ p used = some (v, [])

/-- A complete value is also read in front of an exclamation mark. -/
def P.Bang {α : Type} (p : P α) : Prop := ∀ ts v, p ts = some (v, []) →
  ∀ rest, p (ts ++ .delim '!' :: rest) = some (v, .delim '!' :: rest)

theorem P.Local.map {α β : Type} {p : P α} (h : p.Local) (f : α → β) : (p.map f).Local := by
  intro ts v rest hp
  obtain ⟨a, ha, rfl⟩ := P.map_eq_some.1 hp
  obtain ⟨used, h1, h2, h3⟩ := h ts a rest ha
  exact ⟨used, h1, h2, P.map_eq_some.2 ⟨a, h3, rfl⟩⟩

theorem P.Bang.map {α β : Type} {p : P α} (h : p.Bang) (f : α → β) : (p.map f).Bang := by
  intro ts v hp rest
  obtain ⟨a, ha, rfl⟩ := P.map_eq_some.1 hp
  exact P.map_eq_some.2 ⟨a, h ts a ha rest, rfl⟩

theorem P.One.some_iff {α : Type} {p : P α} (h : p.One) {ts rest : List Tok} {v : α} :
    p ts = some (v, rest) ↔ ∃ t, ts = t :: rest ∧ p [t] = some (v, []) := by
  cases ts with
  | nil => simp [h.nil]
  | cons t ts =>
    rw [h.cons]
    have hs := h.cons t []
    cases hp : p [t] with
    | none => simp [hp]
    | some r =>
      rw [hp] at hs
      simp only [Option.map_some, Option.some.injEq] at hs
      simp only [Option.map_some, Option.some.injEq, Prod.mk.injEq, List.cons.injEq]
      constructor
      · rintro ⟨rfl, rfl⟩
        exact ⟨t, ⟨rfl, rfl⟩, by rw [hp, hs]⟩
      · rintro ⟨t', ⟨rfl, rfl⟩, h'⟩
        rw [hp] at h'
        simp only [Option.some.injEq] at h'
        rw [h']
        exact ⟨rfl, rfl⟩

theorem P.One.local {α : Type} {p : P α} (h : p.One) : p.Local := by
  intro ts v rest hp
  obtain ⟨t, rfl, h'⟩ := h.some_iff.1 hp
  exact ⟨[t], rfl, by simp, h'⟩

theorem P.One.bang {α : Type} {p : P α} (h : p.One) : p.Bang := by
  intro ts v hp rest
  obtain ⟨t, rfl, h'⟩ := h.some_iff.1 hp
  exact h.some_iff.2 ⟨t, rfl, h'⟩

theorem P.One.none_of {α : Type} {p : P α} (h : p.One) {t : Tok} (hn : p [t] = none)
    (rest : List Tok) : p (t :: rest) = none := by
  rw [h.cons, hn]; rfl

theorem P.One.some_of {α : Type} {p : P α} (h : p.One) {t : Tok} {v : α} {r : List Tok}
    (hn : p [t] = some (v, r)) (rest : List Tok) : p (t :: rest) = some (v, rest) := by
  rw [h.cons, hn]; rfl

theorem FourSides.parse_local {α : Type} {p : P α} (h : p.One) : (FourSides.parse p).Local := by
  intro ts v rest hp
  unfold FourSides.parse at hp
  cases h1 : p ts with
  | none => simp [h1] at hp
  | some r1 =>
    obtain ⟨v1, ts1⟩ := r1
    obtain ⟨t1, rfl, k1⟩ := h.some_iff.1 h1
    simp only [h1] at hp
    cases h2 : p ts1 with
    | none =>
      simp only [h2, Option.some.injEq, Prod.mk.injEq] at hp
      obtain ⟨rfl, rfl⟩ := hp
      exact ⟨[t1], rfl, by simp, by simp [FourSides.parse, k1, h.nil]⟩
    | some r2 =>
      obtain ⟨v2, ts2⟩ := r2
      obtain ⟨t2, rfl, k2⟩ := h.some_iff.1 h2
      simp only [h2] at hp
      cases h3 : p ts2 with
      | none =>
        simp only [h3, Option.some.injEq, Prod.mk.injEq] at hp
        obtain ⟨rfl, rfl⟩ := hp
        exact ⟨[t1, t2], rfl, by simp, by
          simp [FourSides.parse, h.some_of k1, k2, h.nil]⟩
      | some r3 =>
        obtain ⟨v3, ts3⟩ := r3
        obtain ⟨t3, rfl, k3⟩ := h.some_iff.1 h3
        simp only [h3] at hp
        cases h4 : p ts3 with
        | none =>
          simp only [h4, Option.some.injEq, Prod.mk.injEq] at hp
          obtain ⟨rfl, rfl⟩ := hp
          exact ⟨[t1, t2, t3], rfl, by simp, by
            simp [FourSides.parse, h.some_of k1, h.some_of k2, k3, h.nil]⟩
        | some r4 =>
          obtain ⟨v4, ts4⟩ := r4
          obtain ⟨t4, rfl, k4⟩ := h.some_iff.1 h4
          simp only [h4, Option.some.injEq, Prod.mk.injEq] at hp
          obtain ⟨rfl, rfl⟩ := hp
          exact ⟨[t1, t2, t3, t4], rfl, by simp, by
            simp [FourSides.parse, h.some_of k1, h.some_of k2, h.some_of k3, k4]⟩

/-- complete readings of the four-sides grammar -/
theorem FourSides.parse_one {α : Type} {p : P α} (h : p.One) (t : Tok) (a : α)
    (ha : p [t] = some (a, [])) (rest : List Tok) (hr : p rest = none) :
    FourSides.parse p (t :: rest) = some (⟨a, a, a, a⟩, rest) := by
  simp [FourSides.parse, h.some_of ha, hr]

theorem FourSides.parse_two {α : Type} {p : P α} (h : p.One) (t t' : Tok) (a b : α)
    (ha : p [t] = some (a, [])) (hb : p [t'] = some (b, [])) (rest : List Tok) (hr : p rest = none) :
    FourSides.parse p (t :: t' :: rest) = some (⟨a, b, a, b⟩, rest) := by
  simp [FourSides.parse, h.some_of ha, h.some_of hb, hr]

theorem FourSides.parse_three {α : Type} {p : P α} (h : p.One) (t t' t'' : Tok) (a b c : α)
    (ha : p [t] = some (a, [])) (hb : p [t'] = some (b, [])) (hc : p [t''] = some (c, []))
    (rest : List Tok) (hr : p rest = none) :
    FourSides.parse p (t :: t' :: t'' :: rest) = some (⟨a, b, c, b⟩, rest) := by
  simp [FourSides.parse, h.some_of ha, h.some_of hb, h.some_of hc, hr]

theorem FourSides.parse_four {α : Type} {p : P α} (h : p.One) (t t' t'' t3 : Tok) (a b c d : α)
    (ha : p [t] = some (a, [])) (hb : p [t'] = some (b, [])) (hc : p [t''] = some (c, []))
    (hd : p [t3] = some (d, [])) (rest : List Tok) :
    FourSides.parse p (t :: t' :: t'' :: t3 :: rest) = some (⟨a, b, c, d⟩, rest) := by
  simp [FourSides.parse, h.some_of ha, h.some_of hb, h.some_of hc, h.some_of hd]

theorem FourSides.parse_bang {α : Type} {p : P α} (h : p.One) (hn : p.NoBang) :
    (FourSides.parse p).Bang := by
  intro ts v hp rest
  unfold FourSides.parse at hp
  cases h1 : p ts with
  | none => simp [h1] at hp
  | some r1 =>
    obtain ⟨v1, ts1⟩ := r1
    obtain ⟨t1, rfl, k1⟩ := h.some_iff.1 h1
    simp only [h1] at hp
    cases h2 : p ts1 with
    | none =>
      simp only [h2, Option.some.injEq, Prod.mk.injEq] at hp
      obtain ⟨rfl, rfl⟩ := hp
      exact FourSides.parse_one h _ _ k1 _ (hn rest)
    | some r2 =>
      obtain ⟨v2, ts2⟩ := r2
      obtain ⟨t2, rfl, k2⟩ := h.some_iff.1 h2
      simp only [h2] at hp
      cases h3 : p ts2 with
      | none =>
        simp only [h3, Option.some.injEq, Prod.mk.injEq] at hp
        obtain ⟨rfl, rfl⟩ := hp
        exact FourSides.parse_two h _ _ _ _ k1 k2 _ (hn rest)
      | some r3 =>
        obtain ⟨v3, ts3⟩ := r3
        obtain ⟨t3, rfl, k3⟩ := h.some_iff.1 h3
        simp only [h3] at hp
        cases h4 : p ts3 with
        | none =>
          simp only [h4, Option.some.injEq, Prod.mk.injEq] at hp
          obtain ⟨rfl, rfl⟩ := hp
          exact FourSides.parse_three h _ _ _ _ _ _ k1 k2 k3 _ (hn rest)
        | some r4 =>
          obtain ⟨v4, ts4⟩ := r4
          obtain ⟨t4, rfl, k4⟩ := h.some_iff.1 h4
          simp only [h4, Option.some.injEq, Prod.mk.injEq] at hp
          obtain ⟨rfl, rfl⟩ := hp
          exact FourSides.parse_four h _ _ _ _ _ _ _ _ k1 k2 k3 k4 _

/-! ### Border sides -/

theorem BorderSide.step_nil (C : CssColors) (v : BorderSide) : v.step C [] = none := by
  have h1 : LineStyle.parse [] = none := rfl
  have h2 : CssColor.parse C [] = none := rfl
  have h3 : parseLineWidth [] = none := rfl
  simp [BorderSide.step, h1, h2, h3]

theorem BorderSide.step_bang (C : CssColors) (v : BorderSide) (rest : List Tok) :
    v.step C (.delim '!' :: rest) = none := by
  have h1 : LineStyle.parse (.delim '!' :: rest) = none := rfl
  have h2 : CssColor.parse C (.delim '!' :: rest) = none := rfl
  have h3 : parseLineWidth (.delim '!' :: rest) = none := rfl
  simp [BorderSide.step, h1, h2, h3]

theorem LineStyle.parse_one : LineStyle.parse.One := deriveParse_one_nil _

theorem BorderSide.step_cons (C : CssColors) (v : BorderSide) (t : Tok) (rest : List Tok) :
    v.step C (t :: rest) = (v.step C [t]).map fun r => (r.1, rest) := by
  unfold BorderSide.step
  dsimp only
  rw [LineStyle.parse_one.cons t rest, (CssColor.parse_one C).cons t rest,
    parseLineWidth_one.cons t rest]
  cases LineStyle.parse [t] <;> cases CssColor.parse C [t] <;> cases parseLineWidth [t] <;>
    cases v.style <;> cases v.color <;> cases v.width <;> rfl

theorem BorderSide.step_some (C : CssColors) (v v' : BorderSide) (ts rest : List Tok) :
    v.step C ts = some (v', rest) ↔ ∃ t, ts = t :: rest ∧ v.step C [t] = some (v', []) := by
  have : P.One (fun ts => v.step C ts) := ⟨step_nil C v, step_cons C v⟩
  exact this.some_iff

theorem BorderSide.loop_local (C : CssColors) (n : Nat) (v : BorderSide) (ts : List Tok) :
    ∃ used, ts = used ++ (BorderSide.loop C n v ts).2 ∧
      BorderSide.loop C n v used = ((BorderSide.loop C n v ts).1, []) := by
  induction n generalizing v ts with
  | zero => exact ⟨[], rfl, rfl⟩
  | succ n ih =>
    cases hs : v.step C ts with
    | none =>
      refine ⟨[], ?_, ?_⟩
      · simp [BorderSide.loop, hs]
      · simp [BorderSide.loop, hs, BorderSide.step_nil]
    | some r =>
      obtain ⟨v', ts'⟩ := r
      obtain ⟨t, rfl, h1⟩ := (BorderSide.step_some C v v' ts ts').1 hs
      obtain ⟨used, h2, h3⟩ := ih v' ts'
      refine ⟨t :: used, ?_, ?_⟩
      · simp only [BorderSide.loop, hs]
        rw [List.cons_append, ← h2]
      · have := (BorderSide.step_some C v v' (t :: used) used).2 ⟨t, rfl, h1⟩
        simp only [BorderSide.loop, hs, this, h3]

theorem BorderSide.loop_bang (C : CssColors) (n : Nat) (v v' : BorderSide) (ts : List Tok)
    (h : BorderSide.loop C n v ts = (v', [])) (rest : List Tok) :
    BorderSide.loop C n v (ts ++ .delim '!' :: rest) = (v', .delim '!' :: rest) := by
  induction n generalizing v ts with
  | zero =>
    simp only [BorderSide.loop, Prod.mk.injEq] at h ⊢
    obtain ⟨rfl, rfl⟩ := h
    exact ⟨rfl, rfl⟩
  | succ n ih =>
    simp only [BorderSide.loop] at h
    cases hs : v.step C ts with
    | none =>
      simp only [hs, Prod.mk.injEq] at h
      obtain ⟨rfl, rfl⟩ := h
      simp [BorderSide.loop, BorderSide.step_bang]
    | some r =>
      obtain ⟨v1, ts1⟩ := r
      obtain ⟨t, rfl, h1⟩ := (BorderSide.step_some C v v1 ts ts1).1 hs
      simp only [hs] at h
      have := (BorderSide.step_some C v v1 (t :: (ts1 ++ .delim '!' :: rest)) _).2 ⟨t, rfl, h1⟩
      simp only [List.cons_append, BorderSide.loop, this]
      exact ih v1 ts1 h

theorem BorderSide.parse_local (C : CssColors) : (BorderSide.parse C).Local := by
  intro ts v rest h
  unfold BorderSide.parse at h
  dsimp only at h
  split at h
  · cases h
  · rename_i hne
    simp only [Option.some.injEq] at h
    obtain ⟨used, h1, h2⟩ := BorderSide.loop_local C 3 ⟨none, none, none⟩ ts
    rw [h] at h1 h2 hne
    refine ⟨used, h1, ?_, ?_⟩
    · rintro rfl
      simp only [BorderSide.loop, BorderSide.step_nil, Prod.mk.injEq, and_true] at h2
      exact hne h2.symm
    · unfold BorderSide.parse
      dsimp only
      rw [h2, if_neg hne]

theorem BorderSide.parse_bang (C : CssColors) : (BorderSide.parse C).Bang := by
  intro ts v h rest
  unfold BorderSide.parse at h ⊢
  dsimp only at h ⊢
  split at h
  · cases h
  · rename_i hne
    simp only [Option.some.injEq] at h
    rw [h] at hne
    rw [BorderSide.loop_bang C 3 _ v ts h rest, if_neg hne]

/-- number of unset fields -/
def BorderSide.unset (v : BorderSide) : Nat :=
  (if v.style.isNone then 1 else 0) + (if v.color.isNone then 1 else 0) +
    (if v.width.isNone then 1 else 0)

theorem BorderSide.step_unset (C : CssColors) (v v' : BorderSide) (ts rest : List Tok)
    (h : v.step C ts = some (v', rest)) : v'.unset + 1 = v.unset := by
  unfold BorderSide.step at h
  dsimp only at h
  obtain ⟨s, c, w⟩ := v
  cases s <;> cases c <;> cases w <;> simp only [Option.isNone_none, Option.isNone_some, if_true,
    Bool.false_eq_true, if_false] at h <;> (repeat' split at h) <;>
    first
      | (cases h; done)
      | (simp only [Option.some.injEq, Prod.mk.injEq] at h; obtain ⟨rfl, -⟩ := h; simp [BorderSide.unset])

/-- Three rounds of the loop are enough: more rounds give the same result. -/
theorem BorderSide.loop_fuel (C : CssColors) (n : Nat) (v : BorderSide) (ts : List Tok)
    (h : v.unset ≤ n) : BorderSide.loop C n v ts = BorderSide.loop C v.unset v ts := by
  induction n generalizing v ts with
  | zero =>
    have : v.unset = 0 := by omega
    rw [this]
  | succ n ih =>
    cases hs : v.step C ts with
    | none =>
      have h1 : ∀ m, BorderSide.loop C m v ts = (v, ts) := by
        intro m; cases m <;> simp [BorderSide.loop, hs]
      rw [h1, h1]
    | some r =>
      obtain ⟨v', ts'⟩ := r
      have hu := BorderSide.step_unset C v v' ts ts' hs
      rw [← hu]
      simp only [BorderSide.loop, hs]
      exact ih v' ts' (by omega)

/-! ### Kinds of border components -/

/-- component `t` can be read as this part -/
def RawPart (C : CssColors) (t : Tok) : BorderPart → Prop
  | .style s => LineStyle.parse [t] = some (s, [])
  | .color c => CssColor.parse C [t] = some (c, [])
  | .width w => parseLineWidth [t] = some (w, [])

theorem P.One.single {α : Type} {p : P α} (h : p.One) {t : Tok} {r : α × List Tok}
    (hr : p [t] = some r) : r.2 = [] := by
  obtain ⟨v, rest⟩ := r
  obtain ⟨t', h1, -⟩ := h.some_iff.1 hr
  simp only [List.cons.injEq] at h1
  exact h1.2.symm

theorem LineStyle.parse_ident {t : Tok} {r : LineStyle × List Tok} (h : LineStyle.parse [t] = some r) :
    ∃ s ∈ ["none", "solid", "dotted", "dashed"], t = .ident (String.toList s) := by
  unfold LineStyle.parse deriveParse at h
  simp only [List.findSome?_nil] at h
  cases t with
  | ident s =>
    simp only [Option.map_eq_some_iff] at h
    obtain ⟨u, hu, -⟩ := h
    have h1 := List.find?_some hu
    have h2 := List.mem_of_find?_eq_some hu
    simp only [decide_eq_true_eq] at h1
    subst h1
    simp only [List.mem_cons, List.not_mem_nil, or_false] at h2
    rcases h2 with rfl | rfl | rfl | rfl
    · exact ⟨"none", by simp, by decide +kernel⟩
    · exact ⟨"solid", by simp, by decide +kernel⟩
    · exact ⟨"dotted", by simp, by decide +kernel⟩
    · exact ⟨"dashed", by simp, by decide +kernel⟩
  | _ => cases h

theorem SpecifiedLengthOrPercentage.parse_ident (s : Text) :
    SpecifiedLengthOrPercentage.parse [.ident s] = none := rfl

theorem parseLineWidth_tok {t : Tok} {r : SpecifiedLineWidth × List Tok}
    (h : parseLineWidth [t] = some r) :
    (∃ s ∈ ["thin", "medium", "thick"], t = .ident (String.toList s)) ∨
    (∃ v, t = .number v) ∨ (∃ v, t = .percentage v) ∨ ∃ v u, t = .dimension v u := by
  cases t with
  | ident s =>
    left
    obtain ⟨w, rest⟩ := r
    obtain ⟨a, ha, -⟩ := P.map_eq_some.1 h
    unfold ParsedLineWidth.parse deriveParse at ha
    have hf : [P.map ParsedLineWidth.other SpecifiedLengthOrPercentage.parse].findSome?
        (fun p => p [Tok.ident s]) = none := rfl
    simp only [hf, Option.map_eq_some_iff] at ha
    obtain ⟨u, hu, -⟩ := ha
    have h1 := List.find?_some hu
    have h2 := List.mem_of_find?_eq_some hu
    simp only [decide_eq_true_eq] at h1
    subst h1
    simp only [List.mem_cons, List.not_mem_nil, or_false] at h2
    rcases h2 with rfl | rfl | rfl
    · exact ⟨"thin", by simp, by decide +kernel⟩
    · exact ⟨"medium", by simp, by decide +kernel⟩
    · exact ⟨"thick", by simp, by decide +kernel⟩
  | number v => exact .inr (.inl ⟨v, rfl⟩)
  | percentage v => exact .inr (.inr (.inl ⟨v, rfl⟩))
  | dimension v u => exact .inr (.inr (.inr ⟨v, u, rfl⟩))
  | _ => cases h

theorem style_not_color {C : CssColors} (hC : C.Sane) {t : Tok} {r : LineStyle × List Tok}
    (h : LineStyle.parse [t] = some r) : CssColor.parse C [t] = none := by
  obtain ⟨s, hs, rfl⟩ := LineStyle.parse_ident h
  have : C.keyword s.toList = none := hC s (by
    simp only [List.mem_cons, List.not_mem_nil, or_false] at hs ⊢; tauto)
  simp [CssColor.parse, this]

theorem style_not_width {t : Tok} {r : LineStyle × List Tok}
    (h : LineStyle.parse [t] = some r) : parseLineWidth [t] = none := by
  obtain ⟨s, hs, rfl⟩ := LineStyle.parse_ident h
  simp only [List.mem_cons, List.not_mem_nil, or_false] at hs
  rcases hs with rfl | rfl | rfl | rfl <;> decide +kernel

theorem width_not_color {C : CssColors} (hC : C.Sane) {t : Tok} {r : SpecifiedLineWidth × List Tok}
    (h : parseLineWidth [t] = some r) : CssColor.parse C [t] = none := by
  rcases parseLineWidth_tok h with ⟨s, hs, rfl⟩ | ⟨v, rfl⟩ | ⟨v, rfl⟩ | ⟨v, u, rfl⟩
  · have : C.keyword s.toList = none := hC s (by
      simp only [List.mem_cons, List.not_mem_nil, or_false] at hs ⊢; tauto)
    simp [CssColor.parse, this]
  all_goals rfl

def BorderSide.add (v : BorderSide) : BorderPart → BorderSide
  | .style s => { v with style := some s }
  | .color c => { v with color := some c }
  | .width w => { v with width := some w }

def BorderSide.lacks (v : BorderSide) : Fin 3 → Prop
  | 0 => v.style = none
  | 1 => v.color = none
  | 2 => v.width = none

theorem BorderSide.step_part {C : CssColors} (hC : C.Sane) {v : BorderSide} {t : Tok}
    {part : BorderPart} (h : RawPart C t part) (hl : v.lacks part.kind) :
    v.step C [t] = some (v.add part, []) := by
  cases part with
  | style s =>
    simp only [BorderPart.kind, BorderSide.lacks] at hl
    simp only [RawPart] at h
    simp [BorderSide.step, hl, h, BorderSide.add]
  | color c =>
    simp only [BorderPart.kind, BorderSide.lacks] at hl
    simp only [RawPart] at h
    have h1 : LineStyle.parse [t] = none := by
      cases hs : LineStyle.parse [t] with
      | none => rfl
      | some r => rw [style_not_color hC hs] at h; cases h
    simp [BorderSide.step, hl, h, h1, BorderSide.add]
  | width w =>
    simp only [BorderPart.kind, BorderSide.lacks] at hl
    simp only [RawPart] at h
    have h1 : LineStyle.parse [t] = none := by
      cases hs : LineStyle.parse [t] with
      | none => rfl
      | some r => rw [style_not_width hs] at h; cases h
    have h2 := width_not_color hC h
    simp [BorderSide.step, hl, h, h1, h2, BorderSide.add]

theorem BorderSide.step_is_part {C : CssColors} {v v' : BorderSide} {t : Tok}
    (h : v.step C [t] = some (v', [])) :
    ∃ part, RawPart C t part ∧ v.lacks part.kind ∧ v' = v.add part := by
  unfold BorderSide.step at h
  dsimp only at h
  have hw : ∀ v' : BorderSide, (if v.width.isNone = true then
      match parseLineWidth [t] with
      | some (w, rest) => some ({ v with width := some w }, rest)
      | none => none
      else none) = some (v', []) →
      ∃ part, RawPart C t part ∧ v.lacks part.kind ∧ v' = v.add part := by
    intro v' h
    split at h
    · rename_i hn
      cases hp : parseLineWidth [t] with
      | none => simp [hp] at h
      | some r =>
        obtain ⟨w, rest⟩ := r
        simp only [hp, Option.some.injEq, Prod.mk.injEq] at h
        obtain ⟨rfl, rfl⟩ := h
        exact ⟨.width w, hp, by simpa [BorderSide.lacks, BorderPart.kind] using hn, rfl⟩
    · cases h
  have hc : ∀ v' : BorderSide, (if v.color.isNone = true then
      match CssColor.parse C [t] with
      | some (c, rest) => some ({ v with color := some c }, rest)
      | none => if v.width.isNone = true then
        match parseLineWidth [t] with
        | some (w, rest) => some ({ v with width := some w }, rest)
        | none => none
        else none
      else if v.width.isNone = true then
        match parseLineWidth [t] with
        | some (w, rest) => some ({ v with width := some w }, rest)
        | none => none
        else none) = some (v', []) →
      ∃ part, RawPart C t part ∧ v.lacks part.kind ∧ v' = v.add part := by
    intro v' h
    split at h
    · rename_i hn
      cases hp : CssColor.parse C [t] with
      | none => rw [hp] at h; exact hw v' h
      | some r =>
        obtain ⟨c, rest⟩ := r
        simp only [hp, Option.some.injEq, Prod.mk.injEq] at h
        obtain ⟨rfl, rfl⟩ := h
        exact ⟨.color c, hp, by simpa [BorderSide.lacks, BorderPart.kind] using hn, rfl⟩
    · exact hw v' h
  split at h
  · rename_i hn
    cases hp : LineStyle.parse [t] with
    | none => rw [hp] at h; exact hc v' h
    | some r =>
      obtain ⟨s, rest⟩ := r
      simp only [hp, Option.some.injEq, Prod.mk.injEq] at h
      obtain ⟨rfl, rfl⟩ := h
      exact ⟨.style s, hp, by simpa [BorderSide.lacks, BorderPart.kind] using hn, rfl⟩
  · exact hc v' h

theorem BorderSide.lacks_add {v : BorderSide} {part : BorderPart} {k : Fin 3}
    (h : v.lacks k) (hk : part.kind ≠ k) : (v.add part).lacks k := by
  match k with
  | 0 => cases part <;> simp_all [BorderSide.lacks, BorderSide.add, BorderPart.kind]
  | 1 => cases part <;> simp_all [BorderSide.lacks, BorderSide.add, BorderPart.kind]
  | 2 => cases part <;> simp_all [BorderSide.lacks, BorderSide.add, BorderPart.kind]

theorem BorderSide.not_lacks_add {v : BorderSide} {part : BorderPart} {k : Fin 3}
    (h : (v.add part).lacks k) : v.lacks k ∧ part.kind ≠ k := by
  match k with
  | 0 => cases part <;> simp_all [BorderSide.lacks, BorderSide.add, BorderPart.kind]
  | 1 => cases part <;> simp_all [BorderSide.lacks, BorderSide.add, BorderPart.kind]
  | 2 => cases part <;> simp_all [BorderSide.lacks, BorderSide.add, BorderPart.kind]

theorem BorderSide.loop_parts {C : CssColors} (hC : C.Sane) (n : Nat) {v : BorderSide}
    {ts : List Tok} {parts : List BorderPart} (h : List.Forall₂ (RawPart C) ts parts)
    (hnd : (parts.map BorderPart.kind).Nodup) (hl : ∀ part ∈ parts, v.lacks part.kind)
    (hn : parts.length ≤ n) :
    BorderSide.loop C n v ts = (parts.foldl BorderSide.add v, []) := by
  induction h generalizing v n with
  | nil => cases n <;> simp [BorderSide.loop, BorderSide.step_nil]
  | @cons t part ts parts h _ ih =>
    cases n with
    | zero => simp at hn
    | succ n =>
      have hs := (BorderSide.step_some C v (v.add part) (t :: ts) ts).2
        ⟨t, rfl, BorderSide.step_part hC h (hl part (by simp))⟩
      simp only [BorderSide.loop, hs, List.foldl_cons]
      simp only [List.map_cons, List.nodup_cons, List.mem_map, not_exists, not_and] at hnd
      apply ih n hnd.2
      · intro q hq
        exact BorderSide.lacks_add (hl q (List.mem_cons_of_mem _ hq)) fun he => hnd.1 q hq he.symm
      · simpa using hn

theorem BorderSide.loop_is_parts {C : CssColors} (n : Nat) {v v' : BorderSide} {ts : List Tok}
    (h : BorderSide.loop C n v ts = (v', [])) :
    ∃ parts, List.Forall₂ (RawPart C) ts parts ∧ (parts.map BorderPart.kind).Nodup ∧
      (∀ part ∈ parts, v.lacks part.kind) ∧ v' = parts.foldl BorderSide.add v := by
  induction n generalizing v ts with
  | zero =>
    simp only [BorderSide.loop, Prod.mk.injEq] at h
    obtain ⟨rfl, rfl⟩ := h
    exact ⟨[], .nil, by simp, by simp, rfl⟩
  | succ n ih =>
    simp only [BorderSide.loop] at h
    cases hs : v.step C ts with
    | none =>
      simp only [hs, Prod.mk.injEq] at h
      obtain ⟨rfl, rfl⟩ := h
      exact ⟨[], .nil, by simp, by simp, rfl⟩
    | some r =>
      obtain ⟨v1, ts1⟩ := r
      simp only [hs] at h
      obtain ⟨t, rfl, h1⟩ := (BorderSide.step_some C v v1 ts ts1).1 hs
      obtain ⟨part, h2, h3, rfl⟩ := BorderSide.step_is_part h1
      obtain ⟨parts, k1, k2, k3, k4⟩ := ih h
      refine ⟨part :: parts, .cons h2 k1, ?_, ?_, k4⟩
      · simp only [List.map_cons, List.nodup_cons, List.mem_map, not_exists, not_and]
        exact ⟨fun q hq he => (BorderSide.not_lacks_add (k3 q hq)).2 he.symm, k2⟩
      · intro q hq
        rcases List.mem_cons.1 hq with rfl | hq
        · exact h3
        · exact (BorderSide.not_lacks_add (k3 q hq)).1

theorem foldl_add (parts : List BorderPart) (v : BorderSide)
    (hnd : (parts.map BorderPart.kind).Nodup) (hl : ∀ part ∈ parts, v.lacks part.kind) :
    parts.foldl BorderSide.add v = ⟨v.style.or (parts.findSome? BorderPart.style?),
      v.color.or (parts.findSome? BorderPart.color?),
      v.width.or (parts.findSome? BorderPart.width?)⟩ := by
  induction parts generalizing v with
  | nil => simp
  | cons part parts ih =>
    simp only [List.map_cons, List.nodup_cons, List.mem_map, not_exists, not_and] at hnd
    rw [List.foldl_cons, ih _ hnd.2 fun q hq =>
      BorderSide.lacks_add (hl q (List.mem_cons_of_mem _ hq)) fun he => hnd.1 q hq he.symm]
    have := hl part (by simp)
    clear ih hnd hl
    cases part <;> simp only [BorderSide.lacks, BorderPart.kind] at this <;>
      simp [BorderSide.add, List.findSome?_cons, BorderPart.style?, BorderPart.color?, BorderPart.width?, this]

/-! ### Table entries -/

theorem FontFamily.parse_local : FontFamily.parse.Local := by
  intro ts v rest h
  match ts with
  | [] => cases h
  | t :: _ :: _ => simp [FontFamily.parse] at h
  | [t] =>
    obtain ⟨o, ho⟩ : ∃ o : Option FontFamily, FontFamily.parse [t] = o.map fun f => (f, []) :=
      ⟨_, rfl⟩
    have hr : rest = [] := by
      rw [ho] at h
      cases o with
      | none => cases h
      | some f =>
        simp only [Option.map_some, Option.some.injEq, Prod.mk.injEq] at h
        exact h.2.symm
    subst hr
    exact ⟨[t], rfl, by simp, h⟩

theorem longhandData_local {C : CssColors} {l : Longhand} (h : P.Local (l.parse C)) :
    P.Local (longhandData C l).parse := by
  unfold longhandData; dsimp only; exact h.map _

theorem longhandData_bang {C : CssColors} {l : Longhand} (h : P.Bang (l.parse C)) :
    P.Bang (longhandData C l).parse := by
  unfold longhandData; dsimp only; exact h.map _

theorem shorthandData_local {α : Type} {ls : List Longhand} {p : P α} {f : α → List Decl}
    (h : p.Local) : P.Local (shorthandData ls p f).parse := by
  unfold shorthandData; dsimp only; exact h.map _

theorem shorthandData_bang {α : Type} {ls : List Longhand} {p : P α} {f : α → List Decl}
    (h : p.Bang) : P.Bang (shorthandData ls p f).parse := by
  unfold shorthandData; dsimp only; exact h.map _

theorem CssWideKeyword.parse_one : CssWideKeyword.parse.One := deriveParse_one_nil _

theorem propertyTable_local (C : CssColors) (e : String × PropertyData) (h : e ∈ propertyTable C) :
    P.Local e.2.parse := by
  rw [propertyTable, List.mem_append] at h
  rcases h with h | h
  · obtain ⟨l, -, rfl⟩ := List.mem_map.1 h
    by_cases hl : l.2 = .fontFamily
    · apply longhandData_local
      rw [hl]
      exact FontFamily.parse_local
    · exact longhandData_local (Longhand.parse_one C l.2 hl).local
  · simp only [shorthandTable, List.mem_cons, List.not_mem_nil, or_false] at h
    rcases h with h | h | h | h | h | h | h | h | h | h | h <;> subst h
    · exact shorthandData_local (FourSides.parse_local SpecifiedLengthOrPercentageOrAuto.parse_one)
    · exact shorthandData_local (FourSides.parse_local SpecifiedLengthOrPercentage.parse_one)
    · exact shorthandData_local (FourSides.parse_local LineStyle.parse_one)
    · exact shorthandData_local (FourSides.parse_local (CssColor.parse_one C))
    · exact shorthandData_local (FourSides.parse_local parseLineWidth_one)
    · exact shorthandData_local (BorderSide.parse_local C)
    · exact shorthandData_local (BorderSide.parse_local C)
    · exact shorthandData_local (BorderSide.parse_local C)
    · exact shorthandData_local (BorderSide.parse_local C)
    · exact shorthandData_local (BorderSide.parse_local C)
    · exact shorthandData_local (CssColor.parse_one C).local

theorem propertyTable_bang (C : CssColors) (e : String × PropertyData) (h : e ∈ propertyTable C)
    (hf : e.1 ≠ "font-family") : P.Bang e.2.parse := by
  rw [propertyTable, List.mem_append] at h
  rcases h with h | h
  · obtain ⟨l, hm, rfl⟩ := List.mem_map.1 h
    have hl : l.2 ≠ .fontFamily := by
      have : ∀ l ∈ longhandNames, l.2 = .fontFamily → l.1 = "font-family" := by decide
      exact fun h => hf (this l hm h)
    exact longhandData_bang (Longhand.parse_one C l.2 hl).bang
  · simp only [shorthandTable, List.mem_cons, List.not_mem_nil, or_false] at h
    rcases h with h | h | h | h | h | h | h | h | h | h | h <;> subst h
    · exact shorthandData_bang (FourSides.parse_bang SpecifiedLengthOrPercentageOrAuto.parse_one fun _ => rfl)
    · exact shorthandData_bang (FourSides.parse_bang SpecifiedLengthOrPercentage.parse_one fun _ => rfl)
    · exact shorthandData_bang (FourSides.parse_bang LineStyle.parse_one fun _ => rfl)
    · exact shorthandData_bang (FourSides.parse_bang (CssColor.parse_one C) fun _ => rfl)
    · exact shorthandData_bang (FourSides.parse_bang parseLineWidth_one fun _ => rfl)
    · exact shorthandData_bang (BorderSide.parse_bang C)
    · exact shorthandData_bang (BorderSide.parse_bang C)
    · exact shorthandData_bang (BorderSide.parse_bang C)
    · exact shorthandData_bang (BorderSide.parse_bang C)
    · exact shorthandData_bang (BorderSide.parse_bang C)
    · exact shorthandData_bang (CssColor.parse_one C).bang

theorem find?_key {β : Type} (L : List (String × β)) (hnd : (L.map (·.1)).Nodup)
    {e : String × β} (he : e ∈ L) {name : Text} (h : e.1.toList = name) :
    L.find? (fun x => x.1.toList = name) = some e := by
  induction L with
  | nil => simp at he
  | cons x L ih =>
    simp only [List.map_cons, List.nodup_cons, List.mem_map, not_exists, not_and] at hnd
    rw [List.find?_cons]
    rcases List.mem_cons.1 he with rfl | he
    · simp [h]
    · have : x.1.toList ≠ name := by
        intro hx
        rw [← h] at hx
        exact hnd.1 e he (String.toList_inj.1 hx).symm
      simp only [this, decide_false]
      exact ih hnd.2 he

/-- the names of all properties, as in the table -/
def tableNames : List String := longhandNames.map (·.1) ++
  ["margin", "padding", "border-style", "border-color", "border-width", "border-top",
   "border-right", "border-bottom", "border-left", "border", "background"]

theorem tableNames_nodup : tableNames.Nodup := by decide +kernel

theorem propertyTable_names (C : CssColors) : (propertyTable C).map (·.1) = tableNames := by
  simp only [propertyTable, tableNames, List.map_append, List.map_map, shorthandTable]
  rfl

theorem propertyDataByName_of_mem {C : CssColors} {e : String × PropertyData}
    (he : e ∈ propertyTable C) {name : Text} (h : e.1.toList = name.map Char.toLower) :
    propertyDataByName C name = some e.2 := by
  unfold propertyDataByName
  rw [find?_key (propertyTable C) (by rw [propertyTable_names]; exact tableNames_nodup) he h]
  rfl

theorem propertyDataByName_longhand (C : CssColors) {nm : String} {l : Longhand}
    (hm : (nm, l) ∈ longhandNames) {name : Text} (h : name.map Char.toLower = nm.toList) :
    propertyDataByName C name = some (longhandData C l) :=
  propertyDataByName_of_mem (e := (nm, longhandData C l))
    (List.mem_append_left _ (List.mem_map.2 ⟨(nm, l), hm, rfl⟩)) h.symm

theorem propertyDataByName_longhand' (C : CssColors) {nm : String} {l : Longhand}
    (hm : (nm, l) ∈ longhandNames ∧ nm.toList.map Char.toLower = nm.toList) :
    propertyDataByName C nm.toList = some (longhandData C l) :=
  propertyDataByName_longhand C hm.1 hm.2

theorem propertyDataByName_shorthand (C : CssColors) {nm : String} {data : PropertyData}
    (hm : (nm, data) ∈ shorthandTable C) {name : Text} (h : name.map Char.toLower = nm.toList) :
    propertyDataByName C name = some data :=
  propertyDataByName_of_mem (e := (nm, data)) (List.mem_append_right _ hm) h.symm

theorem propertyDataByName_mem {C : CssColors} {name : Text} {data : PropertyData}
    (h : propertyDataByName C name = some data) :
    ∃ e ∈ propertyTable C, e.1.toList = name.map Char.toLower ∧ e.2 = data := by
  unfold propertyDataByName at h
  cases hf : (propertyTable C).find? fun e => e.1.toList = name.map Char.toLower with
  | none => simp [hf] at h
  | some e =>
    simp only [hf, Option.map_some, Option.some.injEq] at h
    exact ⟨e, List.mem_of_find?_eq_some hf, by simpa using List.find?_some hf, h⟩

theorem parseDecls_local {C : CssColors} {name : Text} {data : PropertyData}
    (h : propertyDataByName C name = some data) : P.Local (parseDecls data) := by
  obtain ⟨e, he, -, rfl⟩ := propertyDataByName_mem h
  intro ts v rest hp
  unfold parseDecls at hp
  cases hk : CssWideKeyword.parse ts with
  | some r =>
    obtain ⟨k, r⟩ := r
    simp only [hk, Option.some.injEq, Prod.mk.injEq] at hp
    obtain ⟨rfl, rfl⟩ := hp
    obtain ⟨used, h1, h2, h3⟩ := CssWideKeyword.parse_one.local ts k r hk
    exact ⟨used, h1, h2, by simp [parseDecls, h3]⟩
  | none =>
    simp only [hk] at hp
    obtain ⟨used, h1, h2, h3⟩ := propertyTable_local C e he ts v rest hp
    refine ⟨used, h1, h2, ?_⟩
    have : CssWideKeyword.parse used = none := by
      cases used with
      | nil => exact absurd rfl h2
      | cons t us =>
        subst h1
        rw [List.cons_append, CssWideKeyword.parse_one.cons] at hk
        rw [CssWideKeyword.parse_one.cons]
        cases h : CssWideKeyword.parse [t] with
        | none => rfl
        | some r => simp [h] at hk
    simp [parseDecls, this, h3]

theorem parseDecls_bang {C : CssColors} {name : Text} {data : PropertyData}
    (h : propertyDataByName C name = some data) (ts : List Tok) (v : List Decl × PerPhase)
    (hp : parseDecls data ts = some (v, []))
    (hf : name.map Char.toLower ≠ "font-family".toList ∨ (CssWideKeyword.parse ts).isSome)
    (rest : List Tok) :
    parseDecls data (ts ++ .delim '!' :: rest) = some (v, .delim '!' :: rest) := by
  obtain ⟨e, he, hn, rfl⟩ := propertyDataByName_mem h
  unfold parseDecls at hp
  cases hk : CssWideKeyword.parse ts with
  | some r =>
    obtain ⟨k, r⟩ := r
    simp only [hk, Option.some.injEq, Prod.mk.injEq] at hp
    obtain ⟨rfl, rfl⟩ := hp
    simp [parseDecls, CssWideKeyword.parse_one.bang ts k hk]
  | none =>
    simp only [hk] at hp
    have hne : e.1 ≠ "font-family" := by
      rcases hf with hf | hf
      · intro he'
        rw [he'] at hn
        exact hf hn.symm
      · simp [hk] at hf
    have := propertyTable_bang C e he hne ts v hp rest
    have hkk : CssWideKeyword.parse (ts ++ .delim '!' :: rest) = none := by
      cases ts with
      | nil => rfl
      | cons t us =>
        rw [CssWideKeyword.parse_one.cons] at hk
        rw [List.cons_append, CssWideKeyword.parse_one.cons]
        cases h : CssWideKeyword.parse [t] with
        | none => rfl
        | some r => simp [h] at hk
    simp [parseDecls, hkk, this]

/-! ### Blocks of one declaration -/

theorem Block.parse_single {C : CssColors} {i : RawItem} {b : Block}
    (h : Block.parse C [i] = .ok b) : i.entries? C = some b.entries := by
  obtain ⟨-, ess, h1, h2⟩ := Block.parseFrom_ok [i] Block.Inv.empty h
  rw [List.mapM_cons] at h1
  cases hi : i.entries? C with
  | none => simp [hi] at h1
  | some es =>
    simp [hi] at h1
    subst h1
    simpa [Block.entries, Block.empty] using h2.symm

theorem Block.parse_single' {C : CssColors} {i : RawItem} {es : List (Decl × Bool)}
    (h : i.entries? C = some es) : ∃ b, Block.parse C [i] = .ok b ∧ b.entries = es := by
  obtain ⟨b, h1, h2, -⟩ := Block.parseItem_ok Block.Inv.empty i h
  refine ⟨b, ?_, by simpa [Block.entries, Block.empty] using h2⟩
  simp [Block.parse, Block.parseFrom, bind, Except.bind, h1]

theorem Block.parseItem_dropped {C : CssColors} {i : RawItem} (h : i.entries? C = some [])
    (b : Block) : b.parseItem C i = .ok b := by
  cases i with
  | junk => rfl
  | decl name ts =>
    simp only [RawItem.entries?] at h
    simp only [Block.parseItem, Block.parseValue]
    cases hd : propertyDataByName C name with
    | none => rfl
    | some data =>
      simp only [hd] at h ⊢
      cases hp : parseDecls data ts with
      | none => rfl
      | some r =>
        obtain ⟨⟨decls, parsed⟩, ts'⟩ := r
        simp only [hp] at h
        obtain ⟨-, -, hne⟩ := parseDecls_good hd hp
        split at h
        · simp only [Option.some.injEq, List.map_eq_nil_iff] at h
          exact absurd h hne
        · cases h

theorem Block.parseFrom_append {C : CssColors} (is js : List RawItem) (b : Block) :
    Block.parseFrom C b (is ++ js) = (Block.parseFrom C b is).bind fun b => Block.parseFrom C b js := by
  induction is generalizing b with
  | nil => rfl
  | cons i is ih =>
    simp only [List.cons_append, Block.parseFrom, bind, Except.bind]
    cases b.parseItem C i with
    | error e => rfl
    | ok b' => exact ih b'

theorem Block.parse_dropped {C : CssColors} {i : RawItem} (h : i.entries? C = some [])
    (pre post : List RawItem) :
    Block.parse C (pre ++ i :: post) = Block.parse C (pre ++ post) := by
  unfold Block.parse
  rw [Block.parseFrom_append, Block.parseFrom_append]
  congr 1
  funext b
  simp only [Block.parseFrom, Block.parseItem_dropped h, bind, Except.bind]

end Sinab
