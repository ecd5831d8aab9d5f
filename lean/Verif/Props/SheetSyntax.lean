import Verif.Spec.SheetSyntax
import Verif.Props.Values
import Verif.Model.Render

/-! C86: the syntax of style sheets; errors are contained. -/

namespace Sinab

open SheetReader

variable {S : SelectorEngine} (R : SheetReader S)

/-! ### Cutting at delimiters -/

theorem untilBefore_stop {stop : Comp → Bool} {pre : List Comp} (h : ∀ c ∈ pre, stop c = false) {c : Comp}
    (hc : stop c = true) (cs : List Comp) : untilBefore stop (pre ++ c :: cs) = (pre, c :: cs) := by
  induction pre with
  | nil => simp [untilBefore, hc]
  | cons a pre ih =>
    have ha := h a List.mem_cons_self
    simp only [List.cons_append, untilBefore, ha, Bool.false_eq_true, if_false,
      ih fun c hc => h c (List.mem_cons_of_mem _ hc)]

theorem untilBefore_end {stop : Comp → Bool} {pre : List Comp} (h : ∀ c ∈ pre, stop c = false) :
    untilBefore stop pre = (pre, []) := by
  induction pre with
  | nil => rfl
  | cons a pre ih =>
    have ha := h a List.mem_cons_self
    simp only [untilBefore, ha, Bool.false_eq_true, if_false, ih fun c hc => h c (List.mem_cons_of_mem _ hc)]

/-- every list is cut somewhere, or nowhere -/
theorem untilBefore_cases (stop : Comp → Bool) (cs : List Comp) :
    (∀ c ∈ cs, stop c = false) ∨ ∃ pre c rest, cs = pre ++ c :: rest ∧ (∀ c ∈ pre, stop c = false) ∧ stop c = true := by
  induction cs with
  | nil => exact .inl (by simp)
  | cons a cs ih =>
    cases ha : stop a with
    | true => exact .inr ⟨[], a, cs, rfl, by simp, ha⟩
    | false =>
      rcases ih with h | ⟨pre, c, rest, rfl, h1, h2⟩
      · left
        intro c hc
        rcases List.mem_cons.1 hc with rfl | hc
        · exact ha
        · exact h c hc
      · refine .inr ⟨a :: pre, c, rest, rfl, ?_, h2⟩
        intro c hc
        rcases List.mem_cons.1 hc with rfl | hc
        · exact ha
        · exact h1 c hc

theorem noSemicolon_iff (cs : List Comp) : NoSemicolon cs ↔ ∀ c ∈ cs, c.isSemicolon = false := by
  constructor
  · intro h c hc
    cases c <;> first | rfl | exact absurd hc h
  · intro h hc
    exact absurd (h _ hc) (by simp [Comp.isSemicolon])

theorem noCurly_iff (cs : List Comp) : NoCurly cs ↔ ∀ c ∈ cs, c.isCurly = false := by
  constructor
  · intro h c hc
    cases c <;> first | rfl | exact absurd hc (h _)
  · intro h b hc
    exact absurd (h _ hc) (by simp [Comp.isCurly])

theorem noEnd_iff (cs : List Comp) : (NoSemicolon cs ∧ NoCurly cs) ↔
    ∀ c ∈ cs, (c.isSemicolon || c.isCurly) = false := by
  rw [noSemicolon_iff, noCurly_iff]
  simp only [Bool.or_eq_false_iff]
  exact ⟨fun h c hc => ⟨h.1 c hc, h.2 c hc⟩, fun h => ⟨fun c hc => (h c hc).1, fun c hc => (h c hc).2⟩⟩

theorem isSemicolon_eq {c : Comp} (h : c.isSemicolon = true) : c = .semicolon := by
  cases c <;> first | rfl | cases h

theorem isCurly_eq {c : Comp} (h : c.isCurly = true) : ∃ b, c = .curly b := by
  cases c <;> first | exact ⟨_, rfl⟩ | cases h

/-- an at-rule is skipped -/
theorem atRule_skip {cs : List Comp} (h : AtRule cs) (rest : List Comp) :
    ∃ name tl, cs ++ rest = .atKeyword name :: tl ∧ afterAtRule tl = rest := by
  cases h with
  | semicolon name h1 h2 =>
    refine ⟨name, _, by simp only [List.cons_append, List.append_assoc]; rfl, ?_⟩
    simp only [afterAtRule, untilAfter, List.nil_append]
    rw [untilBefore_stop ((noEnd_iff _).1 ⟨h1, h2⟩) (by rfl)]
    rfl
  | block name b h1 h2 =>
    refine ⟨name, _, by simp only [List.cons_append, List.append_assoc]; rfl, ?_⟩
    simp only [afterAtRule, untilAfter, List.nil_append]
    rw [untilBefore_stop ((noEnd_iff _).1 ⟨h1, h2⟩) (by rfl)]
    rfl

theorem atRule_open_skip {cs : List Comp} (h : AtRuleOpen cs) :
    ∃ name tl, cs = .atKeyword name :: tl ∧ afterAtRule tl = [] := by
  cases h with
  | mk name h1 h2 =>
    refine ⟨name, _, rfl, ?_⟩
    simp only [afterAtRule, untilAfter]
    rw [untilBefore_end ((noEnd_iff _).1 ⟨h1, h2⟩)]
    rfl

/-- after an at-keyword there is an at-rule, possibly cut off -/
theorem atRule_exists (name : Text) (cs : List Comp) :
    AtRuleOpen (.atKeyword name :: cs) ∨ ∃ p rest, .atKeyword name :: cs = p ++ rest ∧ AtRule p ∧
      rest.length < cs.length + 1 := by
  rcases untilBefore_cases (fun c => c.isSemicolon || c.isCurly) cs with h | ⟨pre, c, rest, rfl, h1, h2⟩
  · obtain ⟨h1, h2⟩ := (noEnd_iff _).2 h
    exact .inl (.mk name h1 h2)
  · obtain ⟨k1, k2⟩ := (noEnd_iff _).2 h1
    right
    rcases Bool.or_eq_true_iff.1 h2 with h | h
    · cases isSemicolon_eq h
      exact ⟨_, rest, by simp, .semicolon name k1 k2, by simp; omega⟩
    · obtain ⟨b, rfl⟩ := isCurly_eq h
      exact ⟨_, rest, by simp, .block name b k1 k2, by simp; omega⟩

/-! ### Values -/

theorem blank_iff (c : Comp) : c.Blank ↔ c.skipped = true := by
  constructor
  · rintro (_ | _) <;> rfl
  · intro h
    cases c <;> first | exact .space | exact .comment | cases h

/-- **C86** The tokens of a value are its components without blanks. -/
theorem C86_value (v : List Comp) (ts : List Tok) : R.value v = ts ↔ ValueTokens R.other v ts := by
  constructor
  · rintro rfl
    induction v with
    | nil => exact .nil
    | cons c v ih =>
      cases c with
      | space => exact .blank .space ih
      | comment => exact .blank .comment ih
      | tok t => exact .tok t ih
      | _ => exact .block (by rw [blank_iff]; simp [Comp.skipped]) (by simp) ih
  · intro h
    induction h with
    | nil => rfl
    | blank h _ ih => cases h <;> exact ih
    | tok t _ ih => simp only [SheetReader.value, ih]
    | @block c cs ts h1 h2 _ ih =>
      cases c with
      | space => exact absurd .space h1
      | comment => exact absurd .comment h1
      | tok t => exact absurd rfl (h2 t)
      | _ => simp only [SheetReader.value, ih]

/-! ### Declarations -/

theorem expectColon_gap {gap : List Comp} (h : ∀ c ∈ gap, c.Blank) (v : List Comp) :
    expectColon (gap ++ .colon :: v) = some v := by
  induction gap with
  | nil => rfl
  | cons c gap ih =>
    have := h c List.mem_cons_self
    cases this <;> exact ih fun c hc => h c (List.mem_cons_of_mem _ hc)

theorem expectColon_some {v w : List Comp} (h : expectColon v = some w) :
    ∃ gap, (∀ c ∈ gap, c.Blank) ∧ v = gap ++ .colon :: w := by
  induction v with
  | nil => cases h
  | cons c v ih =>
    cases c with
    | space =>
      obtain ⟨gap, h1, rfl⟩ := ih h
      exact ⟨.space :: gap, by simpa using ⟨Comp.Blank.space, h1⟩, rfl⟩
    | comment =>
      obtain ⟨gap, h1, rfl⟩ := ih h
      exact ⟨.comment :: gap, by simpa using ⟨Comp.Blank.comment, h1⟩, rfl⟩
    | colon => cases h; exact ⟨[], by simp, rfl⟩
    | _ => cases h

/-- the declarations among the items -/
def RawItem.decl? : RawItem → Option (Text × List Tok)
  | .decl name ts => some (name, ts)
  | .junk => none

/-- the items of a body and what follows: the declaration, then the items of what follows the semicolon -/
theorem itemsFrom_body {cs : List Comp} {d : Option (Text × List Comp)} (h : DeclBody cs d) (k : Nat)
    (tl : List Comp) (rest : List Comp)
    (ht : ∀ v : List Comp, NoSemicolon v → untilAfter Comp.isSemicolon (v ++ tl) = (v, rest)) :
    (R.itemsFrom (k + 1) (cs ++ tl)).filterMap RawItem.decl? =
      (d.toList.map fun d => (d.1, R.value d.2)) ++ (R.itemsFrom k rest).filterMap RawItem.decl? := by
  cases h with
  | @decl name gap v h1 h2 =>
    have h3 : NoSemicolon (gap ++ .colon :: v) := by
      intro hm
      simp only [List.mem_append, List.mem_cons] at hm
      rcases hm with hm | hm | hm
      · cases h1 _ hm
      · cases hm
      · exact h2 hm
    have h4 := ht _ h3
    simp only [List.cons_append, SheetReader.itemsFrom]
    rw [h4]
    simp only [expectColon_gap h1]
    rfl
  | @noColon name v h1 h2 =>
    have h4 := ht _ h1
    simp only [List.cons_append, SheetReader.itemsFrom]
    rw [h4]
    cases hv : expectColon v with
    | some w =>
      obtain ⟨gap, k1, k2⟩ := expectColon_some hv
      exact absurd k2 (h2 gap w k1)
    | none => rfl
  | @other c v h1 h2 h3 h4 h5 =>
    have h6 := ht _ h5
    cases c with
    | space => exact absurd .space h1
    | comment => exact absurd .comment h1
    | semicolon => exact absurd rfl h2
    | atKeyword n => exact absurd rfl (h3 n)
    | tok t =>
      cases t with
      | ident n => exact absurd rfl (h4 n)
      | _ => simp only [List.cons_append, SheetReader.itemsFrom, h6]; rfl
    | _ => simp only [List.cons_append, SheetReader.itemsFrom, h6]; rfl

theorem body_length {cs : List Comp} {d : Option (Text × List Comp)} (h : DeclBody cs d) : 0 < cs.length := by
  cases h <;> simp

theorem itemsFrom_rest {t : List Comp} {d : Option (Text × List Comp)} (h : DeclRest t d) (k : Nat)
    (hk : t.length < k) :
    (R.itemsFrom k t).filterMap RawItem.decl? = d.toList.map fun d => (d.1, R.value d.2) := by
  obtain ⟨k, rfl⟩ : ∃ j, k = j + 1 := ⟨k - 1, by omega⟩
  have hnil : ∀ k, R.itemsFrom k [] = [] := fun k => by cases k <;> rfl
  cases h with
  | nil => rfl
  | atRule h =>
    obtain ⟨name, tl, rfl, h1⟩ := atRule_open_skip h
    simp [SheetReader.itemsFrom, h1, RawItem.decl?, hnil]
  | body h =>
    have := itemsFrom_body R h k [] [] fun v hv => by
      simp only [List.append_nil, untilAfter]
      rw [untilBefore_end ((noSemicolon_iff _).1 hv)]
      rfl
    rw [List.append_nil] at this
    rw [this, hnil]
    simp

theorem atRule_length {cs : List Comp} (h : AtRule cs) : 0 < cs.length := by cases h <;> simp

theorem itemsFrom_pieces {w : List Comp} {ds : List (Text × List Comp)} (h : DeclPieces w ds) :
    ∀ {t : List Comp} {d : Option (Text × List Comp)}, DeclRest t d → ∀ k, (w ++ t).length < k →
    (R.itemsFrom k (w ++ t)).filterMap RawItem.decl? = (ds ++ d.toList).map fun d => (d.1, R.value d.2) := by
  induction h with
  | nil => intro t d ht k hk; exact itemsFrom_rest R ht k hk
  | @cons p cs d ds hp _ ih =>
    intro t d' ht k hk
    obtain ⟨k, rfl⟩ : ∃ j, k = j + 1 := ⟨k - 1, by omega⟩
    simp only [List.append_assoc, List.length_append] at hk ih ⊢
    cases hp with
    | blank h =>
      cases h <;> exact ih ht k (by simp at hk; omega)
    | semicolon => exact ih ht k (by simp at hk; omega)
    | atRule h =>
      obtain ⟨name, tl, h1, h2⟩ := atRule_skip h (cs ++ t)
      rw [h1]
      simp only [SheetReader.itemsFrom, h2]
      have := atRule_length h
      rw [List.filterMap_cons]
      simpa [RawItem.decl?] using ih ht k (by omega)
    | @body b _ h =>
      have := itemsFrom_body R h k (.semicolon :: (cs ++ t)) (cs ++ t) fun v hv => by
        simp only [untilAfter]
        rw [untilBefore_stop ((noSemicolon_iff _).1 hv) (by rfl)]
        rfl
      have e : b ++ [Comp.semicolon] ++ (cs ++ t) = b ++ .semicolon :: (cs ++ t) := by simp
      rw [e, this, ih ht k (by have := body_length h; simp at hk; omega)]
      simp

/-- **C86** A block of declarations gives the declarations that the grammar finds in it, in order; everything else
(at-rules, declarations without a colon, pieces that do not start with a name) gives nothing. -/
theorem C86_declarations (cs : List Comp) (ds : List (Text × List Comp)) (h : DeclsRead cs ds) :
    (R.items cs).filterMap RawItem.decl? = ds.map fun d => (d.1, R.value d.2) := by
  obtain ⟨w, t, ds', d, rfl, rfl, h1, h2⟩ := h
  exact itemsFrom_pieces R h1 h2 _ (Nat.lt_succ_self _)

theorem DeclsRead.cons {p cs : List Comp} {d : Option (Text × List Comp)} {ds : List (Text × List Comp)}
    (hp : DeclPiece p d) (h : DeclsRead cs ds) : DeclsRead (p ++ cs) (d.toList ++ ds) := by
  obtain ⟨w, t, ds', d', rfl, rfl, h1, h2⟩ := h
  exact ⟨p ++ w, t, d.toList ++ ds', d', by simp, by simp, .cons hp h1, h2⟩

/-- a body, or a body and a semicolon -/
theorem bodyEnd {c : Comp} {cs : List Comp} (h : ∀ v, NoSemicolon v → ∃ d, DeclBody (c :: v) d) :
    (∃ d, DeclRest (c :: cs) d) ∨ ∃ p rest d, c :: cs = p ++ rest ∧ DeclPiece p d ∧ rest.length < cs.length + 1 := by
  rcases untilBefore_cases Comp.isSemicolon cs with h1 | ⟨pre, e, rest, rfl, h1, h2⟩
  · obtain ⟨d, hd⟩ := h cs ((noSemicolon_iff _).2 h1)
    exact .inl ⟨d, .body hd⟩
  · obtain ⟨d, hd⟩ := h pre ((noSemicolon_iff _).2 h1)
    cases isSemicolon_eq h2
    exact .inr ⟨c :: pre ++ [.semicolon], rest, d, by simp, .body hd, by simp; omega⟩

/-- **C86** Every block of declarations can be read. -/
theorem C86_any_block (cs : List Comp) : ∃ ds, DeclsRead cs ds := by
  generalize hn : cs.length = n
  induction n using Nat.strong_induction_on generalizing cs with
  | _ n ih =>
    subst hn
    have step : ∀ {p rest : List Comp} {d}, cs = p ++ rest → DeclPiece p d → rest.length < cs.length →
        ∃ ds, DeclsRead cs ds := by
      intro p rest d e hp hl
      obtain ⟨ds, hds⟩ := ih _ hl rest rfl
      exact ⟨_, e ▸ hds.cons hp⟩
    have last : ∀ {d}, DeclRest cs d → ∃ ds, DeclsRead cs ds :=
      fun {d} h => ⟨[] ++ d.toList, [], cs, [], d, rfl, rfl, .nil, h⟩
    cases cs with
    | nil => exact last .nil
    | cons c cs =>
      have fin : ((∃ d, DeclRest (c :: cs) d) ∨ ∃ p rest d, c :: cs = p ++ rest ∧ DeclPiece p d ∧
          rest.length < cs.length + 1) → ∃ ds, DeclsRead (c :: cs) ds := by
        rintro (⟨d, h⟩ | ⟨p, rest, d, e, hp, hl⟩)
        · exact last h
        · exact step e hp (by simpa using hl)
      by_cases hb : c.Blank
      · exact step (p := [c]) (rest := cs) rfl (.blank hb) (by simp)
      · by_cases hs : c = .semicolon
        · subst hs
          exact step (p := [.semicolon]) (rest := cs) rfl .semicolon (by simp)
        · by_cases ha : ∃ name, c = .atKeyword name
          · obtain ⟨name, rfl⟩ := ha
            rcases atRule_exists name cs with h | ⟨p, rest, e, hp, hl⟩
            · exact last (.atRule h)
            · exact step e (.atRule hp) (by simpa using hl)
          · apply fin
            apply bodyEnd
            intro v hv
            by_cases hi : ∃ name, c = .tok (.ident name)
            · obtain ⟨name, rfl⟩ := hi
              by_cases hc : ∃ gap w, (∀ c ∈ gap, Comp.Blank c) ∧ v = gap ++ .colon :: w
              · obtain ⟨gap, w, h1, rfl⟩ := hc
                exact ⟨_, .decl name h1 fun hm => hv (by simp [hm])⟩
              · exact ⟨_, .noColon name hv fun gap w h1 h2 => hc ⟨gap, w, h1, h2⟩⟩
            · exact ⟨_, .other hb hs (fun n e => ha ⟨n, e⟩) (fun n e => hi ⟨n, e⟩) hv⟩

/-! ### Rules -/

/-- the style rules among the results -/
def RawRule.rule? : RawRule S → Option (List S.Sel × List RawItem)
  | .rule sels is => some (sels, is)
  | .error => none

/-- the rule that prelude and block give -/
def SheetReader.ruleOf (r : List Comp × List Comp) : Option (List S.Sel × List RawItem) :=
  (R.selectors r.1).map fun sels => (sels, R.items r.2)

theorem idle_skip {c : Comp} (h : c.Idle) (cs : List Comp) : skipCdcAndCdo (c :: cs) = skipCdcAndCdo cs := by
  cases h with
  | blank h => cases h <;> rfl
  | cdo => rfl
  | cdc => rfl

theorem not_idle_skip {c : Comp} (h : ¬ c.Idle) (cs : List Comp) : skipCdcAndCdo (c :: cs) = c :: cs := by
  cases c with
  | space => exact absurd (.blank .space) h
  | comment => exact absurd (.blank .comment) h
  | cdo => exact absurd .cdo h
  | cdc => exact absurd .cdc h
  | _ => rfl

theorem sheetFrom_idle {c : Comp} (h : c.Idle) (k : Nat) (any : Bool) (cs : List Comp) :
    R.sheetFrom k any (c :: cs) = R.sheetFrom k any cs := by
  cases k with
  | zero => rfl
  | succ k => simp only [SheetReader.sheetFrom, idle_skip h]

theorem sheetFrom_at (k : Nat) (any : Bool) (name : Text) (cs : List Comp) :
    (R.sheetFrom (k + 1) any (.atKeyword name :: cs)).filterMap RawRule.rule? =
      (R.sheetFrom k true (afterAtRule cs)).filterMap RawRule.rule? := by
  simp only [SheetReader.sheetFrom, skipCdcAndCdo]
  split
  · rfl
  · rfl

theorem sheetFrom_nil (k : Nat) (any : Bool) : R.sheetFrom k any [] = [] := by
  cases k <;> rfl

theorem sheetFrom_rule {pre : List Comp} (h : RulePrelude pre) (k : Nat) (any : Bool) (b cs : List Comp) :
    (R.sheetFrom (k + 1) any (pre ++ .curly b :: cs)).filterMap RawRule.rule? =
      (R.ruleOf (pre, b)).toList ++ (R.sheetFrom k true cs).filterMap RawRule.rule? := by
  have hq : R.qualifiedRule (pre ++ .curly b :: cs) =
      (match R.selectors pre with | some sels => .rule sels (R.items b) | none => .error, cs) := by
    simp only [SheetReader.qualifiedRule]
    rw [untilBefore_stop ((noCurly_iff _).1 h.1) (by rfl)]
    simp only
    cases R.selectors pre <;> rfl
  have hs : R.sheetFrom (k + 1) any (pre ++ .curly b :: cs) =
      (R.qualifiedRule (pre ++ .curly b :: cs)).1 :: R.sheetFrom k true (R.qualifiedRule (pre ++ .curly b :: cs)).2 := by
    cases pre with
    | nil => rfl
    | cons c pre =>
      obtain ⟨h1, h2⟩ := h.2 c rfl
      simp only [SheetReader.sheetFrom, List.cons_append]
      rw [not_idle_skip h1]
      cases c with
      | atKeyword n => exact absurd rfl (h2 n)
      | _ => rfl
  rw [hs, hq, List.filterMap_cons]
  simp only [SheetReader.ruleOf]
  cases R.selectors pre <;> simp [RawRule.rule?]

theorem sheetFrom_prelude {pre : List Comp} (h : RulePrelude pre) (k : Nat) (any : Bool) :
    (R.sheetFrom (k + 1) any pre).filterMap RawRule.rule? = [] := by
  cases pre with
  | nil => rfl
  | cons c pre =>
    obtain ⟨h1, h2⟩ := h.2 c rfl
    have hq : R.qualifiedRule (c :: pre) = (.error, []) := by
      simp only [SheetReader.qualifiedRule]
      rw [untilBefore_end ((noCurly_iff _).1 h.1)]
    have hs : R.sheetFrom (k + 1) any (c :: pre) =
        (R.qualifiedRule (c :: pre)).1 :: R.sheetFrom k true (R.qualifiedRule (c :: pre)).2 := by
      simp only [SheetReader.sheetFrom]
      rw [not_idle_skip h1]
      cases c with
      | atKeyword n => exact absurd rfl (h2 n)
      | _ => rfl
    rw [hs, hq]
    simp [RawRule.rule?, sheetFrom_nil]

theorem sheetFrom_rest {t : List Comp} (h : SheetRest t) (k : Nat) (any : Bool) (hk : t.length < k) :
    (R.sheetFrom k any t).filterMap RawRule.rule? = [] := by
  obtain ⟨k, rfl⟩ : ∃ j, k = j + 1 := ⟨k - 1, by omega⟩
  cases h with
  | nil => rfl
  | atRule h =>
    obtain ⟨name, tl, rfl, h1⟩ := atRule_open_skip h
    rw [sheetFrom_at, h1, sheetFrom_nil]
    rfl
  | prelude h => exact sheetFrom_prelude R h k any

theorem sheetFrom_pieces {w : List Comp} {rs : List (List Comp × List Comp)} (h : SheetPieces w rs) :
    ∀ {t : List Comp}, SheetRest t → ∀ k any, (w ++ t).length < k →
    (R.sheetFrom k any (w ++ t)).filterMap RawRule.rule? = rs.filterMap R.ruleOf := by
  induction h with
  | nil => intro t ht k any hk; exact sheetFrom_rest R ht k any hk
  | @cons p cs r rs hp _ ih =>
    intro t ht k any hk
    obtain ⟨k, rfl⟩ : ∃ j, k = j + 1 := ⟨k - 1, by omega⟩
    simp only [List.append_assoc, List.length_append] at hk ih ⊢
    cases hp with
    | idle h =>
      rw [List.singleton_append, sheetFrom_idle R h]
      exact ih ht _ any (by simp at hk; omega)
    | atRule h =>
      obtain ⟨name, tl, h1, h2⟩ := atRule_skip h (cs ++ t)
      rw [h1, sheetFrom_at, h2]
      have := atRule_length h
      exact ih ht k true (by omega)
    | @rule pre b h =>
      rw [List.append_assoc, List.singleton_append, sheetFrom_rule R h, ih ht k true (by simp at hk; omega)]
      cases hr : R.ruleOf (pre, b) <;> simp [hr]

/-- **C86** A style sheet gives the style rules that the grammar finds in it and whose prelude is a list of selectors,
in order; everything else gives nothing. -/
theorem C86_rules (cs : List Comp) (rs : List (List Comp × List Comp)) (h : SheetReads cs rs) :
    (R.sheet cs).filterMap RawRule.rule? =
      rs.filterMap fun r => (R.selectors r.1).map fun sels => (sels, R.items r.2) := by
  obtain ⟨w, t, rfl, h1, h2⟩ := h
  exact sheetFrom_pieces R h1 h2 _ _ (Nat.lt_succ_self _)

/-- **C86** Every style sheet can be read. -/
theorem C86_any_sheet (cs : List Comp) : ∃ rs, SheetReads cs rs := by
  generalize hn : cs.length = n
  induction n using Nat.strong_induction_on generalizing cs with
  | _ n ih =>
    subst hn
    have step : ∀ {p rest : List Comp} {r}, cs = p ++ rest → SheetPiece p r → rest.length < cs.length →
        ∃ rs, SheetReads cs rs := by
      intro p rest r e hp hl
      obtain ⟨rs, w, t, h1, h2, h3⟩ := ih _ hl rest rfl
      exact ⟨r.toList ++ rs, p ++ w, t, by rw [e, h1, List.append_assoc], .cons hp h2, h3⟩
    have last : SheetRest cs → ∃ rs, SheetReads cs rs := fun h => ⟨[], [], cs, rfl, .nil, h⟩
    cases cs with
    | nil => exact last .nil
    | cons c cs =>
      by_cases hb : c.Idle
      · exact step (p := [c]) (rest := cs) rfl (.idle hb) (by simp)
      · by_cases ha : ∃ name, c = .atKeyword name
        · obtain ⟨name, rfl⟩ := ha
          rcases atRule_exists name cs with h | ⟨p, rest, e, hp, hl⟩
          · exact last (.atRule h)
          · exact step e (.atRule hp) (by simpa using hl)
        · rcases untilBefore_cases Comp.isCurly (c :: cs) with h | ⟨pre, x, rest, e, h1, h2⟩
          · exact last (.prelude ⟨(noCurly_iff _).2 h, fun d hd => by
              cases hd; exact ⟨hb, fun n e => ha ⟨n, e⟩⟩⟩)
          · obtain ⟨b, rfl⟩ := isCurly_eq h2
            refine step (p := pre ++ [.curly b]) (rest := rest) (by rw [e]; simp)
              (.rule b ⟨(noCurly_iff _).2 h1, fun d hd => ?_⟩) (by rw [e]; simp; omega)
            cases pre with
            | nil => cases hd
            | cons a pre =>
              cases hd
              cases e
              exact ⟨hb, fun n e => ha ⟨n, e⟩⟩

/-! ### The style set -/

/-- only the rules matter, and of these only what their blocks set -/
theorem addStylesheet_congr {C : CssColors} : ∀ (as bs : List (RawRule S)) (s : StyleSet S),
    ((as.filterMap RawRule.rule?).map fun r => (r.1, Block.parse C r.2)) =
      ((bs.filterMap RawRule.rule?).map fun r => (r.1, Block.parse C r.2)) →
    s.addStylesheet C as = s.addStylesheet C bs := by
  have key : ∀ (as : List (RawRule S)) (s : StyleSet S), s.addStylesheet C as =
      (((as.filterMap RawRule.rule?).map fun r => (r.1, Block.parse C r.2)).foldlM
        (fun (s : StyleSet S) r => do
          let block ← r.2
          return ⟨s.rules ++ r.1.map fun sel => (sel, block)⟩) s) := by
    intro as
    induction as with
    | nil => intro s; rfl
    | cons a as ih =>
      intro s
      cases a with
      | error => exact ih s
      | rule sels is =>
        simp only [StyleSet.addStylesheet, List.filterMap_cons, RawRule.rule?, List.map_cons, List.foldlM_cons]
        cases Block.parse C is with
        | error e => rfl
        | ok b => exact ih _
  intro as bs s h
  rw [key, key, h]

theorem parse_decls {C : CssColors} (is js : List RawItem)
    (h : is.filterMap RawItem.decl? = js.filterMap RawItem.decl?) : Block.parse C is = Block.parse C js := by
  have key : ∀ (is : List RawItem) (b : Block), Block.parseFrom C b is =
      Block.parseFrom C b ((is.filterMap RawItem.decl?).map fun d => .decl d.1 d.2) := by
    intro is
    induction is with
    | nil => intro b; rfl
    | cons i is ih =>
      intro b
      cases i with
      | junk => exact ih b
      | decl n ts =>
        simp only [Block.parseFrom, List.filterMap_cons, RawItem.decl?, List.map_cons]
        cases Block.parseItem C b (.decl n ts) with
        | error e => rfl
        | ok b' => exact ih b'
  rw [Block.parse, key, h, ← key, Block.parse]

/-- **C86** The styles that a sheet defines are those of the valid rules that the grammar finds in it, with the
declarations that the grammar finds in their blocks. -/
theorem C86_sheet (C : CssColors) (s : StyleSet S) (cs : List Comp) (rs : List (List Comp × List Comp))
    (qs : List (RawRule S)) (h : SheetReads cs rs) (hm : SheetMeans R rs qs) :
    s.addStylesheet C (R.sheet cs) = s.addStylesheet C qs := by
  apply addStylesheet_congr
  rw [C86_rules R cs rs h]
  clear h
  induction hm with
  | nil => rfl
  | invalid h _ ih => rw [List.filterMap_cons]; simpa [h] using ih
  | @valid pre b sels ds is rs qs h h1 h2 _ ih =>
    rw [List.filterMap_cons, List.filterMap_cons]
    simp only [h, Option.map_some, RawRule.rule?, List.map_cons, List.cons.injEq, Prod.mk.injEq, true_and]
    refine ⟨parse_decls _ _ ?_, ih⟩
    rw [C86_declarations R b ds h1]
    clear h1
    induction h2 with
    | nil => rfl
    | cons h _ ih =>
      obtain ⟨ts, k1, rfl⟩ := h
      simp only [List.map_cons, List.filterMap_cons, RawItem.decl?, ih, (C86_value R _ ts).2 k1]

/-- **C86** Every style sheet has a meaning. -/
theorem C86_any_meaning (cs : List Comp) : ∃ rs qs, SheetReads cs rs ∧ SheetMeans R rs qs := by
  obtain ⟨rs, h⟩ := C86_any_sheet cs
  suffices ∃ qs, SheetMeans R rs qs from this.elim fun qs hq => ⟨rs, qs, h, hq⟩
  clear h
  induction rs with
  | nil => exact ⟨[], .nil⟩
  | cons r rs ih =>
    obtain ⟨qs, hq⟩ := ih
    obtain ⟨pre, b⟩ := r
    cases hs : R.selectors pre with
    | none => exact ⟨qs, .invalid hs hq⟩
    | some sels =>
      obtain ⟨ds, hd⟩ := C86_any_block b
      refine ⟨_, .valid (is := ds.map fun d => .decl d.1 (R.value d.2)) hs hd ?_ hq⟩
      rw [List.forall₂_map_right_iff, List.forall₂_same]
      exact fun d _ => ⟨_, (C86_value R _ _).1 rfl, rfl⟩

theorem SheetPieces.append {a b : List Comp} {rs rs' : List (List Comp × List Comp)} (h : SheetPieces a rs)
    (h' : SheetPieces b rs') : SheetPieces (a ++ b) (rs ++ rs') := by
  induction h with
  | nil => exact h'
  | cons hp _ ih => simpa using SheetPieces.cons hp ih

/-- a piece of a style sheet that must not have any influence: blanks, at-rules, rules with an invalid prelude -/
def Dropped (p : List Comp) : Prop :=
  ∃ r, SheetPiece p r ∧ ∀ pre b, r = some (pre, b) → R.selectors pre = none

/-- **C86** At-rules (with everything in their blocks), rules whose selectors cannot be read, comments and the like
have no influence, wherever they stand between the rules. -/
theorem C86_dropped (C : CssColors) (s : StyleSet S) (pre x post : List Comp)
    (hpre : ∃ rs, SheetPieces pre rs) (hx : Dropped R x) :
    s.addStylesheet C (R.sheet (pre ++ x ++ post)) = s.addStylesheet C (R.sheet (pre ++ post)) := by
  obtain ⟨rs, h1⟩ := hpre
  obtain ⟨r, h2, h3⟩ := hx
  obtain ⟨rs', w, t, rfl, h4, h5⟩ := C86_any_sheet post
  apply addStylesheet_congr
  rw [C86_rules R _ (rs ++ (r.toList ++ rs')) ⟨pre ++ (x ++ w), t, by simp, h1.append (.cons h2 h4), h5⟩,
    C86_rules R _ (rs ++ rs') ⟨pre ++ w, t, by simp, h1.append h4, h5⟩]
  congr 1
  cases r with
  | none => simp
  | some r =>
    obtain ⟨p, b⟩ := r
    simp [List.filterMap_append, h3 p b rfl]

theorem DeclPieces.append {a b : List Comp} {ds ds' : List (Text × List Comp)} (h : DeclPieces a ds)
    (h' : DeclPieces b ds') : DeclPieces (a ++ b) (ds ++ ds') := by
  induction h with
  | nil => exact h'
  | cons hp _ ih => simpa using DeclPieces.cons hp ih

/-- a piece of a block that must not have any influence: no declaration, or one of which no beginning is accepted -/
def Unreadable (C : CssColors) (p : List Comp) : Prop :=
  ∃ d, DeclPiece p d ∧ ∀ name v ts, d = some (name, v) → ValueTokens R.other v ts → ∀ k, ¬ Accepted C name (ts.take k)

/-- **C86** At-rules, pieces that are no declarations, unknown properties and unreadable values have no influence,
wherever they stand between the declarations of a block. -/
theorem C86_unreadable (C : CssColors) (pre x post : List Comp) (hpre : ∃ ds, DeclPieces pre ds)
    (hx : Unreadable R C x) : Block.parse C (R.items (pre ++ x ++ post)) = Block.parse C (R.items (pre ++ post)) := by
  obtain ⟨ds, h1⟩ := hpre
  obtain ⟨d, h2, h3⟩ := hx
  obtain ⟨ds', w, t, ds₁, d₁, rfl, rfl, h4, h5⟩ := C86_any_block post
  let f : Text × List Comp → RawItem := fun d => .decl d.1 (R.value d.2)
  have hf : ∀ l : List (Text × List Comp), (l.map f).filterMap RawItem.decl? = l.map fun d => (d.1, R.value d.2) := by
    intro l
    induction l with
    | nil => rfl
    | cons a l ih => simp only [List.map_cons, List.filterMap_cons, ih, f, RawItem.decl?]
  rw [parse_decls (R.items (pre ++ x ++ (w ++ t))) ((ds ++ (d.toList ++ ds₁) ++ d₁.toList).map f)
      (by rw [hf]; exact C86_declarations R _ _ ⟨pre ++ (x ++ w), t, _, d₁, by simp, rfl, h1.append (.cons h2 h4), h5⟩),
    parse_decls (R.items (pre ++ (w ++ t))) ((ds ++ ds₁ ++ d₁.toList).map f)
      (by rw [hf]; exact C86_declarations R _ _ ⟨pre ++ w, t, _, d₁, by simp, rfl, h1.append h4, h5⟩)]
  cases d with
  | none => simp
  | some d =>
    have := C16_partial C (ds.map f) ((ds₁ ++ d₁.toList).map f) d.1 (R.value d.2)
      (h3 d.1 d.2 _ rfl ((C86_value R _ _).1 rfl))
    simpa [f] using this

/-- **C86** the same inside a style sheet -/
theorem C86_unreadable_sheet (C : CssColors) (s : StyleSet S) (pre sel b x b' post : List Comp)
    (hpre : ∃ rs, SheetPieces pre rs) (hsel : RulePrelude sel) (hb : ∃ ds, DeclPieces b ds) (hx : Unreadable R C x) :
    s.addStylesheet C (R.sheet (pre ++ sel ++ .curly (b ++ x ++ b') :: post)) =
      s.addStylesheet C (R.sheet (pre ++ sel ++ .curly (b ++ b') :: post)) := by
  obtain ⟨rs, h1⟩ := hpre
  obtain ⟨rs', w, t, rfl, h4, h5⟩ := C86_any_sheet post
  apply addStylesheet_congr
  have hr : ∀ c, SheetReads (pre ++ sel ++ .curly c :: (w ++ t)) (rs ++ ((sel, c) :: rs')) := fun c =>
    ⟨pre ++ ((sel ++ [.curly c]) ++ w), t, by simp, h1.append (.cons (.rule c hsel) h4), h5⟩
  rw [C86_rules R _ _ (hr _), C86_rules R _ _ (hr _)]
  simp only [List.filterMap_append, List.map_append, List.filterMap_cons]
  cases R.selectors sel with
  | none => rfl
  | some sels => simp only [Option.map_some, List.map_cons, C86_unreadable R C b x b' hb hx]

/-! ### The page -/

/-- **C86** Two style sheets given by the caller that define the same styles give the same page. -/
theorem C86_rendered (X : Externals) (css css' : Text)
    (h : ∀ s : StyleSet X.engine, s.addStylesheet X.colors (X.css css) = s.addStylesheet X.colors (X.css css'))
    (fuel : Nat) (html : Text) (size : PVec2 Length) :
    X.renderHtml fuel html css size = X.renderHtml fuel html css' size := by
  have key : ∀ d, X.parseStylesheets d (some css) = X.parseStylesheets d (some css') := by
    intro d
    simp only [Externals.parseStylesheets, Doc.stylesheetTexts]
    cases d.styleTexts d.len d.styleElements with
    | error e => rfl
    | ok ts =>
      simp only [bind, Except.bind, pure, Except.pure, Option.toList_some, List.singleton_append, List.map_cons,
        StyleSet.addStylesheets, h]
  simp only [Externals.renderHtml, Externals.layoutHtml, Externals.layoutDoc, key]

/-- **C86** What is dropped from a style sheet has no influence on the page. -/
theorem C86_dropped_rendered (X : Externals) (R : SheetReader X.engine) (tokens : Text → List Comp)
    (hX : ∀ t, X.css t = R.sheet (tokens t)) (css css' : Text) (pre x post : List Comp)
    (h1 : tokens css = pre ++ x ++ post) (h2 : tokens css' = pre ++ post) (hpre : ∃ rs, SheetPieces pre rs)
    (hx : Dropped R x) (fuel : Nat) (html : Text) (size : PVec2 Length) :
    X.renderHtml fuel html css size = X.renderHtml fuel html css' size :=
  C86_rendered X css css' (fun s => by rw [hX, hX, h1, h2, C86_dropped R _ s pre x post hpre hx]) fuel html size

/-! ### Examples -/

/-- selectors are single names -/
def anyEngine : SelectorEngine := ⟨Text, fun _ => 1, fun _ _ _ => .ok true⟩

/-- a prelude is one name, possibly followed by a space -/
def nameReader : SheetReader anyEngine where
  selectors
    | [.tok (.ident n)] => some [n]
    | [.tok (.ident n), .space] => some [n]
    | _ => none
  other _ := .other 0

/-- a name -/
def name' (s : String) : Comp := .tok (.ident s.toList)

/-- `display: block;` -/
def blockDecl : List Comp := [name' "display", .colon, .space, name' "block", .semicolon]

/-- `colour: red;` -/
def badDecl : List Comp := [name' "colour", .colon, .space, name' "red", .semicolon]

/-- `@media print { p {display: block;} }` -/
def mediaRule : List Comp :=
  [.atKeyword "media".toList, .space, name' "print", .space, .curly [.space, name' "p", .space, .curly blockDecl]]

/-- `p {display: block; colour: red;}` -/
def pRule : List Comp := [name' "p", .space, .curly (blockDecl ++ badDecl)]

/-- `p > p {display: block;}`, which is no selector here -/
def badRule : List Comp := [name' "p", .tok (.delim '>'), name' "p", .curly blockDecl]

-- of `/* … */ @media … p {…} p > p {…} p` only the rule for `p` remains
example : (show List (List Text × List RawItem) from
      (nameReader.sheet (.comment :: mediaRule ++ pRule ++ badRule ++ [name' "p"])).filterMap RawRule.rule?) =
    [(["p".toList], [.decl "display".toList [.ident "block".toList], .decl "colour".toList [.ident "red".toList]])] := by
  decide +kernel

theorem mediaRule_atRule : AtRule mediaRule :=
  .block "media".toList (pre := [.space, name' "print", .space]) _ (by simp [NoSemicolon, name'])
    (by simp [NoCurly, name'])

theorem pRule_pieces : SheetPieces pRule [([name' "p", .space], blockDecl ++ badDecl)] := by
  have h : RulePrelude [name' "p", .space] := by
    refine ⟨by simp [NoCurly, name'], fun c hc => ?_⟩
    cases hc
    refine ⟨fun h => ?_, fun n e => by simp [name'] at e⟩
    cases h with
    | blank h => cases h
  exact SheetPieces.cons (.rule _ h) .nil

-- the reading of a sheet with an at-rule in it
example : SheetReads (mediaRule ++ pRule) [([name' "p", .space], blockDecl ++ badDecl)] :=
  ⟨mediaRule ++ pRule, [], by simp, .cons (.atRule mediaRule_atRule) pRule_pieces, .nil⟩

-- the at-rule between two rules has no influence
example (C : CssColors) (s : StyleSet anyEngine) :
    s.addStylesheet C (nameReader.sheet (pRule ++ mediaRule ++ pRule)) =
      s.addStylesheet C (nameReader.sheet (pRule ++ pRule)) :=
  C86_dropped nameReader C s pRule mediaRule pRule ⟨_, pRule_pieces⟩
    ⟨none, .atRule mediaRule_atRule, fun _ _ h => by cases h⟩

theorem blockDecl_piece : DeclPiece blockDecl (some ("display".toList, [.space, name' "block"])) :=
  .body (.decl "display".toList (gap := []) (v := [.space, name' "block"]) (by simp) (by simp [NoSemicolon, name']))

theorem badDecl_piece : DeclPiece badDecl (some ("colour".toList, [.space, name' "red"])) :=
  .body (.decl "colour".toList (gap := []) (v := [.space, name' "red"]) (by simp) (by simp [NoSemicolon, name']))

-- the unknown property has no influence
example (post : List Comp) : Block.parse noColors (nameReader.items (blockDecl ++ badDecl ++ post)) =
    Block.parse noColors (nameReader.items (blockDecl ++ post)) := by
  refine C86_unreadable nameReader noColors blockDecl badDecl post ⟨_, by simpa using DeclPieces.cons blockDecl_piece .nil⟩
    ⟨_, badDecl_piece, ?_⟩
  intro name v ts e h k hk
  cases e
  obtain ⟨b, h1, h2⟩ := hk
  apply h2
  have : Block.parse noColors ([] ++ [.decl "colour".toList (ts.take k)]) = Block.parse noColors [] :=
    C16_unknown noColors "colour".toList (by decide +kernel) [] [] _
  rw [List.nil_append] at this
  rw [this] at h1
  cases h1
  rfl

-- declarations without a colon, and pieces that start with something else than a name
example : nameReader.items [name' "display", name' "block", .semicolon, .colon, .semicolon, .square [.semicolon],
      name' "x", .semicolon, .atKeyword [], .curly [.semicolon], name' "display", .comment, .colon, name' "block"] =
    [.junk, .junk, .junk, .junk, .decl "display".toList [.ident "block".toList]] := by decide +kernel

end Sinab
