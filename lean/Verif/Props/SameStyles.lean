import Verif.Spec.SameStyles
import Verif.Props.Cascade
import Verif.Props.Values
import Verif.Spec.Page
import Verif.Model.Render

/-! C87: what in a style sheet has no influence. -/

namespace Sinab

variable {S : SelectorEngine}

/-! ### Sorted lists -/

/-- sorted lists with the same elements, in the same order, for each key are equal -/
theorem sorted_unique {α : Type} (key : α → Nat) : ∀ {a b : List α},
    a.Pairwise (fun x y => key x ≤ key y) → b.Pairwise (fun x y => key x ≤ key y) →
    (∀ k, a.filter (fun x => key x = k) = b.filter fun x => key x = k) → a = b := by
  have small : ∀ {x y : α} {a b : List α}, (y :: b).Pairwise (fun x y => key x ≤ key y) →
      (∀ k, (x :: a).filter (fun x => key x = k) = (y :: b).filter fun x => key x = k) → key y ≤ key x := by
    intro x y a b hb h
    have hx : x ∈ (y :: b).filter fun z => key z = key x := by
      rw [← h (key x)]
      simp
    rcases List.mem_cons.1 (List.mem_filter.1 hx).1 with e | hm
    · exact le_of_eq (congrArg key e.symm)
    · exact (List.pairwise_cons.1 hb).1 x hm
  intro a
  induction a with
  | nil =>
    intro b _ _ h
    cases b with
    | nil => rfl
    | cons y b => have := h (key y); simp at this
  | cons x a ih =>
    intro b ha hb h
    cases b with
    | nil => have := h (key x); simp at this
    | cons y b =>
      have hk : key x = key y := le_antisymm (small ha fun k => (h k).symm) (small hb h)
      have h0 := h (key x)
      rw [List.filter_cons_of_pos (by simp), List.filter_cons_of_pos (by simp [hk])] at h0
      obtain ⟨rfl, -⟩ := List.cons.inj h0
      rw [ih (List.pairwise_cons.1 ha).2 (List.pairwise_cons.1 hb).2 fun k => ?_]
      by_cases e : key x = k
      · subst e
        exact (List.cons.inj h0).2
      · have := h k
        rwa [List.filter_cons_of_neg (by simpa using e), List.filter_cons_of_neg (by simpa using e)] at this

/-! ### Matching -/

/-- specificity, result of matching and block of the rules that count -/
def attempts (d : Doc) (n : NodeId) (l : List (S.Sel × Block)) : List (Nat × Except Panic Bool × Block) :=
  l.filterMap fun r =>
    match S.matches_ r.1 d n with
    | .ok false => none
    | m => some (S.specificity r.1, m, r.2)

theorem pushMatching_attempts (d : Doc) (n : NodeId) (l l' : List (S.Sel × Block))
    (h : attempts d n l = attempts d n l') : pushMatching d n l = pushMatching d n l' := by
  have key : ∀ l : List (S.Sel × Block), pushMatching d n l =
      (attempts d n l).foldr (fun r acc => do
        let m ← r.2.1
        let bs ← acc
        return if m then r.2.2 :: bs else bs) (.ok []) := by
    intro l
    induction l with
    | nil => rfl
    | cons r l ih =>
      obtain ⟨sel, b⟩ := r
      simp only [pushMatching, attempts, List.filterMap_cons]
      cases hm : S.matches_ sel d n with
      | error e => rfl
      | ok m =>
        cases m with
        | true => simp only [List.foldr_cons, ih]; rfl
        | false =>
          rw [ih]
          simp only [bind, Except.bind, pure, Except.pure, attempts, Bool.false_eq_true, if_false]
          split
          · rename_i e he; exact he.symm
          · rename_i bs he; exact he.symm
  rw [key, key, h]

theorem attempts_filter (d : Doc) (n : NodeId) (k : Nat) (l : List (S.Sel × Block)) :
    ((attempts d n l).filter fun r => r.1 = k) = (AppliesTo d n k l).map fun r => (k, r) := by
  induction l with
  | nil => rfl
  | cons r l ih =>
    simp only [attempts, AppliesTo, List.filterMap_cons] at ih ⊢
    by_cases hk : S.specificity r.1 = k
    · simp only [hk, if_true]
      cases hm : S.matches_ r.1 d n with
      | error e => simp [ih]
      | ok m => cases m <;> simp [ih]
    · simp only [hk, if_false]
      cases hm : S.matches_ r.1 d n with
      | error e => simpa [hk] using ih
      | ok m => cases m <;> simpa [hk] using ih

theorem attempts_of_filter (d : Doc) (n : NodeId) (k : Nat) (l : List (S.Sel × Block)) :
    ((attempts d n l).filter fun r => r.1 = k) = attempts d n (l.filter fun r => S.specificity r.1 = k) := by
  induction l with
  | nil => rfl
  | cons r l ih =>
    simp only [attempts, List.filterMap_cons, List.filter_cons] at ih ⊢
    by_cases hk : S.specificity r.1 = k
    · simp only [hk, decide_true, if_true, List.filterMap_cons]
      cases hm : S.matches_ r.1 d n with
      | error e => simp [ih]
      | ok m => cases m <;> simp [ih]
    · simp only [hk, decide_false, Bool.false_eq_true, if_false]
      cases hm : S.matches_ r.1 d n with
      | error e => simpa [hk] using ih
      | ok m => cases m <;> simpa [hk] using ih

theorem attempts_sorted (d : Doc) (n : NodeId) (l : List (S.Sel × Block)) :
    (attempts d n (StyleSet.finish ⟨l⟩).rules).Pairwise fun a b => a.1 ≤ b.1 := by
  refine (C24_sorted l).filterMap _ ?_
  intro a a' h b hb c hc
  have : ∀ {r : S.Sel × Block} {x}, (match S.matches_ r.1 d n with
      | .ok false => none
      | m => some (S.specificity r.1, m, r.2)) = some x → x.1 = S.specificity r.1 := by
    intro r x hx
    cases hm : S.matches_ r.1 d n with
    | error e => simp only [hm, Option.some.injEq] at hx; rw [← hx]
    | ok m =>
      cases m with
      | true => simp only [hm, Option.some.injEq] at hx; rw [← hx]
      | false => simp [hm] at hx
  rw [this hb, this hc]
  exact h

theorem attempts_finish {d : Doc} {n : NodeId} {l l' : List (S.Sel × Block)}
    (h : ∀ k, AppliesTo d n k l = AppliesTo d n k l') :
    attempts d n (StyleSet.finish ⟨l⟩).rules = attempts d n (StyleSet.finish ⟨l'⟩).rules := by
  refine sorted_unique (·.1) (attempts_sorted d n l) (attempts_sorted d n l') fun k => ?_
  rw [attempts_of_filter, attempts_of_filter, C24_stable, C24_stable, ← attempts_of_filter, ← attempts_of_filter,
    attempts_filter, attempts_filter, h]

/-- **C87** The style of an element depends only on the blocks of the matching rules, in their order for each
specificity. -/
theorem C87_element (C : CssColors) (tokenize : AttrTokenizer) (ua : StyleSet S) (l l' : List (S.Sel × Block))
    (d : Doc) (h : SameInfluence d l l') (n : NodeId) (parent : Option Style) :
    styleForElement C tokenize ua (StyleSet.finish ⟨l⟩) d n parent =
      styleForElement C tokenize ua (StyleSet.finish ⟨l'⟩) d n parent := by
  simp only [styleForElement, bind, Except.bind]
  cases hn : d.get n with
  | error e => rfl
  | ok nd =>
    simp only
    cases he : nd.data.asElement with
    | none => rfl
    | some e =>
      simp only [pushMatching_attempts d n _ _ (attempts_finish (h n ⟨nd, e, hn, he⟩))]

/-! ### Sheets -/

theorem AppliesTo_append (d : Doc) (n : NodeId) (k : Nat) (a b : List (S.Sel × Block)) :
    AppliesTo d n k (a ++ b) = AppliesTo d n k a ++ AppliesTo d n k b := List.filterMap_append

theorem SameInfluence.append {d : Doc} {a a' b b' : List (S.Sel × Block)} (h : SameInfluence d a a')
    (h' : SameInfluence d b b') : SameInfluence d (a ++ b) (a' ++ b') := by
  intro n hn k
  rw [AppliesTo_append, AppliesTo_append, h n hn k, h' n hn k]

theorem SameInfluence.refl (d : Doc) (a : List (S.Sel × Block)) : SameInfluence d a a := fun _ _ _ => rfl

theorem Listed.add {C : CssColors} {rs : List (RawRule S)} {l : List (S.Sel × Block)} (h : Listed C rs l) :
    ∀ s : StyleSet S, s.addStylesheet C rs = .ok ⟨s.rules ++ l⟩ := by
  induction h with
  | nil => intro s; simp [StyleSet.addStylesheet]
  | error _ ih => exact ih
  | rule hb _ ih =>
    intro s
    simp only [StyleSet.addStylesheet, hb, bind, Except.bind, ih, List.append_assoc]

theorem addStylesheet_ok_listed {C : CssColors} : ∀ {rs : List (RawRule S)} {s s' : StyleSet S},
    s.addStylesheet C rs = .ok s' → ∃ l, Listed C rs l := by
  intro rs
  induction rs with
  | nil => intro s s' _; exact ⟨[], .nil⟩
  | cons r rs ih =>
    intro s s' h
    cases r with
    | error => obtain ⟨l, hl⟩ := ih h; exact ⟨l, .error hl⟩
    | rule sels items =>
      simp only [StyleSet.addStylesheet, bind, Except.bind] at h
      cases hb : Block.parse C items with
      | error e => rw [hb] at h; cases h
      | ok b =>
        rw [hb] at h
        obtain ⟨l, hl⟩ := ih h
        exact ⟨_, .rule hb hl⟩

/-- the error of a sheet that cannot be read does not depend on the rules before -/
theorem addStylesheet_error {C : CssColors} : ∀ {rs : List (RawRule S)} {s : StyleSet S} {e : Panic},
    s.addStylesheet C rs = .error e → ∀ s' : StyleSet S, s'.addStylesheet C rs = .error e := by
  intro rs
  induction rs with
  | nil => intro s e h; cases h
  | cons r rs ih =>
    intro s e h s'
    cases r with
    | error => exact ih h s'
    | rule sels items =>
      simp only [StyleSet.addStylesheet, bind, Except.bind] at h ⊢
      cases hb : Block.parse C items with
      | error e' => rw [hb] at h; exact h
      | ok b => rw [hb] at h; exact ih h _

theorem addStylesheets_same {C : CssColors} {d : Doc} : ∀ (sheets : List (List (RawRule S))) {s s' : StyleSet S},
    SameInfluence d s.rules s'.rules →
    (∃ e, s.addStylesheets C sheets = .error e ∧ s'.addStylesheets C sheets = .error e) ∨
    ∃ t t', s.addStylesheets C sheets = .ok t ∧ s'.addStylesheets C sheets = .ok t' ∧
      SameInfluence d t.rules t'.rules := by
  intro sheets
  induction sheets with
  | nil => intro s s' h; exact .inr ⟨s, s', rfl, rfl, h⟩
  | cons sheet sheets ih =>
    intro s s' h
    simp only [StyleSet.addStylesheets, bind, Except.bind]
    cases hs : s.addStylesheet C sheet with
    | error e => rw [addStylesheet_error hs s']; exact .inl ⟨e, rfl, rfl⟩
    | ok t =>
      obtain ⟨l, hl⟩ := addStylesheet_ok_listed hs
      rw [hl.add] at hs ⊢
      cases hs
      exact ih (h.append (.refl d l))

/-- **C87** Two style sheets of the caller that have the same influence on every element of the document give the same
page. -/
theorem C87_page (X : Externals) (html css css' : Text) (d : Doc) (hd : X.parseHtml html = .ok d)
    (l l' : List (X.engine.Sel × Block)) (hl : Listed X.colors (X.css css) l) (hl' : Listed X.colors (X.css css') l')
    (h : SameInfluence d l l') (fuel : Nat) (size : PVec2 Length) :
    X.renderHtml fuel html css size = X.renderHtml fuel html css' size := by
  have key : X.layoutDoc fuel d size (some css) = X.layoutDoc fuel d size (some css') := by
    simp only [Externals.layoutDoc, Externals.parseStylesheets, Doc.stylesheetTexts]
    cases d.styleTexts d.len d.styleElements with
    | error e => rfl
    | ok ts =>
      simp only [bind, Except.bind, pure, Except.pure, Option.toList_some, List.singleton_append, List.map_cons,
        StyleSet.addStylesheets, hl.add, hl'.add, List.nil_append]
      rcases addStylesheets_same (C := X.colors) (ts.map X.css) (s := ⟨l⟩) (s' := ⟨l'⟩) h with
        ⟨e, h1, h2⟩ | ⟨t, t', h1, h2, h3⟩
      · rw [h1, h2]
      · rw [h1, h2]
        have : BoxContext.of X.colors X.attr X.userAgent t.finish d X.env =
            BoxContext.of X.colors X.attr X.userAgent t'.finish d X.env := by
          simp only [BoxContext.of, BoxContext.mk.injEq, true_and, and_true]
          funext n parent
          exact C87_element X.colors X.attr X.userAgent t.rules t'.rules d h3 n parent
        simp only [this]
  simp only [Externals.renderHtml, Externals.layoutHtml, hd, bind, Except.bind, key]

/-! ### Changes without influence -/

/-- a selector matches nothing in the document -/
def Dead (d : Doc) (sel : S.Sel) : Prop := ∀ n, FoundElement d n → S.matches_ sel d n = .ok false

/-- **C87** Selectors that match nothing can be added or taken away. -/
theorem C87_dead (d : Doc) (a x b : List (S.Sel × Block)) (h : ∀ r ∈ x, Dead d r.1) :
    SameInfluence d (a ++ x ++ b) (a ++ b) := by
  intro n hn k
  have hx : AppliesTo d n k x = [] := by
    rw [AppliesTo, List.filterMap_eq_nil_iff]
    intro r hr
    simp only [h r hr n hn, ite_self]
  rw [AppliesTo_append, AppliesTo_append, AppliesTo_append, hx, List.append_nil]

/-- **C87** Neighbouring selectors of different specificity can be exchanged. -/
theorem C87_order (d : Doc) (a b : List (S.Sel × Block)) (r r' : S.Sel × Block)
    (h : S.specificity r.1 ≠ S.specificity r'.1) : SameInfluence d (a ++ r :: r' :: b) (a ++ r' :: r :: b) := by
  intro n _ k
  rw [AppliesTo_append, AppliesTo_append]
  congr 1
  simp only [AppliesTo, List.filterMap_cons]
  by_cases h1 : S.specificity r.1 = k
  · have h2 : S.specificity r'.1 ≠ k := fun e => h (h1.trans e.symm)
    simp [h2]
  · simp [h1]

/-- **C87** Neighbouring selectors that never match the same element can be exchanged. -/
theorem C87_disjoint (d : Doc) (a b : List (S.Sel × Block)) (r r' : S.Sel × Block)
    (h : ∀ n, FoundElement d n → S.matches_ r.1 d n = .ok false ∨ S.matches_ r'.1 d n = .ok false) :
    SameInfluence d (a ++ r :: r' :: b) (a ++ r' :: r :: b) := by
  intro n hn k
  rw [AppliesTo_append, AppliesTo_append]
  congr 1
  simp only [AppliesTo, List.filterMap_cons]
  rcases h n hn with e | e <;> simp [e]

/-- **C87** A selector list is the same as separate rules with the same declarations. -/
theorem C87_group (C : CssColors) (as bs : List (RawRule S)) (sels sels' : List S.Sel) (items : List RawItem)
    (l : List (S.Sel × Block)) :
    Listed C (as ++ .rule (sels ++ sels') items :: bs) l ↔
      Listed C (as ++ .rule sels items :: .rule sels' items :: bs) l := by
  induction as generalizing l with
  | nil =>
    constructor
    · intro h
      cases h with
      | rule hb h => simpa using Listed.rule hb (Listed.rule hb h)
    · intro h
      cases h with
      | rule hb h =>
        cases h with
        | rule hb' h =>
          cases hb.symm.trans hb'
          simpa using Listed.rule (sels := sels ++ sels') hb h
  | cons a as ih =>
    constructor
    · intro h
      cases h with
      | error h => exact .error ((ih _).1 h)
      | rule hb h => exact .rule hb ((ih _).1 h)
    · intro h
      cases h with
      | error h => exact .error ((ih _).2 h)
      | rule hb h => exact .rule hb ((ih _).2 h)

/-! ### Examples -/

/-- rules for the examples -/
def demoRule (k : Nat) (m : Bool) (b : Block) : demoEngine.Sel × Block := ((k, m), b)

-- a selector that matches nothing
example (d : Doc) : SameInfluence d (demoRules ++ [demoRule 5 false demoBlock₁] ++ [demoRule 1 true demoBlock₂])
    (demoRules ++ [demoRule 1 true demoBlock₂]) :=
  C87_dead d _ _ _ fun r hr => by
    cases List.mem_singleton.1 hr
    exact fun _ _ => rfl

-- rules of specificity 1 and 2, in either order; both rules apply
example (d : Doc) (n : NodeId) : SameInfluence d [demoRule 1 true demoBlock₁, demoRule 2 true demoBlock₂]
      [demoRule 2 true demoBlock₂, demoRule 1 true demoBlock₁] ∧
    AppliesTo d n 2 [demoRule 1 true demoBlock₁, demoRule 2 true demoBlock₂] = [(.ok true, demoBlock₂)] :=
  ⟨C87_order d [] [] (demoRule 1 true demoBlock₁) (demoRule 2 true demoBlock₂)
    (by simp [demoRule, demoEngine]), rfl⟩

-- the order of rules of the same specificity that both match does matter
example : ∃ d : Doc, ¬ SameInfluence d [demoRule 1 true demoBlock₁, demoRule 1 true demoBlock₂]
    [demoRule 1 true demoBlock₂, demoRule 1 true demoBlock₁] := by
  refine ⟨demoDoc, fun h => ?_⟩
  have he : FoundElement demoDoc 0 :=
    ⟨Node.new (.element ⟨⟨none, nsHtml, "p"⟩, []⟩), ⟨⟨none, nsHtml, "p"⟩, []⟩, rfl, rfl⟩
  have := congrArg (fun l => l.map fun r => r.2.important) (h 0 he 1)
  revert this
  decide +kernel

/-- `display: block` -/
def demoItems : List RawItem := [.decl "display".toList [.ident "block".toList]]

-- grouped and separate rules, read as the same list
example : ∃ b : Block, b.entries.length = 1 ∧
    Listed noColors [.rule [(demoRule 1 true b).1, (demoRule 2 false b).1] demoItems]
      [demoRule 1 true b, demoRule 2 false b] ∧
    Listed noColors [.rule [(demoRule 1 true b).1] demoItems, .rule [(demoRule 2 false b).1] demoItems]
      [demoRule 1 true b, demoRule 2 false b] := by
  have hb : Block.parse noColors demoItems = .ok (Block.one (.value .display (.generatingBox .block .flow))) := by
    rfl
  have h : ∀ b, Block.parse noColors demoItems = .ok b →
      Listed noColors [.rule [(demoRule 1 true b).1, (demoRule 2 false b).1] demoItems]
        [demoRule 1 true b, demoRule 2 false b] := fun b hb => .rule hb .nil
  exact ⟨_, rfl, h _ hb, (C87_group noColors [] [] [_] [_] demoItems _).1 (h _ hb)⟩

end Sinab
