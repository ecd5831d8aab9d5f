import Verif.Lemmas.ConstructFuel
import Mathlib.Data.List.TakeDrop

/-! White space in the box tree. -/

namespace Sinab

/-! ## Collapsing -/

theorem squeeze_nonWs {c : Char} {t : Text} (h : htmlSpace c = false) (b : Bool) :
    squeeze b (c :: t) = c :: squeeze false t := by simp [squeeze, h]

theorem squeeze_append_nonWs : ∀ (a t : Text) (b : Bool), (∀ c ∈ a, htmlSpace c = false) → a ≠ [] →
    squeeze b (a ++ t) = a ++ squeeze false t
  | [], _, _, _, h => absurd rfl h
  | c :: a, t, b, h, _ => by
    rw [List.cons_append, squeeze_nonWs (h c (by simp))]
    cases a with
    | nil => rfl
    | cons d a => rw [squeeze_append_nonWs (d :: a) t false (fun x hx => h x (by simp [hx])) (by simp)]; rfl

theorem squeeze_dropWhile : ∀ (t : Text), squeeze true t = squeeze true (t.dropWhile htmlSpace)
  | [] => rfl
  | c :: t => by
    by_cases h : htmlSpace c = true
    · simp only [squeeze, h, if_true, List.dropWhile_cons]
      exact squeeze_dropWhile t
    · simp [h]

theorem squeeze_ws {c : Char} {t : Text} (h : htmlSpace c = true) :
    squeeze false (c :: t) = ' ' :: squeeze true t := by simp [squeeze, h]

theorem squeeze_true_eq {t : Text} (h : ∀ c ∈ t.head?, htmlSpace c = false) (b : Bool) :
    squeeze true t = squeeze b t := by
  cases t with
  | nil => rfl
  | cons c t => rw [squeeze_nonWs (h c rfl), squeeze_nonWs (h c rfl)]

theorem dropWhile_head (t : Text) : ∀ c ∈ (t.dropWhile htmlSpace).head?, htmlSpace c = false := by
  induction t with
  | nil => simp
  | cons c t ih =>
    by_cases h : htmlSpace c = true
    · simpa [List.dropWhile_cons, h] using ih
    · simp [h]

theorem collapseLoop_eq : ∀ (n : Nat) (t : Text), t.length ≤ n → collapseLoop n t = squeeze false t
  | 0, t, h => by
    have : t = [] := List.length_eq_zero_iff.1 (by omega)
    subst this
    rfl
  | n + 1, t, h => by
    unfold collapseLoop
    rw [isAsciiWs_eq, List.span_eq_takeWhile_dropWhile]
    have hsplit : t.takeWhile (fun c => !htmlSpace c) ++ t.dropWhile (fun c => !htmlSpace c) = t :=
      List.takeWhile_append_dropWhile
    have hpre : ∀ c ∈ t.takeWhile (fun c => !htmlSpace c), htmlSpace c = false := by
      intro c hc
      have := List.all_eq_true.1 List.all_takeWhile c hc
      simpa using this
    generalize ha : t.takeWhile (fun c => !htmlSpace c) = a at *
    have key : ∀ r, t = a ++ r → squeeze false t = a ++ squeeze false r := by
      intro r hr
      subst hr
      cases a with
      | nil => rfl
      | cons x a => exact squeeze_append_nonWs _ _ _ hpre (by simp)
    cases hr : t.dropWhile (fun c => !htmlSpace c) with
    | nil =>
      simp only
      rw [hr] at hsplit
      rw [key [] hsplit.symm]
      simp [squeeze]
    | cons w r =>
      simp only
      have hw : htmlSpace w = true := by
        have := List.head?_dropWhile_not (fun c => !htmlSpace c) t
        rw [hr] at this
        simpa using this
      rw [hr] at hsplit
      rw [key _ hsplit.symm, squeeze_ws hw]
      have hd : squeeze true r = squeeze true ((w :: r).dropWhile htmlSpace) := by
        rw [List.dropWhile_cons, if_pos hw]
        exact squeeze_dropWhile r
      rw [hd]
      cases hr2 : (w :: r).dropWhile htmlSpace with
      | nil => simp [squeeze]
      | cons x r2 =>
        simp only
        have hlen : (x :: r2).length ≤ n := by
          have h1 : (x :: r2).length ≤ r.length := by
            rw [← hr2, List.dropWhile_cons, if_pos hw]
            exact (List.dropWhile_sublist _).length_le
          have h2 := congrArg List.length hsplit
          simp only [List.length_append, List.length_cons] at h2 h1 ⊢
          omega
        rw [collapseLoop_eq n _ hlen]
        have := dropWhile_head (w :: r)
        rw [hr2] at this
        rw [squeeze_true_eq this false]

/-! ## Text runs are not empty -/

mutual

/-- text runs in the flow are not empty -/
def InlineLevelBox.filled : InlineLevelBox → Bool
  | .inlineBox _ _ _ ks => filledAll ks
  | .textRun _ t _ => !t.isEmpty
  | .outOfFlowAbsolutelyPositionedBox _ _ | .outOfFlowFloatBox _ _ => true

def filledAll : List InlineLevelBox → Bool
  | [] => true
  | b :: bs => b.filled && filledAll bs

end

theorem filledAll_append (a b : List InlineLevelBox) :
    filledAll (a ++ b) = (filledAll a && filledAll b) := by
  induction a with
  | nil => simp [filledAll]
  | cons x a ih => simp [filledAll, ih, Bool.and_assoc]

theorem filledAll_reverse (a : List InlineLevelBox) : filledAll a.reverse = filledAll a := by
  induction a with
  | nil => rfl
  | cons x a ih => simp [filledAll, filledAll_append, ih, Bool.and_comm]

theorem inlineText_append (a b : List InlineLevelBox) :
    inlineText (a ++ b) = inlineText a ++ inlineText b := by
  induction a with
  | nil => simp [inlineText]
  | cons x a ih => simp [inlineText, ih]

theorem inlineSteps_append (a b : List InlineLevelBox) :
    inlineSteps (a ++ b) = inlineSteps a + inlineSteps b := by
  induction a with
  | nil => simp [inlineSteps]
  | cons x a ih => simp [inlineSteps, ih]; omega

theorem inlineSteps_reverse (a : List InlineLevelBox) : inlineSteps a.reverse = inlineSteps a := by
  induction a with
  | nil => rfl
  | cons x a ih => simp [inlineSteps, inlineSteps_append, ih]; omega

theorem atGap_append (a : Text) {t : Text} (h : t ≠ []) : atGap (a ++ t) = atGap t := by
  unfold atGap
  rw [List.getLast?_append_of_ne_nil _ h]

/-- what lies before the cursor of `handle_leading_whitespace` -/
def suspended : List (List InlineLevelBox) → Text
  | [] => []
  | it :: st => suspended st ++ inlineText it.reverse

def suspendedSteps : List (List InlineLevelBox) → Nat
  | [] => 0
  | it :: st => 1 + inlineSteps it + suspendedSteps st

theorem leadingLoop_eq : ∀ (n : Nat) (iter : List InlineLevelBox) (stack : List (List InlineLevelBox)),
    inlineSteps iter + suspendedSteps stack < n → filledAll iter = true →
    (∀ it ∈ stack, filledAll it = true) →
    leadingLoop n iter stack = !atGap (suspended stack ++ inlineText iter.reverse)
  | 0, _, _, h, _, _ => by omega
  | n + 1, iter, stack, h, hf, hs => by
    unfold leadingLoop
    cases iter with
    | nil =>
      cases stack with
      | nil => rfl
      | cons it st =>
        simp only
        rw [leadingLoop_eq n it st ?_ (hs it (by simp)) fun x hx => hs x (by simp [hx])]
        · simp [suspended, inlineText]
        · simp only [suspendedSteps, inlineSteps] at h; omega
    | cons b rest =>
      simp only [filledAll, Bool.and_eq_true] at hf
      simp only [inlineSteps] at h
      have hrev : inlineText (b :: rest).reverse = inlineText rest.reverse ++ b.text := by
        rw [List.reverse_cons, inlineText_append]
        simp [inlineText]
      cases b with
      | textRun st t f =>
        have hne : t ≠ [] := by simpa [InlineLevelBox.filled] using hf.1
        simp only [hrev, InlineLevelBox.text]
        rw [← List.append_assoc, atGap_append _ hne]
        unfold atGap
        obtain ⟨c, hc⟩ := Option.ne_none_iff_exists'.1 (mt List.getLast?_eq_none_iff.1 hne)
        simp [hc]
      | outOfFlowAbsolutelyPositionedBox st c =>
        simp only [hrev, InlineLevelBox.text, List.append_nil]
        exact leadingLoop_eq n rest stack (by simp [InlineLevelBox.steps] at h; omega) hf.2 hs
      | outOfFlowFloatBox st c =>
        simp only [hrev, InlineLevelBox.text, List.append_nil]
        exact leadingLoop_eq n rest stack (by simp [InlineLevelBox.steps] at h; omega) hf.2 hs
      | inlineBox st f l ks =>
        simp only [hrev, InlineLevelBox.text]
        rw [leadingLoop_eq n ks.reverse (rest :: stack)]
        · simp [suspended]
        · simp only [InlineLevelBox.steps] at h
          simp only [inlineSteps_reverse, suspendedSteps]; omega
        · rw [filledAll_reverse]; exact hf.1
        · intro it hit
          rcases List.mem_cons.1 hit with rfl | hit
          · exact hf.2
          · exact hs it hit

/-! ## Adding text -/

/-- what a text of the source contributes after the text `acc` -/
def contribution (st : Style) (acc t : Text) : Text :=
  if st.keepsSpace then t else squeeze (atGap acc) t

/-- text added after `boxes`, where `out` is what is left of it -/
def addRun (C : BoxContext) (st : Style) (out : Text) (boxes : List InlineLevelBox) :
    List InlineLevelBox :=
  if out = [] then boxes else appendText C st out boxes

theorem textInto_collapse (C : BoxContext) (st : Style) (t : Text) (boxes : List InlineLevelBox) :
    (Builder.handleTextCollapse C ⟨st, [], boxes, [], false⟩ t st).inlines =
      addRun C st (squeeze (!leadingLoop (inlineSteps boxes + 1) boxes.reverse []) t) boxes := by
  unfold Builder.handleTextCollapse Builder.handleLeadingWhitespace addRun
  rw [isAsciiWs_eq]
  cases t with
  | nil => simp [squeeze]
  | cons c t =>
    by_cases hc : htmlSpace c = true
    · simp only [hc, Bool.not_true, Bool.false_eq_true, if_false, Builder.current]
      have hd := dropWhile_head (c :: t)
      have hdl := squeeze_dropWhile (c :: t)
      have hf : squeeze false (c :: t) = ' ' :: squeeze true ((c :: t).dropWhile htmlSpace) := by
        rw [squeeze_ws hc, List.dropWhile_cons, if_pos hc]
        rw [squeeze_dropWhile t]
      generalize hr : (c :: t).dropWhile htmlSpace = r at *
      have hcol : collapseLoop r.length r = squeeze true r := by
        rw [collapseLoop_eq _ _ (Nat.le_refl _), ← squeeze_true_eq hd]
      cases leadingLoop (inlineSteps boxes + 1) boxes.reverse [] with
      | true =>
        simp only [Bool.not_true, hf, reduceCtorEq, if_false, Bool.true_or, if_true, hcol]
        rfl
      | false =>
        simp only [Bool.not_false, hdl, Bool.false_or]
        cases r with
        | nil => simp [squeeze]
        | cons x r =>
          have hx : htmlSpace x = false := hd x rfl
          simp only [List.isEmpty_cons, Bool.not_false, if_true, Bool.false_eq_true, if_false,
            List.nil_append, hcol]
          rw [squeeze_nonWs hx]
          simp [Builder.setCurrent]
    · simp only [Bool.not_eq_true] at hc
      simp only [hc, Bool.not_false, if_true, Bool.false_or, List.isEmpty_cons, Bool.false_eq_true,
        if_false, List.nil_append, Builder.current]
      rw [collapseLoop_eq _ _ (Nat.le_refl _), squeeze_nonWs hc, squeeze_nonWs hc]
      simp [Builder.setCurrent]

theorem textInto_any (C : BoxContext) (st : Style) (t : Text) (boxes : List InlineLevelBox) :
    ∃ b, textInto C st t boxes = addRun C st (if st.keepsSpace then t else squeeze b t) boxes := by
  unfold textInto Style.keepsSpace
  have hp : (Builder.handleTextPreserve C ⟨st, [], boxes, [], false⟩ t st).inlines =
      addRun C st t boxes := by
    unfold Builder.handleTextPreserve addRun
    cases t <;> simp [Builder.setCurrent, Builder.current]
  have hc := textInto_collapse C st t boxes
  refine ⟨!leadingLoop (inlineSteps boxes + 1) boxes.reverse [], ?_⟩
  split <;> simp_all

theorem textInto_eq (C : BoxContext) (st : Style) (t : Text) {boxes : List InlineLevelBox}
    (hf : filledAll boxes = true) :
    textInto C st t boxes = addRun C st (contribution st (inlineText boxes) t) boxes := by
  unfold textInto contribution Style.keepsSpace
  have hp : (Builder.handleTextPreserve C ⟨st, [], boxes, [], false⟩ t st).inlines =
      addRun C st t boxes := by
    unfold Builder.handleTextPreserve addRun
    cases t <;> simp [Builder.setCurrent, Builder.current]
  have hc := textInto_collapse C st t boxes
  rw [leadingLoop_eq _ boxes.reverse [] (by simp [inlineSteps_reverse, suspendedSteps])
    (by rw [filledAll_reverse]; exact hf) (by simp)] at hc
  simp only [suspended, List.nil_append, List.reverse_reverse, Bool.not_not] at hc
  split <;> simp_all

theorem appendText_cases (C : BoxContext) (st : Style) (t : Text) (boxes : List InlineLevelBox) :
    (∃ s old f pre, boxes = pre ++ [.textRun s old f] ∧
      appendText C st t boxes = pre ++ [.textRun s (old ++ t) f]) ∨
    ((∀ s old f, boxes.getLast? ≠ some (.textRun s old f)) ∧
      appendText C st t boxes = boxes ++ [.textRun st t (C.fontOf st)]) := by
  unfold appendText
  split
  · rename_i s old f h
    obtain ⟨pre, rfl⟩ := List.getLast?_eq_some_iff.1 h
    exact .inl ⟨s, old, f, pre, rfl, by simp⟩
  · rename_i h
    exact .inr ⟨fun s old f e => h s old f e, rfl⟩

theorem addRun_text (C : BoxContext) (st : Style) (t : Text) (boxes : List InlineLevelBox) :
    inlineText (addRun C st t boxes) = inlineText boxes ++ t := by
  unfold addRun
  split
  · rename_i h; simp [h]
  · rcases appendText_cases C st t boxes with ⟨s, old, f, pre, rfl, h⟩ | ⟨_, h⟩ <;> rw [h] <;>
      simp [inlineText_append, inlineText, InlineLevelBox.text]

theorem addRun_filled (C : BoxContext) (st : Style) (t : Text) {boxes : List InlineLevelBox}
    (hf : filledAll boxes = true) : filledAll (addRun C st t boxes) = true := by
  unfold addRun
  split
  · exact hf
  · rename_i hne
    rcases appendText_cases C st t boxes with ⟨s, old, f, pre, rfl, h⟩ | ⟨_, h⟩ <;> rw [h] <;>
      simp_all [filledAll_append, filledAll, InlineLevelBox.filled]

theorem textInto_filled (C : BoxContext) (st : Style) (t : Text) {boxes : List InlineLevelBox}
    (hf : filledAll boxes = true) : filledAll (textInto C st t boxes) = true := by
  obtain ⟨b, h⟩ := textInto_any C st t boxes
  rw [h]
  exact addRun_filled C st _ hf

theorem textInto_text (C : BoxContext) (st : Style) (t : Text) {boxes : List InlineLevelBox}
    (hf : filledAll boxes = true) :
    inlineText (textInto C st t boxes) =
      inlineText boxes ++ contribution st (inlineText boxes) t := by
  rw [textInto_eq C st t hf, addRun_text]

/-! ## Facts about collapsing -/

theorem squeeze_gap_append : ∀ (a b : Text) (g : Bool),
    squeeze g (a ++ b) = squeeze g a ++
      squeeze (if squeeze g a = [] then g else atGap (squeeze g a)) b := by
  intro a
  induction a with
  | nil => intro b g; simp [squeeze]
  | cons c a ih =>
    intro b g
    have hst : ∀ (x : Char) (g' : Bool), (atGap [x] = g') →
        (if squeeze g' a = [] then g' else atGap (squeeze g' a)) =
        atGap (x :: squeeze g' a) := by
      intro x g' hx
      by_cases he : squeeze g' a = []
      · simp [he, hx]
      · rw [if_neg he]
        exact (atGap_append [x] he).symm
    by_cases hc : htmlSpace c = true
    · cases g with
      | true =>
        simp only [List.cons_append, squeeze, hc, if_true]
        exact ih b true
      | false =>
        simp only [List.cons_append, squeeze, hc, if_true, Bool.false_eq_true, if_false, reduceCtorEq]
        rw [ih b true, hst ' ' true (by decide)]
    · simp only [Bool.not_eq_true] at hc
      simp only [List.cons_append, squeeze_nonWs hc, reduceCtorEq, if_false]
      rw [ih b false, hst c false ?_]
      simp only [atGap, List.getLast?_singleton]
      have h1 : c ≠ ' ' := by rintro rfl; simp [htmlSpace] at hc
      have h2 : c ≠ '\n' := by rintro rfl; simp [htmlSpace] at hc
      simp [h1, h2]

/-- collapsing in pieces is collapsing the whole -/
theorem squeeze_pieces (ts : List Text) : ∀ (acc : Text),
    joined (squeeze true acc) (ts.map fun t => (false, t)) = squeeze true (acc ++ ts.flatten) := by
  induction ts with
  | nil => intro acc; simp [joined]
  | cons t ts ih =>
    intro acc
    simp only [List.map_cons, joined, Bool.false_eq_true, if_false, List.flatten_cons]
    have : squeeze true acc ++ squeeze (atGap (squeeze true acc)) t = squeeze true (acc ++ t) := by
      rw [squeeze_gap_append]
      by_cases he : squeeze true acc = []
      · rw [he]; simp [atGap]
      · rw [if_neg he]
    rw [this, ih (acc ++ t), List.append_assoc]

theorem squeeze_visible (t : Text) : ∀ g, visible (squeeze g t) = visible t := by
  induction t with
  | nil => intro g; rfl
  | cons c t ih =>
    intro g
    have hsp : htmlSpace ' ' = true := by decide
    by_cases hc : htmlSpace c = true
    · have h0 : visible (c :: t) = visible t := by simp [visible, hc]
      rw [h0]
      cases g with
      | true => simp only [squeeze, hc, if_true]; exact ih true
      | false =>
        rw [squeeze_ws hc]
        have : visible (' ' :: squeeze true t) = visible (squeeze true t) := by simp [visible, hsp]
        rw [this, ih]
    · simp only [Bool.not_eq_true] at hc
      rw [squeeze_nonWs hc]
      have h0 : ∀ u, visible (c :: u) = .char c :: visible u := by intro u; simp [visible, hc]
      rw [h0, h0, ih]

theorem wordsFrom_squeeze (x t : Text) : ∀ (g : Bool) (cur : Text), (g = true → cur = []) →
    wordsFrom cur (squeeze g t ++ x) = wordsFrom cur (t ++ x) := by
  induction t with
  | nil => intro g cur h; rfl
  | cons c t ih =>
    intro g cur h
    have hsp : htmlSpace ' ' = true := by decide
    by_cases hc : htmlSpace c = true
    · cases g with
      | true =>
        simp only [squeeze, hc, if_true, List.cons_append, wordsFrom, h rfl]
        exact ih true [] fun _ => rfl
      | false =>
        rw [squeeze_ws hc]
        simp only [List.cons_append, wordsFrom, hc, hsp, if_true]
        rw [ih true [] fun _ => rfl]
    · simp only [Bool.not_eq_true] at hc
      rw [squeeze_nonWs hc]
      simp only [List.cons_append, wordsFrom, hc, Bool.false_eq_true, if_false]
      exact ih false _ (by simp)

theorem wordsFrom_append (a : Text) : ∀ cur, ∃ done cur',
    (∀ y, wordsFrom cur (a ++ y) = done ++ wordsFrom cur' y) ∧
      (a ≠ [] → atGap a = true → cur' = []) ∧ (a = [] → cur' = cur) := by
  induction a with
  | nil => intro cur; exact ⟨[], cur, fun y => rfl, fun h => absurd rfl h, fun _ => rfl⟩
  | cons c a ih =>
    intro cur
    have hws : a = [] → atGap (c :: a) = true → htmlSpace c = true := by
      rintro rfl h
      simp only [atGap, List.getLast?_singleton, Bool.or_eq_true, decide_eq_true_eq] at h
      rcases h with rfl | rfl <;> decide
    have hat : a ≠ [] → atGap (c :: a) = atGap a := fun h => atGap_append [c] h
    by_cases hc : htmlSpace c = true
    · obtain ⟨d, cur', h1, h2, h3⟩ := ih []
      refine ⟨(if cur = [] then [] else [cur]) ++ d, cur', ?_, ?_, by simp⟩
      · intro y
        simp only [List.cons_append, wordsFrom, hc, if_true, h1]
        split <;> simp
      · intro _ hg
        by_cases ha : a = []
        · exact h3 ha
        · exact h2 ha (by rwa [hat ha] at hg)
    · obtain ⟨d, cur', h1, h2, h3⟩ := ih (cur ++ [c])
      refine ⟨d, cur', ?_, ?_, by simp⟩
      · intro y
        simp only [List.cons_append, wordsFrom, hc, Bool.false_eq_true, if_false, h1]
      · intro _ hg
        by_cases ha : a = []
        · exact absurd (hws ha hg) hc
        · exact h2 ha (by rwa [hat ha] at hg)

/-- collapsing does not change where words begin and end -/
theorem words_contribution (acc t x : Text) :
    words (acc ++ squeeze (atGap acc) t ++ x) = words (acc ++ t ++ x) := by
  obtain ⟨d, cur', h1, h2, h3⟩ := wordsFrom_append acc []
  unfold words
  rw [List.append_assoc, List.append_assoc, h1, h1, wordsFrom_squeeze]
  intro hg
  by_cases ha : acc = []
  · exact h3 ha
  · exact h2 ha hg

theorem words_joined (ps : List (Bool × Text)) : ∀ (acc src : Text),
    (∀ x, words (acc ++ x) = words (src ++ x)) →
    words (joined acc ps) = words (src ++ (ps.map (·.2)).flatten) := by
  induction ps with
  | nil => intro acc src h; simpa [joined] using h []
  | cons p ps ih =>
    intro acc src h
    obtain ⟨keep, t⟩ := p
    simp only [joined, List.map_cons, List.flatten_cons]
    rw [ih _ (src ++ t) ?_, List.append_assoc]
    intro x
    cases keep with
    | true => simpa using h (t ++ x)
    | false =>
      simp only [Bool.false_eq_true, if_false]
      rw [words_contribution, List.append_assoc, List.append_assoc]
      exact h (t ++ x)

theorem squeeze_no_double (t : Text) : ∀ g, (squeeze g t).IsChain fun a b => ¬ (htmlSpace a = true ∧ htmlSpace b = true) := by
  induction t with
  | nil => intro g; simp [squeeze]
  | cons c t ih =>
    intro g
    have hd : ∀ c ∈ (squeeze true t).head?, htmlSpace c = false := by
      clear ih
      induction t with
      | nil => simp [squeeze]
      | cons d t ih =>
        by_cases hc : htmlSpace d = true
        · simpa [squeeze, hc] using ih
        · simp only [Bool.not_eq_true] at hc
          rw [squeeze_nonWs hc]
          simpa using hc
    by_cases hc : htmlSpace c = true
    · cases g with
      | true => simp only [squeeze, hc, if_true]; exact ih true
      | false =>
        rw [squeeze_ws hc]
        refine List.isChain_cons.2 ⟨fun y hy h => ?_, ih true⟩
        rw [hd y hy] at h
        simp at h
    · simp only [Bool.not_eq_true] at hc
      rw [squeeze_nonWs hc]
      refine List.isChain_cons.2 ⟨fun y hy h => ?_, ih false⟩
      rw [hc] at h
      simp at h

end Sinab
