import Verif.Lemmas.SelectorMatch
import Verif.Lemmas.DomLegal
import Verif.Spec.Page

/-! C67: selectors select the elements that CSS says. -/

namespace Sinab

open Doc

variable {d : Doc} {kids : NodeId → List NodeId}

theorem attrIs_iff (e : ElementData) (name : String) (v : Text) :
    AttrIs e name v ↔ e.getAttr name = some v := by
  unfold AttrIs ElementData.getAttr
  rw [Option.map_eq_some_iff]
  constructor
  · rintro ⟨l, a, r, h1, h2, h3, h4, h5⟩
    refine ⟨a, List.find?_eq_some_iff_append.2 ⟨by simp [h2, h3], l, r, h1, ?_⟩, h4⟩
    intro b hb
    have := h5 b hb
    rw [Bool.not_eq_true', decide_eq_false_iff_not]
    exact this
  · rintro ⟨a, ha, h4⟩
    obtain ⟨h2, l, r, h1, h5⟩ := List.find?_eq_some_iff_append.1 ha
    simp only [decide_eq_true_eq] at h2
    refine ⟨l, a, r, h1, h2.1, h2.2, h4, ?_⟩
    intro b hb
    have := h5 b hb
    rw [Bool.not_eq_true', decide_eq_false_iff_not] at this
    exact this

theorem element_ok {n : NodeId} {e : ElementData} (hn : n < d.len) (he : ElementAt d n e) :
    d.element n = .ok e := by
  unfold ElementAt at he
  simp only [Doc.element, get_ok d n hn, bind, Except.bind, he, NodeData.asElement]
  rfl

theorem nth_prev (h : d.WF kids) {n : NodeId} (hn : n < d.len) (a b : Int) :
    ∃ c, d.nthMatches n a b false false = .ok c ∧
      (c = true ↔ ∃ i j, Place kids (IsElement d) n i j ∧ InSeries a b i) := by
  rcases orphan_or h hn with ⟨hp, hno⟩ | ⟨p, l₁, l₂, hk⟩
  · have : d.countSiblings (d.prevSiblingElement d.len) false n (d.len + 1) n = .ok 0 := by
      simp only [countSiblings, (C31_orphan h hn hp _).2.1, bind, Except.bind]; rfl
    refine ⟨_, by simp only [nthMatches, Bool.false_eq_true, if_false, this, bind, Except.bind]; rfl, ?_⟩
    rw [isNth_iff]
    simp [place_orphan hno]
  · have hlen : l₁.length < d.len + 1 := by
      have := h.kids_length p; rw [hk] at this; simp at this; omega
    refine ⟨_, by
      simp only [nthMatches, Bool.false_eq_true, if_false, count_prev h hk hlen, bind, Except.bind]; rfl, ?_⟩
    rw [isNth_iff]
    simp [place_iff h hk (isElem_iff (d := d))]

theorem nth_next (h : d.WF kids) {n : NodeId} (hn : n < d.len) (a b : Int) :
    ∃ c, d.nthMatches n a b false true = .ok c ∧
      (c = true ↔ ∃ i j, Place kids (IsElement d) n i j ∧ InSeries a b j) := by
  rcases orphan_or h hn with ⟨hp, hno⟩ | ⟨p, l₁, l₂, hk⟩
  · have : d.countSiblings (d.nextSiblingElement d.len) false n (d.len + 1) n = .ok 0 := by
      simp only [countSiblings, (C31_orphan h hn hp _).1, bind, Except.bind]; rfl
    refine ⟨_, by simp only [nthMatches, if_true, this, bind, Except.bind]; rfl, ?_⟩
    rw [isNth_iff]
    simp [place_orphan hno]
  · have hlen : l₂.length < d.len + 1 := by
      have := h.kids_length p; rw [hk] at this; simp at this; omega
    refine ⟨_, by
      simp only [nthMatches, if_true, count_next h hk hlen, bind, Except.bind]; rfl, ?_⟩
    rw [isNth_iff]
    simp [place_iff h hk (isElem_iff (d := d))]

/-- A class name that is compared with a single word. -/
theorem word_single {v a : Text} (ha : a ≠ [] ∧ ∀ c ∈ a, ¬ IsSpaceChar c) : WordOf v a ↔ v = a := by
  constructor
  · rintro ⟨-, -, l, r, rfl, hl, hr⟩
    have l0 : l = [] := by
      rcases List.eq_nil_or_concat l with rfl | ⟨l', c, rfl⟩
      · rfl
      · exact absurd (hl c (by simp)) (ha.2 c (by simp))
    have r0 : r = [] := by
      cases r with
      | nil => rfl
      | cons c r => exact absurd (hr c rfl) (ha.2 c (by simp))
    simp [l0, r0]
  · rintro rfl
    exact ⟨ha.1, ha.2, [], [], by simp, by simp, by simp⟩

/-- the classes as the code sees them: the whole attribute is one class -/
def WholeClass (e : ElementData) (v : Text) : Prop := AttrIs e "class" v

theorem simple_ok (h : d.WF kids) {n : NodeId} (hn : n < d.len) {e : ElementData}
    (he : ElementAt d n e) {s : SimpleSel} (hs : s.TypeFree) :
    ∃ b, d.matchesSimple n s = .ok b ∧ (b = true ↔ SelectsSimple d kids WholeClass n e s) := by
  have hel := element_ok hn he
  have hie : IsElement d n := ⟨e, he⟩
  cases s with
  | universal => exact ⟨true, rfl, by simp [SelectsSimple]⟩
  | type name =>
    by_cases hh : e.name.ns = nsHtml
    · refine ⟨decide (e.name.localName = name.toLower), ?_, ?_⟩
      · simp only [matchesSimple, isHtmlElement, hasLocalName, hel, bind, Except.bind, pure, Except.pure,
          selectName, hh, decide_true, if_true]
      · simp [SelectsSimple, hh]
    · refine ⟨decide (e.name.localName = name), ?_, ?_⟩
      · simp only [matchesSimple, isHtmlElement, hasLocalName, hel, bind, Except.bind, pure, Except.pure,
          selectName, hh, decide_false, Bool.false_eq_true, if_false]
      · simp [SelectsSimple, hh]
  | noNamespace =>
    exact ⟨decide (e.name.ns = ""), by simp [matchesSimple, hasNamespace, hel, bind, Except.bind, pure, Except.pure],
      by simp [SelectsSimple]⟩
  | id v =>
    refine ⟨_, by simp only [matchesSimple, hasId, hel, bind, Except.bind, pure, Except.pure]; rfl, ?_⟩
    simp only [SelectsSimple, attrIs_iff]
    cases e.getAttr "id" with
    | none => simp
    | some a => simp [CaseSensitivity.eq, eq_comm]
  | cls v =>
    refine ⟨_, by simp only [matchesSimple, hasClass, hel, bind, Except.bind, pure, Except.pure]; rfl, ?_⟩
    simp only [SelectsSimple, WholeClass, attrIs_iff]
    cases e.getAttr "class" with
    | none => simp
    | some a => simp [CaseSensitivity.eq, eq_comm]
  | attr ns name op =>
    by_cases hh : e.name.ns = nsHtml
    · refine ⟨_, by
        simp only [matchesSimple, isHtmlElement, attrMatches, hel, bind, Except.bind, pure, Except.pure,
          selectName, hh, decide_true, if_true]; rfl, ?_⟩
      simp only [SelectsSimple, hh, List.any_eq_true, Bool.and_eq_true, decide_eq_true_eq]
      refine exists_congr fun a => and_congr_right fun _ => ?_
      cases ns <;> simp [hh] <;> tauto
    · refine ⟨_, by
        simp only [matchesSimple, isHtmlElement, attrMatches, hel, bind, Except.bind, pure, Except.pure,
          selectName, hh, decide_false, Bool.false_eq_true, if_false]; rfl, ?_⟩
      simp only [SelectsSimple, hh, List.any_eq_true, Bool.and_eq_true, decide_eq_true_eq]
      refine exists_congr fun a => and_congr_right fun _ => ?_
      cases ns <;> simp [hh] <;> tauto
  | root =>
    obtain ⟨r, hr, hp⟩ := parent_child h hn hie
    refine ⟨r.isNone, by simp only [matchesSimple, isRoot, hr, bind, Except.bind]; rfl, ?_⟩
    simp only [SelectsSimple, ← hp]
    cases r <;> simp
  | empty =>
    obtain ⟨b, hb, hb'⟩ := C31_empty h hn (Nat.le_refl _)
    refine ⟨b, hb, ?_⟩
    rw [hb']
    simp only [SelectsSimple, isElem_false]
  | firstChild =>
    obtain ⟨r, hr, hp⟩ := prev_none_iff h hn hie
    refine ⟨r.isNone, by simp only [matchesSimple, hr, bind, Except.bind]; rfl, ?_⟩
    simp only [SelectsSimple, ← hp, Option.isNone_iff_eq_none]
  | lastChild =>
    obtain ⟨r, hr, hp⟩ := next_none_iff h hn hie
    refine ⟨r.isNone, by simp only [matchesSimple, hr, bind, Except.bind]; rfl, ?_⟩
    simp only [SelectsSimple, ← hp, Option.isNone_iff_eq_none]
  | onlyChild =>
    obtain ⟨r, hr, hp⟩ := prev_none_iff h hn hie
    obtain ⟨r', hr', hp'⟩ := next_none_iff h hn hie
    refine ⟨r.isNone && r'.isNone, ?_, ?_⟩
    · simp only [matchesSimple, hr, hr', bind, Except.bind]
      cases r <;> rfl
    · simp only [SelectsSimple, forall_and, ← hp, ← hp', Bool.and_eq_true, Option.isNone_iff_eq_none]
  | nthChild a b => exact nth_prev h hn a b
  | nthLastChild a b => exact nth_next h hn a b
  | nthOfType a b => exact hs.elim
  | nthLastOfType a b => exact hs.elim
  | onlyOfType => exact hs.elim

theorem compound_ok (h : d.WF kids) {n : NodeId} (hn : n < d.len) {e : ElementData}
    (he : ElementAt d n e) : ∀ {parts : List SelPart}, (∀ part ∈ parts, part.simple.TypeFree) →
    ∃ b, d.matchesCompound n parts = .ok b ∧ (b = true ↔ SelectsCompound d kids WholeClass parts n)
  | [], _ => ⟨true, rfl, by simp only [true_iff]; exact ⟨e, he, by simp⟩⟩
  | part :: parts, ht => by
    obtain ⟨b, hb, hb'⟩ := simple_ok h hn he (ht part (by simp))
    obtain ⟨c, hcc, hc'⟩ := compound_ok h hn he (parts := parts) (fun q hq => ht q (by simp [hq]))
    have key : SelectsCompound d kids WholeClass (part :: parts) n ↔
        (SelectsSimple d kids WholeClass n e part.simple ↔ part.negated = false) ∧
          SelectsCompound d kids WholeClass parts n := by
      constructor
      · rintro ⟨e', he', hall⟩
        have : e' = e := by unfold ElementAt at he he'; rw [he] at he'; exact (NodeData.element.inj he').symm
        subst this
        exact ⟨hall part (by simp), e', he', fun q hq => hall q (by simp [hq])⟩
      · rintro ⟨h1, e', he', hall⟩
        have : e' = e := by unfold ElementAt at he he'; rw [he] at he'; exact (NodeData.element.inj he').symm
        subst this
        refine ⟨e', he', fun q hq => ?_⟩
        rcases List.mem_cons.1 hq with rfl | hq
        · exact h1
        · exact hall q hq
    rw [← hb'] at key
    simp only [matchesCompound, hb, bind, Except.bind]
    split
    · rename_i hneg
      refine ⟨false, rfl, ?_⟩
      rw [key]
      cases b <;> simp_all
    · rename_i hneg
      refine ⟨c, hcc, ?_⟩
      rw [key, hc']
      cases b <;> cases hn : part.negated <;> simp_all

theorem left_ok (h : d.WF kids) {f : NodeId → Except Panic Bool} {F : NodeId → Prop}
    (hf : ∀ n, n < d.len → IsElement d n → ∃ b, f n = .ok b ∧ (b = true ↔ F n)) {n : NodeId}
    (hn : n < d.len) (he : IsElement d n) (k : Combinator) :
    ∃ b, d.matchesLeft f n k = .ok b ∧ (b = true ↔ ∃ m, Combines d kids k m n ∧ F m) := by
  have single : ∀ (step : NodeId → Except Panic (Option NodeId)) (R : NodeId → NodeId → Prop),
      (∃ r, step n = .ok r ∧ ∀ m, r = some m ↔ R m n) → (∀ m, R m n → m < d.len ∧ IsElement d m) →
      ∃ b, tryNext step f n = .ok b ∧ (b = true ↔ ∃ m, R m n ∧ F m) := by
    rintro step R ⟨r, hr, hrm⟩ hR
    simp only [tryNext, hr, bind, Except.bind]
    cases r with
    | none => exact ⟨false, rfl, by simp [← hrm]⟩
    | some m =>
      obtain ⟨k1, k2⟩ := hR m ((hrm m).1 rfl)
      obtain ⟨b, hb, hb'⟩ := hf m k1 k2
      exact ⟨b, hb, by simp [← hrm, hb']⟩
  cases k with
  | child =>
    exact single _ (ChildElement d kids) (parent_child h hn he)
      fun m hm => ⟨(h.bound m n hm.1).1, hm.2.1⟩
  | nextSibling =>
    refine single _ (AdjacentSibling d kids) (prev_adjacent h hn he) ?_
    rintro m ⟨hm, -, p, a, b, c, hk, -⟩
    exact ⟨(h.bound p m (by rw [hk]; simp)).2, hm⟩
  | descendant =>
    obtain ⟨rank, hr1, hr2⟩ := depth_rank h
    exact searchFrom_spec (R := ChildElement d kids) (F := F) (ok := fun x => x < d.len ∧ IsElement d x)
      rank (fun x hx => parent_child h hx.1 hx.2)
      (fun a b hab _ => ⟨⟨(h.bound a b hab.1).1, hab.2.1⟩, hr2 a b hab.1⟩)
      (fun x hx => hf x hx.1 hx.2) ⟨hn, he⟩ (Nat.lt_succ_of_le (hr1 n))
  | laterSibling =>
    obtain ⟨rank, hr1, hr2⟩ := sibling_rank h
    have := searchFrom_spec (R := AdjacentSibling d kids) (F := F)
      (ok := fun x => x < d.len ∧ IsElement d x)
      rank (fun x hx => prev_adjacent h hx.1 hx.2)
      (fun a b hab _ => ⟨by
        obtain ⟨hm, -, p, l, l', l'', hk, -⟩ := hab
        exact ⟨(h.bound p a (by rw [hk]; simp)).2, hm⟩, hr2 a b hab⟩)
      (fun x hx => hf x hx.1 hx.2) ⟨hn, he⟩ (Nat.lt_succ_of_le (hr1 n hn))
    obtain ⟨b, hb, hb'⟩ := this
    refine ⟨b, hb, ?_⟩
    simpa only [Combines, earlier_iff h] using hb'

theorem selector_ok (h : d.WF kids) : ∀ {s : ComplexSel}, s.TypeFree →
    ∀ {n : NodeId}, n < d.len → IsElement d n →
    ∃ b, d.matchesSelector s n = .ok b ∧ (b = true ↔ SelectsWith d kids WholeClass s n)
  | .compound parts, ht, n, hn, ⟨e, he⟩ => compound_ok h hn he ht
  | .comb left k parts, ht, n, hn, hie => by
    obtain ⟨e, he⟩ := hie
    obtain ⟨b, hb, hb'⟩ := compound_ok h hn he (parts := parts)
      (fun part hp => ht part (by simp [ComplexSel.parts, hp]))
    have hl := @selector_ok h left (fun part hp => ht part (by simp [ComplexSel.parts, hp]))
    simp only [matchesSelector, hb, bind, Except.bind]
    cases b with
    | false =>
      refine ⟨false, rfl, ?_⟩
      simp only [SelectsWith, ← hb']
      simp
    | true =>
      obtain ⟨c, hcc, hc'⟩ := left_ok h (F := SelectsWith d kids WholeClass left)
        (fun m hm hme => hl hm hme) hn ⟨e, he⟩ k
      refine ⟨c, hcc, ?_⟩
      simp only [SelectsWith, ← hb', hc']
      simp

/-! ### Classes -/

/-- The meaning of classes only matters where classes are mentioned. -/
theorem simple_cl {cl cl' : ElementData → Text → Prop} {n : NodeId} {e : ElementData} {s : SimpleSel}
    (h : ∀ v, s = .cls v → (cl e v → cl' e v)) (hs : SelectsSimple d kids cl n e s) :
    SelectsSimple d kids cl' n e s := by
  cases s <;> first | exact hs | exact h _ rfl hs

theorem compound_cl {cl cl' : ElementData → Text → Prop} {n : NodeId} {parts : List SelPart}
    (h : ∀ e, ElementAt d n e → ∀ part ∈ parts, ∀ v, part.simple = .cls v →
      (cl e v → cl' e v) ∧ (part.negated = true → cl' e v → cl e v))
    (hs : SelectsCompound d kids cl parts n) : SelectsCompound d kids cl' parts n := by
  obtain ⟨e, he, hall⟩ := hs
  refine ⟨e, he, fun part hp => ?_⟩
  have := hall part hp
  cases hneg : part.negated with
  | false =>
    rw [hneg] at this
    simp only [iff_true] at this ⊢
    exact simple_cl (fun v hv => (h e he part hp v hv).1) this
  | true =>
    rw [hneg] at this
    simp only [Bool.true_eq_false, iff_false] at this ⊢
    exact fun hh => this (simple_cl (fun v hv => (h e he part hp v hv).2 hneg) hh)

theorem combines_lt (h : d.WF kids) {k : Combinator} {m n : NodeId} (hc : Combines d kids k m n) :
    m < d.len := by
  have child : ∀ {a b}, ChildElement d kids a b → a < d.len := fun {a b} hab => (h.bound a b hab.1).1
  cases k with
  | child => exact child hc
  | descendant =>
    have hc : Relation.TransGen (ChildElement d kids) m n := hc
    induction hc using Relation.TransGen.head_induction_on with
    | single h => exact child h
    | head h _ _ => exact child h
  | nextSibling =>
    obtain ⟨-, -, p, a, b, c, hk, -⟩ := hc
    exact (h.bound p m (by rw [hk]; simp)).2
  | laterSibling =>
    obtain ⟨-, -, p, a, b, c, hk⟩ := hc
    exact (h.bound p m (by rw [hk]; simp)).2

theorem selects_cl (hw : d.WF kids) {cl cl' : ElementData → Text → Prop} : ∀ {s : ComplexSel} {n : NodeId},
    (∀ n < d.len, ∀ e, ElementAt d n e → ∀ part ∈ s.parts, ∀ v, part.simple = .cls v →
      (cl e v → cl' e v) ∧ (part.negated = true → cl' e v → cl e v)) → n < d.len →
    SelectsWith d kids cl s n → SelectsWith d kids cl' s n
  | .compound parts, n, h, hn, hs => compound_cl (fun e he part hp => h n hn e he part hp) hs
  | .comb left k parts, n, h, hn, ⟨hs, m, hm, hl⟩ =>
    ⟨compound_cl (fun e he part hp => h n hn e he part (by simp [ComplexSel.parts, hp])) hs, m, hm,
      selects_cl hw (fun n hn e he part hp => h n hn e he part (by simp [ComplexSel.parts, hp]))
        (combines_lt hw hm) hl⟩

/-! ## C67 -/

/-- The full claim: in every document the tree builder can produce, matching answers for
every selector and every element what CSS says. -/
def C67_full : Prop := ∀ d, Reachable d → ∀ kids, d.WF kids → ∀ (s : cssEngine.Sel) (n : NodeId),
  n < d.len → IsElement d n → ∃ b, cssEngine.matches_ s d n = .ok b ∧ (b = true ↔ Selects d kids s n)

/-- **C67** Matching never fails and answers what CSS says, for selectors built from types,
ids, attributes, `:root`, `:empty`, `:first-child`, `:last-child`, `:only-child`,
`:nth-child()`, `:nth-last-child()`, `:not()` and the four combinators; and for classes, if
class attributes are single words.  Missing: class attributes with several words
(C29; `C67_classes`), and the pseudo-classes that compare types (`C67_of_type`). -/
theorem C67_partial (h : d.WF kids) (s : cssEngine.Sel) (ht : ComplexSel.TypeFree s)
    (hc : ComplexSel.NoClass s ∨ SingleClasses d) {n : NodeId} (hn : n < d.len) (he : IsElement d n) :
    ∃ b, cssEngine.matches_ s d n = .ok b ∧ (b = true ↔ Selects d kids s n) := by
  obtain ⟨b, hb, hb'⟩ := selector_ok h ht hn he
  refine ⟨b, hb, hb'.trans ?_⟩
  have key : ∀ n < d.len, ∀ e, ElementAt d n e → ∀ part ∈ ComplexSel.parts s, ∀ v, part.simple = .cls v →
      (WholeClass e v ↔ HasClass e v) := by
    intro n hn e he part hp v hv
    rcases hc with hc | hc
    · exact absurd hv (hc part hp v)
    · constructor
      · intro hw
        exact ⟨v, hw, (word_single (hc n e v hn he hw)).2 rfl⟩
      · rintro ⟨a, ha, hw⟩
        rw [word_single (hc n e a hn he ha)] at hw
        subst hw; exact ha
  exact ⟨selects_cl h (fun n hn e he part hp v hv =>
      ⟨(key n hn e he part hp v hv).1, fun _ => (key n hn e he part hp v hv).2⟩) hn,
    selects_cl h (fun n hn e he part hp v hv =>
      ⟨(key n hn e he part hp v hv).2, fun _ => (key n hn e he part hp v hv).1⟩) hn⟩

/-- **C67** With any class attributes, a selector that does not negate classes never selects
an element that it should not select. -/
theorem C67_classes (h : d.WF kids) (s : cssEngine.Sel) (ht : ComplexSel.TypeFree s)
    (hc : ComplexSel.PlainClasses s) {n : NodeId} (hn : n < d.len) (he : IsElement d n) :
    ∃ b, cssEngine.matches_ s d n = .ok b ∧ (b = true → Selects d kids s n) := by
  obtain ⟨b, hb, hb'⟩ := selector_ok h ht hn he
  refine ⟨b, hb, fun ht => selects_cl h ?_ hn (hb'.1 ht)⟩
  intro n hn e he part hp v hv
  obtain ⟨h1, h2, h3⟩ := hc part hp v hv
  refine ⟨fun hw => ⟨v, hw, h2, h3, [], [], by simp, by simp, by simp⟩, fun hneg => ?_⟩
  rw [h1] at hneg; cases hneg

theorem count_of_type {step : NodeId → Except Panic (Option NodeId)} {n m : NodeId} (fuel : Nat)
    (h : step n = .ok (some m)) :
    d.countSiblings step true n (fuel + 1) n = .error .unimplemented := by
  simp [countSiblings, h, bind, Except.bind, isSameType]

theorem count_alone {step : NodeId → Except Panic (Option NodeId)} {n : NodeId} (fuel : Nat)
    (h : step n = .ok none) : d.countSiblings step true n (fuel + 1) n = .ok 0 := by
  simp only [countSiblings, h, bind, Except.bind]
  rfl

/-- an element without a sibling in front of it is the first of its type -/
theorem place_first (h : d.WF kids) {n : NodeId} (hn : n < d.len) {e : ElementData} (he : ElementAt d n e)
    (ha : ∀ m, ¬ EarlierSibling d kids m n) : ∃ j, ∀ i j', Place kids (SameType d e) n i j' ↔ i = 0 ∧ j' = j := by
  classical
  rcases orphan_or h hn with ⟨hp, hno⟩ | ⟨p, l₁, l₂, hk⟩
  · exact ⟨0, fun i j => place_orphan hno _ i j⟩
  · refine ⟨l₂.countP fun x => decide (SameType d e x), fun i j => ?_⟩
    rw [place_iff h hk (q := fun x => decide (SameType d e x)) (by simp)]
    have : l₁.countP (fun x => decide (SameType d e x)) = 0 := by
      rw [List.countP_eq_zero]
      intro m hm hs
      obtain ⟨e', he', -⟩ := of_decide_eq_true hs
      obtain ⟨a, b, rfl⟩ := List.append_of_mem hm
      exact ha m ⟨⟨e', he'⟩, ⟨e, he⟩, p, a, b, l₂, by rw [hk]; simp⟩
    rw [this]

/-- an element without a sibling behind it is the last of its type -/
theorem place_last (h : d.WF kids) {n : NodeId} (hn : n < d.len) {e : ElementData} (he : ElementAt d n e)
    (ha : ∀ m, ¬ EarlierSibling d kids n m) : ∃ i, ∀ i' j, Place kids (SameType d e) n i' j ↔ i' = i ∧ j = 0 := by
  classical
  rcases orphan_or h hn with ⟨hp, hno⟩ | ⟨p, l₁, l₂, hk⟩
  · exact ⟨0, fun i j => place_orphan hno _ i j⟩
  · refine ⟨l₁.countP fun x => decide (SameType d e x), fun i j => ?_⟩
    rw [place_iff h hk (q := fun x => decide (SameType d e x)) (by simp)]
    have : l₂.countP (fun x => decide (SameType d e x)) = 0 := by
      rw [List.countP_eq_zero]
      intro m hm hs
      obtain ⟨e', he', -⟩ := of_decide_eq_true hs
      obtain ⟨a, b, rfl⟩ := List.append_of_mem hm
      exact ha m ⟨⟨e, he⟩, ⟨e', he'⟩, p, l₁, a, b, by rw [hk]⟩
    rw [this]

/-- the answer to a single `:nth-of-type(…)` and its relatives -/
theorem single_sel {n : NodeId} {s : SimpleSel} {e : ElementData} (he : ElementAt d n e) {b : Bool}
    (hb : d.matchesSimple n s = .ok b) (hs : b = true ↔ SelectsSimple d kids HasClass n e s) :
    ∃ b, cssEngine.matches_ (.compound [⟨false, s⟩]) d n = .ok b ∧
      (b = true ↔ Selects d kids (.compound [⟨false, s⟩]) n) := by
  refine ⟨b, ?_, ?_⟩
  · simp only [cssEngine, matchesSelector, matchesCompound, hb, bind, Except.bind]
    cases b <;> rfl
  · rw [hs]
    constructor
    · intro h
      exact ⟨e, he, by simpa using h⟩
    · rintro ⟨e', he', hall⟩
      have : e' = e := by unfold ElementAt at he he'; rw [he] at he'; exact (NodeData.element.inj he').symm
      subst this
      simpa using hall

/-- **C67** `:nth-of-type()`, `:first-of-type` abort for every element that
has an earlier sibling, `:nth-last-of-type()` and `:last-of-type` for every element that has
a later one, `:only-of-type` for all of them. -/
theorem C67_of_type (h : d.WF kids) {m n : NodeId} (hmn : EarlierSibling d kids m n) (a b : Int) :
    cssEngine.matches_ (.compound [⟨false, .nthOfType a b⟩]) d n = .error .unimplemented ∧
    cssEngine.matches_ (.compound [⟨false, .onlyOfType⟩]) d n = .error .unimplemented ∧
    cssEngine.matches_ (.compound [⟨false, .onlyOfType⟩]) d m = .error .unimplemented ∧
    cssEngine.matches_ (.compound [⟨false, .nthLastOfType a b⟩]) d m = .error .unimplemented := by
  have hlt : m < d.len ∧ n < d.len := by
    obtain ⟨-, -, p, l, l', l'', hk⟩ := hmn
    exact ⟨(h.bound p m (by rw [hk]; simp)).2, (h.bound p n (by rw [hk]; simp)).2⟩
  obtain ⟨r, hr, hr'⟩ := prev_none_iff h hlt.2 hmn.2.1
  obtain ⟨q, hq, hq'⟩ := next_none_iff h hlt.1 hmn.1
  obtain ⟨r2, hr2, -⟩ := prev_none_iff h hlt.1 hmn.1
  have h1 : ∃ x, r = some x := Option.ne_none_iff_exists'.1 fun hh => hr'.1 hh m hmn
  have h2 : ∃ x, q = some x := Option.ne_none_iff_exists'.1 fun hh => hq'.1 hh n hmn
  obtain ⟨x, rfl⟩ := h1
  obtain ⟨y, rfl⟩ := h2
  have k1 : ∀ a b, d.nthMatches n a b true false = .error .unimplemented := fun a b => by
    simp only [nthMatches, Bool.false_eq_true, if_false, count_of_type _ hr, bind, Except.bind]
  have k2 : ∀ a b, d.nthMatches m a b true true = .error .unimplemented := fun a b => by
    simp only [nthMatches, if_true, count_of_type _ hq, bind, Except.bind]
  have k3 : d.nthMatches m 0 1 true false = .error .unimplemented ∨ d.nthMatches m 0 1 true false = .ok true := by
    cases r2 with
    | some z =>
      left
      simp only [nthMatches, Bool.false_eq_true, if_false, count_of_type _ hr2, bind, Except.bind]
    | none =>
      right
      simp only [nthMatches, Bool.false_eq_true, if_false, count_alone _ hr2, bind, Except.bind]
      rfl
  refine ⟨?_, ?_, ?_, ?_⟩
  · simp only [cssEngine, matchesSelector, matchesCompound, matchesSimple, k1, bind, Except.bind]
  · simp only [cssEngine, matchesSelector, matchesCompound, matchesSimple, k1, bind, Except.bind]
  · rcases k3 with k3 | k3 <;>
      simp only [cssEngine, matchesSelector, matchesCompound, matchesSimple, k3, k2, bind, Except.bind, if_true]
  · simp only [cssEngine, matchesSelector, matchesCompound, matchesSimple, k2, bind, Except.bind]

/-- **C67** (part) For an element without a sibling in front of it, `:nth-of-type()` and `:first-of-type` give the
right answer; without one behind it, `:nth-last-of-type()` and `:last-of-type`; without any,
`:only-of-type`. -/
theorem C67_alone_partial (h : d.WF kids) {n : NodeId} (hn : n < d.len) (he : IsElement d n) (a b : Int) :
    ((∀ m, ¬ EarlierSibling d kids m n) → ∃ c, cssEngine.matches_ (.compound [⟨false, .nthOfType a b⟩]) d n = .ok c ∧
      (c = true ↔ Selects d kids (.compound [⟨false, .nthOfType a b⟩]) n)) ∧
    ((∀ m, ¬ EarlierSibling d kids n m) → ∃ c, cssEngine.matches_ (.compound [⟨false, .nthLastOfType a b⟩]) d n = .ok c ∧
      (c = true ↔ Selects d kids (.compound [⟨false, .nthLastOfType a b⟩]) n)) ∧
    ((∀ m, ¬ EarlierSibling d kids m n ∧ ¬ EarlierSibling d kids n m) →
      ∃ c, cssEngine.matches_ (.compound [⟨false, .onlyOfType⟩]) d n = .ok c ∧
      (c = true ↔ Selects d kids (.compound [⟨false, .onlyOfType⟩]) n)) := by
  obtain ⟨r, hr, hr'⟩ := prev_none_iff h hn he
  obtain ⟨q, hq, hq'⟩ := next_none_iff h hn he
  obtain ⟨e, he⟩ := he
  have k1 : r = none → ∀ a b, d.nthMatches n a b true false = .ok (isNth a b (((0 : ℕ) : ℤ) + 1)) := by
    rintro rfl a b
    simp only [nthMatches, Bool.false_eq_true, if_false, count_alone _ hr, bind, Except.bind]
    rfl
  have k2 : q = none → ∀ a b, d.nthMatches n a b true true = .ok (isNth a b (((0 : ℕ) : ℤ) + 1)) := by
    rintro rfl a b
    simp only [nthMatches, if_true, count_alone _ hq, bind, Except.bind]
    rfl
  refine ⟨fun ha => ?_, fun ha => ?_, fun ha => ?_⟩
  · obtain ⟨j, hj⟩ := place_first h hn he ha
    refine single_sel he (k1 (hr'.2 ha) a b) ?_
    rw [isNth_iff]
    simp only [SelectsSimple, hj]
    exact ⟨fun h => ⟨0, j, ⟨rfl, rfl⟩, h⟩, fun ⟨i, _, ⟨hi, _⟩, h⟩ => hi ▸ h⟩
  · obtain ⟨i, hi⟩ := place_last h hn he ha
    refine single_sel he (k2 (hq'.2 ha) a b) ?_
    rw [isNth_iff]
    simp only [SelectsSimple, hi]
    exact ⟨fun h => ⟨i, 0, ⟨rfl, rfl⟩, h⟩, fun ⟨_, j, ⟨_, hj⟩, h⟩ => hj ▸ h⟩
  · obtain ⟨j, hj⟩ := place_first h hn he (fun m => (ha m).1)
    obtain ⟨i, hi⟩ := place_last h hn he (fun m => (ha m).2)
    have e1 : d.matchesSimple n .onlyOfType = .ok true := by
      simp only [matchesSimple, k1 (hr'.2 fun m => (ha m).1), k2 (hq'.2 fun m => (ha m).2), bind, Except.bind]
      rfl
    refine single_sel he e1 ?_
    have h1 := (hj 0 j).2 ⟨rfl, rfl⟩
    have h2 := (hi 0 j).1 h1
    simp only [SelectsSimple, true_iff]
    rw [h2.2] at h1
    exact h1

/-- the calls of the parser for `<html><body>x<p class="a b"></p><!-- --><em id="i">y</em></body></html>` -/
def siblingOps : List SinkOp :=
  [.createElement (htmlName "html") [], .append 1 (.node 2),
   .createElement (htmlName "body") [], .append 2 (.node 3), .append 3 (.text ['x']),
   .createElement (htmlName "p") [⟨⟨none, "", "class"⟩, "a b".toList⟩], .append 3 (.node 5),
   .createComment [], .append 3 (.node 6),
   .createElement (htmlName "em") [⟨⟨none, "", "id"⟩, "i".toList⟩], .append 3 (.node 7),
   .append 7 (.text ['y'])]

/-- the document that results -/
def siblingPage : Doc := (legalRun Doc.new siblingOps).getD Doc.new

theorem siblingPage_reachable : Reachable siblingPage := by
  have h : (legalRun Doc.new siblingOps).isSome = true := by decide +kernel
  obtain ⟨d, hd⟩ := Option.isSome_iff_exists.1 h
  rw [siblingPage, hd]
  exact legalRun_reachable .new hd

theorem siblingPage_wf : siblingPage.WF (linkedKids siblingPage) :=
  forestCheck_wf (by decide +kernel)

theorem siblingPage_element (n : NodeId) (h : isElem siblingPage n = true) : IsElement siblingPage n :=
  (isElem_iff n).1 h

/-- **C67** is false: `:first-of-type` gives no answer for `<em>`.  (Also `.a` does not select
`<p class="a b">`, see C29 and the examples below.) -/
theorem C67_full_false : ¬ C67_full := by
  intro h
  obtain ⟨b, hb, -⟩ := h siblingPage siblingPage_reachable _ siblingPage_wf
    (.compound [⟨false, .nthOfType 0 1⟩]) 7 (by decide +kernel)
    (siblingPage_element 7 (by decide +kernel))
  have : siblingPage.matchesSelector (.compound [⟨false, .nthOfType 0 1⟩]) 7 =
    .error .unimplemented := by decide +kernel
  cases this.symm.trans hb

/-- a compound selector of simple selectors -/
def sel (l : List SimpleSel) : ComplexSel := .compound (l.map fun s => ⟨false, s⟩)

/-- the answers of matching for some nodes of the example -/
def answers (s : ComplexSel) : List (Except Panic Bool) :=
  [2, 3, 5, 7].map fun n => cssEngine.matches_ s siblingPage n

-- `html em`, `html > em`, `p + EM`, `p ~ #i:last-child:nth-child(2n)`
example : answers (.comb (sel [.type "html"]) .descendant [⟨false, .type "em"⟩]) =
    [.ok false, .ok false, .ok false, .ok true] := by decide +kernel
example : answers (.comb (sel [.type "html"]) .child [⟨false, .type "em"⟩]) =
    [.ok false, .ok false, .ok false, .ok false] := by decide +kernel
example : answers (.comb (sel [.type "p"]) .nextSibling [⟨false, .type "EM"⟩]) =
    [.ok false, .ok false, .ok false, .ok true] := by decide +kernel
example : answers (.comb (sel [.type "p"]) .laterSibling
      [⟨false, .id "i".toList⟩, ⟨false, .lastChild⟩, ⟨false, .nthChild 2 0⟩]) =
    [.ok false, .ok false, .ok false, .ok true] := by decide +kernel
-- `:not(:empty)`, `:root`, `:first-child`, `:nth-last-child(-n+1)`
example : answers (.compound [⟨true, .empty⟩]) =
    [.ok true, .ok true, .ok false, .ok true] := by decide +kernel
example : answers (sel [.root]) = [.ok true, .ok false, .ok false, .ok false] := by decide +kernel
example : answers (sel [.firstChild]) = [.ok true, .ok true, .ok true, .ok false] := by decide +kernel
example : answers (sel [.nthLastChild (-1) 1]) =
    [.ok true, .ok true, .ok false, .ok true] := by decide +kernel
-- `.a`, and `:first-of-type`
example : answers (sel [.cls "a".toList]) =
    [.ok false, .ok false, .ok false, .ok false] := by decide +kernel
example : answers (sel [.nthOfType 0 1]) =
    [.ok true, .ok true, .ok true, .error .unimplemented] := by decide +kernel
example : answers (sel [.nthOfType 0 2]) =
    [.ok false, .ok false, .ok false, .error .unimplemented] := by decide +kernel
example : answers (sel [.onlyOfType]) =
    [.ok true, .ok true, .error .unimplemented, .error .unimplemented] := by decide +kernel

-- `html em` selects the `em` because it is below `html`
example : Selects siblingPage (linkedKids siblingPage)
    (.comb (sel [.type "html"]) .descendant [⟨false, .type "em"⟩]) 7 := by
  obtain ⟨b, hb, hb'⟩ := C67_partial siblingPage_wf
    (.comb (sel [.type "html"]) .descendant [⟨false, .type "em"⟩])
    (by intro part hp; simp only [ComplexSel.parts, sel, List.map, List.cons_append, List.nil_append,
          List.mem_cons, List.not_mem_nil, or_false] at hp; rcases hp with rfl | rfl <;> trivial)
    (.inl (by intro part hp; simp only [ComplexSel.parts, sel, List.map, List.cons_append, List.nil_append,
          List.mem_cons, List.not_mem_nil, or_false] at hp; rcases hp with rfl | rfl <;> simp))
    (n := 7) (by decide +kernel) (siblingPage_element 7 (by decide +kernel))
  have : siblingPage.matchesSelector (.comb (sel [.type "html"]) .descendant [⟨false, .type "em"⟩]) 7 =
    .ok true := by decide +kernel
  cases this.symm.trans hb
  exact hb'.1 rfl

end Sinab
