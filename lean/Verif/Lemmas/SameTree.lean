import Verif.Spec.SameTree
import Verif.Props.Selectors

/-! Documents with the same elements and texts: navigation and matching of selectors. -/

namespace Sinab

open Doc

variable {txt : Text → Text → Prop} {ends : Prop} {d d' : Doc} {kids kids' : NodeId → List NodeId}

local notation "A" => Alike txt ends d kids d' kids'

/-! ## Lists of nodes -/

theorem Outside.other {n : NodeData} (h : n.Outside) : n.isOther := by
  cases n <;> first | exact ⟨rfl, rfl⟩ | exact absurd h id

theorem Outside.not_elem {i : NodeId} (h : (d.node i).data.Outside) : isElem d i = false := by
  unfold isElem
  cases hd : (d.node i).data <;> rw [hd] at h <;> first | rfl | exact absurd h id

theorem text_not_elem {i : NodeId} {t : Text} (h : (d.node i).data = .text t) : isElem d i = false := by
  unfold isElem; rw [h]; rfl

theorem Alike.mono {l l' : List NodeId} (h : A l l') : Alike txt False d kids d' kids' l l' := by
  induction h with
  | nil => exact .nil
  | text h1 h2 h _ ih => exact .text h1 h2 h ih
  | elem h1 h2 _ _ _ ih1 ih2 => exact .elem h1 h2 ih1 (fun h => h.elim) ih2
  | left h _ ih => exact .left h ih
  | right h _ ih => exact .right h ih

theorem Alike.symm {l l' : List NodeId} (h : A l l') : Alike (fun t t' => txt t' t) ends d' kids' d kids l' l := by
  induction h with
  | nil => exact .nil
  | text h1 h2 h _ ih => exact .text h2 h1 h ih
  | elem h1 h2 _ h _ ih1 ih2 => exact .elem h2 h1 ih1 (fun he => (h he).symm) ih2
  | left h _ ih => exact .right h ih
  | right h _ ih => exact .left h ih

theorem Alike.append {l l' m m' : List NodeId} (h : A l l') (hm : A m m') : A (l ++ m) (l' ++ m') := by
  induction h with
  | nil => exact hm
  | text h1 h2 h _ ih => exact .text h1 h2 h ih
  | elem h1 h2 hk h _ _ ih2 => exact .elem h1 h2 hk h ih2
  | left h _ ih => exact .left h ih
  | right h _ ih => exact .right h ih

theorem Alike.reverse {l l' : List NodeId} (h : A l l') : A l.reverse l'.reverse := by
  induction h with
  | nil => exact .nil
  | text h1 h2 h _ ih => simpa using ih.append (.text h1 h2 h .nil)
  | elem h1 h2 hk h _ _ ih2 => simpa using ih2.append (.elem h1 h2 hk h .nil)
  | left h _ ih => simpa using ih.append (.left h .nil)
  | right h _ ih => simpa using ih.append (.right h .nil)

/-- two elements with the same data and the same content -/
def SameElement (txt : Text → Text → Prop) (ends : Prop) (d : Doc) (kids : NodeId → List NodeId) (d' : Doc)
    (kids' : NodeId → List NodeId) (i i' : NodeId) : Prop :=
  (∃ e, ElementAt d i e ∧ ElementAt d' i' e) ∧ Alike txt ends d kids d' kids' (kids i) (kids' i') ∧
    (ends → (EndsInElement d (kids i) ↔ EndsInElement d' (kids' i')))

theorem SameElement.single {i i' : NodeId} (h : SameElement txt ends d kids d' kids' i i') {l l' : List NodeId}
    (hl : A l l') : A (i :: l) (i' :: l') := by
  obtain ⟨⟨e, h1, h2⟩, h3, h4⟩ := h
  exact .elem h1 h2 h3 h4 hl

/-- the first element of two lists -/
theorem Alike.find {l l' : List NodeId} (h : A l l') :
    (l.find? (isElem d) = none ∧ l'.find? (isElem d') = none) ∨
    ∃ a i b a' i' b', l = a ++ i :: b ∧ l' = a' ++ i' :: b' ∧ l.find? (isElem d) = some i ∧
      l'.find? (isElem d') = some i' ∧ A a a' ∧ A b b' ∧ SameElement txt ends d kids d' kids' i i' := by
  induction h with
  | nil => exact .inl ⟨rfl, rfl⟩
  | @text i i' l l' t t' h1 h2 ht hl ih =>
    rw [List.find?_cons_of_neg (by simp [text_not_elem h1]), List.find?_cons_of_neg (by simp [text_not_elem h2])]
    rcases ih with h | ⟨a, j, b, a', j', b', e1, e2, e3, e4, e5, e6, e7⟩
    · exact .inl h
    · exact .inr ⟨i :: a, j, b, i' :: a', j', b', by simp [e1], by simp [e2], e3, e4, .text h1 h2 ht e5, e6, e7⟩
  | @elem i i' l l' e h1 h2 hk h hl _ _ =>
    refine .inr ⟨[], i, l, [], i', l', rfl, rfl, ?_, ?_, .nil, hl, ⟨⟨e, h1, h2⟩, hk, h⟩⟩
    · rw [List.find?_cons_of_pos ((isElem_iff i).2 ⟨e, h1⟩)]
    · rw [List.find?_cons_of_pos ((isElem_iff i').2 ⟨e, h2⟩)]
  | @left i l l' h hl ih =>
    rw [List.find?_cons_of_neg (by simp [Outside.not_elem h])]
    rcases ih with h | ⟨a, j, b, a', j', b', e1, e2, e3, e4, e5, e6, e7⟩
    · exact .inl h
    · exact .inr ⟨i :: a, j, b, a', j', b', by simp [e1], e2, e3, e4, .left h e5, e6, e7⟩
  | @right i l l' h hl ih =>
    rw [List.find?_cons_of_neg (p := isElem d') (by simp [Outside.not_elem h])]
    rcases ih with h | ⟨a, j, b, a', j', b', e1, e2, e3, e4, e5, e6, e7⟩
    · exact .inl h
    · exact .inr ⟨a, j, b, i :: a', j', b', e1, by simp [e2], e3, e4, .right h e5, e6, e7⟩

theorem Alike.empty (htxt : ∀ t t', txt t t' → t.isEmpty = t'.isEmpty) {l l' : List NodeId} (h : A l l') :
    (l.all fun x => match (d.node x).data with
      | .element _ => false
      | .text t => t.isEmpty
      | _ => true) =
    (l'.all fun x => match (d'.node x).data with
      | .element _ => false
      | .text t => t.isEmpty
      | _ => true) := by
  induction h with
  | nil => rfl
  | text h1 h2 h _ ih => simp only [List.all_cons, h1, h2, ih, htxt _ _ h]
  | elem h1 h2 _ _ _ _ ih => rw [ElementAt] at h1 h2; simp only [List.all_cons, h1, h2, ih]
  | @left i _ _ h _ ih =>
    rw [List.all_cons, ih]
    cases hd : (d.node i).data <;> rw [hd] at h <;> first | exact Bool.true_and _ | exact absurd h id
  | @right i _ _ h _ ih =>
    rw [List.all_cons, ih]
    cases hd : (d'.node i).data <;> rw [hd] at h <;> first | exact (Bool.true_and _).symm | exact absurd h id

/-! ## Places -/

theorem SamePlace.of {p p' i i' : NodeId} {a b a' b' : List NodeId} (h1 : kids p = a ++ i :: b)
    (h2 : kids' p' = a' ++ i' :: b') (h3 : A a a') (h4 : A b b')
    (h5 : SameElement txt ends d kids d' kids' i i') : SamePlace txt ends d kids d' kids' p p' i i' :=
  ⟨a, b, a', b', h1, h2, h3, h4, h5.1, h5.2.1, h5.2.2⟩

/-- the document, or an element and its counterpart -/
def Holder (txt : Text → Text → Prop) (ends : Prop) (d : Doc) (kids : NodeId → List NodeId) (d' : Doc)
    (kids' : NodeId → List NodeId) (p p' : NodeId) : Prop :=
  (p = documentNodeId ∧ p' = documentNodeId) ∨ Counterpart txt ends d kids d' kids' p p'

theorem Holder.counterpart {p p' i i' : NodeId} (h : Holder txt ends d kids d' kids' p p')
    (hi : SamePlace txt ends d kids d' kids' p p' i i') : Counterpart txt ends d kids d' kids' i i' := by
  rcases h with ⟨rfl, rfl⟩ | h
  · exact .top hi
  · exact .inside h hi

theorem Counterpart.place {i i' : NodeId} (h : Counterpart txt ends d kids d' kids' i i') :
    ∃ p p', Holder txt ends d kids d' kids' p p' ∧ SamePlace txt ends d kids d' kids' p p' i i' := by
  cases h with
  | top h => exact ⟨_, _, .inl ⟨rfl, rfl⟩, h⟩
  | inside h1 h2 => exact ⟨_, _, .inr h1, h2⟩

theorem Counterpart.element {i i' : NodeId} (h : Counterpart txt ends d kids d' kids' i i') :
    SameElement txt ends d kids d' kids' i i' := by
  obtain ⟨p, p', -, a, b, a', b', -, -, -, -, h1, h2, h3⟩ := h.place
  exact ⟨h1, h2, h3⟩

theorem SamePlace.mono {p p' i i' : NodeId} (h : SamePlace txt ends d kids d' kids' p p' i i') :
    SamePlace txt False d kids d' kids' p p' i i' := by
  obtain ⟨a, b, a', b', h1, h2, h3, h4, h5, h6, -⟩ := h
  exact ⟨a, b, a', b', h1, h2, h3.mono, h4.mono, h5, h6.mono, fun h => h.elim⟩

theorem Counterpart.mono {i i' : NodeId} (h : Counterpart txt ends d kids d' kids' i i') :
    Counterpart txt False d kids d' kids' i i' := by
  induction h with
  | top h => exact .top h.mono
  | inside _ h ih => exact .inside ih h.mono

theorem SamePlace.symm {p p' i i' : NodeId} (h : SamePlace txt ends d kids d' kids' p p' i i') :
    SamePlace (fun t t' => txt t' t) ends d' kids' d kids p' p i' i := by
  obtain ⟨a, b, a', b', h1, h2, h3, h4, ⟨e, h5, h6⟩, h7, h8⟩ := h
  exact ⟨a', b', a, b, h2, h1, h3.symm, h4.symm, ⟨e, h6, h5⟩, h7.symm, fun h => (h8 h).symm⟩

theorem Counterpart.symm {i i' : NodeId} (h : Counterpart txt ends d kids d' kids' i i') :
    Counterpart (fun t t' => txt t' t) ends d' kids' d kids i' i := by
  induction h with
  | top h => exact .top h.symm
  | inside _ h ih => exact .inside ih h.symm

/-! ## Loops -/

theorem search_sim {step step' : NodeId → Except Panic (Option NodeId)}
    {f f' : NodeId → Except Panic Bool} {R : Nat → Nat → NodeId → NodeId → Prop}
    (hs : ∀ k k' i i', R k k' i i' → ∃ r r', step i = .ok r ∧ step' i' = .ok r' ∧
      ((r = none ∧ r' = none) ∨ ∃ m m' j j', r = some m ∧ r' = some m' ∧ R j j' m m' ∧ j < k ∧ j' < k'))
    (hf : ∀ k k' i i', R k k' i i' → f i = f' i') :
    ∀ {fuel fuel' k k' : Nat} {i i' : NodeId}, R k k' i i' → k < fuel → k' < fuel' →
      searchFrom step f fuel i = searchFrom step' f' fuel' i' := by
  intro fuel
  induction fuel with
  | zero => intro _ _ _ _ _ _ h; omega
  | succ fuel ih =>
    intro fuel' k k' i i' hR hk hk'
    obtain ⟨n, rfl⟩ : ∃ n, fuel' = n + 1 := ⟨fuel' - 1, by omega⟩
    obtain ⟨r, r', h1, h2, h⟩ := hs k k' i i' hR
    simp only [searchFrom, h1, h2, bind, Except.bind]
    rcases h with ⟨rfl, rfl⟩ | ⟨m, m', j, j', rfl, rfl, hR', hj, hj'⟩
    · rfl
    · simp only [hf j j' m m' hR', ih hR' (show j < fuel by omega) (show j' < n by omega)]

theorem count_sim {step step' : NodeId → Except Panic (Option NodeId)} (ofType : Bool) (x x' : NodeId)
    {R : Nat → Nat → NodeId → NodeId → Prop}
    (hs : ∀ k k' i i', R k k' i i' → ∃ r r', step i = .ok r ∧ step' i' = .ok r' ∧
      ((r = none ∧ r' = none) ∨ ∃ m m' j j', r = some m ∧ r' = some m' ∧ R j j' m m' ∧ j < k ∧ j' < k')) :
    ∀ {fuel fuel' k k' : Nat} {i i' : NodeId}, R k k' i i' → k < fuel → k' < fuel' →
      d.countSiblings step ofType x fuel i = d'.countSiblings step' ofType x' fuel' i' := by
  intro fuel
  induction fuel with
  | zero => intro _ _ _ _ _ _ h; omega
  | succ fuel ih =>
    intro fuel' k k' i i' hR hk hk'
    obtain ⟨n, rfl⟩ : ∃ n, fuel' = n + 1 := ⟨fuel' - 1, by omega⟩
    obtain ⟨r, r', h1, h2, h⟩ := hs k k' i i' hR
    simp only [countSiblings, h1, h2, bind, Except.bind]
    rcases h with ⟨rfl, rfl⟩ | ⟨m, m', j, j', rfl, rfl, hR', hj, hj'⟩
    · rfl
    · simp only [isSameType, ih hR' (show j < fuel by omega) (show j' < n by omega)]

/-! ## Steps -/

/-- counterparts with `k` and `k'` siblings in front of them -/
def Prior (txt : Text → Text → Prop) (ends : Prop) (d : Doc) (kids : NodeId → List NodeId) (d' : Doc)
    (kids' : NodeId → List NodeId) (k k' : Nat) (i i' : NodeId) : Prop :=
  ∃ p p' a b a' b', Holder txt ends d kids d' kids' p p' ∧ kids p = a ++ i :: b ∧ kids' p' = a' ++ i' :: b' ∧
    Alike txt ends d kids d' kids' a a' ∧ Alike txt ends d kids d' kids' b b' ∧
    SameElement txt ends d kids d' kids' i i' ∧ a.length = k ∧ a'.length = k'

/-- counterparts with `k` and `k'` siblings behind them -/
def Later (txt : Text → Text → Prop) (ends : Prop) (d : Doc) (kids : NodeId → List NodeId) (d' : Doc)
    (kids' : NodeId → List NodeId) (k k' : Nat) (i i' : NodeId) : Prop :=
  ∃ p p' a b a' b', Holder txt ends d kids d' kids' p p' ∧ kids p = a ++ i :: b ∧ kids' p' = a' ++ i' :: b' ∧
    Alike txt ends d kids d' kids' a a' ∧ Alike txt ends d kids d' kids' b b' ∧
    SameElement txt ends d kids d' kids' i i' ∧ b.length = k ∧ b'.length = k'

theorem Counterpart.prior {i i' : NodeId} (h : Counterpart txt ends d kids d' kids' i i') (hw : d.WF kids)
    (hw' : d'.WF kids') :
    ∃ k k', Prior txt ends d kids d' kids' k k' i i' ∧ k < d.len + 1 ∧ k' < d'.len + 1 := by
  obtain ⟨p, p', hp, a, b, a', b', h1, h2, h3, h4, h5, h6, h7⟩ := h.place
  have l1 := hw.kids_length p
  have l2 := hw'.kids_length p'
  rw [h1] at l1
  rw [h2] at l2
  simp at l1 l2
  exact ⟨_, _, ⟨p, p', a, b, a', b', hp, h1, h2, h3, h4, ⟨h5, h6, h7⟩, rfl, rfl⟩, by omega, by omega⟩

theorem Counterpart.later {i i' : NodeId} (h : Counterpart txt ends d kids d' kids' i i') (hw : d.WF kids)
    (hw' : d'.WF kids') :
    ∃ k k', Later txt ends d kids d' kids' k k' i i' ∧ k < d.len + 1 ∧ k' < d'.len + 1 := by
  obtain ⟨p, p', hp, a, b, a', b', h1, h2, h3, h4, h5, h6, h7⟩ := h.place
  have l1 := hw.kids_length p
  have l2 := hw'.kids_length p'
  rw [h1] at l1
  rw [h2] at l2
  simp at l1 l2
  exact ⟨_, _, ⟨p, p', a, b, a', b', hp, h1, h2, h3, h4, ⟨h5, h6, h7⟩, rfl, rfl⟩, by omega, by omega⟩

theorem Prior.counterpart {k k' : Nat} {i i' : NodeId} (h : Prior txt ends d kids d' kids' k k' i i') :
    Counterpart txt ends d kids d' kids' i i' := by
  obtain ⟨p, p', a, b, a', b', hp, h1, h2, h3, h4, h5, -, -⟩ := h
  exact hp.counterpart (.of h1 h2 h3 h4 h5)

theorem Prior.step (hw : d.WF kids) (hw' : d'.WF kids') (k k' : Nat) (i i' : NodeId)
    (h : Prior txt ends d kids d' kids' k k' i i') :
    ∃ r r', d.prevSiblingElement d.len i = .ok r ∧ d'.prevSiblingElement d'.len i' = .ok r' ∧
      ((r = none ∧ r' = none) ∨ ∃ m m' j j', r = some m ∧ r' = some m' ∧
        Prior txt ends d kids d' kids' j j' m m' ∧ j < k ∧ j' < k') := by
  obtain ⟨p, p', a, b, a', b', hp, h1, h2, h3, h4, h5, rfl, rfl⟩ := h
  refine ⟨_, _, C31_prev hw h1 le_rfl, C31_prev hw' h2 le_rfl, ?_⟩
  rcases h3.reverse.find with h | ⟨x, m, y, x', m', y', e1, e2, e3, e4, e5, e6, e7⟩
  · exact .inl h
  · have f1 : a = y.reverse ++ m :: x.reverse := by simpa using congrArg List.reverse e1
    have f2 : a' = y'.reverse ++ m' :: x'.reverse := by simpa using congrArg List.reverse e2
    refine .inr ⟨m, m', y.reverse.length, y'.reverse.length, e3, e4, ⟨p, p', y.reverse,
      x.reverse ++ i :: b, y'.reverse, x'.reverse ++ i' :: b', hp, by rw [h1, f1]; simp,
      by rw [h2, f2]; simp, e6.reverse, e5.reverse.append (h5.single h4), e7, rfl, rfl⟩, ?_, ?_⟩
    · rw [f1]; simp
    · rw [f2]; simp

theorem Later.step (hw : d.WF kids) (hw' : d'.WF kids') (k k' : Nat) (i i' : NodeId)
    (h : Later txt ends d kids d' kids' k k' i i') :
    ∃ r r', d.nextSiblingElement d.len i = .ok r ∧ d'.nextSiblingElement d'.len i' = .ok r' ∧
      ((r = none ∧ r' = none) ∨ ∃ m m' j j', r = some m ∧ r' = some m' ∧
        Later txt ends d kids d' kids' j j' m m' ∧ j < k ∧ j' < k') := by
  obtain ⟨p, p', a, b, a', b', hp, h1, h2, h3, h4, h5, rfl, rfl⟩ := h
  refine ⟨_, _, C31_next hw h1 le_rfl, C31_next hw' h2 le_rfl, ?_⟩
  rcases h4.find with h | ⟨x, m, y, x', m', y', e1, e2, e3, e4, e5, e6, e7⟩
  · exact .inl h
  · refine .inr ⟨m, m', y.length, y'.length, e3, e4, ⟨p, p', a ++ i :: x, y, a' ++ i' :: x', y', hp,
      by rw [h1, e1]; simp, by rw [h2, e2]; simp, h3.append (h5.single e5), e6, e7, rfl, rfl⟩, ?_, ?_⟩
    · rw [e1]; simp; omega
    · rw [e2]; simp; omega

theorem document_not_elem (hd : Reachable d) : isElem d documentNodeId = false := by
  obtain ⟨kids0, hI⟩ := hd.inv
  unfold isElem
  rw [hI.docNode]
  rfl

theorem parentElement_of (hw : d.WF kids) {p i : NodeId} (h : i ∈ kids p) :
    d.parentElement i = .ok (if isElem d p then some p else none) := by
  simp only [parentElement, get_ok d i (hw.bound p i h).2, bind, Except.bind, hw.parent_of_mem h,
    get_ok d p (hw.bound p i h).1, isElem]
  split <;> rename_i h' <;> simp [h'] <;> rfl

theorem Counterpart.parent (hd : Reachable d) (hd' : Reachable d') (hw : d.WF kids) (hw' : d'.WF kids')
    {i i' : NodeId} (h : Counterpart txt ends d kids d' kids' i i') :
    ∃ r r', d.parentElement i = .ok r ∧ d'.parentElement i' = .ok r' ∧
      ((r = none ∧ r' = none) ∨ ∃ p p', r = some p ∧ r' = some p' ∧
        Counterpart txt ends d kids d' kids' p p' ∧ i ∈ kids p ∧ i' ∈ kids' p') := by
  obtain ⟨p, p', hp, a, b, a', b', h1, h2, -⟩ := h.place
  have m1 : i ∈ kids p := by rw [h1]; simp
  have m2 : i' ∈ kids' p' := by rw [h2]; simp
  refine ⟨_, _, parentElement_of hw m1, parentElement_of hw' m2, ?_⟩
  rcases hp with ⟨rfl, rfl⟩ | hp
  · exact .inl ⟨by simp [document_not_elem hd], by simp [document_not_elem hd']⟩
  · obtain ⟨⟨e, e1, e2⟩, -⟩ := hp.element
    refine .inr ⟨p, p', ?_, ?_, hp, m1, m2⟩
    · rw [if_pos ((isElem_iff p).2 ⟨e, e1⟩)]
    · rw [if_pos ((isElem_iff p').2 ⟨e, e2⟩)]

/-! ## Matching -/

section

variable (hd : Reachable d) (hd' : Reachable d') (hw : d.WF kids) (hw' : d'.WF kids')
  {i i' : NodeId} (h : Counterpart txt ends d kids d' kids' i i')

include hw hw' h

theorem Counterpart.lt : i < d.len ∧ i' < d'.len := by
  obtain ⟨p, p', -, a, b, a', b', h1, h2, -⟩ := h.place
  exact ⟨(hw.bound p i (by rw [h1]; simp)).2, (hw'.bound p' i' (by rw [h2]; simp)).2⟩

theorem Counterpart.data : d.element i = d'.element i' := by
  obtain ⟨l1, l2⟩ := h.lt hw hw'
  obtain ⟨⟨e, h1, h2⟩, -⟩ := h.element
  rw [element_ok l1 h1, element_ok l2 h2]

theorem Counterpart.nth (a b : Int) (ofType fromEnd : Bool) :
    d.nthMatches i a b ofType fromEnd = d'.nthMatches i' a b ofType fromEnd := by
  unfold nthMatches
  cases fromEnd with
  | false =>
    obtain ⟨k, k', hp, hk, hk'⟩ := h.prior hw hw'
    simp only [Bool.false_eq_true, if_false]
    rw [count_sim ofType i i' (Prior.step hw hw') hp hk hk']
  | true =>
    obtain ⟨k, k', hp, hk, hk'⟩ := h.later hw hw'
    simp only [if_true]
    rw [count_sim ofType i i' (Later.step hw hw') hp hk hk']

theorem Counterpart.isEmpty_eq (htxt : ∀ t t', txt t t' → t.isEmpty = t'.isEmpty) : d.isEmpty d.len i = d'.isEmpty d'.len i' := by
  obtain ⟨l1, l2⟩ := h.lt hw hw'
  obtain ⟨-, hk, -⟩ := h.element
  unfold Doc.isEmpty
  rw [get_ok d i l1, get_ok d' i' l2]
  simp only [bind, Except.bind]
  rw [hw.first i l1, hw'.first i' l2, hw.isEmptyLoop i (kids i) [] (by simp) _ (hw.kids_length i),
    hw'.isEmptyLoop i' (kids' i') [] (by simp) _ (hw'.kids_length i')]
  exact congrArg Except.ok (hk.empty htxt)

theorem Counterpart.prev : ∃ r r', d.prevSiblingElement d.len i = .ok r ∧
    d'.prevSiblingElement d'.len i' = .ok r' ∧ ((r = none ∧ r' = none) ∨
      ∃ m m', r = some m ∧ r' = some m' ∧ Counterpart txt ends d kids d' kids' m m') := by
  obtain ⟨k, k', hp, -, -⟩ := h.prior hw hw'
  obtain ⟨r, r', h1, h2, h3⟩ := Prior.step hw hw' k k' i i' hp
  refine ⟨r, r', h1, h2, h3.imp id ?_⟩
  rintro ⟨m, m', j, j', e1, e2, e3, -, -⟩
  exact ⟨m, m', e1, e2, e3.counterpart⟩

theorem Counterpart.next : ∃ r r', d.nextSiblingElement d.len i = .ok r ∧
    d'.nextSiblingElement d'.len i' = .ok r' ∧ r.isNone = r'.isNone := by
  obtain ⟨k, k', hp, -, -⟩ := h.later hw hw'
  obtain ⟨r, r', h1, h2, h3⟩ := Later.step hw hw' k k' i i' hp
  refine ⟨r, r', h1, h2, ?_⟩
  rcases h3 with ⟨rfl, rfl⟩ | ⟨m, m', j, j', rfl, rfl, -⟩ <;> rfl

include hd hd'

theorem Counterpart.simple (htxt : ∀ t t', txt t t' → t.isEmpty = t'.isEmpty) (s : SimpleSel) : d.matchesSimple i s = d'.matchesSimple i' s := by
  have he := h.data hw hw'
  obtain ⟨r, r', h1, h2, h3⟩ := h.prev hw hw'
  have h3' : r.isNone = r'.isNone := by
    rcases h3 with ⟨rfl, rfl⟩ | ⟨m, m', rfl, rfl, -⟩ <;> rfl
  obtain ⟨q, q', h4, h5, h6⟩ := h.next hw hw'
  obtain ⟨o, o', h7, h8, h9⟩ := h.parent hd hd' hw hw'
  have h9' : o.isNone = o'.isNone := by
    rcases h9 with ⟨rfl, rfl⟩ | ⟨m, m', rfl, rfl, -⟩ <;> rfl
  cases s <;> simp only [matchesSimple, isHtmlElement, hasLocalName, hasNamespace, hasId, hasClass,
    attrMatches, he, isRoot, h1, h2, h4, h5, h7, h8, h3', h6, h9', h.nth hw hw', h.isEmpty_eq hw hw' htxt,
    bind, Except.bind]

theorem Counterpart.compound (htxt : ∀ t t', txt t t' → t.isEmpty = t'.isEmpty) : ∀ parts : List SelPart,
    d.matchesCompound i parts = d'.matchesCompound i' parts
  | [] => rfl
  | part :: parts => by
    simp only [matchesCompound, h.simple hd hd' hw hw' htxt, Counterpart.compound htxt parts]

theorem Counterpart.leftwards {f f' : NodeId → Except Panic Bool}
    (hf : ∀ i i', Counterpart txt ends d kids d' kids' i i' → f i = f' i') (k : Combinator) :
    d.matchesLeft f i k = d'.matchesLeft f' i' k := by
  cases k with
  | child =>
    obtain ⟨o, o', h7, h8, h9⟩ := h.parent hd hd' hw hw'
    simp only [matchesLeft, tryNext, h7, h8, bind, Except.bind]
    rcases h9 with ⟨rfl, rfl⟩ | ⟨m, m', rfl, rfl, hm, -⟩
    · rfl
    · exact hf m m' hm
  | nextSibling =>
    obtain ⟨r, r', h1, h2, h3⟩ := h.prev hw hw'
    simp only [matchesLeft, tryNext, h1, h2, bind, Except.bind]
    rcases h3 with ⟨rfl, rfl⟩ | ⟨m, m', rfl, rfl, hm⟩
    · rfl
    · exact hf m m' hm
  | laterSibling =>
    obtain ⟨k, k', hp, hk, hk'⟩ := h.prior hw hw'
    exact search_sim (Prior.step hw hw') (fun _ _ i i' h => hf i i' h.counterpart) hp hk hk'
  | descendant =>
    obtain ⟨rank, hr, hlt⟩ := depth_rank hw
    obtain ⟨rank', hr', hlt'⟩ := depth_rank hw'
    refine search_sim (R := fun k k' i i' => Counterpart txt ends d kids d' kids' i i' ∧ rank i = k ∧ rank' i' = k')
      ?_ (fun _ _ i i' h => hf i i' h.1) ⟨h, rfl, rfl⟩ (by have := hr i; omega) (by have := hr' i'; omega)
    rintro k k' i i' ⟨hi, rfl, rfl⟩
    obtain ⟨o, o', h7, h8, h9⟩ := hi.parent hd hd' hw hw'
    refine ⟨o, o', h7, h8, h9.imp id ?_⟩
    rintro ⟨p, p', e1, e2, e3, e4, e5⟩
    exact ⟨p, p', _, _, e1, e2, ⟨e3, rfl, rfl⟩, hlt p i e4, hlt' p' i' e5⟩

end

theorem Counterpart.selector (htxt : ∀ t t', txt t t' → t.isEmpty = t'.isEmpty) (hd : Reachable d) (hd' : Reachable d') (hw : d.WF kids) (hw' : d'.WF kids') :
    ∀ (s : ComplexSel) {i i' : NodeId}, Counterpart txt ends d kids d' kids' i i' →
      d.matchesSelector s i = d'.matchesSelector s i'
  | .compound parts, i, i', h => h.compound hd hd' hw hw' htxt parts
  | .comb left k parts, i, i', h => by
    simp only [matchesSelector, h.compound hd hd' hw hw' htxt parts,
      h.leftwards hd hd' hw hw' (fun _ _ hi => Counterpart.selector htxt hd hd' hw hw' left hi) k]

theorem pushMatching_same {S : SelectorEngine} (hS : S.ReadsTree txt) (hd : Reachable d) (hd' : Reachable d')
    (hw : d.WF kids) (hw' : d'.WF kids') (ht : SameTree txt ends d kids d' kids') {i i' : NodeId}
    (h : Counterpart txt ends d kids d' kids' i i') : ∀ rs : List (S.Sel × Block),
      pushMatching d i rs = pushMatching d' i' rs
  | [] => rfl
  | (sel, b) :: rs => by
    simp only [pushMatching, hS d kids d' kids' hd hd' hw hw' (Alike.mono ht) i i' h.mono sel,
      pushMatching_same hS hd hd' hw hw' ht h rs]

theorem styleForElement_same {S : SelectorEngine} (hS : S.ReadsTree txt) (hd : Reachable d) (hd' : Reachable d')
    (hw : d.WF kids) (hw' : d'.WF kids') (ht : SameTree txt ends d kids d' kids') {i i' : NodeId}
    (h : Counterpart txt ends d kids d' kids' i i') (C : CssColors) (tokenize : AttrTokenizer)
    (ua author : StyleSet S) (parent : Option Style) :
    styleForElement C tokenize ua author d i parent = styleForElement C tokenize ua author d' i' parent := by
  obtain ⟨l1, l2⟩ := h.lt hw hw'
  obtain ⟨⟨e, h1, h2⟩, -⟩ := h.element
  rw [ElementAt] at h1 h2
  unfold styleForElement
  rw [get_ok d i l1, get_ok d' i' l2]
  simp only [bind, Except.bind, h1, h2, NodeData.asElement, pushMatching_same hS hd hd' hw hw' ht h]

end Sinab
