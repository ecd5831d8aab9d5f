import Verif.Spec.Selectors
import Verif.Props.Dom
import Mathlib.Data.Finset.Card
import Mathlib.Data.Finset.Range

/-! Matching of selectors over well-formed documents. -/

namespace Sinab

open Doc

variable {d : Doc} {kids : NodeId → List NodeId}

theorem isElem_iff (n : NodeId) : isElem d n = true ↔ IsElement d n := by
  unfold isElem IsElement ElementAt
  cases (d.node n).data <;> simp [NodeData.asElement]

theorem isElem_false (n : NodeId) : isElem d n = false ↔ ¬ IsElement d n := by
  rw [← isElem_iff]; simp

/-- A member of a list without duplicates splits it in one way. -/
theorem split_unique {n : NodeId} : ∀ {a b a' b' : List NodeId}, n ∉ a → n ∉ a' →
    a ++ n :: b = a' ++ n :: b' → a = a' ∧ b = b'
  | [], _, [], _, _, _, h => by simpa using h
  | [], _, x :: a', _, _, h', h => by simp at h h'; exact absurd h.1 h'.1
  | x :: a, _, [], _, h', _, h => by simp at h h'; exact absurd h.1.symm h'.1
  | x :: a, b, y :: a', b', h1, h2, h => by
    simp at h1 h2 h
    obtain ⟨rfl, rfl⟩ := split_unique h1.2 h2.2 h.2
    simp [h.1]

theorem split_nodup {l : List NodeId} (hnd : l.Nodup) {n : NodeId} {a b a' b' : List NodeId}
    (h1 : l = a ++ n :: b) (h2 : l = a' ++ n :: b') : a = a' ∧ b = b' := by
  refine split_unique ?_ ?_ (h1.symm.trans h2)
  · rw [h1] at hnd; exact fun hm => (List.nodup_append.1 hnd).2.2 n hm n (by simp) rfl
  · rw [h2] at hnd; exact fun hm => (List.nodup_append.1 hnd).2.2 n hm n (by simp) rfl

/-- The members of a list with a decidable property. -/
theorem chosen_filter {P : NodeId → Prop} {q : NodeId → Bool} (h : ∀ x, q x = true ↔ P x)
    (l : List NodeId) : Chosen P l (l.filter q) :=
  ⟨List.filter_sublist, fun x hx => (h x).1 (List.mem_filter.1 hx).2,
    fun x hx hP => List.mem_filter.2 ⟨hx, (h x).2 hP⟩⟩

theorem Chosen.length_eq {P : NodeId → Prop} {q : NodeId → Bool} (h : ∀ x, q x = true ↔ P x)
    {l es : List NodeId} (hn : l.Nodup) (hc : Chosen P l es) : es.length = l.countP q := by
  rw [List.countP_eq_length_filter]
  refine List.Perm.length_eq ?_
  refine (List.perm_ext_iff_of_nodup (hc.1.nodup hn) (hn.filter q)).2 fun x => ?_
  rw [List.mem_filter, h]
  exact ⟨fun hx => ⟨hc.1.subset hx, hc.2.1 x hx⟩, fun hx => hc.2.2 x hx.1 hx.2⟩

/-- Where a node stands, if it has a parent. -/
theorem place_iff (h : d.WF kids) {p n : NodeId} {l₁ l₂ : List NodeId} (hk : kids p = l₁ ++ n :: l₂)
    {P : NodeId → Prop} {q : NodeId → Bool} (hq : ∀ x, q x = true ↔ P x) (i j : Nat) :
    Place kids P n i j ↔ i = l₁.countP q ∧ j = l₂.countP q := by
  have hnd := h.nodup p
  rw [hk] at hnd
  have hn1 := (List.nodup_append.1 hnd).1
  have hn2 := (List.nodup_cons.1 (List.nodup_append.1 hnd).2.1).2
  constructor
  · rintro (⟨p', m₁, m₂, es₁, es₂, hk', h1, rfl, h2, rfl⟩ | ⟨hno, -, -⟩)
    · have : p' = p := h.unique (c := n) (by rw [hk']; simp) (by rw [hk]; simp)
      subst this
      have e := split_nodup (h.nodup p') hk hk'
      obtain ⟨rfl, rfl⟩ := e
      exact ⟨h1.length_eq hq hn1, h2.length_eq hq hn2⟩
    · exact absurd (by rw [hk]; simp) (hno p)
  · rintro ⟨rfl, rfl⟩
    exact .inl ⟨p, l₁, l₂, _, _, hk, chosen_filter hq _, by rw [List.countP_eq_length_filter],
      chosen_filter hq _, by rw [List.countP_eq_length_filter]⟩

theorem place_orphan {n : NodeId} (hno : ∀ p, n ∉ kids p) (P : NodeId → Prop) (i j : Nat) :
    Place kids P n i j ↔ i = 0 ∧ j = 0 := by
  constructor
  · rintro (⟨p, l₁, l₂, -, -, hk, -⟩ | ⟨-, h⟩)
    · exact absurd (by rw [hk]; simp) (hno p)
    · exact h
  · exact fun h => .inr ⟨hno, h⟩

/-- The parent of a node, if any. -/
theorem orphan_or (h : d.WF kids) {n : NodeId} (hn : n < d.len) :
    ((d.node n).parent = none ∧ ∀ p, n ∉ kids p) ∨ ∃ p l₁ l₂, kids p = l₁ ++ n :: l₂ := by
  cases hp : (d.node n).parent with
  | none => exact .inl ⟨rfl, fun p hm => by rw [h.parent_of_mem hm] at hp; cases hp⟩
  | some p =>
    obtain ⟨l₁, l₂, hk⟩ := List.append_of_mem (h.mem_of_parent hn hp)
    exact .inr ⟨p, l₁, l₂, hk⟩

/-! ### Counting siblings -/

theorem find?_isElem_none {l : List NodeId} (h : l.find? (isElem d) = none) :
    l.countP (isElem d) = 0 := by
  rw [List.find?_eq_none] at h
  rw [List.countP_eq_zero]
  exact fun a ha hh => h a ha hh

theorem count_prev (h : d.WF kids) {p x : NodeId} {fuel : Nat} :
    ∀ {l₁ : List NodeId} {n : NodeId} {l₂ : List NodeId}, kids p = l₁ ++ n :: l₂ → l₁.length < fuel →
      d.countSiblings (d.prevSiblingElement d.len) false x fuel n = .ok (l₁.countP (isElem d)) := by
  induction fuel with
  | zero => intro _ _ _ _ h; omega
  | succ fuel ih =>
    intro l₁ n l₂ hk hf
    simp only [countSiblings, C31_prev h hk (Nat.le_refl _), bind, Except.bind]
    cases hfd : l₁.reverse.find? (isElem d) with
    | none =>
      have := find?_isElem_none hfd
      simp only [List.countP_reverse] at this
      simp [this, pure, Except.pure]
    | some m =>
      obtain ⟨hm, m1, m2, e, hno⟩ := List.find?_eq_some_iff_append.1 hfd
      have e' : l₁ = m2.reverse ++ m :: m1.reverse := by
        have := congrArg List.reverse e
        simpa using this
      have hk' : kids p = m2.reverse ++ m :: (m1.reverse ++ n :: l₂) := by rw [hk, e']; simp
      have hlen : m2.reverse.length < fuel := by
        have := congrArg List.length e'; simp at this ⊢; omega
      simp only [Bool.false_eq_true, if_false, ih hk' hlen]
      have hz : m1.countP (isElem d) = 0 := by
        rw [List.countP_eq_zero]; intro a ha; simpa using hno a ha
      rw [e']
      simp [List.countP_append, hm, hz, pure, Except.pure]

theorem count_next (h : d.WF kids) {p x : NodeId} {fuel : Nat} :
    ∀ {l₁ : List NodeId} {n : NodeId} {l₂ : List NodeId}, kids p = l₁ ++ n :: l₂ → l₂.length < fuel →
      d.countSiblings (d.nextSiblingElement d.len) false x fuel n = .ok (l₂.countP (isElem d)) := by
  induction fuel with
  | zero => intro _ _ _ _ h; omega
  | succ fuel ih =>
    intro l₁ n l₂ hk hf
    simp only [countSiblings, C31_next h hk (Nat.le_refl _), bind, Except.bind]
    cases hfd : l₂.find? (isElem d) with
    | none =>
      have := find?_isElem_none hfd
      simp [this, pure, Except.pure]
    | some m =>
      obtain ⟨hm, m1, m2, e, hno⟩ := List.find?_eq_some_iff_append.1 hfd
      have hk' : kids p = (l₁ ++ n :: m1) ++ m :: m2 := by rw [hk, e]; simp
      have hlen : m2.length < fuel := by
        have := congrArg List.length e; simp at this ⊢; omega
      simp only [Bool.false_eq_true, if_false, ih hk' hlen]
      have hz : m1.countP (isElem d) = 0 := by
        rw [List.countP_eq_zero]; intro a ha; simpa using hno a ha
      rw [e]
      simp [List.countP_append, hm, hz, pure, Except.pure]

theorem isNth_iff (a b : Int) (i : Nat) : isNth a b ((i : Int) + 1) = true ↔ InSeries a b i := by
  unfold isNth InSeries
  simp only
  split
  · rename_i h
    subst h
    simp only [decide_eq_true_eq, zero_mul, zero_add]
    constructor
    · intro h; exact ⟨0, by omega⟩
    · rintro ⟨-, h⟩; omega
  · rename_i h
    simp only [Bool.and_eq_true, decide_eq_true_eq]
    constructor
    · rintro ⟨h1, h2⟩
      exact ⟨((i + 1 - b : Int).tdiv a).toNat, by rw [Int.toNat_of_nonneg h1]; omega⟩
    · rintro ⟨k, hk⟩
      have e : (i + 1 - b : Int) = a * k := by omega
      rw [e, Int.mul_tdiv_cancel_left _ h]
      exact ⟨by omega, rfl⟩

/-! ### Neighbours -/

theorem prev_adjacent (h : d.WF kids) {n : NodeId} (hn : n < d.len) (he : IsElement d n) :
    ∃ r, d.prevSiblingElement d.len n = .ok r ∧ ∀ m, r = some m ↔ AdjacentSibling d kids m n := by
  rcases orphan_or h hn with ⟨hp, hno⟩ | ⟨p, l₁, l₂, hk⟩
  · refine ⟨none, (C31_orphan h hn hp _).2.1, fun m => ⟨fun hh => (by cases hh), ?_⟩⟩
    rintro ⟨-, -, p, a, b, c, hk, -⟩
    exact absurd (by rw [hk]; simp) (hno p)
  · refine ⟨_, C31_prev h hk (Nat.le_refl _), fun m => ?_⟩
    rw [List.find?_eq_some_iff_append]
    constructor
    · rintro ⟨hm, m1, m2, e, hno⟩
      have e' : l₁ = m2.reverse ++ m :: m1.reverse := by
        have := congrArg List.reverse e
        simpa using this
      refine ⟨(isElem_iff m).1 hm, he, p, m2.reverse, m1.reverse, l₂, by rw [hk, e']; simp, ?_⟩
      intro c hc
      rw [← isElem_false]
      simpa using hno c (by simpa using hc)
    · rintro ⟨hm, -, p', a, b, c, hk', hno⟩
      have : p' = p := h.unique (c := n) (by rw [hk']; simp) (by rw [hk]; simp)
      subst this
      have hnd := h.nodup p'
      have e : a ++ m :: b = l₁ := (split_nodup (b := c) hnd (by rw [hk']; simp) hk).1
      refine ⟨(isElem_iff m).2 hm, b.reverse, a.reverse, by rw [← e]; simp, ?_⟩
      intro x hx
      have := hno x (by simpa using hx)
      rw [← isElem_false] at this
      simp [this]

theorem prev_none_iff (h : d.WF kids) {n : NodeId} (hn : n < d.len) (he : IsElement d n) :
    ∃ r, d.prevSiblingElement d.len n = .ok r ∧ (r = none ↔ ∀ m, ¬ EarlierSibling d kids m n) := by
  rcases orphan_or h hn with ⟨hp, hno⟩ | ⟨p, l₁, l₂, hk⟩
  · refine ⟨none, (C31_orphan h hn hp _).2.1, ⟨fun _ m => ?_, fun _ => rfl⟩⟩
    rintro ⟨-, -, p, a, b, c, hk⟩
    exact absurd (by rw [hk]; simp) (hno p)
  · refine ⟨_, C31_prev h hk (Nat.le_refl _), ?_⟩
    rw [List.find?_eq_none]
    constructor
    · rintro hno m ⟨hm, -, p', a, b, c, hk'⟩
      have : p' = p := h.unique (c := n) (by rw [hk']; simp) (by rw [hk]; simp)
      subst this
      have hnd := h.nodup p'
      have e : a ++ m :: b = l₁ := (split_nodup (b := c) hnd (by rw [hk']; simp) hk).1
      exact hno m (by rw [← e]; simp) ((isElem_iff m).2 hm)
    · intro hno x hx hx'
      obtain ⟨a, b, e⟩ := List.append_of_mem (List.mem_reverse.1 hx)
      exact hno x ⟨(isElem_iff x).1 hx', he, p, a, b, l₂, by rw [hk, e]; simp⟩

theorem next_none_iff (h : d.WF kids) {n : NodeId} (hn : n < d.len) (he : IsElement d n) :
    ∃ r, d.nextSiblingElement d.len n = .ok r ∧ (r = none ↔ ∀ m, ¬ EarlierSibling d kids n m) := by
  rcases orphan_or h hn with ⟨hp, hno⟩ | ⟨p, l₁, l₂, hk⟩
  · refine ⟨none, (C31_orphan h hn hp _).1, ⟨fun _ m => ?_, fun _ => rfl⟩⟩
    rintro ⟨-, -, p, a, b, c, hk⟩
    exact absurd (by rw [hk]; simp) (hno p)
  · refine ⟨_, C31_next h hk (Nat.le_refl _), ?_⟩
    rw [List.find?_eq_none]
    constructor
    · rintro hno m ⟨-, hm, p', a, b, c, hk'⟩
      have : p' = p := h.unique (c := n) (by rw [hk']; simp) (by rw [hk]; simp)
      subst this
      have hnd := h.nodup p'
      have e : b ++ m :: c = l₂ := (split_nodup hnd hk' hk).2
      exact hno m (by rw [← e]; simp) ((isElem_iff m).2 hm)
    · intro hno x hx hx'
      obtain ⟨a, b, e⟩ := List.append_of_mem hx
      exact hno x ⟨he, (isElem_iff x).1 hx', p, l₁, a, b, by rw [hk, e]⟩

theorem parent_child (h : d.WF kids) {n : NodeId} (hn : n < d.len) (he : IsElement d n) :
    ∃ r, d.parentElement n = .ok r ∧ ∀ p, r = some p ↔ ChildElement d kids p n := by
  obtain ⟨h1, h2, h3⟩ := C31_parent h hn
  have : ∃ r, d.parentElement n = .ok r := by
    simp only [parentElement, get_ok d n hn, bind, Except.bind]
    cases hp : (d.node n).parent with
    | none => exact ⟨_, rfl⟩
    | some p =>
      simp only [get_ok d p (h.parBound n p hn hp)]
      split <;> exact ⟨_, rfl⟩
  obtain ⟨r, hr⟩ := this
  refine ⟨r, hr, fun p => ?_⟩
  have := h1 p
  rw [hr, isElem_iff] at this
  simp only [Except.ok.injEq] at this
  rw [this]
  exact ⟨fun hh => ⟨hh.1, hh.2, he⟩, fun hh => ⟨hh.1, hh.2.1⟩⟩

/-! ### The search -/

/-- A search that goes from a node to one other node at a time. -/
theorem searchFrom_spec {step : NodeId → Except Panic (Option NodeId)}
    {f : NodeId → Except Panic Bool} {R : NodeId → NodeId → Prop} {F : NodeId → Prop}
    {ok : NodeId → Prop} (rank : NodeId → Nat)
    (hstep : ∀ n, ok n → ∃ r, step n = .ok r ∧ ∀ m, r = some m ↔ R m n)
    (hR : ∀ m n, R m n → ok n → ok m ∧ rank m < rank n)
    (hf : ∀ n, ok n → ∃ b, f n = .ok b ∧ (b = true ↔ F n)) :
    ∀ {fuel : Nat} {n : NodeId}, ok n → rank n < fuel →
      ∃ b, searchFrom step f fuel n = .ok b ∧
        (b = true ↔ ∃ m, Relation.TransGen R m n ∧ F m) := by
  intro fuel
  induction fuel with
  | zero => intro n _ h; omega
  | succ fuel ih =>
    intro n hn hlt
    obtain ⟨r, hr, hrm⟩ := hstep n hn
    simp only [searchFrom, hr, bind, Except.bind]
    cases r with
    | none =>
      refine ⟨false, rfl, ⟨fun h => (by cases h), ?_⟩⟩
      rintro ⟨m, ht, -⟩
      cases ht with
      | single h => cases (hrm m).2 h
      | tail _ h => cases (hrm _).2 h
    | some m =>
      have hRm := (hrm m).1 rfl
      obtain ⟨hm, hlt'⟩ := hR m n hRm hn
      obtain ⟨b, hb, hbF⟩ := hf m hm
      simp only [hb]
      cases b with
      | true => exact ⟨true, rfl, ⟨fun _ => ⟨m, .single hRm, hbF.1 rfl⟩, fun _ => rfl⟩⟩
      | false =>
        obtain ⟨b', hb', hF'⟩ := ih hm (by omega)
        refine ⟨b', hb', ?_⟩
        rw [hF']
        constructor
        · rintro ⟨x, hx, hxF⟩; exact ⟨x, hx.tail hRm, hxF⟩
        · rintro ⟨x, hx, hxF⟩
          cases hx with
          | single h =>
            have := (hrm x).2 h
            cases this
            exact absurd (hbF.2 hxF) (by simp)
          | tail h1 h2 =>
            have := (hrm _).2 h2
            cases this
            exact ⟨x, h1, hxF⟩

/-- Depth of a node, at most the number of nodes. -/
theorem depth_rank (h : d.WF kids) : ∃ rank : NodeId → Nat, (∀ n, rank n ≤ d.len) ∧
    ∀ m n, n ∈ kids m → rank m < rank n := by
  obtain ⟨f, hf⟩ := h.depth
  refine ⟨fun n => ((Finset.range d.len).filter fun m => f m < f n).card, fun n => ?_, fun m n hm => ?_⟩
  · exact (Finset.card_filter_le _ _).trans (by simp)
  · have hb := h.bound m n hm
    have hlt := hf n m hb.2 (h.parent_of_mem hm)
    refine Finset.card_lt_card ⟨?_, ?_⟩
    · intro x hx
      simp only [Finset.mem_filter] at hx ⊢
      exact ⟨hx.1, hx.2.trans hlt⟩
    · intro hsub
      have : m ∈ (Finset.range d.len).filter fun x => f x < f n := by
        simp only [Finset.mem_filter, Finset.mem_range]; exact ⟨hb.1, hlt⟩
      have := hsub this
      simp at this

theorem Adjacent.earlier {m n : NodeId} (h : AdjacentSibling d kids m n) : EarlierSibling d kids m n := by
  obtain ⟨h1, h2, p, a, b, c, hk, -⟩ := h
  exact ⟨h1, h2, p, a, b, c, hk⟩

/-- Earlier siblings are reached by going from sibling to sibling. -/
theorem earlier_iff (h : d.WF kids) (m n : NodeId) :
    EarlierSibling d kids m n ↔ Relation.TransGen (AdjacentSibling d kids) m n := by
  constructor
  · rintro ⟨h1, h2, p, a, b, c, hk⟩
    generalize hl : b.length = l
    induction l using Nat.strong_induction_on generalizing a b m with
    | _ l ih =>
      by_cases hb : ∀ x ∈ b, ¬ IsElement d x
      · exact .single ⟨h1, h2, p, a, b, c, hk, hb⟩
      · push Not at hb
        obtain ⟨x, hx, hxe⟩ := hb
        cases hfd : b.find? (isElem d) with
        | none => rw [List.find?_eq_none] at hfd; exact absurd ((isElem_iff x).2 hxe) (hfd x hx)
        | some y =>
          obtain ⟨hy, b1, b2, e, hno⟩ := List.find?_eq_some_iff_append.1 hfd
          have hye := (isElem_iff y).1 hy
          refine Relation.TransGen.head (b := y) ⟨h1, hye, p, a, b1, b2 ++ n :: c, by rw [hk, e]; simp, ?_⟩ ?_
          · intro z hz
            rw [← isElem_false]; simpa using hno z hz
          · refine ih b2.length ?_ y hye (a ++ m :: b1) b2 (by rw [hk, e]; simp) rfl
            rw [← hl, e]; simp; omega
  · intro ht
    induction ht with
    | single h => exact Adjacent.earlier h
    | @tail y z _ h2 ih =>
      obtain ⟨k1, k2, p, a, b, c, hk⟩ := ih
      obtain ⟨k3, k4, p', a', b', c', hk', -⟩ := h2
      have : p' = p := h.unique (c := y) (by rw [hk']; simp) (by rw [hk]; simp)
      subst this
      obtain ⟨-, e⟩ := split_nodup (a := a ++ m :: b) (b := c) (h.nodup p') (by rw [hk]; simp) hk'
      exact ⟨k1, k4, p', a, b ++ y :: b', c', by rw [hk, e]; simp⟩

/-- Place of a node in the child list of its parent, at most the number of nodes. -/
theorem sibling_rank (h : d.WF kids) : ∃ rank : NodeId → Nat, (∀ n, n < d.len → rank n ≤ d.len) ∧
    ∀ m n, AdjacentSibling d kids m n → rank m < rank n := by
  classical
  refine ⟨fun n => match (d.node n).parent with
    | none => 0
    | some p => (kids p).idxOf n, fun n hn => ?_, ?_⟩
  · dsimp only
    split
    · exact Nat.zero_le _
    · rename_i p hp
      exact List.idxOf_le_length.trans (h.kids_length p)
  · rintro m n ⟨-, -, p, a, b, c, hk, -⟩
    have hm : m ∈ kids p := by rw [hk]; simp
    have hn : n ∈ kids p := by rw [hk]; simp
    dsimp only
    rw [h.parent_of_mem hm, h.parent_of_mem hn]
    dsimp only
    have hnd := h.nodup p
    have k1 : m ∉ a := by
      rw [hk] at hnd; exact fun hm => (List.nodup_append.1 hnd).2.2 m hm m (by simp) rfl
    have k2 : n ∉ a ++ m :: b := by
      have : (a ++ m :: b ++ n :: c).Nodup := by simpa [hk] using hnd
      exact fun hm => (List.nodup_append.1 this).2.2 n hm n (by simp) rfl
    have e : kids p = (a ++ m :: b) ++ n :: c := by rw [hk]; simp
    have i1 : (kids p).idxOf m = a.length := by
      rw [hk, List.idxOf_append_of_notMem k1]; simp
    have i2 : (kids p).idxOf n = (a ++ m :: b).length := by
      rw [e, List.idxOf_append_of_notMem k2]; simp
    rw [i1, i2]
    simp

end Sinab
