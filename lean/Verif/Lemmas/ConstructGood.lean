import Verif.Lemmas.Construct

/-! If the box construction succeeds then the content was of the supported kind. -/

namespace Sinab

theorem unsetNext_next {d : Doc} {node : Node} : ∀ (fuel : Nat) (sib a b : NodeId),
    unsetNext d node fuel sib = .ok (a, b) → ∃ n, d.get b = .ok n ∧ n.nextSibling = some a
  | 0, _, _, _, h => by simp [unsetNext] at h
  | fuel + 1, sib, a, b, h => by
    unfold unsetNext at h
    cases hg : d.get sib with
    | error p => simp [hg, bind, Except.bind] at h
    | ok n =>
      simp only [hg, bind, Except.bind] at h
      split at h
      · rename_i s hs
        simp only [pure, Except.pure, Except.ok.injEq, Prod.mk.injEq] at h
        obtain ⟨rfl, rfl⟩ := h
        exact ⟨n, hg, hs⟩
      · split at h
        · exact unsetNext_next fuel _ a b h
        · simp at h

/-- the loop only ends at the base, and only if that has a next sibling -/
theorem unsetLoop_next {d : Doc} {base : NodeId} : ∀ (fuel : Nat) (x : NodeId) (L L' : LayoutData),
    unsetLoop d base fuel x L = .ok L' → ∃ n s, d.get base = .ok n ∧ n.nextSibling = some s
  | 0, _, _, _, h => by simp [unsetLoop] at h
  | fuel + 1, x, L, L', h => by
    have asc : ∀ (node : Node) (L : LayoutData), (do
        let (next, sib) ← unsetNext d node fuel x
        if sib = base then return L else unsetLoop d base fuel next L) = .ok L' →
        ∃ n s, d.get base = .ok n ∧ n.nextSibling = some s := by
      intro node L h
      cases hg : unsetNext d node fuel x with
      | error p => simp [hg, bind, Except.bind] at h
      | ok q =>
        obtain ⟨a, b⟩ := q
        simp only [hg, bind, Except.bind] at h
        split at h
        · rename_i hb
          subst hb
          obtain ⟨n, h1, h2⟩ := unsetNext_next _ _ _ _ hg
          exact ⟨n, a, h1, h2⟩
        · exact unsetLoop_next fuel _ _ _ h
    unfold unsetLoop at h
    cases hg : d.get x with
    | error p => simp [hg, bind, Except.bind] at h
    | ok n =>
      simp only [hg, bind, Except.bind] at h
      split at h
      · split at h
        · simp at h
        · split at h
          · exact unsetLoop_next fuel _ _ _ h
          · exact asc _ _ h
      · exact asc _ _ h

theorem Doc.get_eq {d : Doc} {i : NodeId} {n : Node} (h : d.get i = .ok n) : n = d.node i := by
  unfold Doc.get at h
  split at h <;> simp_all

/-- what is still open about a box that waits to be finished -/
def Promise (C : BoxContext) (kids : NodeId → List NodeId) : IntermediateBox → Prop
  | .sameFormattingContextBlock _ (.inlineFormattingContext _ _) => True
  | .sameFormattingContextBlock st (.deferred id) | .independent st id
  | .outOfFlowAbsolutelyPositionedBox st id | .outOfFlowFloatBox st id =>
    id < C.doc.len → ∀ cs, Shows C kids st (kids id) cs → goodContent cs = true

/-- what a successful traversal tells -/
def TravGood (C : BoxContext) (kids : NodeId → List NodeId) (n : Nat) : Prop :=
  ∀ st l cs L B L' B', Shows C kids st l cs → Linked C.doc l →
    traverse C n st l.head? L B = .ok (L', B') →
    (∀ b ∈ B.blockLevelBoxes, b ∈ B'.blockLevelBoxes) ∧ B'.stack.length = B.stack.length ∧
    ((∀ b ∈ B'.blockLevelBoxes, Promise C kids b.1) →
      endsHidden cs = false ∧ goodAll (!B.stack.isEmpty) cs = true)

/-- what a successful construction tells -/
def ConsGood (C : BoxContext) (kids : NodeId → List NodeId) (n : Nat) : Prop :=
  ∀ st id L r, id < C.doc.len → constructContainer C n st id L = .ok r →
    ∀ cs, Shows C kids st (kids id) cs → goodContent cs = true

theorem withSlots_eq_ok {α : Type} {l : List (Option NodeId)} {x : Except Panic α} {a : α} :
    withSlots l x = .ok a ↔ x = .ok a := by
  cases x <;> simp [withSlots]

theorem bind_eq_ok {α β : Type} {x : Except Panic α} {f : α → Except Panic β} {b : β} :
    (x >>= f) = .ok b ↔ ∃ a, x = .ok a ∧ f a = .ok b := by
  cases x <;> simp [bind, Except.bind]

theorem Builder.handleText_spec {C : BoxContext} {B B' : Builder} {t : Text} {st : Style}
    (h : B.handleText C t st = .ok B') :
    B'.blockLevelBoxes = B.blockLevelBoxes ∧ B'.stack.length = B.stack.length := by
  have hg := Builder.handleText_good C B B' t st h false
  rw [Builder.handleText_ok C B t st hg] at h
  simp only [Except.ok.injEq] at h
  subst h
  obtain ⟨a, b, c, d, e⟩ := B
  cases d <;> exact ⟨rfl, rfl⟩

/-- one entry of the content -/
def StepGood (C : BoxContext) (kids : NodeId → List NodeId) (c : Styled) (B : Builder)
    (r : Except Panic (LayoutData × Builder)) : Prop :=
  ∀ L' B', r = .ok (L', B') →
    (∀ b ∈ B.blockLevelBoxes, b ∈ B'.blockLevelBoxes) ∧ B'.stack.length = B.stack.length ∧
    ((∀ b ∈ B'.blockLevelBoxes, Promise C kids b.1) → c.good (!B.stack.isEmpty) = true)

theorem isEmpty_of_length {α β : Type} {a : List α} {b : List β} (h : a.length = b.length) :
    a.isEmpty = b.isEmpty := by
  cases a <;> cases b <;> simp_all

theorem trav_good_cons {C : BoxContext} {kids} {n : Nat} (ih : TravGood C kids n)
    {st : Style} {i : NodeId} {l : List NodeId} {c : Styled} {cs : List Styled}
    {L L' : LayoutData} {B B' : Builder} (hl : Linked C.doc (i :: l)) (hs : Shows C kids st l cs)
    (hc : StepGood C kids c B (travStep C st i L B n))
    (hh : ∀ id, c = .hidden id → l ≠ [])
    (hne : cs = [] → l = [])
    (h : traverse C (n + 1) st (some i) L B = .ok (L', B')) :
    (∀ b ∈ B.blockLevelBoxes, b ∈ B'.blockLevelBoxes) ∧ B'.stack.length = B.stack.length ∧
    ((∀ b ∈ B'.blockLevelBoxes, Promise C kids b.1) →
      endsHidden (c :: cs) = false ∧ goodAll (!B.stack.isEmpty) (c :: cs) = true) := by
  obtain ⟨hi, hn, hl⟩ := hl
  rw [traverse_cons C st i L B n hi] at h
  obtain ⟨⟨L1, B1⟩, h1, h2⟩ := bind_eq_ok.1 h
  rw [withSlots_eq_ok] at h1
  obtain ⟨a1, a2, a3⟩ := hc L1 B1 h1
  rw [hn] at h2
  obtain ⟨b1, b2, b3⟩ := ih st l cs L1 B1 L' B' hs hl h2
  refine ⟨fun b hb => b1 b (a1 b hb), by rw [b2, a2], fun hp => ?_⟩
  obtain ⟨p1, p2⟩ := b3 hp
  rw [isEmpty_of_length a2] at p2
  refine ⟨?_, ?_⟩
  · cases cs with
    | nil =>
      have := hne rfl
      cases c <;> simp_all [endsHidden]
    | cons a t => simpa [endsHidden, List.getLast?_cons_cons] using p1
  · simp [goodAll, a3 (fun b hb => hp b (b1 b hb)), p2]

theorem Shows.nil_iff {C : BoxContext} {kids} {st : Style} {l : List NodeId} {cs : List Styled}
    (h : Shows C kids st l cs) : cs = [] → l = [] := by
  cases h <;> simp

theorem Builder.handleBlockLevel_spec {B B' : Builder} {st : Style} {ins : DisplayInside}
    {id : NodeId} {slot : Option NodeId} (h : B.handleBlockLevel st ins id slot = .ok B') :
    B.stack = [] ∧ B'.stack = [] ∧ (∀ b ∈ B.blockLevelBoxes, b ∈ B'.blockLevelBoxes) ∧
    ∃ b ∈ B'.blockLevelBoxes, b.1 = (match ins with
      | .flow => IntermediateBox.sameFormattingContextBlock st (.deferred id)
      | .flowRoot => IntermediateBox.independent st id) := by
  unfold Builder.handleBlockLevel at h
  obtain ⟨B1, h1, h2⟩ := bind_eq_ok.1 h
  simp only [pure, Except.pure, Except.ok.injEq] at h2
  subst h2
  unfold Builder.endOngoing at h1
  have hst : B.stack = [] := by
    by_contra hne
    unfold Builder.splitInlines at h1
    split at h1
    · contradiction
    · rename_i hs
      simp [hs] at h1
  have hsp : B.splitInlines = B := by unfold Builder.splitInlines; rw [hst]
  rw [hsp] at h1
  simp only [hst, List.isEmpty_nil, Bool.not_true, Bool.false_eq_true, if_false] at h1
  refine ⟨hst, ?_, ?_, (_, slot), List.mem_append_right _ (List.mem_singleton.2 rfl), by cases ins <;> rfl⟩
  · split at h1 <;> (simp only [Except.ok.injEq] at h1; subst h1; simp [hst])
  · intro b hb
    split at h1 <;> (simp only [Except.ok.injEq] at h1; subst h1; simp [hb])

theorem Builder.closeInline_spec {B B' : Builder} {box : InlineLevelBox}
    (h : B.closeInline = .ok (box, B')) :
    B'.blockLevelBoxes = B.blockLevelBoxes ∧ B'.stack.length + 1 = B.stack.length := by
  obtain ⟨a, b, c, d, e⟩ := B
  cases d with
  | nil => simp [Builder.closeInline] at h
  | cons o d =>
    simp only [Builder.closeInline, Except.ok.injEq, Prod.mk.injEq] at h
    obtain ⟨_, rfl⟩ := h
    cases d <;> exact ⟨rfl, rfl⟩

theorem Builder.setCurrent_spec (B : Builder) (l : List InlineLevelBox) :
    (B.setCurrent l).blockLevelBoxes = B.blockLevelBoxes ∧
    (B.setCurrent l).stack.length = B.stack.length := by
  obtain ⟨a, b, c, d, e⟩ := B
  cases d <;> exact ⟨rfl, rfl⟩

/-- an element that generates a box -/
theorem handleElement_good {C : BoxContext} {kids} (hw : C.doc.WF kids) {n : Nat}
    (iht : ∀ m < n, TravGood C kids m) (ihc : ∀ m < n, ConsGood C kids m)
    {id : NodeId} {s : Style} {o : DisplayOutside} {ins : DisplayInside} {ks : List Styled}
    {L : LayoutData} {B : Builder} (hid : id < C.doc.len) (hks : Shows C kids s (kids id) ks) :
    StepGood C kids (.elem id s o ins ks) B (handleElement C n s o ins id L B) := by
  intro L' B' h
  cases n with
  | zero => simp [handleElement] at h
  | succ n =>
    unfold handleElement at h
    rw [withSlots_eq_ok] at h
    cases o with
    | inline =>
      cases ins with
      | flowRoot => simp at h
      | flow =>
        simp only at h
        rw [Doc.get_ok _ _ hid] at h
        obtain ⟨_, e1, h⟩ := bind_eq_ok.1 h
        simp only [Except.ok.injEq] at e1
        subst e1
        obtain ⟨⟨L1, B1⟩, h1, h⟩ := bind_eq_ok.1 h
        obtain ⟨⟨box, B2⟩, h2, h⟩ := bind_eq_ok.1 h
        simp only [pure, Except.pure, Except.ok.injEq, Prod.mk.injEq] at h
        obtain ⟨_, rfl⟩ := h
        rw [hw.first id hid] at h1
        obtain ⟨a1, a2, a3⟩ := iht n (by omega) s (kids id) ks _ _ _ _ hks (hw.linked id) h1
        obtain ⟨c1, c2⟩ := Builder.closeInline_spec h2
        refine ⟨?_, ?_, ?_⟩
        · intro b hb
          rw [c1]
          exact a1 b hb
        · have : (B.openInline s).stack.length = B.stack.length + 1 := rfl
          simp only at c2 a2
          omega
        · intro hp
          rw [c1] at hp
          obtain ⟨p1, p2⟩ := a3 hp
          have : (!(B.openInline s).stack.isEmpty) = true := rfl
          rw [this] at p2
          simp [Styled.good, p1, p2]
    | block =>
      simp only at h
      have cons : ∀ m < n + 1, ∀ L r, constructContainer C m s id L = .ok r →
          endsHidden ks = false ∧ goodAll false ks = true := by
        intro m hm L r hr
        have := ihc m hm s id L r hid hr ks hks
        simpa [goodContent] using this
      have prom : ∀ b : IntermediateBox × Option NodeId,
          (b.1 = .outOfFlowAbsolutelyPositionedBox s id ∨ b.1 = .outOfFlowFloatBox s id ∨
            b.1 = .independent s id ∨ b.1 = .sameFormattingContextBlock s (.deferred id)) →
          Promise C kids b.1 → endsHidden ks = false ∧ goodAll false ks = true := by
        intro b hb hp
        have : goodContent ks = true := by
          rcases hb with hb | hb | hb | hb <;> rw [hb] at hp <;> exact hp hid ks hks
        simpa [goodContent] using this
      split at h
      · rename_i habs
        have hout : s.outOfFlow = true := by simp [Style.outOfFlow, habs]
        split at h
        · simp only [pure, Except.pure, Except.ok.injEq, Prod.mk.injEq] at h
          obtain ⟨_, rfl⟩ := h
          refine ⟨fun b hb => List.mem_append_left _ hb, rfl, fun hp => ?_⟩
          obtain ⟨q1, q2⟩ := prom _ (.inl rfl)
            (hp _ (List.mem_append_right _ (List.mem_singleton.2 rfl)))
          simp [Styled.good, hout, q1, q2]
        · obtain ⟨⟨a, b, c⟩, h1, h⟩ := bind_eq_ok.1 h
          simp only [pure, Except.pure, Except.ok.injEq, Prod.mk.injEq] at h
          obtain ⟨_, rfl⟩ := h
          obtain ⟨q1, q2⟩ := cons n (by omega) _ _ h1
          obtain ⟨s1, s2⟩ := B.setCurrent_spec
            (B.current ++ [InlineLevelBox.outOfFlowAbsolutelyPositionedBox s (.mk a b)])
          refine ⟨fun b hb => by rw [s1]; exact hb, s2, fun hp => ?_⟩
          simp [Styled.good, hout, q1, q2]
      · split at h
        · rename_i hflo
          have hout : s.outOfFlow = true := by simp [Style.outOfFlow, hflo]
          split at h
          · simp only [pure, Except.pure, Except.ok.injEq, Prod.mk.injEq] at h
            obtain ⟨_, rfl⟩ := h
            refine ⟨fun b hb => List.mem_append_left _ hb, rfl, fun hp => ?_⟩
            obtain ⟨q1, q2⟩ := prom _ (.inr (.inl rfl))
              (hp _ (List.mem_append_right _ (List.mem_singleton.2 rfl)))
            simp [Styled.good, hout, q1, q2]
          · obtain ⟨⟨a, b, c⟩, h1, h⟩ := bind_eq_ok.1 h
            simp only [pure, Except.pure, Except.ok.injEq, Prod.mk.injEq] at h
            obtain ⟨_, rfl⟩ := h
            obtain ⟨q1, q2⟩ := cons n (by omega) _ _ h1
            obtain ⟨s1, s2⟩ := Builder.setCurrent_spec { B with containsFloats := true }
              (Builder.current { B with containsFloats := true } ++
                [InlineLevelBox.outOfFlowFloatBox s (.mk a b)])
            refine ⟨fun b hb => by rw [s1]; exact hb, s2, fun hp => ?_⟩
            simp [Styled.good, hout, q1, q2]
        · obtain ⟨B1, h1, h⟩ := bind_eq_ok.1 h
          simp only [pure, Except.pure, Except.ok.injEq, Prod.mk.injEq] at h
          obtain ⟨_, rfl⟩ := h
          obtain ⟨t1, t2, t3, b, t4, t5⟩ := Builder.handleBlockLevel_spec h1
          refine ⟨t3, by rw [t1, t2], fun hp => ?_⟩
          obtain ⟨q1, q2⟩ := prom b (by cases ins <;> simp [t5]) (hp b t4)
          simp [Styled.good, t1, q1, q2]

theorem trav_good {C : BoxContext} {kids} (hw : C.doc.WF kids) {n : Nat}
    (iht : ∀ m < n, TravGood C kids m) (ihc : ∀ m < n, ConsGood C kids m) : TravGood C kids n := by
  intro st l cs L B L' B' hs hl h
  cases n with
  | zero => simp [traverse] at h
  | succ n =>
    have ih := iht n (by omega)
    have step : ∀ {i : NodeId} {e : ElementData}, (C.doc.node i).data = .element e →
        travStep C st i L B n = traverseElement C n i e st L B := by
      intro i e he
      simp [travStep, he]
    cases hs with
    | nil =>
      simp only [List.head?_nil, traverse, Except.ok.injEq, Prod.mk.injEq] at h
      obtain ⟨_, rfl⟩ := h
      exact ⟨fun b hb => hb, rfl, fun _ => ⟨rfl, rfl⟩⟩
    | @other _ i l cs ho hs =>
      refine trav_good_cons ih hl hs ?_ (by simp) hs.nil_iff h
      intro L1 B1 h1
      unfold travStep at h1
      obtain ⟨o1, o2⟩ := ho
      split at h1
      · simp_all [NodeData.asText]
      · simp_all [NodeData.asElement]
      · simp only [Except.ok.injEq, Prod.mk.injEq] at h1
        obtain ⟨_, rfl⟩ := h1
        exact ⟨fun b hb => hb, rfl, fun _ => rfl⟩
    | @text _ i l cs t ht hs =>
      refine trav_good_cons ih hl hs ?_ (by simp) hs.nil_iff h
      intro L1 B1 h1
      simp only [travStep, ht] at h1
      obtain ⟨B2, h2, h1⟩ := bind_eq_ok.1 h1
      simp only [pure, Except.pure, Except.ok.injEq, Prod.mk.injEq] at h1
      obtain ⟨_, rfl⟩ := h1
      obtain ⟨s1, s2⟩ := Builder.handleText_spec h2
      exact ⟨fun b hb => by rw [s1]; exact hb, s2, fun _ => Builder.handleText_good C B B2 t st h2 _⟩
    | @br _ i l cs e s he hb hst hs =>
      refine trav_good_cons ih hl hs ?_ (by simp) hs.nil_iff h
      intro L1 B1 h1
      rw [step he] at h1
      cases n with
      | zero => simp [traverseElement] at h1
      | succ n =>
        unfold traverseElement at h1
        rw [hst] at h1
        obtain ⟨_, e1, h1⟩ := bind_eq_ok.1 h1
        simp only [Except.ok.injEq] at e1
        subst e1
        rw [if_pos hb] at h1
        obtain ⟨B2, h2, h1⟩ := bind_eq_ok.1 h1
        simp only [pure, Except.pure, Except.ok.injEq, Prod.mk.injEq] at h1
        obtain ⟨_, rfl⟩ := h1
        obtain ⟨s1, s2⟩ := Builder.handleText_spec h2
        exact ⟨fun b hb => by rw [s1]; exact hb, s2,
          fun _ => Builder.handleText_good C B B2 _ s h2 _⟩
    | @hidden _ i l cs e s he hb hst hd hs =>
      have hel : ∀ L1 B1, travStep C st i L B n = .ok (L1, B1) →
          (∃ L2, unsetBoxesInSubtree C.doc i (n - 1) L = .ok L2) ∧ B1 = B := by
        intro L1 B1 h1
        rw [step he] at h1
        cases n with
        | zero => simp [traverseElement] at h1
        | succ n =>
          unfold traverseElement at h1
          rw [hst] at h1
          obtain ⟨_, e1, h1⟩ := bind_eq_ok.1 h1
          simp only [Except.ok.injEq] at e1
          subst e1
          rw [if_neg hb, hd] at h1
          obtain ⟨L2, h2, h1⟩ := bind_eq_ok.1 h1
          simp only [pure, Except.pure, Except.ok.injEq, Prod.mk.injEq] at h1
          exact ⟨⟨L2, h2⟩, h1.2.symm⟩
      refine trav_good_cons ih hl hs ?_ ?_ hs.nil_iff h
      · intro L1 B1 h1
        obtain ⟨_, rfl⟩ := hel L1 B1 h1
        exact ⟨fun b hb => hb, rfl, fun _ => rfl⟩
      · intro _ _ hnil
        subst hnil
        obtain ⟨hi, hn, _⟩ := hl
        simp only [List.head?_cons] at h
        rw [traverse_cons C st i L B n hi] at h
        obtain ⟨⟨L1, B1⟩, h1, _⟩ := bind_eq_ok.1 h
        rw [withSlots_eq_ok] at h1
        obtain ⟨⟨L2, h2⟩, _⟩ := hel L1 B1 h1
        obtain ⟨m, s', h3, h4⟩ := unsetLoop_next _ _ _ _ h2
        rw [Doc.get_eq h3, hn] at h4
        simp at h4
    | @contents _ i l cs e s ks he hb hst hd hks hs =>
      refine trav_good_cons ih hl hs ?_ (by simp) hs.nil_iff h
      intro L1 B1 h1
      rw [step he] at h1
      cases n with
      | zero => simp [traverseElement] at h1
      | succ n =>
        unfold traverseElement at h1
        rw [hst] at h1
        obtain ⟨_, e1, h1⟩ := bind_eq_ok.1 h1
        simp only [Except.ok.injEq] at e1
        subst e1
        rw [if_neg hb, hd] at h1
        obtain ⟨L2, h2, h1⟩ := bind_eq_ok.1 h1
        rw [Doc.get_ok _ _ hl.1] at h1
        obtain ⟨_, e1, h1⟩ := bind_eq_ok.1 h1
        simp only [Except.ok.injEq] at e1
        subst e1
        rw [hw.first i hl.1] at h1
        obtain ⟨a1, a2, a3⟩ := iht n (by omega) s (kids i) ks _ _ _ _ hks (hw.linked i) h1
        refine ⟨a1, a2, fun hp => ?_⟩
        obtain ⟨p1, p2⟩ := a3 hp
        simp [Styled.good, p1, p2]
    | @elem _ i l cs e s o ins ks he hb hst hd hks hs =>
      refine trav_good_cons ih hl hs ?_ (by simp) hs.nil_iff h
      intro L1 B1 h1
      rw [step he] at h1
      cases n with
      | zero => simp [traverseElement] at h1
      | succ n =>
        unfold traverseElement at h1
        rw [hst] at h1
        obtain ⟨_, e1, h1⟩ := bind_eq_ok.1 h1
        simp only [Except.ok.injEq] at e1
        subst e1
        rw [if_neg hb, hd] at h1
        obtain ⟨L2, h2, h1⟩ := bind_eq_ok.1 h1
        exact handleElement_good hw (fun m hm => iht m (by omega)) (fun m hm => ihc m (by omega))
          hl.1 hks _ _ h1

theorem finishBoxes_good {C : BoxContext} {kids} : ∀ (n : Nat) (bs) (L : LayoutData) (r),
    (∀ m < n, ConsGood C kids m) → finishBoxes C n bs L = .ok r →
    ∀ b ∈ bs, Promise C kids b.1
  | 0, _, _, _, _, h => by simp [finishBoxes] at h
  | n + 1, [], _, _, _, _ => by simp
  | n + 1, (b, slot) :: bs, L, r, ih, h => by
    unfold finishBoxes at h
    obtain ⟨⟨box, fl, L1⟩, h1, h⟩ := bind_eq_ok.1 h
    obtain ⟨⟨boxes, fl', L2⟩, h2, h⟩ := bind_eq_ok.1 h
    rw [withSlots_eq_ok] at h1
    intro x hx
    rcases List.mem_cons.1 hx with rfl | hx
    · cases n with
      | zero => simp [finishBox] at h1
      | succ n =>
        have key : ∀ st id, (∃ r, constructContainer C n st id L = .ok r) → id < C.doc.len →
            ∀ cs, Shows C kids st (kids id) cs → goodContent cs = true :=
          fun st id ⟨r, hr⟩ hid => ih n (by omega) st id L r hid hr
        cases b with
        | sameFormattingContextBlock st c =>
          cases c with
          | inlineFormattingContext _ _ => exact trivial
          | deferred id =>
            unfold finishBox at h1
            obtain ⟨r, h1, _⟩ := bind_eq_ok.1 h1
            exact key st id ⟨r, h1⟩
        | independent st id =>
          unfold finishBox at h1
          obtain ⟨r, h1, _⟩ := bind_eq_ok.1 h1
          exact key st id ⟨r, h1⟩
        | outOfFlowAbsolutelyPositionedBox st id =>
          unfold finishBox at h1
          obtain ⟨r, h1, _⟩ := bind_eq_ok.1 h1
          exact key st id ⟨r, h1⟩
        | outOfFlowFloatBox st id =>
          unfold finishBox at h1
          obtain ⟨r, h1, _⟩ := bind_eq_ok.1 h1
          exact key st id ⟨r, h1⟩
    · exact finishBoxes_good n bs _ _ (fun m hm => ih m (by omega)) h2 x hx

theorem cons_good {C : BoxContext} {kids} (hw : C.doc.WF kids) {n : Nat}
    (iht : ∀ m < n, TravGood C kids m) (ihc : ∀ m < n, ConsGood C kids m) : ConsGood C kids n := by
  intro st id L r hid h cs hs
  cases n with
  | zero => simp [constructContainer] at h
  | succ n =>
    unfold constructContainer at h
    rw [Doc.get_ok _ _ hid] at h
    obtain ⟨_, e1, h⟩ := bind_eq_ok.1 h
    simp only [Except.ok.injEq] at e1
    subst e1
    obtain ⟨⟨L1, B1⟩, h1, h⟩ := bind_eq_ok.1 h
    rw [hw.first id hid] at h1
    obtain ⟨a1, a2, a3⟩ := iht n (by omega) st (kids id) cs _ _ _ _ hs (hw.linked id) h1
    obtain ⟨_, _, h⟩ := bind_eq_ok.1 h
    have hp : ∀ b ∈ B1.blockLevelBoxes, Promise C kids b.1 := by
      split at h
      · rename_i hc
        simp only [Bool.and_eq_true, List.isEmpty_iff] at hc
        rw [hc.2]
        simp
      · simp only at h
        split at h
        · obtain ⟨B2, h2, h⟩ := bind_eq_ok.1 h
          obtain ⟨⟨boxes, fl, L2⟩, h3, h⟩ := bind_eq_ok.1 h
          have hpr := finishBoxes_good n _ _ _ (fun m hm => ihc m (by omega)) h3
          intro b hb
          refine hpr b ?_
          rw [withSlots_eq_ok] at h2
          unfold Builder.endOngoing at h2
          split at h2
          · simp at h2
          · split at h2 <;> (simp only [Except.ok.injEq] at h2; subst h2; simp [hb])
        · obtain ⟨B2, h2, h⟩ := bind_eq_ok.1 h
          obtain ⟨⟨boxes, fl, L2⟩, h3, h⟩ := bind_eq_ok.1 h
          simp only [Except.ok.injEq] at h2
          subst h2
          exact finishBoxes_good n _ _ _ (fun m hm => ihc m (by omega)) h3
    obtain ⟨p1, p2⟩ := a3 hp
    have : (!(Builder.new st).stack.isEmpty) = false := rfl
    rw [this] at p2
    simp [goodContent, p1, p2]

/-- the construction succeeds only for content of the supported kind -/
theorem construct_good {C : BoxContext} {kids} (hw : C.doc.WF kids) (n : Nat) :
    TravGood C kids n ∧ ConsGood C kids n := by
  induction n using Nat.strong_induction_on with
  | _ n ih =>
    exact ⟨trav_good hw (fun m hm => (ih m hm).1) fun m hm => (ih m hm).2,
      cons_good hw (fun m hm => (ih m hm).1) fun m hm => (ih m hm).2⟩

/-! ## The content of a document -/

theorem Shows.unique {C : BoxContext} {kids} {st : Style} {l : List NodeId} {cs cs' : List Styled}
    (h : Shows C kids st l cs) (h' : Shows C kids st l cs') : cs = cs' := by
  induction h generalizing cs' with
  | nil => cases h'; rfl
  | other ho _ ih =>
    obtain ⟨o1, o2⟩ := ho
    cases h' with
    | other _ h => rw [ih h]
    | text ht _ => simp [ht, NodeData.asText] at o1
    | br he => simp [he, NodeData.asElement] at o2
    | hidden he => simp [he, NodeData.asElement] at o2
    | contents he => simp [he, NodeData.asElement] at o2
    | elem he => simp [he, NodeData.asElement] at o2
  | text ht _ ih =>
    cases h' with
    | other ho _ => simp [NodeData.isOther, ht, NodeData.asText] at ho
    | text ht' h => rw [ht] at ht'; simp only [NodeData.text.injEq] at ht'; rw [ht', ih h]
    | br he => simp [ht] at he
    | hidden he => simp [ht] at he
    | contents he => simp [ht] at he
    | elem he => simp [ht] at he
  | br he hb hs _ ih =>
    cases h' with
    | other ho _ => simp [NodeData.isOther, he, NodeData.asElement] at ho
    | text ht' h => simp [he] at ht'
    | br he' hb' hs' h =>
      rw [hs] at hs'; simp only [Except.ok.injEq] at hs'
      rw [hs', ih h]
    | hidden he' hb' => rw [he] at he'; simp_all
    | contents he' hb' => rw [he] at he'; simp_all
    | elem he' hb' => rw [he] at he'; simp_all
  | hidden he hb hs hd _ ih =>
    cases h' with
    | other ho _ => simp [NodeData.isOther, he, NodeData.asElement] at ho
    | text ht' h => simp [he] at ht'
    | br he' hb' => rw [he] at he'; simp_all
    | hidden he' hb' hs' hd' h => rw [ih h]
    | contents he' hb' hs' hd' => simp_all
    | elem he' hb' hs' hd' => simp_all
  | contents he hb hs hd _ _ ih1 ih2 =>
    cases h' with
    | other ho _ => simp [NodeData.isOther, he, NodeData.asElement] at ho
    | text ht' h => simp [he] at ht'
    | br he' hb' => rw [he] at he'; simp_all
    | hidden he' hb' hs' hd' h => simp_all
    | contents he' hb' hs' hd' h1 h2 =>
      rw [hs] at hs'; simp only [Except.ok.injEq] at hs'
      subst hs'
      rw [ih1 h1, ih2 h2]
    | elem he' hb' hs' hd' => simp_all
  | elem he hb hs hd _ _ ih1 ih2 =>
    cases h' with
    | other ho _ => simp [NodeData.isOther, he, NodeData.asElement] at ho
    | text ht' h => simp [he] at ht'
    | br he' hb' => rw [he] at he'; simp_all
    | hidden he' hb' hs' hd' h => simp_all
    | contents he' hb' hs' hd' h1 h2 => simp_all
    | elem he' hb' hs' hd' h1 h2 =>
      rw [hs] at hs'; simp only [Except.ok.injEq] at hs'
      subst hs'
      rw [hd] at hd'
      simp only [Display.generatingBox.injEq] at hd'
      obtain ⟨rfl, rfl⟩ := hd'
      rw [ih1 h1, ih2 h2]

/-- every document has content if the cascade does not fail -/
theorem Shows.exists {C : BoxContext} {kids} (hw : C.doc.WF kids)
    (hs : ∀ i p, i < C.doc.len → ∃ s, C.styleOf i p = .ok s) {rs l : List NodeId}
    (ht : Doc.TreeOrder kids rs l) : ∀ st, (∀ r ∈ rs, r < C.doc.len) →
    ∃ cs, Shows C kids st rs cs := by
  induction ht with
  | nil => exact fun st _ => ⟨[], .nil⟩
  | @cons r rs l1 l2 _ _ ih1 ih2 =>
    intro st hb
    have hr := hb r (by simp)
    obtain ⟨cs, hcs⟩ := ih2 st fun x hx => hb x (by simp [hx])
    cases hd : (C.doc.node r).data with
    | text t => exact ⟨_, .text hd hcs⟩
    | element e =>
      obtain ⟨s, hsr⟩ := hs r (some st) hr
      by_cases hbr : e.name.localName = "br"
      · exact ⟨_, .br hd hbr hsr hcs⟩
      · obtain ⟨ks, hks⟩ := ih1 s fun x hx => (hw.bound r x hx).2
        cases hdis : s.val .display with
        | none => exact ⟨_, .hidden hd hbr hsr hdis hcs⟩
        | contents => exact ⟨_, .contents hd hbr hsr hdis hks hcs⟩
        | generatingBox o ins => exact ⟨_, .elem hd hbr hsr hdis hks hcs⟩
    | _ => exact ⟨_, .other (by rw [NodeData.isOther, hd]; exact ⟨rfl, rfl⟩) hcs⟩

/-- the elements of the content are nodes of the tree, in the same order -/
theorem Shows.sublist {C : BoxContext} {kids} {st : Style} {rs : List NodeId} {cs : List Styled}
    (h : Shows C kids st rs cs) : ∀ l, Doc.TreeOrder kids rs l → (idsOf cs).Sublist l := by
  induction h with
  | nil => intro l ht; simp [idsOf]
  | other _ _ ih | text _ _ ih | br _ _ _ _ ih =>
    intro l ht
    cases ht with
    | cons h1 h2 =>
      simpa [idsOf, Styled.ids] using
        ((ih _ h2).trans (List.sublist_append_right _ _)).trans (List.sublist_cons_self _ _)
  | hidden _ _ _ _ _ ih =>
    intro l ht
    cases ht with
    | cons h1 h2 =>
      simpa [idsOf, Styled.ids] using ((ih _ h2).trans (List.sublist_append_right _ _))
  | contents _ _ _ _ _ _ ih1 ih2 | elem _ _ _ _ _ _ ih1 ih2 =>
    intro l ht
    cases ht with
    | cons h1 h2 =>
      simpa [idsOf, Styled.ids] using ((ih1 _ h1).append (ih2 _ h2))

theorem Shows.nodup {C : BoxContext} {kids} (hw : C.doc.WF kids) {st : Style} {p : NodeId}
    {cs : List Styled} (h : Shows C kids st (kids p) cs) : (idsOf cs).Nodup := by
  obtain ⟨l, hl⟩ := hw.treeOrder (kids p) fun r hr => (hw.bound p r hr).2
  exact (h.sublist l hl).nodup (hl.nodup hw (.inl ⟨p, [], rfl⟩))

/-- The construction of the boxes of an element: it succeeds exactly for content of the
supported kind, and then the result is the announced one. -/
theorem construct_iff {C : BoxContext} {kids} (hw : C.doc.WF kids) {st : Style} {id : NodeId}
    {cs : List Styled} {L : LayoutData} (hid : id < C.doc.len) (hs : Shows C kids st (kids id) cs)
    (hL : Fresh' L (idsOf cs)) :
    (∃ n r, constructContainer C n st id L = .ok r) ↔ goodContent cs = true := by
  constructor
  · rintro ⟨n, r, h⟩
    exact (construct_good hw n).2 st id L r hid h cs hs
  · intro hg
    obtain ⟨N, h⟩ := (ConsOk.of_trav hw (trav_ok C kids hw cs)) st id L hid hs hg (hs.nodup hw) hL
    exact ⟨N, _, h N (Nat.le_refl _)⟩

end Sinab
