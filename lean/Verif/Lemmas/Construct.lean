import Verif.Spec.Boxes
import Verif.Lemmas.DomSink
import Mathlib.Data.List.Perm.Basic

/-! The box construction computes a function of the styled content. -/

namespace Sinab

/-! ## Enough fuel -/

/-- `P n` for all `n` from some point on -/
def Evt (P : Nat → Prop) : Prop := ∃ N, ∀ n, N ≤ n → P n

theorem Evt.mono {P Q : Nat → Prop} (h : Evt P) (i : ∀ n, P n → Q n) : Evt Q := by
  obtain ⟨N, h⟩ := h
  exact ⟨N, fun n hn => i n (h n hn)⟩

theorem Evt.and {P Q : Nat → Prop} (h : Evt P) (g : Evt Q) : Evt fun n => P n ∧ Q n := by
  obtain ⟨N, h⟩ := h
  obtain ⟨M, g⟩ := g
  exact ⟨max N M, fun n hn => ⟨h n (by omega), g n (by omega)⟩⟩

theorem Evt.succ {P : Nat → Prop} (h : Evt fun n => P (n + 1)) : Evt P := by
  obtain ⟨N, h⟩ := h
  refine ⟨N + 1, fun n hn => ?_⟩
  obtain ⟨m, rfl⟩ : ∃ m, n = m + 1 := ⟨n - 1, by omega⟩
  exact h m (by omega)

theorem Evt.all {P : Nat → Prop} (h : ∀ n, P n) : Evt P := ⟨0, fun n _ => h n⟩

/-! ## Logs of changes of the layout data -/

abbrev Log := List (NodeId × LayoutCell)

/-- the layout data after the changes of a log -/
def applyLog (L : LayoutData) (l : Log) : LayoutData :=
  l.foldl (fun L p => Function.update L p.1 p.2) L

@[simp] theorem applyLog_nil (L : LayoutData) : applyLog L [] = L := rfl

@[simp] theorem applyLog_append (L : LayoutData) (a b : Log) :
    applyLog L (a ++ b) = applyLog (applyLog L a) b := by
  simp [applyLog, List.foldl_append]

@[simp] theorem applyLog_one (L : LayoutData) (i : NodeId) (c : LayoutCell) :
    applyLog L [(i, c)] = Function.update L i c := rfl

theorem applyLog_other (l : Log) : ∀ (L : LayoutData) (x : NodeId), x ∉ l.map (·.1) →
    applyLog L l x = L x := by
  induction l with
  | nil => intros; rfl
  | cons p l ih =>
    intro L x hx
    simp only [List.map_cons, List.mem_cons, not_or] at hx
    show applyLog (Function.update L p.1 p.2) l x = L x
    rw [ih _ _ hx.2, Function.update_of_ne hx.1]

/-- the cells of `ids` were never used -/
def Fresh' (L : LayoutData) (ids : List NodeId) : Prop := ∀ x ∈ ids, L x = ⟨none, false⟩

theorem Fresh'.applyLog {L : LayoutData} {ids : List NodeId} (h : Fresh' L ids) {l : Log}
    (hd : ∀ x ∈ ids, x ∉ l.map (·.1)) : Fresh' (Sinab.applyLog L l) ids := by
  intro x hx
  rw [applyLog_other l L x (hd x hx), h x hx]

/-! ## Text -/

/-- text added to a list of inline-level boxes -/
def textInto (C : BoxContext) (st : Style) (t : Text) (boxes : List InlineLevelBox) :
    List InlineLevelBox :=
  match st.val .whiteSpace with
  | .normal | .nowrap =>
    (Builder.handleTextCollapse C ⟨st, [], boxes, [], false⟩ t st).inlines
  | _ => (Builder.handleTextPreserve C ⟨st, [], boxes, [], false⟩ t st).inlines

theorem Builder.setCurrent_current (B : Builder) : B.setCurrent B.current = B := by
  obtain ⟨a, b, c, d, e⟩ := B
  cases d <;> rfl

theorem Builder.current_setCurrent (B : Builder) (l : List InlineLevelBox) :
    (B.setCurrent l).current = l := by
  obtain ⟨a, b, c, d, e⟩ := B
  cases d <;> rfl

theorem Builder.handleText_ok (C : BoxContext) (B : Builder) (t : Text) (st : Style)
    (h : (Styled.text st t).good false = true) :
    B.handleText C t st = .ok (B.setCurrent (textInto C st t B.current)) := by
  unfold Builder.handleText textInto
  unfold Styled.good at h
  have hc : B.handleTextCollapse C t st = B.setCurrent
      (Builder.handleTextCollapse C ⟨st, [], B.current, [], false⟩ t st).inlines := by
    have hl : (Builder.mk st [] B.current [] false).handleLeadingWhitespace t =
        B.handleLeadingWhitespace t := rfl
    unfold Builder.handleTextCollapse
    rw [hl]
    obtain ⟨a, b⟩ := B.handleLeadingWhitespace t
    simp only
    split
    · rfl
    · exact (Builder.setCurrent_current B).symm
  have hp : B.handleTextPreserve C t st = B.setCurrent
      (Builder.handleTextPreserve C ⟨st, [], B.current, [], false⟩ t st).inlines := by
    unfold Builder.handleTextPreserve
    split
    · rfl
    · exact (Builder.setCurrent_current B).symm
  split <;> simp_all

theorem Builder.handleText_good (C : BoxContext) (B B' : Builder) (t : Text) (st : Style)
    (h : B.handleText C t st = .ok B') (inl : Bool) : (Styled.text st t).good inl = true := by
  unfold Builder.handleText at h
  unfold Styled.good
  split at h <;> simp_all

/-! ## What the builder computes -/

/-- a block-level box of a builder, with what finishing it will give -/
structure Blk where
  inter : IntermediateBox
  slot : Option NodeId
  box : BlockLevelBox
  log : Log
  floats : Bool
  /-- the elements inside the box -/
  ids : List NodeId

/-- changes of the layout data when the box is finished -/
def Blk.changes (b : Blk) : Log :=
  b.log ++ match b.slot with
    | some e => [(e, ⟨some (.blockLevel b.box), false⟩)]
    | none => []

/-- state of a builder -/
structure Flow where
  blocks : List Blk
  inl : List InlineLevelBox
  log : Log
  floats : Bool
  /-- the elements treated so far, without those that wait inside of `blocks` -/
  own : List NodeId

namespace Flow

def empty : Flow := ⟨[], [], [], false, []⟩

/-- an anonymous block for the inline content -/
def anon (cst : Style) (l : List InlineLevelBox) : Blk where
  inter := .sameFormattingContextBlock (Style.anonymousInheritingFrom (some cst))
    (.inlineFormattingContext cst l)
  slot := none
  box := .sameFormattingContextBlock (Style.anonymousInheritingFrom (some cst))
    (.inlineFormattingContext cst l)
  log := []
  floats := false
  ids := []

/-- end the inline content -/
def flush (cst : Style) (f : Flow) : Flow :=
  if f.inl.isEmpty then f else { f with inl := [], blocks := f.blocks ++ [anon cst f.inl] }

/-- record a change -/
def note (f : Flow) (id : NodeId) (c : LayoutCell) : Flow := { f with log := f.log ++ [(id, c)] }

/-- record that an element is being treated -/
def claim (f : Flow) (id : NodeId) : Flow := { f with own := f.own ++ [id] }

def push (f : Flow) (b : InlineLevelBox) : Flow := { f with inl := f.inl ++ [b] }

def pushBlk (f : Flow) (b : Blk) : Flow := { f with blocks := f.blocks ++ [b] }

/-- take over what the construction of a nested container did -/
def absorb (f : Flow) (l : Log) (ids : List NodeId) : Flow :=
  { f with log := f.log ++ l, own := f.own ++ ids }

/-- result of the construction: container, floats, changes -/
def container (cst : Style) (f : Flow) : BlockContainer × Bool × Log :=
  if !f.inl.isEmpty && f.blocks.isEmpty then
    (.inlineFormattingContext cst f.inl, f.floats, f.log)
  else
    let g := f.flush cst
    (.blockLevelBoxes (g.blocks.map (·.box)), g.floats || g.blocks.any (·.floats),
      g.log ++ g.blocks.flatMap (·.changes))

end Flow

mutual

/-- effect of an entry of the content on the builder -/
def Styled.put (C : BoxContext) (cst : Style) (inl : Bool) : Styled → Flow → Flow
  | .other, f => f
  | .hidden id, f => (f.note id ⟨none, false⟩).claim id
  | .text st t, f => { f with inl := textInto C st t f.inl }
  | .contents id ks, f => putAll C cst inl ks ((f.note id ⟨some .displayContents, false⟩).claim id)
  | .elem id st .inline _ ks, f =>
    let r := putAll C cst true ks ((({ f with inl := [] } : Flow).note id ⟨none, true⟩).claim id)
    let b := InlineLevelBox.inlineBox st true true r.inl
    ({ r with inl := f.inl ++ [b] } : Flow).note id ⟨some (.inlineLevel b), false⟩
  | .elem id st .block inside ks, f =>
    let r := (putAll C st false ks Flow.empty).container st
    let bfc := Bfc.mk r.1 r.2.1
    let f := (f.note id ⟨none, true⟩).claim id
    if (st.val .position).isAbsolutelyPositioned then
      if inl || !f.inl.isEmpty then
        let b := InlineLevelBox.outOfFlowAbsolutelyPositionedBox st bfc
        ((f.push b).absorb r.2.2 (idsOf ks)).note id ⟨some (.inlineLevel b), false⟩
      else
        f.pushBlk ⟨.outOfFlowAbsolutelyPositionedBox st id, some id,
          .outOfFlowAbsolutelyPositionedBox st bfc, r.2.2, false, idsOf ks⟩
    else if (st.val .float).isFloating then
      let f : Flow := { f with floats := true }
      if inl || !f.inl.isEmpty then
        let b := InlineLevelBox.outOfFlowFloatBox st bfc
        ((f.push b).absorb r.2.2 (idsOf ks)).note id ⟨some (.inlineLevel b), false⟩
      else
        f.pushBlk ⟨.outOfFlowFloatBox st id, some id,
          .outOfFlowFloatBox st bfc, r.2.2, true, idsOf ks⟩
    else
      match inside with
      | .flow => (f.flush cst).pushBlk ⟨.sameFormattingContextBlock st (.deferred id), some id,
          .sameFormattingContextBlock st r.1, r.2.2, r.2.1, idsOf ks⟩
      | .flowRoot => (f.flush cst).pushBlk ⟨.independent st id, some id,
          .independent st bfc, r.2.2, false, idsOf ks⟩

/-- `Styled.put` for all entries in turn -/
def putAll (C : BoxContext) (cst : Style) (inl : Bool) : List Styled → Flow → Flow
  | [], f => f
  | c :: cs, f => putAll C cst inl cs (c.put C cst inl f)

end

/-- the container, float flag and changes for the content of an element -/
def containerOf (C : BoxContext) (st : Style) (cs : List Styled) : BlockContainer × Bool × Log :=
  (putAll C st false cs Flow.empty).container st

/-- the builder in a given state -/
def Flow.builder (B : Builder) (f : Flow) : Builder :=
  { B.setCurrent f.inl with
    blockLevelBoxes := f.blocks.map fun b => (b.inter, b.slot)
    containsFloats := f.floats }

/-! ## Elements touched -/

/-- all elements a builder knows about -/
def Flow.foot (f : Flow) : List NodeId := f.own ++ f.blocks.flatMap (·.ids)

theorem Flow.flush_foot (cst : Style) (f : Flow) : (f.flush cst).foot = f.foot := by
  unfold Flow.flush
  split
  · rfl
  · simp [Flow.foot, Flow.anon]

theorem perm_insert {a b i : List NodeId} : (a ++ i ++ b).Perm (a ++ b ++ i) := by
  rw [List.append_assoc, List.append_assoc]
  exact List.Perm.append_left a List.perm_append_comm

theorem Flow.claim_foot (f : Flow) (id : NodeId) (c : LayoutCell) :
    ((f.note id c).claim id).foot.Perm (f.foot ++ [id]) := perm_insert

theorem Flow.foot_absorb (f : Flow) (l : Log) (ids : List NodeId) :
    (f.absorb l ids).foot.Perm (f.foot ++ ids) := perm_insert

theorem Flow.foot_pushBlk (f : Flow) (b : Blk) : (f.pushBlk b).foot = f.foot ++ b.ids := by
  simp [Flow.foot, Flow.pushBlk]

mutual

theorem Styled.put_foot (C : BoxContext) (cst : Style) (inl : Bool) : ∀ (c : Styled) (f : Flow),
    (c.put C cst inl f).foot.Perm (f.foot ++ c.ids)
  | .other, f => by simp [Styled.put, Styled.ids]
  | .hidden id, f => by
    simpa [Styled.put, Styled.ids] using f.claim_foot id _
  | .text st t, f => by simp [Styled.put, Styled.ids, Flow.foot]
  | .contents id ks, f => by
    have := putAll_foot C cst inl ks ((f.note id ⟨some .displayContents, false⟩).claim id)
    refine this.trans ?_
    refine ((f.claim_foot id _).append_right _).trans ?_
    simp [Styled.ids]
  | .elem id st .inline ins ks, f => by
    have := putAll_foot C cst true ks
      ((({ f with inl := [] } : Flow).note id ⟨none, true⟩).claim id)
    refine (show (Flow.foot _).Perm _ from this).trans ?_
    refine ((Flow.claim_foot { f with inl := [] } id _).append_right _).trans ?_
    simp [Styled.ids, Flow.foot]
  | .elem id st .block ins ks, f => by
    have h0 := (f.claim_foot id ⟨none, true⟩).append_right (idsOf ks)
    have e : f.foot ++ [id] ++ idsOf ks = f.foot ++ (Styled.elem id st .block ins ks).ids := by
      simp [Styled.ids]
    rw [e] at h0
    simp only [Styled.put]
    split
    · split
      · exact (Flow.foot_absorb _ ((putAll C st false ks Flow.empty).container st).2.2 _).trans h0
      · rw [Flow.foot_pushBlk]; exact h0
    · split
      · split
        · exact (Flow.foot_absorb _ ((putAll C st false ks Flow.empty).container st).2.2 _).trans h0
        · rw [Flow.foot_pushBlk]; exact h0
      · split <;> rw [Flow.foot_pushBlk, Flow.flush_foot] <;> exact h0

theorem putAll_foot (C : BoxContext) (cst : Style) (inl : Bool) : ∀ (cs : List Styled) (f : Flow),
    (putAll C cst inl cs f).foot.Perm (f.foot ++ idsOf cs)
  | [], f => by simp [putAll, idsOf]
  | c :: cs, f => by
    refine (putAll_foot C cst inl cs _).trans ?_
    refine ((Styled.put_foot C cst inl c f).append_right _).trans ?_
    simp [idsOf]

end

/-- changes only concern elements that were claimed -/
structure Flow.Keys (f : Flow) : Prop where
  log : ∀ p ∈ f.log, p.1 ∈ f.own
  blk : ∀ b ∈ f.blocks, (∀ p ∈ b.log, p.1 ∈ b.ids) ∧ ∀ e, b.slot = some e → e ∈ f.own

theorem Flow.Keys.flush {f : Flow} (h : f.Keys) (cst : Style) : (f.flush cst).Keys := by
  unfold Flow.flush
  split
  · exact h
  · refine ⟨h.log, ?_⟩
    intro b hb
    simp only [List.mem_append, List.mem_singleton] at hb
    rcases hb with hb | rfl
    · exact h.blk b hb
    · simp [Flow.anon]

theorem Flow.flush_own (f : Flow) (cst : Style) : (f.flush cst).own = f.own := by
  unfold Flow.flush
  split <;> rfl

theorem Flow.flush_log (f : Flow) (cst : Style) : (f.flush cst).log = f.log := by
  unfold Flow.flush
  split <;> rfl

theorem Flow.flush_claim (cst : Style) (f : Flow) (id : NodeId) (c : LayoutCell) :
    Flow.flush cst ((f.note id c).claim id) = ((f.flush cst).note id c).claim id := by
  obtain ⟨bl, inl, log, fl, own⟩ := f
  cases inl <;> rfl

theorem Flow.Keys.container {f : Flow} (h : f.Keys) (cst : Style) :
    ∀ p ∈ (f.container cst).2.2, p.1 ∈ f.foot := by
  intro p hp
  unfold Flow.container at hp
  split at hp
  · exact List.mem_append_left _ (h.log p hp)
  · have hg := h.flush cst
    simp only [List.mem_append, List.mem_flatMap] at hp
    rw [← Flow.flush_foot cst f]
    rcases hp with hp | ⟨b, hb, hp⟩
    · exact List.mem_append_left _ (hg.log p hp)
    · unfold Blk.changes at hp
      rcases List.mem_append.1 hp with hp | hp
      · exact List.mem_append_right _ (List.mem_flatMap.2 ⟨b, hb, (hg.blk b hb).1 p hp⟩)
      · cases hs : b.slot with
        | none => simp [hs] at hp
        | some e =>
          simp only [hs, List.mem_singleton] at hp
          subst hp
          exact List.mem_append_left _ ((hg.blk b hb).2 e hs)

theorem Flow.Keys.claim {f : Flow} (h : f.Keys) (id : NodeId) (c : LayoutCell) :
    ((f.note id c).claim id).Keys := by
  constructor
  · intro p hp
    simp only [Flow.claim, Flow.note, List.mem_append, List.mem_singleton] at hp ⊢
    rcases hp with hp | rfl
    · exact .inl (h.log p hp)
    · exact .inr rfl
  · intro b hb
    exact ⟨(h.blk b hb).1, fun e he => List.mem_append_left _ ((h.blk b hb).2 e he)⟩

theorem Flow.Keys.note {f : Flow} (h : f.Keys) {id : NodeId} (hi : id ∈ f.own) (c : LayoutCell) :
    (f.note id c).Keys := by
  refine ⟨?_, h.blk⟩
  intro p hp
  simp only [Flow.note, List.mem_append, List.mem_singleton] at hp
  rcases hp with hp | rfl
  · exact h.log p hp
  · exact hi

theorem Flow.Keys.absorb {f : Flow} (h : f.Keys) {l : Log} {ids : List NodeId}
    (hl : ∀ p ∈ l, p.1 ∈ ids) : (f.absorb l ids).Keys := by
  constructor
  · intro p hp
    simp only [Flow.absorb, List.mem_append] at hp ⊢
    rcases hp with hp | hp
    · exact .inl (h.log p hp)
    · exact .inr (hl p hp)
  · intro b hb
    exact ⟨(h.blk b hb).1, fun e he => List.mem_append_left _ ((h.blk b hb).2 e he)⟩

theorem Flow.Keys.pushBlk {f : Flow} (h : f.Keys) {b : Blk} (hb : ∀ p ∈ b.log, p.1 ∈ b.ids)
    (hs : ∀ e, b.slot = some e → e ∈ f.own) : (f.pushBlk b).Keys := by
  refine ⟨h.log, ?_⟩
  intro b' hb'
  simp only [Flow.pushBlk, List.mem_append, List.mem_singleton] at hb'
  rcases hb' with hb' | rfl
  · exact h.blk b' hb'
  · exact ⟨hb, hs⟩

theorem Flow.Keys.push {f : Flow} (h : f.Keys) (l : List InlineLevelBox) (fl : Bool) :
    ({ f with inl := l, floats := fl } : Flow).Keys := ⟨h.log, h.blk⟩

theorem Flow.Keys.empty : Flow.empty.Keys := by
  constructor <;> simp [Flow.empty]

mutual

theorem Styled.put_own (C : BoxContext) (cst : Style) (inl : Bool) : ∀ (c : Styled) (f : Flow),
    ∀ x ∈ f.own, x ∈ (c.put C cst inl f).own
  | .other, f => fun x h => h
  | .hidden id, f => fun x h => by
    simp [Styled.put, Flow.claim, Flow.note, h]
  | .text st t, f => fun x h => h
  | .contents id ks, f => fun x h => putAll_own C cst inl ks _ x (by simp [Flow.claim, Flow.note, h])
  | .elem id st .inline ins ks, f => fun x h => by
    have := putAll_own C cst true ks
      ((({ f with inl := [] } : Flow).note id ⟨none, true⟩).claim id) x
      (by simp [Flow.claim, Flow.note, h])
    exact this
  | .elem id st .block ins ks, f => fun x h => by
    have h0 : x ∈ ((f.note id ⟨none, true⟩).claim id).own := by simp [Flow.claim, Flow.note, h]
    simp only [Styled.put]
    split
    · split
      · exact List.mem_append_left _ h0
      · exact h0
    · split
      · split
        · exact List.mem_append_left _ h0
        · exact h0
      · split <;> simp only [Flow.pushBlk, Flow.flush_own] <;> exact h0

theorem putAll_own (C : BoxContext) (cst : Style) (inl : Bool) : ∀ (cs : List Styled) (f : Flow),
    ∀ x ∈ f.own, x ∈ (putAll C cst inl cs f).own
  | [], _ => fun _ h => h
  | c :: cs, f => fun x h => putAll_own C cst inl cs _ x (Styled.put_own C cst inl c f x h)

end

theorem mem_claim (f : Flow) (id : NodeId) (c : LayoutCell) : id ∈ ((f.note id c).claim id).own := by
  simp [Flow.claim]

mutual

theorem Styled.put_keys (C : BoxContext) (cst : Style) (inl : Bool) : ∀ (c : Styled) (f : Flow),
    f.Keys → (c.put C cst inl f).Keys
  | .other, f => fun h => h
  | .hidden id, f => fun h => h.claim id _
  | .text st t, f => fun h => h.push _ _
  | .contents id ks, f => fun h => putAll_keys C cst inl ks _ (h.claim id _)
  | .elem id st .inline ins ks, f => fun h => by
    have h1 := putAll_keys C cst true ks _ ((h.push [] f.floats).claim id ⟨none, true⟩)
    have h2 := putAll_own C cst true ks
      ((({ f with inl := [] } : Flow).note id ⟨none, true⟩).claim id) id (mem_claim _ _ _)
    simp only [Styled.put]
    refine Flow.Keys.note ?_ ?_ _
    · exact h1.push _ _
    · exact h2
  | .elem id st .block ins ks, f => fun h => by
    have h0 := h.claim id ⟨none, true⟩
    have hi := mem_claim f id ⟨none, true⟩
    have hk : ∀ p ∈ ((putAll C st false ks Flow.empty).container st).2.2, p.1 ∈ idsOf ks := by
      intro p hp
      have := (putAll_keys C st false ks _ Flow.Keys.empty).container st p hp
      have := (putAll_foot C st false ks Flow.empty).subset this
      simpa [Flow.foot, Flow.empty] using this
    simp only [Styled.put]
    split
    · split
      · refine Flow.Keys.note (Flow.Keys.absorb (h0.push _ _) hk) ?_ _
        exact List.mem_append_left _ hi
      · exact Flow.Keys.pushBlk h0 hk (by intro e he; cases he; exact hi)
    · split
      · split
        · refine Flow.Keys.note (Flow.Keys.absorb (h0.push _ _) hk) ?_ _
          exact List.mem_append_left _ hi
        · exact Flow.Keys.pushBlk (h0.push _ _) hk (by intro e he; cases he; exact hi)
      · split
        · refine Flow.Keys.pushBlk (h0.flush _) hk ?_
          intro e he
          cases he
          rw [Flow.flush_own]; exact hi
        · refine Flow.Keys.pushBlk (h0.flush _) hk ?_
          intro e he
          cases he
          rw [Flow.flush_own]; exact hi

theorem putAll_keys (C : BoxContext) (cst : Style) (inl : Bool) : ∀ (cs : List Styled) (f : Flow),
    f.Keys → (putAll C cst inl cs f).Keys
  | [], _ => fun h => h
  | c :: cs, f => fun h => putAll_keys C cst inl cs _ (Styled.put_keys C cst inl c f h)

end

theorem containerOf_keys (C : BoxContext) (st : Style) (cs : List Styled) :
    ∀ p ∈ (containerOf C st cs).2.2, p.1 ∈ idsOf cs := by
  intro p hp
  have := (putAll_keys C st false cs _ Flow.Keys.empty).container st p hp
  have := (putAll_foot C st false cs Flow.empty).subset this
  simpa [Flow.foot, Flow.empty] using this

/-! ## The construction of handled content -/

@[simp] theorem withSlots_ok {α : Type} (l : List (Option NodeId)) (a : α) :
    withSlots l (.ok a : Except Panic α) = .ok a := rfl

/-- `l` are the siblings from some node on -/
def Linked (d : Doc) : List NodeId → Prop
  | [] => True
  | i :: l => i < d.len ∧ (d.node i).nextSibling = l.head? ∧ Linked d l

theorem Linked.of_seg {d : Doc} : ∀ {l : List NodeId} {pv : Option NodeId}, d.Seg pv l none →
    (∀ i ∈ l, i < d.len) → Linked d l
  | [], _, _, _ => trivial
  | i :: l, _, h, hb => by
    obtain ⟨_, h2, h3⟩ := h
    exact ⟨hb i (by simp), by simpa using h2, Linked.of_seg h3 fun j hj => hb j (by simp [hj])⟩

theorem Doc.WF.linked {d : Doc} {kids} (h : d.WF kids) (p : NodeId) : Linked d (kids p) :=
  Linked.of_seg (h.seg p) fun i hi => (h.bound p i hi).2

/-- finishing the box gives what was announced -/
def Blk.Finishable (C : BoxContext) (b : Blk) : Prop :=
  ∀ L, Fresh' L b.ids →
    Evt fun n => finishBox C n b.inter L = .ok (b.box, b.floats, applyLog L b.log)

/-- the traversal of `cs` gives what was announced -/
def TravOk (C : BoxContext) (kids : NodeId → List NodeId) (cs : List Styled) : Prop :=
  ∀ (st : Style) (l : List NodeId) (cst : Style) (inl : Bool) (f : Flow) (B : Builder)
    (L0 : LayoutData), Shows C kids st l cs → Linked C.doc l → endsHidden cs = false →
    goodAll inl cs = true → inl = !B.stack.isEmpty → B.containerStyle = cst →
    (f.foot ++ idsOf cs).Nodup → Fresh' L0 (idsOf cs) → f.Keys →
    (∀ b ∈ f.blocks, b.Finishable C) →
    (Evt fun n => traverse C n st l.head? (applyLog L0 f.log) (f.builder B) =
      .ok (applyLog L0 (putAll C cst inl cs f).log, (putAll C cst inl cs f).builder B)) ∧
    ∀ b ∈ (putAll C cst inl cs f).blocks, b.Finishable C

/-- the construction of a container for `cs` gives what was announced -/
def ConsOk (C : BoxContext) (kids : NodeId → List NodeId) (cs : List Styled) : Prop :=
  ∀ (st : Style) (id : NodeId) (L : LayoutData), id < C.doc.len → Shows C kids st (kids id) cs →
    goodContent cs = true → (idsOf cs).Nodup → Fresh' L (idsOf cs) →
    Evt fun n => constructContainer C n st id L =
      .ok ((containerOf C st cs).1, (containerOf C st cs).2.1, applyLog L (containerOf C st cs).2.2)

theorem finishBoxes_ok (C : BoxContext) : ∀ (bs : List Blk) (L : LayoutData),
    (∀ b ∈ bs, b.Finishable C) → Fresh' L (bs.flatMap (·.ids)) →
    (bs.flatMap (·.ids)).Nodup → (∀ b ∈ bs, ∀ p ∈ b.log, p.1 ∈ b.ids) →
    (∀ b ∈ bs, ∀ e, b.slot = some e → e ∉ bs.flatMap (·.ids)) →
    Evt fun n => finishBoxes C n (bs.map fun b => (b.inter, b.slot)) L =
      .ok (bs.map (·.box), bs.any (·.floats), applyLog L (bs.flatMap (·.changes)))
  | [], L, _, _, _, _, _ => Evt.succ (Evt.all fun n => rfl)
  | b :: bs, L, hf, hL, hn, hk, hs => by
    simp only [List.flatMap_cons] at hL hn hs
    obtain ⟨hn1, hn2, hd⟩ := List.nodup_append.1 hn
    have h1 := hf b (by simp) L fun x hx => hL x (List.mem_append_left _ hx)
    have hfr : Fresh' (applyLog L b.changes) (bs.flatMap (·.ids)) := by
      refine Fresh'.applyLog (fun x hx => hL x (List.mem_append_right _ hx)) ?_
      intro x hx hx'
      simp only [List.mem_map, Blk.changes, List.mem_append] at hx'
      obtain ⟨p, hp | hp, rfl⟩ := hx'
      · exact hd _ (hk b (by simp) p hp) _ hx rfl
      · cases hsl : b.slot with
        | none => simp [hsl] at hp
        | some e =>
          simp only [hsl, List.mem_singleton] at hp
          subst hp
          exact hs b (by simp) e hsl (List.mem_append_right _ hx)
    have h2 := finishBoxes_ok C bs (applyLog L b.changes) (fun b' hb' => hf b' (by simp [hb'])) hfr
      hn2 (fun b' hb' => hk b' (by simp [hb']))
      (fun b' hb' e he hx => hs b' (by simp [hb']) e he (List.mem_append_right _ hx))
    refine Evt.succ ((h1.and h2).mono ?_)
    rintro n ⟨e1, e2⟩
    have e3 : (applyLog L b.log).fill b.slot (.blockLevel b.box) = applyLog L b.changes := by
      unfold Blk.changes LayoutData.fill
      cases b.slot <;> simp
    simp only [List.map_cons, finishBoxes, e1, withSlots_ok, bind, Except.bind, e3, e2,
      List.flatMap_cons, applyLog_append, List.any_cons, pure, Except.pure]

theorem Flow.flush_inl (f : Flow) (cst : Style) : (f.flush cst).inl = [] := by
  unfold Flow.flush
  split
  · simpa using ‹f.inl.isEmpty = true›
  · rfl

theorem ConsOk.of_trav {C : BoxContext} {kids} (hw : C.doc.WF kids) {cs : List Styled}
    (h : TravOk C kids cs) : ConsOk C kids cs := by
  intro st id L hid hsh hgood hnd hfr
  simp only [goodContent, Bool.and_eq_true, Bool.not_eq_true'] at hgood
  obtain ⟨h1, hfin⟩ := h st (kids id) st false Flow.empty (Builder.new st) L hsh (hw.linked id)
    hgood.1 hgood.2 rfl rfl (by simpa [Flow.foot, Flow.empty] using hnd) hfr Flow.Keys.empty
    (by simp [Flow.empty])
  set f := putAll C st false cs Flow.empty with hf
  have hfoot : f.foot.Perm (idsOf cs) := by
    exact putAll_foot C st false cs Flow.empty
  have hkeys : f.Keys := putAll_keys C st false cs _ Flow.Keys.empty
  have hB : Flow.empty.builder (Builder.new st) = Builder.new st := rfl
  have hL : applyLog L Flow.empty.log = L := rfl
  rw [hB, hL] at h1
  have hres : containerOf C st cs = f.container st := rfl
  rw [hres]
  by_cases hc : (!f.inl.isEmpty && f.blocks.isEmpty) = true
  · refine Evt.succ (h1.mono fun n e => ?_)
    have hc' : (!(f.builder (Builder.new st)).inlines.isEmpty &&
        (f.builder (Builder.new st)).blockLevelBoxes.isEmpty) = true := by
      simpa [Flow.builder, Builder.new, Builder.setCurrent] using hc
    have hst : (f.builder (Builder.new st)).stack.isEmpty = true := rfl
    simp only [constructContainer, Doc.get_ok _ _ hid, bind, Except.bind, hw.first id hid, e,
      hst, Doc.check, if_true, withSlots_ok, hc', pure, Except.pure, Flow.container, hc]
    rfl
  · have hg : (f.flush st).foot.Nodup := by
      rw [Flow.flush_foot]
      exact hfoot.nodup_iff.2 hnd
    set g := f.flush st with hgdef
    have hgk : g.Keys := hkeys.flush st
    obtain ⟨hg1, hg2, hg3⟩ := List.nodup_append.1 hg
    have hgfin : ∀ b ∈ g.blocks, b.Finishable C := by
      intro b hb
      rw [hgdef] at hb
      unfold Flow.flush at hb
      split at hb
      · exact hfin b hb
      · simp only [List.mem_append, List.mem_singleton] at hb
        rcases hb with hb | rfl
        · exact hfin b hb
        · intro L _
          exact Evt.succ (Evt.all fun n => rfl)
    have hglog : g.log = f.log := Flow.flush_log f st
    have h2 := finishBoxes_ok C g.blocks (applyLog L g.log) hgfin
      (by
        refine Fresh'.applyLog (fun x hx => hfr x ?_) ?_
        · exact hfoot.subset (by rw [← Flow.flush_foot st f]; exact List.mem_append_right _ hx)
        · intro x hx hx'
          obtain ⟨p, hp, rfl⟩ := List.mem_map.1 hx'
          exact hg3 _ (hgk.log p hp) _ hx rfl)
      hg2 (fun b hb => (hgk.blk b hb).1)
      (fun b hb e he hx => hg3 e ((hgk.blk b hb).2 e he) e hx rfl)
    refine Evt.succ ((h1.and h2).mono ?_)
    rintro n ⟨e1, e2⟩
    have hif : (if (!(f.builder (Builder.new st)).inlines.isEmpty) = true then
        withSlots (f.builder (Builder.new st)).slots (f.builder (Builder.new st)).endOngoing
        else .ok (f.builder (Builder.new st))) = .ok (g.builder (Builder.new st)) := by
      rw [hgdef]
      unfold Flow.flush
      by_cases hi : f.inl = []
      · simp [Flow.builder, Builder.new, Builder.setCurrent, hi]
      · simp [Flow.builder, Builder.new, Builder.setCurrent, Builder.endOngoing, hi, Flow.anon]
    have hc' : (!(f.builder (Builder.new st)).inlines.isEmpty &&
        (f.builder (Builder.new st)).blockLevelBoxes.isEmpty) = false := by
      simpa [Flow.builder, Builder.new, Builder.setCurrent] using hc
    have hst : (f.builder (Builder.new st)).stack.isEmpty = true := rfl
    have hfl : (g.builder (Builder.new st)).containsFloats = g.floats := rfl
    have hbl : (g.builder (Builder.new st)).blockLevelBoxes =
      g.blocks.map fun b => (b.inter, b.slot) := rfl
    by_cases hi : (f.builder (Builder.new st)).inlines.isEmpty = true
    · simp only [hi, Bool.not_true, Bool.false_eq_true, if_false, Except.ok.injEq] at hif
      rw [← hif] at hbl hfl
      simp only [constructContainer, Doc.get_ok _ _ hid, bind, Except.bind, hw.first id hid, e1,
        hst, Doc.check, if_true, withSlots_ok, Bool.false_eq_true, if_false, hi, Bool.not_true,
        ← hglog, pure, Except.pure, hbl, e2, hfl]
      simp [Flow.container, hc, ← hgdef]
    · simp only [hi, Bool.not_false, if_true] at hif
      simp only [constructContainer, Doc.get_ok _ _ hid, bind, Except.bind, hw.first id hid, e1,
        hst, Doc.check, if_true, withSlots_ok, hi,
        Bool.not_false, ← hglog, pure, Except.pure, hif, hbl, e2, hfl]
      simp only [hi, Bool.not_false, Bool.true_and] at hc'
      simpa [Flow.container, hc, ← hgdef] using hc'

theorem endsHidden_tail {c : Styled} {cs : List Styled} (h : endsHidden (c :: cs) = false) :
    endsHidden cs = false := by
  cases cs with
  | nil => rfl
  | cons a l => simpa [endsHidden, List.getLast?_cons_cons] using h

/-- an element with an empty cell that is followed by a sibling -/
theorem unset_ok {d : Doc} {id : NodeId} {sib : NodeId} {e : ElementData} {L : LayoutData}
    (hid : id < d.len) (hd : (d.node id).data = .element e) (hn : (d.node id).nextSibling = some sib)
    (hL : L id = ⟨none, false⟩) (fuel : Nat) :
    unsetBoxesInSubtree d id (fuel + 2) L = .ok (Function.update L id ⟨none, false⟩) := by
  simp [unsetBoxesInSubtree, unsetLoop, Doc.get_ok _ _ hid, bind, Except.bind, hd, hL, unsetNext, hn,
    pure, Except.pure]

theorem Flow.builder_current (B : Builder) (f : Flow) : (f.builder B).current = f.inl := by
  obtain ⟨a, b, c, d, e⟩ := B
  cases d <;> rfl

theorem Flow.builder_text (B : Builder) (f : Flow) (l : List InlineLevelBox) :
    (f.builder B).setCurrent l = ({ f with inl := l } : Flow).builder B := by
  obtain ⟨a, b, c, d, e⟩ := B
  cases d <;> rfl

theorem Flow.builder_open (B : Builder) (f : Flow) (st : Style) :
    (f.builder B).openInline st =
      ({ f with inl := [] } : Flow).builder ((f.builder B).openInline st) := rfl

theorem Flow.builder_close (B : Builder) (f r : Flow) (st : Style) :
    (r.builder ((f.builder B).openInline st)).closeInline =
      .ok (.inlineBox st true true r.inl,
        ({ r with inl := f.inl ++ [.inlineBox st true true r.inl] } : Flow).builder B) := by
  obtain ⟨a, b, c, d, e⟩ := B
  cases d <;> rfl

theorem Flow.builder_ongoing (B : Builder) (f : Flow) {inl : Bool} (h : inl = !B.stack.isEmpty) :
    (f.builder B).hasOngoing = (inl || !f.inl.isEmpty) := by
  subst h
  obtain ⟨a, b, c, d, e⟩ := B
  cases d <;> simp [Flow.builder, Builder.setCurrent, Builder.hasOngoing]

theorem Flow.builder_flush (B : Builder) (f : Flow) {cst : Style} (h : B.stack = [])
    (hc : B.containerStyle = cst) :
    (f.builder B).splitInlines.endOngoing = .ok ((f.flush cst).builder B) := by
  obtain ⟨a, b, c, d, e⟩ := B
  subst h
  subst hc
  by_cases hi : f.inl = []
  · simp [Flow.builder, Builder.setCurrent, Builder.splitInlines, Builder.endOngoing, Flow.flush, hi]
  · simp [Flow.builder, Builder.setCurrent, Builder.splitInlines, Builder.endOngoing, Flow.flush, hi,
      Flow.anon]

/-- result of one entry of the content -/
def StepOk (C : BoxContext) (cst : Style) (inl : Bool) (c : Styled)
    (f : Flow) (B : Builder) (L0 : LayoutData) (step : Nat → Except Panic (LayoutData × Builder)) :
    Prop :=
  (Evt fun n => step n =
      .ok (applyLog L0 (c.put C cst inl f).log, (c.put C cst inl f).builder B)) ∧
    ∀ b ∈ (c.put C cst inl f).blocks, b.Finishable C

theorem fresh_of_log {f : Flow} {ids rest : List NodeId} {L0 : LayoutData}
    (hnd : (f.foot ++ ids).Nodup) (hfr : Fresh' L0 ids) (hk : f.Keys) (hs : rest ⊆ ids) :
    Fresh' (applyLog L0 f.log) rest := by
  obtain ⟨_, _, h3⟩ := List.nodup_append.1 hnd
  refine Fresh'.applyLog (fun x hx => hfr x (hs hx)) ?_
  intro x hx hx'
  obtain ⟨p, hp, rfl⟩ := List.mem_map.1 hx'
  exact h3 _ (List.mem_append_left _ (hk.log p hp)) _ (hs hx) rfl

theorem openSlot_ok {L : LayoutData} {id : NodeId} (h : L id = ⟨none, false⟩) :
    L.openSlot id = .ok (Function.update L id ⟨none, true⟩) := by
  simp [LayoutData.openSlot, h]

theorem setContents_ok {L : LayoutData} {id : NodeId} (h : L id = ⟨none, false⟩) :
    L.setContents id = .ok (Function.update L id ⟨some .displayContents, false⟩) := by
  simp [LayoutData.setContents, h]

/-- one round of the sibling loop -/
def travStep (C : BoxContext) (st : Style) (i : NodeId) (L : LayoutData) (B : Builder) (n : Nat) :
    Except Panic (LayoutData × Builder) :=
  match (C.doc.node i).data with
  | .text t => do
    let B ← B.handleText C t st
    return (L, B)
  | .element e => traverseElement C n i e st L B
  | _ => .ok (L, B)

theorem traverse_cons (C : BoxContext) (st : Style) (i : NodeId) (L : LayoutData) (B : Builder)
    (n : Nat) (hi : i < C.doc.len) :
    traverse C (n + 1) st (some i) L B = (do
      let (L, B) ← withSlots B.slots (travStep C st i L B n)
      traverse C n st (C.doc.node i).nextSibling L B) := by
  simp only [traverse, Doc.get_ok _ _ hi, bind, Except.bind, withSlots_ok]
  rfl

theorem trav_cons {C : BoxContext} {kids} {st cst : Style} {i : NodeId} {l : List NodeId}
    {inl : Bool} {c : Styled} {cs : List Styled} {f : Flow} {B : Builder} {L0 : LayoutData}
    (hl : Linked C.doc (i :: l)) (hsh : Shows C kids st l cs) (he : endsHidden (c :: cs) = false)
    (hg : goodAll inl (c :: cs) = true) (hst : inl = !B.stack.isEmpty) (hB : B.containerStyle = cst)
    (hnd : (f.foot ++ idsOf (c :: cs)).Nodup) (hfr : Fresh' L0 (idsOf (c :: cs))) (hk : f.Keys)
    (hstep : StepOk C cst inl c f B L0 (travStep C st i (applyLog L0 f.log) (f.builder B)))
    (ih : TravOk C kids cs) :
    (Evt fun n => traverse C n st (i :: l).head? (applyLog L0 f.log) (f.builder B) =
      .ok (applyLog L0 (putAll C cst inl (c :: cs) f).log,
        (putAll C cst inl (c :: cs) f).builder B)) ∧
    ∀ b ∈ (putAll C cst inl (c :: cs) f).blocks, b.Finishable C := by
  obtain ⟨hi, hnext, hl'⟩ := hl
  simp only [goodAll, Bool.and_eq_true] at hg
  have hnd' : ((c.put C cst inl f).foot ++ idsOf cs).Nodup := by
    have h1 := (Styled.put_foot C cst inl c f).append_right (idsOf cs)
    rw [h1.nodup_iff]
    simpa [idsOf] using hnd
  obtain ⟨h1, h2⟩ := ih st l cst inl (c.put C cst inl f) B L0 hsh hl' (endsHidden_tail he) hg.2 hst hB
    hnd' (fun x hx => hfr x (by simp [idsOf, hx])) (Styled.put_keys C cst inl c f hk) hstep.2
  refine ⟨Evt.succ ((hstep.1.and h1).mono ?_), h2⟩
  rintro n ⟨e1, e2⟩
  rw [List.head?_cons, traverse_cons C st i _ _ n hi, e1, hnext]
  exact e2

theorem travStep_elem {C : BoxContext} {st s : Style} {i : NodeId} {e : ElementData}
    (hd : (C.doc.node i).data = .element e) (hb : e.name.localName ≠ "br")
    (hs : C.styleOf i (some st) = .ok s) (L : LayoutData) (B : Builder) (n : Nat) :
    travStep C st i L B (n + 1) = (match s.val .display with
      | .none => do
        let L ← unsetBoxesInSubtree C.doc i n L
        return (L, B)
      | .contents => do
        let L ← L.setContents i
        let nd ← C.doc.get i
        traverse C n s nd.firstChild L B
      | .generatingBox outside inside => do
        let L ← L.openSlot i
        handleElement C n s outside inside i L B) := by
  simp only [travStep, hd, traverseElement, hs, bind, Except.bind, hb, if_false]
  rfl

theorem trav_ok (C : BoxContext) (kids) (hw : C.doc.WF kids) : ∀ cs, TravOk C kids cs
  | [] => by
    intro st l cst inl f B L0 hsh _ _ _ _ _ _ _ _ hf
    cases hsh
    exact ⟨Evt.succ (Evt.all fun n => rfl), hf⟩
  | .other :: cs => by
    intro st l cst inl f B L0 hsh hl he hg hst hB hnd hfr hk hf
    cases hsh with
    | other hd hsh =>
    refine trav_cons hl hsh he hg hst hB hnd hfr hk ⟨Evt.all fun n => ?_, hf⟩ (trav_ok C kids hw cs)
    unfold travStep
    obtain ⟨h1, h2⟩ := hd
    split
    · simp_all [NodeData.asText]
    · simp_all [NodeData.asElement]
    · rfl
  | .text s t :: cs => by
    intro st l cst inl f B L0 hsh hl he hg hst hB hnd hfr hk hf
    have hgt : (Styled.text s t).good false = true := by
      simp only [goodAll, Bool.and_eq_true] at hg
      have := hg.1
      simpa [Styled.good] using this
    cases hsh with
    | text hd hsh =>
      refine trav_cons hl hsh he hg hst hB hnd hfr hk ⟨Evt.all fun n => ?_, hf⟩
        (trav_ok C kids hw cs)
      simp [travStep, hd, Builder.handleText_ok C _ t _ hgt, bind, Except.bind, pure, Except.pure,
        Flow.builder_current, Flow.builder_text, Styled.put]
    | br hd hb hs hsh =>
      refine trav_cons hl hsh he hg hst hB hnd hfr hk ⟨Evt.succ (Evt.all fun n => ?_), hf⟩
        (trav_ok C kids hw cs)
      simp [travStep, hd, traverseElement, hs, hb, Builder.handleText_ok C _ _ _ hgt, bind,
        Except.bind, pure, Except.pure, Flow.builder_current, Flow.builder_text, Styled.put]
  | .hidden id :: cs => by
    intro st l cst inl f B L0 hsh hl he hg hst hB hnd hfr hk hf
    cases hsh with
    | @hidden _ _ l _ e s hd hb hs hdisp hsh =>
    obtain ⟨sib, hsib⟩ : ∃ sib, (C.doc.node id).nextSibling = some sib := by
      rw [hl.2.1]
      cases hsh <;> first | exact ⟨_, rfl⟩ | simp [endsHidden] at he
    have hfresh := fresh_of_log hnd hfr hk (rest := [id]) (by simp [idsOf, Styled.ids]) id (by simp)
    refine trav_cons hl hsh he hg hst hB hnd hfr hk
      ⟨Evt.succ (Evt.succ (Evt.succ (Evt.all fun n => ?_))), hf⟩ (trav_ok C kids hw cs)
    rw [travStep_elem hd hb hs, hdisp]
    simp [unset_ok hl.1 hd hsib hfresh, bind, Except.bind, pure, Except.pure, Styled.put, Flow.claim,
      Flow.note]
    rfl
  | .contents id ks :: cs => by
    intro st l cst inl f B L0 hsh hl he hg hst hB hnd hfr hk hf
    cases hsh with
    | @contents _ _ l _ e s _ hd hb hs hdisp hks hsh =>
    have hfresh := fresh_of_log hnd hfr hk (rest := [id]) (by simp [idsOf, Styled.ids]) id (by simp)
    have hgk := hg
    simp only [goodAll, Styled.good, Bool.and_eq_true, Bool.not_eq_true'] at hgk
    have hids : f.foot ++ idsOf (.contents id ks :: cs) = f.foot ++ [id] ++ idsOf ks ++ idsOf cs := by
      simp [idsOf, Styled.ids]
    have hnd1 := hnd
    rw [hids] at hnd1
    have ih := trav_ok C kids hw ks s (kids id) cst inl
      ((f.note id ⟨some .displayContents, false⟩).claim id) B L0 hks (hw.linked id) hgk.1.1 hgk.1.2
      hst hB
      (by
        rw [((f.claim_foot id _).append_right (idsOf ks)).nodup_iff]
        exact (List.nodup_append.1 hnd1).1)
      (fun x hx => hfr x (by simp [idsOf, Styled.ids, hx])) (hk.claim id _) hf
    refine trav_cons hl hsh he hg hst hB hnd hfr hk ⟨Evt.succ (ih.1.mono fun n e1 => ?_), ih.2⟩
      (trav_ok C kids hw cs)
    rw [travStep_elem hd hb hs, hdisp]
    simp only [setContents_ok hfresh, bind, Except.bind, Doc.get_ok _ _ hl.1, hw.first id hl.1]
    rw [show ((f.note id ⟨some .displayContents, false⟩).claim id).log =
      f.log ++ [(id, ⟨some .displayContents, false⟩)] from rfl, applyLog_append, applyLog_one] at e1
    exact e1
  | .elem id s .inline ins ks :: cs => by
    intro st l cst inl f B L0 hsh hl he hg hst hB hnd hfr hk hf
    cases hsh with
    | @elem _ _ l _ e s _ _ _ hd hb hs hdisp hks hsh =>
    have hfresh := fresh_of_log hnd hfr hk (rest := [id]) (by simp [idsOf, Styled.ids]) id (by simp)
    have hgk := hg
    have hins : ins = .flow := by
      cases ins
      · rfl
      · simp [goodAll, Styled.good] at hgk
    subst hins
    simp only [goodAll, Styled.good, Bool.and_eq_true, Bool.not_eq_true'] at hgk
    have hids : f.foot ++ idsOf (.elem id s .inline .flow ks :: cs) =
        f.foot ++ [id] ++ idsOf ks ++ idsOf cs := by
      simp [idsOf, Styled.ids]
    have hnd1 := hnd
    rw [hids] at hnd1
    have ih := trav_ok C kids hw ks s (kids id) cst true
      ((({ f with inl := [] } : Flow).note id ⟨none, true⟩).claim id)
      ((f.builder B).openInline s) L0 hks (hw.linked id) hgk.1.1 hgk.1.2 rfl
      (by
        subst hB
        obtain ⟨a, b, c, d, e⟩ := B
        cases d <;> rfl)
      (by
        rw [((Flow.claim_foot { f with inl := [] } id _).append_right (idsOf ks)).nodup_iff]
        exact (List.nodup_append.1 hnd1).1)
      (fun x hx => hfr x (by simp [idsOf, Styled.ids, hx]))
      ((hk.push [] f.floats).claim id _) hf
    refine trav_cons hl hsh he hg hst hB hnd hfr hk
      ⟨Evt.succ (Evt.succ (ih.1.mono fun n e1 => ?_)), ih.2⟩ (trav_ok C kids hw cs)
    rw [travStep_elem hd hb hs, hdisp]
    rw [show ((({ f with inl := [] } : Flow).note id ⟨none, true⟩).claim id).log =
      f.log ++ [(id, ⟨none, true⟩)] from rfl, applyLog_append, applyLog_one] at e1
    have e2 : Flow.builder ((f.builder B).openInline s)
        ((({ f with inl := [] } : Flow).note id ⟨none, true⟩).claim id) =
        (f.builder B).openInline s := rfl
    rw [e2] at e1
    simp only [openSlot_ok hfresh, bind, Except.bind, handleElement, Doc.get_ok _ _ hl.1,
      hw.first id hl.1, e1, Flow.builder_close, pure, Except.pure, withSlots_ok]
    simp only [LayoutData.fill, Styled.put, Flow.note, applyLog_append, applyLog_one]
    rfl
  | .elem id s .block ins ks :: cs => by
    intro st l cst inl f B L0 hsh hl he hg hst hB hnd hfr hk hf
    cases hsh with
    | @elem _ _ l _ e s _ _ _ hd hb hs hdisp hks hsh =>
    have hfresh := fresh_of_log hnd hfr hk (rest := [id]) (by simp [idsOf, Styled.ids]) id (by simp)
    have hgk := hg
    simp only [goodAll, Styled.good, Bool.and_eq_true, Bool.not_eq_true'] at hgk
    obtain ⟨⟨hg1, hg2⟩, hg3⟩ := hgk
    have hids : f.foot ++ idsOf (.elem id s .block ins ks :: cs) =
        f.foot ++ [id] ++ idsOf ks ++ idsOf cs := by
      simp [idsOf, Styled.ids]
    have hnd1 := hnd
    rw [hids] at hnd1
    have hnd2 := (List.nodup_append.1 hnd1).1
    obtain ⟨_, hnd3, hnd4⟩ := List.nodup_append.1 hnd2
    have hcons : ∀ L, Fresh' L (idsOf ks) → Evt fun n => constructContainer C n s id L =
        .ok ((containerOf C s ks).1, (containerOf C s ks).2.1,
          applyLog L (containerOf C s ks).2.2) :=
      fun L hL => ConsOk.of_trav hw (trav_ok C kids hw ks) s id L hl.1 hks
        (by simp [goodContent, hg2]) hnd3 hL
    have hfr1 : Fresh' (Function.update (applyLog L0 f.log) id ⟨none, true⟩) (idsOf ks) := by
      have h1 := fresh_of_log hnd hfr hk (rest := idsOf ks)
        (by intro x hx; simp [idsOf, Styled.ids, hx])
      refine Fresh'.applyLog (l := [(id, ⟨none, true⟩)]) h1 ?_
      intro x hx hx'
      simp only [List.map_cons, List.map_nil, List.mem_singleton] at hx'
      exact hnd4 id (by simp) x hx hx'.symm
    refine trav_cons hl hsh he hg hst hB hnd hfr hk ?_ (trav_ok C kids hw cs)
    have hlog : applyLog L0 ((f.note id ⟨none, true⟩).claim id).log =
        Function.update (applyLog L0 f.log) id ⟨none, true⟩ := by
      simp [Flow.claim, Flow.note]
    have hbl : ((f.note id ⟨none, true⟩).claim id).builder B = f.builder B := rfl
    have hong := f.builder_ongoing B hst
    unfold StepOk
    simp only [Styled.put]
    rw [show (putAll C s false ks Flow.empty).container s = containerOf C s ks from rfl]
    generalize hr : containerOf C s ks = r at hcons ⊢
    obtain ⟨r1, r2, r3⟩ := r
    by_cases habs : (s.val .position).isAbsolutelyPositioned = true
    · simp only [habs, if_true]
      by_cases ho : (inl || !f.inl.isEmpty) = true
      · have ho' : (inl || !((f.note id ⟨none, true⟩).claim id).inl.isEmpty) = true := ho
        simp only [ho', if_true]
        refine ⟨Evt.succ (Evt.succ ((hcons _ hfr1).mono fun n e1 => ?_)), hf⟩
        rw [travStep_elem hd hb hs, hdisp]
        simp only [openSlot_ok hfresh, bind, Except.bind, handleElement, habs, if_true, hong, ho,
          Bool.not_true, Bool.false_eq_true, if_false, e1, pure, Except.pure, withSlots_ok,
          LayoutData.fill, Flow.builder_current, Flow.builder_text]
        simp only [Flow.absorb, Flow.push, Flow.note, Flow.claim, applyLog_append, applyLog_one]
        rfl
      · have ho' : ¬ (inl || !((f.note id ⟨none, true⟩).claim id).inl.isEmpty) = true := ho
        simp only [ho', Bool.false_eq_true, if_false]
        refine ⟨Evt.succ (Evt.succ (Evt.all fun n => ?_)), ?_⟩
        · rw [travStep_elem hd hb hs, hdisp]
          simp only [openSlot_ok hfresh, bind, Except.bind, handleElement, habs, if_true, hong, ho,
            Bool.not_false, pure, Except.pure, withSlots_ok]
          simp [Flow.pushBlk, Flow.note, Flow.claim, Flow.builder]
        · intro b hb'
          simp only [Flow.pushBlk, List.mem_append, List.mem_singleton] at hb'
          rcases hb' with hb' | rfl
          · exact hf b hb'
          · intro L hL
            refine Evt.succ ((hcons L hL).mono fun n e1 => ?_)
            simp [finishBox, e1, bind, Except.bind, pure, Except.pure]
    · simp only [habs, Bool.false_eq_true, if_false]
      by_cases hflo : (s.val .float).isFloating = true
      · simp only [hflo, if_true]
        by_cases ho : (inl || !f.inl.isEmpty) = true
        · have ho' : (inl || !((f.note id ⟨none, true⟩).claim id).inl.isEmpty) = true := ho
          simp only [ho', if_true]
          refine ⟨Evt.succ (Evt.succ ((hcons _ hfr1).mono fun n e1 => ?_)), hf⟩
          have hong' : ({ f.builder B with containsFloats := true } : Builder).hasOngoing = true := by
            rw [← ho, ← hong]; rfl
          rw [travStep_elem hd hb hs, hdisp]
          simp only [openSlot_ok hfresh, bind, Except.bind, handleElement, habs, Bool.false_eq_true,
            hflo, if_true, hong', Bool.not_true, if_false, e1, pure, Except.pure, withSlots_ok,
            LayoutData.fill]
          simp only [Flow.absorb, Flow.push, Flow.note, Flow.claim, applyLog_append, applyLog_one,
            Except.ok.injEq, Prod.mk.injEq, true_and]
          obtain ⟨a, b, c, d, e⟩ := B
          cases d <;> rfl
        · have ho' : ¬ (inl || !((f.note id ⟨none, true⟩).claim id).inl.isEmpty) = true := ho
          simp only [ho', Bool.false_eq_true, if_false]
          have hong' : ¬ ({ f.builder B with containsFloats := true } : Builder).hasOngoing = true := by
            rw [← hong] at ho
            exact ho
          refine ⟨Evt.succ (Evt.succ (Evt.all fun n => ?_)), ?_⟩
          · rw [travStep_elem hd hb hs, hdisp]
            simp only [openSlot_ok hfresh, bind, Except.bind, handleElement, habs,
              Bool.false_eq_true, if_false, hflo, if_true, hong',
              Bool.not_false, pure, Except.pure, withSlots_ok]
            simp [Flow.pushBlk, Flow.note, Flow.claim, Flow.builder]
          · intro b hb'
            simp only [Flow.pushBlk, List.mem_append, List.mem_singleton] at hb'
            rcases hb' with hb' | rfl
            · exact hf b hb'
            · intro L hL
              refine Evt.succ ((hcons L hL).mono fun n e1 => ?_)
              simp [finishBox, e1, bind, Except.bind, pure, Except.pure]
      · have hinl : inl = false := by
          simpa [Style.outOfFlow, habs, hflo] using hg1
        subst hinl
        have hstk : B.stack = [] := by
          simpa using hst
        have hfl := Flow.builder_flush B f hstk hB
        have hff : ∀ b ∈ (f.flush cst).blocks, b.Finishable C := by
          intro b hb'
          unfold Flow.flush at hb'
          split at hb'
          · exact hf b hb'
          · simp only [List.mem_append, List.mem_singleton] at hb'
            rcases hb' with hb' | rfl
            · exact hf b hb'
            · intro L _
              exact Evt.succ (Evt.all fun n => rfl)
        have hcl : (Flow.flush cst ((f.note id ⟨none, true⟩).claim id)) =
            ((f.flush cst).note id ⟨none, true⟩).claim id :=
          Flow.flush_claim cst f id _
        simp only [hflo, Bool.false_eq_true, if_false, hcl]
        cases ins with
        | flow =>
          refine ⟨Evt.succ (Evt.succ (Evt.all fun n => ?_)), ?_⟩
          · rw [travStep_elem hd hb hs, hdisp]
            simp only [openSlot_ok hfresh, bind, Except.bind, handleElement, habs,
              Bool.false_eq_true, if_false, hflo, Builder.handleBlockLevel, hfl, pure, Except.pure,
              withSlots_ok]
            simp [Flow.pushBlk, Flow.note, Flow.claim, Flow.builder, Flow.flush_log]
          · intro b hb'
            simp only [Flow.pushBlk, List.mem_append, List.mem_singleton] at hb'
            rcases hb' with hb' | rfl
            · exact hff b hb'
            · intro L hL
              refine Evt.succ ((hcons L hL).mono fun n e1 => ?_)
              simp [finishBox, e1, bind, Except.bind, pure, Except.pure]
        | flowRoot =>
          refine ⟨Evt.succ (Evt.succ (Evt.all fun n => ?_)), ?_⟩
          · rw [travStep_elem hd hb hs, hdisp]
            simp only [openSlot_ok hfresh, bind, Except.bind, handleElement, habs,
              Bool.false_eq_true, if_false, hflo, Builder.handleBlockLevel, hfl, pure, Except.pure,
              withSlots_ok]
            simp [Flow.pushBlk, Flow.note, Flow.claim, Flow.builder, Flow.flush_log]
          · intro b hb'
            simp only [Flow.pushBlk, List.mem_append, List.mem_singleton] at hb'
            rcases hb' with hb' | rfl
            · exact hff b hb'
            · intro L hL
              refine Evt.succ ((hcons L hL).mono fun n e1 => ?_)
              simp [finishBox, e1, bind, Except.bind, pure, Except.pure]

end Sinab
