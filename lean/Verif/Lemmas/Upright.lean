import Verif.Spec.Paint
import Verif.Lemmas.BlockLayout

/-! Layout only makes fragments with the usual writing mode. -/

namespace Sinab

theorem uprightAll_iff (fs : List Fragment) : uprightAll fs ↔ ∀ f ∈ fs, f.upright := by
  induction fs with
  | nil => simp [uprightAll]
  | cons f fs ih => simp [uprightAll, ih]

theorem uprightAll_append {a b : List Fragment} (ha : uprightAll a) (hb : uprightAll b) :
    uprightAll (a ++ b) := by
  rw [uprightAll_iff] at *
  intro f hf
  rcases List.mem_append.1 hf with h | h
  · exact ha f h
  · exact hb f h

theorem upright_translate {f : Fragment} (h : f.upright) (b : Length) : (f.translateBlock b).upright := by
  cases f <;> exact h

/-! ### Inline content -/

/-- all fragments made so far -/
structure IfcState.Up (s : IfcState) : Prop where
  cb : s.cb.mode = (.horizontalTb, .ltr)
  lines : uprightAll s.lines
  current : uprightAll s.current.fragmentsSoFar
  stack : ∀ p ∈ s.stack, uprightAll p.parent.fragmentsSoFar

theorem startBox_up {E : TextEnv} {s : IfcState} (h : s.Up) (st : Style) (a b : Bool)
    (cs : List InlineLevelBox) : (s.startBox E st a b cs).Up := by
  unfold IfcState.startBox
  refine ⟨h.cb, h.lines, trivial, ?_⟩
  intro p hp
  rcases List.mem_cons.1 hp with rfl | hp
  · exact h.current
  · exact h.stack p hp

theorem fragment_up (p : PartialBox) {level : NestLevel} (h : uprightAll level.fragmentsSoFar)
    (pos : Length) (brk : Bool) : (p.fragment level pos brk).1.upright := by
  unfold PartialBox.fragment
  simp only
  split <;> exact h

theorem finishOpenBoxes_up : ∀ (stack : List PartialBox) (level : NestLevel) (pos : Length),
    uprightAll level.fragmentsSoFar → (∀ p ∈ stack, uprightAll p.parent.fragmentsSoFar) →
    uprightAll (finishOpenBoxes level stack pos).1.fragmentsSoFar ∧
    ∀ p ∈ (finishOpenBoxes level stack pos).2.1, uprightAll p.parent.fragmentsSoFar
  | [], level, pos, h, _ => ⟨h, by simp [finishOpenBoxes]⟩
  | p :: ps, level, pos, h, hs => by
    have hp := hs p List.mem_cons_self
    have ih := finishOpenBoxes_up ps (p.finishLayout level pos true).1.continueOnNextLine.parent
      (p.finishLayout level pos true).2.2
      (uprightAll_append hp ⟨fragment_up p h pos true, trivial⟩)
      (fun q hq => hs q (List.mem_cons_of_mem _ hq))
    refine ⟨trivial, ?_⟩
    intro q hq
    rcases List.mem_cons.1 hq with rfl | hq
    · exact ih.1
    · exact ih.2 q hq

theorem topLevel_up : ∀ (stack : List PartialBox) (level : NestLevel),
    uprightAll level.fragmentsSoFar → (∀ p ∈ stack, uprightAll p.parent.fragmentsSoFar) →
    uprightAll (topLevel level stack).fragmentsSoFar
  | [], _, h, _ => h
  | p :: ps, _, _, hs => topLevel_up ps p.parent (hs p List.mem_cons_self)
      (fun q hq => hs q (List.mem_cons_of_mem _ hq))

theorem setTopLevel_up : ∀ (stack : List PartialBox) (level top : NestLevel),
    uprightAll level.fragmentsSoFar → uprightAll top.fragmentsSoFar →
    (∀ p ∈ stack, uprightAll p.parent.fragmentsSoFar) →
    uprightAll (setTopLevel level top stack).1.fragmentsSoFar ∧
    ∀ p ∈ (setTopLevel level top stack).2, uprightAll p.parent.fragmentsSoFar
  | [], _, _, _, ht, _ => ⟨ht, by simp [setTopLevel]⟩
  | p :: ps, level, top, h, ht, hs => by
    have ih := setTopLevel_up ps p.parent top (hs p List.mem_cons_self) ht
      (fun q hq => hs q (List.mem_cons_of_mem _ hq))
    refine ⟨h, ?_⟩
    intro q hq
    rcases List.mem_cons.1 hq with rfl | hq
    · exact ih.1
    · exact ih.2 q hq

theorem finishLine_up {s : IfcState} (h : s.Up) : s.finishLine.Up := by
  obtain ⟨h1, h2⟩ := finishOpenBoxes_up s.stack s.current s.inlinePosition h.current h.stack
  have h3 := topLevel_up _ _ h1 h2
  unfold IfcState.finishLine
  have h4 := setTopLevel_up (finishOpenBoxes s.current s.stack s.inlinePosition).2.1
    (finishOpenBoxes s.current s.stack s.inlinePosition).1
    (linesFinishLine s.lines s.nextLineBlockPosition
      (topLevel (finishOpenBoxes s.current s.stack s.inlinePosition).1
        (finishOpenBoxes s.current s.stack s.inlinePosition).2.1) s.cb
      (finishOpenBoxes s.current s.stack s.inlinePosition).2.2 s.textAlign).2.2 h1 trivial h2
  refine ⟨h.cb, ?_, h4.1, h4.2⟩
  refine uprightAll_append h.lines ⟨⟨h.cb, ?_⟩, trivial⟩
  rw [uprightAll_iff] at h3 ⊢
  intro f hf
  obtain ⟨g, hg, rfl⟩ := List.mem_map.1 hf
  exact upright_translate (h3 g hg) _

theorem pushText_up {E : TextEnv} {s : IfcState} (h : s.Up) (st : Style) (font : Font)
    (shaped : ShapedSegment) (nl : Bool) : (s.pushText E st font shaped nl).1.Up := by
  unfold IfcState.pushText
  simp only
  split <;> split <;>
    first
      | exact h
      | exact ⟨h.cb, h.lines, uprightAll_append h.current ⟨trivial, trivial⟩, h.stack⟩
      | exact ⟨h.cb, h.lines, h.current, h.stack⟩

theorem wrapLoop_up {E : TextEnv} (st : Style) (font : Font) : ∀ (fuel : Nat) (s s' : IfcState)
    (chars : Text) (shaped : ShapedSegment) (brk : Option (SegState × Text)), s.Up →
    wrapLoop E st font fuel s chars shaped brk = .ok s' → s'.Up
  | 0, _, _, _, _, _, _, h => by cases h
  | fuel + 1, s, s', chars, shaped, brk, hs, h => by
    rw [wrapLoop] at h
    cases hscan : scanLine E (s.cb.inlineSize - s.inlinePosition) chars shaped brk with
    | error e => rw [hscan] at h; cases h
    | ok scan =>
      rw [hscan] at h
      have hp := pushText_up (E := E) hs st font scan.shaped scan.newline
      simp only [bind, Except.bind] at h
      split at h
      · exact wrapLoop_up st font fuel _ _ _ _ _ (finishLine_up hp) h
      · cases h
        exact hp

theorem layoutNowrap_up {E : TextEnv} (st : Style) (font : Font) : ∀ (fuel : Nat) (s s' : IfcState)
    (chars : Text), s.Up → layoutNowrap E st font fuel s chars = .ok s' → s'.Up
  | 0, _, _, _, _, h => by cases h
  | fuel + 1, s, s', chars, hs, h => by
    rw [layoutNowrap] at h
    have hp := pushText_up (E := E) hs st font (scanNowrap chars (ShapedSegment.new font)).shaped
      (scanNowrap chars (ShapedSegment.new font)).newline
    split at h
    · exact layoutNowrap_up st font fuel _ _ _ (finishLine_up hp) h
    · cases h
      exact hp

theorem layoutTextRun_up {E : TextEnv} {s s' : IfcState} (hs : s.Up) (st : Style) (text : Text)
    (font : Font) (h : layoutTextRun E st text font s = .ok s') : s'.Up := by
  unfold layoutTextRun at h
  split at h
  · exact layoutNowrap_up _ _ _ _ _ _ hs h
  · exact layoutNowrap_up _ _ _ _ _ _ hs h
  · exact wrapLoop_up _ _ _ _ _ _ _ _ hs h

theorem ifcLoop_up {E : TextEnv} (rank : Nat) : ∀ (fuel : Nat) (s s' : IfcState)
    (abs abs' : List AbsFragment), s.Up → ifcLoop E rank fuel s abs = .ok (s', abs') → s'.Up
  | 0, _, _, _, _, _, h => by cases h
  | fuel + 1, s, s', abs, abs', hs, h => by
    rw [ifcLoop] at h
    cases hr : s.current.remaining with
    | nil =>
      rw [hr] at h
      simp only at h
      cases hst : s.stack with
      | nil =>
        rw [hst] at h
        cases h
        exact finishLine_up hs
      | cons p ps =>
        rw [hst] at h
        refine ifcLoop_up rank fuel _ _ _ _ ?_ h
        refine ⟨hs.cb, hs.lines, ?_, fun q hq => hs.stack q (by rw [hst]; exact List.mem_cons_of_mem _ hq)⟩
        exact uprightAll_append (hs.stack p (by rw [hst]; exact List.mem_cons_self))
          ⟨fragment_up p hs.current _ _, trivial⟩
    | cons b rest =>
      rw [hr] at h
      have hs' : IfcState.Up { s with current := { s.current with remaining := rest } } :=
        ⟨hs.cb, hs.lines, hs.current, hs.stack⟩
      cases b with
      | inlineBox st a b cs => exact ifcLoop_up rank fuel _ _ _ _ (startBox_up hs' st a b cs) h
      | textRun st text font =>
        simp only [bind, Except.bind] at h
        split at h
        · cases h
        · rename_i s'' hrun
          exact ifcLoop_up rank fuel _ _ _ _ (layoutTextRun_up hs' _ _ _ hrun) h
      | outOfFlowAbsolutelyPositionedBox st c =>
        simp only [bind, Except.bind] at h
        split at h
        · cases h
        · exact ifcLoop_up rank fuel _ _ _ _ hs' h
      | outOfFlowFloatBox st c => exact ifcLoop_up rank fuel _ _ _ _ hs' h

theorem ifcLayout_up {E : TextEnv} {st : Style} {boxes : List InlineLevelBox} {cb : ContainingBlock}
    (hcb : cb.mode = (.horizontalTb, .ltr)) {rank : Nat} {abs abs' : List AbsFragment} {fc : FlowChildren}
    (h : ifcLayout E st boxes cb rank abs = .ok (fc, abs')) : uprightAll fc.fragments := by
  unfold ifcLayout at h
  simp only [bind, Except.bind] at h
  split at h
  · cases h
  · rename_i r hr
    cases h
    have hs : (IfcState.start E st boxes cb).Up := ⟨hcb, trivial, trivial, by simp [IfcState.start]⟩
    exact (ifcLoop_up rank _ _ _ _ _ hs hr).lines

/-! ### Blocks -/

/-- layout of boxes gives upright fragments -/
def BoxUp (boxL : BoxLayout) : Prop :=
  ∀ b cb rank abs fl f out, cb.mode = (.horizontalTb, .ltr) → boxL b cb rank abs fl = .ok (f, out) →
    f.upright

/-- layout of absolutely positioned boxes gives upright fragments -/
def AbsUp (absL : AbsLayout) : Prop := ∀ a cb f, absL a cb = .ok f → f.upright

theorem placeFragment_up {st st' : PlacementState} {f f' : Fragment} (hf : f.upright)
    (h : placeFragment st f = .ok (f', st')) : f'.upright := by
  cases f with
  | text => cases h
  | anonymous r cs m =>
    simp only [placeFragment] at h
    split at h
    · cases h
    · split at h
      · cases h
      · cases h
        exact hf
  | box s g m cs =>
    simp only [placeFragment] at h
    split at h
    · split at h
      · cases h
      · split at h
        · cases h
          exact hf
        · cases h
          exact hf
    · split at h <;> cases h <;> exact hf

theorem placeAll_up : ∀ (fs fs' : List Fragment) (st st' : PlacementState), uprightAll fs →
    placeAll st fs = .ok (fs', st') → uprightAll fs'
  | [], fs', st, st', _, h => by
    cases h
    trivial
  | f :: fs, fs', st, st', hf, h => by
    rw [placeAll] at h
    simp only [bind, Except.bind] at h
    split at h
    · cases h
    · rename_i r hr
      split at h
      · cases h
      · rename_i r' hr'
        cases h
        exact ⟨placeFragment_up hf.1 hr, placeAll_up fs _ _ _ hf.2 hr'⟩

theorem layoutEach_up {boxL : BoxLayout} (hb : BoxUp boxL) {cb : ContainingBlock}
    (hcb : cb.mode = (.horizontalTb, .ltr)) : ∀ (bs : List BlockLevelBox) (rank : Nat)
    (abs abs' : List AbsFragment) (fs : List Fragment),
    layoutEach boxL cb rank bs abs = .ok (fs, abs') → uprightAll fs
  | [], _, _, _, _, h => by
    cases h
    trivial
  | b :: bs, rank, abs, abs', fs, h => by
    rw [layoutEach] at h
    simp only [bind, Except.bind] at h
    split at h
    · cases h
    · rename_i r hr
      split at h
      · cases h
      · rename_i r' hr'
        cases h
        exact ⟨hb _ _ _ _ _ _ _ hcb hr, layoutEach_up hb hcb bs _ _ _ _ hr'⟩

theorem layoutAndPlaceEach_up {boxL : BoxLayout} (hb : BoxUp boxL) {cb : ContainingBlock}
    (hcb : cb.mode = (.horizontalTb, .ltr)) : ∀ (bs : List BlockLevelBox) (rank : Nat)
    (abs abs' : List AbsFragment) (st st' : PlacementState) (fs : List Fragment),
    layoutAndPlaceEach boxL cb rank bs abs st = .ok (fs, abs', st') → uprightAll fs
  | [], _, _, _, _, _, _, h => by
    cases h
    trivial
  | b :: bs, rank, abs, abs', st, st', fs, h => by
    rw [layoutAndPlaceEach] at h
    simp only [bind, Except.bind] at h
    split at h
    · cases h
    · rename_i r hr
      split at h
      · cases h
      · rename_i r' hr'
        split at h
        · cases h
        · rename_i r'' hr''
          cases h
          exact ⟨placeFragment_up (hb _ _ _ _ _ _ _ hcb hr) hr',
            layoutAndPlaceEach_up hb hcb bs _ _ _ _ _ _ hr''⟩

theorem containerLayout_up {E : TextEnv} {boxL : BoxLayout} (hb : BoxUp boxL) {cb : ContainingBlock}
    (hcb : cb.mode = (.horizontalTb, .ltr)) {c : BlockContainer} {rank : Nat} {abs abs' : List AbsFragment}
    {floats collapsible : Bool} {fc : FlowChildren}
    (h : containerLayout E boxL c cb rank abs floats collapsible = .ok (fc, abs')) :
    uprightAll fc.fragments := by
  cases c with
  | inlineFormattingContext st boxes => exact ifcLayout_up hcb h
  | blockLevelBoxes boxes =>
    change layoutBlockLevelChildren _ _ _ _ _ _ _ = _ at h
    unfold layoutBlockLevelChildren at h
    simp only [bind, Except.bind] at h
    cases floats with
    | true =>
      simp only [if_true] at h
      split at h
      · cases h
      · rename_i r hr
        split at h
        · cases h
        · cases h
          exact layoutAndPlaceEach_up hb hcb _ _ _ _ _ _ _ hr
    | false =>
      simp only [Bool.false_eq_true, if_false] at h
      split at h
      · cases h
      · rename_i r hr
        split at hr
        · cases hr
        · rename_i r1 hr1
          split at hr
          · cases hr
          · rename_i r2 hr2
            cases hr
            split at h
            · cases h
            · cases h
              exact placeAll_up _ _ _ _ (layoutEach_up hb hcb _ _ _ _ _ hr1) hr2

theorem bfcLayout_up {E : TextEnv} {boxL : BoxLayout} (hb : BoxUp boxL) {cb : ContainingBlock}
    (hcb : cb.mode = (.horizontalTb, .ltr)) {c : Bfc} {rank : Nat} {abs abs' : List AbsFragment}
    {fc : FlowChildren} (h : bfcLayout E boxL c cb rank abs = .ok (fc, abs')) :
    uprightAll fc.fragments := by
  unfold bfcLayout at h
  simp only [bind, Except.bind] at h
  split at h
  · cases h
  · rename_i r hr
    cases h
    exact containerLayout_up (fc := r.1) hb hcb hr

theorem layoutAbsEach_up {absL : AbsLayout} (ha : AbsUp absL) {cb : DefiniteContainingBlock} :
    ∀ (as : List AbsFragment) (fs : List Fragment), layoutAbsEach absL cb as = .ok fs → uprightAll fs
  | [], _, h => by
    cases h
    trivial
  | a :: as, fs, h => by
    rw [layoutAbsEach] at h
    simp only [bind, Except.bind] at h
    split at h
    · cases h
    · rename_i r hr
      split at h
      · cases h
      · rename_i r' hr'
        cases h
        exact ⟨ha _ _ _ hr, layoutAbsEach_up ha as _ hr'⟩

theorem inPositioned_up {absL : AbsLayout} (ha : AbsUp absL) {as : List AbsFragment}
    {fs fs' : List Fragment} (hf : uprightAll fs) {size : Vec2 Length} {padding : Sides Length}
    (h : inPositionedContainingBlock absL as fs size padding (.horizontalTb, .ltr) = .ok fs') :
    uprightAll fs' := by
  unfold inPositionedContainingBlock at h
  split at h
  · cases h
    exact hf
  · simp only [bind, Except.bind] at h
    split at h
    · cases h
    · rename_i r hr
      cases h
      exact uprightAll_append hf ⟨⟨rfl, layoutAbsEach_up ha _ _ hr⟩, trivial⟩

theorem layoutInFlow_up {absL : AbsLayout} (ha : AbsUp absL) {cb : ContainingBlock}
    {abs : List AbsFragment} {style : Style} {kind : BlockLevelKind}
    {contents : ContainingBlock → List AbsFragment → Bool → Except Panic (FlowChildren × List AbsFragment)}
    (hc : ∀ cb abs c fc out, cb.mode = (.horizontalTb, .ltr) → contents cb abs c = .ok (fc, out) →
      uprightAll fc.fragments) {f : Fragment} {out : List AbsFragment}
    (h : layoutInFlow absL cb abs style kind contents = .ok (f, out)) : f.upright := by
  unfold layoutInFlow at h
  simp only [bind, Except.bind] at h
  split at h
  · cases h
  · split at h
    · cases h
    · rename_i r hr
      have h1 := hc _ _ _ _ _ rfl hr
      split at h
      · cases h
      · rename_i r' hr'
        cases h
        split at hr'
        · exact inPositioned_up ha h1 hr'
        · cases hr'
          exact h1

theorem boxLayoutWith_up {E : TextEnv} {boxL : BoxLayout} {absL : AbsLayout} (hb : BoxUp boxL)
    (ha : AbsUp absL) : BoxUp (boxLayoutWith E boxL absL) := by
  intro b cb rank abs fl f out hcb h
  cases b with
  | sameFormattingContextBlock st c =>
    exact layoutInFlow_up ha (fun _ _ _ _ _ hcb h => containerLayout_up hb hcb h) h
  | independent st c => exact layoutInFlow_up ha (fun _ _ _ _ _ hcb h => bfcLayout_up hb hcb h) h
  | outOfFlowAbsolutelyPositionedBox st c =>
    cases h
    exact ⟨hcb, trivial⟩
  | outOfFlowFloatBox st c =>
    cases h
    exact ⟨hcb, trivial⟩

theorem absLayoutWith_up {E : TextEnv} {boxL : BoxLayout} {absL : AbsLayout} (hb : BoxUp boxL)
    (ha : AbsUp absL) : AbsUp (absLayoutWith E boxL absL) := by
  intro a cb f h
  unfold absLayoutWith at h
  simp only [bind, Except.bind] at h
  split at h
  · cases h
  · split at h
    · cases h
    · rename_i r hr
      split at h
      · cases h
      · rename_i r' hr'
        cases h
        exact inPositioned_up ha (bfcLayout_up (cb := ⟨_, _, _⟩) hb rfl hr) hr'

theorem layout_up (E : TextEnv) : ∀ n, BoxUp (boxLayout E n) ∧ AbsUp (absLayout E n)
  | 0 => ⟨fun _ _ _ _ _ _ _ _ h => (by cases h), fun _ _ _ h => (by cases h)⟩
  | n + 1 => ⟨boxLayoutWith_up (layout_up E n).1 (layout_up E n).2,
      absLayoutWith_up (layout_up E n).1 (layout_up E n).2⟩

/-- the fragments of a page -/
theorem rootLayout_up {E : TextEnv} {root : Bfc} {viewport : PVec2 Length} {fs : List Fragment}
    (h : rootLayout E root viewport = .ok fs) : uprightAll fs := by
  unfold rootLayout rootLayoutWith at h
  simp only [bind, Except.bind] at h
  split at h
  · cases h
  · rename_i r hr
    split at h
    · cases h
    · rename_i r' hr'
      cases h
      exact uprightAll_append (bfcLayout_up (layout_up E _).1 rfl hr)
        (layoutAbsEach_up (layout_up E _).2 _ _ hr')

end Sinab
