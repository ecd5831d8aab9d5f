import Verif.Lemmas.BoxRuns
import Verif.Lemmas.ReadInk

/-! Every text fragment of a page has the size of its text. -/

namespace Sinab

mutual

/-- the texts of a fragment with their style and size -/
def Fragment.texts : Fragment → List (Style × Vec2 Length × ShapedSegment)
  | .box _ _ _ cs => textsAll cs
  | .anonymous _ cs _ => textsAll cs
  | .text st r seg => [(st, r.size, seg)]

/-- see `Fragment.texts` -/
def textsAll : List Fragment → List (Style × Vec2 Length × ShapedSegment)
  | [] => []
  | f :: fs => f.texts ++ textsAll fs

end

theorem textsAll_append (a b : List Fragment) : textsAll (a ++ b) = textsAll a ++ textsAll b := by
  induction a with
  | nil => rfl
  | cons f a ih => simp [textsAll, ih]

variable {E : TextEnv} {P : Style → Font → Prop}

/-- A text has the width of its characters in its font and the line height of its style; style and
font belong together. -/
structure Fitted (E : TextEnv) (P : Style → Font → Prop) (t : Style × Vec2 Length × ShapedSegment) :
    Prop where
  run : P t.1 t.2.2.font
  width : t.2.1.inline = E.width t.2.2.font t.2.2.glyphs
  height : t.2.1.block = lineHeightOf t.1
  text : t.2.2.glyphs ≠ []

/-! ## Lines -/

mutual

theorem Item.place_texts (cb : ContainingBlock) : ∀ (i : Item) (p : Font) (o x : ℚ),
    (∀ r ∈ i.inked, P r.1 r.2.1) → ∀ t ∈ textsAll (i.place E cb p o x), Fitted E P t
  | .text st f t nl, p, o, x, h => by
    intro q hq
    simp only [Item.place, Item.inked] at hq h
    split at hq
    · cases hq
    · rename_i ht
      simp only [ht, if_false] at h
      simp only [textsAll, Fragment.texts, List.append_nil, List.mem_singleton] at hq
      subst hq
      refine ⟨h (st, f, t) (by simp), rfl, ?_, ht⟩
      simp only [ascentOf, descentOf]
      ring
  | .box st a b c is, p, o, x, h => by
    intro q hq
    simp only [Item.place, textsAll, Fragment.texts, List.append_nil] at hq
    exact place_texts cb is _ _ _ h q hq

theorem place_texts (cb : ContainingBlock) : ∀ (is : List Item) (p : Font) (o x : ℚ),
    (∀ r ∈ itemsInked is, P r.1 r.2.1) → ∀ t ∈ textsAll (place E cb is p o x), Fitted E P t
  | [], _, _, _, _ => by simp [place, textsAll]
  | i :: is, p, o, x, h => by
    intro q hq
    simp only [place, textsAll_append, List.mem_append] at hq
    rcases hq with hq | hq
    · exact i.place_texts cb p o x (fun r hr => h r (List.mem_append_left _ hr)) q hq
    · exact place_texts cb is p o _ (fun r hr => h r (List.mem_append_right _ hr)) q hq

end

theorem translate_texts (d : Length) (fs : List Fragment) :
    textsAll (fs.map (Fragment.translateBlock d)) = textsAll fs := by
  induction fs with
  | nil => rfl
  | cons f fs ih =>
    simp only [List.map_cons, textsAll, ih]
    cases f <;> rfl

theorem placeLines_texts (cb : ContainingBlock) (al : TextAlign) (root : Font) :
    ∀ (L : List Line) (y : ℚ), (∀ l ∈ L, ∀ r ∈ itemsInked l, P r.1 r.2.1) →
    ∀ t ∈ textsAll (placeLines E cb al root y L), Fitted E P t
  | [], _, _ => by simp [placeLines, textsAll]
  | l :: L, y, h => by
    intro q hq
    simp only [placeLines, textsAll, Fragment.texts, translate_texts, List.mem_append] at hq
    rcases hq with hq | hq
    · exact place_texts cb l root 0 0 (h l (by simp)) q hq
    · exact placeLines_texts cb al root L _ (fun l' hl => h l' (by simp [hl])) q hq

theorem laysOut_runs {w x : ℚ} {bs : List InlineLevelBox} {L : List Line}
    (h : LaysOut E w x bs L) (hr : ∀ r ∈ inlineInked bs, P r.1 r.2.1) :
    ∀ r ∈ L.flatMap itemsInked, P r.1 r.2.1 := by
  induction h with
  | nil => simp [itemsInked]
  | @text x st t font bs pieces L h _ ih =>
    intro r hm
    rw [joinLines_inked, List.mem_append] at hm
    rcases hm with hm | hm
    · simp only [List.mem_flatMap, List.mem_map] at hm
      obtain ⟨_, ⟨p, _, rfl⟩, hm⟩ := hm
      simp only [itemsInked, Item.inked, List.append_nil] at hm
      split at hm
      · cases hm
      · rw [List.mem_singleton] at hm
        subst hm
        exact hr (st, font, t) (by simp [inlineInked, InlineLevelBox.inks])
    · exact ih (fun r hr' => hr r (by simp [inlineInked, hr'])) r hm
  | box _ _ ih1 ih2 =>
    intro r hm
    rw [joinLines_inked, decorate_inked, List.mem_append] at hm
    rcases hm with hm | hm
    · exact ih1 (fun r hr' => hr r (by simp [inlineInked, InlineLevelBox.inks, hr'])) r hm
    · exact ih2 (fun r hr' => hr r (by simp [inlineInked, hr'])) r hm
  | abs _ ih => exact ih (fun r hr' => hr r (by simp [inlineInked, hr']))
  | float _ ih => exact ih (fun r hr' => hr r (by simp [inlineInked, hr']))

/-! ## Boxes that wait -/

/-- contents that can be laid out -/
def Bfc.Ready (P : Style → Font → Prop) (c : Bfc) : Prop := c.sound ∧ c.runsOk P

mutual

theorem InlineLevelBox.abs_runs : ∀ b : InlineLevelBox, b.runsOk P → ∀ a ∈ b.absBoxes, a.2.runsOk P
  | .inlineBox _ _ _ ks, h => inlineAbs_runs ks h
  | .textRun .., _ => by simp [InlineLevelBox.absBoxes]
  | .outOfFlowAbsolutelyPositionedBox _ c, h => by
    intro a ha
    rw [InlineLevelBox.absBoxes, List.mem_singleton] at ha
    subst ha
    exact h
  | .outOfFlowFloatBox _ _, _ => by simp [InlineLevelBox.absBoxes]

theorem inlineAbs_runs : ∀ bs : List InlineLevelBox, inlineRunsOk P bs →
    ∀ a ∈ inlineAbsBoxes bs, a.2.runsOk P
  | [], _ => by simp [inlineAbsBoxes]
  | b :: bs, h => by
    intro a ha
    rcases List.mem_append.1 ha with ha | ha
    · exact b.abs_runs h.1 a ha
    · exact inlineAbs_runs bs h.2 a ha

end

/-- The texts of the fragments have the right size, and those of boxes that wait for their
containing block will. -/
def Fits (E : TextEnv) (P : Style → Font → Prop) (fs : List Fragment) (new : List AbsFragment) : Prop :=
  (∀ a ∈ new, a.contents.Ready P) ∧ ∀ t ∈ textsAll fs, Fitted E P t

theorem Fits.nil : Fits E P [] [] := ⟨by simp, by simp [textsAll]⟩

theorem Fits.append {fs gs : List Fragment} {new new' : List AbsFragment} (h : Fits E P fs new)
    (h' : Fits E P gs new') : Fits E P (fs ++ gs) (new ++ new') := by
  refine ⟨fun a ha => ?_, fun t ht => ?_⟩
  · rcases List.mem_append.1 ha with ha | ha
    · exact h.1 a ha
    · exact h'.1 a ha
  · rw [textsAll_append, List.mem_append] at ht
    rcases ht with ht | ht
    · exact h.2 t ht
    · exact h'.2 t ht

theorem Fits.congr {fs gs : List Fragment} {new new' : List AbsFragment} (h : Fits E P fs new)
    (h1 : textsAll gs = textsAll fs)
    (h4 : new'.map AbsFragment.contents = new.map AbsFragment.contents) : Fits E P gs new' := by
  refine ⟨fun a ha => ?_, h1 ▸ h.2⟩
  have : a.contents ∈ new.map AbsFragment.contents := h4 ▸ List.mem_map_of_mem ha
  obtain ⟨a', ha', he⟩ := List.mem_map.1 this
  rw [← he]
  exact h.1 a' ha'

theorem Fits.box {fs : List Fragment} {new : List AbsFragment} (h : Fits E P fs new) (st : Style)
    (g : BoxGeom) (m : CollapsedBlockMargins) : Fits E P [.box st g m fs] new :=
  h.congr (by simp [textsAll, Fragment.texts]) rfl

theorem Fits.wrap {fs : List Fragment} {new : List AbsFragment} (h : Fits E P fs new)
    (r : Rect Length) (m : Mode) : Fits E P [.anonymous r fs m] new :=
  h.congr (by simp [textsAll, Fragment.texts]) rfl

theorem ifcLayout_fits {st : Style} {boxes : List InlineLevelBox}
    {cb : ContainingBlock} {rank : Nat} {abs out : List AbsFragment} {fc : FlowChildren}
    (hs : inlineSound boxes) (hr : inlineRunsOk P boxes)
    (h : ifcLayout E st boxes cb rank abs = .ok (fc, out)) :
    ∃ new, out = abs ++ new ∧ Fits E P fc.fragments new := by
  obtain ⟨L, new, h1, h2, h3, h4⟩ := ifcLayout_good E st boxes cb rank hs
  rw [h2] at h
  cases h
  refine ⟨new, rfl, fun a ha => ⟨(h3 a ha).2.1, ?_⟩, ?_⟩
  · have : a.box ∈ inlineAbsBoxes boxes := h4 ▸ List.mem_map_of_mem ha
    exact inlineAbs_runs boxes hr _ this
  · refine placeLines_texts cb _ _ L 0 fun l hl r hm => ?_
    exact laysOut_runs h1 (inlineRunsOk_inked boxes hr) r (List.mem_flatMap.2 ⟨l, hl, hm⟩)

/-! ## Blocks -/

/-- layout of boxes gives texts their size -/
def BoxFits (E : TextEnv) (P : Style → Font → Prop) (boxL : BoxLayout) : Prop :=
  ∀ b cb rank abs fl f out, b.sound → b.runsOk P → boxL b cb rank abs fl = .ok (f, out) →
    ∃ new, out = abs ++ new ∧ Fits E P [f] new

/-- layout of absolutely positioned boxes gives texts their size -/
def AbsFits (E : TextEnv) (P : Style → Font → Prop) (absL : AbsLayout) : Prop :=
  ∀ a cb f, a.contents.Ready P → absL a cb = .ok f → Fits E P [f] []

theorem placeFragment_texts {st st' : PlacementState} {f f' : Fragment}
    (h : placeFragment st f = .ok (f', st')) : f'.texts = f.texts := by
  cases f with
  | text => cases h
  | anonymous r cs m =>
    simp only [placeFragment] at h
    split at h
    · cases h
    · split at h
      · cases h
      · cases h
        rfl
  | box s g m cs =>
    simp only [placeFragment] at h
    split at h
    · split at h
      · cases h
      · split at h
        · cases h
          rfl
        · cases h
          rfl
    · split at h <;> cases h <;> rfl

theorem placeAll_texts : ∀ (fs fs' : List Fragment) (st st' : PlacementState),
    placeAll st fs = .ok (fs', st') → textsAll fs' = textsAll fs
  | [], fs', st, st', h => by
    cases h
    rfl
  | f :: fs, fs', st, st', h => by
    rw [placeAll] at h
    simp only [bind, Except.bind] at h
    split at h
    · cases h
    · rename_i r hr
      split at h
      · cases h
      · rename_i r' hr'
        cases h
        simp only [textsAll, placeFragment_texts hr, placeAll_texts fs _ _ _ hr']

theorem layoutEach_fits {boxL : BoxLayout} (hb : BoxFits E P boxL)
    {cb : ContainingBlock} : ∀ (bs : List BlockLevelBox) (rank : Nat) (abs out : List AbsFragment)
    (fs : List Fragment), blockSound bs → blockRunsOk P bs →
    layoutEach boxL cb rank bs abs = .ok (fs, out) → ∃ new, out = abs ++ new ∧ Fits E P fs new
  | [], _, _, _, _, _, _, h => by
    cases h
    exact ⟨[], by simp, .nil⟩
  | b :: bs, rank, abs, out, fs, hs, hp, h => by
    rw [layoutEach] at h
    simp only [bind, Except.bind] at h
    split at h
    · cases h
    · rename_i r hr
      split at h
      · cases h
      · rename_i r' hr'
        cases h
        obtain ⟨n1, e1, c1⟩ := hb _ _ _ _ _ _ _ hs.1 hp.1 hr
        obtain ⟨n2, e2, c2⟩ := layoutEach_fits hb bs _ _ _ _ hs.2 hp.2 hr'
        exact ⟨n1 ++ n2, by rw [e2, e1, List.append_assoc], c1.append c2⟩

theorem layoutAndPlaceEach_fits {boxL : BoxLayout} (hb : BoxFits E P boxL)
    {cb : ContainingBlock} : ∀ (bs : List BlockLevelBox) (rank : Nat) (abs out : List AbsFragment)
    (st st' : PlacementState) (fs : List Fragment), blockSound bs → blockRunsOk P bs →
    layoutAndPlaceEach boxL cb rank bs abs st = .ok (fs, out, st') →
    ∃ new, out = abs ++ new ∧ Fits E P fs new
  | [], _, _, _, _, _, _, _, _, h => by
    cases h
    exact ⟨[], by simp, .nil⟩
  | b :: bs, rank, abs, out, st, st', fs, hs, hp, h => by
    rw [layoutAndPlaceEach] at h
    simp only [bind, Except.bind] at h
    split at h
    · cases h
    · rename_i r hr
      split at h
      · cases h
      · rename_i r' hr'
        split at h
        · cases h
        · rename_i r'' hr''
          cases h
          obtain ⟨n1, e1, c1⟩ := hb _ _ _ _ _ _ _ hs.1 hp.1 hr
          obtain ⟨n2, e2, c2⟩ := layoutAndPlaceEach_fits hb bs _ _ _ _ _ _ hs.2 hp.2 hr''
          have c1' : Fits E P [r'.1] n1 :=
            c1.congr (by simp [textsAll, placeFragment_texts hr']) rfl
          exact ⟨n1 ++ n2, by rw [e2, e1, List.append_assoc], c1'.append c2⟩

theorem containerLayout_fits {boxL : BoxLayout} (hb : BoxFits E P boxL)
    {cb : ContainingBlock} {c : BlockContainer} {rank : Nat} {abs out : List AbsFragment}
    {floats collapsible : Bool} {fc : FlowChildren} (hs : c.sound) (hp : c.runsOk P)
    (h : containerLayout E boxL c cb rank abs floats collapsible = .ok (fc, out)) :
    ∃ new, out = abs ++ new ∧ Fits E P fc.fragments new := by
  cases c with
  | inlineFormattingContext st boxes => exact ifcLayout_fits hs hp h
  | blockLevelBoxes boxes =>
    change layoutBlockLevelChildren _ _ _ _ _ _ _ = _ at h
    unfold layoutBlockLevelChildren at h
    have key : ∀ (fs : List Fragment) (mid new : List AbsFragment), mid = abs ++ new →
        Fits E P fs new → ∀ adj,
        adjustStaticPositions fs rank (mid.drop abs.length) = .ok adj →
        ∃ new, mid.take abs.length ++ adj = abs ++ new ∧ Fits E P fs new := by
      intro fs mid new e c adj ha
      subst e
      rw [List.drop_left] at ha
      rw [List.take_left]
      exact ⟨adj, rfl, c.congr rfl (adjustStatic_contents _ _ _ _ ha)⟩
    simp only [bind, Except.bind] at h
    cases floats with
    | true =>
      simp only [if_true] at h
      split at h
      · cases h
      · rename_i r hr
        split at h
        · cases h
        · rename_i adj ha
          cases h
          obtain ⟨new, e, c⟩ := layoutAndPlaceEach_fits hb _ _ _ _ _ _ _ hs hp hr
          exact key _ _ _ e c _ ha
    | false =>
      simp only [Bool.false_eq_true, if_false] at h
      split at h
      · cases h
      · rename_i r hr
        split at hr
        · cases hr
        · rename_i r1 hr1
          split at hr
          · cases hr
          · rename_i r2 hr2
            cases hr
            split at h
            · cases h
            · rename_i adj ha
              cases h
              obtain ⟨new, e, c⟩ := layoutEach_fits hb _ _ _ _ _ hs hp hr1
              exact key _ _ _ e (c.congr (placeAll_texts _ _ _ _ hr2) rfl) _ ha

theorem Bfc.Ready.contents {c : Bfc} (h : c.Ready P) : c.contents.sound ∧ c.contents.runsOk P := by
  cases c; exact h

theorem bfcLayout_fits {boxL : BoxLayout} (hb : BoxFits E P boxL)
    {cb : ContainingBlock} {c : Bfc} {rank : Nat} {abs out : List AbsFragment}
    {fc : FlowChildren} (hs : c.Ready P) (h : bfcLayout E boxL c cb rank abs = .ok (fc, out)) :
    ∃ new, out = abs ++ new ∧ Fits E P fc.fragments new := by
  unfold bfcLayout at h
  simp only [bind, Except.bind] at h
  split at h
  · cases h
  · rename_i r hr
    cases h
    exact containerLayout_fits (fc := r.1) hb hs.contents.1 hs.contents.2 hr

theorem layoutAbsEach_fits {absL : AbsLayout} (ha : AbsFits E P absL)
    {cb : DefiniteContainingBlock} : ∀ (as : List AbsFragment) (fs : List Fragment),
    (∀ a ∈ as, a.contents.Ready P) → layoutAbsEach absL cb as = .ok fs → Fits E P fs []
  | [], _, _, h => by
    cases h
    exact .nil
  | a :: as, fs, hs, h => by
    rw [layoutAbsEach] at h
    simp only [bind, Except.bind] at h
    split at h
    · cases h
    · rename_i r hr
      split at h
      · cases h
      · rename_i r' hr'
        cases h
        exact (ha _ _ _ (hs a (by simp)) hr).append
          (layoutAbsEach_fits ha as _ (fun a h => hs a (by simp [h])) hr')

theorem inPositioned_fits {absL : AbsLayout} (ha : AbsFits E P absL)
    {as : List AbsFragment} {fs fs' : List Fragment} (hf : Fits E P fs as) {size : Vec2 Length}
    {padding : Sides Length} {m : Mode}
    (h : inPositionedContainingBlock absL as fs size padding m = .ok fs') : Fits E P fs' [] := by
  unfold inPositionedContainingBlock at h
  split at h
  · cases h
    exact ⟨by simp, hf.2⟩
  · simp only [bind, Except.bind] at h
    split at h
    · cases h
    · rename_i r hr
      cases h
      have hw := (layoutAbsEach_fits ha _ _ hf.1 hr).wrap ((Rect.mk Vec2.zero size).inflate padding) m
      have h0 : Fits E P fs [] := ⟨by simp, hf.2⟩
      exact h0.append hw

theorem layoutInFlow_fits {absL : AbsLayout} (ha : AbsFits E P absL)
    {cb : ContainingBlock} {abs : List AbsFragment} {style : Style} {kind : BlockLevelKind}
    {contents : ContainingBlock → List AbsFragment → Bool → Except Panic (FlowChildren × List AbsFragment)}
    (hc : ∀ cb abs c fc out, contents cb abs c = .ok (fc, out) →
      ∃ new, out = abs ++ new ∧ Fits E P fc.fragments new) {f : Fragment}
    {out : List AbsFragment} (h : layoutInFlow absL cb abs style kind contents = .ok (f, out)) :
    ∃ new, out = abs ++ new ∧ Fits E P [f] new := by
  unfold layoutInFlow at h
  simp only [bind, Except.bind] at h
  split at h
  · cases h
  · split at h
    · cases h
    · rename_i r hr
      obtain ⟨new, e, c⟩ := hc _ _ _ _ _ hr
      split at h
      · cases h
      · rename_i r' hr'
        cases h
        split at hr'
        · rename_i hrel
          rw [if_pos hrel] at e
          rw [if_pos hrel]
          rw [List.nil_append] at e
          subst e
          exact ⟨[], by simp, (inPositioned_fits ha c hr').box _ _ _⟩
        · rename_i hrel
          rw [if_neg hrel] at e
          rw [if_neg hrel]
          cases hr'
          exact ⟨new, e, c.box _ _ _⟩

theorem boxLayoutWith_fits {boxL : BoxLayout} {absL : AbsLayout}
    (hb : BoxFits E P boxL) (ha : AbsFits E P absL) : BoxFits E P (boxLayoutWith E boxL absL) := by
  intro b cb rank abs fl f out hs hp h
  cases b with
  | sameFormattingContextBlock st c =>
    exact layoutInFlow_fits ha (fun _ _ _ _ _ h => containerLayout_fits hb hs hp h) h
  | independent st c => exact layoutInFlow_fits ha (fun _ _ _ _ _ h => bfcLayout_fits hb ⟨hs, hp⟩ h) h
  | outOfFlowAbsolutelyPositionedBox st c =>
    cases h
    refine ⟨_, rfl, ?_, by simp [textsAll, Fragment.noOp, Fragment.texts]⟩
    intro a ha
    rw [List.mem_singleton] at ha
    subst ha
    exact ⟨hs, hp⟩
  | outOfFlowFloatBox st c =>
    cases h
    exact ⟨[], by simp, by simp, by simp [textsAll, Fragment.noOp, Fragment.texts]⟩

theorem absLayoutWith_fits {boxL : BoxLayout} {absL : AbsLayout}
    (hb : BoxFits E P boxL) (ha : AbsFits E P absL) : AbsFits E P (absLayoutWith E boxL absL) := by
  intro a cb f hs h
  unfold absLayoutWith at h
  simp only [bind, Except.bind] at h
  split at h
  · cases h
  · split at h
    · cases h
    · rename_i r hr
      obtain ⟨new, e, c⟩ := bfcLayout_fits (cb := ⟨_, _, _⟩) hb hs hr
      rw [List.nil_append] at e
      subst e
      split at h
      · cases h
      · rename_i r' hr'
        cases h
        exact (inPositioned_fits ha c hr').box _ _ _

theorem layout_fits (E : TextEnv) (P : Style → Font → Prop) :
    ∀ n, BoxFits E P (boxLayout E n) ∧ AbsFits E P (absLayout E n)
  | 0 => ⟨fun _ _ _ _ _ _ _ _ _ h => (by cases h), fun _ _ _ _ h => (by cases h)⟩
  | n + 1 => ⟨boxLayoutWith_fits (layout_fits E P n).1 (layout_fits E P n).2,
      absLayoutWith_fits (layout_fits E P n).1 (layout_fits E P n).2⟩

/-- the texts of a page have the right size -/
theorem rootLayout_fits {root : Bfc} {viewport : PVec2 Length} {fs : List Fragment}
    (hs : root.Ready P) (h : rootLayout E root viewport = .ok fs) :
    ∀ t ∈ textsAll fs, Fitted E P t := by
  unfold rootLayout rootLayoutWith at h
  simp only [bind, Except.bind] at h
  split at h
  · cases h
  · rename_i r hr
    split at h
    · cases h
    · rename_i r' hr'
      cases h
      obtain ⟨new, e, c⟩ := bfcLayout_fits (layout_fits E P _).1 hs hr
      rw [List.nil_append] at e
      rw [e] at hr'
      have c2 := layoutAbsEach_fits (layout_fits E P _).2 _ _ c.1 hr'
      have c1 : Fits E P r.1.fragments [] := ⟨by simp, c.2⟩
      exact (c1.append c2).2

end Sinab
