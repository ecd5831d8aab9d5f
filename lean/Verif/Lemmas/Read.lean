import Verif.Spec.Read
import Verif.Lemmas.BlockLayout

/-! Layout shows the inline content of a box tree, each formatting context on lines of its
own. -/

namespace Sinab

theorem inkedAll_append (a b : List Fragment) : inkedAll (a ++ b) = inkedAll a ++ inkedAll b := by
  induction a with
  | nil => rfl
  | cons f a ih => simp [inkedAll, ih]

theorem rowsAll_append (a b : List Fragment) : rowsAll (a ++ b) = rowsAll a ++ rowsAll b := by
  induction a with
  | nil => rfl
  | cons f a ih => simp [rowsAll, ih]

theorem lineWidthsAll_append (a b : List Fragment) :
    lineWidthsAll (a ++ b) = lineWidthsAll a ++ lineWidthsAll b := by
  induction a with
  | nil => rfl
  | cons f a ih => simp [lineWidthsAll, ih]

/-! ## Lines -/

mutual

theorem Item.place_inked (E : TextEnv) (cb : ContainingBlock) : ∀ (i : Item) (p : Font) (o x : ℚ),
    inkedAll (i.place E cb p o x) = i.inked ∧ rowsAll (i.place E cb p o x) = []
  | .text st f t nl, p, o, x => by
    simp only [Item.place, Item.inked]
    split <;> exact ⟨rfl, rfl⟩
  | .box st a b c is, p, o, x => by
    have := place_inked E cb is (E.font st) (if b then x + startSpace cb.inlineSize st else x)
      (if b then x + startSpace cb.inlineSize st else x)
    simp only [Item.place, Item.inked, inkedAll, Fragment.inked, rowsAll, Fragment.rows,
      List.append_nil]
    exact this

theorem place_inked (E : TextEnv) (cb : ContainingBlock) : ∀ (is : List Item) (p : Font) (o x : ℚ),
    inkedAll (place E cb is p o x) = itemsInked is ∧ rowsAll (place E cb is p o x) = []
  | [], _, _, _ => ⟨rfl, rfl⟩
  | i :: is, p, o, x => by
    simp only [place, itemsInked, inkedAll_append, rowsAll_append]
    rw [(i.place_inked E cb p o x).1, (i.place_inked E cb p o x).2, (place_inked E cb is p o _).1,
      (place_inked E cb is p o _).2]
    exact ⟨rfl, rfl⟩

end

theorem translate_inked (d : Length) (f : Fragment) : (f.translateBlock d).inked = f.inked ∧
    (f.translateBlock d).rows = f.rows ∧ (f.translateBlock d).lineWidths = f.lineWidths := by
  cases f <;> exact ⟨rfl, rfl, rfl⟩

theorem translateAll_inked (d : Length) : ∀ fs : List Fragment,
    inkedAll (fs.map (Fragment.translateBlock d)) = inkedAll fs ∧
      rowsAll (fs.map (Fragment.translateBlock d)) = rowsAll fs
  | [] => ⟨rfl, rfl⟩
  | f :: fs => by
    simp only [List.map_cons, inkedAll, rowsAll, (translate_inked d f).1, (translate_inked d f).2.1,
      (translateAll_inked d fs).1, (translateAll_inked d fs).2, and_self]

theorem placeLines_rows (E : TextEnv) (cb : ContainingBlock) (al : TextAlign) (root : Font) :
    ∀ (L : List Line) (y : ℚ),
    rowsAll (placeLines E cb al root y L) = (L.map itemsInked).filter (fun r => decide (r ≠ [])) ∧
      inkedAll (placeLines E cb al root y L) = (rowsAll (placeLines E cb al root y L)).flatten ∧
      (L ≠ [] → cb.inlineSize ∈ lineWidthsAll (placeLines E cb al root y L))
  | [], _ => ⟨rfl, rfl, fun h => absurd rfl h⟩
  | l :: L, y => by
    obtain ⟨h1, h2, _⟩ := placeLines_rows E cb al root L (y + lineHeight E root l)
    have h3 := place_inked E cb l root 0 0
    have h4 := translateAll_inked (lineAscent E root l - root.ascent) (place E cb l root 0 0)
    rw [h3.1, h3.2] at h4
    simp only [placeLines, rowsAll, Fragment.rows, inkedAll, Fragment.inked, h4.1, h4.2, if_true,
      List.map_cons, h2, lineWidthsAll, Fragment.lineWidths]
    refine ⟨?_, ?_, fun _ => by simp⟩
    · rw [h1]
      by_cases hl : itemsInked l = [] <;> simp [hl]
    · by_cases hl : itemsInked l = [] <;> simp [hl]

/-! ## Covering -/

/-- the inline content of boxes that wait for their containing block -/
def waiting (new : List AbsFragment) : List (List InlineLevelBox) := new.flatMap (·.contents.ifcs)

/-- The fragments show inline content `ifcs` except that of `new`, each piece on lines of its
own; in order and with nothing left, if `flow`. -/
def Covers (E : TextEnv) (fs : List Fragment) (new : List AbsFragment)
    (ifcs : List (List InlineLevelBox)) (flow : Bool) : Prop :=
  (∀ a ∈ new, a.contents.sound) ∧
  ∃ jobs : List Job, (∀ j ∈ jobs, j.Ok E ∧ j.width ∈ lineWidthsAll fs) ∧
    rowsAll fs = jobs.flatMap Job.rows ∧ inkedAll fs = (rowsAll fs).flatten ∧
    (jobs.map Job.boxes ++ waiting new).Perm ifcs ∧
    (flow = true → new = [] ∧ jobs.map Job.boxes = ifcs)

theorem Covers.nil (E : TextEnv) (flow : Bool) : Covers E [] [] [] flow :=
  ⟨by simp, [], by simp, rfl, rfl, .refl _, fun _ => ⟨rfl, rfl⟩⟩

theorem Covers.append {E : TextEnv} {fs gs : List Fragment} {new new' : List AbsFragment}
    {is js : List (List InlineLevelBox)} {b c : Bool} (h : Covers E fs new is b)
    (h' : Covers E gs new' js c) : Covers E (fs ++ gs) (new ++ new') (is ++ js) (b && c) := by
  obtain ⟨s, J, a1, a2, a3, a4, a5⟩ := h
  obtain ⟨s', J', b1, b2, b3, b4, b5⟩ := h'
  refine ⟨?_, J ++ J', ?_, ?_, ?_, ?_, ?_⟩
  · intro a ha
    rcases List.mem_append.1 ha with ha | ha
    · exact s a ha
    · exact s' a ha
  · intro j hj
    rw [lineWidthsAll_append]
    rcases List.mem_append.1 hj with hj | hj
    · exact ⟨(a1 j hj).1, List.mem_append_left _ (a1 j hj).2⟩
    · exact ⟨(b1 j hj).1, List.mem_append_right _ (b1 j hj).2⟩
  · simp only [rowsAll_append, a2, b2, List.flatMap_append]
  · simp only [inkedAll_append, rowsAll_append, a3, b3, List.flatten_append]
  · have hp : (J.map Job.boxes ++ J'.map Job.boxes ++ (waiting new ++ waiting new')).Perm
        ((J.map Job.boxes ++ waiting new) ++ (J'.map Job.boxes ++ waiting new')) := by
      rw [List.append_assoc, List.append_assoc]
      refine List.Perm.append_left _ ?_
      rw [← List.append_assoc, ← List.append_assoc]
      exact List.perm_append_comm.append_right _
    simp only [List.map_append, waiting, List.flatMap_append] at hp ⊢
    exact hp.trans (a4.append b4)
  · intro hf
    simp only [Bool.and_eq_true] at hf
    simp only [(a5 hf.1).1, (b5 hf.2).1, (a5 hf.1).2, (b5 hf.2).2, List.map_append, List.append_nil,
      and_self]

/-- other fragments with the same text -/
theorem Covers.congr {E : TextEnv} {fs gs : List Fragment} {new new' : List AbsFragment}
    {is : List (List InlineLevelBox)} {b : Bool} (h : Covers E fs new is b)
    (h1 : inkedAll gs = inkedAll fs) (h2 : rowsAll gs = rowsAll fs)
    (h3 : lineWidthsAll gs = lineWidthsAll fs)
    (h4 : new'.map AbsFragment.contents = new.map AbsFragment.contents) : Covers E gs new' is b := by
  obtain ⟨s, J, a1, a2, a3, a4, a5⟩ := h
  have hw : waiting new' = waiting new := by
    have : ∀ l : List AbsFragment, waiting l = (l.map AbsFragment.contents).flatMap Bfc.ifcs := by
      intro l; simp [waiting, List.flatMap_map]
    rw [this, this, h4]
  refine ⟨?_, J, by rw [h3]; exact a1, h2.trans a2, by rw [h1, h2]; exact a3, by rw [hw]; exact a4,
    fun hf => ⟨?_, (a5 hf).2⟩⟩
  · intro a ha
    have : a.contents ∈ new.map AbsFragment.contents := h4 ▸ List.mem_map_of_mem ha
    obtain ⟨a', ha', he⟩ := List.mem_map.1 this
    rw [← he]
    exact s a' ha'
  · have := (a5 hf).1
    subst this
    simpa using h4

theorem Covers.flow_false {E : TextEnv} {fs : List Fragment} {new : List AbsFragment}
    {is : List (List InlineLevelBox)} {b : Bool} (h : Covers E fs new is b) :
    Covers E fs new is false := by
  obtain ⟨s, J, a1, a2, a3, a4, _⟩ := h
  exact ⟨s, J, a1, a2, a3, a4, by simp⟩

theorem Covers.box {E : TextEnv} {fs : List Fragment} {new : List AbsFragment}
    {is : List (List InlineLevelBox)} {b : Bool} (h : Covers E fs new is b) (st : Style)
    (g : BoxGeom) (m : CollapsedBlockMargins) : Covers E [.box st g m fs] new is b :=
  h.congr (by simp [inkedAll, Fragment.inked]) (by simp [rowsAll, Fragment.rows])
    (by simp [lineWidthsAll, Fragment.lineWidths]) rfl

/-- fragments inside of an anonymous one -/
theorem Covers.wrap {E : TextEnv} {fs : List Fragment} {new : List AbsFragment}
    {is : List (List InlineLevelBox)} {b : Bool} (h : Covers E fs new is b) (r : Rect Length)
    (m : Mode) : Covers E [.anonymous r fs m] new is b := by
  obtain ⟨s, J, a1, a2, a3, a4, a5⟩ := h
  have hr : rowsAll [.anonymous r fs m] = rowsAll fs := by
    simp only [rowsAll, Fragment.rows, List.append_nil]
    split
    · rename_i h0
      rw [if_pos (by rw [a3, h0]; rfl), h0]
    · rfl
  refine ⟨s, J, fun j hj => ⟨(a1 j hj).1, ?_⟩, hr.trans a2, ?_, a4, a5⟩
  · simp only [lineWidthsAll, Fragment.lineWidths, List.append_nil]
    exact List.mem_cons_of_mem _ (a1 j hj).2
  · rw [hr, ← a3]
    simp [inkedAll, Fragment.inked]

/-! ## Inline content -/

mutual

theorem InlineLevelBox.ifcs_abs : ∀ b : InlineLevelBox,
    b.absBoxes.flatMap (·.2.ifcs) = b.ifcs
  | .inlineBox _ _ _ ks => by
    simp only [InlineLevelBox.absBoxes, InlineLevelBox.ifcs]; exact inlineIfcs_abs ks
  | .textRun .. => rfl
  | .outOfFlowAbsolutelyPositionedBox _ c => by
    simp [InlineLevelBox.absBoxes, InlineLevelBox.ifcs]
  | .outOfFlowFloatBox _ _ => rfl

theorem inlineIfcs_abs : ∀ bs : List InlineLevelBox,
    (inlineAbsBoxes bs).flatMap (·.2.ifcs) = inlineIfcs bs
  | [] => rfl
  | b :: bs => by
    simp only [inlineAbsBoxes, inlineIfcs, List.flatMap_append, b.ifcs_abs, inlineIfcs_abs bs]

end

mutual

theorem InlineLevelBox.flowOnly_abs : ∀ b : InlineLevelBox, b.flowOnly = true → b.absBoxes = []
  | .inlineBox _ _ _ ks, h => inlineFlowOnly_abs ks h
  | .textRun .., _ => rfl
  | .outOfFlowAbsolutelyPositionedBox _ _, h => by cases h
  | .outOfFlowFloatBox _ _, h => by cases h

theorem inlineFlowOnly_abs : ∀ bs : List InlineLevelBox, inlineFlowOnly bs = true →
    inlineAbsBoxes bs = []
  | [], _ => rfl
  | b :: bs, h => by
    simp only [inlineFlowOnly, Bool.and_eq_true] at h
    simp [inlineAbsBoxes, b.flowOnly_abs h.1, inlineFlowOnly_abs bs h.2]

end

theorem ifcLayout_covers {E : TextEnv} {st : Style} {boxes : List InlineLevelBox}
    {cb : ContainingBlock} {rank : Nat} {abs out : List AbsFragment} {fc : FlowChildren}
    (hs : inlineSound boxes) (h : ifcLayout E st boxes cb rank abs = .ok (fc, out)) :
    ∃ new, out = abs ++ new ∧
      Covers E fc.fragments new (boxes :: inlineIfcs boxes) (inlineFlowOnly boxes) := by
  obtain ⟨L, new, h1, h2, h3, h4⟩ := ifcLayout_good E st boxes cb rank hs
  rw [h2] at h
  cases h
  obtain ⟨p1, p2, p3⟩ := placeLines_rows E cb (st.val .textAlign) (E.font st) L 0
  refine ⟨new, rfl, fun a ha => (h3 a ha).2.1, [⟨boxes, cb.inlineSize, L⟩], ?_, ?_, p2, ?_, ?_⟩
  · intro j hj
    rw [List.mem_singleton] at hj
    subst hj
    exact ⟨h1, p3 h1.ne_nil⟩
  · rw [p1]
    simp [Job.rows]
  · have : waiting new = inlineIfcs boxes := by
      rw [← inlineIfcs_abs, ← h4]
      simp [waiting, List.flatMap_map, AbsFragment.box]
    rw [this]
    exact .refl _
  · intro hf
    have hn := inlineFlowOnly_abs boxes hf
    rw [hn] at h4
    refine ⟨by simpa using h4, ?_⟩
    simp [← inlineIfcs_abs, hn]

/-! ## Blocks -/

/-- layout of boxes shows their inline content -/
def BoxCovers (E : TextEnv) (boxL : BoxLayout) : Prop :=
  ∀ b cb rank abs fl f out, b.sound → boxL b cb rank abs fl = .ok (f, out) →
    ∃ new, out = abs ++ new ∧ Covers E [f] new b.ifcs b.flowOnly

/-- layout of absolutely positioned boxes shows their inline content -/
def AbsCovers (E : TextEnv) (absL : AbsLayout) : Prop :=
  ∀ a cb f, a.contents.sound → absL a cb = .ok f → Covers E [f] [] a.contents.ifcs false

theorem placeFragment_inked {st st' : PlacementState} {f f' : Fragment}
    (h : placeFragment st f = .ok (f', st')) :
    f'.inked = f.inked ∧ f'.rows = f.rows ∧ f'.lineWidths = f.lineWidths := by
  cases f with
  | text => cases h
  | anonymous r cs m =>
    simp only [placeFragment] at h
    split at h
    · cases h
    · split at h
      · cases h
      · cases h
        exact ⟨rfl, rfl, rfl⟩
  | box s g m cs =>
    simp only [placeFragment] at h
    split at h
    · split at h
      · cases h
      · split at h
        · cases h
          exact ⟨rfl, rfl, rfl⟩
        · cases h
          exact ⟨rfl, rfl, rfl⟩
    · split at h <;> cases h <;> exact ⟨rfl, rfl, rfl⟩

theorem placeAll_inked : ∀ (fs fs' : List Fragment) (st st' : PlacementState),
    placeAll st fs = .ok (fs', st') →
    inkedAll fs' = inkedAll fs ∧ rowsAll fs' = rowsAll fs ∧ lineWidthsAll fs' = lineWidthsAll fs
  | [], fs', st, st', h => by
    cases h
    exact ⟨rfl, rfl, rfl⟩
  | f :: fs, fs', st, st', h => by
    rw [placeAll] at h
    simp only [bind, Except.bind] at h
    split at h
    · cases h
    · rename_i r hr
      split at h
      · cases h
      · rename_i r' hr'
        cases h
        have a := placeFragment_inked hr
        have b := placeAll_inked fs _ _ _ hr'
        simp only [inkedAll, rowsAll, lineWidthsAll, a.1, a.2.1, a.2.2, b.1, b.2.1, b.2.2, and_self]

theorem layoutEach_covers {E : TextEnv} {boxL : BoxLayout} (hb : BoxCovers E boxL)
    {cb : ContainingBlock} : ∀ (bs : List BlockLevelBox) (rank : Nat) (abs out : List AbsFragment)
    (fs : List Fragment), blockSound bs → layoutEach boxL cb rank bs abs = .ok (fs, out) →
    ∃ new, out = abs ++ new ∧ Covers E fs new (blockIfcs bs) (blockFlowOnly bs)
  | [], _, _, _, _, _, h => by
    cases h
    exact ⟨[], by simp, .nil E _⟩
  | b :: bs, rank, abs, out, fs, hs, h => by
    rw [layoutEach] at h
    simp only [bind, Except.bind] at h
    split at h
    · cases h
    · rename_i r hr
      split at h
      · cases h
      · rename_i r' hr'
        cases h
        obtain ⟨n1, e1, c1⟩ := hb _ _ _ _ _ _ _ hs.1 hr
        obtain ⟨n2, e2, c2⟩ := layoutEach_covers hb bs _ _ _ _ hs.2 hr'
        exact ⟨n1 ++ n2, by rw [e2, e1, List.append_assoc], c1.append c2⟩

theorem layoutAndPlaceEach_covers {E : TextEnv} {boxL : BoxLayout} (hb : BoxCovers E boxL)
    {cb : ContainingBlock} : ∀ (bs : List BlockLevelBox) (rank : Nat) (abs out : List AbsFragment)
    (st st' : PlacementState) (fs : List Fragment), blockSound bs →
    layoutAndPlaceEach boxL cb rank bs abs st = .ok (fs, out, st') →
    ∃ new, out = abs ++ new ∧ Covers E fs new (blockIfcs bs) (blockFlowOnly bs)
  | [], _, _, _, _, _, _, _, h => by
    cases h
    exact ⟨[], by simp, .nil E _⟩
  | b :: bs, rank, abs, out, st, st', fs, hs, h => by
    rw [layoutAndPlaceEach] at h
    simp only [bind, Except.bind] at h
    split at h
    · cases h
    · rename_i r hr
      split at h
      · cases h
      · rename_i r' hr'
        split at h
        · cases h
        · rename_i r'' hr''
          cases h
          obtain ⟨n1, e1, c1⟩ := hb _ _ _ _ _ _ _ hs.1 hr
          obtain ⟨n2, e2, c2⟩ := layoutAndPlaceEach_covers hb bs _ _ _ _ _ _ hs.2 hr''
          have p := placeFragment_inked hr'
          have c1' : Covers E [r'.1] n1 b.ifcs b.flowOnly :=
            c1.congr (by simp [inkedAll, p.1]) (by simp [rowsAll, p.2.1])
              (by simp [lineWidthsAll, p.2.2]) rfl
          exact ⟨n1 ++ n2, by rw [e2, e1, List.append_assoc], c1'.append c2⟩

theorem adjustStatic_contents (children : List Fragment) (rank : Nat) :
    ∀ (as as' : List AbsFragment), adjustStaticPositions children rank as = .ok as' →
    as'.map AbsFragment.contents = as.map AbsFragment.contents
  | [], _, h => by
    cases h
    rfl
  | a :: as, as', h => by
    rw [adjustStaticPositions] at h
    simp only [bind, Except.bind] at h
    split at h
    · cases h
    · rename_i r hr
      split at h
      · cases h
      · rename_i r' hr'
        cases h
        have : r.contents = a.contents := by
          unfold adjustStaticPosition at hr
          split at hr <;> cases hr <;> rfl
        simp [this, adjustStatic_contents children rank as _ hr']

theorem containerLayout_covers {E : TextEnv} {boxL : BoxLayout} (hb : BoxCovers E boxL)
    {cb : ContainingBlock} {c : BlockContainer} {rank : Nat} {abs out : List AbsFragment}
    {floats collapsible : Bool} {fc : FlowChildren} (hs : c.sound)
    (h : containerLayout E boxL c cb rank abs floats collapsible = .ok (fc, out)) :
    ∃ new, out = abs ++ new ∧ Covers E fc.fragments new c.ifcs c.flowOnly := by
  cases c with
  | inlineFormattingContext st boxes => exact ifcLayout_covers hs h
  | blockLevelBoxes boxes =>
    change layoutBlockLevelChildren _ _ _ _ _ _ _ = _ at h
    unfold layoutBlockLevelChildren at h
    have key : ∀ (fs : List Fragment) (mid new : List AbsFragment), mid = abs ++ new →
        Covers E fs new (blockIfcs boxes) (blockFlowOnly boxes) → ∀ adj,
        adjustStaticPositions fs rank (mid.drop abs.length) = .ok adj →
        ∃ new, mid.take abs.length ++ adj = abs ++ new ∧
          Covers E fs new (blockIfcs boxes) (blockFlowOnly boxes) := by
      intro fs mid new e c adj ha
      subst e
      rw [List.drop_left] at ha
      rw [List.take_left]
      exact ⟨adj, rfl, c.congr rfl rfl rfl (adjustStatic_contents _ _ _ _ ha)⟩
    simp only [bind, Except.bind] at h
    cases floats with
    | true =>
      simp only [if_true] at h
      split at h
      · cases h
      · rename_i r hr
        split at h
        · cases h
        · rename_i adj ha
          cases h
          obtain ⟨new, e, c⟩ := layoutAndPlaceEach_covers hb _ _ _ _ _ _ _ hs hr
          exact key _ _ _ e c _ ha
    | false =>
      simp only [Bool.false_eq_true, if_false] at h
      split at h
      · cases h
      · rename_i r hr
        split at hr
        · cases hr
        · rename_i r1 hr1
          split at hr
          · cases hr
          · rename_i r2 hr2
            cases hr
            split at h
            · cases h
            · rename_i adj ha
              cases h
              obtain ⟨new, e, c⟩ := layoutEach_covers hb _ _ _ _ _ hs hr1
              have p := placeAll_inked _ _ _ _ hr2
              exact key _ _ _ e (c.congr p.1 p.2.1 p.2.2 rfl) _ ha

theorem Bfc.ifcs_contents (c : Bfc) : c.contents.ifcs = c.ifcs := by cases c; rfl

theorem Bfc.flowOnly_contents (c : Bfc) : c.contents.flowOnly = c.flowOnly := by cases c; rfl

theorem Bfc.sound_contents {c : Bfc} (h : c.sound) : c.contents.sound := by cases c; exact h

theorem bfcLayout_covers {E : TextEnv} {boxL : BoxLayout} (hb : BoxCovers E boxL)
    {cb : ContainingBlock} {c : Bfc} {rank : Nat} {abs out : List AbsFragment}
    {fc : FlowChildren} (hs : c.sound) (h : bfcLayout E boxL c cb rank abs = .ok (fc, out)) :
    ∃ new, out = abs ++ new ∧ Covers E fc.fragments new c.ifcs c.flowOnly := by
  unfold bfcLayout at h
  simp only [bind, Except.bind] at h
  split at h
  · cases h
  · rename_i r hr
    cases h
    have := containerLayout_covers (fc := r.1) hb (Bfc.sound_contents hs) hr
    rwa [Bfc.ifcs_contents, Bfc.flowOnly_contents] at this

theorem layoutAbsEach_covers {E : TextEnv} {absL : AbsLayout} (ha : AbsCovers E absL)
    {cb : DefiniteContainingBlock} : ∀ (as : List AbsFragment) (fs : List Fragment),
    (∀ a ∈ as, a.contents.sound) → layoutAbsEach absL cb as = .ok fs →
    Covers E fs [] (waiting as) false
  | [], _, _, h => by
    cases h
    exact .nil E _
  | a :: as, fs, hs, h => by
    rw [layoutAbsEach] at h
    simp only [bind, Except.bind] at h
    split at h
    · cases h
    · rename_i r hr
      split at h
      · cases h
      · rename_i r' hr'
        cases h
        have h1 := ha _ _ _ (hs a (by simp)) hr
        have h2 := layoutAbsEach_covers ha as _ (fun a h => hs a (by simp [h])) hr'
        have := h1.append h2
        simpa [waiting] using this

theorem inPositioned_covers {E : TextEnv} {absL : AbsLayout} (ha : AbsCovers E absL)
    {as : List AbsFragment} {fs fs' : List Fragment} {is : List (List InlineLevelBox)} {b : Bool}
    (hf : Covers E fs as is b) {size : Vec2 Length} {padding : Sides Length} {m : Mode}
    (h : inPositionedContainingBlock absL as fs size padding m = .ok fs') :
    Covers E fs' [] is b := by
  unfold inPositionedContainingBlock at h
  split at h
  · rename_i h0
    cases h
    rw [List.isEmpty_iff] at h0
    subst h0
    exact hf
  · rename_i h0
    simp only [bind, Except.bind] at h
    split at h
    · cases h
    · rename_i r hr
      cases h
      have hw := (layoutAbsEach_covers ha _ _ hf.1 hr).wrap ((Rect.mk Vec2.zero size).inflate padding) m
      obtain ⟨s, J, a1, a2, a3, a4, a5⟩ := hf
      obtain ⟨_, J', b1, b2, b3, b4, _⟩ := hw
      refine ⟨by simp, J ++ J', ?_, ?_, ?_, ?_, ?_⟩
      · intro j hj
        rw [lineWidthsAll_append]
        rcases List.mem_append.1 hj with hj | hj
        · exact ⟨(a1 j hj).1, List.mem_append_left _ (a1 j hj).2⟩
        · exact ⟨(b1 j hj).1, List.mem_append_right _ (b1 j hj).2⟩
      · rw [rowsAll_append, a2, b2, List.flatMap_append]
      · rw [inkedAll_append, rowsAll_append, a3, b3, List.flatten_append]
      · simp only [waiting, List.flatMap_nil, List.append_nil, List.map_append] at b4 ⊢
        exact (List.Perm.append_left _ b4).trans a4
      · intro hb
        rw [(a5 hb).1] at h0
        simp at h0

theorem layoutInFlow_covers {E : TextEnv} {absL : AbsLayout} (ha : AbsCovers E absL)
    {cb : ContainingBlock} {abs : List AbsFragment} {style : Style} {kind : BlockLevelKind}
    {contents : ContainingBlock → List AbsFragment → Bool → Except Panic (FlowChildren × List AbsFragment)}
    {is : List (List InlineLevelBox)} {b : Bool}
    (hc : ∀ cb abs c fc out, contents cb abs c = .ok (fc, out) →
      ∃ new, out = abs ++ new ∧ Covers E fc.fragments new is b) {f : Fragment}
    {out : List AbsFragment} (h : layoutInFlow absL cb abs style kind contents = .ok (f, out)) :
    ∃ new, out = abs ++ new ∧ Covers E [f] new is b := by
  unfold layoutInFlow at h
  simp only [bind, Except.bind] at h
  split at h
  · cases h
  · split at h
    · cases h
    · rename_i r hr
      obtain ⟨new, e, c⟩ := hc _ _ _ _ _ hr
      split at h
      · cases h
      · rename_i r' hr'
        cases h
        split at hr'
        · rename_i hrel
          rw [if_pos hrel] at e
          rw [if_pos hrel]
          rw [List.nil_append] at e
          subst e
          exact ⟨[], by simp, (inPositioned_covers ha c hr').box _ _ _⟩
        · rename_i hrel
          rw [if_neg hrel] at e
          rw [if_neg hrel]
          cases hr'
          exact ⟨new, e, c.box _ _ _⟩

theorem noOp_covers (E : TextEnv) (m : Mode) (new : List AbsFragment)
    (hs : ∀ a ∈ new, a.contents.sound) :
    Covers E [Fragment.noOp m] new (waiting new) false :=
  ⟨hs, [], by simp, rfl, rfl, .refl _, by simp⟩

theorem boxLayoutWith_covers {E : TextEnv} {boxL : BoxLayout} {absL : AbsLayout}
    (hb : BoxCovers E boxL) (ha : AbsCovers E absL) : BoxCovers E (boxLayoutWith E boxL absL) := by
  intro b cb rank abs fl f out hs h
  cases b with
  | sameFormattingContextBlock st c =>
    exact layoutInFlow_covers ha (fun _ _ _ _ _ h => containerLayout_covers hb hs h) h
  | independent st c => exact layoutInFlow_covers ha (fun _ _ _ _ _ h => bfcLayout_covers hb hs h) h
  | outOfFlowAbsolutelyPositionedBox st c =>
    cases h
    refine ⟨_, rfl, ?_⟩
    have := noOp_covers E cb.mode [layoutAbsBox st c Vec2.zero rank] (by
      intro a ha
      rw [List.mem_singleton] at ha
      subst ha
      exact hs)
    simpa [waiting, layoutAbsBox, BlockLevelBox.ifcs, BlockLevelBox.flowOnly] using this
  | outOfFlowFloatBox st c =>
    cases h
    exact ⟨[], by simp, noOp_covers E cb.mode [] (by simp)⟩

theorem absLayoutWith_covers {E : TextEnv} {boxL : BoxLayout} {absL : AbsLayout}
    (hb : BoxCovers E boxL) (ha : AbsCovers E absL) : AbsCovers E (absLayoutWith E boxL absL) := by
  intro a cb f hs h
  unfold absLayoutWith at h
  simp only [bind, Except.bind] at h
  split at h
  · cases h
  · split at h
    · cases h
    · rename_i r hr
      obtain ⟨new, e, c⟩ := bfcLayout_covers (cb := ⟨_, _, _⟩) hb hs hr
      rw [List.nil_append] at e
      subst e
      split at h
      · cases h
      · rename_i r' hr'
        cases h
        exact ((inPositioned_covers ha c hr').box _ _ _).flow_false

theorem layout_covers (E : TextEnv) : ∀ n, BoxCovers E (boxLayout E n) ∧ AbsCovers E (absLayout E n)
  | 0 => ⟨fun _ _ _ _ _ _ _ _ h => (by cases h), fun _ _ _ _ h => (by cases h)⟩
  | n + 1 => ⟨boxLayoutWith_covers (layout_covers E n).1 (layout_covers E n).2,
      absLayoutWith_covers (layout_covers E n).1 (layout_covers E n).2⟩

/-- the fragments of a page show the inline content of its boxes -/
theorem rootLayout_covers {E : TextEnv} {root : Bfc} {viewport : PVec2 Length} {fs : List Fragment}
    (hs : root.sound) (h : rootLayout E root viewport = .ok fs) :
    Covers E fs [] root.ifcs root.flowOnly := by
  unfold rootLayout rootLayoutWith at h
  simp only [bind, Except.bind] at h
  split at h
  · cases h
  · rename_i r hr
    split at h
    · cases h
    · rename_i r' hr'
      cases h
      obtain ⟨new, e, c⟩ := bfcLayout_covers (layout_covers E _).1 hs hr
      rw [List.nil_append] at e
      rw [e] at hr'
      have c2 := layoutAbsEach_covers (layout_covers E _).2 _ _ c.1 hr'
      obtain ⟨_, J, a1, a2, a3, a4, a5⟩ := c
      obtain ⟨_, J', b1, b2, b3, b4, _⟩ := c2
      refine ⟨by simp, J ++ J', ?_, ?_, ?_, ?_, ?_⟩
      · intro j hj
        rw [lineWidthsAll_append]
        rcases List.mem_append.1 hj with hj | hj
        · exact ⟨(a1 j hj).1, List.mem_append_left _ (a1 j hj).2⟩
        · exact ⟨(b1 j hj).1, List.mem_append_right _ (b1 j hj).2⟩
      · rw [rowsAll_append, a2, b2, List.flatMap_append]
      · rw [inkedAll_append, rowsAll_append, a3, b3, List.flatten_append]
      · simp only [waiting, List.flatMap_nil, List.append_nil, List.map_append] at b4 ⊢
        exact (List.Perm.append_left _ b4).trans a4
      · intro hb
        refine ⟨rfl, ?_⟩
        have h0 := (a5 hb).1
        subst h0
        have : J' = [] := by
          have := b4.length_eq
          simp [waiting] at this
          exact this
        simp [this, (a5 hb).2]

end Sinab
