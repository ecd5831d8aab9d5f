import Verif.Lemmas.DecorBoxes
import Verif.Lemmas.Read
import Mathlib.Algebra.Order.Group.Multiset
import Mathlib.Tactic.Abel

/-! The boxes that are laid out are those of the box tree. -/

namespace Sinab

mutual

/-- the boxes of a fragment with their border widths -/
def Fragment.frames : Fragment → List (Style × Part)
  | .box st g _ cs => (st, g.edge) :: framesAll cs
  | .anonymous _ cs _ => framesAll cs
  | .text .. => []

/-- see `Fragment.frames` -/
def framesAll : List Fragment → List (Style × Part)
  | [] => []
  | f :: fs => f.frames ++ framesAll fs

end

theorem framesAll_append (a b : List Fragment) : framesAll (a ++ b) = framesAll a ++ framesAll b := by
  induction a with
  | nil => rfl
  | cons f a ih => simp [framesAll, ih]

/-! ## Lines -/

mutual

/-- the box parts of an item of a line -/
def Item.frames (w : ℚ) : Item → List (Style × Part)
  | .text .. => []
  | .box st _ s e is => (st, (st.wholePart w).cut s e) :: itemsFrames w is

/-- the box parts of items -/
def itemsFrames (w : ℚ) : List Item → List (Style × Part)
  | [] => []
  | i :: is => i.frames w ++ itemsFrames w is

end

theorem itemsFrames_append (w : ℚ) (a b : List Item) :
    itemsFrames w (a ++ b) = itemsFrames w a ++ itemsFrames w b := by
  induction a with
  | nil => rfl
  | cons f a ih => simp [itemsFrames, ih]

theorem amount_eq (w : ℚ) (v : LengthOrPercentage) : v.percentageRelativeTo w = v.amount w := by
  cases v
  · rfl
  · exact mul_comm _ _

theorem edge_whole {g : BoxGeom} {st : Style} {w : ℚ}
    (h : g.border = st.borderWidth.percentagesRelativeTo w) : g.edge = st.wholePart w := by
  funext s
  cases s <;> simp only [BoxGeom.edge, h] <;> exact amount_eq w _

theorem edge_cut {g : BoxGeom} {st : Style} {w : ℚ} {s e : Bool}
    (h : g.border = cutSides s e (st.borderWidth.percentagesRelativeTo w)) :
    g.edge = (st.wholePart w).cut s e := by
  funext x
  cases x <;> simp only [BoxGeom.edge, h, cutSides, Part.cut]
  · exact amount_eq w _
  · cases e
    · rfl
    · exact amount_eq w _
  · exact amount_eq w _
  · cases s
    · rfl
    · exact amount_eq w _

mutual

theorem Item.place_frames (E : TextEnv) (cb : ContainingBlock) : ∀ (i : Item) (p : Font) (o x : ℚ),
    framesAll (i.place E cb p o x) = i.frames cb.inlineSize
  | .text st f t nl, p, o, x => by
    simp only [Item.place, Item.frames]
    split <;> rfl
  | .box st a b c is, p, o, x => by
    simp only [Item.place, Item.frames, framesAll, Fragment.frames, List.append_nil]
    rw [place_frames E cb is, edge_cut rfl]

theorem place_frames (E : TextEnv) (cb : ContainingBlock) : ∀ (is : List Item) (p : Font) (o x : ℚ),
    framesAll (place E cb is p o x) = itemsFrames cb.inlineSize is
  | [], _, _, _ => rfl
  | i :: is, p, o, x => by
    simp only [place, itemsFrames, framesAll_append, i.place_frames E cb, place_frames E cb is]

end

theorem translate_frames (d : Length) (fs : List Fragment) :
    framesAll (fs.map (Fragment.translateBlock d)) = framesAll fs := by
  induction fs with
  | nil => rfl
  | cons f fs ih =>
    simp only [List.map_cons, framesAll, ih]
    cases f <;> rfl

theorem placeLines_frames (E : TextEnv) (cb : ContainingBlock) (al : TextAlign) (root : Font) :
    ∀ (L : List Line) (y : ℚ),
    framesAll (placeLines E cb al root y L) = L.flatMap (itemsFrames cb.inlineSize)
  | [], _ => rfl
  | l :: L, y => by
    simp only [placeLines, framesAll, Fragment.frames, translate_frames, place_frames,
      placeLines_frames E cb al root L, List.flatMap_cons]

theorem joinLines_frames (w : ℚ) : ∀ A B : List Line, (joinLines A B).flatMap (itemsFrames w) =
    A.flatMap (itemsFrames w) ++ B.flatMap (itemsFrames w)
  | [], B => by simp [joinLines]
  | [a], [] => by simp [joinLines]
  | [a], b :: B => by simp [joinLines, itemsFrames_append]
  | a :: a' :: A, B => by simp [joinLines, joinLines_frames w (a' :: A) B]

/-- the parts of a box on a number of lines -/
def cuts (p : Part) (s e : Bool) : Nat → List Part
  | 0 => []
  | 1 => [p.cut s e]
  | n + 2 => p.cut s false :: cuts p false e (n + 1)

theorem decorate_frames (st : Style) (w : ℚ) : ∀ (L : List Line) (a s e : Bool),
    (((decorate st a s e L).flatMap (itemsFrames w) : List _) : Multiset (Style × Part)) =
      ((cuts (st.wholePart w) s e L.length).map (st, ·) : List _) +
        ((L.flatMap (itemsFrames w) : List _) : Multiset (Style × Part))
  | [], _, _, _ => rfl
  | [l], _, _, _ => by simp [decorate, itemsFrames, Item.frames, cuts]
  | l :: l' :: L, a, s, e => by
    have ih := decorate_frames st w (l' :: L) false false e
    simp only [decorate, List.flatMap_cons, itemsFrames, Item.frames, List.append_nil,
      List.length_cons, cuts, List.map_cons, ← Multiset.coe_add, ← Multiset.cons_coe,
      ← Multiset.singleton_add] at ih ⊢
    rw [ih]
    abel

theorem cuts_last (p : Part) : ∀ n, cuts p false true (n + 1) =
    List.replicate n (p.cut false false) ++ [p.cut false true]
  | 0 => rfl
  | n + 1 => by
    rw [cuts, cuts_last p n]
    rfl

theorem cut_whole (p : Part) : p.cut true true = p := by
  funext s
  cases s <;> rfl

theorem cuts_parts (st : Style) (w : ℚ) : ∀ n, n ≠ 0 →
    PartsOf (st, .inline) (cuts (st.wholePart w) true true n)
  | 0, h => absurd rfl h
  | 1, _ => by
    rw [cuts, cut_whole]
    exact .whole (st, .inline) w
  | n + 2, _ => by
    rw [cuts, cuts_last]
    exact .broken st w n

/-! ## Boxes and their parts -/

/-- the parts of a box, each with the style of the box -/
def partFrames (j : Boxed × List Part) : List (Style × Part) := j.2.map (j.1.1, ·)

/-- the box parts are those of these boxes, and anonymous ones -/
def Shown (fs : Multiset (Style × Part)) (bx : Multiset Boxed) : Prop :=
  ∃ jobs : List (Boxed × List Part), (∀ j ∈ jobs, PartsOf j.1 j.2) ∧
    ∃ anon : List (Style × Part), (∀ a ∈ anon, ∃ p, a.1 = Style.anonymousInheritingFrom p) ∧
    fs = (jobs.flatMap partFrames : List _) + (anon : Multiset (Style × Part)) ∧
    ((jobs.map Prod.fst : List _) : Multiset Boxed) = bx

theorem Shown.zero : Shown 0 0 := ⟨[], by simp, [], by simp, rfl, rfl⟩

theorem Shown.add {a b : Multiset (Style × Part)} {x y : Multiset Boxed} (h : Shown a x)
    (h' : Shown b y) : Shown (a + b) (x + y) := by
  obtain ⟨J, h1, A, h2, rfl, rfl⟩ := h
  obtain ⟨J', h1', A', h2', rfl, rfl⟩ := h'
  refine ⟨J ++ J', ?_, A ++ A', ?_, ?_, ?_⟩
  · intro j hj
    rcases List.mem_append.1 hj with hj | hj
    · exact h1 j hj
    · exact h1' j hj
  · intro j hj
    rcases List.mem_append.1 hj with hj | hj
    · exact h2 j hj
    · exact h2' j hj
  · simp only [List.flatMap_append, ← Multiset.coe_add]
    abel
  · simp only [List.map_append, ← Multiset.coe_add]

theorem Shown.parts {b : Boxed} {ps : List Part} (h : PartsOf b ps) :
    Shown (ps.map (b.1, ·) : List _) {b} := by
  refine ⟨[(b, ps)], by simpa using h, [], by simp, ?_, ?_⟩
  · simp [partFrames]
  · simp

theorem Shown.whole (st : Style) (o : DisplayOutside) (w : ℚ) :
    Shown {(st, st.wholePart w)} {(st, o)} := .parts (.whole (st, o) w)

theorem Shown.anon (p : Option Style) (b : Part) : Shown {(Style.anonymousInheritingFrom p, b)} 0 :=
  ⟨[], by simp, [(Style.anonymousInheritingFrom p, b)], by simp, by simp, rfl⟩

mutual

/-- boxes in lines, without those taken out of the flow -/
def InlineLevelBox.onLines : InlineLevelBox → List Boxed
  | .inlineBox st _ _ ks => (st, .inline) :: inlineOnLines ks
  | .textRun .. | .outOfFlowAbsolutelyPositionedBox _ _ | .outOfFlowFloatBox _ _ => []

/-- see `InlineLevelBox.onLines` -/
def inlineOnLines : List InlineLevelBox → List Boxed
  | [] => []
  | b :: bs => b.onLines ++ inlineOnLines bs

end

/-- the boxes of an absolutely positioned box -/
def absBoxed (a : Style × Bfc) : List Boxed := (a.1, .block) :: a.2.boxed

mutual

theorem InlineLevelBox.boxed_split : ∀ b : InlineLevelBox, (b.boxed : Multiset Boxed) =
    b.onLines + ((b.absBoxes.flatMap absBoxed : List _) : Multiset Boxed)
  | .inlineBox st _ _ ks => by
    simp only [InlineLevelBox.boxed, InlineLevelBox.onLines, InlineLevelBox.absBoxes,
      ← Multiset.cons_coe, inlineBoxed_split ks, Multiset.cons_add]
  | .textRun .. => by simp [InlineLevelBox.boxed, InlineLevelBox.onLines, InlineLevelBox.absBoxes]
  | .outOfFlowAbsolutelyPositionedBox _ c => by
    simp [InlineLevelBox.boxed, InlineLevelBox.onLines, InlineLevelBox.absBoxes, absBoxed]
  | .outOfFlowFloatBox _ _ => by
    simp [InlineLevelBox.boxed, InlineLevelBox.onLines, InlineLevelBox.absBoxes]

theorem inlineBoxed_split : ∀ bs : List InlineLevelBox, (inlineBoxed bs : Multiset Boxed) =
    inlineOnLines bs + (((inlineAbsBoxes bs).flatMap absBoxed : List _) : Multiset Boxed)
  | [] => rfl
  | b :: bs => by
    simp only [inlineBoxed, inlineOnLines, inlineAbsBoxes, List.flatMap_append, ← Multiset.coe_add,
      b.boxed_split, inlineBoxed_split bs]
    abel

end

theorem laysOut_shown {E : TextEnv} {w x : ℚ} {bs : List InlineLevelBox} {L : List Line}
    (h : LaysOut E w x bs L) (ht : inlineTidy bs) :
    Shown (L.flatMap (itemsFrames w) : List _) (inlineOnLines bs) := by
  induction h with
  | nil => exact .zero
  | @text x st t font bs pieces L h _ ih =>
    rw [joinLines_frames]
    have h0 : (pieces.map fun p => [Item.text st font p.1 p.2]).flatMap (itemsFrames w) = [] := by
      simp [List.flatMap_map, itemsFrames, Item.frames]
    rw [h0]
    exact ih ht.2
  | @box x st first last children bs L1 L2 h1 _ ih1 ih2 =>
    obtain ⟨⟨rfl, rfl, hk⟩, hb⟩ := ht
    rw [joinLines_frames, ← Multiset.coe_add, decorate_frames]
    have hp := Shown.parts (cuts_parts st w L1.length (by
      have := h1.ne_nil
      simpa using this))
    have := (hp.add (ih1 hk)).add (ih2 hb)
    simp only [inlineOnLines, InlineLevelBox.onLines, ← Multiset.coe_add, ← Multiset.cons_coe,
      ← Multiset.singleton_add]
    exact this
  | abs _ ih => exact ih ht.2
  | float _ ih => exact ih ht.2

/-! ## Boxes that wait -/

/-- boxes that wait for their containing block -/
def waitingBoxed (new : List AbsFragment) : List Boxed := new.flatMap fun a => absBoxed a.box

/-- contents that can be laid out -/
def Bfc.Neat (c : Bfc) : Prop := c.sound ∧ c.tidy

mutual

theorem InlineLevelBox.abs_tidy : ∀ b : InlineLevelBox, b.tidy → ∀ a ∈ b.absBoxes, a.2.tidy
  | .inlineBox _ _ _ ks, h => inlineAbs_tidy ks h.2.2
  | .textRun .., _ => by simp [InlineLevelBox.absBoxes]
  | .outOfFlowAbsolutelyPositionedBox _ c, h => by
    intro a ha
    rw [InlineLevelBox.absBoxes, List.mem_singleton] at ha
    subst ha
    exact h
  | .outOfFlowFloatBox _ _, _ => by simp [InlineLevelBox.absBoxes]

theorem inlineAbs_tidy : ∀ bs : List InlineLevelBox, inlineTidy bs → ∀ a ∈ inlineAbsBoxes bs, a.2.tidy
  | [], _ => by simp [inlineAbsBoxes]
  | b :: bs, h => by
    intro a ha
    rcases List.mem_append.1 ha with ha | ha
    · exact b.abs_tidy h.1 a ha
    · exact inlineAbs_tidy bs h.2 a ha

end

/-- the fragments show these boxes, except those that wait -/
def Draws (fs : List Fragment) (new : List AbsFragment) (bx : List Boxed) : Prop :=
  (∀ a ∈ new, a.contents.Neat) ∧
  ∃ now : Multiset Boxed, Shown (framesAll fs) now ∧ now + waitingBoxed new = bx

theorem Draws.nil : Draws [] [] [] := ⟨by simp, 0, .zero, rfl⟩

theorem Draws.append {fs gs : List Fragment} {new new' : List AbsFragment} {x y : List Boxed}
    (h : Draws fs new x) (h' : Draws gs new' y) : Draws (fs ++ gs) (new ++ new') (x ++ y) := by
  obtain ⟨a1, n, a2, a3⟩ := h
  obtain ⟨b1, n', b2, b3⟩ := h'
  refine ⟨fun a ha => ?_, n + n', ?_, ?_⟩
  · rcases List.mem_append.1 ha with ha | ha
    · exact a1 a ha
    · exact b1 a ha
  · rw [framesAll_append, ← Multiset.coe_add]
    exact a2.add b2
  · rw [← Multiset.coe_add, ← a3, ← b3]
    simp only [waitingBoxed, List.flatMap_append, ← Multiset.coe_add]
    abel

theorem Draws.congr {fs gs : List Fragment} {new new' : List AbsFragment} {x : List Boxed}
    (h : Draws fs new x) (h1 : framesAll gs = framesAll fs)
    (h4 : new'.map AbsFragment.box = new.map AbsFragment.box) : Draws gs new' x := by
  obtain ⟨a1, n, a2, a3⟩ := h
  refine ⟨fun a ha => ?_, n, h1 ▸ a2, ?_⟩
  · have : a.box ∈ new.map AbsFragment.box := h4 ▸ List.mem_map_of_mem ha
    obtain ⟨a', ha', he⟩ := List.mem_map.1 this
    have : a'.contents = a.contents := congrArg Prod.snd he
    rw [← this]
    exact a1 a' ha'
  · have : ∀ l : List AbsFragment, waitingBoxed l = (l.map AbsFragment.box).flatMap absBoxed := by
      intro l; simp [waitingBoxed, List.flatMap_map]
    rw [this, h4, ← this, a3]

theorem Draws.wrap {fs : List Fragment} {new : List AbsFragment} {x : List Boxed}
    (h : Draws fs new x) (r : Rect Length) (m : Mode) : Draws [.anonymous r fs m] new x :=
  h.congr (by simp [framesAll, Fragment.frames]) rfl

theorem Draws.box {fs : List Fragment} {new : List AbsFragment} {x : List Boxed}
    (h : Draws fs new x) {st : Style} {g : BoxGeom} {w : ℚ} (hg : g.edge = st.wholePart w)
    (m : CollapsedBlockMargins) : Draws [.box st g m fs] new ((st, .block) :: x) := by
  obtain ⟨a1, n, a2, a3⟩ := h
  refine ⟨a1, {(st, .block)} + n, ?_, ?_⟩
  · simp only [framesAll, Fragment.frames, List.append_nil, ← Multiset.cons_coe,
      ← Multiset.singleton_add, hg]
    exact (Shown.whole st .block w).add a2
  · rw [← Multiset.cons_coe, ← Multiset.singleton_add, ← a3]
    abel

theorem Draws.anon {fs : List Fragment} {new : List AbsFragment} {x : List Boxed}
    (h : Draws fs new x) (p : Option Style) (g : BoxGeom) (m : CollapsedBlockMargins) :
    Draws [.box (Style.anonymousInheritingFrom p) g m fs] new x := by
  obtain ⟨a1, n, a2, a3⟩ := h
  refine ⟨a1, n, ?_, a3⟩
  simp only [framesAll, Fragment.frames, List.append_nil, ← Multiset.cons_coe,
    ← Multiset.singleton_add]
  have := (Shown.anon p g.edge).add a2
  rwa [zero_add] at this

theorem Draws.settle {fs gs : List Fragment} {new : List AbsFragment} {x : List Boxed}
    (h : Draws fs new x) (h' : Draws gs [] (waitingBoxed new)) : Draws (fs ++ gs) [] x := by
  obtain ⟨a1, n, a2, a3⟩ := h
  obtain ⟨-, n', b2, b3⟩ := h'
  refine ⟨by simp, n + n', ?_, ?_⟩
  · rw [framesAll_append, ← Multiset.coe_add]
    exact a2.add b2
  · rw [← a3, ← b3, add_assoc]

theorem ifcLayout_draws {E : TextEnv} {st : Style} {boxes : List InlineLevelBox}
    {cb : ContainingBlock} {rank : Nat} {abs out : List AbsFragment} {fc : FlowChildren}
    (hs : inlineSound boxes) (ht : inlineTidy boxes)
    (h : ifcLayout E st boxes cb rank abs = .ok (fc, out)) :
    ∃ new, out = abs ++ new ∧ Draws fc.fragments new (inlineBoxed boxes) := by
  obtain ⟨L, new, h1, h2, h3, h4⟩ := ifcLayout_good E st boxes cb rank hs
  rw [h2] at h
  cases h
  refine ⟨new, rfl, fun a ha => ⟨(h3 a ha).2.1, ?_⟩, inlineOnLines boxes, ?_, ?_⟩
  · have : a.box ∈ inlineAbsBoxes boxes := h4 ▸ List.mem_map_of_mem ha
    exact inlineAbs_tidy boxes ht _ this
  · simp only
    rw [placeLines_frames]
    exact laysOut_shown h1 ht
  · rw [inlineBoxed_split, ← h4]
    simp [waitingBoxed, List.flatMap_map]

/-! ## Blocks -/

/-- layout shows boxes -/
def BoxDraws (boxL : BoxLayout) : Prop :=
  ∀ b cb rank abs fl f out, b.sound → b.tidy → boxL b cb rank abs fl = .ok (f, out) →
    ∃ new, out = abs ++ new ∧ Draws [f] new b.boxed

/-- layout shows absolutely positioned boxes -/
def AbsDraws (absL : AbsLayout) : Prop :=
  ∀ a cb f, a.contents.Neat → absL a cb = .ok f → Draws [f] [] (absBoxed a.box)

theorem placeFragment_frames {st st' : PlacementState} {f f' : Fragment}
    (h : placeFragment st f = .ok (f', st')) : f'.frames = f.frames := by
  cases f with
  | text => cases h
  | anonymous r cs m =>
    simp only [placeFragment] at h
    split at h
    · cases h
    · split at h
      · cases h
      · cases h
        rfl
  | box s g m cs =>
    simp only [placeFragment] at h
    split at h
    · split at h
      · cases h
      · split at h
        · cases h
          rfl
        · cases h
          rfl
    · split at h <;> cases h <;> rfl

theorem placeAll_frames : ∀ (fs fs' : List Fragment) (st st' : PlacementState),
    placeAll st fs = .ok (fs', st') → framesAll fs' = framesAll fs
  | [], fs', st, st', h => by
    cases h
    rfl
  | f :: fs, fs', st, st', h => by
    rw [placeAll] at h
    simp only [bind, Except.bind] at h
    split at h
    · cases h
    · rename_i r hr
      split at h
      · cases h
      · rename_i r' hr'
        cases h
        simp only [framesAll, placeFragment_frames hr, placeAll_frames fs _ _ _ hr']

theorem adjustStatic_box (children : List Fragment) (rank : Nat) :
    ∀ (as as' : List AbsFragment), adjustStaticPositions children rank as = .ok as' →
    as'.map AbsFragment.box = as.map AbsFragment.box
  | [], _, h => by
    cases h
    rfl
  | a :: as, as', h => by
    rw [adjustStaticPositions] at h
    simp only [bind, Except.bind] at h
    split at h
    · cases h
    · rename_i r hr
      split at h
      · cases h
      · rename_i r' hr'
        cases h
        have : r.box = a.box := by
          unfold adjustStaticPosition at hr
          split at hr <;> cases hr <;> rfl
        simp [this, adjustStatic_box children rank as _ hr']

theorem layoutEach_draws {boxL : BoxLayout} (hb : BoxDraws boxL)
    {cb : ContainingBlock} : ∀ (bs : List BlockLevelBox) (rank : Nat) (abs out : List AbsFragment)
    (fs : List Fragment), blockSound bs → blockTidy bs →
    layoutEach boxL cb rank bs abs = .ok (fs, out) →
    ∃ new, out = abs ++ new ∧ Draws fs new (blockBoxed bs)
  | [], _, _, _, _, _, _, h => by
    cases h
    exact ⟨[], by simp, .nil⟩
  | b :: bs, rank, abs, out, fs, hs, hp, h => by
    rw [layoutEach] at h
    simp only [bind, Except.bind] at h
    split at h
    · cases h
    · rename_i r hr
      split at h
      · cases h
      · rename_i r' hr'
        cases h
        obtain ⟨n1, e1, c1⟩ := hb _ _ _ _ _ _ _ hs.1 hp.1 hr
        obtain ⟨n2, e2, c2⟩ := layoutEach_draws hb bs _ _ _ _ hs.2 hp.2 hr'
        exact ⟨n1 ++ n2, by rw [e2, e1, List.append_assoc], c1.append c2⟩

theorem layoutAndPlaceEach_draws {boxL : BoxLayout} (hb : BoxDraws boxL)
    {cb : ContainingBlock} : ∀ (bs : List BlockLevelBox) (rank : Nat) (abs out : List AbsFragment)
    (st st' : PlacementState) (fs : List Fragment), blockSound bs → blockTidy bs →
    layoutAndPlaceEach boxL cb rank bs abs st = .ok (fs, out, st') →
    ∃ new, out = abs ++ new ∧ Draws fs new (blockBoxed bs)
  | [], _, _, _, _, _, _, _, _, h => by
    cases h
    exact ⟨[], by simp, .nil⟩
  | b :: bs, rank, abs, out, st, st', fs, hs, hp, h => by
    rw [layoutAndPlaceEach] at h
    simp only [bind, Except.bind] at h
    split at h
    · cases h
    · rename_i r hr
      split at h
      · cases h
      · rename_i r' hr'
        split at h
        · cases h
        · rename_i r'' hr''
          cases h
          obtain ⟨n1, e1, c1⟩ := hb _ _ _ _ _ _ _ hs.1 hp.1 hr
          obtain ⟨n2, e2, c2⟩ := layoutAndPlaceEach_draws hb bs _ _ _ _ _ _ hs.2 hp.2 hr''
          have c1' : Draws [r'.1] n1 b.boxed :=
            c1.congr (by simp [framesAll, placeFragment_frames hr']) rfl
          exact ⟨n1 ++ n2, by rw [e2, e1, List.append_assoc], c1'.append c2⟩

theorem containerLayout_draws {E : TextEnv} {boxL : BoxLayout} (hb : BoxDraws boxL)
    {cb : ContainingBlock} {c : BlockContainer} {rank : Nat} {abs out : List AbsFragment}
    {floats collapsible : Bool} {fc : FlowChildren} (hs : c.sound) (hp : c.tidy)
    (h : containerLayout E boxL c cb rank abs floats collapsible = .ok (fc, out)) :
    ∃ new, out = abs ++ new ∧ Draws fc.fragments new c.boxed := by
  cases c with
  | inlineFormattingContext st boxes => exact ifcLayout_draws hs hp h
  | blockLevelBoxes boxes =>
    change layoutBlockLevelChildren _ _ _ _ _ _ _ = _ at h
    unfold layoutBlockLevelChildren at h
    have key : ∀ (fs : List Fragment) (mid new : List AbsFragment), mid = abs ++ new →
        Draws fs new (blockBoxed boxes) → ∀ adj,
        adjustStaticPositions fs rank (mid.drop abs.length) = .ok adj →
        ∃ new, mid.take abs.length ++ adj = abs ++ new ∧ Draws fs new (blockBoxed boxes) := by
      intro fs mid new e c adj ha
      subst e
      rw [List.drop_left] at ha
      rw [List.take_left]
      exact ⟨adj, rfl, c.congr rfl (adjustStatic_box _ _ _ _ ha)⟩
    simp only [bind, Except.bind] at h
    cases floats with
    | true =>
      simp only [if_true] at h
      split at h
      · cases h
      · rename_i r hr
        split at h
        · cases h
        · rename_i adj ha
          cases h
          obtain ⟨new, e, c⟩ := layoutAndPlaceEach_draws hb _ _ _ _ _ _ _ hs hp hr
          exact key _ _ _ e c _ ha
    | false =>
      simp only [Bool.false_eq_true, if_false] at h
      split at h
      · cases h
      · rename_i r hr
        split at hr
        · cases hr
        · rename_i r1 hr1
          split at hr
          · cases hr
          · rename_i r2 hr2
            cases hr
            split at h
            · cases h
            · rename_i adj ha
              cases h
              obtain ⟨new, e, c⟩ := layoutEach_draws hb _ _ _ _ _ hs hp hr1
              exact key _ _ _ e (c.congr (placeAll_frames _ _ _ _ hr2) rfl) _ ha

theorem bfcLayout_draws {E : TextEnv} {boxL : BoxLayout} (hb : BoxDraws boxL)
    {cb : ContainingBlock} {c : Bfc} {rank : Nat} {abs out : List AbsFragment}
    {fc : FlowChildren} (hs : c.Neat) (h : bfcLayout E boxL c cb rank abs = .ok (fc, out)) :
    ∃ new, out = abs ++ new ∧ Draws fc.fragments new c.boxed := by
  unfold bfcLayout at h
  simp only [bind, Except.bind] at h
  split at h
  · cases h
  · rename_i r hr
    cases h
    cases c with
    | mk c fl => exact containerLayout_draws (fc := r.1) hb hs.1 hs.2 hr

theorem layoutAbsEach_draws {absL : AbsLayout} (ha : AbsDraws absL)
    {cb : DefiniteContainingBlock} : ∀ (as : List AbsFragment) (fs : List Fragment),
    (∀ a ∈ as, a.contents.Neat) → layoutAbsEach absL cb as = .ok fs →
    Draws fs [] (waitingBoxed as)
  | [], _, _, h => by
    cases h
    exact .nil
  | a :: as, fs, hs, h => by
    rw [layoutAbsEach] at h
    simp only [bind, Except.bind] at h
    split at h
    · cases h
    · rename_i r hr
      split at h
      · cases h
      · rename_i r' hr'
        cases h
        exact (ha _ _ _ (hs a (by simp)) hr).append
          (layoutAbsEach_draws ha as _ (fun a h => hs a (by simp [h])) hr')

theorem inPositioned_draws {absL : AbsLayout} (ha : AbsDraws absL)
    {as : List AbsFragment} {fs fs' : List Fragment} {x : List Boxed} (hf : Draws fs as x)
    {size : Vec2 Length} {padding : Sides Length} {m : Mode}
    (h : inPositionedContainingBlock absL as fs size padding m = .ok fs') : Draws fs' [] x := by
  unfold inPositionedContainingBlock at h
  split at h
  · rename_i h0
    cases h
    rw [List.isEmpty_iff] at h0
    subst h0
    exact hf
  · simp only [bind, Except.bind] at h
    split at h
    · cases h
    · rename_i r hr
      cases h
      exact hf.settle ((layoutAbsEach_draws ha _ _ hf.1 hr).wrap _ m)

theorem layoutInFlow_draws {absL : AbsLayout} (ha : AbsDraws absL)
    {cb : ContainingBlock} {abs : List AbsFragment} {style : Style} {kind : BlockLevelKind}
    {contents : ContainingBlock → List AbsFragment → Bool → Except Panic (FlowChildren × List AbsFragment)}
    {x : List Boxed}
    (hc : ∀ cb abs c fc out, contents cb abs c = .ok (fc, out) →
      ∃ new, out = abs ++ new ∧ Draws fc.fragments new x) {f : Fragment}
    {out : List AbsFragment} (h : layoutInFlow absL cb abs style kind contents = .ok (f, out)) :
    ∃ new g m fs, out = abs ++ new ∧ f = .box style g m fs ∧
      g.edge = style.wholePart cb.inlineSize ∧ Draws fs new x := by
  unfold layoutInFlow at h
  simp only [bind, Except.bind] at h
  split at h
  · cases h
  · split at h
    · cases h
    · rename_i r hr
      obtain ⟨new, e, c⟩ := hc _ _ _ _ _ hr
      split at h
      · cases h
      · rename_i r' hr'
        cases h
        split at hr'
        · rename_i hrel
          rw [if_pos hrel] at e
          rw [if_pos hrel]
          rw [List.nil_append] at e
          subst e
          exact ⟨[], _, _, _, by simp, rfl, edge_whole rfl, inPositioned_draws ha c hr'⟩
        · rename_i hrel
          rw [if_neg hrel] at e
          rw [if_neg hrel]
          cases hr'
          exact ⟨new, _, _, _, e, rfl, edge_whole rfl, c⟩

theorem boxLayoutWith_draws {E : TextEnv} {boxL : BoxLayout} {absL : AbsLayout}
    (hb : BoxDraws boxL) (ha : AbsDraws absL) : BoxDraws (boxLayoutWith E boxL absL) := by
  intro b cb rank abs fl f out hs hp h
  cases b with
  | sameFormattingContextBlock st c =>
    obtain ⟨new, g, m, fs, e, rfl, hg, c⟩ :=
      layoutInFlow_draws ha (fun _ _ _ _ _ h => containerLayout_draws hb hs hp.2 h) h
    refine ⟨new, e, ?_⟩
    rcases hp.1 with ⟨i, hd⟩ | ⟨p, rfl⟩
    · rw [BlockLevelBox.boxed, hd]
      exact c.box hg m
    · rw [BlockLevelBox.boxed, anonymous_display]
      exact c.anon p g m
  | independent st c =>
    obtain ⟨new, g, m, fs, e, rfl, hg, c⟩ :=
      layoutInFlow_draws ha (fun _ _ _ _ _ h => bfcLayout_draws hb ⟨hs, hp⟩ h) h
    exact ⟨new, e, c.box hg m⟩
  | outOfFlowAbsolutelyPositionedBox st c =>
    cases h
    refine ⟨_, rfl, ?_, 0, .zero, ?_⟩
    · intro a ha
      rw [List.mem_singleton] at ha
      subst ha
      exact ⟨hs, hp⟩
    · simp [waitingBoxed, absBoxed, BlockLevelBox.boxed, layoutAbsBox, AbsFragment.box]
  | outOfFlowFloatBox st c =>
    cases h
    exact ⟨[], by simp, by simp, 0, .zero, rfl⟩

theorem absLayoutWith_draws {E : TextEnv} {boxL : BoxLayout} {absL : AbsLayout}
    (hb : BoxDraws boxL) (ha : AbsDraws absL) : AbsDraws (absLayoutWith E boxL absL) := by
  intro a cb f hs h
  unfold absLayoutWith at h
  simp only [bind, Except.bind] at h
  split at h
  · cases h
  · split at h
    · cases h
    · rename_i r hr
      obtain ⟨new, e, c⟩ := bfcLayout_draws (cb := ⟨_, _, _⟩) hb hs hr
      rw [List.nil_append] at e
      subst e
      split at h
      · cases h
      · rename_i r' hr'
        cases h
        exact (inPositioned_draws ha c hr').box (edge_whole rfl) _

theorem layout_draws (E : TextEnv) :
    ∀ n, BoxDraws (boxLayout E n) ∧ AbsDraws (absLayout E n)
  | 0 => ⟨fun _ _ _ _ _ _ _ _ _ h => (by cases h), fun _ _ _ _ h => (by cases h)⟩
  | n + 1 => ⟨boxLayoutWith_draws (layout_draws E n).1 (layout_draws E n).2,
      absLayoutWith_draws (layout_draws E n).1 (layout_draws E n).2⟩

/-- the boxes of a page are those of its box tree -/
theorem rootLayout_draws {E : TextEnv} {root : Bfc} {viewport : PVec2 Length} {fs : List Fragment}
    (hs : root.Neat) (h : rootLayout E root viewport = .ok fs) : Shown (framesAll fs) root.boxed := by
  unfold rootLayout rootLayoutWith at h
  simp only [bind, Except.bind] at h
  split at h
  · cases h
  · rename_i r hr
    split at h
    · cases h
    · rename_i r' hr'
      cases h
      obtain ⟨new, e, c⟩ := bfcLayout_draws (layout_draws E _).1 hs hr
      rw [List.nil_append] at e
      rw [e] at hr'
      obtain ⟨-, n, h1, h2⟩ := c.settle (layoutAbsEach_draws (layout_draws E _).2 _ _ c.1 hr')
      have : n = root.boxed := by rw [← h2]; simp [waitingBoxed]
      rw [← this]
      exact h1

end Sinab
