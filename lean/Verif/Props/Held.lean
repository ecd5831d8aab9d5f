import Verif.Props.Positioned

/-! Which absolutely positioned boxes belong to which containing block, and what they are positioned by (C43). -/

namespace Sinab

mutual

/-- The absolutely positioned boxes in a box whose containing block is outside: those that are not in a relatively or
absolutely positioned box in it. -/
def BlockLevelBox.held : BlockLevelBox → List (Style × Bfc)
  | .sameFormattingContextBlock style c => if style.val .position = Position.relative then [] else c.held
  | .independent style (.mk c _) => if style.val .position = Position.relative then [] else c.held
  | .outOfFlowAbsolutelyPositionedBox style c => [(style, c)]
  | .outOfFlowFloatBox _ _ => []

/-- see `BlockLevelBox.held`; inline boxes are never containing blocks -/
def BlockContainer.held : BlockContainer → List (Style × Bfc)
  | .blockLevelBoxes bs => heldAll bs
  | .inlineFormattingContext _ bs => inlineAbsBoxes bs

/-- see `BlockLevelBox.held` -/
def heldAll : List BlockLevelBox → List (Style × Bfc)
  | [] => []
  | b :: bs => b.held ++ heldAll bs

end

/-- a length or percentage as the value of a property -/
def LengthOrPercentage.given : LengthOrPercentage → LengthOrPercentageOrAuto
  | .length l => .length l
  | .percentage p => .percentage p

/-- the values of the properties for the two sides of an axis give these offsets -/
inductive OffsetsOf : LengthOrPercentageOrAuto → LengthOrPercentageOrAuto → AbsOffsets → Prop
  | neither (v : Length) : OffsetsOf .auto .auto (.staticStart v)
  | start (v : LengthOrPercentage) : OffsetsOf v.given .auto (.start v)
  | «end» (v : LengthOrPercentage) : OffsetsOf .auto v.given (.«end» v)
  | both (v w : LengthOrPercentage) : OffsetsOf v.given w.given (.both v w)

/-- what is to be positioned is positioned by `left`, `right`, `top`, `bottom`, `width` and `height` of its style -/
structure ByStyle (a : AbsFragment) : Prop where
  inline : OffsetsOf (a.style.val .left) (a.style.val .right) a.inlineStart
  block : OffsetsOf (a.style.val .top) (a.style.val .bottom) a.blockStart
  width : a.inlineSize = a.style.val .width
  height : a.blockSize = a.style.val .height

theorem offsetsOf_absolute (v : Length) (s e : LengthOrPercentageOrAuto) :
    OffsetsOf s e (absoluteBoxOffsets v s e) := by
  unfold absoluteBoxOffsets
  cases s with
  | auto =>
    cases e with
    | auto => exact .neither v
    | length y => exact .«end» (.length y)
    | percentage y => exact .«end» (.percentage y)
  | length x =>
    cases e with
    | auto => exact .start (.length x)
    | length y => exact .both (.length x) (.length y)
    | percentage y => exact .both (.length x) (.percentage y)
  | percentage x =>
    cases e with
    | auto => exact .start (.percentage x)
    | length y => exact .both (.percentage x) (.length y)
    | percentage y => exact .both (.percentage x) (.percentage y)

theorem offsetsOf_moved {s e : LengthOrPercentageOrAuto} {o : AbsOffsets} (h : OffsetsOf s e o) (d : Length) :
    OffsetsOf s e (o.moveStatic d) := by
  cases h with
  | neither v => exact .neither _
  | start v => exact .start v
  | «end» v => exact .«end» v
  | both v w => exact .both v w

theorem byStyle_layout (st : Style) (c : Bfc) (corner : Vec2 Length) (rank : Nat) :
    ByStyle (layoutAbsBox st c corner rank) :=
  ⟨offsetsOf_absolute _ _ _, offsetsOf_absolute _ _ _, rfl, rfl⟩

/-- what has been found since `abs`: the boxes `boxes`, positioned by their styles -/
def NewlyFound (abs out : List AbsFragment) (boxes : List (Style × Bfc)) : Prop :=
  ∃ new, out = abs ++ new ∧ new.map AbsFragment.box = boxes ∧ ∀ a ∈ new, ByStyle a

theorem NewlyFound.trans {a b c : List AbsFragment} {x y : List (Style × Bfc)} (h : NewlyFound a b x)
    (h' : NewlyFound b c y) : NewlyFound a c (x ++ y) := by
  obtain ⟨n, rfl, h1, h2⟩ := h
  obtain ⟨n', rfl, h1', h2'⟩ := h'
  refine ⟨n ++ n', by simp, by simp [h1, h1'], fun z hz => ?_⟩
  rcases List.mem_append.1 hz with hz | hz
  · exact h2 z hz
  · exact h2' z hz

/-- boxes that are laid out find what they hold -/
def BoxFinds (boxL : BoxLayout) : Prop :=
  ∀ (b : BlockLevelBox) (cb : ContainingBlock) (rank : Nat) (abs : List AbsFragment) (fl : Bool) (f : Fragment)
    (out : List AbsFragment), b.sound → boxL b cb rank abs fl = .ok (f, out) → NewlyFound abs out b.held

theorem layoutEach_finds {boxL : BoxLayout} (hb : BoxFinds boxL) {cb : ContainingBlock} : ∀ (bs : List BlockLevelBox)
    (k : Nat) (abs : List AbsFragment) (fs : List Fragment) (out : List AbsFragment), blockSound bs →
    layoutEach boxL cb k bs abs = .ok (fs, out) → NewlyFound abs out (heldAll bs)
  | [], k, abs, fs, out, hs, h => by
    cases h
    exact ⟨[], by simp, by simp [heldAll], by simp⟩
  | b :: bs, k, abs, fs, out, hs, h => by
    obtain ⟨⟨f, abs1⟩, h1, h⟩ := bind_eq_ok.1 h
    obtain ⟨⟨fs1, abs2⟩, h2, h⟩ := bind_eq_ok.1 h
    cases h
    rw [heldAll]
    exact (hb _ _ _ _ _ _ _ hs.1 h1).trans (layoutEach_finds hb bs _ _ _ _ hs.2 h2)

theorem layoutAndPlaceEach_finds {boxL : BoxLayout} (hb : BoxFinds boxL) {cb : ContainingBlock} :
    ∀ (bs : List BlockLevelBox) (k : Nat) (abs : List AbsFragment) (st : PlacementState) (fs : List Fragment)
    (out : List AbsFragment) (st' : PlacementState), blockSound bs →
    layoutAndPlaceEach boxL cb k bs abs st = .ok (fs, out, st') → NewlyFound abs out (heldAll bs)
  | [], k, abs, st, fs, out, st', hs, h => by
    cases h
    exact ⟨[], by simp, by simp [heldAll], by simp⟩
  | b :: bs, k, abs, st, fs, out, st', hs, h => by
    obtain ⟨⟨f, abs1⟩, h1, h⟩ := bind_eq_ok.1 h
    obtain ⟨⟨g, st1⟩, h2, h⟩ := bind_eq_ok.1 h
    obtain ⟨⟨fs1, abs2, st2⟩, h3, h⟩ := bind_eq_ok.1 h
    cases h
    rw [heldAll]
    exact (hb _ _ _ _ _ _ _ hs.1 h1).trans (layoutAndPlaceEach_finds hb bs _ _ _ _ _ _ hs.2 h3)

theorem adjustStatic_finds (children : List Fragment) (rank : Nat) : ∀ (as out : List AbsFragment),
    adjustStaticPositions children rank as = .ok out → (∀ a ∈ as, ByStyle a) →
    out.map AbsFragment.box = as.map AbsFragment.box ∧ ∀ a ∈ out, ByStyle a
  | [], out, h, _ => by
    cases h
    simp
  | a :: as, out, h, ha => by
    obtain ⟨a1, h1, h⟩ := bind_eq_ok.1 h
    obtain ⟨as1, h2, h⟩ := bind_eq_ok.1 h
    cases h
    obtain ⟨e1, e2⟩ := adjustStatic_finds children rank as as1 h2 fun x hx => ha x (by simp [hx])
    have hk : a1.box = a.box ∧ ByStyle a1 := by
      have hh := ha a (by simp)
      unfold adjustStaticPosition at h1
      split at h1
      · cases h1
      · cases h1
      · cases h1
        exact ⟨rfl, offsetsOf_moved hh.inline _, offsetsOf_moved hh.block _, hh.width, hh.height⟩
      · cases h1
        exact ⟨rfl, offsetsOf_moved hh.inline _, offsetsOf_moved hh.block _, hh.width, hh.height⟩
    refine ⟨by simp [hk.1, e1], ?_⟩
    intro x hx
    rcases List.mem_cons.1 hx with rfl | hx
    · exact hk.2
    · exact e2 x hx

theorem children_finds {boxL : BoxLayout} (hb : BoxFinds boxL) {bs : List BlockLevelBox} (hs : blockSound bs)
    {cb : ContainingBlock} {rank : Nat} {abs : List AbsFragment} {floats coll : Bool} {fc : FlowChildren}
    {out : List AbsFragment} (h : layoutBlockLevelChildren boxL bs cb rank abs floats coll = .ok (fc, out)) :
    NewlyFound abs out (heldAll bs) := by
  obtain ⟨⟨fs, abs1, st⟩, h1, h⟩ := bind_eq_ok.1 h
  obtain ⟨adj, h2, h⟩ := bind_eq_ok.1 h
  cases h
  have hf : NewlyFound abs abs1 (heldAll bs) := by
    cases floats with
    | true => exact layoutAndPlaceEach_finds hb _ _ _ _ _ _ _ hs h1
    | false =>
      obtain ⟨⟨fs0, abs0⟩, h3, h1⟩ := bind_eq_ok.1 h1
      obtain ⟨⟨fs1, st1⟩, h4, h1⟩ := bind_eq_ok.1 h1
      cases h1
      exact layoutEach_finds hb _ _ _ _ _ hs h3
  obtain ⟨new, rfl, e1, e2⟩ := hf
  rw [List.drop_left] at h2
  obtain ⟨e3, e4⟩ := adjustStatic_finds _ _ _ _ h2 e2
  exact ⟨adj, by rw [List.take_left], by rw [e3, e1], e4⟩

theorem ifcLoop_byStyle (E : TextEnv) (rank : Nat) : ∀ (n : Nat) (s : IfcState) (abs : List AbsFragment)
    (r : IfcState × List AbsFragment), ifcLoop E rank n s abs = .ok r → (∀ a ∈ abs, ByStyle a) → ∀ a ∈ r.2, ByStyle a
  | 0, _, _, _, h, _ => by cases h
  | n + 1, s, abs, r, h, ha => by
    rw [ifcLoop] at h
    cases hr : s.current.remaining with
    | cons box rest =>
      simp only [hr] at h
      cases box with
      | inlineBox st f l cs => exact ifcLoop_byStyle E rank n _ _ _ h ha
      | textRun st t font =>
        obtain ⟨s1, h1, h⟩ := bind_eq_ok.1 h
        exact ifcLoop_byStyle E rank n _ _ _ h ha
      | outOfFlowAbsolutelyPositionedBox st c =>
        obtain ⟨s1, h1, h⟩ := bind_eq_ok.1 h
        refine ifcLoop_byStyle E rank n _ _ _ h fun a hm => ?_
        rcases List.mem_append.1 hm with hm | hm
        · exact ha a hm
        · rw [List.mem_singleton.1 hm]
          exact byStyle_layout _ _ _ _
      | outOfFlowFloatBox st c => exact ifcLoop_byStyle E rank n _ _ _ h ha
    | nil =>
      simp only [hr] at h
      cases hs : s.stack with
      | cons p ps =>
        simp only [hs] at h
        exact ifcLoop_byStyle E rank n _ _ _ h ha
      | nil =>
        simp only [hs] at h
        cases h
        exact ha

theorem container_finds {E : TextEnv} {boxL : BoxLayout} (hb : BoxFinds boxL) {c : BlockContainer} (hs : c.sound)
    {cb : ContainingBlock} {rank : Nat} {abs : List AbsFragment} {floats coll : Bool} {fc : FlowChildren}
    {out : List AbsFragment} (h : containerLayout E boxL c cb rank abs floats coll = .ok (fc, out)) :
    NewlyFound abs out c.held := by
  cases c with
  | blockLevelBoxes bs =>
    rw [BlockContainer.held]
    exact children_finds hb hs h
  | inlineFormattingContext st bs =>
    rw [BlockContainer.held]
    obtain ⟨L, new, -, h1, -, h2⟩ := ifcLayout_good E st bs cb rank hs
    have e : out = abs ++ new := by
      have h' : ifcLayout E st bs cb rank abs = .ok (fc, out) := h
      rw [h1 abs] at h'
      cases h'
      rfl
    refine ⟨new, e, h2, ?_⟩
    obtain ⟨⟨s, o⟩, h3, h4⟩ := bind_eq_ok.1 (h1 [])
    injection h4 with h4
    injection h4 with _ h4
    rw [List.nil_append] at h4
    exact h4 ▸ ifcLoop_byStyle E rank _ _ _ _ h3 (by simp)

theorem bfc_finds {E : TextEnv} {boxL : BoxLayout} (hb : BoxFinds boxL) {c : BlockContainer} {fl : Bool} (hs : c.sound)
    {cb : ContainingBlock} {rank : Nat} {abs : List AbsFragment} {fc : FlowChildren}
    {out : List AbsFragment} (h : bfcLayout E boxL (.mk c fl) cb rank abs = .ok (fc, out)) :
    NewlyFound abs out c.held := by
  obtain ⟨⟨fc1, out1⟩, h1, h⟩ := bind_eq_ok.1 h
  cases h
  exact container_finds hb hs h1

theorem boxFinds (E : TextEnv) : ∀ n, BoxFinds (boxLayout E n)
  | 0 => by
    intro b cb rank abs fl f out _ h
    cases h
  | n + 1 => by
    intro b cb rank abs fl f out hs h
    cases b with
    | outOfFlowAbsolutelyPositionedBox st c =>
      cases h
      refine ⟨_, rfl, by simp [BlockLevelBox.held, AbsFragment.box, layoutAbsBox], fun a ha => ?_⟩
      rw [List.mem_singleton.1 ha]
      exact byStyle_layout _ _ _ _
    | outOfFlowFloatBox st c =>
      cases h
      exact ⟨[], by simp, by simp [BlockLevelBox.held], by simp⟩
    | sameFormattingContextBlock st c =>
      obtain ⟨g, m, ch, cb', coll, fc, found, -, -, h1, h2⟩ := C43_containing_block E n st c cb rank abs fl f out h
      rw [BlockLevelBox.held]
      split
      · rename_i hp
        exact ⟨[], by simpa using (h1 hp).2.1, by simp, by simp⟩
      · rename_i hp
        exact container_finds (boxFinds E n) hs (h2 hp).1
    | independent st c =>
      obtain ⟨c, w⟩ := c
      obtain ⟨g, m, ch, cb', fc, found, -, -, h1, h2⟩ :=
        C43_containing_block_independent E n st (.mk c w) cb rank abs fl f out h
      rw [BlockLevelBox.held]
      split
      · rename_i hp
        exact ⟨[], by simpa using (h1 hp).2.1, by simp, by simp⟩
      · rename_i hp
        exact bfc_finds (boxFinds E n) hs (h2 hp).1

/-- C43: the absolutely positioned boxes found in a box (see `C43_containing_block` for what happens with them) are
those in it that are in no nearer containing block, each once and in document order, and they are positioned by
their styles … -/
theorem C43_found (E : TextEnv) (n : Nat) (c : BlockContainer) (hs : c.sound) (cb : ContainingBlock) (rank : Nat)
    (abs : List AbsFragment) (fl coll : Bool) (fc : FlowChildren) (out : List AbsFragment)
    (h : containerLayout E (boxLayout E n) c cb rank abs fl coll = .ok (fc, out)) :
    ∃ new, out = abs ++ new ∧ new.map (fun a => (a.style, a.contents)) = c.held ∧ ∀ a ∈ new, ByStyle a :=
  container_finds (boxFinds E n) hs h

/-- C43: … (the same for a formatting context of its own) … -/
theorem C43_found_independent (E : TextEnv) (n : Nat) (c : BlockContainer) (fl : Bool) (hs : c.sound)
    (cb : ContainingBlock) (rank : Nat) (abs : List AbsFragment) (fc : FlowChildren) (out : List AbsFragment)
    (h : bfcLayout E (boxLayout E n) (.mk c fl) cb rank abs = .ok (fc, out)) :
    ∃ new, out = abs ++ new ∧ new.map (fun a => (a.style, a.contents)) = c.held ∧ ∀ a ∈ new, ByStyle a :=
  bfc_finds (boxFinds E n) hs h

/-- C43: … in particular on the page: those that are in no other containing block come last, positioned on the
page by their styles. -/
theorem C43_page_found (E : TextEnv) (c : BlockContainer) (fl : Bool) (hs : c.sound) (size : PVec2 Length)
    (fs : List Fragment) (h : rootLayout E (.mk c fl) size = .ok fs) :
    ∃ n fc found more, found.map (fun a => (a.style, a.contents)) = c.held ∧ (∀ a ∈ found, ByStyle a) ∧
      bfcLayout E (boxLayout E n) (.mk c fl) ⟨size.x, .length size.y, (.horizontalTb, .ltr)⟩ 0 [] = .ok (fc, found) ∧
      List.Forall₂ (fun a f => absLayout E n a ⟨⟨size.x, size.y⟩, (.horizontalTb, .ltr)⟩ = .ok f) found more ∧
      fs = fc.fragments ++ more := by
  obtain ⟨n, fc, found, more, h1, h2, h3⟩ := C43_page E (.mk c fl) size fs h
  obtain ⟨new, e, h4, h5⟩ := C43_found_independent E n c fl hs _ _ _ _ _ h1
  rw [List.nil_append] at e
  subst e
  exact ⟨n, fc, found, more, h4, h5, h1, h2, h3⟩

/-- a block with an absolutely positioned box and a relatively positioned block with another one -/
def heldBlocks : BlockContainer :=
  .blockLevelBoxes [
    .outOfFlowAbsolutelyPositionedBox (plainStyle.set .bottom (.length 4)) (.mk (.blockLevelBoxes []) false),
    .sameFormattingContextBlock (plainStyle.set .position Position.relative) (.blockLevelBoxes [
      .outOfFlowAbsolutelyPositionedBox (plainStyle.set .top (.length 9)) (.mk (.blockLevelBoxes []) false)])]

/-- the outer one is found, with its distance from the bottom -/
example : (match containerLayout blockEnv (boxLayout blockEnv 3) heldBlocks blockCb 7 [] false false with
    | .ok (_, abs) => abs.map fun a => (a.blockStart, a.blockSize)
    | .error _ => []) = [(.«end» (.length 4), .auto)] ∧
    heldBlocks.held.map (fun p => p.1.val .bottom) = [.length 4] := by
  constructor <;> decide +kernel

end Sinab
