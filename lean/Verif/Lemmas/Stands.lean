import Verif.Spec.Stands
import Verif.Lemmas.GroupedContent
import Verif.Lemmas.Spanned
import Verif.Lemmas.Pruned
import Verif.Lemmas.PrunedContent
import Verif.Props.Horizontal
import Verif.Props.Held

/-! What a block looks like does not depend on what is around it (C97). -/

namespace Sinab

open Sinab.Append Horizontal
open Vertical (widthIn heightIn)

/-! ## Two ways to be thinner -/

mutual

/-- the number of fragments in a fragment -/
def Fragment.amount : Fragment → Nat
  | .box _ _ _ cs => amountAll cs + 1
  | .anonymous _ cs _ => amountAll cs + 1
  | .text .. => 1

/-- see `Fragment.amount` -/
def amountAll : List Fragment → Nat
  | [] => 0
  | f :: fs => f.amount + amountAll fs

end

theorem Fragment.amount_pos (f : Fragment) : 0 < f.amount := by
  cases f <;> simp [Fragment.amount]

mutual

theorem Thin.amount : ∀ {f f' : Fragment}, Thin f f' → f'.amount ≤ f.amount ∧ (f'.amount = f.amount → f' = f)
  | _, _, .refl _ => ⟨le_rfl, fun _ => rfl⟩
  | _, _, .box _ _ _ _ _ h => by
    obtain ⟨h1, h2⟩ := h.amount
    simp only [Fragment.amount]
    exact ⟨by omega, fun e => by rw [h2 (by omega)]⟩
  | _, _, .anonymous _ _ _ _ h _ => by
    obtain ⟨h1, h2⟩ := h.amount
    simp only [Fragment.amount]
    exact ⟨by omega, fun e => by rw [h2 (by omega)]⟩

theorem ThinAll.amount : ∀ {fs fs' : List Fragment}, ThinAll fs fs' →
    amountAll fs' ≤ amountAll fs ∧ (amountAll fs' = amountAll fs → fs' = fs)
  | _, _, .nil => ⟨le_rfl, fun _ => rfl⟩
  | _, _, .keep _ _ _ _ h hs => by
    obtain ⟨h1, h2⟩ := h.amount
    obtain ⟨h3, h4⟩ := hs.amount
    simp only [amountAll]
    exact ⟨by omega, fun e => by rw [h2 (by omega), h4 (by omega)]⟩
  | _, _, .drop f _ _ _ hs => by
    obtain ⟨h3, h4⟩ := hs.amount
    have := f.amount_pos
    simp only [amountAll]
    exact ⟨by omega, fun e => by omega⟩

end

theorem Thin.antisymm {f f' : Fragment} (h : Thin f f') (h' : Thin f' f) : f' = f :=
  h.amount.2 (le_antisymm h.amount.1 h'.amount.1)

/-! ## Layout of a block -/

/-- layout of a block depends on the height around it only if its own is a percentage of it -/
theorem boxLayout_height (E : TextEnv) (n : Nat) {b : BlockLevelBox} (hb : b.heightFree) {cb cb' : ContainingBlock}
    (h : SameWidth cb cb') (rank : Nat) (abs : List AbsFragment) (fl : Bool) :
    boxLayout E n b cb' rank abs fl = boxLayout E n b cb rank abs fl := by
  cases n with
  | zero => rfl
  | succ n =>
    rw [boxLayout]
    cases b with
    | outOfFlowAbsolutelyPositionedBox st c => simp only [boxLayoutWith, h.mode]
    | outOfFlowFloatBox st c => simp only [boxLayoutWith, h.mode]
    | sameFormattingContextBlock st c =>
      simp only [boxLayoutWith, layoutInFlow, inFlowSizes_same h (Or.inr hb), h.mode]
    | independent st c =>
      simp only [boxLayoutWith, layoutInFlow, inFlowSizes_same h (Or.inr hb), h.mode]

/-- layout of a block gives the same everywhere -/
theorem boxLayout_same (E : TextEnv) {n m : Nat} {b : BlockLevelBox} (hs : b.sound) (hn : b.depth ≤ n)
    (hm : b.depth ≤ m) (hb : b.heightFree) {cb cb' : ContainingBlock} (hcb : cb.standard) (h : SameWidth cb cb')
    {rank rank' : Nat} {abs abs' o o' : List AbsFragment} {fl fl' : Bool} {f f' : Fragment}
    (hf : boxLayout E n b cb rank abs fl = .ok (f, o)) (hf' : boxLayout E m b cb' rank' abs' fl' = .ok (f', o')) :
    f' = f := by
  rw [boxLayout_height E m hb h] at hf'
  obtain ⟨g, g', new, new', h1, h1', -, h2, -⟩ := (pruned_layout E n m).1 b b cb rank rank' (.refl b) hs hn hm hcb
  obtain ⟨k, k', new1, new1', h3, h3', -, h4, -⟩ := (pruned_layout E m n).1 b b cb rank' rank (.refl b) hs hm hn hcb
  rw [h1] at hf
  rw [h1'] at hf'
  have e1 := (h1' [] false).symm.trans (h3 [] false)
  have e2 := (h1 [] false).symm.trans (h3' [] false)
  cases hf
  cases hf'
  injection e1 with e1
  injection e1 with e1
  injection e2 with e2
  injection e2 with e2
  subst e1 e2
  exact h2.antisymm h4

/-! ## Placement -/

theorem place_down {st st' : PlacementState} {f f' : Fragment} (e : placeFragment st f = .ok (f', st')) :
    ∃ d, f' = f.translateBlock d := by
  cases f with
  | text => cases e
  | anonymous r cs mode =>
    simp only [placeFragment] at e
    split at e
    · cases e
    split at e
    · cases e
    cases e
    exact ⟨_, rfl⟩
  | box style g m cs =>
    simp only [placeFragment] at e
    split at e
    · split at e
      · cases e
      split at e
      · cases e
        exact ⟨0, by simp [Fragment.translateBlock, Rect.addBlock]⟩
      · injection e with e
        injection e with e
        exact ⟨_, e.symm⟩
    · injection e with e
      split at e <;> (injection e with e; exact ⟨_, e.symm⟩)

theorem placeAll_split : ∀ {a : List Fragment} {f : Fragment} {fs gs : List Fragment} {st st' : PlacementState},
    placeAll st (a ++ f :: fs) = .ok (gs, st') → ∃ pre d post, gs = pre ++ f.translateBlock d :: post
  | [], f, fs, gs, st, st', h => by
    obtain ⟨⟨f', st1⟩, e1, h⟩ := bind_eq_ok.1 h
    obtain ⟨⟨fs', st2⟩, e2, h⟩ := bind_eq_ok.1 h
    cases h
    obtain ⟨d, rfl⟩ := place_down e1
    exact ⟨[], d, fs', rfl⟩
  | x :: a, f, fs, gs, st, st', h => by
    obtain ⟨⟨f', st1⟩, e1, h⟩ := bind_eq_ok.1 h
    obtain ⟨⟨fs', st2⟩, e2, h⟩ := bind_eq_ok.1 h
    cases h
    obtain ⟨pre, d, post, rfl⟩ := placeAll_split e2
    exact ⟨f' :: pre, d, post, rfl⟩

theorem layoutEach_split {boxL : BoxLayout} {cb : ContainingBlock} {b : BlockLevelBox} {bs' : List BlockLevelBox} :
    ∀ {bs : List BlockLevelBox} {k : Nat} {abs out : List AbsFragment} {gs : List Fragment},
    layoutEach boxL cb k (bs ++ b :: bs') abs = .ok (gs, out) →
    ∃ pre f post rank a o, gs = pre ++ f :: post ∧ boxL b cb rank a false = .ok (f, o)
  | [], k, abs, out, gs, h => by
    obtain ⟨⟨f, a⟩, e1, h⟩ := bind_eq_ok.1 h
    obtain ⟨⟨fs, a'⟩, e2, h⟩ := bind_eq_ok.1 h
    cases h
    exact ⟨[], f, fs, _, _, _, rfl, e1⟩
  | x :: bs, k, abs, out, gs, h => by
    obtain ⟨⟨f, a⟩, e1, h⟩ := bind_eq_ok.1 h
    obtain ⟨⟨fs, a'⟩, e2, h⟩ := bind_eq_ok.1 h
    cases h
    obtain ⟨pre, g, post, rank, a0, o, rfl, e3⟩ := layoutEach_split e2
    exact ⟨f :: pre, g, post, _, _, _, rfl, e3⟩

theorem layoutAndPlaceEach_split {boxL : BoxLayout} {cb : ContainingBlock} {b : BlockLevelBox}
    {bs' : List BlockLevelBox} : ∀ {bs : List BlockLevelBox} {k : Nat} {abs out : List AbsFragment}
      {gs : List Fragment} {st st' : PlacementState},
    layoutAndPlaceEach boxL cb k (bs ++ b :: bs') abs st = .ok (gs, out, st') →
    ∃ pre f d post rank a o, gs = pre ++ f.translateBlock d :: post ∧ boxL b cb rank a true = .ok (f, o)
  | [], k, abs, out, gs, st, st', h => by
    obtain ⟨⟨f, a⟩, e1, h⟩ := bind_eq_ok.1 h
    obtain ⟨⟨f', st1⟩, e2, h⟩ := bind_eq_ok.1 h
    obtain ⟨⟨fs', a', st2⟩, e3, h⟩ := bind_eq_ok.1 h
    cases h
    obtain ⟨d, rfl⟩ := place_down e2
    exact ⟨[], f, d, fs', _, _, _, rfl, e1⟩
  | x :: bs, k, abs, out, gs, st, st', h => by
    obtain ⟨⟨f, a⟩, e1, h⟩ := bind_eq_ok.1 h
    obtain ⟨⟨f', st1⟩, e2, h⟩ := bind_eq_ok.1 h
    obtain ⟨⟨fs', a', st2⟩, e3, h⟩ := bind_eq_ok.1 h
    cases h
    obtain ⟨pre, g, d, post, rank, a0, o, rfl, e4⟩ := layoutAndPlaceEach_split e3
    exact ⟨f' :: pre, g, d, post, _, _, _, rfl, e4⟩

/-- one of the blocks in a block, after layout and placement -/
theorem children_split {boxL : BoxLayout} {cb : ContainingBlock} {b : BlockLevelBox} {bs bs' : List BlockLevelBox}
    {rank : Nat} {abs out : List AbsFragment} {floats coll : Bool} {fc : FlowChildren}
    (h : layoutBlockLevelChildren boxL (bs ++ b :: bs') cb rank abs floats coll = .ok (fc, out)) :
    ∃ pre f d post rank a o fl, fc.fragments = pre ++ f.translateBlock d :: post ∧ boxL b cb rank a fl = .ok (f, o) := by
  obtain ⟨⟨fs', a, st⟩, e1, h⟩ := bind_eq_ok.1 h
  obtain ⟨adj, -, h⟩ := bind_eq_ok.1 h
  cases h
  cases floats with
  | true =>
    obtain ⟨pre, f, d, post, r, a0, o, h1, h2⟩ := layoutAndPlaceEach_split e1
    exact ⟨pre, f, d, post, r, a0, o, _, h1, h2⟩
  | false =>
    obtain ⟨⟨fs, a1⟩, e2, e1⟩ := bind_eq_ok.1 e1
    obtain ⟨⟨fs1, st1⟩, e3, e1⟩ := bind_eq_ok.1 e1
    cases e1
    obtain ⟨pre, f, post, r, a0, o, rfl, h2⟩ := layoutEach_split e2
    obtain ⟨pre', d, post', h3⟩ := placeAll_split e3
    exact ⟨pre', f, d, post', r, a0, o, _, h3, h2⟩

/-! ## A block in a page -/

/-- among the fragments is `f`, at a distance of `d` -/
def Displays (f : Fragment) (d : PVec2 Length) (fs : List Fragment) : Prop :=
  uprightAll fs → f.upright ∧ ∀ o, ∃ pre post, callsAt o fs = pre ++ callsAt (o + d) [f] ++ post

theorem Displays.more {f : Fragment} {d : PVec2 Length} {fs : List Fragment} (h : Displays f d fs) (a b : List Fragment) :
    Displays f d (a ++ (fs ++ b)) := by
  intro hu
  obtain ⟨ha, hu⟩ := uprightAll_app.1 hu
  obtain ⟨hf, hb⟩ := uprightAll_app.1 hu
  obtain ⟨h1, h2⟩ := h hf
  refine ⟨h1, fun o => ?_⟩
  obtain ⟨pre, post, e⟩ := h2 o
  refine ⟨callsAt o a ++ pre, post ++ callsAt o b, ?_⟩
  rw [callsAt_append _ _ _ ha, callsAt_append _ _ _ hf, e]
  simp only [List.append_assoc]

theorem Displays.self (f : Fragment) : Displays f ⟨0, 0⟩ [f] := by
  intro hu
  refine ⟨hu.1, fun o => ⟨[], [], ?_⟩⟩
  have : o + ⟨0, 0⟩ = o := by simp [pvec2_add]
  rw [this]
  simp

theorem Displays.down {f g : Fragment} {d : PVec2 Length} (h : Displays f d [g]) (e : Length) :
    Displays f ⟨d.x, d.y + e⟩ [g.translateBlock e] := by
  intro hu
  have hg : g.upright := (up_down e g).1 hu.1
  obtain ⟨h1, h2⟩ := h ⟨hg, trivial⟩
  refine ⟨h1, fun o => ?_⟩
  obtain ⟨pre, post, k⟩ := h2 (o + ⟨0, e⟩)
  refine ⟨pre, post, ?_⟩
  have : o + ⟨d.x, d.y + e⟩ = o + ⟨0, e⟩ + d := by
    simp only [pvec2_add, PVec2.mk.injEq]
    constructor <;> ring
  rw [callsAt_down o e hg, ← callsAt_move o ⟨0, e⟩ (fs := [g]) ⟨hg, trivial⟩, k, this]

theorem Displays.box {f : Fragment} {d : PVec2 Length} {cs : List Fragment} (h : Displays f d cs) (st : Style) (g : BoxGeom)
    (m : CollapsedBlockMargins) :
    Displays f ⟨g.contentRect.startCorner.inline + d.x, g.contentRect.startCorner.block + d.y⟩ [.box st g m cs] := by
  intro hu
  have hc : uprightAll cs := hu.1
  obtain ⟨h1, h2⟩ := h hc
  refine ⟨h1, fun o => ?_⟩
  rw [callsAt_box o hc]
  obtain ⟨pre, post, k⟩ := h2 (o + (Fragment.box st g m cs).offset)
  refine ⟨ownCalls o (.box st g m cs) ++ pre, post, ?_⟩
  have : o + ⟨g.contentRect.startCorner.inline + d.x, g.contentRect.startCorner.block + d.y⟩ =
      o + (Fragment.box st g m cs).offset + d := by
    simp only [pvec2_add, Fragment.offset, PVec2.mk.injEq]
    constructor <;> ring
  rw [k, this]
  simp only [List.append_assoc]

theorem blockDepth_mem : ∀ {bs : List BlockLevelBox} {b : BlockLevelBox}, b ∈ bs → b.depth ≤ blockDepth bs
  | x :: bs, b, h => by
    rw [blockDepth]
    rcases List.mem_cons.1 h with rfl | h
    · exact le_max_left _ _
    · exact (blockDepth_mem h).trans (le_max_right _ _)

theorem blockSound_mem : ∀ {bs : List BlockLevelBox} {b : BlockLevelBox}, b ∈ bs → blockSound bs → b.sound
  | x :: bs, b, h, hs => by
    rcases List.mem_cons.1 h with rfl | h
    · exact hs.1
    · exact blockSound_mem h hs.2

/-- what layout of `b` gives in some block of width `w` -/
def LaidOutIn (E : TextEnv) (b : BlockLevelBox) (w : Length) (f : Fragment) : Prop :=
  ∃ (m : Nat) (cb : ContainingBlock) (rank : Nat) (a : List AbsFragment) (fl : Bool) (o : List AbsFragment),
    cb.inlineSize = w ∧ cb.standard ∧ b.depth ≤ m ∧ boxLayout E m b cb rank a fl = .ok (f, o)

theorem LaidOutIn.unique {E : TextEnv} {b : BlockLevelBox} {w : Length} {f f' : Fragment} (h : LaidOutIn E b w f)
    (h' : LaidOutIn E b w f') (hs : b.sound) (hb : b.heightFree) : f' = f := by
  obtain ⟨n, cb, rank, a, fl, o, h1, h2, h3, h4⟩ := h
  obtain ⟨m, cb', rank', a', fl', o', h1', h2', h3', h4'⟩ := h'
  exact boxLayout_same E hs h3 h3' hb h2 ⟨h1'.trans h1.symm, h2'.trans h2.symm⟩ h4 h4'

theorem stands_shown (E : TextEnv) {b : BlockLevelBox} {w x w' x' : Length} {c : BlockContainer}
    (h : Stands b w x c w' x') : ∀ (n : Nat) (cb : ContainingBlock) (rank : Nat) (abs out : List AbsFragment)
      (fl coll : Bool) (fc : FlowChildren), cb.inlineSize = w → cb.standard → c.sound → c.depth ≤ n →
      containerLayout E (boxLayout E n) c cb rank abs fl coll = .ok (fc, out) →
      b.sound ∧ ∃ f e, LaidOutIn E b w' f ∧ Displays f ⟨x' - x, e⟩ fc.fragments := by
  induction h with
  | here w x bs bs' =>
    intro n cb rank abs out fl coll fc hw hcb hs hd hl
    obtain ⟨pre, f, d, post, r, a, o, fl', e1, e2⟩ := children_split hl
    have hm : b ∈ bs ++ b :: bs' := by simp
    refine ⟨blockSound_mem hm hs, f, d, ⟨n, cb, r, a, fl', o, hw, hcb, (blockDepth_mem hm).trans hd, e2⟩, ?_⟩
    rw [e1, show pre ++ f.translateBlock d :: post = pre ++ ([f.translateBlock d] ++ post) from rfl, sub_self]
    have := (Displays.self f).down d
    simp only [zero_add] at this
    exact this.more pre post
  | same w x s c bs bs' w' x' h ih =>
    intro n cb rank abs out fl coll fc hw hcb hs hd hl
    obtain ⟨pre, f, d, post, r, a, o, fl', e1, e2⟩ := children_split hl
    have hm : BlockLevelBox.sameFormattingContextBlock s c ∈ bs ++ .sameFormattingContextBlock s c :: bs' := by simp
    have hd' := (blockDepth_mem hm).trans hd
    have hs' := blockSound_mem hm hs
    cases n with
    | zero => simp [BlockLevelBox.depth] at hd'
    | succ n =>
      rw [boxLayout] at e2
      simp only [boxLayoutWith] at e2
      obtain ⟨fc', a', o', more, g, m, e3, rfl, hg⟩ := inFlow_across e2
      simp only [BlockLevelBox.depth] at hd'
      obtain ⟨hb, f0, e, k1, k2⟩ := ih n _ _ _ _ _ _ _ (by rw [hw]) (by rfl) hs' (by omega) e3
      refine ⟨hb, f0, g.contentRect.startCorner.block + e + d, k1, ?_⟩
      rw [e1]
      have k3 := (((k2.more [] more).box s g m).down d).more pre post
      have hx : x' - x = g.contentRect.startCorner.inline + (x' - contentLeft false w x s) := by
        rw [← hw, ← (hg x).2]
        ring
      rw [hx]
      exact k3
  | independent w x s c floats bs bs' w' x' h ih =>
    intro n cb rank abs out fl coll fc hw hcb hs hd hl
    obtain ⟨pre, f, d, post, r, a, o, fl', e1, e2⟩ := children_split hl
    have hm : BlockLevelBox.independent s (.mk c floats) ∈ bs ++ .independent s (.mk c floats) :: bs' := by simp
    have hd' := (blockDepth_mem hm).trans hd
    have hs' := blockSound_mem hm hs
    cases n with
    | zero => simp [BlockLevelBox.depth] at hd'
    | succ n =>
      rw [boxLayout] at e2
      simp only [boxLayoutWith] at e2
      obtain ⟨fc', a', o', more, g, m, e3, rfl, hg⟩ := inFlow_across e2
      obtain ⟨⟨fc1, a1⟩, e4, e3⟩ := bind_eq_ok.1 e3
      cases e3
      simp only [BlockLevelBox.depth, Bfc.depth] at hd'
      obtain ⟨hb, f0, e, k1, k2⟩ := ih n _ _ _ _ _ _ _ (by rw [hw]) (by rfl) hs' (by omega) e4
      refine ⟨hb, f0, g.contentRect.startCorner.block + e + d, k1, ?_⟩
      rw [e1]
      have k3 := (((k2.more [] more).box s g m).down d).more pre post
      have hx : x' - x = g.contentRect.startCorner.inline + (x' - contentLeft false w x s) := by
        rw [← hw, ← (hg x).2]
        ring
      rw [hx]
      exact k3

/-! ## A block that stands alone -/

theorem frameless_left {s : Style} (hs : s.Frameless) (w x : Length) :
    widthIn w s = w ∧ contentLeft false w x s = x := by
  have h1 : relativeShift s w 0 = ⟨0, 0⟩ := by
    rw [relativeShift, if_neg hs.position]
  have h2 : widthIn w s = w := by
    simp [widthIn, hs.width, hs.marginLeft, hs.marginRight, hs.paddingLeft, hs.paddingRight, hs.borderLeft, hs.borderRight,
      Vertical.marginIn, Vertical.spaceIn]
  refine ⟨h2, ?_⟩
  simp only [contentLeft, leftEdge, leftMargin, h2, h1, hs.width, hs.marginLeft, hs.paddingLeft, hs.borderLeft,
    Vertical.marginIn, Vertical.spaceIn]
  simp

theorem frameless_border {s : Style} (hs : s.Frameless) (cb : ContainingBlock) (kind : BlockLevelKind) :
    (inFlowSizes cb s kind).border = ⟨0, 0, 0, 0⟩ := by
  have e : s.borderWidth = ⟨.length 0, .length 0, .length 0, .length 0⟩ := by
    simp only [Style.borderWidth, hs.borderTop, hs.borderRight, hs.borderBottom, hs.borderLeft]
    rfl
  simp only [inFlowSizes, e]
  rfl

/-- `layoutInFlow` for such a style -/
theorem inFlow_frameless {absL : AbsLayout} {cb : ContainingBlock} {abs : List AbsFragment} {s : Style} (hs : s.Frameless)
    {kind : BlockLevelKind} {contents} {f : Fragment} {out : List AbsFragment}
    (h : layoutInFlow absL cb abs s kind contents = .ok (f, out)) :
    ∃ fc g m, contents ⟨cb.inlineSize, heightIn cb.blockSize s, s.writingMode⟩ abs
        (inFlowSizes cb s kind).startCollapses = .ok (fc, out) ∧ f = .box s g m fc.fragments ∧
      g.border = ⟨0, 0, 0, 0⟩ ∧ g.contentRect.startCorner.inline = 0 := by
  have hp : Position.isRelativelyPositioned (s.val .position) = false := by
    have := hs.position
    revert this
    generalize s.val .position = p
    cases p <;> simp [Position.isRelativelyPositioned]
  obtain ⟨fc, a, o, more, g, m, h1, h2, h3⟩ := inFlow_across h
  unfold layoutInFlow at h
  simp only at h
  split at h
  · cases h
  · obtain ⟨⟨fc', o'⟩, k0, h⟩ := bind_eq_ok.1 h
    obtain ⟨children, k1, h⟩ := bind_eq_ok.1 h
    simp only [hp, Bool.false_eq_true, if_false] at k0 k1 h
    cases k1
    have hx := (h3 0).2
    rw [(frameless_left hs _ _).2, zero_add] at hx
    cases h
    injection h2 with _ h2
    rw [Vertical.sizes_width, Vertical.sizes_height, (frameless_left hs _ 0).1] at k0
    refine ⟨fc', _, _, k0, rfl, frameless_border hs cb kind, ?_⟩
    rw [← hx, ← h2]

/-- of the fragments only `f` is seen, at a distance of `d` -/
def DisplaysOnly (f : Fragment) (d : PVec2 Length) (fs : List Fragment) : Prop :=
  uprightAll fs → f.upright ∧
    ∀ o, (callsAt o fs).filter DrawCall.isMark = (callsAt (o + d) [f]).filter DrawCall.isMark

theorem DisplaysOnly.self (f : Fragment) : DisplaysOnly f ⟨0, 0⟩ [f] := by
  intro hu
  refine ⟨hu.1, fun o => ?_⟩
  have : o + ⟨0, 0⟩ = o := by simp [pvec2_add]
  rw [this]

theorem DisplaysOnly.down {f g : Fragment} {d : PVec2 Length} (h : DisplaysOnly f d [g]) (e : Length) :
    DisplaysOnly f ⟨d.x, d.y + e⟩ [g.translateBlock e] := by
  intro hu
  have hg : g.upright := (up_down e g).1 hu.1
  obtain ⟨h1, h2⟩ := h ⟨hg, trivial⟩
  refine ⟨h1, fun o => ?_⟩
  have : o + ⟨d.x, d.y + e⟩ = o + ⟨0, e⟩ + d := by
    simp only [pvec2_add, PVec2.mk.injEq]
    constructor <;> ring
  rw [callsAt_down o e hg, ← callsAt_move o ⟨0, e⟩ (fs := [g]) ⟨hg, trivial⟩, h2, this]

theorem DisplaysOnly.box {f : Fragment} {d : PVec2 Length} {cs : List Fragment} (h : DisplaysOnly f d cs) {s : Style}
    (hs : s.Frameless) {g : BoxGeom} (hg : g.border = ⟨0, 0, 0, 0⟩) (hx : g.contentRect.startCorner.inline = 0)
    (m : CollapsedBlockMargins) :
    DisplaysOnly f ⟨d.x, g.contentRect.startCorner.block + d.y⟩ [.box s g m cs] := by
  intro hu
  have hc : uprightAll cs := hu.1
  obtain ⟨h1, h2⟩ := h hc
  refine ⟨h1, fun o => ?_⟩
  have : o + ⟨d.x, g.contentRect.startCorner.block + d.y⟩ = o + (Fragment.box s g m cs).offset + d := by
    simp only [pvec2_add, Fragment.offset, PVec2.mk.injEq, hx]
    constructor <;> ring
  rw [callsAt_box o hc, List.filter_append, frameless_unseen isMark_eye hs hg, h2, this]
  rfl

/-- the only block in a block, after layout and placement -/
theorem only_child {boxL : BoxLayout} {cb : ContainingBlock} {b : BlockLevelBox} {rank : Nat}
    {out : List AbsFragment} {floats coll : Bool} {fc : FlowChildren}
    (h : layoutBlockLevelChildren boxL [b] cb rank [] floats coll = .ok (fc, out)) :
    ∃ f d o fl, fc.fragments = [f.translateBlock d] ∧ boxL b cb 0 [] fl = .ok (f, o) ∧ (o = [] → out = []) := by
  obtain ⟨⟨fs', a, st⟩, e1, h⟩ := bind_eq_ok.1 h
  obtain ⟨adj, h2, h⟩ := bind_eq_ok.1 h
  cases h
  cases floats with
  | true =>
    obtain ⟨⟨f, a'⟩, k1, e1⟩ := bind_eq_ok.1 e1
    obtain ⟨⟨f', st1⟩, k2, e1⟩ := bind_eq_ok.1 e1
    cases e1
    obtain ⟨d, rfl⟩ := place_down k2
    refine ⟨f, d, _, _, rfl, k1, ?_⟩
    rintro rfl
    cases h2
    rfl
  | false =>
    obtain ⟨⟨fs, a1⟩, e2, e1⟩ := bind_eq_ok.1 e1
    obtain ⟨⟨fs1, st1⟩, e3, e1⟩ := bind_eq_ok.1 e1
    cases e1
    obtain ⟨⟨f, a'⟩, k1, e2⟩ := bind_eq_ok.1 e2
    cases e2
    obtain ⟨⟨f', st1⟩, k2, e3⟩ := bind_eq_ok.1 e3
    cases e3
    obtain ⟨d, rfl⟩ := place_down k2
    refine ⟨f, d, _, _, rfl, k1, ?_⟩
    rintro rfl
    cases h2
    rfl

theorem lone_shown (E : TextEnv) {b : BlockLevelBox} {c : BlockContainer} (h : LoneBlock b c) (hh : b.held = []) :
    ∀ (n : Nat) (cb : ContainingBlock) (rank : Nat) (out : List AbsFragment)
      (fl coll : Bool) (fc : FlowChildren), cb.standard → c.sound → c.depth ≤ n →
      containerLayout E (boxLayout E n) c cb rank [] fl coll = .ok (fc, out) →
      b.sound ∧ out = [] ∧ ∃ f e, LaidOutIn E b cb.inlineSize f ∧ DisplaysOnly f ⟨0, e⟩ fc.fragments := by
  induction h with
  | here =>
    intro n cb rank out fl coll fc hcb hs hd hl
    obtain ⟨f, d, o, fl', e1, e2, e3⟩ := only_child hl
    have hm : b ∈ [b] := by simp
    have ho : o = [] := found_nothing (boxFinds E n b cb 0 [] fl' f o hs.1 e2) hh
    refine ⟨hs.1, e3 ho, f, d, ⟨n, cb, _, _, fl', o, rfl, hcb, (blockDepth_mem hm).trans hd, e2⟩, ?_⟩
    rw [e1]
    have := (DisplaysOnly.self f).down d
    simp only [zero_add] at this
    exact this
  | same s c hs h ih =>
    intro n cb rank out fl coll fc hcb hso hd hl
    obtain ⟨f, d, o, fl', e1, e2, e3⟩ := only_child hl
    have hm : BlockLevelBox.sameFormattingContextBlock s c ∈ [BlockLevelBox.sameFormattingContextBlock s c] := by simp
    have hd' := (blockDepth_mem hm).trans hd
    cases n with
    | zero => simp [BlockLevelBox.depth] at hd'
    | succ n =>
      rw [boxLayout] at e2
      simp only [boxLayoutWith] at e2
      obtain ⟨fc', g, m, e4, rfl, hg, hx⟩ := inFlow_frameless hs e2
      simp only [BlockLevelBox.depth] at hd'
      obtain ⟨hb, h0, f0, e, k1, k2⟩ := ih n _ _ _ _ _ _ (by rfl) hso.1 (by omega) e4
      refine ⟨hb, e3 h0, f0, g.contentRect.startCorner.block + e + d, k1, ?_⟩
      rw [e1]
      exact (k2.box hs hg hx m).down d
  | independent s c floats hs h ih =>
    intro n cb rank out fl coll fc hcb hso hd hl
    obtain ⟨f, d, o, fl', e1, e2, e3⟩ := only_child hl
    have hm : BlockLevelBox.independent s (.mk c floats) ∈ [BlockLevelBox.independent s (.mk c floats)] := by simp
    have hd' := (blockDepth_mem hm).trans hd
    cases n with
    | zero => simp [BlockLevelBox.depth] at hd'
    | succ n =>
      rw [boxLayout] at e2
      simp only [boxLayoutWith] at e2
      obtain ⟨fc', g, m, e4, rfl, hg, hx⟩ := inFlow_frameless hs e2
      obtain ⟨⟨fc1, a1⟩, e5, e4⟩ := bind_eq_ok.1 e4
      cases e4
      simp only [BlockLevelBox.depth, Bfc.depth] at hd'
      obtain ⟨hb, h0, f0, e, k1, k2⟩ := ih n _ _ _ _ _ _ (by rfl) hso.1 (by omega) e5
      refine ⟨hb, e3 h0, f0, g.contentRect.startCorner.block + e + d, k1, ?_⟩
      rw [e1]
      exact (k2.box hs hg hx m).down d

/-! ## Contents of elements -/

theorem containerOf_split (C : BoxContext) (s0 : Style) (A B : List Styled) {id : NodeId} {s : Style} {ins : DisplayInside}
    {ks : List Styled} (ho : s.outOfFlow = false) : ∃ bs bs',
    (containerOf C s0 (A ++ .elem id s .block ins ks :: B)).1 = .blockLevelBoxes (bs ++ blockBox C s ins ks :: bs') := by
  unfold containerOf
  rw [putAll_append, putAll]
  obtain ⟨q1, q2⟩ := put_block C s0 (id := id) (ins := ins) (ks := ks) ho (putAll C s0 false A Flow.empty)
  obtain ⟨D, u1, -, -⟩ := putAll_uniform C s0 B false _ _ (rfl : ((Styled.elem id s .block ins ks).put C s0 false
    (putAll C s0 false A Flow.empty)).inl = _)
  rw [container_eq, u1, q1, if_neg (by simp)]
  have aux : ∀ (X D Y : List BlockLevelBox) (b : BlockLevelBox), X ++ [b] ++ D ++ Y = X ++ b :: (D ++ Y) := by simp
  exact ⟨_, _, congrArg _ (aux _ _ _ _)⟩

theorem containerOf_only (C : BoxContext) (s0 : Style) {id : NodeId} {s : Style} {ins : DisplayInside}
    {ks : List Styled} (ho : s.outOfFlow = false) :
    (containerOf C s0 [.elem id s .block ins ks]).1 = .blockLevelBoxes [blockBox C s ins ks] := by
  have := containerOf_blocks C s0 (L := [.elem id s .block ins ks]) (by simp [blocksOnly, Styled.inFlowBlock, ho])
  rw [this]
  simp [Styled.inFlowBlock, ho, Styled.blockBox]

theorem containerOf_stands (C : BoxContext) {e : Styled} {w x w' x' : Length} {cs : List Styled}
    (h : StandsContent e w x cs w' x') : ∀ s0 : Style, Stands (e.blockBox C) w x (containerOf C s0 cs).1 w' x' := by
  induction h with
  | here w x A B he =>
    intro s0
    match e, he with
    | .elem id s .block ins ks, he =>
      obtain ⟨bs, bs', k⟩ := containerOf_split C s0 A B (id := id) (s := s) (ins := ins) (ks := ks)
        (by simpa [Styled.inFlowBlock] using he)
      rw [k]
      exact .here _ _ _ _
  | inside w x A B id s ins cs w' x' ho h ih =>
    intro s0
    obtain ⟨bs, bs', k⟩ := containerOf_split C s0 A B (id := id) (s := s) (ins := ins) (ks := cs) ho
    rw [k]
    cases ins with
    | flow => exact .same _ _ _ _ _ _ _ _ (ih s)
    | flowRoot => exact .independent _ _ _ _ _ _ _ _ _ (ih s)

theorem containerOf_lone (C : BoxContext) {e : Styled} {cs : List Styled} (h : LoneContent e cs) :
    ∀ s0 : Style, LoneBlock (e.blockBox C) (containerOf C s0 cs).1 := by
  induction h with
  | here he =>
    intro s0
    match e, he with
    | .elem id s .block ins ks, he =>
      rw [containerOf_only C s0 (by simpa [Styled.inFlowBlock] using he)]
      exact .here
  | inside id s ins cs hs ho h ih =>
    intro s0
    rw [containerOf_only C s0 ho]
    cases ins with
    | flow => exact .same _ _ hs (ih s)
    | flowRoot => exact .independent _ _ _ hs (ih s)

theorem blockBox_held (C : BoxContext) (id : NodeId) (s : Style) (out : DisplayOutside) (ins : DisplayInside)
    (ks : List Styled) (h : (Styled.elem id s out ins ks).closed) :
    ((Styled.elem id s out ins ks).blockBox C).held = [] := by
  simp only [Styled.blockBox]
  rcases h with h | h
  · cases ins <;> simp [Sinab.blockBox, BlockLevelBox.held, h]
  · have := container_held _ (containerOf_unlifted C s h)
    cases ins <;> simp [Sinab.blockBox, BlockLevelBox.held, this]

end Sinab
