import Verif.Spec.Spanned
import Verif.Lemmas.BlockLayout
import Verif.Lemmas.ReadWords
import Verif.Lemmas.Append
import Verif.Lemmas.Grouped
import Verif.Lemmas.Pruned
import Verif.Props.Floats
import Verif.Props.Paint

/-! Layout and painting of inline content that is put in inline boxes of its own (C96). -/

namespace Sinab

/-! ## Soundness -/

theorem inlineSound_both : ∀ {a b : List InlineLevelBox}, inlineSound (a ++ b) → inlineSound a ∧ inlineSound b
  | [], _, h => ⟨trivial, h⟩
  | _ :: _, _, h => ⟨⟨h.1, (inlineSound_both h.2).1⟩, (inlineSound_both h.2).2⟩

mutual

theorem Spanned.sound {E : TextEnv} : ∀ {c c' : BlockContainer}, Spanned E c c' → c.sound → c'.sound
  | _, _, .blocks _ _ h, hs => by
    simp only [BlockContainer.sound] at hs ⊢
    exact h.sound hs
  | _, _, .inlines _ _ _ h, hs => by
    simp only [BlockContainer.sound] at hs ⊢
    exact h.sound hs

theorem SpannedBlock.sound {E : TextEnv} : ∀ {b b' : BlockLevelBox}, SpannedBlock E b b' → b.sound → b'.sound
  | _, _, .same _ _ _ h, hs => by
    simp only [BlockLevelBox.sound] at hs ⊢
    exact h.sound hs
  | _, _, .independent _ _ _ _ _ h, hs => by
    simp only [BlockLevelBox.sound, Bfc.sound] at hs ⊢
    exact h.sound hs
  | _, _, .absolute _ _ _ _ _ h, hs => by
    simp only [BlockLevelBox.sound, Bfc.sound] at hs ⊢
    exact h.sound hs
  | _, _, .float _ _ _ _ _ h, hs => by
    simp only [BlockLevelBox.sound, Bfc.sound] at hs ⊢
    exact h.sound hs

theorem SpannedBlocks.sound {E : TextEnv} : ∀ {bs bs' : List BlockLevelBox}, SpannedBlocks E bs bs' → blockSound bs →
    blockSound bs'
  | _, _, .nil, hs => hs
  | _, _, .cons _ _ _ _ h hs, hb => ⟨h.sound hb.1, hs.sound hb.2⟩

theorem SpannedInline.sound {E : TextEnv} : ∀ {b b' : InlineLevelBox}, SpannedInline E b b' → b.sound → b'.sound
  | _, _, .text _ _ _ _ _, hs => hs
  | _, _, .box _ _ _ _ _ h, hs => by
    simp only [InlineLevelBox.sound] at hs ⊢
    exact h.sound hs
  | _, _, .absolute _ _ _ _ _ h, hs => by
    simp only [InlineLevelBox.sound, Bfc.sound] at hs ⊢
    exact ⟨hs.1, h.sound hs.2⟩
  | _, _, .float _ _ _ _ _ h, hs => by
    simp only [InlineLevelBox.sound, Bfc.sound] at hs ⊢
    exact h.sound hs

theorem SpannedInlines.sound {E : TextEnv} {f : Font} : ∀ {bs bs' : List InlineLevelBox}, SpannedInlines E f bs bs' →
    inlineSound bs → inlineSound bs'
  | _, _, .nil _, hs => hs
  | _, _, .cons _ _ _ _ _ h hs, hb => ⟨h.sound hb.1, hs.sound hb.2⟩
  | _, _, .wrap _ _ _ _ _ _ _ _ _ _ hX hY, hb => by
    obtain ⟨h1, h2⟩ := inlineSound_both hb
    refine ⟨?_, hY.sound h2⟩
    simp only [InlineLevelBox.sound]
    exact hX.sound h1

end

/-! ## Plain inline boxes -/

namespace Style.Unmarked

variable {w : Style}

theorem startSpace_zero (h : w.Unmarked) (cbis : ℚ) : startSpace cbis w = 0 := by
  have e1 : w.padding.inlineStart = .length 0 := h.paddingLeft
  have e2 : w.borderWidth.inlineStart = .length 0 := h.borderLeft
  have e3 : w.margin.inlineStart = .length 0 := h.marginLeft
  rw [startSpace, e1, e2, e3]
  simp [LengthOrPercentage.percentageRelativeTo, LengthOrPercentageOrAuto.percentageRelativeTo, LengthOrAuto.autoIs]

theorem endSpace_zero (h : w.Unmarked) (cbis : ℚ) : endSpace cbis w = 0 := by
  have e1 : w.padding.inlineEnd = .length 0 := h.paddingRight
  have e2 : w.borderWidth.inlineEnd = .length 0 := h.borderRight
  have e3 : w.margin.inlineEnd = .length 0 := h.marginRight
  rw [endSpace, e1, e2, e3]
  simp [LengthOrPercentage.percentageRelativeTo, LengthOrPercentageOrAuto.percentageRelativeTo, LengthOrAuto.autoIs]

theorem shift_zero (h : w.Unmarked) (own parent : Font) : shiftOf w own parent = 0 := by
  simp [shiftOf, h.align]

theorem rel_zero (h : w.Unmarked) (a : Length) (b : LengthOrAuto) : relativeAdjustement w a b = ⟨0, 0⟩ := by
  rw [relativeAdjustement, if_pos]
  · rfl
  · simp [Position.isRelativelyPositioned, h.position]

theorem border_zero (h : w.Unmarked) (s e : Bool) (cbis : ℚ) :
    cutSides s e (w.borderWidth.percentagesRelativeTo cbis) = ⟨0, 0, 0, 0⟩ := by
  have e : w.borderWidth = ⟨.length 0, .length 0, .length 0, .length 0⟩ := by
    simp only [Style.borderWidth, h.borderTop, h.borderRight, h.borderBottom, h.borderLeft]
    rfl
  have p : (⟨.length 0, .length 0, .length 0, .length 0⟩ : Sides LengthOrPercentage).percentagesRelativeTo cbis
      = ⟨0, 0, 0, 0⟩ := rfl
  rw [e, p]
  simp [cutSides]

end Style.Unmarked

/-! ## Lines -/

theorem joinLines_assoc : ∀ A B C : List Line, B ≠ [] → joinLines (joinLines A B) C = joinLines A (joinLines B C)
  | [], _, _, _ => rfl
  | [a], [], _, h => absurd rfl h
  | [a], [b], [], _ => rfl
  | [a], [b], c :: C, _ => by simp [joinLines]
  | [a], b :: b' :: B, C, _ => by simp [joinLines]
  | a :: a' :: A, B, C, h => by
    have ih := joinLines_assoc (a' :: A) B C h
    rw [joinLines, joinLines]
    cases hj : joinLines (a' :: A) B with
    | nil => exact absurd hj (joinLines_ne_nil _ _ (.inl (by simp)))
    | cons d D =>
      rw [joinLines, ← hj, ih]

theorem cutRun_some (E : TextEnv) (ws : WhiteSpace) (font : Font) (full avail : ℚ) (t : Text) :
    cutRun E ws font full avail t ≠ [] :=
  (Append.cutRun_more (t' := []) (.inl (by simp [Append.midWord])) ws full avail).ne.1

theorem linesOf_ne_nil (E : TextEnv) (w : ℚ) (b : InlineLevelBox) (x : ℚ) : b.linesOf E w x ≠ [] := by
  cases b with
  | textRun st t font =>
    rw [InlineLevelBox.linesOf]
    intro h
    exact cutRun_some E _ _ _ _ _ (List.map_eq_nil_iff.1 h)
  | inlineBox st a b ks =>
    rw [InlineLevelBox.linesOf]
    exact decorate_ne_nil _ _ _ _ _ (inlineLines_ne_nil E w _ _)
  | outOfFlowAbsolutelyPositionedBox => simp [InlineLevelBox.linesOf]
  | outOfFlowFloatBox => simp [InlineLevelBox.linesOf]

theorem inlineLines_append (E : TextEnv) (w : ℚ) : ∀ (X Y : List InlineLevelBox) (x : ℚ),
    inlineLines E w (X ++ Y) x = joinLines (inlineLines E w X x) (inlineLines E w Y (endPos E w x (inlineLines E w X x)))
  | [], Y, x => by
    rw [List.nil_append, inlineLines, endPos_empty, joinLines_nil_left _ (inlineLines_ne_nil E w Y x)]
  | b :: X, Y, x => by
    rw [List.cons_append, inlineLines, inlineLines_append E w X Y, inlineLines,
      joinLines_assoc _ _ _ (inlineLines_ne_nil E w X _),
      endPos_joinLines _ _ _ _ _ (linesOf_ne_nil E w b x) (inlineLines_ne_nil E w X _)]

/-! ## What is on a line -/

mutual

/-- the same item, with some consecutive ones in it put in plain boxes -/
inductive SpItem (E : TextEnv) : Item → Item → Prop
  | text (s s' : Style) (font : Font) (t : Text) (nl : Bool) (h : s.SameText s') :
    SpItem E (.text s font t nl) (.text s' font t nl)
  | box (s : Style) (a b c : Bool) (is is' : List Item) (h : SpItems E (E.font s) is is') :
    SpItem E (.box s a b c is) (.box s a b c is')

/-- see `SpItem` -/
inductive SpItems (E : TextEnv) : Font → List Item → List Item → Prop
  | nil (f : Font) : SpItems E f [] []
  | cons (f : Font) (i i' : Item) (is is' : List Item) (h : SpItem E i i') (hs : SpItems E f is is') :
    SpItems E f (i :: is) (i' :: is')
  | wrap (f : Font) (w : Style) (a b c : Bool) (X X' Y Y' : List Item) (hw : w.Unmarked) (hf : E.font w = f)
    (hX : SpItems E f X X') (hY : SpItems E f Y Y') : SpItems E f (X ++ Y) (.box w a b c X' :: Y')

end

theorem ascentOf_same {s s' : Style} (h : s.SameText s') (f : Font) : ascentOf s' f = ascentOf s f := by
  simp only [ascentOf, lineHeightOf, h.fontSize, h.lineHeight]

theorem descentOf_same {s s' : Style} (h : s.SameText s') (f : Font) : descentOf s' f = descentOf s f := by
  simp only [descentOf, lineHeightOf, h.fontSize, h.lineHeight]

mutual

theorem SpItem.advance (E : TextEnv) (w : ℚ) : ∀ {i i' : Item}, SpItem E i i' → ∀ x, i'.advance E w x = i.advance E w x
  | _, _, .text _ _ _ _ _ _, _ => rfl
  | _, _, .box _ _ _ _ _ _ h, x => by simp only [Item.advance, h.advance E w]

theorem SpItems.advance (E : TextEnv) (w : ℚ) {f : Font} : ∀ {l l' : List Item}, SpItems E f l l' →
    ∀ x, Sinab.advance E w l' x = Sinab.advance E w l x
  | _, _, .nil _, _ => rfl
  | _, _, .cons _ _ _ _ _ h hs, x => by simp only [Sinab.advance, h.advance E w, hs.advance E w]
  | _, _, .wrap _ _ _ _ _ _ _ _ _ hw _ hX hY, x => by
    rw [advance_append, Sinab.advance, Item.advance, hY.advance E w, hX.advance E w, hw.startSpace_zero, hw.endSpace_zero]
    simp only [add_zero, ite_self]

end

mutual

theorem SpItem.extents (E : TextEnv) : ∀ {i i' : Item}, SpItem E i i' → ∀ (f : Font) (d : ℚ),
    i'.extents E f d = i.extents E f d
  | _, _, .text _ _ _ _ _ h, _, _ => by simp only [Item.extents, ascentOf_same h, descentOf_same h]
  | _, _, .box _ _ _ _ _ _ h, f, d => by simp only [Item.extents, h.extents E]

theorem SpItems.extents (E : TextEnv) {f : Font} : ∀ {l l' : List Item}, SpItems E f l l' → ∀ d : ℚ,
    Sinab.extents E l' f d = Sinab.extents E l f d
  | _, _, .nil _, _ => rfl
  | _, _, .cons _ _ _ _ _ h hs, d => by simp only [Sinab.extents, h.extents E, hs.extents E]
  | _, _, .wrap _ _ _ _ _ _ _ _ _ hw hf hX hY, d => by
    rw [extents_append, Sinab.extents, Item.extents, hf, hw.shift_zero, add_zero, hX.extents E, hY.extents E]

end

theorem SpItems.append {E : TextEnv} {f : Font} {b b' : List Item} (hb : SpItems E f b b') :
    ∀ {a a' : List Item}, SpItems E f a a' → SpItems E f (a ++ b) (a' ++ b')
  | _, _, .nil _ => hb
  | _, _, .cons _ _ _ _ _ h hs => .cons _ _ _ _ _ h (SpItems.append hb hs)
  | _, _, .wrap _ _ _ _ _ _ _ _ _ hw hf hX hY => by
    rw [List.append_assoc, List.cons_append]
    exact .wrap _ _ _ _ _ _ _ _ _ hw hf hX (SpItems.append hb hY)

/-- the same lines, with some consecutive parts put in plain boxes -/
abbrev SpLines (E : TextEnv) (f : Font) (L L' : List Line) : Prop := List.Forall₂ (SpItems E f) L L'

theorem SpLines.endPos {E : TextEnv} {f : Font} (w : ℚ) {L L' : List Line} (h : SpLines E f L L') :
    ∀ x, endPos E w x L' = endPos E w x L := by
  induction h with
  | nil => intro _; rfl
  | cons h hs ih =>
    intro x
    cases hs with
    | nil => exact h.advance E w x
    | cons h' hs' => exact ih 0

theorem SpLines.join {E : TextEnv} {f : Font} {B B' : List Line} (hB : SpLines E f B B') {A A' : List Line}
    (h : SpLines E f A A') : SpLines E f (joinLines A B) (joinLines A' B') := by
  induction h with
  | nil => exact hB
  | cons h hs ih =>
    cases hs with
    | nil =>
      cases hB with
      | nil => exact .cons h .nil
      | cons k ks => exact .cons (SpItems.append k h) ks
    | cons h' hs' => exact .cons h ih

theorem SpLines.decorate {E : TextEnv} {f : Font} {s : Style} {L L' : List Line} (h : SpLines E (E.font s) L L') :
    ∀ (a b c : Bool), SpLines E f (decorate s a b c L) (decorate s a b c L') := by
  induction h with
  | nil => intros; exact .nil
  | cons h hs ih =>
    intro a b c
    cases hs with
    | nil => exact .cons (.cons _ _ _ _ _ (.box _ _ _ _ _ _ h) (.nil _)) .nil
    | cons h' hs' => exact .cons (.cons _ _ _ _ _ (.box _ _ _ _ _ _ h) (.nil _)) (ih _ _ _)

theorem SpLines.wrapped {E : TextEnv} {f : Font} {w : Style} (hw : w.Unmarked) (hf : E.font w = f) {L L' : List Line}
    (h : SpLines E f L L') : ∀ (a b c : Bool), SpLines E f L (Sinab.decorate w a b c L') := by
  have one : ∀ {l l' : Line} (a b c : Bool), SpItems E f l l' → SpItems E f l [.box w a b c l'] := by
    intro l l' a b c h
    have := SpItems.wrap f w a b c l l' [] [] hw hf h (.nil _)
    rwa [List.append_nil] at this
  induction h with
  | nil => intros; exact .nil
  | cons h hs ih =>
    intro a b c
    cases hs with
    | nil => exact .cons (one _ _ _ h) .nil
    | cons h' hs' => exact .cons (one _ _ _ h) (ih _ _ _)

mutual

theorem SpannedInline.lines {E : TextEnv} (w : ℚ) (f : Font) : ∀ {b b' : InlineLevelBox}, SpannedInline E b b' → ∀ x : ℚ,
    SpLines E f (b.linesOf E w x) (b'.linesOf E w x)
  | _, _, .text s s' t font h, x => by
    simp only [InlineLevelBox.linesOf, h.whiteSpace]
    generalize cutRun E (s.val .whiteSpace) font w (w - x) t = ps
    induction ps with
    | nil => exact .nil
    | cons p ps ih => exact .cons (.cons _ _ _ _ _ (.text _ _ _ _ _ h) (.nil _)) ih
  | _, _, .box _ _ _ _ _ h, x => by
    simp only [InlineLevelBox.linesOf]
    exact (h.lines w _).decorate _ _ _
  | _, _, .absolute _ _ _ _ _ _, _ => by simp only [InlineLevelBox.linesOf]; exact .cons (.nil _) .nil
  | _, _, .float _ _ _ _ _ _, _ => by simp only [InlineLevelBox.linesOf]; exact .cons (.nil _) .nil

theorem SpannedInlines.lines {E : TextEnv} (w : ℚ) {f : Font} : ∀ {bs bs' : List InlineLevelBox},
    SpannedInlines E f bs bs' → ∀ x : ℚ, SpLines E f (inlineLines E w bs x) (inlineLines E w bs' x)
  | _, _, .nil _, _ => by simp only [inlineLines]; exact .cons (.nil _) .nil
  | _, _, .cons _ _ _ _ _ h hs, x => by
    simp only [inlineLines]
    rw [(h.lines w f x).endPos]
    exact (hs.lines w _).join (h.lines w f x)
  | _, _, .wrap _ w' first last X X' Y Y' hw hf hX hY, x => by
    have e : (if first then x + startSpace w w' else x) = x := by
      rw [hw.startSpace_zero, add_zero, ite_self]
    have k := (hX.lines w x).wrapped hw hf true first last
    rw [inlineLines_append, inlineLines, InlineLevelBox.linesOf, e, k.endPos]
    exact (hY.lines w _).join k

end

/-! ## Boxes that wait for their containing block -/

/-- the same box, with some inline boxes inside put in plain boxes -/
def AbsSpanned (E : TextEnv) (a a' : AbsFragment) : Prop :=
  Spanned E a.contents.contents a'.contents.contents ∧ a'.style = a.style ∧ a'.inlineStart = a.inlineStart ∧
    a'.inlineSize = a.inlineSize ∧ a'.blockStart = a.blockStart ∧ a'.blockSize = a.blockSize

/-- see `AbsSpanned` -/
abbrev AllSpanned (E : TextEnv) (as as' : List AbsFragment) : Prop := List.Forall₂ (AbsSpanned E) as as'

theorem AllSpanned.append {E : TextEnv} {a a' b b' : List AbsFragment} (h : AllSpanned E a a') (h' : AllSpanned E b b') :
    AllSpanned E (a ++ b) (a' ++ b') := List.rel_append h h'

theorem AbsSpanned.moved {E : TextEnv} {a a' : AbsFragment} (h : AbsSpanned E a a') (r : Nat) (v : Vec2 Length) :
    AbsSpanned E (a.moved r v) (a'.moved r v) := by
  obtain ⟨h1, h2, h3, h4, h5, h6⟩ := h
  refine ⟨h1, h2, ?_, h4, ?_, h6⟩
  · simp only [AbsFragment.moved, h3]
  · simp only [AbsFragment.moved, h5]

theorem AllSpanned.map {E : TextEnv} {as as' : List AbsFragment} (h : AllSpanned E as as') (r : Nat) (v : Vec2 Length)
    {F F' : AbsFragment → Vec2 Length} (hF : ∀ a ∈ as, F a = v) (hF' : ∀ a ∈ as', F' a = v) :
    AllSpanned E (as.map fun a => a.moved r (F a)) (as'.map fun a => a.moved r (F' a)) := by
  induction h with
  | nil => exact .nil
  | @cons a a' as as' h _ ih =>
    simp only [List.map_cons, hF a (by simp), hF' a' (by simp)]
    exact .cons (h.moved r v) (ih (fun b hb => hF b (by simp [hb])) (fun b hb => hF' b (by simp [hb])))

theorem layoutAbsBox_spanned {E : TextEnv} (st : Style) {c c' : BlockContainer} (fl fl' : Bool) (h : Spanned E c c')
    (v : Vec2 Length) (r : Nat) : AbsSpanned E (layoutAbsBox st (.mk c fl) v r) (layoutAbsBox st (.mk c' fl') v r) :=
  ⟨h, rfl, rfl, rfl, rfl, rfl⟩

mutual

/-- what is not yet laid out does not matter -/
theorem found_erase (E : TextEnv) (w : ℚ) (root : Font) (r : Nat) : ∀ (b : InlineLevelBox) (G G' : Ghost),
    G'.erase = G.erase → b.found E w root r G' = b.found E w root r G
  | .textRun .., _, _, _ => rfl
  | .inlineBox s first last bs, G, G', hG => by
    simp only [InlineLevelBox.found]
    refine inlineFound_erase E w root r bs _ _ ?_
    simp only [Ghost.erase, Ghost.mk.injEq, and_true] at hG
    obtain ⟨h1, h2, h3⟩ := hG
    simp only [Ghost.start, Ghost.erase, List.map_cons, h1, h2, h3]
    rfl
  | .outOfFlowAbsolutelyPositionedBox s c, G, G', hG => by
    have hc : G'.corner E w root s = G.corner E w root s := by rw [← G'.corner_erase, hG, G.corner_erase]
    simp only [InlineLevelBox.found, hc]
  | .outOfFlowFloatBox _ _, _, _, _ => rfl

/-- what is not yet laid out does not matter -/
theorem inlineFound_erase (E : TextEnv) (w : ℚ) (root : Font) (r : Nat) : ∀ (bs : List InlineLevelBox) (G G' : Ghost),
    G'.erase = G.erase → inlineFound E w root r bs G' = inlineFound E w root r bs G
  | [], _, _, _ => rfl
  | b :: bs, G, G', hG => by
    have hp : G'.pos E w root = G.pos E w root := by rw [← G'.pos_erase, hG, G.pos_erase]
    simp only [inlineFound, hp]
    rw [found_erase E w root r b (G.setRem bs) (G'.setRem bs) hG,
      inlineFound_erase E w root r bs ((G.setRem bs).extend _) ((G'.setRem bs).extend _)]
    rw [Ghost.extend_erase, Ghost.extend_erase]
    exact congrArg (fun g => Ghost.extend g _) hG

end

theorem inlineFound_append (E : TextEnv) (w : ℚ) (root : Font) (r : Nat) : ∀ (X Y : List InlineLevelBox) (G : Ghost),
    inlineFound E w root r (X ++ Y) G = inlineFound E w root r X G ++
      inlineFound E w root r Y (G.extend (inlineLines E w X (G.pos E w root)))
  | [], Y, G => by
    rw [inlineLines, Ghost.extend_empty]
    rfl
  | b :: X, Y, G => by
    have hp : ((G.setRem (X ++ Y)).extend (b.linesOf E w (G.pos E w root))).pos E w root =
        endPos E w (G.pos E w root) (b.linesOf E w (G.pos E w root)) := extend_pos _ _ _ _ _
    rw [List.cons_append, inlineFound, inlineFound_append E w root r X Y, inlineFound, List.append_assoc,
      found_erase E w root r b (G.setRem X) (G.setRem (X ++ Y)) rfl,
      inlineFound_erase E w root r X ((G.setRem X).extend _) ((G.setRem (X ++ Y)).extend _)]
    · congr 2
      refine inlineFound_erase E w root r Y _ _ ?_
      rw [hp, inlineLines, ← Ghost.extend_join _ _ _ (linesOf_ne_nil E w b _) (inlineLines_ne_nil E w X _),
        Ghost.extend_erase, Ghost.extend_erase]
      rfl
    · rw [Ghost.extend_erase, Ghost.extend_erase]
      rfl

/-- two partly filled pages on which the next box is put in the same place -/
structure GSame (E : TextEnv) (w : ℚ) (root f : Font) (G G' : Ghost) : Prop where
  font : (ctx E w root G.stack).1 = f
  font' : (ctx E w root G'.stack).1 = f
  shift : (ctx E w root G'.stack).2.1 = (ctx E w root G.stack).2.1
  pos : G'.pos E w root = G.pos E w root
  height : pageHeight E root G'.done = pageHeight E root G.done
  line : extents E (closeAll G'.stack G'.cur) root 0 = extents E (closeAll G.stack G.cur) root 0

theorem closeAll_extents (E : TextEnv) (w : ℚ) (root : Font) : ∀ (g : List GBox), ∃ pre, ∀ items,
    extents E (closeAll g items) root 0 = pre ++ extents E items (ctx E w root g).1 (ctx E w root g).2.1
  | [] => ⟨[], fun _ => rfl⟩
  | b :: g => by
    obtain ⟨pre, h⟩ := closeAll_extents E w root g
    refine ⟨pre ++ extents E b.items (ctx E w root g).1 (ctx E w root g).2.1, fun items => ?_⟩
    rw [closeAll, h, extents_append, List.append_assoc]
    simp only [extents, Item.extents, List.append_nil, ctx]

theorem closeAll_more (E : TextEnv) (w : ℚ) (root : Font) (g : List GBox) (a b : List Item) :
    extents E (closeAll g (a ++ b)) root 0 =
      extents E (closeAll g a) root 0 ++ extents E b (ctx E w root g).1 (ctx E w root g).2.1 := by
  obtain ⟨pre, h⟩ := closeAll_extents E w root g
  rw [h, h, extents_append, List.append_assoc]

theorem closeAll_start (E : TextEnv) (g : List GBox) (b : GBox) (root : Font) :
    extents E (closeAll (b :: g) []) root 0 = extents E (closeAll g b.items) root 0 := by
  rw [closeAll, closeAll_more E 0]
  simp [extents, Item.extents]

theorem ctx_cont_font (E : TextEnv) (w : ℚ) (root : Font) : ∀ (g : List GBox),
    (ctx E w root (g.map GBox.cont)).1 = (ctx E w root g).1 ∧ (ctx E w root (g.map GBox.cont)).2.1 = (ctx E w root g).2.1
  | [] => ⟨rfl, rfl⟩
  | b :: g => by
    obtain ⟨h1, h2⟩ := ctx_cont_font E w root g
    refine ⟨rfl, ?_⟩
    simp only [List.map_cons, ctx, h1, h2]
    rfl

theorem height_same {E : TextEnv} {root : Font} {l l' : Line} (h : extents E l' root 0 = extents E l root 0) :
    lineHeight E root l' = lineHeight E root l := by
  simp only [lineHeight, lineAscent, lineDescent, h]

namespace GSame

variable {E : TextEnv} {w : ℚ} {root f : Font} {G G' : Ghost}

theorem setRem (h : GSame E w root f G G') (r r' : List InlineLevelBox) : GSame E w root f (G.setRem r) (G'.setRem r') :=
  ⟨h.1, h.2, h.3, h.4, h.5, h.6⟩

theorem add (h : GSame E w root f G G') {l l' : Line} (hl : SpItems E f l l') : GSame E w root f (G.add l) (G'.add l') := by
  refine ⟨h.font, h.font', h.shift, ?_, h.height, ?_⟩
  · have := h.pos
    simp only [Ghost.pos, Ghost.add, advance_append] at this ⊢
    rw [this, hl.advance E w]
  · simp only [Ghost.add]
    rw [closeAll_more E w, closeAll_more E w, h.line, h.shift, h.font, h.font', hl.extents E]

theorem newline (h : GSame E w root f G G') : GSame E w root f G.line G'.line := by
  have k := ctx_cont_font E w root G.stack
  have k' := ctx_cont_font E w root G'.stack
  refine ⟨k.1.trans h.font, k'.1.trans h.font', k'.2.trans (h.shift.trans k.2.symm), ?_, ?_, ?_⟩
  · simp [Ghost.line, Ghost.pos, ctx_cont, advance]
  · have := h.height
    simp only [pageHeight, Ghost.line, List.map_append, List.sum_append, List.map_cons, List.map_nil] at this ⊢
    rw [this, height_same h.line]
  · obtain ⟨p, e⟩ := closeAll_extents E w root (G.stack.map GBox.cont)
    have nil : ∀ g : List GBox, extents E (closeAll (g.map GBox.cont) []) root 0 = [] := by
      intro g
      induction g with
      | nil => rfl
      | cons b g ih => rw [List.map_cons, closeAll_start]; exact ih
    simp only [Ghost.line, nil]

theorem extend {L L' : List Line} (hL : SpLines E f L L') : ∀ {G G' : Ghost}, GSame E w root f G G' →
    GSame E w root f (G.extend L) (G'.extend L') := by
  induction hL with
  | nil => intro G G' h; exact h
  | cons hl hs ih =>
    intro G G' h
    cases hs with
    | nil => exact h.add hl
    | cons h' hs' => exact ih (h.add hl).newline

theorem start (h : GSame E w root f G G') (s : Style) (a b : Bool) (c c' : List InlineLevelBox) :
    GSame E w root (E.font s) (G.start s a b c) (G'.start s a b c') := by
  refine ⟨rfl, rfl, ?_, ?_, h.height, ?_⟩
  · simp only [Ghost.start, ctx, h.shift, h.font, h.font']
  · have := h.pos
    simp only [Ghost.pos] at this
    simp only [Ghost.pos, Ghost.start, ctx, advance, this]
  · simp only [Ghost.start, closeAll_start]
    exact h.line

theorem startPlain (h : GSame E w root f G G') {s : Style} (hs : s.Unmarked) (hf : E.font s = f) (a b : Bool)
    (c' : List InlineLevelBox) : GSame E w root f G (G'.start s a b c') := by
  refine ⟨h.font, hf, ?_, ?_, h.height, ?_⟩
  · simp only [Ghost.start, ctx, h.shift, hs.shift_zero, add_zero]
  · have := h.pos
    simp only [Ghost.pos] at this
    simp only [Ghost.pos, Ghost.start, ctx, advance, this, hs.startSpace_zero, add_zero, ite_self]
  · simp only [Ghost.start, closeAll_start]
    exact h.line

end GSame

mutual

theorem SpannedInline.found {E : TextEnv} (w : ℚ) (root : Font) (r : Nat) : ∀ {b b' : InlineLevelBox},
    SpannedInline E b b' → ∀ (f : Font) (G G' : Ghost), GSame E w root f G G' →
      AllSpanned E (b.found E w root r G) (b'.found E w root r G')
  | _, _, .text _ _ _ _ _, _, _, _, _ => by simp only [InlineLevelBox.found]; exact .nil
  | _, _, .box s first last bs bs' h, f, G, G', hG => by
    simp only [InlineLevelBox.found]
    exact h.found w root r _ _ (hG.start s first last bs bs')
  | _, _, .absolute s c c' fl fl' h, f, G, G', hG => by
    have hc : G'.corner E w root s = G.corner E w root s := by
      unfold Ghost.corner
      rw [hG.pos, hG.height]
    simp only [InlineLevelBox.found, hc]
    exact .cons (layoutAbsBox_spanned s fl fl' h _ r) .nil
  | _, _, .float _ _ _ _ _ _, _, _, _, _ => by simp only [InlineLevelBox.found]; exact .nil

theorem SpannedInlines.found {E : TextEnv} (w : ℚ) (root : Font) (r : Nat) {f : Font} :
    ∀ {bs bs' : List InlineLevelBox}, SpannedInlines E f bs bs' → ∀ (G G' : Ghost), GSame E w root f G G' →
      AllSpanned E (inlineFound E w root r bs G) (inlineFound E w root r bs' G')
  | _, _, .nil _, _, _, _ => by simp only [inlineFound]; exact .nil
  | _, _, .cons _ b b' bs bs' h hs, G, G', hG => by
    simp only [inlineFound, hG.pos]
    exact (h.found w root r f _ _ (hG.setRem bs bs')).append
      (hs.found w root r _ _ (GSame.extend (h.lines w f _) (hG.setRem bs bs')))
  | _, _, .wrap _ w' first last X X' Y Y' hw hf hX hY, G, G', hG => by
    have e : (if first then G.pos E w root + startSpace w w' else G.pos E w root) = G.pos E w root := by
      rw [hw.startSpace_zero, add_zero, ite_self]
    rw [inlineFound_append, inlineFound, InlineLevelBox.found, InlineLevelBox.linesOf, hG.pos, e]
    exact (hX.found w root r _ _ ((hG.setRem G.rem Y').startPlain hw hf first last X')).append
      (hY.found w root r _ _ (GSame.extend ((hX.lines w _).wrapped hw hf true first last) (hG.setRem G.rem Y')))

end

/-! ## What is seen of a line -/

mutual

theorem place_item_up (E : TextEnv) (cb : ContainingBlock) : ∀ (i : Item) (f : Font) (o x : ℚ),
    uprightAll (i.place E cb f o x)
  | .text st font t nl, f, o, x => by
    rw [Item.place]
    split
    · trivial
    · exact ⟨trivial, trivial⟩
  | .box st a s e is, f, o, x => by
    rw [Item.place]
    exact ⟨place_up E cb is _ _ _, trivial⟩

theorem place_up (E : TextEnv) (cb : ContainingBlock) : ∀ (l : List Item) (f : Font) (o x : ℚ),
    uprightAll (place E cb l f o x)
  | [], _, _, _ => trivial
  | i :: l, f, o, x => by
    rw [place]
    exact uprightAll_append (place_item_up E cb i f o x) (place_up E cb l f o _)

end

theorem isMark_eye : Eye DrawCall.isMark where
  move v a := by cases a <;> rfl
  bbox _ _ _ _ := rfl

theorem unmarked_unseen {w : Style} (hw : w.Unmarked) {g : BoxGeom} (hg : g.border = ⟨0, 0, 0, 0⟩)
    (m : CollapsedBlockMargins) (cs : List Fragment) (o : PVec2 Length) :
    (ownCalls o (.box w g m cs)).filter DrawCall.isMark = [] := by
  have h1 : backgroundCall w g o = [] := by
    rw [backgroundCall, if_neg]
    rw [hw.background]
    decide
  have h2 : edgeCall w g o = fun _ => none := by
    funext s
    rw [edgeCall, if_neg]
    intro k
    cases s <;> simp [BoxGeom.edge, hg] at k
  rw [ownCalls, h1, h2]
  simp [DrawCall.isMark]

/-- a box of which the corner is given relative to another point -/
theorem ownCalls_corner (st : Style) (g g' : BoxGeom) (m : CollapsedBlockMargins) (cs cs' : List Fragment)
    (o o' : PVec2 Length) (hp : g'.padding = g.padding) (hb : g'.border = g.border) (hm : g'.margin = g.margin)
    (hs : g'.contentRect.size = g.contentRect.size)
    (h : o' + (Fragment.box st g' m cs').offset = o + (Fragment.box st g m cs).offset) :
    ownCalls o' (.box st g' m cs') = ownCalls o (.box st g m cs) := by
  simp only [Fragment.offset, pvec2_add, PVec2.mk.injEq] at h
  obtain ⟨h1, h2⟩ := h
  have hb' : g'.borderArea o' = g.borderArea o := by
    simp only [BoxGeom.borderArea, hp, hb, hs, Area.mk.injEq]
    refine ⟨?_, ?_, ?_, ?_⟩ <;> linarith
  have hm' : g'.marginArea o' = g.marginArea o := by
    simp only [BoxGeom.marginArea, hb', hm]
  have he : g'.edge = g.edge := by
    funext s
    cases s <;> simp only [BoxGeom.edge, hb]
  have hst : g'.strip o' = g.strip o := by
    funext s
    simp only [BoxGeom.strip, hb', he]
  have hec : edgeCall st g' o' = edgeCall st g o := by
    funext s
    simp only [edgeCall, hst, he]
  simp only [ownCalls, hm', backgroundCall, hb', hec]

mutual

theorem SpItem.seen {E : TextEnv} (cb : ContainingBlock) (f : Font) : ∀ {i i' : Item}, SpItem E i i' →
    ∀ (o o' x : ℚ) (P : PVec2 Length),
    (callsAt (P + ⟨o', 0⟩) (i'.place E cb f o' x)).filter DrawCall.isMark =
      (callsAt (P + ⟨o, 0⟩) (i.place E cb f o x)).filter DrawCall.isMark
  | _, _, .text s s' font t nl h, o, o', x, P => by
    simp only [Item.place]
    split
    · rfl
    · simp only [callsAt, paintAll, paint_text, Trace.andThen, Trace.done, List.append_nil, ownCalls, blockAt, pvec2_add,
        h.color, DrawCall.isMark, List.filter_cons, List.filter_nil]
      simp
  | _, _, .box s a b c is is' h, o, o', x, P => by
    simp only [Item.place, h.advance E]
    rw [callsAt_box _ (place_up E cb _ _ _ _), callsAt_box _ (place_up E cb _ _ _ _), List.filter_append, List.filter_append]
    congr 1
    · refine congrArg _ (ownCalls_corner _ _ _ _ _ _ _ _ rfl rfl rfl rfl ?_)
      simp only [Fragment.offset, pvec2_add, PVec2.mk.injEq]
      exact ⟨by ring, trivial⟩
    · have k := h.seen cb (if b then x + startSpace cb.inlineSize s else x) (if b then x + startSpace cb.inlineSize s else x)
        (if b then x + startSpace cb.inlineSize s else x)
        (P + ⟨if a then (relativeAdjustement s cb.inlineSize cb.blockSize).inline else 0,
          shiftOf s (E.font s) f + (relativeAdjustement s cb.inlineSize cb.blockSize).block +
            (f.ascent - (E.font s).ascent)⟩)
      refine Eq.trans ?_ (k.trans ?_)
      · congr 2
        simp only [Fragment.offset, pvec2_add, PVec2.mk.injEq]
        constructor <;> ring
      · congr 2
        simp only [Fragment.offset, pvec2_add, PVec2.mk.injEq]
        constructor <;> ring

theorem SpItems.seen {E : TextEnv} (cb : ContainingBlock) {f : Font} : ∀ {l l' : List Item}, SpItems E f l l' →
    ∀ (o o' x : ℚ) (P : PVec2 Length),
    (callsAt (P + ⟨o', 0⟩) (place E cb l' f o' x)).filter DrawCall.isMark =
      (callsAt (P + ⟨o, 0⟩) (place E cb l f o x)).filter DrawCall.isMark
  | _, _, .nil _, _, _, _, _ => rfl
  | _, _, .cons _ i i' is is' h hs, o, o', x, P => by
    rw [place, place, callsAt_append _ _ _ (place_item_up E cb _ _ _ _), callsAt_append _ _ _ (place_item_up E cb _ _ _ _),
      List.filter_append, List.filter_append, h.seen cb f o o', h.advance E, hs.seen cb o o']
  | _, _, .wrap _ w a b c X X' Y Y' hw hf hX hY, o, o', x, P => by
    have e : (if b then x + startSpace cb.inlineSize w else x) = x := by
      rw [hw.startSpace_zero, add_zero, ite_self]
    have ea : (Item.box w a b c X').advance E cb.inlineSize x = advance E cb.inlineSize X x := by
      simp only [Item.advance, e, hX.advance E, hw.endSpace_zero, add_zero, ite_self]
    rw [place_append, place, callsAt_append _ _ _ (place_up E cb _ _ _ _), callsAt_append _ _ _ (place_item_up E cb _ _ _ _),
      List.filter_append, List.filter_append, ea, hY.seen cb o o']
    congr 1
    rw [Item.place]
    simp only [e]
    rw [callsAt_box _ (place_up E cb _ _ _ _), List.filter_append, unmarked_unseen hw (hw.border_zero _ _ _), List.nil_append,
      ← hX.seen cb o x x P, hf]
    congr 2
    simp only [Fragment.offset, hw.rel_zero, hw.shift_zero, pvec2_add, PVec2.mk.injEq, ite_self]
    constructor <;> ring

end

/-! ## What is seen of fragments -/

/-- the same is seen of both -/
structure Lookalike (fs fs' : List Fragment) : Prop where
  up : uprightAll fs
  up' : uprightAll fs'
  seen : SeenAlike DrawCall.isMark fs fs'

theorem Lookalike.refl {fs : List Fragment} (h : uprightAll fs) : Lookalike fs fs := ⟨h, h, fun _ => rfl⟩

theorem Lookalike.append {a a' b b' : List Fragment} (h : Lookalike a a') (h' : Lookalike b b') :
    Lookalike (a ++ b) (a' ++ b') := by
  refine ⟨uprightAll_append h.up h'.up, uprightAll_append h.up' h'.up', fun o => ?_⟩
  rw [callsAt_append o _ _ h.up, callsAt_append o _ _ h.up', List.filter_append, List.filter_append, h.seen o, h'.seen o]

theorem Lookalike.box {cs cs' : List Fragment} (h : Lookalike cs cs') (s : Style) (g : BoxGeom) (m : CollapsedBlockMargins) :
    Lookalike [.box s g m cs] [.box s g m cs'] :=
  ⟨⟨h.up, trivial⟩, ⟨h.up', trivial⟩, alike_box h.up h.up' h.seen⟩

theorem callsAt_anonymous (o : PVec2 Length) {r : Rect Length} {cs : List Fragment} (h : uprightAll cs) :
    callsAt o [.anonymous r cs (.horizontalTb, .ltr)] = ownCalls o (.anonymous r cs (.horizontalTb, .ltr)) ++
      callsAt (o + ⟨r.startCorner.inline, r.startCorner.block⟩) cs := by
  rw [callsAt, paintAll, paintAll, paint_anonymous, callsAt_own (o + ⟨r.startCorner.inline, r.startCorner.block⟩) h]
  · simp [Trace.andThen, Trace.done, blockAt]
  · simp only [blockAt, Fragment.offset, pvec2_add, PVec2.mk.injEq]
    constructor <;> ring

theorem Lookalike.anonymous {cs cs' : List Fragment} (h : Lookalike cs cs') (r : Rect Length) :
    Lookalike [.anonymous r cs (.horizontalTb, .ltr)] [.anonymous r cs' (.horizontalTb, .ltr)] := by
  refine ⟨⟨⟨rfl, h.up⟩, trivial⟩, ⟨⟨rfl, h.up'⟩, trivial⟩, fun o => ?_⟩
  rw [callsAt_anonymous o h.up, callsAt_anonymous o h.up', List.filter_append, List.filter_append, h.seen]
  rfl

theorem down_up {fs : List Fragment} (h : uprightAll fs) (e : ℚ) : uprightAll (fs.map (Fragment.translateBlock e)) := by
  rw [uprightAll_iff] at h ⊢
  intro f hf
  obtain ⟨f', h1, rfl⟩ := List.mem_map.1 hf
  exact upright_translate (h f' h1) e

theorem Lookalike.down {cs cs' : List Fragment} (h : Lookalike cs cs') (e : ℚ) :
    Lookalike (cs.map (Fragment.translateBlock e)) (cs'.map (Fragment.translateBlock e)) := by
  refine ⟨down_up h.up e, down_up h.up' e, fun o => ?_⟩
  rw [callsAt_allDown o e _ h.up, callsAt_allDown o e _ h.up', filter_move isMark_eye, filter_move isMark_eye, h.seen]

theorem SpLines.height {E : TextEnv} {f : Font} {L L' : List Line} (h : SpLines E f L L') :
    pageHeight E f L' = pageHeight E f L := by
  induction h with
  | nil => rfl
  | cons h _ ih =>
    simp only [pageHeight, List.map_cons, List.sum_cons] at ih ⊢
    rw [ih, height_same (h.extents E 0)]

theorem SpLines.lookalike {E : TextEnv} {cb : ContainingBlock} (hcb : cb.mode = (.horizontalTb, .ltr)) (al : TextAlign)
    {f : Font} {L L' : List Line} (h : SpLines E f L L') :
    ∀ y, Lookalike (placeLines E cb al f y L) (placeLines E cb al f y L') := by
  induction h with
  | nil => intro _; exact .refl trivial
  | @cons l l' L L' h _ ih =>
    intro y
    have hl : Lookalike (place E cb l f 0 0) (place E cb l' f 0 0) := by
      refine ⟨place_up E cb _ _ _ _, place_up E cb _ _ _ _, fun o => ?_⟩
      have := h.seen cb 0 0 0 o
      have e : o + (⟨0, 0⟩ : PVec2 Length) = o := by simp [pvec2_add]
      rwa [e] at this
    have ha : lineAscent E f l' = lineAscent E f l := by simp only [lineAscent, h.extents E]
    simp only [placeLines, h.advance E, height_same (h.extents E 0), ha, hcb]
    exact ((hl.down _).anonymous _).append (ih _)

/-- the same fragment, or a box of which the contents look alike -/
def LooksLike (f f' : Fragment) : Prop :=
  (f' = f ∧ f.upright) ∨ ∃ s g m cs cs', f = .box s g m cs ∧ f' = .box s g m cs' ∧ Lookalike cs cs'

theorem LooksLike.lookalike {f f' : Fragment} (h : LooksLike f f') : Lookalike [f] [f'] := by
  obtain ⟨rfl, h⟩ | ⟨s, g, m, cs, cs', rfl, rfl, h⟩ := h
  · exact .refl ⟨h, trivial⟩
  · exact h.box s g m

theorem LooksLike.child {f f' : Fragment} {c : Child} (h : LooksLike f f') (hc : IsChild f c) : IsChild f' c := by
  obtain ⟨rfl, -⟩ | ⟨s, g, m, cs, cs', rfl, rfl, -⟩ := h
  · exact hc
  · cases hc with
    | box h1 h2 => exact .box h1 h2

theorem LooksLike.origin_eq {f f' : Fragment} (h : LooksLike f f') : f'.origin = f.origin := by
  obtain ⟨rfl, -⟩ | ⟨s, g, m, cs, cs', rfl, rfl, -⟩ := h <;> rfl

theorem LooksLike.place {f f' g : Fragment} {st st' : PlacementState} (h : LooksLike f f')
    (hp : placeFragment st f = .ok (g, st')) : ∃ g', placeFragment st f' = .ok (g', st') ∧ LooksLike g g' := by
  obtain ⟨rfl, hu⟩ | ⟨s, gm, m, cs, cs', rfl, rfl, h⟩ := h
  · exact ⟨g, hp, .inl ⟨rfl, placeFragment_up hu hp⟩⟩
  · obtain ⟨g1, rfl, h2⟩ := placeFragment_alike cs' hp
    exact ⟨_, h2, .inr ⟨_, _, _, _, _, rfl, rfl, h⟩⟩

/-- fragments of blocks, with the boxes that wait; the blocks are numbered from `k` -/
inductive SpRows (E : TextEnv) : Nat → List Fragment → List Fragment → List AbsFragment → List AbsFragment → Prop
  | nil (k : Nat) : SpRows E k [] [] [] []
  | cons (k : Nat) (f f' : Fragment) (fs fs' : List Fragment) (n n' ns ns' : List AbsFragment) (h : LooksLike f f')
    (hn : AllSpanned E n n') (hr : ∀ a ∈ n, a.treeRank = k) (hr' : ∀ a ∈ n', a.treeRank = k)
    (hs : SpRows E (k + 1) fs fs' ns ns') : SpRows E k (f :: fs) (f' :: fs') (n ++ ns) (n' ++ ns')

theorem SpRows.lookalike {E k fs fs' ns ns'} (h : SpRows E k fs fs' ns ns') : Lookalike fs fs' := by
  induction h with
  | nil => exact .refl trivial
  | cons _ _ _ _ _ _ _ _ _ h _ _ _ _ ih => exact h.lookalike.append ih

theorem SpRows.place {E k fs fs' ns ns'} (h : SpRows E k fs fs' ns ns') : ∀ {gs : List Fragment}
    {st st' : PlacementState}, placeAll st fs = .ok (gs, st') →
    ∃ gs', placeAll st fs' = .ok (gs', st') ∧ SpRows E k gs gs' ns ns' := by
  induction h with
  | nil k =>
    intro gs st st' hp
    cases hp
    exact ⟨[], rfl, .nil _⟩
  | cons k f f' fs fs' n n' ns ns' h hn hr hr' _ ih =>
    intro gs st st' hp
    simp only [placeAll, bind_eq_ok] at hp
    obtain ⟨⟨g, st1⟩, h1, ⟨gs1, st2⟩, h2, h3⟩ := hp
    cases h3
    obtain ⟨g', h4, h5⟩ := h.place h1
    obtain ⟨gs', h6, h7⟩ := ih h2
    refine ⟨g' :: gs', ?_, .cons _ _ _ _ _ _ _ _ _ h5 hn hr hr' h7⟩
    simp only at h6
    simp [placeAll, h4, h6, bind, Except.bind, pure, Except.pure]

theorem SpRows.adjust {E k gs gs' ns ns'} (h : SpRows E k gs gs' ns ns') (r : Nat) :
    ∀ P P' : List Fragment, P.length = k → P'.length = k →
    AllSpanned E (ns.map fun a => a.moved r (((P ++ gs)[a.treeRank]?.map Fragment.origin).getD Vec2.zero))
      (ns'.map fun a => a.moved r (((P' ++ gs')[a.treeRank]?.map Fragment.origin).getD Vec2.zero)) := by
  induction h with
  | nil => intros; exact .nil
  | cons k f f' fs fs' n n' ns ns' h hn hr hr' _ ih =>
    intro P P' hP hP'
    rw [List.map_append, List.map_append]
    refine AllSpanned.append ?_ ?_
    · refine hn.map r f.origin ?_ ?_
      · intro a ha
        rw [hr a ha, ← hP]
        simp
      · intro a ha
        rw [hr' a ha, ← hP', ← h.origin_eq]
        simp
    · have := ih (P ++ [f]) (P' ++ [f']) (by simp [hP]) (by simp [hP'])
      simpa only [List.append_assoc, List.singleton_append] using this

/-! ## Both layouts -/

/-- `boxL`, and `boxL'` for the changed box -/
def SpBoxes (E : TextEnv) (n m : Nat) (boxL boxL' : BoxLayout) : Prop :=
  ∀ b b' cb rank, SpannedBlock E b b' → b.sound → b.depth ≤ n → b'.depth ≤ m → ContainingBlock.standard cb →
    ∃ f f' new new', (∀ abs fl, boxL b cb rank abs fl = .ok (f, abs ++ new)) ∧
      (∀ abs fl, boxL' b' cb rank abs fl = .ok (f', abs ++ new')) ∧
      (∃ c, IsChild f c) ∧ LooksLike f f' ∧ AllSpanned E new new' ∧ AbsReady n rank new ∧ AbsReady m rank new'

/-- `absL`, and `absL'` for the changed box -/
def SpAbs (E : TextEnv) (n m : Nat) (absL absL' : AbsLayout) : Prop :=
  ∀ (a a' : AbsFragment) (cb : DefiniteContainingBlock), AbsSpanned E a a' → a.contents.sound →
    a.contents.depth + 1 ≤ n → a'.contents.depth + 1 ≤ m → cb.mode = (.horizontalTb, .ltr) →
    ∃ f f', absL a cb = .ok f ∧ absL' a' cb = .ok f' ∧ LooksLike f f'

theorem spannedLaidOut {E : TextEnv} {n m : Nat} {boxL boxL' : BoxLayout} (hb : SpBoxes E n m boxL boxL')
    {cb : ContainingBlock} (hcb : cb.standard) {bs bs' : List BlockLevelBox} (h : SpannedBlocks E bs bs') :
    ∀ (k : Nat), blockSound bs → blockDepth bs ≤ n → blockDepth bs' ≤ m →
    ∃ fs fs' new new' cs cs', LaidOut boxL cb k bs fs new ∧ LaidOut boxL' cb k bs' fs' new' ∧
      List.Forall₂ IsChild fs cs ∧ List.Forall₂ IsChild fs' cs' ∧ SpRows E k fs fs' new new' ∧
      (∀ a ∈ new, a.treeRank < k + bs.length ∧ a.contents.sound ∧ a.contents.depth + 1 ≤ n) ∧
      (∀ a ∈ new', a.treeRank < k + bs'.length ∧ a.contents.sound ∧ a.contents.depth + 1 ≤ m) := by
  induction bs generalizing bs' with
  | nil =>
    cases h
    intro k _ _ _
    exact ⟨[], [], [], [], [], [], .nil, .nil, .nil, .nil, .nil _, by simp, by simp⟩
  | cons b bs ih =>
    intro k hs hd hd'
    cases h with
    | cons _ b' _ bs' hbb hbs =>
      simp only [blockDepth, max_le_iff] at hd hd'
      obtain ⟨f, f', new, new', h1, h1', ⟨c, h2⟩, ht, hk, h3, h3'⟩ := hb b b' cb k hbb hs.1 hd.1 hd'.1 hcb
      obtain ⟨fs, fs', news, news', cs, cs', h4, h4', h5, h5', h6, h7, h7'⟩ := ih hbs (k + 1) hs.2 hd.2 hd'.2
      refine ⟨f :: fs, f' :: fs', new ++ news, new' ++ news', c :: cs, c :: cs', .cons h1 h4, .cons h1' h4', .cons h2 h5,
        .cons (ht.child h2) h5', .cons _ _ _ _ _ _ _ _ _ ht hk (fun a ha => (h3 a ha).1) (fun a ha => (h3' a ha).1) h6,
        ?_, ?_⟩
      · intro a ha
        simp only [List.length_cons]
        rcases List.mem_append.1 ha with ha | ha
        · have e1 := h3 a ha
          exact ⟨by have := e1.1; omega, e1.2⟩
        · have := h7 a ha
          exact ⟨by omega, this.2⟩
      · intro a ha
        simp only [List.length_cons]
        rcases List.mem_append.1 ha with ha | ha
        · have e1 := h3' a ha
          exact ⟨by have := e1.1; omega, e1.2⟩
        · have := h7' a ha
          exact ⟨by omega, this.2⟩

/-- the contents of a box, and the changed ones -/
structure SpChildren (E : TextEnv) (n m rank : Nat) (fc fc' : FlowChildren) (new new' : List AbsFragment) : Prop where
  blockSize : fc'.blockSize = fc.blockSize
  margins : fc'.margins = fc.margins
  alike : Lookalike fc.fragments fc'.fragments
  kept : AllSpanned E new new'
  ready : AbsReady n rank new
  ready' : AbsReady m rank new'
  good : fc.margins.Good

theorem spannedContainer (E : TextEnv) {n m : Nat} {boxL boxL' : BoxLayout} (hb : SpBoxes E n m boxL boxL')
    {cb : ContainingBlock} (hcb : cb.standard) {c c' : BlockContainer} (h : Spanned E c c')
    (hs : c.sound) (hd : c.depth ≤ n) (hd' : c'.depth ≤ m) (rank : Nat) (coll : Bool) :
    ∃ fc fc' new new', (∀ abs fl, containerLayout E boxL c cb rank abs fl coll = .ok (fc, abs ++ new)) ∧
      (∀ abs fl, containerLayout E boxL' c' cb rank abs fl coll = .ok (fc', abs ++ new')) ∧
      SpChildren E n m rank fc fc' new new' := by
  cases h with
  | blocks bs bs' h =>
    simp only [BlockContainer.depth] at hd hd'
    obtain ⟨fs, fs', new, new', cs, cs', h1, h1', h2, h2', h3, h4, h4'⟩ := spannedLaidOut hb hcb h 0 hs hd hd'
    obtain ⟨ds, st', h5, h6, h7, _⟩ := placeAll_spec h2 (PlacedInv.init coll) trivial
    obtain ⟨ds', st'', h5', h6', _, _⟩ := placeAll_spec h2' (PlacedInv.init coll) trivial
    obtain ⟨gs', h8, h9⟩ := h3.place h6
    have he := h8.symm.trans h6'
    injection he with he
    injection he with he1 he2
    subst he1 he2
    have hlen : (moveAll fs ds).length = bs.length := by rw [moveAll_length h5, h1.length]
    have hlen' : (moveAll fs' ds').length = bs'.length := by rw [moveAll_length h5', h1'.length]
    have hadj := adjustStaticPositions_ok (moveAll_notText h2 ds) rank new (fun a ha => by
      have := (h4 a ha).1; omega)
    have hadj' := adjustStaticPositions_ok (moveAll_notText h2' ds') rank new' (fun a ha => by
      have := (h4' a ha).1; omega)
    refine ⟨_, _, _, _, blockChildren_of_laidOut h1 h6 hadj, blockChildren_of_laidOut h1' h8 hadj',
      rfl, rfl, h9.lookalike, h9.adjust rank [] [] rfl rfl, ?_, ?_, ?_⟩
    · intro a ha
      obtain ⟨b, hb', rfl⟩ := List.mem_map.1 ha
      exact ⟨rfl, (h4 b hb').2⟩
    · intro a ha
      obtain ⟨b, hb', rfl⟩ := List.mem_map.1 ha
      exact ⟨rfl, (h4' b hb').2⟩
    · refine ⟨⟨_, h7.start⟩, ?_⟩
      cases h : st'.collapses with
      | true =>
        refine ⟨[], ?_⟩
        show st'.currentMargin.Is []
        rw [h7.current h]
        exact CollapsedMargin.is_zero
      | false => exact ⟨_, h7.tail h⟩
  | inlines st bs bs' h =>
    simp only [BlockContainer.depth] at hd hd'
    have hs' : inlineSound bs' := h.sound hs
    obtain ⟨_, new, _, h1, h2, _⟩ := ifcLayout_good E st bs cb rank hs
    obtain ⟨_, new', _, h1', h2', _⟩ := ifcLayout_good E st bs' cb rank hs'
    obtain ⟨L, N, _, ⟨_, e1, e2⟩, e3⟩ := ifcLayout_lines E st bs cb rank [] (inlineSound_absOk _ hs)
    obtain ⟨L', N', _, ⟨_, e1', e2'⟩, e3'⟩ := ifcLayout_lines E st bs' cb rank [] (inlineSound_absOk _ hs')
    have hL : SpLines E (E.font st) L L' := by
      rw [e1, e1']
      exact h.lines _ _
    have hk : AllSpanned E N N' := by
      rw [e2, e2']
      exact h.found _ _ rank _ _ ⟨rfl, rfl, rfl, rfl, rfl, rfl⟩
    have hN : new = N := by
      have := (h1 []).symm.trans e3
      simp only [List.nil_append, Except.ok.injEq, Prod.mk.injEq] at this
      exact this.2
    have hN' : new' = N' := by
      have := (h1' []).symm.trans e3'
      simp only [List.nil_append, Except.ok.injEq, Prod.mk.injEq] at this
      exact this.2
    subst hN hN'
    refine ⟨⟨placeLines E cb (st.val .textAlign) (E.font st) 0 L, pageHeight E (E.font st) L, .zero⟩,
      ⟨placeLines E cb (st.val .textAlign) (E.font st) 0 L', pageHeight E (E.font st) L', .zero⟩,
      new, new', fun abs _ => ?_, fun abs _ => ?_, hL.height, rfl, hL.lookalike hcb _ _, hk, h2.mono hd, h2'.mono hd',
      zero_good⟩
    · rw [containerLayout, ifcLayout_abs, e3]
      rfl
    · rw [containerLayout, ifcLayout_abs, e3']
      rfl

theorem spannedBfc (E : TextEnv) {n m : Nat} {boxL boxL' : BoxLayout} (hb : SpBoxes E n m boxL boxL')
    {cb : ContainingBlock} (hcb : cb.standard) (c c' : Bfc) (h : Spanned E c.contents c'.contents)
    (hs : c.sound) (hd : c.depth ≤ n) (hd' : c'.depth ≤ m) (rank : Nat) :
    ∃ fc fc' new new', (∀ abs, bfcLayout E boxL c cb rank abs = .ok (fc, abs ++ new)) ∧
      (∀ abs, bfcLayout E boxL' c' cb rank abs = .ok (fc', abs ++ new')) ∧
      SpChildren E n m rank fc fc' new new' := by
  obtain ⟨c, fl⟩ := c
  obtain ⟨c', fl'⟩ := c'
  replace h : Spanned E c c' := h
  simp only [Bfc.depth] at hd hd'
  obtain ⟨fc, fc', new, new', h1, h1', h2⟩ := spannedContainer E hb hcb h hs hd hd' rank false
  refine ⟨⟨fc.fragments, fc.blockSize + fc.margins.«end».solve, ⟨false, fc.margins.start, .zero⟩⟩,
    ⟨fc'.fragments, fc'.blockSize + fc'.margins.«end».solve, ⟨false, fc'.margins.start, .zero⟩⟩,
    new, new', fun abs => ?_, fun abs => ?_, ?_, ?_, h2.alike, h2.kept, h2.ready, h2.ready', h2.good.1,
    ⟨[], CollapsedMargin.is_zero⟩⟩
  · simp only [bfcLayout, Bfc.contents, Bfc.containsFloats, h1, bind, Except.bind, pure, Except.pure]
  · simp only [bfcLayout, Bfc.contents, Bfc.containsFloats, h1', bind, Except.bind, pure, Except.pure]
  · simp only [h2.blockSize, h2.margins]
  · simp only [h2.margins]

theorem spannedAbsEach {E : TextEnv} {n m : Nat} {absL absL' : AbsLayout} (ha : SpAbs E n m absL absL')
    {cb : DefiniteContainingBlock} (hcb : cb.mode = (.horizontalTb, .ltr)) {rank : Nat}
    {as as' : List AbsFragment} (h : AllSpanned E as as') : AbsReady n rank as → AbsReady m rank as' →
      ∃ fs fs', layoutAbsEach absL cb as = .ok fs ∧ layoutAbsEach absL' cb as' = .ok fs' ∧ Lookalike fs fs' := by
  induction h with
  | nil => intro _ _; exact ⟨[], [], rfl, rfl, .refl trivial⟩
  | @cons a a' as as' h _ ih =>
    intro hr hr'
    have h0 := hr a (by simp)
    have h0' := hr' a' (by simp)
    obtain ⟨f, f', h1, h1', ht⟩ := ha a a' cb h h0.2.1 h0.2.2 h0'.2.2 hcb
    obtain ⟨fs, fs', h2, h2', hts⟩ := ih (fun b hb => hr b (by simp [hb])) (fun b hb => hr' b (by simp [hb]))
    exact ⟨f :: fs, f' :: fs', by simp [layoutAbsEach, h1, h2, bind, Except.bind, pure, Except.pure],
      by simp [layoutAbsEach, h1', h2', bind, Except.bind, pure, Except.pure], ht.lookalike.append hts⟩

theorem spannedPositioned {E : TextEnv} {n m : Nat} {absL absL' : AbsLayout} (ha : SpAbs E n m absL absL')
    {rank : Nat} {as as' : List AbsFragment} (h : AllSpanned E as as') (hr : AbsReady n rank as)
    (hr' : AbsReady m rank as') {fs fs' : List Fragment} (ht : Lookalike fs fs') (size : Vec2 Length)
    (padding : Sides Length) :
    ∃ out out', inPositionedContainingBlock absL as fs size padding (.horizontalTb, .ltr) = .ok out ∧
      inPositionedContainingBlock absL' as' fs' size padding (.horizontalTb, .ltr) = .ok out' ∧ Lookalike out out' := by
  obtain ⟨gs, gs', h1, h2, h3⟩ := spannedAbsEach ha (cb := ⟨((Rect.mk Vec2.zero size).inflate padding).size,
    (.horizontalTb, .ltr)⟩) rfl h hr hr'
  unfold inPositionedContainingBlock
  cases h with
  | nil => exact ⟨fs, fs', rfl, rfl, ht⟩
  | cons =>
    refine ⟨fs ++ [.anonymous ((Rect.mk Vec2.zero size).inflate padding) gs (.horizontalTb, .ltr)],
      fs' ++ [.anonymous ((Rect.mk Vec2.zero size).inflate padding) gs' (.horizontalTb, .ltr)],
      by simp only [h1, bind, Except.bind, pure, Except.pure, List.isEmpty_cons, Bool.false_eq_true, if_false],
      by simp only [h2, bind, Except.bind, pure, Except.pure, List.isEmpty_cons, Bool.false_eq_true, if_false], ?_⟩
    exact ht.append (h3.anonymous _)

theorem spannedInFlow {E : TextEnv} {n m : Nat} {absL absL' : AbsLayout} (ha : SpAbs E n m absL absL')
    {cb : ContainingBlock} (hcb : cb.standard) (style : Style) (kind : BlockLevelKind) (rank : Nat)
    {fc fc' : FlowChildren} {new new' : List AbsFragment} (hr : SpChildren E n m rank fc fc' new new') :
    ∃ g children children' out out', Lookalike children children' ∧ AllSpanned E out out' ∧ AbsReady n rank out ∧
      AbsReady m rank out' ∧
      (∀ contents, (∀ abs, contents ⟨(inFlowSizes cb style kind).inlineSize,
        (inFlowSizes cb style kind).blockSize, (.horizontalTb, .ltr)⟩ abs
        (inFlowSizes cb style kind).startCollapses = .ok (fc, abs ++ new)) →
        ∀ abs, layoutInFlow absL cb abs style kind contents = .ok (.box style g
          (collapseWithChildren (inFlowSizes cb style kind) fc).1 children, abs ++ out)) ∧
      (∀ contents, (∀ abs, contents ⟨(inFlowSizes cb style kind).inlineSize,
        (inFlowSizes cb style kind).blockSize, (.horizontalTb, .ltr)⟩ abs
        (inFlowSizes cb style kind).startCollapses = .ok (fc', abs ++ new')) →
        ∀ abs, layoutInFlow absL' cb abs style kind contents = .ok (.box style g
          (collapseWithChildren (inFlowSizes cb style kind) fc).1 children', abs ++ out')) := by
  have hm : ¬ (cb.mode ≠ (.horizontalTb, .ltr)) := by
    rw [not_not]; exact hcb
  have hcb' : (Style.writingMode style) = (.horizontalTb, .ltr) := rfl
  have hcol : collapseWithChildren (inFlowSizes cb style kind) fc' =
      collapseWithChildren (inFlowSizes cb style kind) fc := by
    simp only [collapseWithChildren, hr.blockSize, hr.margins]
  cases hp : Position.isRelativelyPositioned (style.val .position) with
  | false =>
    refine ⟨inFlowGeom cb style kind fc, fc.fragments, fc'.fragments, new, new', hr.alike, hr.kept, hr.ready, hr.ready',
      fun contents hc abs => ?_, fun contents hc abs => ?_⟩
    · unfold layoutInFlow
      simp only [hcb', hp, Bool.false_eq_true, if_false, hc, bind, Except.bind, pure, Except.pure]
      rw [if_neg hm]
      rfl
    · unfold layoutInFlow
      simp only [hcb', hp, Bool.false_eq_true, if_false, hc, bind, Except.bind, pure, Except.pure, hcol]
      rw [if_neg hm]
      rfl
  | true =>
    obtain ⟨children, children', h1, h2, h3⟩ := spannedPositioned ha hr.kept hr.ready hr.ready' hr.alike
      ⟨(inFlowSizes cb style kind).inlineSize,
        (inFlowSizes cb style kind).blockSize.autoIs (collapseWithChildren (inFlowSizes cb style kind) fc).2⟩
      (inFlowSizes cb style kind).padding
    refine ⟨inFlowGeom cb style kind fc, children, children', [], [], h3, .nil, by simp [AbsReady], by simp [AbsReady],
      fun contents hc abs => ?_, fun contents hc abs => ?_⟩
    · unfold layoutInFlow
      simp only [hcb', hp, if_true, hc, bind, Except.bind, pure, Except.pure, List.nil_append,
        List.append_nil, h1]
      rw [if_neg hm]
      rfl
    · unfold layoutInFlow
      simp only [hcb', hp, if_true, hc, bind, Except.bind, pure, Except.pure, List.nil_append,
        List.append_nil, hcol, h2]
      rw [if_neg hm]
      rfl

theorem spannedBoxLayout (E : TextEnv) {n m : Nat} {boxL boxL' : BoxLayout} {absL absL' : AbsLayout}
    (hb : SpBoxes E n m boxL boxL') (ha : SpAbs E n m absL absL') :
    SpBoxes E (n + 1) (m + 1) (boxLayoutWith E boxL absL) (boxLayoutWith E boxL' absL') := by
  intro b b' cb rank h hs hd hd' hcb
  cases h with
  | same st c c' h =>
    simp only [BlockLevelBox.depth] at hd hd'
    obtain ⟨fc, fc', new, new', h1, h1', h2⟩ := spannedContainer E hb
      (cb := ⟨(inFlowSizes cb st .sameFormattingContextBlock).inlineSize,
        (inFlowSizes cb st .sameFormattingContextBlock).blockSize, (.horizontalTb, .ltr)⟩) rfl h hs
      (by omega) (by omega) rank (inFlowSizes cb st .sameFormattingContextBlock).startCollapses
    obtain ⟨g, children, children', out, out', h3, h4, h5, h5', h6, h6'⟩ :=
      spannedInFlow ha hcb st .sameFormattingContextBlock rank h2
    exact ⟨.box st g (collapseWithChildren (inFlowSizes cb st .sameFormattingContextBlock) fc).1 children,
      .box st g (collapseWithChildren (inFlowSizes cb st .sameFormattingContextBlock) fc).1 children', out, out',
      fun abs fl => h6 (fun cb nested coll => containerLayout E boxL c cb rank nested fl coll) (fun abs => h1 abs fl) abs,
      fun abs fl => h6' (fun cb nested coll => containerLayout E boxL' c' cb rank nested fl coll) (fun abs => h1' abs fl) abs,
      isChild_of_good _ _ _ _ (collapse_good _ _ h2.good), .inr ⟨_, _, _, _, _, rfl, rfl, h3⟩, h4, h5.mono (Nat.le_succ n),
      h5'.mono (Nat.le_succ m)⟩
  | independent st c c' fl fl' h =>
    simp only [BlockLevelBox.depth] at hd hd'
    obtain ⟨fc, fc', new, new', h1, h1', h2⟩ := spannedBfc E hb
      (cb := ⟨(inFlowSizes cb st .establishesAnIndependentFormattingContext).inlineSize,
        (inFlowSizes cb st .establishesAnIndependentFormattingContext).blockSize,
        (.horizontalTb, .ltr)⟩) rfl (.mk c fl) (.mk c' fl') h hs (by omega) (by omega) rank
    obtain ⟨g, children, children', out, out', h3, h4, h5, h5', h6, h6'⟩ :=
      spannedInFlow ha hcb st .establishesAnIndependentFormattingContext rank h2
    exact ⟨.box st g (collapseWithChildren
        (inFlowSizes cb st .establishesAnIndependentFormattingContext) fc).1 children,
      .box st g (collapseWithChildren
        (inFlowSizes cb st .establishesAnIndependentFormattingContext) fc).1 children', out, out',
      fun abs _ => h6 (fun cb nested _ => bfcLayout E boxL (.mk c fl) cb rank nested) h1 abs,
      fun abs _ => h6' (fun cb nested _ => bfcLayout E boxL' (.mk c' fl') cb rank nested) h1' abs,
      isChild_of_good _ _ _ _ (collapse_good _ _ h2.good), .inr ⟨_, _, _, _, _, rfl, rfl, h3⟩, h4, h5.mono (Nat.le_succ n),
      h5'.mono (Nat.le_succ m)⟩
  | absolute st c c' fl fl' h =>
    refine ⟨Fragment.noOp cb.mode, Fragment.noOp cb.mode, [layoutAbsBox st (.mk c fl) Vec2.zero rank],
      [layoutAbsBox st (.mk c' fl') Vec2.zero rank], fun abs fl => rfl, fun abs fl => rfl, ⟨none, .out rfl⟩,
      .inl ⟨rfl, hcb, trivial⟩, .cons (layoutAbsBox_spanned st fl fl' h _ _) .nil, ?_, ?_⟩
    · intro a ha
      rw [List.mem_singleton] at ha
      subst ha
      exact ⟨rfl, hs, hd⟩
    · intro a ha
      rw [List.mem_singleton] at ha
      subst ha
      exact ⟨rfl, h.sound hs, hd'⟩
  | float st c =>
    exact ⟨Fragment.noOp cb.mode, Fragment.noOp cb.mode, [], [], fun abs fl => by simp [boxLayoutWith],
      fun abs fl => by simp [boxLayoutWith], ⟨none, .out rfl⟩, .inl ⟨rfl, hcb, trivial⟩, .nil, by simp [AbsReady],
      by simp [AbsReady]⟩

theorem spannedAbsLayout (E : TextEnv) {n m : Nat} {boxL boxL' : BoxLayout} {absL absL' : AbsLayout}
    (hb : SpBoxes E n m boxL boxL') (ha : SpAbs E n m absL absL') :
    SpAbs E (n + 1) (m + 1) (absLayoutWith E boxL absL) (absLayoutWith E boxL' absL') := by
  intro a a' cb h hs hd hd' hcb
  obtain ⟨fc, fc', new, new', h1, h1', h2⟩ := spannedBfc E hb
    (cb := ⟨(absSizes a cb).inlineSize, (absSizes a cb).blockSize, (.horizontalTb, .ltr)⟩) rfl
    a.contents a'.contents h.1 hs (by omega) (by omega) 0
  obtain ⟨out, out', h4, h4', h5⟩ := spannedPositioned ha h2.kept h2.ready h2.ready' h2.alike
    ((absSizes a cb).contentRect cb ((absSizes a cb).blockSize.autoIs fc.blockSize)).size
    (absSizes a cb).padding
  have hm : ¬ (cb.mode ≠ (.horizontalTb, .ltr)) := by rw [not_not]; exact hcb
  have hcb' : ∀ s : Style, s.writingMode = (.horizontalTb, .ltr) := fun _ => rfl
  obtain ⟨_, e1, e2, e3, e4, e5⟩ := h
  have hsz : absSizes a' cb = absSizes a cb := by
    simp only [absSizes, e1, e2, e3, e4, e5]
  refine ⟨.box a.style ⟨(absSizes a cb).contentRect cb ((absSizes a cb).blockSize.autoIs fc.blockSize),
    (absSizes a cb).padding, (absSizes a cb).border, (absSizes a cb).margin⟩ .zero out,
    .box a.style ⟨(absSizes a cb).contentRect cb ((absSizes a cb).blockSize.autoIs fc.blockSize),
    (absSizes a cb).padding, (absSizes a cb).border, (absSizes a cb).margin⟩ .zero out', ?_, ?_,
    .inr ⟨_, _, _, _, _, rfl, rfl, h5⟩⟩
  · unfold absLayoutWith
    simp only [hcb', h1, bind, Except.bind, List.nil_append, h4, pure, Except.pure]
    rw [if_neg hm]
  · unfold absLayoutWith
    simp only [hsz, e1, hcb', h1', bind, Except.bind, List.nil_append, h2.blockSize, h4', pure, Except.pure]
    rw [if_neg hm]

theorem spanned_layout (E : TextEnv) : ∀ n m, SpBoxes E n m (boxLayout E n) (boxLayout E m) ∧
    SpAbs E n m (absLayout E n) (absLayout E m) := by
  intro n
  induction n with
  | zero =>
    intro m
    refine ⟨?_, ?_⟩
    · intro b b' cb rank _ _ hd
      cases b <;> simp [BlockLevelBox.depth] at hd
    · intro a a' cb _ _ hd
      omega
  | succ n ih =>
    intro m
    cases m with
    | zero =>
      refine ⟨?_, ?_⟩
      · intro b b' cb rank _ _ _ hd
        cases b' <;> simp [BlockLevelBox.depth] at hd
      · intro a a' cb _ _ _ hd
        omega
    | succ m =>
      rw [boxLayout, absLayout, boxLayout, absLayout]
      exact ⟨spannedBoxLayout E (ih m).1 (ih m).2, spannedAbsLayout E (ih m).1 (ih m).2⟩

theorem spanned_root (E : TextEnv) (root root' : Bfc) (h : Spanned E root.contents root'.contents) (hs : root.sound)
    (viewport : PVec2 Length) : ∃ fs fs', rootLayout E root viewport = .ok fs ∧ rootLayout E root' viewport = .ok fs' ∧
      Lookalike fs fs' := by
  obtain ⟨hb, ha⟩ := spanned_layout E root.depth root'.depth
  obtain ⟨fc, fc', new, new', h1, h1', h2⟩ := spannedBfc E hb
    (cb := ⟨viewport.x, .length viewport.y, (.horizontalTb, .ltr)⟩) rfl root root' h hs le_rfl le_rfl 0
  obtain ⟨more, more', h3, h3', h4⟩ := spannedAbsEach ha
    (cb := ⟨⟨viewport.x, viewport.y⟩, (.horizontalTb, .ltr)⟩) rfl h2.kept h2.ready h2.ready'
  refine ⟨fc.fragments ++ more, fc'.fragments ++ more', ?_, ?_, h2.alike.append h4⟩
  · simp only [rootLayout, rootLayoutWith, h1, bind, Except.bind, List.nil_append, h3, pure, Except.pure]
  · simp only [rootLayout, rootLayoutWith, h1', bind, Except.bind, List.nil_append, h3', pure, Except.pure]

end Sinab
