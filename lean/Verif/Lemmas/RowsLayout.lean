import Verif.Lemmas.RowsBoxes
import Verif.Lemmas.BlockLayout
import Mathlib.Tactic.Linarith

/-! Layout of calm elements keeps texts in reading order. -/

namespace Sinab

/-! ## Texts in order within bounds -/

mutual

/-- the texts of a fragment whose container is at `x`, `y` -/
def Fragment.textBoxes (x y : ℚ) : Fragment → List TextBox
  | .box _ g _ cs => textBoxesAll (x + g.contentRect.startCorner.inline)
      (y + g.contentRect.startCorner.block) cs
  | .anonymous r cs _ => textBoxesAll (x + r.startCorner.inline) (y + r.startCorner.block) cs
  | .text st r seg => [⟨st, seg.font, seg.glyphs, x + r.startCorner.inline,
      y + r.startCorner.block + seg.font.ascent⟩]

/-- see `Fragment.textBoxes` -/
def textBoxesAll (x y : ℚ) : List Fragment → List TextBox
  | [] => []
  | f :: fs => f.textBoxes x y ++ textBoxesAll x y fs

end

theorem textBoxesAll_append (x y : ℚ) (a b : List Fragment) :
    textBoxesAll x y (a ++ b) = textBoxesAll x y a ++ textBoxesAll x y b := by
  induction a with
  | nil => rfl
  | cons f a ih => simp [textBoxesAll, ih]

/-- a text in one of some styles, in the font of its style -/
def TextBox.Styled (E : TextEnv) (S : Style → Prop) (t : TextBox) : Prop :=
  S t.style ∧ t.font = E.font t.style

/-- in reading order, between two heights -/
structure Between (E : TextEnv) (S : Style → Prop) (ts : List TextBox) (lo hi : ℚ) : Prop where
  order : ReadingOrder E ts
  le : lo ≤ hi
  mem : ∀ t ∈ ts, lo ≤ t.top ∧ t.bottom ≤ hi
  styled : ∀ t ∈ ts, t.Styled E S

theorem Between.nil {E : TextEnv} {S : Style → Prop} {lo hi : ℚ} (h : lo ≤ hi) : Between E S [] lo hi :=
  ⟨⟨[], rfl, by simp, .nil⟩, h, by simp, by simp⟩

theorem Between.append {E : TextEnv} {S : Style → Prop} {a b : List TextBox} {lo mid hi : ℚ}
    (h : Between E S a lo mid) (h' : Between E S b mid hi) : Between E S (a ++ b) lo hi := by
  obtain ⟨⟨r, rfl, h1, h2⟩, h3, h4, h5⟩ := h
  obtain ⟨⟨r', rfl, h1', h2'⟩, h3', h4', h5'⟩ := h'
  refine ⟨⟨r ++ r', by simp, ?_, ?_⟩, h3.trans h3', ?_, ?_⟩
  · intro x hx
    rcases List.mem_append.1 hx with hx | hx
    · exact h1 x hx
    · exact h1' x hx
  · refine List.pairwise_append.2 ⟨h2, h2', ?_⟩
    intro x hx y hy s hs t ht
    exact (h4 s (List.mem_flatten.2 ⟨x, hx, hs⟩)).2.trans
      (h4' t (List.mem_flatten.2 ⟨y, hy, ht⟩)).1
  · intro t ht
    rcases List.mem_append.1 ht with ht | ht
    · exact ⟨(h4 t ht).1, (h4 t ht).2.trans h3'⟩
    · exact ⟨h3.trans (h4' t ht).1, (h4' t ht).2⟩
  · intro t ht
    rcases List.mem_append.1 ht with ht | ht
    · exact h5 t ht
    · exact h5' t ht

theorem Between.mono {E : TextEnv} {S : Style → Prop} {ts : List TextBox} {lo hi lo' hi' : ℚ} (h : Between E S ts lo hi)
    (h1 : lo' ≤ lo) (h2 : hi ≤ hi') : Between E S ts lo' hi' :=
  ⟨h.order, h1.trans (h.le.trans h2), fun t ht => ⟨h1.trans (h.mem t ht).1, (h.mem t ht).2.trans h2⟩, h.styled⟩

/-- wherever the container is -/
def Lies (E : TextEnv) (S : Style → Prop) (fs : List Fragment) (lo hi : ℚ) : Prop :=
  ∀ x y, Between E S (textBoxesAll x y fs) (y + lo) (y + hi)

/-- no texts -/
def Textless (fs : List Fragment) : Prop := ∀ x y, textBoxesAll x y fs = []

theorem Textless.lies {E : TextEnv} {S : Style → Prop} {fs : List Fragment} (h : Textless fs) {lo hi : ℚ} (hl : lo ≤ hi) :
    Lies E S fs lo hi := by
  intro x y
  rw [h]
  exact .nil (by linarith)

theorem Textless.nil : Textless [] := fun _ _ => rfl

theorem Textless.append {a b : List Fragment} (h : Textless a) (h' : Textless b) :
    Textless (a ++ b) := by
  intro x y
  rw [textBoxesAll_append, h, h', List.append_nil]

theorem Lies.append {E : TextEnv} {S : Style → Prop} {a b : List Fragment} {lo mid hi : ℚ} (h : Lies E S a lo mid)
    (h' : Lies E S b mid hi) : Lies E S (a ++ b) lo hi := by
  intro x y
  rw [textBoxesAll_append]
  exact (h x y).append (h' x y)

theorem Lies.le {E : TextEnv} {S : Style → Prop} {fs : List Fragment} {lo hi : ℚ} (h : Lies E S fs lo hi) : lo ≤ hi := by
  have := (h 0 0).le
  linarith

/-! ## Lines -/

theorem LengthOrPercentage.Nonneg.used {v : LengthOrPercentage} (h : v.Nonneg) (w : ℚ) :
    0 ≤ v.percentageRelativeTo w := by
  cases v
  · exact h
  · exact h.elim

theorem LengthOrPercentageOrAuto.Nonneg.used {v : LengthOrPercentageOrAuto} (h : v.Nonneg) (w : ℚ) :
    0 ≤ (v.percentageRelativeTo w).autoIs 0 := by
  cases v
  · exact h
  · exact h.elim
  · exact le_refl 0

theorem startSpace_nonneg {st : Style} (h : Calm (st, .inline)) (w : ℚ) : 0 ≤ startSpace w st :=
  add_nonneg (add_nonneg (h.2.2.1.1.used w) (h.2.2.2.1.used w)) (h.2.1.1.used w)

theorem endSpace_nonneg {st : Style} (h : Calm (st, .inline)) (w : ℚ) : 0 ≤ endSpace w st :=
  add_nonneg (add_nonneg (h.2.2.1.2.used w) (h.2.2.2.2.used w)) (h.2.1.2.used w)

theorem static_unmoved {st : Style} (h : st.val .position = .static) (w : Length) (hh : LengthOrAuto) :
    relativeAdjustement st w hh = Vec2.zero := by
  unfold relativeAdjustement
  rw [h]
  rfl

mutual

/-- items of calm elements, whose texts have the font of the box they are in -/
def Item.calm (E : TextEnv) (S : Style → Prop) (p : Style) : Item → Prop
  | .text s f _ _ => s = p ∧ f = E.font p
  | .box st _ _ _ is => S st ∧ Calm (st, .inline) ∧ itemsCalm E S st is

/-- see `Item.calm` -/
def itemsCalm (E : TextEnv) (S : Style → Prop) (p : Style) : List Item → Prop
  | [] => True
  | i :: is => i.calm E S p ∧ itemsCalm E S p is

end

theorem itemsCalm_append {E : TextEnv} {S : Style → Prop} {p : Style} {a b : List Item} :
    itemsCalm E S p (a ++ b) ↔ itemsCalm E S p a ∧ itemsCalm E S p b := by
  induction a with
  | nil => simp [itemsCalm]
  | cons i a ih => simp [itemsCalm, ih, and_assoc]

theorem joinLines_calm {E : TextEnv} {S : Style → Prop} {p : Style} : ∀ A B : List Line, (∀ l ∈ A, itemsCalm E S p l) →
    (∀ l ∈ B, itemsCalm E S p l) → ∀ l ∈ joinLines A B, itemsCalm E S p l
  | [], B, _, hB => by simpa [joinLines] using hB
  | [a], [], hA, _ => by simpa [joinLines] using hA
  | [a], b :: B, hA, hB => by
    intro l hl
    simp only [joinLines, List.mem_cons] at hl
    rcases hl with rfl | hl
    · exact itemsCalm_append.2 ⟨hA a (by simp), hB b (by simp)⟩
    · exact hB l (by simp [hl])
  | a :: a' :: A, B, hA, hB => by
    intro l hl
    simp only [joinLines, List.mem_cons] at hl
    rcases hl with rfl | hl
    · exact hA _ (by simp)
    · exact joinLines_calm (a' :: A) B (fun l hl => hA l (by simp [List.mem_cons.1 hl])) hB l hl

theorem decorate_calm {E : TextEnv} {S : Style → Prop} {p st : Style} (hS : S st) (h : Calm (st, .inline)) :
    ∀ (L : List Line) (o s e : Bool), (∀ l ∈ L, itemsCalm E S st l) →
    ∀ l ∈ decorate st o s e L, itemsCalm E S p l
  | [], _, _, _, _ => by simp [decorate]
  | [l], _, _, _, hL => by
    intro x hx
    simp only [decorate, List.mem_singleton] at hx
    subst hx
    exact ⟨⟨hS, h, hL l (by simp)⟩, trivial⟩
  | l :: l' :: L, o, s, e, hL => by
    intro x hx
    simp only [decorate, List.mem_cons] at hx
    rcases hx with rfl | hx
    · exact ⟨⟨hS, h, hL l (by simp)⟩, trivial⟩
    · exact decorate_calm hS h (l' :: L) false false e (fun l hl => hL l (by simp [List.mem_cons.1 hl]))
        x hx

theorem laysOut_calm {E : TextEnv} {S : Style → Prop} {w x : ℚ} {bs : List InlineLevelBox} {L : List Line}
    (h : LaysOut E w x bs L) : ∀ st : Style, inlineOwn E.font S st bs → (∀ e ∈ inlineBoxed bs, Calm e) →
    ∀ l ∈ L, itemsCalm E S st l := by
  induction h with
  | nil => simp [itemsCalm]
  | @text x st t font bs pieces L h _ ih =>
    intro p ho hc
    refine joinLines_calm _ _ ?_ (ih p ho.2 (fun e he => hc e (List.mem_append_right _ he)))
    intro l hl
    obtain ⟨q, -, rfl⟩ := List.mem_map.1 hl
    exact ⟨ho.1, trivial⟩
  | @box x st first last children bs L1 L2 h1 _ ih1 ih2 =>
    intro p ho hc
    refine joinLines_calm _ _ (decorate_calm ho.1.1 (hc _ (List.mem_append_left _ (List.mem_cons_self ..)))
      _ _ _ _ (ih1 st ho.1.2 ?_)) (ih2 p ho.2 (fun e he => hc e (List.mem_append_right _ he)))
    exact fun e he => hc e (List.mem_append_left _ (List.mem_cons_of_mem _ he))
  | abs _ ih =>
    intro p ho
    exact ho.1.elim
  | float _ ih =>
    intro p ho hc
    exact ih p ho.2 (fun e he => hc e (List.mem_append_right _ he))

/-- texts between two positions, from left to right, with extents relative to a baseline -/
structure Aligned (E : TextEnv) (S : Style → Prop) (ts : List TextBox) (left right base : ℚ) (ext : List (ℚ × ℚ)) :
    Prop where
  order : LeftToRight E ts
  le : left ≤ right
  mem : ∀ t ∈ ts, left ≤ t.x ∧ t.right E ≤ right ∧ t.x ≤ t.right E
  ext : ∀ t ∈ ts, ∃ e ∈ ext, base - e.1 = t.top ∧ t.bottom = base + e.2
  styled : ∀ t ∈ ts, t.Styled E S

theorem Aligned.append {E : TextEnv} {S : Style → Prop} {a b : List TextBox} {l m r base : ℚ} {e e' : List (ℚ × ℚ)}
    (h : Aligned E S a l m base e) (h' : Aligned E S b m r base e') :
    Aligned E S (a ++ b) l r base (e ++ e') := by
  refine ⟨List.pairwise_append.2 ⟨h.order, h'.order, fun s hs t ht => ?_⟩, h.le.trans h'.le, ?_, ?_, ?_⟩
  · exact (h.mem s hs).2.1.trans (h'.mem t ht).1
  · intro t ht
    rcases List.mem_append.1 ht with ht | ht
    · exact ⟨(h.mem t ht).1, (h.mem t ht).2.1.trans h'.le, (h.mem t ht).2.2⟩
    · exact ⟨h.le.trans (h'.mem t ht).1, (h'.mem t ht).2.1, (h'.mem t ht).2.2⟩
  · intro t ht
    rcases List.mem_append.1 ht with ht | ht
    · obtain ⟨x, hx, k⟩ := h.ext t ht
      exact ⟨x, List.mem_append_left _ hx, k⟩
    · obtain ⟨x, hx, k⟩ := h'.ext t ht
      exact ⟨x, List.mem_append_right _ hx, k⟩
  · intro t ht
    rcases List.mem_append.1 ht with ht | ht
    · exact h.styled t ht
    · exact h'.styled t ht

theorem Aligned.widen {E : TextEnv} {S : Style → Prop} {a : List TextBox} {l r l' r' base : ℚ} {e : List (ℚ × ℚ)}
    (h : Aligned E S a l r base e) (h1 : l' ≤ l) (h2 : r ≤ r') : Aligned E S a l' r' base e :=
  ⟨h.order, h1.trans (h.le.trans h2),
    fun t ht => ⟨h1.trans (h.mem t ht).1, (h.mem t ht).2.1.trans h2, (h.mem t ht).2.2⟩, h.ext, h.styled⟩

mutual

theorem Item.place_aligned {E : TextEnv} {S : Style → Prop} (hw : ∀ f t, 0 ≤ E.width f t) (cb : ContainingBlock) :
    ∀ (i : Item) (p : Style) (o x X B s : ℚ), S p → i.calm E S p →
    Aligned E S (textBoxesAll X (B + s - (E.font p).ascent) (i.place E cb (E.font p) o x)) (X + (x - o))
      (X + (i.advance E cb.inlineSize x - o)) B (i.extents E (E.font p) s)
  | .text st f t nl, p, o, x, X, B, s, hS, h => by
    obtain ⟨rfl, rfl⟩ : st = p ∧ f = E.font p := h
    simp only [Item.place, Item.advance, Item.extents]
    split
    · exact ⟨.nil, le_refl _, by simp [textBoxesAll], by simp [textBoxesAll], by simp [textBoxesAll]⟩
    · rename_i ht
      have := hw (E.font st) t
      refine ⟨List.pairwise_singleton _ _, by linarith, ?_, ?_, ?_⟩
      · intro t' ht'
        simp only [textBoxesAll, Fragment.textBoxes, List.append_nil, List.mem_singleton] at ht'
        subst ht'
        refine ⟨le_refl _, ?_, ?_⟩ <;> simp only [TextBox.right] <;> linarith
      · intro t' ht'
        simp only [textBoxesAll, Fragment.textBoxes, List.append_nil, List.mem_singleton] at ht'
        subst ht'
        rw [if_pos (.inl ht)]
        refine ⟨_, List.mem_singleton.2 rfl, ?_, ?_⟩ <;>
          simp only [TextBox.top, TextBox.bottom, TextBox.halfLeading, ascentOf, descentOf] <;> ring
      · intro t' ht'
        simp only [textBoxesAll, Fragment.textBoxes, List.append_nil, List.mem_singleton] at ht'
        subst ht'
        exact ⟨hS, rfl⟩
  | .box st onFirst sE eE is, p, o, x, X, B, s, hS, h => by
    simp only [Item.place, Item.advance, Item.extents, textBoxesAll, Fragment.textBoxes,
      List.append_nil, static_unmoved h.2.1.1]
    have h1 := startSpace_nonneg h.2.1 cb.inlineSize
    have h2 := endSpace_nonneg h.2.1 cb.inlineSize
    have hx : x ≤ if sE = true then x + startSpace cb.inlineSize st else x := by
      split <;> linarith
    generalize (if sE = true then x + startSpace cb.inlineSize st else x) = x0 at hx ⊢
    have ih := place_aligned hw cb is st x0 x0 (X + (x0 - o))
      B (s + shiftOf st (E.font st) (E.font p)) h.1 h.2.2
    have e1 : (if onFirst = true then (Vec2.zero : Vec2 Length).inline else 0) = 0 := by
      split <;> rfl
    have e2 : (Vec2.zero : Vec2 Length).block = 0 := rfl
    have e3 : B + s - (E.font p).ascent + (shiftOf st (E.font st) (E.font p) + 0 +
        ((E.font p).ascent - (E.font st).ascent)) =
        B + (s + shiftOf st (E.font st) (E.font p)) - (E.font st).ascent := by ring
    rw [e1, e2, e3, add_zero]
    have hr : X + (x0 - o) + (advance E cb.inlineSize is x0 - x0) ≤
        X + ((if eE = true then advance E cb.inlineSize is x0 + endSpace cb.inlineSize st
          else advance E cb.inlineSize is x0) - o) := by
      split <;> linarith
    exact ih.widen (by linarith) hr

theorem place_aligned {E : TextEnv} {S : Style → Prop} (hw : ∀ f t, 0 ≤ E.width f t) (cb : ContainingBlock) :
    ∀ (is : List Item) (p : Style) (o x X B s : ℚ), S p → itemsCalm E S p is →
    Aligned E S (textBoxesAll X (B + s - (E.font p).ascent) (place E cb is (E.font p) o x)) (X + (x - o))
      (X + (advance E cb.inlineSize is x - o)) B (extents E is (E.font p) s)
  | [], p, o, x, X, B, s, _, _ => ⟨.nil, le_refl _, by simp [place, textBoxesAll],
      by simp [place, textBoxesAll], by simp [place, textBoxesAll]⟩
  | i :: is, p, o, x, X, B, s, hS, h => by
    rw [place, textBoxesAll_append, advance, extents]
    exact (i.place_aligned hw cb p o x X B s hS h.1).append (place_aligned hw cb is p o _ X B s hS h.2)

end

theorem translate_textBoxes (d x y : ℚ) (fs : List Fragment) :
    textBoxesAll x y (fs.map (Fragment.translateBlock d)) = textBoxesAll x (y + d) fs := by
  induction fs with
  | nil => rfl
  | cons f fs ih =>
    simp only [List.map_cons, textBoxesAll, ih]
    congr 1
    cases f with
    | text st r seg =>
      have : y + (r.startCorner.block + d) = y + d + r.startCorner.block := by ring
      simp only [Fragment.translateBlock, Fragment.textBoxes, Rect.addBlock, this]
    | anonymous r cs m =>
      have : y + (r.startCorner.block + d) = y + d + r.startCorner.block := by ring
      simp only [Fragment.translateBlock, Fragment.textBoxes, Rect.addBlock, this]
    | box st g m cs =>
      have : y + (g.contentRect.startCorner.block + d) = y + d + g.contentRect.startCorner.block := by
        ring
      simp only [Fragment.translateBlock, Fragment.textBoxes, Rect.addBlock, this]

theorem le_maxAll {l : List ℚ} {x : ℚ} (h : x ∈ l) : x ≤ maxAll l := by
  induction l with
  | nil => cases h
  | cons a l ih =>
    rcases List.mem_cons.1 h with rfl | h
    · exact le_max_left _ _
    · exact (ih h).trans (le_max_right _ _)

theorem placeLines_lies {E : TextEnv} {S : Style → Prop} (hw : ∀ f t, 0 ≤ E.width f t) (cb : ContainingBlock)
    (al : TextAlign) {st : Style} (hS : S st) : ∀ (L : List Line) (y : ℚ), (∀ l ∈ L, itemsCalm E S st l) →
    Lies E S (placeLines E cb al (E.font st) y L) y (y + pageHeight E (E.font st) L)
  | [], y, _ => Textless.nil.lies (by simp [pageHeight])
  | l :: L, y, h => by
    have hl := h l (by simp)
    have hH : pageHeight E (E.font st) (l :: L) = lineHeight E (E.font st) l + pageHeight E (E.font st) L := by
      simp [pageHeight]
    rw [hH, placeLines, ← add_assoc]
    refine Lies.append (a := [_]) (mid := y + lineHeight E (E.font st) l) ?_
      (placeLines_lies hw cb al hS L _ fun l hl => h l (by simp [hl]))
    intro X Y
    simp only [textBoxesAll, Fragment.textBoxes, List.append_nil, translate_textBoxes]
    have key := place_aligned hw cb l st 0 0
      (X + (cb.inlineSize - advance E cb.inlineSize l 0) * al.fraction)
      (Y + y + lineAscent E (E.font st) l) 0 hS hl
    have e : Y + y + lineAscent E (E.font st) l + 0 - (E.font st).ascent =
      Y + y + (lineAscent E (E.font st) l - (E.font st).ascent) := by ring
    rw [e] at key
    refine ⟨⟨[_], List.flatten_singleton .., ?_, List.pairwise_singleton _ _⟩, ?_, ?_, key.styled⟩
    · intro r hr
      rw [List.mem_singleton] at hr
      subst hr
      exact key.order
    · have : 0 ≤ lineHeight E (E.font st) l := add_nonneg (maxAll_nonneg _) (maxAll_nonneg _)
      linarith
    · intro t ht
      obtain ⟨x, hx, h1, h2⟩ := key.ext t ht
      have a1 : x.1 ≤ lineAscent E (E.font st) l := le_maxAll (List.mem_map_of_mem hx)
      have a2 : x.2 ≤ lineDescent E (E.font st) l := le_maxAll (List.mem_map_of_mem hx)
      unfold lineHeight
      constructor <;> linarith

/-! ## Blocks -/

/-- not negative -/
structure CollapsedMargin.Upward (m : CollapsedMargin) : Prop where
  pos : 0 ≤ m.maxPositive
  neg : m.minNegative = 0

theorem CollapsedMargin.Upward.zero : CollapsedMargin.zero.Upward := ⟨le_refl _, rfl⟩

theorem CollapsedMargin.Upward.solve {m : CollapsedMargin} (h : m.Upward) : 0 ≤ m.solve := by
  unfold CollapsedMargin.solve
  rw [h.neg, add_zero]
  exact h.pos

theorem CollapsedMargin.Upward.adjoin {a b : CollapsedMargin} (h : a.Upward) (h' : b.Upward) :
    (a.adjoin b).Upward := by
  refine ⟨h.pos.trans (le_max_left _ _), ?_⟩
  simp [CollapsedMargin.adjoin, h.neg, h'.neg]

theorem CollapsedMargin.Upward.new {l : Length} (h : 0 ≤ l) : (CollapsedMargin.new l).Upward :=
  ⟨le_max_right _ _, min_eq_right h⟩

/-- a laid out block, before it is placed -/
def Fragment.Orderly (E : TextEnv) (S : Style → Prop) : Fragment → Prop
  | .box st g m cs =>
    Lies E S [.box st g m cs] 0 (g.padding.blockSum + g.border.blockSum + g.contentRect.size.block) ∧
    m.start.Upward ∧ m.end.Upward ∧ (m.collapsedThrough = true → Textless [.box st g m cs])
  | .anonymous _ cs _ => cs = []
  | .text .. => False

/-- margins of a placement are not negative -/
structure PlacementState.Upward (st : PlacementState) : Prop where
  start : st.startMargin.Upward
  current : st.currentMargin.Upward

/-- placed fragments -/
structure PlacedRows (E : TextEnv) (S : Style → Prop) (st st' : PlacementState) (fs : List Fragment) : Prop where
  lies : Lies E S fs st.position st'.position
  up : st'.Upward
  collapses : st'.collapses = true → st.collapses = true ∧ Textless fs

theorem moved_textBoxes (style : Style) (g : BoxGeom) (m : CollapsedBlockMargins) (cs : List Fragment)
    (d x y : ℚ) : textBoxesAll x y [.box style { g with contentRect := g.contentRect.addBlock d } m cs] =
      textBoxesAll x (y + d) [.box style g m cs] := by
  have : y + (g.contentRect.startCorner.block + d) = y + d + g.contentRect.startCorner.block := by
    ring
  simp only [textBoxesAll, Fragment.textBoxes, Rect.addBlock, this]

theorem Lies.moved {E : TextEnv} {S : Style → Prop} {style : Style} {g : BoxGeom} {m : CollapsedBlockMargins}
    {cs : List Fragment} {lo hi : ℚ} (h : Lies E S [.box style g m cs] lo hi) (d : ℚ) :
    Lies E S [.box style { g with contentRect := g.contentRect.addBlock d } m cs] (lo + d) (hi + d) := by
  intro x y
  rw [moved_textBoxes]
  have := h x (y + d)
  have e1 : y + (lo + d) = y + d + lo := by ring
  have e2 : y + (hi + d) = y + d + hi := by ring
  rw [e1, e2]
  exact this

theorem Textless.moved {style : Style} {g : BoxGeom} {m : CollapsedBlockMargins}
    {cs : List Fragment} (h : Textless [.box style g m cs]) (d : ℚ) :
    Textless [.box style { g with contentRect := g.contentRect.addBlock d } m cs] := by
  intro x y
  rw [moved_textBoxes, h]

theorem placeFragment_rows {E : TextEnv} {S : Style → Prop} {st st' : PlacementState} {f f' : Fragment} (hu : st.Upward)
    (hf : f.Orderly E S) (h : placeFragment st f = .ok (f', st')) : PlacedRows E S st st' [f'] := by
  cases f with
  | text => cases h
  | anonymous r cs m =>
    have hf : cs = [] := hf
    subst hf
    simp only [placeFragment] at h
    split at h
    · cases h
    · split at h
      · cases h
      · cases h
        have ht : Textless [.anonymous (r.addBlock st.position) [] m] := fun _ _ => rfl
        exact ⟨ht.lies (le_refl _), hu, fun h => ⟨h, ht⟩⟩
  | box s g m cs =>
    obtain ⟨h1, h2, h3, h4⟩ := hf
    -- the fragment if its margins do not collapse with those of the parent
    have key : ∀ cur : CollapsedMargin, cur.Upward →
        Lies E S [.box s { g with contentRect := g.contentRect.addBlock (cur.solve + st.position) } m cs]
          st.position
          (st.position + (cur.solve + (g.padding.blockSum + g.border.blockSum + g.contentRect.size.block))) := by
      intro cur hc x y
      have := (h1.moved (cur.solve + st.position)) x y
      exact this.mono (by linarith [hc.solve]) (by linarith)
    simp only [placeFragment] at h
    split at h
    · split at h
      · cases h
      · split at h
        · rename_i hthr
          cases h
          exact ⟨(h4 hthr).lies (le_refl _), ⟨(hu.start.adjoin h2).adjoin h3, hu.current⟩,
            fun h => ⟨h, h4 hthr⟩⟩
        · cases h
          exact ⟨key _ hu.current, ⟨hu.start.adjoin h2, h3⟩, fun h => by cases h⟩
    · rename_i hcol
      split at h
      · rename_i hthr
        cases h
        exact ⟨((h4 hthr).moved _).lies (le_refl _), ⟨hu.start, (hu.current.adjoin h2).adjoin h3⟩,
          fun h => absurd h hcol⟩
      · cases h
        exact ⟨key _ (hu.current.adjoin h2), ⟨hu.start, h3⟩, fun h => absurd h hcol⟩

theorem PlacedRows.nil {E : TextEnv} {S : Style → Prop} {st : PlacementState} (h : st.Upward) : PlacedRows E S st st [] :=
  ⟨Textless.nil.lies (le_refl _), h, fun h => ⟨h, .nil⟩⟩

theorem PlacedRows.append {E : TextEnv} {S : Style → Prop} {a b c : PlacementState} {f g : List Fragment}
    (h : PlacedRows E S a b f) (h' : PlacedRows E S b c g) : PlacedRows E S a c (f ++ g) :=
  ⟨h.lies.append h'.lies, h'.up, fun k => ⟨(h.collapses (h'.collapses k).1).1,
    (h.collapses (h'.collapses k).1).2.append (h'.collapses k).2⟩⟩

theorem placeAll_rows {E : TextEnv} {S : Style → Prop} : ∀ (fs fs' : List Fragment) (st st' : PlacementState),
    st.Upward → (∀ f ∈ fs, f.Orderly E S) → placeAll st fs = .ok (fs', st') → PlacedRows E S st st' fs'
  | [], fs', st, st', hu, _, h => by
    cases h
    exact .nil hu
  | f :: fs, fs', st, st', hu, hf, h => by
    rw [placeAll] at h
    simp only [bind, Except.bind] at h
    split at h
    · cases h
    · rename_i r hr
      split at h
      · cases h
      · rename_i r' hr'
        cases h
        have h1 := placeFragment_rows hu (hf f (by simp)) hr
        exact h1.append (placeAll_rows fs _ _ _ h1.up (fun f h => hf f (by simp [h])) hr')

/-- boxes that can be laid out in order -/
structure BlockLevelBox.Ready (E : TextEnv) (S : Style → Prop) (b : BlockLevelBox) : Prop where
  sound : b.sound
  tidy : b.tidy
  own : b.own E.font S
  calm : ∀ e ∈ b.boxed, Calm e

/-- layout keeps texts in order -/
def BoxRows (E : TextEnv) (S : Style → Prop) (boxL : BoxLayout) : Prop :=
  ∀ b cb rank abs fl f out, b.Ready E S → boxL b cb rank abs fl = .ok (f, out) →
    out = abs ∧ f.Orderly E S

/-- lists of boxes that can be laid out in order -/
structure BlocksReady (E : TextEnv) (S : Style → Prop) (bs : List BlockLevelBox) : Prop where
  sound : blockSound bs
  tidy : blockTidy bs
  own : blockOwn E.font S bs
  calm : ∀ e ∈ blockBoxed bs, Calm e

theorem BlocksReady.head {E : TextEnv} {S : Style → Prop} {b : BlockLevelBox} {bs : List BlockLevelBox}
    (h : BlocksReady E S (b :: bs)) : b.Ready E S :=
  ⟨h.sound.1, h.tidy.1, h.own.1, fun e he => h.calm e (List.mem_append_left _ he)⟩

theorem BlocksReady.tail {E : TextEnv} {S : Style → Prop} {b : BlockLevelBox} {bs : List BlockLevelBox}
    (h : BlocksReady E S (b :: bs)) : BlocksReady E S bs :=
  ⟨h.sound.2, h.tidy.2, h.own.2, fun e he => h.calm e (List.mem_append_right _ he)⟩

theorem layoutEach_rows {E : TextEnv} {S : Style → Prop} {boxL : BoxLayout} (hb : BoxRows E S boxL)
    {cb : ContainingBlock} : ∀ (bs : List BlockLevelBox) (rank : Nat) (abs out : List AbsFragment)
    (fs : List Fragment), BlocksReady E S bs → layoutEach boxL cb rank bs abs = .ok (fs, out) →
    out = abs ∧ ∀ f ∈ fs, f.Orderly E S
  | [], _, _, _, _, _, h => by
    cases h
    exact ⟨rfl, by simp⟩
  | b :: bs, rank, abs, out, fs, hs, h => by
    rw [layoutEach] at h
    simp only [bind, Except.bind] at h
    split at h
    · cases h
    · rename_i r hr
      split at h
      · cases h
      · rename_i r' hr'
        cases h
        obtain ⟨e1, c1⟩ := hb _ _ _ _ _ _ _ hs.head hr
        obtain ⟨e2, c2⟩ := layoutEach_rows hb bs _ _ _ _ hs.tail hr'
        refine ⟨e2.trans e1, fun f hf => ?_⟩
        rcases List.mem_cons.1 hf with rfl | hf
        · exact c1
        · exact c2 f hf

theorem layoutAndPlaceEach_rows {E : TextEnv} {S : Style → Prop} {boxL : BoxLayout} (hb : BoxRows E S boxL)
    {cb : ContainingBlock} : ∀ (bs : List BlockLevelBox) (rank : Nat) (abs out : List AbsFragment)
    (st st' : PlacementState) (fs : List Fragment), BlocksReady E S bs → st.Upward →
    layoutAndPlaceEach boxL cb rank bs abs st = .ok (fs, out, st') →
    out = abs ∧ PlacedRows E S st st' fs
  | [], _, _, _, _, _, _, _, hu, h => by
    cases h
    exact ⟨rfl, .nil hu⟩
  | b :: bs, rank, abs, out, st, st', fs, hs, hu, h => by
    rw [layoutAndPlaceEach] at h
    simp only [bind, Except.bind] at h
    split at h
    · cases h
    · rename_i r hr
      split at h
      · cases h
      · rename_i r' hr'
        split at h
        · cases h
        · rename_i r'' hr''
          cases h
          obtain ⟨e1, c1⟩ := hb _ _ _ _ _ _ _ hs.head hr
          have h1 := placeFragment_rows hu c1 hr'
          obtain ⟨e2, c2⟩ := layoutAndPlaceEach_rows hb bs _ _ _ _ _ _ hs.tail h1.up hr''
          exact ⟨e2.trans e1, h1.append c2⟩

/-- laid out contents -/
structure FlowChildren.Orderly (E : TextEnv) (S : Style → Prop) (fc : FlowChildren) : Prop where
  lies : Lies E S fc.fragments 0 fc.blockSize
  start : fc.margins.start.Upward
  «end» : fc.margins.end.Upward
  through : fc.margins.collapsedThrough = true → Textless fc.fragments

/-- contents that can be laid out in order -/
structure BlockContainer.Ready (E : TextEnv) (S : Style → Prop) (c : BlockContainer) : Prop where
  sound : c.sound
  tidy : c.tidy
  own : c.own E.font S
  calm : ∀ e ∈ c.boxed, Calm e

mutual

theorem InlineLevelBox.own_noAbs {F : Style → Font} {S : Style → Prop} {p : Style} : ∀ b : InlineLevelBox, b.own F S p →
    b.absBoxes = []
  | .inlineBox _ _ _ ks, h => inlineOwn_noAbs' ks h.2
  | .textRun .., _ => rfl
  | .outOfFlowAbsolutelyPositionedBox _ _, h => h.elim
  | .outOfFlowFloatBox _ _, _ => rfl

theorem inlineOwn_noAbs' {F : Style → Font} {S : Style → Prop} {p : Style} : ∀ bs : List InlineLevelBox,
    inlineOwn F S p bs → inlineAbsBoxes bs = []
  | [], _ => rfl
  | b :: bs, h => by
    rw [inlineAbsBoxes, b.own_noAbs h.1, inlineOwn_noAbs' bs h.2, List.nil_append]

end

theorem inlineOwn_noAbs {F : Style → Font} {S : Style → Prop} {p : Style} {bs : List InlineLevelBox}
    (h : inlineOwn F S p bs) : inlineAbsBoxes bs = [] := inlineOwn_noAbs' bs h

theorem containerLayout_rows {E : TextEnv} {S : Style → Prop} (hw : ∀ f t, 0 ≤ E.width f t) {boxL : BoxLayout}
    (hb : BoxRows E S boxL) {cb : ContainingBlock} {c : BlockContainer} {rank : Nat}
    {abs out : List AbsFragment} {floats collapsible : Bool} {fc : FlowChildren} (hc : c.Ready E S)
    (h : containerLayout E boxL c cb rank abs floats collapsible = .ok (fc, out)) :
    out = abs ∧ fc.Orderly E S := by
  cases c with
  | inlineFormattingContext st boxes =>
    obtain ⟨L, new, h1, h2, h3, h4⟩ := ifcLayout_good E st boxes cb rank hc.sound
    change ifcLayout _ _ _ _ _ _ = _ at h
    rw [h2] at h
    cases h
    rw [inlineOwn_noAbs hc.own.2, List.map_eq_nil_iff] at h4
    subst h4
    have := placeLines_lies hw cb (st.val .textAlign) hc.own.1 L 0 (laysOut_calm h1 st hc.own.2 hc.calm)
    rw [zero_add] at this
    exact ⟨List.append_nil _, this, .zero, .zero, fun h => by cases h⟩
  | blockLevelBoxes boxes =>
    have hr : BlocksReady E S boxes := ⟨hc.sound, hc.tidy, hc.own, hc.calm⟩
    have hu : (PlacementState.start collapsible).Upward := ⟨.zero, .zero⟩
    change layoutBlockLevelChildren _ _ _ _ _ _ _ = _ at h
    unfold layoutBlockLevelChildren at h
    simp only [bind, Except.bind] at h
    have key : ∀ (fs : List Fragment) (st : PlacementState) (adj : List AbsFragment),
        PlacedRows E S (.start collapsible) st fs →
        adjustStaticPositions fs rank (abs.drop abs.length) = .ok adj →
        abs.take abs.length ++ adj = abs ∧ FlowChildren.Orderly E S
          ⟨fs, st.position, ⟨st.collapses, st.startMargin, st.currentMargin⟩⟩ := by
      intro fs st adj hp ha
      rw [List.drop_length] at ha
      cases ha
      exact ⟨by simp, hp.lies, hp.up.start, hp.up.current, fun h => (hp.collapses h).2⟩
    cases floats with
    | true =>
      simp only [if_true] at h
      split at h
      · cases h
      · rename_i r hr'
        split at h
        · cases h
        · rename_i adj ha
          cases h
          obtain ⟨e, c⟩ := layoutAndPlaceEach_rows hb _ _ _ _ _ _ _ hr hu hr'
          rw [e] at ha ⊢
          exact key _ _ _ c ha
    | false =>
      simp only [Bool.false_eq_true, if_false] at h
      split at h
      · cases h
      · rename_i r hr'
        split at hr'
        · cases hr'
        · rename_i r1 hr1
          split at hr'
          · cases hr'
          · rename_i r2 hr2
            cases hr'
            split at h
            · cases h
            · rename_i adj ha
              cases h
              obtain ⟨e, c⟩ := layoutEach_rows hb _ _ _ _ _ hr hr1
              simp only at ha ⊢
              rw [e] at ha ⊢
              exact key _ _ _ (placeAll_rows _ _ _ _ hu c hr2) ha

theorem bfcLayout_rows {E : TextEnv} {S : Style → Prop} (hw : ∀ f t, 0 ≤ E.width f t) {boxL : BoxLayout}
    (hb : BoxRows E S boxL) {cb : ContainingBlock} {c : Bfc} {rank : Nat} {abs out : List AbsFragment}
    {fc : FlowChildren} (hc : c.contents.Ready E S)
    (h : bfcLayout E boxL c cb rank abs = .ok (fc, out)) : out = abs ∧ fc.Orderly E S := by
  unfold bfcLayout at h
  simp only [bind, Except.bind] at h
  split at h
  · cases h
  · rename_i r hr
    cases h
    obtain ⟨e, h1, h2, h3, h4⟩ := containerLayout_rows hw hb hc hr
    refine ⟨e, ?_, h2, .zero, fun h => by cases h⟩
    intro x y
    exact (h1 x y).mono (le_refl _) (by have := h3.solve; simp only; linarith)

/-- the block sizes of a calm block -/
theorem inFlow_calm {st : Style} (h : Calm (st, .block)) (cb : ContainingBlock) (kind : BlockLevelKind) :
    let s := inFlowSizes cb st kind
    0 ≤ s.padding.blockStart ∧ 0 ≤ s.padding.blockEnd ∧ 0 ≤ s.border.blockStart ∧
      0 ≤ s.border.blockEnd ∧ 0 ≤ s.margin.blockStart ∧ 0 ≤ s.margin.blockEnd ∧ s.blockSize = .auto := by
  obtain ⟨-, h1, ⟨m1, m2⟩, ⟨p1, p2⟩, b1, b2⟩ := h
  refine ⟨p1.used _, p2.used _, b1.used _, b2.used _, ?_, ?_, ?_⟩
  · have : (inFlowSizes cb st kind).margin.blockStart =
        ((st.val .marginTop : LengthOrPercentageOrAuto).percentageRelativeTo cb.inlineSize).autoIs 0 := by
      simp only [inFlowSizes]
      split
      · unfold solveInlineMargins
        split <;> rfl
      · rfl
    rw [this]
    exact m1.used _
  · have : (inFlowSizes cb st kind).margin.blockEnd =
        ((st.val .marginBottom : LengthOrPercentageOrAuto).percentageRelativeTo cb.inlineSize).autoIs 0 := by
      simp only [inFlowSizes]
      split
      · unfold solveInlineMargins
        split <;> rfl
      · rfl
    rw [this]
    exact m2.used _
  · simp only [inFlowSizes]
    rw [show st.boxSize.block = st.val .height from rfl, show st.val .height = .auto from h1]

theorem layoutInFlow_rows {E : TextEnv} {S : Style → Prop} {absL : AbsLayout}
    {cb : ContainingBlock} {abs : List AbsFragment} {style : Style} {kind : BlockLevelKind}
    {contents : ContainingBlock → List AbsFragment → Bool → Except Panic (FlowChildren × List AbsFragment)}
    (hs : Calm (style, .block))
    (hc : ∀ cb abs c fc out, contents cb abs c = .ok (fc, out) → out = abs ∧ fc.Orderly E S)
    {f : Fragment} {out : List AbsFragment}
    (h : layoutInFlow absL cb abs style kind contents = .ok (f, out)) : out = abs ∧ f.Orderly E S := by
  have hp : Position.isRelativelyPositioned (style.val .position) = false := by
    rw [show style.val .position = .static from hs.1]; rfl
  unfold layoutInFlow at h
  simp only [hp, bind, Except.bind, Bool.false_eq_true, if_false] at h
  split at h
  · cases h
  · split at h
    · cases h
    · rename_i r hr
      obtain ⟨e, h1, h2, h3, h4⟩ := hc _ _ _ _ _ hr
      cases h
      refine ⟨e, ?_⟩
      obtain ⟨k1, k2, k3, k4, k5, k6, k7⟩ := inFlow_calm hs cb kind
      generalize inFlowSizes cb style kind = s at *
      rw [static_unmoved hs.1, k7]
      have hend : (if s.startCollapses && r.1.margins.collapsedThrough then CollapsedMargin.zero
          else r.1.margins.end).Upward := by
        split
        · exact .zero
        · exact h3
      have hsize : r.1.blockSize ≤ (collapseWithChildren s r.1).2 := by
        simp only [collapseWithChildren]
        split
        · exact le_refl _
        · have := hend.solve
          linarith
      refine ⟨?_, ?_, ?_, ?_⟩
      · intro x y
        simp only [textBoxesAll, Fragment.textBoxes, List.append_nil]
        have hpb : s.pb.blockStart = s.padding.blockStart + s.border.blockStart := rfl
        have hz : (Vec2.zero : Vec2 Length).block = 0 := rfl
        refine (h1 _ _).mono ?_ ?_
        · rw [hpb, hz]
          linarith
        · rw [hpb, hz]
          simp only [Sides.blockSum, LengthOrAuto.autoIs]
          linarith
      · simp only [collapseWithChildren, CollapsedBlockMargins.fromMargin]
        split
        · split
          · exact ((CollapsedMargin.Upward.new k5).adjoin h2).adjoin h3
          · exact (CollapsedMargin.Upward.new k5).adjoin h2
        · exact .new k5
      · simp only [collapseWithChildren, CollapsedBlockMargins.fromMargin]
        split
        · exact (CollapsedMargin.Upward.new k6).adjoin hend
        · exact .new k6
      · intro ht x y
        simp only [collapseWithChildren, Bool.and_eq_true] at ht
        simp only [textBoxesAll, Fragment.textBoxes, List.append_nil]
        exact h4 ht.2 _ _

theorem anonymous_calm (p : Option Style) : Calm (Style.anonymousInheritingFrom p, .block) := by
  refine ⟨rfl, rfl, ⟨?_, ?_⟩, ⟨?_, ?_⟩, ?_, ?_⟩ <;> exact le_refl (0 : ℚ)

theorem boxLayoutWith_rows {E : TextEnv} {S : Style → Prop} (hw : ∀ f t, 0 ≤ E.width f t) {boxL : BoxLayout}
    {absL : AbsLayout} (hb : BoxRows E S boxL) : BoxRows E S (boxLayoutWith E boxL absL) := by
  intro b cb rank abs fl f out hr h
  obtain ⟨hs, hp, ho, hc⟩ := hr
  cases b with
  | sameFormattingContextBlock st c =>
    have hcalm : Calm (st, .block) ∧ ∀ e ∈ c.boxed, Calm e := by
      rcases hp.1 with ⟨i, hd⟩ | ⟨p, rfl⟩
      · rw [BlockLevelBox.boxed, hd] at hc
        exact ⟨hc _ (by simp), fun e he => hc e (by simp [he])⟩
      · rw [BlockLevelBox.boxed, anonymous_display] at hc
        exact ⟨anonymous_calm p, hc⟩
    exact layoutInFlow_rows hcalm.1 (fun _ _ _ _ _ h => containerLayout_rows hw hb ⟨hs, hp.2, ho, hcalm.2⟩ h) h
  | independent st c =>
    cases c with
    | mk c fl =>
      rw [BlockLevelBox.boxed] at hc
      exact layoutInFlow_rows (hc _ (by simp)) (fun _ _ _ _ _ h => bfcLayout_rows (c := .mk c fl) hw hb
        ⟨hs, hp, ho, fun e he => hc e (List.mem_cons_of_mem _ he)⟩ h) h
  | outOfFlowAbsolutelyPositionedBox st c => exact ho.elim
  | outOfFlowFloatBox st c =>
    cases h
    exact ⟨rfl, rfl⟩

theorem layout_rows {E : TextEnv} {S : Style → Prop} (hw : ∀ f t, 0 ≤ E.width f t) : ∀ n, BoxRows E S (boxLayout E n)
  | 0 => fun _ _ _ _ _ _ _ _ h => (by cases h)
  | n + 1 => boxLayoutWith_rows hw (layout_rows hw n)

/-- texts of a page of calm elements are in reading order -/
theorem rootLayout_rows {E : TextEnv} {S : Style → Prop} (hw : ∀ f t, 0 ≤ E.width f t) {root : Bfc}
    {viewport : PVec2 Length} {fs : List Fragment} (hs : root.contents.Ready E S)
    (h : rootLayout E root viewport = .ok fs) : ReadingOrder E (textBoxesAll 0 0 fs) ∧ ∀ t ∈ textBoxesAll 0 0 fs, t.Styled E S := by
  unfold rootLayout rootLayoutWith at h
  simp only [bind, Except.bind] at h
  split at h
  · cases h
  · rename_i r hr
    split at h
    · cases h
    · rename_i r' hr'
      cases h
      obtain ⟨e, c⟩ := bfcLayout_rows hw (layout_rows hw _) hs hr
      rw [e] at hr'
      cases hr'
      rw [List.append_nil]
      exact ⟨(c.lies 0 0).order, (c.lies 0 0).styled⟩

end Sinab
