import Verif.Lemmas.InlineCtx
import Mathlib.Algebra.Order.BigOperators.Group.List
import Mathlib.Data.Rat.Defs

/-! C50–C54: inline formatting contexts. -/

namespace Sinab

/-! ### C50 -/

/-- rectangle of a line box -/
def Fragment.lineRect : Fragment → Rect Length
  | .anonymous r _ _ => r
  | .box _ g _ _ => g.contentRect
  | .text _ r _ => r

/-- children of a fragment -/
def Fragment.children : Fragment → List Fragment
  | .anonymous _ cs _ => cs
  | .box _ _ _ cs => cs
  | .text .. => []

/-- height of a line box -/
def Fragment.lineHeight (f : Fragment) : ℚ := f.lineRect.size.block

theorem placeLines_length (E : TextEnv) (cb : ContainingBlock) (align : TextAlign) (root : Font)
    (y : ℚ) (L : List Line) : (placeLines E cb align root y L).length = L.length := by
  induction L generalizing y with
  | nil => rfl
  | cons l L ih => simp [placeLines, ih]

theorem placeLines_get (E : TextEnv) (cb : ContainingBlock) (align : TextAlign) (root : Font)
    (y : ℚ) (L : List Line) (i : Nat) (l : Line) (hl : L[i]? = some l) :
    (placeLines E cb align root y L)[i]? = some (.anonymous
      ⟨⟨(cb.inlineSize - advance E cb.inlineSize l 0) * align.fraction,
        y + pageHeight E root (L.take i)⟩, ⟨cb.inlineSize, lineHeight E root l⟩⟩
      ((place E cb l root 0 0).map (Fragment.translateBlock (lineAscent E root l - root.ascent)))
      cb.mode) := by
  induction L generalizing y i with
  | nil => simp at hl
  | cons a L ih =>
    cases i with
    | zero =>
      simp only [List.getElem?_cons_zero, Option.some.injEq] at hl
      subst hl
      simp [placeLines, pageHeight]
    | succ i =>
      simp only [List.getElem?_cons_succ] at hl
      simp only [placeLines, List.getElem?_cons_succ, ih _ _ hl]
      simp [pageHeight, add_assoc]

theorem placeLines_heights (E : TextEnv) (cb : ContainingBlock) (align : TextAlign) (root : Font)
    (y : ℚ) (L : List Line) :
    (placeLines E cb align root y L).map Fragment.lineHeight = L.map (lineHeight E root) := by
  induction L generalizing y with
  | nil => rfl
  | cons a L ih => simp [placeLines, ih, Fragment.lineHeight, Fragment.lineRect]

theorem lineHeight_nonneg (E : TextEnv) (root : Font) (l : Line) : 0 ≤ lineHeight E root l :=
  add_nonneg (maxAll_nonneg _) (maxAll_nonneg _)

/-- C50: layout of inline content ends normally with at least one line box.  Line `i`
starts where lines `0 … i-1` end, counted from 0; it is as wide as the containing block;
heights are not negative; the content height is the sum of the heights. -/
theorem C50_stack (E : TextEnv) (st : Style) (boxes : List InlineLevelBox) (cb : ContainingBlock)
    (rank : Nat) (abs : List AbsFragment) (h : inlineAbsOk boxes) :
    ∃ r abs', ifcLayout E st boxes cb rank abs = .ok (r, abs') ∧ r.fragments ≠ [] ∧
      r.blockSize = (r.fragments.map Fragment.lineHeight).sum ∧
      ∀ (i : Nat) (f : Fragment), r.fragments[i]? = some f →
        ∃ rect children, f = .anonymous rect children cb.mode ∧
          rect.startCorner.block = ((r.fragments.take i).map Fragment.lineHeight).sum ∧
          rect.size.inline = cb.inlineSize ∧ 0 ≤ rect.size.block := by
  obtain ⟨L, new, h1, h2, h3⟩ := ifcLayout_spec E st boxes cb rank abs h
  refine ⟨_, _, h3, ?_, ?_, ?_⟩
  · intro hn
    have := placeLines_length E cb (st.val .textAlign) (E.font st) 0 L
    simp only at hn
    rw [hn] at this
    exact h1.ne_nil (List.length_eq_zero_iff.1 this.symm)
  · simp only [placeLines_heights, pageHeight]
  · intro i f hf
    simp only at hf
    have hi : i < L.length := by
      have := (List.getElem?_eq_some_iff.1 hf).1
      rwa [placeLines_length] at this
    have := placeLines_get E cb (st.val .textAlign) (E.font st) 0 L i L[i]
      (List.getElem?_eq_getElem hi)
    rw [this] at hf
    simp only [Option.some.injEq] at hf
    subst hf
    refine ⟨_, _, rfl, ?_, rfl, lineHeight_nonneg _ _ _⟩
    simp only [zero_add, List.map_take, placeLines_heights, pageHeight]

mutual
/-- the texts of inline content in order, with style and font -/
def InlineLevelBox.runs : InlineLevelBox → List (Style × Text × Font)
  | .inlineBox _ _ _ children => inlineRuns children
  | .textRun st t font => [(st, t, font)]
  | .outOfFlowAbsolutelyPositionedBox .. | .outOfFlowFloatBox .. => []

def inlineRuns : List InlineLevelBox → List (Style × Text × Font)
  | [] => []
  | b :: bs => b.runs ++ inlineRuns bs
end

theorem joinLines_length (A B : List Line) (hA : A ≠ []) (hB : B ≠ []) :
    (joinLines A B).length + 1 = A.length + B.length := by
  induction A with
  | nil => exact absurd rfl hA
  | cons a A ih =>
    cases A with
    | nil =>
      cases B with
      | nil => exact absurd rfl hB
      | cons b B => simp [joinLines]; omega
    | cons a' A =>
      have := ih (by simp)
      simp only [joinLines, List.length_cons] at this ⊢
      omega

theorem decorate_length (st : Style) (o s l : Bool) (L : List Line) :
    (decorate st o s l L).length = L.length := by
  induction L generalizing o s with
  | nil => rfl
  | cons a L ih =>
    cases L with
    | nil => rfl
    | cons b L => simp only [decorate, List.length_cons, ih]

theorem forall₂_append {α β : Type} {R : α → β → Prop} {a c : List α} {b d : List β}
    (h1 : List.Forall₂ R a b) (h2 : List.Forall₂ R c d) : List.Forall₂ R (a ++ c) (b ++ d) := by
  induction h1 with
  | nil => exact h2
  | cons h _ ih => exact .cons h ih

theorem LaysOut.count {E : TextEnv} {w x : ℚ} {bs : List InlineLevelBox} {L : List Line}
    (h : LaysOut E w x bs L) : ∃ ps : List (List (Text × Bool)),
      List.Forall₂ (fun run p => ∃ avail, RunPieces E run.1 run.2.2 w avail run.2.1 p)
        (inlineRuns bs) ps ∧ L.length = 1 + (ps.map fun p => p.length - 1).sum := by
  induction h with
  | nil => exact ⟨[], .nil, rfl⟩
  | @text x st t font bs pieces L h1 h2 ih =>
    obtain ⟨ps, h3, h4⟩ := ih
    refine ⟨pieces :: ps, .cons ⟨_, h1⟩ h3, ?_⟩
    have := joinLines_length (pieces.map fun p => [Item.text st font p.1 p.2]) L
      (by simpa using h1.ne_nil) h2.ne_nil
    have hp : pieces.length ≠ 0 := by simpa using h1.ne_nil
    simp only [List.length_map] at this
    simp only [List.map_cons, List.sum_cons]
    omega
  | @box x st first last children bs L1 L2 h1 h2 ih1 ih2 =>
    obtain ⟨ps1, h3, h4⟩ := ih1
    obtain ⟨ps2, h5, h6⟩ := ih2
    refine ⟨ps1 ++ ps2, ?_, ?_⟩
    · simp only [inlineRuns, InlineLevelBox.runs]
      exact forall₂_append h3 h5
    · have := joinLines_length (decorate st true first last L1) L2
        (decorate_ne_nil _ _ _ _ _ h1.ne_nil) h2.ne_nil
      rw [decorate_length] at this
      simp only [List.map_append, List.sum_append]
      omega
  | abs h ih => exact ih
  | float h ih => exact ih

/-- C50: there is one line more than there are line breaks, where a text cut to `n`
pieces has `n - 1` breaks and the pieces are those of C46–C48 and C63. -/
theorem C50_count (E : TextEnv) (st : Style) (boxes : List InlineLevelBox) (cb : ContainingBlock)
    (rank : Nat) (abs : List AbsFragment) (h : inlineAbsOk boxes) :
    ∃ r abs' ps, ifcLayout E st boxes cb rank abs = .ok (r, abs') ∧
      List.Forall₂ (fun run p => ∃ avail, RunPieces E run.1 run.2.2 cb.inlineSize avail run.2.1 p)
        (inlineRuns boxes) ps ∧
      r.fragments.length = 1 + (ps.map fun p : List (Text × Bool) => p.length - 1).sum := by
  obtain ⟨L, new, h1, h2, h3⟩ := ifcLayout_spec E st boxes cb rank abs h
  obtain ⟨ps, h4, h5⟩ := h1.count
  exact ⟨_, _, ps, h3, h4, by simpa [placeLines_length] using h5⟩

theorem splitNewlines_length (t : Text) : (splitNewlines t).length = 1 + t.count '\n' := by
  induction t with
  | nil => rfl
  | cons c cs ih =>
    obtain ⟨l, ls, hl⟩ := List.exists_cons_of_ne_nil (splitNewlines_ne_nil cs)
    unfold splitNewlines
    by_cases hc : c = '\n'
    · rw [if_pos hc, List.length_cons, ih, hc, List.count_cons_self]
      omega
    · rw [if_neg hc, List.count_cons_of_ne hc, ← ih, hl]
      rfl

theorem newlinePieces_length (L : List Text) : (newlinePieces L).length = L.length := by
  induction L with
  | nil => rfl
  | cons l L ih => cases L <;> simp_all [newlinePieces]

/-- C50 for content that is not wrapped: one line more than there are newlines. -/
theorem C50_nowrap (E : TextEnv) (st : Style) (boxes : List InlineLevelBox) (cb : ContainingBlock)
    (rank : Nat) (abs : List AbsFragment) (h : inlineAbsOk boxes)
    (hw : ∀ run ∈ inlineRuns boxes, (run.1.val .whiteSpace : WhiteSpace) = .nowrap ∨
      (run.1.val .whiteSpace : WhiteSpace) = .pre) :
    ∃ r abs', ifcLayout E st boxes cb rank abs = .ok (r, abs') ∧
      r.fragments.length = 1 + ((inlineRuns boxes).map fun run => run.2.1.count '\n').sum := by
  obtain ⟨r, abs', ps, h1, h2, h3⟩ := C50_count E st boxes cb rank abs h
  refine ⟨r, abs', h1, ?_⟩
  rw [h3]
  clear h3 h1
  congr 2
  generalize inlineRuns boxes = runs at hw h2 ⊢
  induction h2 with
  | nil => rfl
  | @cons run p runs ps hp _ ih =>
    rw [List.map_cons, List.map_cons, ih (fun run hr => hw run (by simp [hr]))]
    congr 1
    obtain ⟨avail, hp⟩ := hp
    have : p = newlinePieces (splitNewlines run.2.1) := by
      unfold RunPieces at hp
      rcases hw run (by simp) with hr | hr <;> simpa [hr] using hp
    rw [this, newlinePieces_length, splitNewlines_length]
    omega

/-- style for examples -/
def demoStyle : Style := Style.initial

/-- environment for examples: characters are 10 wide -/
def demoEnv' : TextEnv := ⟨fun _ => ⟨16, 12, 4, 4, GCtx.new⟩, fun _ t => 10 * t.length⟩

/-- content for examples: `ab <i>cd ef</i>`, where `<i>` has a left padding of 5, a
right padding of 7, borders of 3 and is shifted up by 3 -/
def demoBoxes : List InlineLevelBox :=
  [.textRun demoStyle "ab ".toList ⟨16, 12, 4, 4, GCtx.new⟩,
   .inlineBox (((demoStyle.set .paddingLeft (.length 5)).set .paddingRight (.length 7)).set
      .verticalAlign (.length 3)) true true
    [.textRun demoStyle "cd ef".toList ⟨16, 12, 4, 4, GCtx.new⟩]]

def demoCb : ContainingBlock := ⟨60, .auto, (.horizontalTb, .ltr)⟩

/-- line rectangles and texts -/
def demoPage (r : Except Panic (FlowChildren × List AbsFragment)) :
    Option (List (Rect Length × List Text) × Length) :=
  match r with
  | .ok (r, _) => some (r.fragments.map fun f => (f.lineRect, f.leaves.map (·.2)), r.blockSize)
  | .error _ => none

example : inlineAbsOk demoBoxes ∧
    demoPage (ifcLayout demoEnv' (demoStyle.set .textAlign .right) demoBoxes demoCb 0 []) =
    some ([(⟨⟨2, 0⟩, ⟨60, 111 / 5⟩⟩, [['a', 'b', ' '], ['c', 'd']]),
           (⟨⟨30, 111 / 5⟩, ⟨60, 96 / 5⟩⟩, [['e', 'f']])], 207 / 5) := by
  refine ⟨⟨trivial, ⟨trivial, trivial⟩, trivial⟩, ?_⟩
  decide +kernel

/-! ### C52 -/

/-- `Realises E cb items fragments`: there is one fragment per nonempty text and per box
part, nested in the same way; texts have the given text, font and style; the sides of a
box part are those of its style, without the start or end if that is on another line. -/
inductive Realises (cb : ContainingBlock) : List Item → List Fragment → Prop
  | nil : Realises cb [] []
  | empty {st font nl is fs} : Realises cb is fs → Realises cb (.text st font [] nl :: is) fs
  | text {st font t nl r w is fs} : t ≠ [] → Realises cb is fs →
      Realises cb (.text st font t nl :: is) (.text st r ⟨font, t, w⟩ :: fs)
  | box {st o s e items g m cs is fs} :
      g.padding = cutSides s e (st.padding.percentagesRelativeTo cb.inlineSize) →
      g.border = cutSides s e (st.borderWidth.percentagesRelativeTo cb.inlineSize) →
      g.margin = cutSides s e (inlineMargin cb.inlineSize st) →
      Realises cb items cs → Realises cb is fs →
      Realises cb (.box st o s e items :: is) (.box st g m cs :: fs)

mutual
theorem place_realises (E : TextEnv) (cb : ContainingBlock) : ∀ (items : List Item) (f : Font)
    (o x : ℚ), Realises cb items (place E cb items f o x)
  | [], f, o, x => by simpa [place] using Realises.nil
  | i :: is, f, o, x => by
    rw [place]
    exact item_realises E cb i f o x is _ (place_realises E cb is f o _)

theorem item_realises (E : TextEnv) (cb : ContainingBlock) : ∀ (i : Item) (f : Font)
    (o x : ℚ) (is : List Item) (fs : List Fragment), Realises cb is fs →
    Realises cb (i :: is) (i.place E cb f o x ++ fs)
  | .text st font t nl, f, o, x, is, fs, h => by
    rw [Item.place]
    split
    · rename_i ht; subst ht; exact .empty h
    · rename_i ht; exact .text ht h
  | .box st onFirst s e items, f, o, x, is, fs, h => by
    rw [Item.place]
    exact .box rfl rfl rfl (place_realises E cb items _ _ _) h
end

theorem Realises.translate {cb : ContainingBlock} {items : List Item} {fs : List Fragment}
    (h : Realises cb items fs) (b : Length) :
    Realises cb items (fs.map (Fragment.translateBlock b)) := by
  induction h with
  | nil => exact .nil
  | empty _ ih => exact .empty ih
  | text ht _ ih => exact .text ht ih
  | box h1 h2 h3 h4 _ _ ih => exact .box h1 h2 h3 h4 ih

theorem placeLines_forall₂ (E : TextEnv) (cb : ContainingBlock) (align : TextAlign) (root : Font)
    (R : Line → Fragment → Prop) (y : ℚ) (L : List Line)
    (h : ∀ l y, R l (.anonymous
      ⟨⟨(cb.inlineSize - advance E cb.inlineSize l 0) * align.fraction, y⟩,
        ⟨cb.inlineSize, lineHeight E root l⟩⟩
      ((place E cb l root 0 0).map (Fragment.translateBlock (lineAscent E root l - root.ascent)))
      cb.mode)) : List.Forall₂ R L (placeLines E cb align root y L) := by
  induction L generalizing y with
  | nil => exact .nil
  | cons l L ih => exact .cons (h l y) (ih _)

/-- C52: the fragments on the lines are those of lines obtained from the boxes by
`LaysOut`: a box on several lines (`decorate`) has its start edge on the first and its
end edge on the last of them. -/
theorem C52_edges (E : TextEnv) (st : Style) (boxes : List InlineLevelBox) (cb : ContainingBlock)
    (rank : Nat) (abs : List AbsFragment) (h : inlineAbsOk boxes) :
    ∃ r abs' L, ifcLayout E st boxes cb rank abs = .ok (r, abs') ∧
      LaysOut E cb.inlineSize 0 boxes L ∧
      List.Forall₂ (fun l f => Realises cb l f.children) L r.fragments := by
  obtain ⟨L, new, h1, h2, h3⟩ := ifcLayout_spec E st boxes cb rank abs h
  exact ⟨_, _, L, h3, h1, placeLines_forall₂ E cb _ _ _ _ _ fun l y =>
    (place_realises E cb l _ _ _).translate _⟩

mutual
/-- number of start edges, number of end edges -/
def Item.edges : Item → Nat × Nat
  | .text .. => (0, 0)
  | .box _ _ s e items =>
    ((if s then 1 else 0) + (edges items).1, (if e then 1 else 0) + (edges items).2)

def edges : List Item → Nat × Nat
  | [] => (0, 0)
  | i :: is => (i.edges.1 + (edges is).1, i.edges.2 + (edges is).2)
end

mutual
/-- number of inline boxes that have a start edge, that have an end edge -/
def InlineLevelBox.edges : InlineLevelBox → Nat × Nat
  | .inlineBox _ first last children =>
    ((if first then 1 else 0) + (inlineEdges children).1,
     (if last then 1 else 0) + (inlineEdges children).2)
  | .textRun .. | .outOfFlowAbsolutelyPositionedBox .. | .outOfFlowFloatBox .. => (0, 0)

def inlineEdges : List InlineLevelBox → Nat × Nat
  | [] => (0, 0)
  | b :: bs => (b.edges.1 + (inlineEdges bs).1, b.edges.2 + (inlineEdges bs).2)
end

theorem edges_append (a b : List Item) :
    edges (a ++ b) = ((edges a).1 + (edges b).1, (edges a).2 + (edges b).2) := by
  induction a with
  | nil => simp [edges]
  | cons i a ih => simp [edges, ih, Nat.add_assoc]

theorem joinLines_flatten (A B : List Line) : (joinLines A B).flatten = A.flatten ++ B.flatten := by
  induction A with
  | nil => simp [joinLines]
  | cons a A ih =>
    cases A with
    | nil => cases B <;> simp [joinLines]
    | cons a' A => simp only [joinLines, List.flatten_cons, ih, List.append_assoc]

theorem decorate_edges (st : Style) (o s l : Bool) (L : List Line) (h : L ≠ []) :
    edges (decorate st o s l L).flatten =
      ((if s then 1 else 0) + (edges L.flatten).1, (if l then 1 else 0) + (edges L.flatten).2) := by
  induction L generalizing o s with
  | nil => exact absurd rfl h
  | cons a L ih =>
    cases L with
    | nil => simp [decorate, edges, Item.edges]
    | cons b L =>
      have := ih false false (by simp)
      simp only [decorate, List.flatten_cons, edges_append] at this ⊢
      rw [this]
      simp only [edges, Item.edges]
      refine Prod.ext ?_ ?_ <;> simp <;> omega

/-- C52: every inline box has its start edge once and its end edge once on the lines. -/
theorem C52_once (E : TextEnv) (w x : ℚ) (boxes : List InlineLevelBox) (L : List Line)
    (h : LaysOut E w x boxes L) : edges L.flatten = inlineEdges boxes := by
  induction h with
  | nil => rfl
  | @text x st t font bs pieces L h1 h2 ih =>
    rw [joinLines_flatten, edges_append, ih]
    have : edges (pieces.map fun p => [Item.text st font p.1 p.2]).flatten = (0, 0) := by
      clear h1 h2 ih
      induction pieces with
      | nil => rfl
      | cons p ps ih => simp [edges, Item.edges, ih]
    rw [this]
    simp [inlineEdges, InlineLevelBox.edges]
  | box h1 h2 ih1 ih2 =>
    rw [joinLines_flatten, edges_append, decorate_edges _ _ _ _ _ h1.ne_nil, ih1, ih2]
    simp [inlineEdges, InlineLevelBox.edges]
  | abs h ih => simp [ih, inlineEdges, InlineLevelBox.edges]
  | float h ih => simp [ih, inlineEdges, InlineLevelBox.edges]

mutual
/-- texts shown by a fragment with the styles of the enclosing boxes, outermost first -/
def Fragment.paths : Fragment → List (List Style × Style × Text)
  | .box st _ _ cs => (pathsOf cs).map fun l => (st :: l.1, l.2)
  | .anonymous _ cs _ => pathsOf cs
  | .text st _ seg => [([], st, seg.glyphs)]

def pathsOf : List Fragment → List (List Style × Style × Text)
  | [] => []
  | f :: fs => f.paths ++ pathsOf fs
end

mutual
/-- texts of inline content in order, with the styles of the enclosing boxes -/
def InlineLevelBox.pathRuns : InlineLevelBox → List (List Style × Style × Text × Font)
  | .inlineBox st _ _ children => (inlinePathRuns children).map fun l => (st :: l.1, l.2)
  | .textRun st t font => [([], st, t, font)]
  | .outOfFlowAbsolutelyPositionedBox .. | .outOfFlowFloatBox .. => []

def inlinePathRuns : List InlineLevelBox → List (List Style × Style × Text × Font)
  | [] => []
  | b :: bs => b.pathRuns ++ inlinePathRuns bs
end

mutual
/-- the same for the items of a line -/
def Item.paths : Item → List (List Style × Style × Text)
  | .box st _ _ _ items => (itemPaths items).map fun l => (st :: l.1, l.2)
  | .text st _ t _ => if t = [] then [] else [([], st, t)]

def itemPaths : List Item → List (List Style × Style × Text)
  | [] => []
  | i :: is => i.paths ++ itemPaths is
end

theorem itemPaths_append (a b : List Item) : itemPaths (a ++ b) = itemPaths a ++ itemPaths b := by
  induction a with
  | nil => simp [itemPaths]
  | cons i a ih => simp [itemPaths, ih]

theorem pathsOf_append (a b : List Fragment) : pathsOf (a ++ b) = pathsOf a ++ pathsOf b := by
  induction a with
  | nil => simp [pathsOf]
  | cons i a ih => simp [pathsOf, ih]

theorem Realises.paths {cb : ContainingBlock} {items : List Item} {fs : List Fragment}
    (h : Realises cb items fs) : pathsOf fs = itemPaths items := by
  induction h with
  | nil => rfl
  | empty _ ih => simp [itemPaths, Item.paths, ih]
  | text ht _ ih => simp [itemPaths, Item.paths, pathsOf, Fragment.paths, ih, ht]
  | box h1 h2 h3 _ _ ih1 ih => simp [itemPaths, Item.paths, pathsOf, Fragment.paths, ih, ih1]

theorem decorate_paths (st : Style) (o s l : Bool) (L : List Line) :
    itemPaths (decorate st o s l L).flatten =
      (itemPaths L.flatten).map fun p => (st :: p.1, p.2) := by
  induction L generalizing o s with
  | nil => rfl
  | cons a L ih =>
    cases L with
    | nil => simp [decorate, itemPaths, Item.paths]
    | cons b L =>
      have := ih false false
      simp only [decorate, List.flatten_cons, itemPaths_append] at this ⊢
      rw [this]
      simp [itemPaths, Item.paths]

/-- the nonempty pieces of a run, with its path -/
def runPieces (run : List Style × Style × Text × Font) (ps : List (Text × Bool)) :
    List (List Style × Style × Text) :=
  ((ps.map (·.1)).filter (· ≠ [])).map fun t => (run.1, run.2.1, t)

theorem forall₂_map_left' {α β γ : Type} {R : β → γ → Prop} (f : α → β) {a : List α} {c : List γ}
    (h : List.Forall₂ (fun x y => R (f x) y) a c) : List.Forall₂ R (a.map f) c := by
  induction h with
  | nil => exact .nil
  | cons h _ ih => exact .cons h ih

theorem LaysOut.paths {E : TextEnv} {w x : ℚ} {bs : List InlineLevelBox} {L : List Line}
    (h : LaysOut E w x bs L) : ∃ ps : List (List (Text × Bool)),
      List.Forall₂ (fun run p => ∃ avail, RunPieces E run.2.1 run.2.2.2 w avail run.2.2.1 p)
        (inlinePathRuns bs) ps ∧
      itemPaths L.flatten = (List.zipWith runPieces (inlinePathRuns bs) ps).flatten := by
  induction h with
  | nil => exact ⟨[], .nil, rfl⟩
  | @text x st t font bs pieces L h1 h2 ih =>
    obtain ⟨ps, h3, h4⟩ := ih
    refine ⟨pieces :: ps, .cons ⟨_, h1⟩ h3, ?_⟩
    rw [joinLines_flatten, itemPaths_append, h4]
    simp only [inlinePathRuns, InlineLevelBox.pathRuns, List.cons_append, List.nil_append,
      List.zipWith_cons_cons, List.flatten_cons, List.append_cancel_right_eq]
    clear h1 h2 h3 h4
    induction pieces with
    | nil => rfl
    | cons p ps ih =>
      simp only [List.map_cons, List.flatten_cons, itemPaths_append, ih, runPieces]
      by_cases hp : p.1 = [] <;> simp [itemPaths, Item.paths, hp]
  | @box x st first last children bs L1 L2 h1 h2 ih1 ih2 =>
    obtain ⟨ps1, h3, h4⟩ := ih1
    obtain ⟨ps2, h5, h6⟩ := ih2
    refine ⟨ps1 ++ ps2, ?_, ?_⟩
    · simp only [inlinePathRuns, InlineLevelBox.pathRuns]
      exact forall₂_append (forall₂_map_left' _ h3) h5
    · rw [joinLines_flatten, itemPaths_append, decorate_paths, h4, h6]
      simp only [inlinePathRuns, InlineLevelBox.pathRuns]
      rw [List.zipWith_append (by simpa using h3.length_eq), List.flatten_append]
      congr 1
      rw [List.map_flatten, List.zipWith_map_left, List.map_zipWith]
      congr 2
      funext run p
      simp [runPieces]
  | abs h ih => exact ih
  | float h ih => exact ih

theorem pathsOf_flatMap (L : List Line) (fs : List Fragment) (cb : ContainingBlock)
    (h : List.Forall₂ (fun l f => Realises cb l (Fragment.children f)) L fs) :
    pathsOf (fs.flatMap Fragment.children) = itemPaths L.flatten := by
  induction h with
  | nil => rfl
  | cons h _ ih => simp [pathsOf_append, itemPaths_append, ih, h.paths]

/-- C52: texts are shown in order, each inside the boxes (in the same nesting) that it
is in.  `ps` are the pieces of the runs. -/
theorem C52_nesting (E : TextEnv) (st : Style) (boxes : List InlineLevelBox) (cb : ContainingBlock)
    (rank : Nat) (abs : List AbsFragment) (h : inlineAbsOk boxes) :
    ∃ r abs' ps, ifcLayout E st boxes cb rank abs = .ok (r, abs') ∧
      List.Forall₂ (fun run p => ∃ avail,
        RunPieces E run.2.1 run.2.2.2 cb.inlineSize avail run.2.2.1 p) (inlinePathRuns boxes) ps ∧
      pathsOf (r.fragments.flatMap Fragment.children) =
        (List.zipWith runPieces (inlinePathRuns boxes) ps).flatten := by
  obtain ⟨r, abs', L, h1, h2, h3⟩ := C52_edges E st boxes cb rank abs h
  obtain ⟨ps, h4, h5⟩ := h2.paths
  exact ⟨r, abs', ps, h1, h4, by rw [pathsOf_flatMap _ _ _ h3, h5]⟩

/-- inline sides of the boxes on the lines: start and end padding -/
def demoPaddings (r : Except Panic (FlowChildren × List AbsFragment)) : List (List (ℚ × ℚ)) :=
  match r with
  | .ok (r, _) => r.fragments.map fun f => f.children.filterMap fun
    | .box _ g _ _ => some (g.padding.inlineStart, g.padding.inlineEnd)
    | _ => none
  | .error _ => []

example : demoPaddings (ifcLayout demoEnv' demoStyle demoBoxes demoCb 0 []) =
    [[(5, 0)], [(0, 7)]] := by decide +kernel

/-! ### C53 -/

/-- `Tiled cb x fs x'`: the fragments lie side by side from `x` to `x'`; the contents of
a box fill its content box in the same way.  A box takes the place of its margin box; it
may be shown displaced by relative positioning. -/
inductive Tiled (cb : ContainingBlock) : ℚ → List Fragment → ℚ → Prop
  | nil {x} : Tiled cb x [] x
  | text {x st r seg fs x'} : r.startCorner.inline = x →
      Tiled cb (x + r.size.inline) fs x' → Tiled cb x (.text st r seg :: fs) x'
  | box {x st g m cs fs x' d} :
      (d = 0 ∨ d = (relativeAdjustement st cb.inlineSize cb.blockSize).inline) →
      g.marginRect.startCorner.inline = x + d →
      Tiled cb 0 cs g.contentRect.size.inline →
      Tiled cb (x + g.marginRect.size.inline) fs x' → Tiled cb x (.box st g m cs :: fs) x'

mutual
theorem place_tiled (E : TextEnv) (cb : ContainingBlock) : ∀ (items : List Item) (f : Font)
    (o x : ℚ), Tiled cb (x - o) (place E cb items f o x) (advance E cb.inlineSize items x - o)
  | [], f, o, x => by simpa [place, advance] using Tiled.nil
  | i :: is, f, o, x => by
    rw [place, advance]
    exact item_tiled E cb i f o x _ _ (place_tiled E cb is f o _)

theorem item_tiled (E : TextEnv) (cb : ContainingBlock) : ∀ (i : Item) (f : Font)
    (o x : ℚ) (fs : List Fragment) (x' : ℚ), Tiled cb (i.advance E cb.inlineSize x - o) fs x' →
    Tiled cb (x - o) (i.place E cb f o x ++ fs) x'
  | .text st font t nl, f, o, x, fs, x', h => by
    rw [Item.place]
    rw [Item.advance] at h
    split
    · rename_i ht; rw [if_pos ht] at h; exact h
    · rename_i ht
      rw [if_neg ht] at h
      refine .text rfl ?_
      show Tiled cb _ fs x'
      convert h using 1
      ring
  | .box st onFirst s e items, f, o, x, fs, x', h => by
    rw [Item.place]
    rw [Item.advance] at h
    have hc := place_tiled E cb items (E.font st) (if s then x + startSpace cb.inlineSize st else x)
      (if s then x + startSpace cb.inlineSize st else x)
    rw [sub_self] at hc
    refine .box (d := if onFirst then
      (relativeAdjustement st cb.inlineSize cb.blockSize).inline else 0) ?_ ?_ hc ?_
    · cases onFirst
      · exact .inl rfl
      · exact .inr rfl
    · cases s
      · simp [BoxGeom.marginRect, Rect.inflate, cutSides]
      · simp only [BoxGeom.marginRect, Rect.inflate, cutSides, startSpace, inlineMargin,
          Sides.percentagesRelativeTo, Sides.percentagesOrAutoRelativeTo, Sides.autoIs, Sides.map,
          if_true]
        ring
    · show Tiled cb _ fs x'
      convert h using 1
      cases s <;> cases e <;>
        simp only [BoxGeom.marginRect, Rect.inflate, cutSides, startSpace, endSpace, inlineMargin,
          Sides.percentagesRelativeTo, Sides.percentagesOrAutoRelativeTo, Sides.autoIs, Sides.map,
          Sides.inlineSum, if_true, Bool.false_eq_true, if_false] <;>
        ring
end

theorem Tiled.translate {cb : ContainingBlock} {x x' : ℚ} {fs : List Fragment}
    (h : Tiled cb x fs x') (b : Length) : Tiled cb x (fs.map (Fragment.translateBlock b)) x' := by
  induction h with
  | nil => exact .nil
  | text h1 _ ih => exact .text h1 ih
  | box h1 h2 h3 _ _ ih => exact .box h1 h2 h3 ih

/-- the free space fraction put before the content of a line -/
def alignFraction : TextAlign → ℚ
  | .left => 0
  | .center => 1 / 2
  | .right => 1
  | .justify => 0
  | .percentage p => p

/-- C53 and C51: the contents of every line lie side by side from the start of the line
to some `used` width, and the line box starts at the given fraction of the free space. -/
theorem C53_tiled (E : TextEnv) (st : Style) (boxes : List InlineLevelBox) (cb : ContainingBlock)
    (rank : Nat) (abs : List AbsFragment) (h : inlineAbsOk boxes) :
    ∃ r abs', ifcLayout E st boxes cb rank abs = .ok (r, abs') ∧
      ∀ f ∈ r.fragments, ∃ used, Tiled cb 0 f.children used ∧
        f.lineRect.startCorner.inline =
          (cb.inlineSize - used) * alignFraction (st.val .textAlign) := by
  obtain ⟨L, new, h1, h2, h3⟩ := ifcLayout_spec E st boxes cb rank abs h
  refine ⟨_, _, h3, ?_⟩
  intro f hf
  have hR := placeLines_forall₂ E cb (st.val .textAlign) (E.font st) (fun l f =>
    ∃ used, Tiled cb 0 f.children used ∧ f.lineRect.startCorner.inline =
          (cb.inlineSize - used) * alignFraction (st.val .textAlign)) 0 L ?_
  · simp only at hf
    clear h1 h2 h3
    generalize placeLines E cb (st.val .textAlign) (E.font st) 0 L = fs at hf hR
    induction hR with
    | nil => cases hf
    | cons h _ ih =>
      rcases List.mem_cons.1 hf with rfl | hf
      · exact h
      · exact ih hf
  · intro l y
    refine ⟨advance E cb.inlineSize l 0, ?_, ?_⟩
    · have := place_tiled E cb l (E.font st) 0 0
      simp only [sub_zero] at this
      exact this.translate _
    · simp only [Fragment.lineRect]
      congr 1
      cases (st.val .textAlign : TextAlign) <;> rfl

/-- inline position and width of all texts relative to their parents -/
def demoXs (r : Except Panic (FlowChildren × List AbsFragment)) : List (List (ℚ × ℚ)) :=
  match r with
  | .ok (r, _) => r.fragments.map fun f => f.children.map fun f =>
    (f.lineRect.startCorner.inline, f.lineRect.size.inline)
  | .error _ => []

example : demoXs (ifcLayout demoEnv' demoStyle demoBoxes demoCb 0 []) =
    [[(0, 30), (38, 20)], [(0, 20)]] := by decide +kernel

/-! ### C51 -/

/-- line boxes that differ in their inline position only -/
def SameLine : Fragment → Fragment → Prop
  | .anonymous r cs m, .anonymous r' cs' m' =>
    cs = cs' ∧ m = m' ∧ r.size = r'.size ∧ r.startCorner.block = r'.startCorner.block
  | _, _ => False

/-- the state with another alignment and other lines -/
def IfcState.realign (a : TextAlign) (ls : List Fragment) (s : IfcState) : IfcState :=
  { s with textAlign := a, lines := ls }

theorem finishLine_realign (a : TextAlign) (ls : List Fragment) (s : IfcState)
    (h : List.Forall₂ SameLine s.lines ls) :
    ∃ ls', (s.realign a ls).finishLine = s.finishLine.realign a ls' ∧
      List.Forall₂ SameLine s.finishLine.lines ls' :=
  ⟨_, rfl, forall₂_append h (.cons ⟨rfl, rfl, rfl, rfl⟩ .nil)⟩

theorem pushText_realign (E : TextEnv) (a : TextAlign) (ls : List Fragment) (s : IfcState)
    (st : Style) (font : Font) (shaped : ShapedSegment) (nl : Bool) :
    ((s.realign a ls).pushText E st font shaped nl) =
      ((s.pushText E st font shaped nl).1.realign a ls, (s.pushText E st font shaped nl).2) := by
  unfold IfcState.pushText
  simp only
  split <;> split <;> rfl

theorem pushText_lines (E : TextEnv) (s : IfcState)
    (st : Style) (font : Font) (shaped : ShapedSegment) (nl : Bool) :
    (s.pushText E st font shaped nl).1.lines = s.lines := by
  unfold IfcState.pushText
  simp only
  split <;> split <;> rfl

/-- `Realigned a x y`: `y` is the result `x` with another alignment. -/
def Realigned (a : TextAlign) : Except Panic IfcState → Except Panic IfcState → Prop
  | .error e, .error e' => e = e'
  | .ok s, .ok s' => ∃ ls, s' = s.realign a ls ∧ List.Forall₂ SameLine s.lines ls
  | _, _ => False

theorem wrapLoop_realign (E : TextEnv) (a : TextAlign) (st : Style) (font : Font) (fuel : Nat) :
    ∀ (s : IfcState) (ls : List Fragment) (chars : Text) (shaped : ShapedSegment)
      (lb : Option (SegState × Text)), List.Forall₂ SameLine s.lines ls →
      Realigned a (wrapLoop E st font fuel s chars shaped lb)
        (wrapLoop E st font fuel (s.realign a ls) chars shaped lb) := by
  induction fuel with
  | zero => intros; rfl
  | succ fuel ih =>
    intro s ls chars shaped lb h
    rw [wrapLoop, wrapLoop]
    have hav : (s.realign a ls).cb.inlineSize - (s.realign a ls).inlinePosition =
      s.cb.inlineSize - s.inlinePosition := rfl
    rw [hav]
    cases hs : scanLine E (s.cb.inlineSize - s.inlinePosition) chars shaped lb with
    | error e => rfl
    | ok sc =>
      simp only [bind, Except.bind, pushText_realign]
      have h' : List.Forall₂ SameLine (s.pushText E st font sc.shaped sc.newline).1.lines ls := by
        rw [pushText_lines]; exact h
      split
      · obtain ⟨ls', h1, h2⟩ := finishLine_realign a ls _ h'
        rw [h1]
        exact ih _ _ _ _ _ h2
      · exact ⟨ls, rfl, h'⟩

theorem layoutNowrap_realign (E : TextEnv) (a : TextAlign) (st : Style) (font : Font) (fuel : Nat) :
    ∀ (s : IfcState) (ls : List Fragment) (chars : Text), List.Forall₂ SameLine s.lines ls →
      Realigned a (layoutNowrap E st font fuel s chars)
        (layoutNowrap E st font fuel (s.realign a ls) chars) := by
  induction fuel with
  | zero => intros; rfl
  | succ fuel ih =>
    intro s ls chars h
    rw [layoutNowrap, layoutNowrap]
    simp only [pushText_realign]
    have h' : List.Forall₂ SameLine (s.pushText E st font
        (scanNowrap chars (ShapedSegment.new font)).shaped
        (scanNowrap chars (ShapedSegment.new font)).newline).1.lines ls := by
      rw [pushText_lines]; exact h
    split
    · obtain ⟨ls', h1, h2⟩ := finishLine_realign a ls _ h'
      rw [h1]
      exact ih _ _ _ h2
    · exact ⟨ls, rfl, h'⟩

theorem layoutTextRun_realign (E : TextEnv) (a : TextAlign) (st : Style) (font : Font) (text : Text)
    (s : IfcState) (ls : List Fragment) (h : List.Forall₂ SameLine s.lines ls) :
    Realigned a (layoutTextRun E st text font s) (layoutTextRun E st text font (s.realign a ls)) := by
  unfold layoutTextRun
  cases (st.val .whiteSpace : WhiteSpace) <;>
    first
    | exact wrapLoop_realign E a st font _ s ls _ _ _ h
    | exact layoutNowrap_realign E a st font _ s ls _ h

theorem startBox_realign (E : TextEnv) (a : TextAlign) (s : IfcState) (ls : List Fragment) (st : Style)
    (f l : Bool) (children : List InlineLevelBox) :
    (s.realign a ls).startBox E st f l children = (s.startBox E st f l children).realign a ls := by
  cases f <;> rfl

theorem startBox_lines (E : TextEnv) (s : IfcState) (st : Style)
    (f l : Bool) (children : List InlineLevelBox) :
    (s.startBox E st f l children).lines = s.lines := by
  cases f <;> rfl

/-- the same for results of the whole loop -/
def Realigned' (a : TextAlign) :
    Except Panic (IfcState × List AbsFragment) → Except Panic (IfcState × List AbsFragment) → Prop
  | .error e, .error e' => e = e'
  | .ok (s, x), .ok (s', x') =>
    (∃ ls, s' = s.realign a ls ∧ List.Forall₂ SameLine s.lines ls) ∧ x' = x
  | _, _ => False

theorem ifcLoop_realign (E : TextEnv) (rank : Nat) (a : TextAlign) (fuel : Nat) :
    ∀ (s : IfcState) (ls : List Fragment) (abs : List AbsFragment),
      List.Forall₂ SameLine s.lines ls →
      Realigned' a (ifcLoop E rank fuel s abs) (ifcLoop E rank fuel (s.realign a ls) abs) := by
  induction fuel with
  | zero => intros; rfl
  | succ fuel ih =>
    intro s ls abs h
    rw [ifcLoop, ifcLoop]
    have hc : (s.realign a ls).current.remaining = s.current.remaining := rfl
    rw [hc]
    cases hrem : s.current.remaining with
    | nil =>
      simp only
      have hst : (s.realign a ls).stack = s.stack := rfl
      rw [hst]
      cases s.stack with
      | nil =>
        obtain ⟨ls', h1, h2⟩ := finishLine_realign a ls s h
        simp only
        rw [h1]
        exact ⟨⟨ls', rfl, h2⟩, rfl⟩
      | cons p ps => exact ih (s.endBox p ps) ls abs h
    | cons b bs =>
      simp only
      have hset : { s.realign a ls with
          current := { (s.realign a ls).current with remaining := bs } } =
        ({ s with current := { s.current with remaining := bs } } : IfcState).realign a ls := rfl
      rw [hset]
      have hl : List.Forall₂ SameLine
        ({ s with current := { s.current with remaining := bs } } : IfcState).lines ls := h
      generalize ({ s with current := { s.current with remaining := bs } } : IfcState) = t at hl
      cases b with
      | inlineBox st f l children =>
        simp only [startBox_realign]
        exact ih _ _ _ (by rw [startBox_lines]; exact hl)
      | textRun st text font =>
        have := layoutTextRun_realign E a st font text t ls hl
        simp only
        cases h1 : layoutTextRun E st text font t with
        | error e =>
          cases h2 : layoutTextRun E st text font (t.realign a ls) with
          | error e' => rw [h1, h2] at this; simpa [Realigned, Realigned', bind, Except.bind] using this
          | ok s' => rw [h1, h2] at this; exact this.elim
        | ok s1 =>
          cases h2 : layoutTextRun E st text font (t.realign a ls) with
          | error e' => rw [h1, h2] at this; exact this.elim
          | ok s2 =>
            rw [h1, h2] at this
            obtain ⟨ls', rfl, h3⟩ := this
            exact ih _ _ _ h3
      | outOfFlowAbsolutelyPositionedBox st c =>
        have hcor : (t.realign a ls).absStartCorner st = t.absStartCorner st := rfl
        simp only [hcor]
        cases t.absStartCorner st with
        | error e => rfl
        | ok corner => exact ih _ _ _ hl
      | outOfFlowFloatBox st c => exact ih _ _ _ hl

/-- C51: changing the alignment changes nothing but where the lines start: the contents
of every line, its height and place, and everything else are the same. -/
theorem C51_only_lines_move (E : TextEnv) (st : Style) (a : TextAlign)
    (boxes : List InlineLevelBox) (cb : ContainingBlock) (rank : Nat) (abs : List AbsFragment)
    (hf : E.font (st.set .textAlign a) = E.font st) (h : inlineAbsOk boxes) :
    ∃ r r' abs', ifcLayout E st boxes cb rank abs = .ok (r, abs') ∧
      ifcLayout E (st.set .textAlign a) boxes cb rank abs = .ok (r', abs') ∧
      r'.blockSize = r.blockSize ∧ r'.margins = r.margins ∧
      List.Forall₂ SameLine r.fragments r'.fragments := by
  have hstart : IfcState.start E (st.set .textAlign a) boxes cb =
      (IfcState.start E st boxes cb).realign a [] := by
    unfold IfcState.start
    simp only [hf, IfcState.realign]
    congr 1
  have hl := ifcLoop_realign E rank a (inlineSteps boxes + 1) (IfcState.start E st boxes cb) [] abs .nil
  obtain ⟨L, new, _, _, h3⟩ := ifcLayout_spec E st boxes cb rank abs h
  have h3' := h3
  unfold ifcLayout at h3 ⊢
  rw [hstart]
  cases h1 : ifcLoop E rank (inlineSteps boxes + 1) (IfcState.start E st boxes cb) abs with
  | error e => rw [h1] at h3; cases h3
  | ok x =>
    cases h2 : ifcLoop E rank (inlineSteps boxes + 1) ((IfcState.start E st boxes cb).realign a []) abs with
    | error e => rw [h1, h2] at hl; exact hl.elim
    | ok y =>
      rw [h1, h2] at hl
      obtain ⟨s, x⟩ := x
      obtain ⟨s', x'⟩ := y
      obtain ⟨⟨ls, rfl, h4⟩, rfl⟩ := hl
      exact ⟨_, _, _, rfl, rfl, rfl, rfl, h4⟩

/-- C51: where the lines start: all, none, or half of the free space is before the
contents, for right, left and centred text. -/
theorem C51_start (E : TextEnv) (st : Style) (boxes : List InlineLevelBox) (cb : ContainingBlock)
    (rank : Nat) (abs : List AbsFragment) (h : inlineAbsOk boxes) :
    ∃ r abs', ifcLayout E st boxes cb rank abs = .ok (r, abs') ∧
      ∀ f ∈ r.fragments, ∃ used, Tiled cb 0 f.children used ∧
        ((st.val .textAlign : TextAlign) = .left → f.lineRect.startCorner.inline = 0) ∧
        ((st.val .textAlign : TextAlign) = .right →
          f.lineRect.startCorner.inline + used = cb.inlineSize) ∧
        ((st.val .textAlign : TextAlign) = .center → f.lineRect.startCorner.inline =
          cb.inlineSize - (f.lineRect.startCorner.inline + used)) := by
  obtain ⟨r, abs', h1, h2⟩ := C53_tiled E st boxes cb rank abs h
  refine ⟨r, abs', h1, fun f hf => ?_⟩
  obtain ⟨used, h3, h4⟩ := h2 f hf
  refine ⟨used, h3, ?_, ?_, ?_⟩ <;> intro ha <;> rw [h4, ha] <;> simp only [alignFraction] <;> ring

example : demoXs (ifcLayout demoEnv' (demoStyle.set .textAlign .center) demoBoxes demoCb 0 []) =
    demoXs (ifcLayout demoEnv' demoStyle demoBoxes demoCb 0 []) ∧
    (demoPage (ifcLayout demoEnv' (demoStyle.set .textAlign .center) demoBoxes demoCb 0 [])).map
      (fun p => p.1.map fun l => l.1.startCorner.inline) = some [1, 15] := by decide +kernel

/-! ### C54 -/

mutual
/-- texts of a fragment with the height of their top in the line box -/
def Fragment.tops : Fragment → ℚ → List (Style × Text × ℚ)
  | .box _ g _ cs, y => topsOf cs (y + g.contentRect.startCorner.block)
  | .anonymous r cs _, y => topsOf cs (y + r.startCorner.block)
  | .text st r seg, y => [(st, seg.glyphs, y + r.startCorner.block)]

def topsOf : List Fragment → ℚ → List (Style × Text × ℚ)
  | [], _ => []
  | f :: fs, y => f.tops y ++ topsOf fs y
end

mutual
/-- Texts of items with the top of a text whose baseline is lowered by all the shifts of
the enclosing boxes (`y` those so far, against the baseline of the line), if the text
has the font of the box it is in. -/
def Item.shifted (E : TextEnv) (cb : ContainingBlock) : Item → (parent : Font) → (y : ℚ) →
    List (Style × Text × ℚ)
  | .text st _ t _, parent, y => if t = [] then [] else [(st, t, y - parent.ascent)]
  | .box st _ _ _ items, parent, y => itemsShifted E cb items (E.font st)
      (y + shiftOf st (E.font st) parent + (relativeAdjustement st cb.inlineSize cb.blockSize).block)

def itemsShifted (E : TextEnv) (cb : ContainingBlock) : List Item → (parent : Font) → (y : ℚ) →
    List (Style × Text × ℚ)
  | [], _, _ => []
  | i :: is, parent, y => i.shifted E cb parent y ++ itemsShifted E cb is parent y
end

theorem topsOf_append (a b : List Fragment) (y : ℚ) : topsOf (a ++ b) y = topsOf a y ++ topsOf b y := by
  induction a with
  | nil => simp [topsOf]
  | cons f a ih => simp [topsOf, ih]

mutual
theorem place_tops (E : TextEnv) (cb : ContainingBlock) : ∀ (items : List Item) (f : Font)
    (o x y : ℚ), topsOf (place E cb items f o x) (y - f.ascent) = itemsShifted E cb items f y
  | [], f, o, x, y => rfl
  | i :: is, f, o, x, y => by
    rw [place, topsOf_append, itemsShifted, place_tops E cb is, item_tops E cb i]

theorem item_tops (E : TextEnv) (cb : ContainingBlock) : ∀ (i : Item) (f : Font)
    (o x y : ℚ), topsOf (i.place E cb f o x) (y - f.ascent) = i.shifted E cb f y
  | .text st font t nl, f, o, x, y => by
    rw [Item.place, Item.shifted]
    split
    · rfl
    · simp [topsOf, Fragment.tops]
  | .box st onFirst s e items, f, o, x, y => by
    rw [Item.place, Item.shifted, ← place_tops E cb items (E.font st)
      (if s then x + startSpace cb.inlineSize st else x)
      (if s then x + startSpace cb.inlineSize st else x)]
    simp only [topsOf, Fragment.tops, List.append_nil]
    congr 1
    ring
end

theorem topsOf_translate (fs : List Fragment) (b y : ℚ) :
    topsOf (fs.map (Fragment.translateBlock b)) y = topsOf fs (y + b) := by
  induction fs with
  | nil => rfl
  | cons f fs ih =>
    simp only [List.map_cons, topsOf, ih]
    congr 1
    cases f <;> simp only [Fragment.translateBlock, Fragment.tops, Rect.addBlock] <;> ring_nf

theorem le_maxAll {l : List ℚ} {a : ℚ} (h : a ∈ l) : a ≤ maxAll l := by
  induction l with
  | nil => cases h
  | cons b l ih =>
    rcases List.mem_cons.1 h with rfl | h
    · exact le_max_left _ _
    · exact (ih h).trans (le_max_right _ _)

theorem maxAll_attained (l : List ℚ) : maxAll l = 0 ∨ maxAll l ∈ l := by
  induction l with
  | nil => exact .inl rfl
  | cons b l ih =>
    have hm : maxAll (b :: l) = max b (maxAll l) := rfl
    rw [hm]
    rcases max_choice b (maxAll l) with hb | hb
    · rw [hb]; exact .inr (by simp)
    · rw [hb]
      rcases ih with ih | ih
      · exact .inl ih
      · exact .inr (by simp [ih])

theorem lineAscent_spec (E : TextEnv) (root : Font) (l : Line) :
    (∀ e ∈ extents E l root 0, e.1 ≤ lineAscent E root l ∧ e.2 ≤ lineDescent E root l) ∧
    (lineAscent E root l = 0 ∨ ∃ e ∈ extents E l root 0, e.1 = lineAscent E root l) ∧
    (lineDescent E root l = 0 ∨ ∃ e ∈ extents E l root 0, e.2 = lineDescent E root l) := by
  refine ⟨fun e he => ⟨le_maxAll (List.mem_map.2 ⟨e, he, rfl⟩), le_maxAll (List.mem_map.2 ⟨e, he, rfl⟩)⟩,
    ?_, ?_⟩
  · rcases maxAll_attained ((extents E l root 0).map (·.1)) with h | h
    · exact .inl h
    · exact .inr (List.mem_map.1 h)
  · rcases maxAll_attained ((extents E l root 0).map (·.2)) with h | h
    · exact .inl h
    · exact .inr (List.mem_map.1 h)

/-- C54: every line has a baseline, `asc` below its top and `desc` above its bottom.  The
texts of the line are where the accumulated shifts of the enclosing boxes put them,
counted from the baseline; `asc` and `desc` enclose the extents of all texts (shifted in
the same way) and are not larger than needed. -/
theorem C54_line (E : TextEnv) (st : Style) (boxes : List InlineLevelBox) (cb : ContainingBlock)
    (rank : Nat) (abs : List AbsFragment) (h : inlineAbsOk boxes) :
    ∃ r abs' L, ifcLayout E st boxes cb rank abs = .ok (r, abs') ∧
      LaysOut E cb.inlineSize 0 boxes L ∧
      List.Forall₂ (fun l f => ∃ asc desc, 0 ≤ asc ∧ 0 ≤ desc ∧ f.lineHeight = asc + desc ∧
        topsOf f.children 0 = itemsShifted E cb l (E.font st) asc ∧
        (∀ e ∈ extents E l (E.font st) 0, e.1 ≤ asc ∧ e.2 ≤ desc) ∧
        (asc = 0 ∨ ∃ e ∈ extents E l (E.font st) 0, e.1 = asc) ∧
        (desc = 0 ∨ ∃ e ∈ extents E l (E.font st) 0, e.2 = desc)) L r.fragments := by
  obtain ⟨L, new, h1, h2, h3⟩ := ifcLayout_spec E st boxes cb rank abs h
  refine ⟨_, _, L, h3, h1, placeLines_forall₂ E cb _ _ _ _ _ fun l y =>
    ⟨_, _, maxAll_nonneg _, maxAll_nonneg _, rfl, ?_, lineAscent_spec E (E.font st) l⟩⟩
  simp only [Fragment.children]
  rw [topsOf_translate, zero_add]
  exact place_tops E cb l (E.font st) 0 0 _

/-- the tops of the texts of all lines -/
def demoTops (r : Except Panic (FlowChildren × List AbsFragment)) : List (List ℚ) :=
  match r with
  | .ok (r, _) => r.fragments.map fun f => (topsOf f.children 0).map (·.2.2)
  | .error _ => []

example : demoTops (ifcLayout demoEnv' demoStyle demoBoxes demoCb 0 []) =
    [[23 / 5, 8 / 5], [8 / 5]] := by decide +kernel

end Sinab
