import Verif.Lemmas.Inline
import Mathlib.Data.Rat.Floor
import Mathlib.Tactic.NormNum

/-! C46–C49, C63: text segments and line breaking. -/

namespace Sinab

/-! ### C49 -/

/-- Operations on a text segment.  `save` remembers the segment on a stack, `restore`
goes back to the last remembered one, `discard` forgets it. -/
inductive SegOp where
  | append (c : Char)
  | strip
  | save
  | restore
  | discard
  | measure
  deriving DecidableEq, Repr

/-- the operation on the real segment -/
def SegOp.run (E : TextEnv) : SegOp → ShapedSegment × List SegState →
    Except Panic (ShapedSegment × List SegState)
  | .append c, (s, st) => .ok (s.appendChar c, st)
  | .strip, (s, st) => .ok (s.stripSpace, st)
  | .save, (s, st) => .ok (s, s.save :: st)
  | .restore, (s, x :: st) => (s.restore x).map (·, st)
  | .restore, (s, []) => .ok (s, [])
  | .discard, (s, st) => .ok (s, st.tail)
  | .measure, (s, st) => .ok ((s.getAdvanceWidth E).2, st)

def SegOp.runAll (E : TextEnv) : List SegOp → ShapedSegment × List SegState →
    Except Panic (ShapedSegment × List SegState)
  | [], s => .ok s
  | op :: ops, s => do
    let s ← op.run E s
    SegOp.runAll E ops s

/-- the operation on plain texts -/
def SegOp.spec : SegOp → Text × List Text → Text × List Text
  | .append c, (t, st) => (t ++ [c], st)
  | .strip, (t, st) => (if t.getLast? = some ' ' then t.dropLast else t, st)
  | .save, (t, st) => (t, t :: st)
  | .restore, (_, x :: st) => (x, st)
  | .restore, (t, []) => (t, [])
  | .discard, (t, st) => (t, st.tail)
  | .measure, (t, st) => (t, st)

/-- No space is removed while a state is remembered. -/
def noStripWhileSaved : List SegOp → Nat → Bool
  | [], _ => true
  | .strip :: ops, n => n == 0 && noStripWhileSaved ops n
  | .save :: ops, n => noStripWhileSaved ops (n + 1)
  | .restore :: ops, n | .discard :: ops, n => noStripWhileSaved ops (n - 1)
  | _ :: ops, n => noStripWhileSaved ops n

/-- C49 as stated. -/
def C49_full : Prop := ∀ (E : TextEnv) (f : Font) (ops : List SegOp) (s : ShapedSegment)
  (st : List SegState), SegOp.runAll E ops (ShapedSegment.new f, []) = .ok (s, st) →
    (s.getAdvanceWidth E).1 = E.width s.font s.glyphs

/-- a font for examples -/
def demoFont : Font := ⟨16, 12, 4, 4, GCtx.new⟩

/-- every character is 10 wide -/
def demoEnv : TextEnv := ⟨fun _ => demoFont, fun _ t => 10 * t.length⟩

/-- Remember, remove the trailing space, go back: the text stays without the space but
the reported width is that with the space. -/
theorem C49_full_false : ¬ C49_full := by
  intro h
  have := h demoEnv demoFont [.append 'a', .append ' ', .measure, .save, .strip, .restore]
    ⟨demoFont, ['a'], some 20⟩ [] (by decide +kernel)
  revert this
  decide +kernel

/-- Saved states that belong to prefixes of the text, nested. -/
def SavedOk (E : TextEnv) (f : Font) : Text → List SegState → List Text → Prop
  | _, [], [] => True
  | t, x :: st, y :: ts => y <+: t ∧ x.glyphs = utf8Len y ∧ CacheOk E f y x.advanceWidth ∧
      SavedOk E f y st ts
  | _, _, _ => False

theorem SavedOk.mono {E : TextEnv} {f : Font} {t t' : Text} {st : List SegState} {ts : List Text}
    (h : SavedOk E f t st ts) (ht : t <+: t') : SavedOk E f t' st ts := by
  cases st <;> cases ts
  · trivial
  · exact h
  · exact h
  · exact ⟨h.1.trans ht, h.2⟩

theorem SavedOk.length {E : TextEnv} {f : Font} {t : Text} {st : List SegState} {ts : List Text}
    (h : SavedOk E f t st ts) : st.length = ts.length := by
  induction st generalizing t ts with
  | nil => cases ts <;> simp_all [SavedOk]
  | cons x st ih =>
    cases ts with
    | nil => simp [SavedOk] at h
    | cons y ts => simp [ih h.2.2.2]

theorem segOps_ok (E : TextEnv) (f : Font) : ∀ (ops : List SegOp) (s : ShapedSegment)
    (st : List SegState) (ts : List Text), s.Fresh E → s.font = f → SavedOk E f s.glyphs st ts →
    noStripWhileSaved ops ts.length = true →
    ∃ s' st', SegOp.runAll E ops (s, st) = .ok (s', st') ∧ s'.Fresh E ∧ s'.font = f ∧
      s'.glyphs = (ops.foldl (fun x op => op.spec x) (s.glyphs, ts)).1 := by
  intro ops
  induction ops with
  | nil => intro s st ts h1 h2 h3 h4; exact ⟨s, st, rfl, h1, h2, rfl⟩
  | cons op ops ih =>
    intro s st ts h1 h2 h3 h4
    cases op with
    | append c =>
      exact ih (s.appendChar c) st ts (ShapedSegment.Fresh.appendChar c) h2
        (h3.mono (by simp)) h4
    | strip =>
      simp only [noStripWhileSaved, Bool.and_eq_true, beq_iff_eq] at h4
      have hts : ts = [] := List.length_eq_zero_iff.1 h4.1
      subst hts
      have hst : st = [] := List.length_eq_zero_iff.1 h3.length
      subst hst
      have := ih s.stripSpace [] [] h1.stripSpace (by simpa using h2) trivial h4.2
      simp only [SegOp.runAll, SegOp.run, List.foldl_cons, SegOp.spec]
      have hg : s.stripSpace.glyphs = if s.glyphs.getLast? = some ' ' then s.glyphs.dropLast
          else s.glyphs := by unfold ShapedSegment.stripSpace; split <;> rfl
      rw [hg] at this
      exact this
    | save =>
      exact ih s (s.save :: st) (s.glyphs :: ts) h1 h2
        ⟨List.prefix_refl _, rfl, by rw [← h2]; exact h1, h3⟩ h4
    | restore =>
      cases ts with
      | nil =>
        obtain rfl : st = [] := List.length_eq_zero_iff.1 h3.length
        exact ih s [] [] h1 h2 h3 h4
      | cons y ts =>
        cases st with
        | nil => simp [SavedOk] at h3
        | cons x st =>
          obtain ⟨⟨r, hr⟩, hx, hc, h3⟩ := h3
          have hres : s.restore x = .ok ⟨s.font, y, x.advanceWidth⟩ := by
            simp only [ShapedSegment.restore, ← hr, hx, truncateBytes_prefix]
            rfl
          have := ih ⟨s.font, y, x.advanceWidth⟩ st ts
            (by unfold ShapedSegment.Fresh; rw [h2]; exact hc) h2 h3 (by simpa [noStripWhileSaved] using h4)
          simp only [SegOp.runAll, SegOp.run, hres, List.foldl_cons, SegOp.spec]
          exact this
    | discard =>
      cases ts with
      | nil =>
        obtain rfl : st = [] := List.length_eq_zero_iff.1 h3.length
        exact ih s [] [] h1 h2 h3 h4
      | cons y ts =>
        cases st with
        | nil => simp [SavedOk] at h3
        | cons x st =>
          exact ih s st ts h1 h2 (h3.2.2.2.mono h3.1) (by simpa [noStripWhileSaved] using h4)
    | measure =>
      have := ih (s.getAdvanceWidth E).2 st ts h1.getAdvanceWidth (by simpa using h2)
        (by simpa using h3) h4
      rw [ShapedSegment.getAdvanceWidth_glyphs] at this
      exact this

/-- C49 for all sequences in which no space is removed while a state is remembered:
nothing aborts, the text is the one obtained on plain lists, and the reported width is
the width of that text. -/
theorem C49_partial (E : TextEnv) (f : Font) (ops : List SegOp)
    (h : noStripWhileSaved ops 0 = true) :
    ∃ s st, SegOp.runAll E ops (ShapedSegment.new f, []) = .ok (s, st) ∧ s.font = f ∧
      s.glyphs = (ops.foldl (fun x op => op.spec x) ([], [])).1 ∧
      (s.getAdvanceWidth E).1 = E.width f (ops.foldl (fun x op => op.spec x) ([], [])).1 := by
  obtain ⟨s, st, h1, h2, h3, h4⟩ := segOps_ok E f ops (ShapedSegment.new f) [] []
    (ShapedSegment.fresh_new f) rfl trivial h
  have h4' : s.glyphs = (ops.foldl (fun x op => op.spec x) ([], [])).1 := h4
  refine ⟨s, st, h1, h3, h4', ?_⟩
  rw [ShapedSegment.getAdvanceWidth_fst h2, h3, h4']

example : noStripWhileSaved [.append 'a', .measure, .save, .append ' ', .append 'b', .measure,
    .restore, .append 'é', .measure, .append ' ', .strip] 0 = true ∧
    (([.append 'a', .measure, .save, .append ' ', .append 'b', .measure, .restore, .append 'é',
      .measure, .append ' ', .strip] : List SegOp).foldl (fun x op => op.spec x) ([], [])).1
      = ['a', 'é'] := by decide +kernel

/-! ### C46 -/

/-- white-space modes in which text wraps -/
def Wraps (st : Style) : Prop :=
  (st.val .whiteSpace : WhiteSpace) ≠ .nowrap ∧ (st.val .whiteSpace : WhiteSpace) ≠ .pre

/-- Text `text` of style `st` is put to the page of `s`, giving that of `s'`, as `lines`:
shown and dropped characters, line by line. -/
def ShownAs (st : Style) (text : Text) (s s' : IfcState) (lines : List BrokenLine) : Prop :=
  s'.lineLeaves = addPieces st s.lineLeaves (lines.map (·.shown)) ∧
  text = (lines.map (·.text)).flatten

/-- C46 as stated (the termination part is contained: the result is not an abort). -/
def C46_full : Prop := ∀ (E : TextEnv) (st : Style) (font : Font) (text : Text) (s : IfcState),
  Wraps st → ∃ s' lines, layoutTextRun E st text font s = .ok s' ∧ ShownAs st text s s' lines ∧
    ∀ l ∈ lines, ∀ c ∈ l.dropped, c = ' ' ∨ c = '\n'

theorem Wrapped.flatten {W : Text → ℚ} {full avail : ℚ} {first : Bool} {text : Text}
    {lines : List BrokenLine} (h : Wrapped W full avail first text lines) :
    text = (lines.map (·.text)).flatten := by
  induction h with
  | last h => simp [BrokenLine.text]
  | more h hm _ ih => rw [List.map_cons, List.flatten_cons, ← ih]; rfl

theorem Wrapped.lineEnd {W : Text → ℚ} {full avail : ℚ} {first : Bool} {text : Text}
    {lines : List BrokenLine} (h : Wrapped W full avail first text lines) :
    ∀ (i : Nat) (l : BrokenLine), lines[i]? = some l → ∃ nl rest,
      rest = ((lines.drop (i + 1)).map (·.text)).flatten ∧
      LineEnd W (if i = 0 then avail else full) (if i = 0 then first else false) l.shown l.dropped rest nl ∧
      (i + 1 < lines.length → rest ≠ [] ∨ nl = true) := by
  induction h with
  | last h =>
    intro i l hl
    cases i with
    | zero => simp at hl; subst hl; exact ⟨_, [], by simp, by simpa using h, by simp⟩
    | succ i => simp at hl
  | @more avail first shown dropped rest nl lines h hm hw ih =>
    intro i l hl
    cases i with
    | zero =>
      simp only [List.getElem?_cons_zero, Option.some.injEq] at hl
      subst hl
      exact ⟨nl, rest, by simpa using hw.flatten, by simpa using h, fun _ => hm⟩
    | succ i =>
      obtain ⟨nl', rest', h1, h', h2⟩ := ih i l (by simpa using hl)
      refine ⟨nl', rest', h1, ?_, by simpa using h2⟩
      simp only [if_neg (Nat.succ_ne_zero i)]
      by_cases hi : i = 0 <;> simpa [hi] using h'

theorem layoutTextRun_wraps (E : TextEnv) (st : Style) (font : Font) (text : Text) (s : IfcState)
    (hw : Wraps st) : ∃ s' lines, layoutTextRun E st text font s = .ok s' ∧
      ShownAs st text s s' lines ∧
      Wrapped (E.width font) s.cb.inlineSize (s.cb.inlineSize - s.inlinePosition) true text lines := by
  obtain ⟨s', pieces, h1, h2, h3, _⟩ := layoutTextRun_spec E st font text s
  obtain ⟨lines, h4, h5⟩ : ∃ lines, Wrapped (E.width font) s.cb.inlineSize
      (s.cb.inlineSize - s.inlinePosition) true text lines ∧
      pieces = lines.map fun l => (l.shown, l.newline) := by
    revert h3
    unfold RunPieces
    have := hw.1; have := hw.2
    cases hws : (st.val .whiteSpace : WhiteSpace) <;> simp_all
  refine ⟨s', lines, h1, ⟨?_, h4.flatten⟩, h4⟩
  rw [h2.lineLeaves, h5, List.map_map]; rfl

/-- an empty page, for examples -/
def demoState (width : Length) : IfcState :=
  IfcState.start demoEnv Style.initial [] ⟨width, .auto, (.horizontalTb, .ltr)⟩

/-- texts of the lines of a page -/
def pageTexts (L : List (List Leaf)) : List (List Text) := L.map (·.map (·.2))

/-- texts of the lines after laying out a text on an empty page of the given width -/
def demoLines (ws : WhiteSpace) (width : Length) (text : String) : Option (List (List Text)) :=
  match layoutTextRun demoEnv (Style.initial.set .whiteSpace ws) text.toList demoFont
    (demoState width) with
  | .ok s => some (pageTexts s.lineLeaves)
  | .error _ => none

theorem pageTexts_addPieces_empty (st : Style) (pieces : List Text) (h : pieces ≠ []) :
    pageTexts (addPieces st [[]] pieces) = pieces.map (fun p => if p = [] then [] else [p]) := by
  obtain ⟨p, ps, rfl⟩ := List.exists_cons_of_ne_nil h
  simp only [addPieces, pageTexts, leafOf]
  simp only [List.dropLast_singleton, List.getLast?_singleton, Option.getD_some, List.nil_append,
    List.singleton_append, List.map_cons, List.map_map]
  congr 1
  · split <;> simp
  · apply List.map_congr_left
    intro t _
    simp only [Function.comp, leafOf]
    split <;> simp

theorem pageTexts_flatten (pieces : List Text) :
    (pieces.map (fun p => if p = [] then [] else [p] : Text → List Text)).flatten.flatten
      = pieces.flatten := by
  induction pieces with
  | nil => rfl
  | cons p ps ih =>
    simp only [List.map_cons, List.flatten_cons, List.flatten_append, ih]
    split <;> simp_all

theorem demoState_leaves (w : Length) : (demoState w).lineLeaves = [[]] := rfl

/-- Hyphens are lost: `aaaa-b` in a column three characters wide is shown as `aaaa`, `b`. -/
theorem C46_full_false : ¬ C46_full := by
  intro h
  have hd : demoLines .normal 30 "aaaa-b" = some [[], [['a', 'a', 'a', 'a']], [['b']]] := by
    decide +kernel
  obtain ⟨s', lines, h1, ⟨h2, h3⟩, h4⟩ := h demoEnv (Style.initial.set .whiteSpace .normal) demoFont
    "aaaa-b".toList (demoState 30) ⟨by decide, by decide⟩
  rw [demoLines, h1] at hd
  simp only [Option.some.injEq] at hd
  have hne : lines ≠ [] := by rintro rfl; simp at h3
  rw [h2, demoState_leaves, pageTexts_addPieces_empty _ _ (by simpa using hne)] at hd
  have hfl : (lines.map (·.shown)).flatten = "aaaab".toList := by
    rw [← pageTexts_flatten, hd]; decide
  have hdrop : ∀ l ∈ lines, l.dropped = [] := by
    intro l hl
    rcases hl2 : l.dropped with _ | ⟨c, cs⟩
    · rfl
    · exfalso
      have hc := h4 l hl c (by rw [hl2]; simp)
      have : c ∈ "aaaa-b".toList := by
        rw [h3, List.mem_flatten]
        exact ⟨l.text, List.mem_map.2 ⟨l, hl, rfl⟩, by simp [hl2, BrokenLine.text]⟩
      rcases hc with rfl | rfl <;> revert this <;> decide
  have : (lines.map (·.text)) = lines.map (·.shown) :=
    List.map_congr_left fun l hl => by rw [BrokenLine.text, hdrop l hl, List.append_nil]
  rw [this, hfl] at h3
  revert h3
  decide

/-- C46 in general.  Missing from the full claim: a hyphen behind a word that is too long
for a whole line is dropped. -/
theorem C46_partial (E : TextEnv) (st : Style) (font : Font) (text : Text) (s : IfcState)
    (hw : Wraps st) : ∃ s' lines, layoutTextRun E st text font s = .ok s' ∧
      ShownAs st text s s' lines ∧
      ∀ l ∈ lines, l.dropped ∈ [[], [' '], ['\n'], [' ', '\n']] ∨
        (l.dropped = ['-'] ∧ Unbreakable l.shown ∧ s.cb.inlineSize < E.width font l.shown) := by
  obtain ⟨s', lines, h1, h2, h3⟩ := layoutTextRun_wraps E st font text s hw
  refine ⟨s', lines, h1, h2, fun l hl => ?_⟩
  obtain ⟨i, hi⟩ := List.mem_iff_getElem?.1 hl
  obtain ⟨nl, rest, -, he, -⟩ := h3.lineEnd i l hi
  obtain ⟨shown, dropped, _⟩ := l
  simp only at he ⊢
  by_cases hi0 : i = 0
  · simp only [hi0, if_true] at he
    cases he <;> simp
  · simp only [hi0, if_false] at he
    cases he with
    | overflow h5 h6 h7 =>
      rcases h7 with rfl | rfl | rfl
      · simp
      · simp
      · exact .inr ⟨rfl, h6, h5⟩
    | _ => simp

/-- C46 for texts without hyphens, and for texts without words longer than a line. -/
theorem C46_whitespace_only (E : TextEnv) (st : Style) (font : Font) (text : Text) (s : IfcState)
    (hw : Wraps st)
    (h : '-' ∉ text ∨ ∀ w, Unbreakable w → w <:+: text → E.width font w ≤ s.cb.inlineSize) :
    ∃ s' lines, layoutTextRun E st text font s = .ok s' ∧ ShownAs st text s s' lines ∧
      ∀ l ∈ lines, l.dropped ∈ [[], [' '], ['\n'], [' ', '\n']] := by
  obtain ⟨s', lines, h1, h2, h3⟩ := C46_partial E st font text s hw
  refine ⟨s', lines, h1, h2, fun l hl => (h3 l hl).resolve_right ?_⟩
  rintro ⟨h4, h5, h6⟩
  obtain ⟨pre, post, rfl⟩ := List.append_of_mem hl
  have ht : text = ((pre.map (·.text)).flatten) ++ l.shown ++
      (['-'] ++ (post.map (·.text)).flatten) := by
    rw [h2.2]; simp [h4, BrokenLine.text]
  rcases h with h | h
  · exact h (by rw [ht]; simp)
  · exact absurd (h l.shown h5 ⟨_, _, ht.symm⟩) (not_le.2 h6)

example : demoLines .normal 50 "ab cd-ef gh" =
    some [[['a', 'b', ' ', 'c', 'd', '-']], [['e', 'f', ' ', 'g', 'h']]] := by decide +kernel

/-- The number of steps given to the loop does not matter once it is large enough: the
loop of the code ends. -/
theorem wrapLoop_mono (E : TextEnv) (st : Style) (font : Font) : ∀ (fuel : Nat) (s : IfcState)
    (chars : Text) (shaped : ShapedSegment) (lb : Option (SegState × Text)) (r : IfcState),
    wrapLoop E st font fuel s chars shaped lb = .ok r →
    wrapLoop E st font (fuel + 1) s chars shaped lb = .ok r := by
  intro fuel
  induction fuel with
  | zero => intro s chars shaped lb r h; cases h
  | succ fuel ih =>
    intro s chars shaped lb r h
    rw [wrapLoop] at h ⊢
    cases hs : scanLine E (s.cb.inlineSize - s.inlinePosition) chars shaped lb with
    | error e => simp only [hs, bind, Except.bind] at h; cases h
    | ok sc =>
      simp only [hs, bind, Except.bind] at h ⊢
      split at h
      · rename_i hc
        rw [if_pos hc]
        exact ih _ _ _ _ _ h
      · rename_i hc
        rw [if_neg hc]
        exact h

theorem C46_terminates (E : TextEnv) (st : Style) (font : Font) (text : Text) (s : IfcState) :
    ∃ s', ∀ fuel, 2 * text.length + 2 ≤ fuel → layoutWrap E fuel st text font s = .ok s' := by
  obtain ⟨s', _, _, h, _⟩ := layoutWrap_spec E st font text s (2 * text.length + 2) (by omega)
  refine ⟨s', fun fuel hf => ?_⟩
  induction fuel, hf using Nat.le_induction with
  | base => exact h
  | succ n _ ih => exact wrapLoop_mono _ _ _ _ _ _ _ _ _ ih

example : demoLines .normal (-10) "a-- \n b" = some [[], [['a']], [], [], [], [], [['b']]] := by
  decide +kernel

/-! ### C47 -/

/-- C47 as stated, for measures in which a text is not narrower than its prefixes. -/
def C47_full : Prop := ∀ (E : TextEnv) (st : Style) (font : Font) (text : Text) (s : IfcState),
  Wraps st → (∀ a b, E.width font a ≤ E.width font (a ++ b)) →
    ∃ s' lines, layoutTextRun E st text font s = .ok s' ∧ ShownAs st text s s' lines ∧
      ∀ (i : Nat) (l : BrokenLine), lines[i]? = some l →
        E.width font l.shown ≤ (if i = 0 then s.cb.inlineSize - s.inlinePosition else s.cb.inlineSize) ∨
          Unbreakable l.shown

/-- `aaa-bb` in a column of three and a half characters: the first line is `aaa-`,
half a character too wide, though it could not be broken later than before it. -/
theorem C47_full_false : ¬ C47_full := by
  intro h
  have hd : demoLines .normal 35 "aaa-bb" = some [[['a', 'a', 'a', '-']], [['b', 'b']]] := by
    decide +kernel
  obtain ⟨s', lines, h1, ⟨h2, h3⟩, h4⟩ := h demoEnv (Style.initial.set .whiteSpace .normal) demoFont
    "aaa-bb".toList (demoState 35) ⟨by decide, by decide⟩ (by
      intro a b
      simp only [demoEnv, List.length_append]
      push_cast
      have : (0 : ℚ) ≤ (b.length : ℚ) := by positivity
      linarith)
  rw [demoLines, h1] at hd
  simp only [Option.some.injEq] at hd
  have hne : lines ≠ [] := by rintro rfl; simp at h3
  rw [h2, demoState_leaves, pageTexts_addPieces_empty _ _ (by simpa using hne)] at hd
  obtain ⟨l, ls, rfl⟩ := List.exists_cons_of_ne_nil hne
  have hl : l.shown = ['a', 'a', 'a', '-'] := by
    simp only [List.map_cons, List.cons.injEq] at hd
    have := hd.1
    split at this
    · simp at this
    · simpa using this
  rcases h4 0 l rfl with h5 | h5
  · rw [hl] at h5
    revert h5
    decide +kernel
  · exact h5 '-' (by rw [hl]; simp) (.inr (.inr rfl))

/-- C47 up to a hyphen: a line is not wider than the available width unless it is one
unbreakable word, or it fits without the hyphen at its end. -/
theorem C47_partial (E : TextEnv) (st : Style) (font : Font) (text : Text) (s : IfcState)
    (hw : Wraps st) (hmono : ∀ a b, E.width font a ≤ E.width font (a ++ b)) :
    ∃ s' lines, layoutTextRun E st text font s = .ok s' ∧ ShownAs st text s s' lines ∧
      ∀ (i : Nat) (l : BrokenLine), lines[i]? = some l →
        let avail := if i = 0 then s.cb.inlineSize - s.inlinePosition else s.cb.inlineSize
        E.width font l.shown ≤ avail ∨ (0 < i ∧ Unbreakable l.shown) ∨ l.shown = [] ∨
          ∃ q, l.shown = q ++ ['-'] ∧ E.width font q ≤ avail := by
  obtain ⟨s', lines, h1, h2, h3⟩ := layoutTextRun_wraps E st font text s hw
  refine ⟨s', lines, h1, h2, fun i l hi => ?_⟩
  obtain ⟨nl, rest, -, he, -⟩ := h3.lineEnd i l hi
  obtain ⟨shown, dropped, _⟩ := l
  simp only at he ⊢
  generalize hav : (if i = 0 then s.cb.inlineSize - s.inlinePosition else s.cb.inlineSize) = avail at he ⊢
  generalize hfi : (if i = 0 then true else false) = first at he
  cases he with
  | done h => exact .inl h
  | newline h => exact .inl h
  | spaceNewline h => exact .inl ((hmono _ _).trans h)
  | space h _ => exact .inl h
  | hyphen h _ => exact .inr (.inr (.inr ⟨_, rfl, h⟩))
  | start _ => exact .inr (.inr (.inl rfl))
  | overflow _ h _ =>
    refine .inr (.inl ⟨?_, h⟩)
    by_contra hi0
    simp [Nat.eq_zero_of_not_pos hi0] at hfi
  | overflowEnd _ h =>
    refine .inr (.inl ⟨?_, h⟩)
    by_contra hi0
    simp [Nat.eq_zero_of_not_pos hi0] at hfi

example : demoLines .normal 40 "aaaaaa bb cc" =
    some [[], [['a', 'a', 'a', 'a', 'a', 'a']], [['b', 'b']], [['c', 'c']]] := by decide +kernel

/-! ### C63 -/

/-- Lines are filled: a line other than the last ends with a newline, or it shows a word
that is too long for the line, or the next word would not have fitted.  `word` is the
next word: the text after the line up to the next place where it can be broken. -/
theorem C63_greedy (E : TextEnv) (st : Style) (font : Font) (text : Text) (s : IfcState)
    (hw : Wraps st) :
    ∃ s' lines, layoutTextRun E st text font s = .ok s' ∧ ShownAs st text s s' lines ∧
      ∀ (i : Nat) (l : BrokenLine), lines[i]? = some l → i + 1 < lines.length →
        let avail := if i = 0 then s.cb.inlineSize - s.inlinePosition else s.cb.inlineSize
        let rest := ((lines.drop (i + 1)).map (·.text)).flatten
        '\n' ∈ l.dropped ∨ avail < E.width font l.shown ∨
          ∃ word rest', rest = word ++ rest' ∧ Unbreakable word ∧
            (rest' = [] ∨ ∃ c r, rest' = c :: r ∧ isBreakChar c) ∧
            avail < E.width font (l.shown ++ l.dropped ++ word) := by
  obtain ⟨s', lines, h1, h2, h3⟩ := layoutTextRun_wraps E st font text s hw
  refine ⟨s', lines, h1, h2, fun i l hi hlast => ?_⟩
  obtain ⟨nl, rest, hr, he, hm⟩ := h3.lineEnd i l hi
  have hm := hm hlast
  obtain ⟨shown, dropped, _⟩ := l
  simp only [← hr] at he ⊢
  generalize (if i = 0 then s.cb.inlineSize - s.inlinePosition else s.cb.inlineSize) = avail at he ⊢
  generalize (if i = 0 then true else false) = first at he
  clear hr
  cases he with
  | done h => simp at hm
  | newline h => simp
  | spaceNewline h => simp
  | space h h' => exact .inr (.inr h')
  | hyphen h h' => exact .inr (.inr (by simp only [List.append_nil]; exact h'))
  | start h' => exact .inr (.inr (by simp only [List.append_nil]; exact h'))
  | overflow h _ _ => exact .inr (.inl h)
  | overflowEnd h _ => exact .inr (.inl h)

/-! ### C48 -/

/-- C48: in `nowrap` and `pre` the text is split exactly at its newlines. -/
theorem C48_nowrap (E : TextEnv) (st : Style) (font : Font) (text : Text) (s : IfcState)
    (hw : ¬ Wraps st) : ∃ s', layoutTextRun E st text font s = .ok s' ∧
      s'.lineLeaves = addPieces st s.lineLeaves (splitNewlines text) := by
  obtain ⟨s', pieces, h1, h2, h3, _⟩ := layoutTextRun_spec E st font text s
  refine ⟨s', h1, ?_⟩
  rw [h2.lineLeaves]
  congr 1
  have hnp : ∀ L : List Text, (newlinePieces L).map (·.1) = L := by
    intro L
    induction L with
    | nil => rfl
    | cons l L ih => cases L <;> simp_all [newlinePieces]
  revert h3
  unfold RunPieces
  unfold Wraps at hw
  cases hws : (st.val .whiteSpace : WhiteSpace) <;> simp_all

/-- the specification of `splitNewlines`: joining the pieces with newlines gives the text
back, and no piece contains a newline -/
theorem splitNewlines_spec (text : Text) :
    (List.intersperse ['\n'] (splitNewlines text)).flatten = text ∧
      ∀ l ∈ splitNewlines text, '\n' ∉ l := by
  induction text with
  | nil => simp [splitNewlines]
  | cons c cs ih =>
    obtain ⟨l, ls, hl⟩ := List.exists_cons_of_ne_nil (splitNewlines_ne_nil cs)
    rw [hl] at ih
    unfold splitNewlines
    by_cases hc : c = '\n'
    · rw [if_pos hc, hl]
      refine ⟨?_, by simpa using ih.2⟩
      simp only [List.intersperse_cons_cons, List.flatten_cons, ih.1, hc]
      simp
    · rw [if_neg hc, hl]
      simp only
      constructor
      · cases ls with
        | nil => simpa using ih.1
        | cons l' ls => simpa using ih.1
      · intro x hx
        rcases List.mem_cons.1 hx with rfl | hx
        · simp only [List.mem_cons, not_or]
          exact ⟨fun h => hc h.symm, ih.2 l (by simp)⟩
        · exact ih.2 x (by simp [hx])

example : demoLines .pre 10 "a  b\n\nc-d " =
    some [[['a', ' ', ' ', 'b']], [], [['c', '-', 'd', ' ']]] := by decide +kernel

end Sinab
