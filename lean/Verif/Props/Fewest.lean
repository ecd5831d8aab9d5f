import Verif.Spec.Fewest
import Verif.Props.Text

/-! C89: the text is broken to as few lines as possible. -/

namespace Sinab

variable {W : Text → ℚ}

theorem textLines_empty {lines : List BrokenLine} (h : (lines.map (·.text)).flatten = []) : textLines lines = [] := by
  rw [textLines, List.filter_eq_nil_iff]
  intro l hl
  have := List.flatten_eq_nil_iff.1 h l.text (List.mem_map_of_mem hl)
  simpa using this

theorem textLines_skip {shown dropped : Text} {nl : Bool} {ls : List BrokenLine} (h : shown ++ dropped = []) :
    textLines (⟨shown, dropped, nl⟩ :: ls) = textLines ls := by
  rw [textLines, List.filter_cons, if_neg (by simpa [BrokenLine.text] using h)]
  rfl

theorem textLines_keep {shown dropped : Text} {nl : Bool} {ls : List BrokenLine} (h : shown ++ dropped ≠ []) :
    textLines (⟨shown, dropped, nl⟩ :: ls) = ⟨shown, dropped, nl⟩ :: textLines ls := by
  rw [textLines, List.filter_cons, if_pos (decide_eq_true (by exact h))]
  rfl

theorem textLines_cons_le (l : BrokenLine) (ls : List BrokenLine) :
    (textLines (l :: ls)).length ≤ (textLines ls).length + 1 := by
  unfold textLines
  rw [List.filter_cons]
  split <;> simp

/-- the next word would have fitted if a line could be cut behind it -/
theorem nextWord_fits (mono : ∀ a b c, W b ≤ W (a ++ b ++ c)) {a a' : ℚ} {T pre T' more rest2 : Text}
    (hT : T = pre ++ T' ++ more) (hm : more ≠ []) (hf : LineFits W a T) (ha : a ≤ a')
    (he : rest2 = [] ∨ ∃ q c, T = q ++ [c] ∧ isBreakChar c)
    (hn : NextWordOverflows W a' T' (more ++ rest2)) : False := by
  obtain ⟨word, rest', hr, hu, -, ho⟩ := hn
  -- a break character at the end of `T` is in `more`
  have hlast : ∀ q c, T = q ++ [c] → ∃ m, more = m ++ [c] ∧ q = pre ++ T' ++ m := by
    intro q c hq
    obtain ⟨m, d, rfl⟩ := (List.eq_nil_or_concat more).resolve_left hm
    rw [List.concat_eq_append] at *
    rw [hT, ← List.append_assoc] at hq
    obtain ⟨h1, h2⟩ := List.append_inj' hq rfl
    cases h2
    exact ⟨m, rfl, h1.symm⟩
  have key : ∀ z, more = word ++ z → False := by
    rintro z rfl
    rcases hf with hf | ⟨q, c, hq, hc, hf⟩
    · have := mono pre (T' ++ word) z
      rw [hT] at hf
      rw [show pre ++ (T' ++ word) ++ z = pre ++ T' ++ (word ++ z) by simp] at this
      linarith
    · obtain ⟨m, h1, h2⟩ := hlast q c hq
      rcases List.eq_nil_or_concat z with rfl | ⟨z', d, rfl⟩
      · refine hu c ?_ hc
        rw [List.append_nil] at h1
        rw [h1]; simp
      · rw [List.concat_eq_append, ← List.append_assoc] at h1
        obtain ⟨h3, -⟩ := List.append_inj' h1 rfl
        have := mono pre (T' ++ word) z'
        rw [h2, ← h3] at hf
        rw [show pre ++ (T' ++ word) ++ z' = pre ++ T' ++ (word ++ z') by simp] at this
        linarith
  rcases List.append_eq_append_iff.1 hr with ⟨z, h1, h2⟩ | ⟨z, h1, h2⟩
  · rcases he with he | ⟨q, c, hq, hc⟩
    · rw [he] at h2
      have : z = [] := by
        cases z with
        | nil => rfl
        | cons => simp at h2
      exact key [] (by rw [h1, this]; simp)
    · obtain ⟨m, h3, -⟩ := hlast q c hq
      refine hu c ?_ hc
      rw [h1, h3]; simp
  · exact key z h1

/-- a line of the code does not end inside of a piece -/
theorem lineEnd_inside (mono : ∀ a b c, W b ≤ W (a ++ b ++ c)) {a a' : ℚ} {first nl : Bool}
    {T pre shown dropped more rest2 : Text} (hT : T = pre ++ (shown ++ dropped) ++ more) (hm : more ≠ [])
    (hl : LineEnd W a' first shown dropped (more ++ rest2) nl) (hne : shown ++ dropped ≠ []) (ha : a ≤ a')
    (he : rest2 = [] ∨ ∃ q c, T = q ++ [c] ∧ isBreakChar c) (hn : '\n' ∉ T.dropLast)
    (hf : LineFits W a T ∨ Unbreakable T.dropLast) : False := by
  have hmem : ∀ c ∈ shown ++ dropped, c ∈ T.dropLast := by
    intro c hc
    rw [hT, List.dropLast_append_of_ne_nil hm]
    simp only [List.mem_append] at hc ⊢
    tauto
  have fits : ∀ c ∈ shown ++ dropped, isBreakChar c → LineFits W a T :=
    fun c hc hb => hf.resolve_right fun h => h c (hmem c hc) hb
  generalize hr : more ++ rest2 = rest at hl
  cases hl with
  | done => simp [hm] at hr
  | newline => exact hn (hmem _ (by simp))
  | spaceNewline => exact hn (hmem _ (by simp))
  | space h h' =>
    rw [← hr] at h'
    exact nextWord_fits mono hT hm (fits ' ' (by simp) (.inl rfl)) ha he h'
  | hyphen h h' =>
    rw [← hr] at h'
    exact nextWord_fits mono (by simpa using hT) hm (fits '-' (by simp) (.inr (.inr rfl))) ha he h'
  | start => simp at hne
  | overflowEnd => simp [hm] at hr
  | @overflow _ c _ h hu hb =>
    have := fits c (by simp) hb
    rcases this with h2 | ⟨q, d, hq, -, h2⟩
    · have := mono pre shown ([c] ++ more)
      rw [hT] at h2
      rw [show pre ++ shown ++ ([c] ++ more) = pre ++ (shown ++ [c]) ++ more by simp] at this
      linarith
    · obtain ⟨m, e, rfl⟩ := (List.eq_nil_or_concat more).resolve_left hm
      rw [List.concat_eq_append] at *
      rw [hT, ← List.append_assoc] at hq
      obtain ⟨h3, -⟩ := List.append_inj' hq rfl
      have := mono pre shown ([c] ++ m)
      rw [← h3] at h2
      rw [show pre ++ shown ++ ([c] ++ m) = pre ++ (shown ++ [c]) ++ m by simp] at this
      linarith

theorem LineEnd.nonempty {a : ℚ} {shown dropped rest : Text} {nl : Bool}
    (h : LineEnd W a false shown dropped rest nl) (hm : rest ≠ [] ∨ nl = true) : shown ++ dropped ≠ [] := by
  cases h <;> simp_all

/-- the lines of a suffix of the text are not more than the pieces of the text -/
theorem wrapped_le (mono : ∀ a b c, W b ≤ W (a ++ b ++ c)) {w w' a : ℚ} {text : Text} {pieces : List Text}
    (hc : LineCut W w a text pieces) (hw : w ≤ w') : a ≤ w' → ∀ (pre text' : Text) (lines : List BrokenLine),
    Wrapped W w' w' false text' lines → text = pre ++ text' → (textLines lines).length ≤ pieces.length := by
  induction hc with
  | nil =>
    intro _ pre text' lines hl ht
    have : text' = [] := by simp_all
    rw [textLines_empty (by rw [← hl.flatten, this])]
    simp
  | @cons a t rest ts h1 h2 h3 h4 hc ih =>
    intro ha pre text' lines hl ht
    have ih := ih hw
    rcases List.append_eq_append_iff.1 ht with ⟨z, h5, h6⟩ | ⟨z, h5, h6⟩
    · exact (ih z text' lines hl h6).trans (by simp)
    · by_cases hz : z = []
      · subst hz
        exact (ih [] text' lines hl (by simpa using h6.symm)).trans (by simp)
      cases hl with
      | @last _ _ shown dropped he =>
        exact (textLines_cons_le _ _).trans (by simp [textLines])
      | @more _ _ shown dropped rest' nl lines he hm hl =>
        refine (textLines_cons_le _ _).trans ?_
        rw [List.length_cons]
        refine Nat.succ_le_succ ?_
        rcases List.append_eq_append_iff.1 h6 with ⟨y, h7, h8⟩ | ⟨y, h7, h8⟩
        · -- the line is ended inside of the piece
          by_cases hy : y = []
          · subst hy
            exact ih [] _ _ hl (by simpa using h8.symm)
          · exfalso
            have hne := he.nonempty hm
            rw [h8] at he
            exact lineEnd_inside mono (T := t) (pre := pre) (by rw [h5, h7]; simp) hy he hne ha h2 h3 h4
        · exact ih y _ _ hl h8

/-- the lines of a text are not more than its pieces -/
theorem wrapped_fewest (mono : ∀ a b c, W b ≤ W (a ++ b ++ c)) {w w' a a' : ℚ} {text : Text} {pieces : List Text}
    {lines : List BrokenLine} (hc : LineCut W w a text pieces) (hl : Wrapped W w' a' true text lines)
    (ha : a ≤ a') (ha' : a ≤ w') (hw : w ≤ w') : (textLines lines).length ≤ pieces.length := by
  cases hc with
  | nil => rw [textLines_empty (by rw [← hl.flatten])]; simp
  | @cons _ t rest ts h1 h2 h3 h4 hc =>
    generalize ht : t ++ rest = text at hl
    cases hl with
    | @last _ _ shown dropped he => exact (textLines_cons_le _ _).trans (by simp [textLines])
    | @more _ _ shown dropped rest' nl lines he hm hl =>
      by_cases hne : shown ++ dropped = []
      · rw [textLines_skip hne]
        refine wrapped_le mono (LineCut.cons h1 h2 h3 h4 hc) hw ha' [] _ _ hl ?_
        rw [ht, hne]
      · refine (textLines_cons_le _ _).trans ?_
        rw [List.length_cons]
        refine Nat.succ_le_succ ?_
        rcases List.append_eq_append_iff.1 ht with ⟨y, h7, h8⟩ | ⟨y, h7, h8⟩
        · exact wrapped_le mono hc hw hw y _ _ hl h8
        · by_cases hy : y = []
          · subst hy
            exact wrapped_le mono hc hw hw [] _ _ hl (by simpa using h8.symm)
          · exfalso
            rw [h8] at he
            exact lineEnd_inside mono (T := t) (pre := []) (by rw [h7]; simp) hy he hne ha h2 h3 h4

/-- a line of the code is a piece -/
theorem LineEnd.piece {a : ℚ} {first nl : Bool}
    {shown dropped rest : Text} (h : LineEnd W a first shown dropped rest nl) (hne : shown ++ dropped ≠ []) :
    (rest = [] ∨ ∃ q c, shown ++ dropped = q ++ [c] ∧ isBreakChar c) ∧
      '\n' ∉ (shown ++ dropped).dropLast ∧
      (LineFits W a (shown ++ dropped) ∨ Unbreakable (shown ++ dropped).dropLast) := by
  have sub : ∀ {t : Text} {c : Char}, c ∈ t.dropLast → c ∈ t := fun h => List.dropLast_subset _ h
  cases h with
  | done h1 h2 => exact ⟨.inl rfl, by simpa using fun h => h2 (sub h), .inl (.inl (by simpa using h1))⟩
  | newline h1 h2 =>
    exact ⟨.inr ⟨shown, _, rfl, .inr (.inl rfl)⟩, by simpa using h2, .inl (.inr ⟨_, _, rfl, .inr (.inl rfl), h1⟩)⟩
  | spaceNewline h1 h2 =>
    refine ⟨.inr ⟨shown ++ [' '], '\n', by simp, .inr (.inl rfl)⟩, ?_,
      .inl (.inr ⟨shown ++ [' '], '\n', by simp, .inr (.inl rfl), h1⟩)⟩
    rw [List.dropLast_append_of_ne_nil (by simp)]
    simpa using h2
  | space h1 _ h2 =>
    exact ⟨.inr ⟨shown, _, rfl, .inl rfl⟩, by simpa using h2, .inl (.inr ⟨_, _, rfl, .inl rfl, h1⟩)⟩
  | @hyphen _ q _ h1 _ h2 =>
    exact ⟨.inr ⟨q, '-', by simp, .inr (.inr rfl)⟩, by simpa using h2,
      .inl (.inr ⟨q, '-', by simp, .inr (.inr rfl), h1⟩)⟩
  | start => simp at hne
  | @overflow _ c _ _ h2 h3 =>
    exact ⟨.inr ⟨shown, c, rfl, h3⟩, by simpa using fun h => h2 _ h (.inr (.inl rfl)), .inr (by simpa using h2)⟩
  | overflowEnd _ h2 =>
    exact ⟨.inl rfl, by simpa using fun h => h2 _ (sub h) (.inr (.inl rfl)),
      .inr (by rw [List.append_nil]; exact fun c hc => h2 c (sub hc))⟩

/-- the lines of the code are one way of cutting the text -/
theorem Wrapped.cut {w a : ℚ} {first : Bool} {text : Text}
    {lines : List BrokenLine} (h : Wrapped W w a first text lines) (ha : a = w) :
    LineCut W w a text ((textLines lines).map (·.text)) := by
  induction h with
  | @last a first shown dropped he =>
    by_cases hne : shown ++ dropped = []
    · rw [textLines_skip hne, hne]
      exact .nil
    · rw [textLines_keep hne]
      obtain ⟨h1, h2, h3⟩ := he.piece hne
      have := LineCut.cons hne (.inl rfl) h2 h3 (.nil (full := w))
      rwa [List.append_nil] at this
  | @more a first shown dropped rest nl lines he hm hl ih =>
    have ih := ih rfl
    by_cases hne : shown ++ dropped = []
    · rw [textLines_skip hne, hne, ha]
      exact ih
    · rw [textLines_keep hne]
      obtain ⟨h1, h2, h3⟩ := he.piece hne
      exact LineCut.cons hne h1 h2 h3 ih

theorem Wrapped.onlyEndsEmpty {w a : ℚ} {first : Bool} {text : Text} {lines : List BrokenLine}
    (h : Wrapped W w a first text lines) : OnlyEndsEmpty lines := by
  intro i l hi he
  by_contra hc
  rw [not_or] at hc
  have hlt : i < lines.length := (List.getElem?_eq_some_iff.1 hi).1
  obtain ⟨nl, rest, -, h1, h2⟩ := h.lineEnd i l hi
  rw [if_neg hc.1, if_neg hc.1] at h1
  exact h1.nonempty (h2 (by omega)) he

/-- C89, number of lines: no way of cutting the text to lines of this width, or narrower
ones, has fewer lines that hold some of the text. -/
theorem C89_fewest (E : TextEnv) (st : Style) (font : Font) (text : Text) (s : IfcState) (hw : Wraps st)
    (mono : ∀ a b c, E.width font b ≤ E.width font (a ++ b ++ c)) (hp : 0 ≤ s.inlinePosition) :
    ∃ s' lines, layoutTextRun E st text font s = .ok s' ∧ ShownAs st text s s' lines ∧ OnlyEndsEmpty lines ∧
      ∀ full avail pieces, full ≤ s.cb.inlineSize → avail ≤ s.cb.inlineSize - s.inlinePosition →
        LineCut (E.width font) full avail text pieces → (textLines lines).length ≤ pieces.length := by
  obtain ⟨s', lines, h1, h2, h3⟩ := layoutTextRun_wraps E st font text s hw
  exact ⟨s', lines, h1, h2, h3.onlyEndsEmpty, fun full avail pieces hf ha hc => wrapped_fewest mono hc h3 ha (by linarith) hf⟩

/-- C89, the number is reached: from the start of a line, the lines of the code that hold
some of the text are a way of cutting it. -/
theorem C89_reached (E : TextEnv) (st : Style) (font : Font) (text : Text) (s : IfcState) (hw : Wraps st)
    (hp : s.inlinePosition = 0) :
    ∃ s' lines, layoutTextRun E st text font s = .ok s' ∧ ShownAs st text s s' lines ∧ OnlyEndsEmpty lines ∧
      LineCut (E.width font) s.cb.inlineSize s.cb.inlineSize text ((textLines lines).map (·.text)) := by
  obtain ⟨s', lines, h1, h2, h3⟩ := layoutTextRun_wraps E st font text s hw
  rw [hp, sub_zero] at h3
  exact ⟨s', lines, h1, h2, h3.onlyEndsEmpty, h3.cut rfl⟩

/-- C89, wider pages: in a wider container the text has no more lines that hold some of
it. -/
theorem C89_wider (E : TextEnv) (st : Style) (font : Font) (text : Text) (s t : IfcState) (hw : Wraps st)
    (mono : ∀ a b c, E.width font b ≤ E.width font (a ++ b ++ c)) (hs : s.inlinePosition = 0)
    (ht : t.inlinePosition = 0) (hst : s.cb.inlineSize ≤ t.cb.inlineSize) :
    ∃ s' t' lines lines', layoutTextRun E st text font s = .ok s' ∧ ShownAs st text s s' lines ∧
      layoutTextRun E st text font t = .ok t' ∧ ShownAs st text t t' lines' ∧
      OnlyEndsEmpty lines ∧ OnlyEndsEmpty lines' ∧
      (textLines lines').length ≤ (textLines lines).length := by
  obtain ⟨s', lines, h1, h2, h7, h3⟩ := C89_reached E st font text s hw hs
  obtain ⟨t', lines', h4, h5, h8, h6⟩ := C89_fewest E st font text t hw mono ht.ge
  refine ⟨s', t', lines, lines', h1, h2, h4, h5, h7, h8, ?_⟩
  have := h6 _ _ _ hst (by rw [ht, sub_zero]; exact hst) h3
  rwa [List.length_map] at this

/-- C89 for all lines, also those that hold none of the text. -/
def C89_all_lines : Prop := ∀ (E : TextEnv) (st : Style) (font : Font) (text : Text) (s t s' t' : IfcState),
  Wraps st → (∀ a b c, E.width font b ≤ E.width font (a ++ b ++ c)) → s.inlinePosition = 0 →
    t.inlinePosition = 0 → s.cb.inlineSize ≤ t.cb.inlineSize → s.lineLeaves = t.lineLeaves →
    layoutTextRun E st text font s = .ok s' → layoutTextRun E st text font t = .ok t' →
      t'.lineLeaves.length ≤ s'.lineLeaves.length

theorem demo_mono (a b c : Text) : demoEnv.width demoFont b ≤ demoEnv.width demoFont (a ++ b ++ c) := by
  simp only [demoEnv, List.length_append]
  push_cast
  have : (0 : ℚ) ≤ (a.length : ℚ) := by positivity
  have : (0 : ℚ) ≤ (c.length : ℚ) := by positivity
  linarith

/-- The newline behind a word that is too long is dropped as if it were a space: in a column
of two characters there is no empty line behind `aaa`, in one of three there is. -/
theorem C89_all_lines_false : ¬ C89_all_lines := by
  intro h
  have hd : demoLines .preLine 20 "b aaa\n" = some [[['b']], [['a', 'a', 'a']]] := by decide +kernel
  have hd' : demoLines .preLine 30 "b aaa\n" = some [[['b']], [['a', 'a', 'a']], []] := by decide +kernel
  unfold demoLines at hd hd'
  cases h1 : layoutTextRun demoEnv (Style.initial.set .whiteSpace .preLine) "b aaa\n".toList demoFont
    (demoState 20) with
  | error e => rw [h1] at hd; cases hd
  | ok s' =>
    cases h2 : layoutTextRun demoEnv (Style.initial.set .whiteSpace .preLine) "b aaa\n".toList demoFont
      (demoState 30) with
    | error e => rw [h2] at hd'; cases hd'
    | ok t' =>
      have h3 := h demoEnv _ demoFont _ _ _ s' t' ⟨by decide, by decide⟩ demo_mono (by decide +kernel)
        (by decide +kernel) (by decide +kernel) (by rw [demoState_leaves, demoState_leaves]) h1 h2
      rw [h1] at hd
      rw [h2] at hd'
      have e1 := congrArg List.length (Option.some.inj hd)
      have e2 := congrArg List.length (Option.some.inj hd')
      simp only [pageTexts, List.length_map, List.length_cons, List.length_nil] at e1 e2
      omega

/-- the same text in columns of six, five and eleven characters -/
example : demoLines .normal 60 "ab cd-ef gh" = some [["ab cd-".toList], ["ef gh".toList]] ∧
    demoLines .normal 50 "ab cd-ef gh" = some [["ab cd-".toList], ["ef gh".toList]] ∧
    demoLines .normal 110 "ab cd-ef gh" = some [["ab cd-ef gh".toList]] := by decide +kernel

/-- a way of cutting it that has more lines -/
example : LineCut (demoEnv.width demoFont) 60 60 "ab cd-ef gh".toList
    ["ab ".toList, "cd-".toList, "ef gh".toList] := by
  refine .cons (t := "ab ".toList) (rest := "cd-ef gh".toList) (by decide) (.inr ⟨"ab".toList, ' ', rfl, .inl rfl⟩)
    (by decide) (.inl (.inl (by decide +kernel))) ?_
  refine .cons (t := "cd-".toList) (rest := "ef gh".toList) (by decide)
    (.inr ⟨"cd".toList, '-', rfl, .inr (.inr rfl)⟩) (by decide) (.inl (.inl (by decide +kernel))) ?_
  exact .cons (t := "ef gh".toList) (rest := []) (by decide) (.inl rfl) (by decide)
    (.inl (.inl (by decide +kernel))) .nil

end Sinab
