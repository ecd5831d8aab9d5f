import Verif.Spec.Append
import Verif.Lemmas.InlineCtx
import Verif.Lemmas.RowsLayout
import Verif.Props.Relative
import Verif.Props.Floats

/-! Lines of inline content to which more is added at the end. -/

namespace Sinab.Append

/-- the second list begins like the first one without its last entry, and is at least as long -/
inductive Heads {α : Type} : List α → List α → Prop
  | last (a b : α) (rest : List α) : Heads [a] (b :: rest)
  | cons (a : α) {l l' : List α} : Heads l l' → Heads (a :: l) (a :: l')

namespace Heads

variable {α β : Type}

theorem ne {l l' : List α} (h : Heads l l') : l ≠ [] ∧ l' ≠ [] := by cases h <;> simp

theorem refl : ∀ {l : List α}, l ≠ [] → Heads l l
  | [], h => absurd rfl h
  | [a], _ => .last a a []
  | a :: b :: l, _ => .cons a (refl (by simp))

theorem trans {l l' : List α} (h : Heads l l') : ∀ {l'' : List α}, Heads l' l'' → Heads l l'' := by
  induction h with
  | last a b rest =>
    intro l'' h'
    cases h' with
    | last => exact .last _ _ _
    | cons => exact .last _ _ _
  | @cons a l l' hl ih =>
    intro l'' h'
    cases h' with
    | last => exact absurd rfl hl.ne.2
    | cons _ h' => exact .cons _ (ih h')

theorem map (f : α → β) {l l' : List α} (h : Heads l l') : Heads (l.map f) (l'.map f) := by
  induction h with
  | last a b rest => exact .last _ _ _
  | cons a _ ih => exact .cons _ ih

theorem start {l l' : List α} (h : Heads l l') : ∃ init a b rest, l = init ++ [a] ∧ l' = init ++ b :: rest := by
  induction h with
  | last a b rest => exact ⟨[], a, b, rest, rfl, rfl⟩
  | cons a _ ih =>
    obtain ⟨i, x, y, r, rfl, rfl⟩ := ih
    exact ⟨a :: i, x, y, r, rfl, rfl⟩

theorem join {A B : List Line} (h : Heads A B) : ∀ P : List Line, Heads (joinLines P A) (joinLines P B)
  | [] => by simpa only [joinLines] using h
  | [p] => by
    cases h with
    | last a b rest => exact .last _ _ _
    | cons a h => exact .cons _ h
  | p :: q :: P => by
    simp only [joinLines]
    exact .cons _ (join h (q :: P))

theorem joined {A B : List Line} (h : Heads A B) (C : List Line) : Heads A (joinLines B C) := by
  induction h with
  | last a b rest =>
    obtain ⟨x, xs, e⟩ := List.exists_cons_of_ne_nil (joinLines_ne_nil (b :: rest) C (.inl (by simp)))
    rw [e]
    exact .last _ _ _
  | @cons a l l' hl ih =>
    obtain ⟨x, xs, rfl⟩ := List.exists_cons_of_ne_nil hl.ne.2
    simp only [joinLines]
    exact .cons _ ih

theorem decorated {A B : List Line} (h : Heads A B) (st : Style) (last : Bool) : ∀ onFirst start : Bool,
    Heads (decorate st onFirst start last A) (decorate st onFirst start last B) := by
  induction h with
  | last a b rest =>
    intro onFirst start
    cases rest <;> exact .last _ _ _
  | @cons a l l' hl ih =>
    intro onFirst start
    obtain ⟨x, xs, rfl⟩ := List.exists_cons_of_ne_nil hl.ne.1
    obtain ⟨y, ys, rfl⟩ := List.exists_cons_of_ne_nil hl.ne.2
    simp only [decorate]
    exact .cons _ (ih false false)

theorem placed (E : TextEnv) (cb : ContainingBlock) (align : TextAlign) (root : Font) {A B : List Line} (h : Heads A B) :
    ∀ y, Heads (placeLines E cb align root y A) (placeLines E cb align root y B) := by
  induction h with
  | last a b rest =>
    intro y
    simp only [placeLines]
    exact .last _ _ _
  | cons a _ ih =>
    intro y
    simp only [placeLines]
    exact .cons _ (ih _)

end Heads

/-! ## Text that is not wrapped -/

theorem splitNewlines_more : ∀ t t' : Text, Heads (splitNewlines t) (splitNewlines (t ++ t'))
  | [], t' => by
    obtain ⟨x, xs, e⟩ := List.exists_cons_of_ne_nil (splitNewlines_ne_nil t')
    simp only [List.nil_append, e, splitNewlines]
    exact .last _ _ _
  | c :: t, t' => by
    have ih := splitNewlines_more t t'
    simp only [List.cons_append, splitNewlines]
    split
    · exact .cons _ ih
    · generalize splitNewlines t = A at ih
      generalize splitNewlines (t ++ t') = B at ih
      cases ih with
      | last a b rest => exact .last _ _ _
      | cons a h => exact .cons _ h

theorem newlinePieces_more {A B : List Text} (h : Heads A B) : Heads (newlinePieces A) (newlinePieces B) := by
  induction h with
  | last a b rest => cases rest <;> exact .last _ _ _
  | @cons a l l' hl ih =>
    obtain ⟨x, xs, rfl⟩ := List.exists_cons_of_ne_nil hl.ne.1
    obtain ⟨y, ys, rfl⟩ := List.exists_cons_of_ne_nil hl.ne.2
    simp only [newlinePieces]
    exact .cons _ ih

/-! ## Wrapped text -/

theorem joinsOk.suffix {E : TextEnv} {f : Font} {t t' : Text} (h : joinsOk E f t t') {a b : Text} (e : t = a ++ b) :
    joinsOk E f b t' := by
  refine h.imp (fun h k => h ?_) id
  obtain ⟨c, d, h1, h2⟩ := k
  refine ⟨c, d, ?_, h2⟩
  rw [e, List.getLast?_append, h1]
  rfl

/-- the break opportunity after a text has been added -/
def breakMore (t' : Text) : Option (SegState × Text) → Option (SegState × Text)
  | none => none
  | some (st, iter) => some (st, iter ++ t')

theorem breakMore_ok {E : TextEnv} {f : Font} {avail : ℚ} {first : Bool} {T glyphs : Text} {lb : Option (SegState × Text)}
    (h : BreakOk E f avail first T glyphs lb) (t' : Text) :
    BreakOk E f avail first (T ++ t') glyphs (breakMore t' lb) := by
  match lb, h with
  | none, h => exact h
  | some (st, iter), ⟨pre, sep, word, h1, h2, h3, h4, h5, h6⟩ =>
    exact ⟨pre, sep, word, h1, h2, h3, h4, by rw [h5]; simp, h6⟩

theorem overflowBreak_more {chars : Text} {shaped : ShapedSegment} {lb : Option (SegState × Text)} {r : LineScan}
    (h : overflowBreak chars shaped lb = .ok r) (t' : Text) :
    overflowBreak (chars ++ t') shaped (breakMore t' lb) = .ok ⟨r.chars ++ t', r.shaped, r.newline⟩ := by
  cases lb with
  | none => cases h; rfl
  | some p =>
    obtain ⟨s, h1, h⟩ := bind_eq_ok.1 h
    cases h
    simp only [breakMore, overflowBreak, h1, bind, Except.bind, pure, Except.pure]

/-- a word that does not fit does not fit if it becomes longer -/
theorem scan_overflow {E : TextEnv} {avail : ℚ} {st : SegState} {iter pre : Text} (hst : st.glyphs = utf8Len pre) :
    ∀ (t' rest : Text) (shaped : ShapedSegment), shaped.glyphs = pre ++ rest → shaped.Fresh E →
    avail < E.width shaped.font shaped.glyphs →
    ((∀ c ∈ t'.head?, isBreakChar c) ∨ ∀ a b, E.width shaped.font a ≤ E.width shaped.font (a ++ b)) →
    scanLine E avail t' shaped (some (st, iter)) = .ok ⟨iter, ⟨shaped.font, pre, st.advanceWidth⟩, false⟩
  | t', rest, shaped, hg, hf, ho, hj => by
    have hres : ∀ chars, overflowBreak chars (shaped.getAdvanceWidth E).2 (some (st, iter)) =
        .ok ⟨iter, ⟨shaped.font, pre, st.advanceWidth⟩, false⟩ := by
      intro chars
      simp only [overflowBreak, ShapedSegment.restore, ShapedSegment.getAdvanceWidth_glyphs, hg, hst,
        truncateBytes_prefix, bind, Except.bind, pure, Except.pure, ShapedSegment.getAdvanceWidth_font]
    cases t' with
    | nil =>
      simp only [scanLine, ShapedSegment.getAdvanceWidth_fst hf]
      rw [if_pos ho, hres]
    | cons c t' =>
      rw [scanLine]
      split
      · simp only [ShapedSegment.getAdvanceWidth_fst hf]
        rw [if_pos ho, hres]
      · rename_i hc
        rcases hj with hj | hj
        · exact absurd (hj c rfl) hc
        · exact scan_overflow hst t' (rest ++ [c]) (shaped.appendChar c) (by simp [hg]) (ShapedSegment.Fresh.appendChar c)
            (lt_of_lt_of_le ho (hj _ _)) (.inr hj)

theorem scanLine_more {E : TextEnv} {avail : ℚ} {first : Bool} {t' : Text} : ∀ (chars : Text) (shaped : ShapedSegment)
    (lb : Option (SegState × Text)) (T : Text), shaped.Fresh E → '\n' ∉ shaped.glyphs → T = shaped.glyphs ++ chars →
    BreakOk E shaped.font avail first T shaped.glyphs lb → joinsOk E shaped.font T t' →
    ∀ r, scanLine E avail chars shaped lb = .ok r → (r.chars ≠ [] ∨ r.newline = true) →
    scanLine E avail (chars ++ t') shaped (breakMore t' lb) = .ok ⟨r.chars ++ t', r.shaped, r.newline⟩ := by
  intro chars
  induction chars with
  | nil =>
    intro shaped lb T hfr hng hT hlb hj r h hr
    simp only [scanLine, ShapedSegment.getAdvanceWidth_fst hfr] at h
    split at h
    · rename_i ho
      match lb, hlb with
      | none, _ =>
        cases h
        simp at hr
      | some (st, iter), ⟨pre, sep, word, h1, h2, h3, h4, h5, h6⟩ =>
        have hw : iter = word := by
          rw [List.append_nil] at hT
          rw [h5, h3] at hT
          exact List.append_cancel_left hT
        subst hw
        have hres : overflowBreak [] (shaped.getAdvanceWidth E).2 (some (st, iter)) =
            .ok ⟨iter, ⟨shaped.font, pre, st.advanceWidth⟩, false⟩ := by
          simp only [overflowBreak, ShapedSegment.restore, ShapedSegment.getAdvanceWidth_glyphs, h3, h1,
            truncateBytes_prefix, bind, Except.bind, pure, Except.pure, ShapedSegment.getAdvanceWidth_font,
            List.append_assoc]
        rw [hres] at h
        cases h
        simp only [List.nil_append, breakMore]
        refine scan_overflow h1 t' (sep ++ iter) shaped (by rw [h3]; simp) hfr ho (hj.imp (fun hj => ?_) id)
        intro c hc
        by_contra hb
        have hi : iter ≠ [] := by simpa using hr
        refine hj ⟨iter.getLast hi, c, ?_, hc, h4 _ (List.getLast_mem hi), hb⟩
        rw [h5, List.getLast?_append, List.getLast?_eq_some_getLast hi]
        rfl
    · cases h
      simp at hr
  | cons ch chars ih =>
    intro shaped lb T hfr hng hT hlb hj r h hr
    rw [List.cons_append, scanLine]
    rw [scanLine] at h
    by_cases hb : ch = ' ' ∨ ch = '\n' ∨ ch = '-'
    · rw [if_pos hb] at h ⊢
      simp only [ShapedSegment.getAdvanceWidth_fst hfr] at h ⊢
      by_cases hov : E.width shaped.font shaped.glyphs > avail
      · rw [if_pos hov] at h ⊢
        exact overflowBreak_more h t'
      · rw [if_neg hov] at h ⊢
        have hfit := not_lt.1 hov
        have hfr' := hfr.getAdvanceWidth
        by_cases hn : ch = '\n'
        · rw [if_pos hn] at h ⊢
          cases h
          rfl
        · rw [if_neg hn] at h ⊢
          by_cases hs : ch = ' '
          · rw [if_pos hs] at h ⊢
            subst hs
            have := ih ((shaped.getAdvanceWidth E).2.appendChar ' ')
              (some ((shaped.getAdvanceWidth E).2.save, chars)) T (ShapedSegment.Fresh.appendChar _)
              (by simpa using hng) (by simp [hT]) ⟨shaped.glyphs, [' '], [], by simp [ShapedSegment.save],
                by simpa [ShapedSegment.save, ShapedSegment.Fresh] using hfr', by simp, unbreakable_nil, by simp [hT], hng,
                .inl ⟨rfl, by simpa using hfit⟩⟩ (by simpa using hj) r h hr
            exact this
          · rw [if_neg hs] at h ⊢
            obtain rfl : ch = '-' := by tauto
            exact ih ((shaped.getAdvanceWidth E).2.appendChar '-')
              (some (((shaped.getAdvanceWidth E).2.appendChar '-').save, chars)) T
              (ShapedSegment.Fresh.appendChar _)
              (by simpa using hng) (by simp [hT]) ⟨shaped.glyphs ++ ['-'], [], [], by simp [ShapedSegment.save],
                (by intro l hl; cases hl), by simp, unbreakable_nil,
                by simp [hT], by simpa using hng, .inr (.inl ⟨rfl, shaped.glyphs, rfl, by simpa using hfit⟩)⟩ (by simpa using hj) r h hr
    · rw [if_neg hb] at h ⊢
      have hne : ch ≠ '\n' := fun h => hb (.inr (.inl h))
      exact ih (shaped.appendChar ch) lb T (ShapedSegment.Fresh.appendChar _)
        (by simpa [Ne.symm hne] using hng) (by simp [hT]) (by
        match lb, hlb with
        | none, ⟨hf, hu⟩ => exact ⟨hf, hu.append_char hb⟩
        | some (st, iter), ⟨pre, sep, word, h1, h2, h3, h4, h5, h6⟩ =>
          exact ⟨pre, sep, word ++ [ch], h1, h2, by simp [h3], h4.append_char hb, h5, h6⟩) hj r h hr

theorem nextSegment_ok {E : TextEnv} {font : Font} {s : ShapedSegment} (h : s.Fresh E) (hf : s.font = font) :
    (nextSegment E font s).Fresh E ∧ (nextSegment E font s).font = font ∧ (nextSegment E font s).glyphs = [] := by
  unfold nextSegment
  split
  · exact ⟨ShapedSegment.fresh_new font, rfl, rfl⟩
  · rename_i h1
    refine ⟨h.getAdvanceWidth, by simpa using hf, ?_⟩
    rw [Bool.not_eq_true, Bool.not_eq_false'] at h1
    exact ShapedSegment.empty_iff.1 h1

theorem wrapPieces_more {E : TextEnv} {font : Font} {full : ℚ} {t' : Text} : ∀ (fuel fuel' : Nat) (first : Bool) (avail : ℚ)
    (chars : Text) (shaped : ShapedSegment) (lb : Option (SegState × Text)), shaped.Fresh E → shaped.font = font →
    shaped.glyphs = [] → BreakOk E font avail first chars [] lb → joinsOk E font chars t' →
    2 * chars.length + (if first then 1 else 0) < fuel →
    2 * (chars ++ t').length + (if first then 1 else 0) < fuel' →
    Heads (wrapPieces E font full fuel avail chars shaped lb)
      (wrapPieces E font full fuel' avail (chars ++ t') shaped (breakMore t' lb)) := by
  intro fuel
  induction fuel with
  | zero => intro _ _ _ _ _ _ _ _ _ _ _ h; omega
  | succ fuel ih =>
    intro fuel' first avail chars shaped lb hfr hf hg hlb hj h1 h2
    cases fuel' with
    | zero => omega
    | succ fuel' =>
      obtain ⟨r, dropped, hscan, hrfr, hrf, hT, hend⟩ := scanLine_spec E avail first chars chars shaped lb hfr
        (by simp [hg]) (by simp [hg]) (by rw [hg, hf]; exact hlb)
      have hlb' := breakMore_ok hlb t'
      obtain ⟨r', dropped', hscan', -, -, -, -⟩ := scanLine_spec E avail first (chars ++ t') (chars ++ t') shaped _ hfr
        (by simp [hg]) (by simp [hg]) (by rw [hg, hf]; exact hlb')
      rw [wrapPieces, wrapPieces]
      simp only [hscan, hscan']
      by_cases hm : r.chars ≠ [] ∨ r.newline = true
      · have hs := scanLine_more chars shaped lb chars hfr (by simp [hg]) (by simp [hg]) (by rw [hg, hf]; exact hlb)
          (by rw [hf]; exact hj) r hscan hm
        rw [hscan'] at hs
        cases hs
        have hc : (!r.chars.isEmpty || r.newline) = true := by
          rcases hm with hm | hm
          · simp [hm]
          · simp [hm]
        have hc' : (!(r.chars ++ t').isEmpty || r.newline) = true := by
          rcases hm with hm | hm
          · simp [hm]
          · simp [hm]
        rw [if_pos hc, if_pos hc']
        refine .cons _ ?_
        have hlt := hend.rest_lt hm
        rw [← hT] at hlt
        obtain ⟨n1, n2, n3⟩ := nextSegment_ok hrfr (hrf.trans hf)
        refine ih fuel' false full r.chars _ none n1 n2 n3 ⟨rfl, unbreakable_nil⟩ (hj.suffix hT) ?_ ?_
        · simp; omega
        · simp only [List.length_append] at h2 ⊢
          simp
          omega
      · have hm' : r.chars = [] ∧ r.newline = false := by
          constructor
          · by_contra h; exact hm (.inl h)
          · by_contra h; exact hm (.inr (by simpa using h))
        have hc : ¬ ((!r.chars.isEmpty || r.newline) = true) := by simp [hm'.1, hm'.2]
        rw [if_neg hc]
        exact .last _ _ _

theorem cutRun_more {E : TextEnv} {font : Font} {t t' : Text} (h : joinsOk E font t t') (ws : WhiteSpace) (full avail : ℚ) :
    Heads (cutRun E ws font full avail t) (cutRun E ws font full avail (t ++ t')) := by
  have hw : Heads (wrapPieces E font full (textFuel t) avail t (ShapedSegment.new font)
      (some ((ShapedSegment.new font).save, t))) (wrapPieces E font full (textFuel (t ++ t')) avail (t ++ t')
      (ShapedSegment.new font) (some ((ShapedSegment.new font).save, t ++ t'))) :=
    wrapPieces_more _ _ true avail t (ShapedSegment.new font) _ (ShapedSegment.fresh_new font) rfl rfl
      ⟨[], [], [], by simp [ShapedSegment.save, ShapedSegment.new, utf8Len],
      (by intro l hl; cases hl), rfl, unbreakable_nil, rfl, by simp, .inr (.inr ⟨rfl, rfl, rfl⟩)⟩ h
      (by simp [textFuel]) (by simp [textFuel])
  have hn := newlinePieces_more (splitNewlines_more t t')
  unfold cutRun
  cases ws <;> first | exact hw | exact hn

/-! ## Inline content -/

theorem inlineLines_ne_nil (E : TextEnv) (w : ℚ) : ∀ (bs : List InlineLevelBox) (x : ℚ), inlineLines E w bs x ≠ []
  | [], _ => by simp [inlineLines]
  | b :: bs, x => by
    rw [inlineLines]
    exact joinLines_ne_nil _ _ (.inr (inlineLines_ne_nil E w bs _))

/-- what is common at the start does not matter -/
theorem inlineLines_start {E : TextEnv} {w : ℚ} {cs cs' : List InlineLevelBox}
    (h : ∀ x, Heads (inlineLines E w cs x) (inlineLines E w cs' x)) : ∀ (bs : List InlineLevelBox) (x : ℚ),
    Heads (inlineLines E w (bs ++ cs) x) (inlineLines E w (bs ++ cs') x)
  | [], x => h x
  | b :: bs, x => by
    simp only [List.cons_append, inlineLines]
    exact (inlineLines_start h bs _).join _

theorem inlineLines_more {E : TextEnv} {w : ℚ} {bs bs' : List InlineLevelBox} (h : LongerInlines (joinsOk E) bs bs') :
    ∀ x, Heads (inlineLines E w bs x) (inlineLines E w bs' x) := by
  have single : ∀ {A B : List Line} (C : List Line), Heads A B → Heads (joinLines A [[]]) (joinLines B C) := by
    intro A B C h
    have e : joinLines A [[]] = A := by
      have := h.ne.1
      clear h
      induction A with
      | nil => exact absurd rfl this
      | cons a A ih =>
        cases A with
        | nil => simp [joinLines]
        | cons a' A => simp only [joinLines, ih (by simp)]
    rw [e]
    exact h.joined C
  induction h with
  | more bs m =>
    have := inlineLines_start (E := E) (w := w) (cs := []) (cs' := m) (fun x => by
      obtain ⟨y, ys, e⟩ := List.exists_cons_of_ne_nil (inlineLines_ne_nil E w m x)
      rw [e, inlineLines]
      exact .last _ _ _) bs
    simpa using this
  | text bs st t t' f h =>
    refine inlineLines_start (fun x => ?_) bs
    rw [inlineLines, inlineLines, inlineLines]
    simp only [InlineLevelBox.linesOf]
    exact single _ ((cutRun_more h _ _ _).map _)
  | inside bs st first last cs cs' h ih =>
    refine inlineLines_start (fun x => ?_) bs
    rw [inlineLines, inlineLines, inlineLines]
    simp only [InlineLevelBox.linesOf]
    exact single _ ((ih _).decorated st last true first)
  | trans bs bs' bs'' h h' ih ih' => exact fun x => (ih x).trans (ih' x)

theorem ifc_more {E : TextEnv} {st : Style} {bs bs' : List InlineLevelBox} {cb : ContainingBlock} {rank : Nat}
    {abs abs' out out' : List AbsFragment} {fc fc' : FlowChildren} (hb : LongerInlines (joinsOk E) bs bs')
    (hs : inlineAbsOk bs) (hs' : inlineAbsOk bs') (h : ifcLayout E st bs cb rank abs = .ok (fc, out))
    (h' : ifcLayout E st bs' cb rank abs' = .ok (fc', out')) :
    ∃ init a cs mode, fc.fragments = init ++ [.anonymous a cs mode] ∧ init <+: fc'.fragments := by
  obtain ⟨L, new, -, ⟨-, rfl, -⟩, e1⟩ := ifcLayout_lines E st bs cb rank abs hs
  obtain ⟨L', new', -, ⟨-, rfl, -⟩, e2⟩ := ifcLayout_lines E st bs' cb rank abs' hs'
  rw [e1] at h
  rw [e2] at h'
  cases h
  cases h'
  have hh := inlineLines_more (w := cb.inlineSize) hb 0
  have hp := hh.placed E cb (st.val .textAlign) (E.font st) 0
  obtain ⟨init, a, b, rest, p1, p2⟩ := hp.start
  have ha : ∃ r cs mode, a = .anonymous r cs mode := by
    have : a ∈ placeLines E cb (st.val .textAlign) (E.font st) 0 (inlineLines E cb.inlineSize bs 0) := by
      rw [p1]; simp
    revert this
    generalize inlineLines E cb.inlineSize bs 0 = L
    generalize (0 : ℚ) = y
    intro this
    induction L generalizing y with
    | nil => simp [placeLines] at this
    | cons l L ih =>
      simp only [placeLines, List.mem_cons] at this
      rcases this with rfl | this
      · exact ⟨_, _, _, rfl⟩
      · exact ih _ this
  obtain ⟨r, cs, mode, rfl⟩ := ha
  exact ⟨init, r, cs, mode, p1, by simp only [p2]; exact List.prefix_append _ _⟩

end Sinab.Append
