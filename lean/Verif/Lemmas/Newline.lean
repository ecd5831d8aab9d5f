import Verif.Lemmas.Append
import Verif.Lemmas.Spanned
import Verif.Spec.Read

/-! Lines of a text with a newline character: the lines up to it, then those of the text behind it (C100). -/

namespace Sinab

/-! ## Scanning a line, in terms of texts -/

/-- where a line ends that is too long: at the last break opportunity, if any -/
def backTo (g rest : Text) : Option (Text × Text) → Text × Text × Bool
  | some (p, r) => (p, r, false)
  | none => (g, rest, false)

/-- a text without a space at its end -/
def withoutSpace (g : Text) : Text := if g.getLast? = some ' ' then g.dropLast else g

/-- `scanLine` in terms of texts: what is on the line, what remains, and whether a newline ends the line -/
def scanText (W : Text → ℚ) (avail : ℚ) : Text → Text → Option (Text × Text) → Text × Text × Bool
  | [], g, lb => if avail < W g then backTo g [] lb else (g, [], false)
  | c :: cs, g, lb =>
    if c = ' ' ∨ c = '\n' ∨ c = '-' then
      if avail < W g then backTo g cs lb
      else if c = '\n' then (withoutSpace g, cs, true)
      else if c = ' ' then scanText W avail cs (g ++ [c]) (some (g, cs))
      else scanText W avail cs (g ++ [c]) (some (g ++ [c], cs))
    else scanText W avail cs (g ++ [c]) lb

/-- the same break opportunity -/
def SameBreak (E : TextEnv) (f : Font) (g : Text) : Option (SegState × Text) → Option (Text × Text) → Prop
  | none, none => True
  | some (st, r), some (p, r') => r = r' ∧ st.glyphs = utf8Len p ∧ CacheOk E f p st.advanceWidth ∧ ∃ x, g = p ++ x
  | _, _ => False

theorem SameBreak.longer {E : TextEnv} {f : Font} {g : Text} {lb lb'} (h : SameBreak E f g lb lb') (x : Text) :
    SameBreak E f (g ++ x) lb lb' := by
  match lb, lb', h with
  | none, none, _ => trivial
  | some (st, r), some (p, r'), ⟨h1, h2, h3, y, h4⟩ => exact ⟨h1, h2, h3, y ++ x, by simp [h4]⟩

theorem overflowBreak_text {E : TextEnv} {chars : Text} {shaped : ShapedSegment} (hf : shaped.Fresh E) {lb lb'}
    (h : SameBreak E shaped.font shaped.glyphs lb lb') : ∃ r, overflowBreak chars shaped lb = .ok r ∧ r.shaped.Fresh E ∧
      r.shaped.font = shaped.font ∧ (r.shaped.glyphs, r.chars, r.newline) = backTo shaped.glyphs chars lb' := by
  match lb, lb', h with
  | none, none, _ => exact ⟨_, rfl, hf, rfl, rfl⟩
  | some (st, r), some (p, r'), ⟨h1, h2, h3, y, h4⟩ =>
    refine ⟨⟨r, { shaped with glyphs := p, advanceWidth := st.advanceWidth }, false⟩, ?_, h3, rfl, by simp [backTo, h1]⟩
    simp only [overflowBreak, ShapedSegment.restore, h4, h2, truncateBytes_prefix]
    rfl

theorem scanLine_text (E : TextEnv) (avail : ℚ) : ∀ (chars : Text) (shaped : ShapedSegment) (lb lb'), shaped.Fresh E →
    SameBreak E shaped.font shaped.glyphs lb lb' → ∃ r, scanLine E avail chars shaped lb = .ok r ∧ r.shaped.Fresh E ∧
      r.shaped.font = shaped.font ∧
      (r.shaped.glyphs, r.chars, r.newline) = scanText (E.width shaped.font) avail chars shaped.glyphs lb' := by
  intro chars
  induction chars with
  | nil =>
    intro shaped lb lb' hf h
    have hf' := hf.getAdvanceWidth
    have hb := overflowBreak_text (chars := []) hf' (lb := lb) (lb' := lb') (by simpa using h)
    simp only [ShapedSegment.getAdvanceWidth_font, ShapedSegment.getAdvanceWidth_glyphs] at hb
    simp only [scanLine, scanText, ShapedSegment.getAdvanceWidth_fst hf, gt_iff_lt]
    split
    · exact hb
    · exact ⟨_, rfl, hf', by simp, by simp⟩
  | cons c cs ih =>
    intro shaped lb lb' hf h
    have hf' := hf.getAdvanceWidth
    have hb := overflowBreak_text (chars := cs) hf' (lb := lb) (lb' := lb') (by simpa using h)
    simp only [ShapedSegment.getAdvanceWidth_font, ShapedSegment.getAdvanceWidth_glyphs] at hb
    simp only [scanLine, scanText, ShapedSegment.getAdvanceWidth_fst hf, gt_iff_lt]
    split
    · split
      · exact hb
      · split
        · refine ⟨_, rfl, hf'.stripSpace, by simp, ?_⟩
          simp only [ShapedSegment.stripSpace, withoutSpace, ShapedSegment.getAdvanceWidth_glyphs]
          split <;> simp
        · split
          · have := ih ((shaped.getAdvanceWidth E).2.appendChar c) (some ((shaped.getAdvanceWidth E).2.save, cs))
              (some (shaped.glyphs, cs)) (ShapedSegment.Fresh.appendChar c)
              ⟨rfl, by simp [ShapedSegment.save], by simpa [ShapedSegment.Fresh, ShapedSegment.save] using hf', [c], by simp⟩
            simpa using this
          · have := ih ((shaped.getAdvanceWidth E).2.appendChar c)
              (some (((shaped.getAdvanceWidth E).2.appendChar c).save, cs))
              (some (shaped.glyphs ++ [c], cs)) (ShapedSegment.Fresh.appendChar c)
              ⟨rfl, by simp [ShapedSegment.save], (by intro l hl; cases hl), [], by simp⟩
            simpa using this
    · have := ih (shaped.appendChar c) lb lb' (ShapedSegment.Fresh.appendChar c) (by simpa using h.longer [c])
      simpa using this

/-- the lines of a text: `wrapPieces` in terms of texts -/
def wrapText (W : Text → ℚ) (full : ℚ) : Nat → ℚ → Text → Option (Text × Text) → List (Text × Bool)
  | 0, _, _, _ => []
  | fuel + 1, avail, chars, lb =>
    let r := scanText W avail chars [] lb
    (r.1, r.2.2) :: if r.2.1 ≠ [] ∨ r.2.2 = true then wrapText W full fuel full r.2.1 none else []

theorem nextSegment_fresh {E : TextEnv} {shaped : ShapedSegment} (hf : shaped.Fresh E) :
    (nextSegment E shaped.font shaped).Fresh E ∧ (nextSegment E shaped.font shaped).font = shaped.font ∧
      (nextSegment E shaped.font shaped).glyphs = [] := by
  unfold nextSegment
  by_cases h : shaped.glyphs = []
  · simp [ShapedSegment.empty_eq, h, hf.getAdvanceWidth]
  · simp [ShapedSegment.empty_eq, h, ShapedSegment.new, ShapedSegment.Fresh, CacheOk]

theorem wrapPieces_text (E : TextEnv) (f : Font) (full : ℚ) : ∀ (fuel : Nat) (avail : ℚ) (chars : Text)
    (shaped : ShapedSegment) (lb lb'), shaped.Fresh E → shaped.font = f → shaped.glyphs = [] → SameBreak E f [] lb lb' →
    wrapPieces E f full fuel avail chars shaped lb = wrapText (E.width f) full fuel avail chars lb' := by
  intro fuel
  induction fuel with
  | zero => intros; rfl
  | succ fuel ih =>
    intro avail chars shaped lb lb' hf hfont hg h
    obtain ⟨r, h1, h2, h3, h4⟩ := scanLine_text E avail chars shaped lb lb' hf (by rw [hfont, hg]; exact h)
    rw [wrapPieces, wrapText, h1]
    rw [hfont, hg] at h4
    rw [← h4]
    have hff : r.shaped.font = f := h3.trans hfont
    subst hff
    obtain ⟨n1, n2, n3⟩ := nextSegment_fresh h2
    simp only [ih full r.chars _ none none n1 n2 n3 trivial]
    by_cases hr : r.chars = [] <;> simp [hr]

/-! ## The number of steps -/

theorem backTo_rest (g rest : Text) (N : Nat) (hr : rest.length ≤ N) : ∀ lb : Option (Text × Text),
    (∀ p ∈ lb, p.2.length ≤ N) → (backTo g rest lb).2.1.length ≤ N
  | none, _ => hr
  | some p, h => h p rfl

theorem scanText_rest (W : Text → ℚ) (avail : ℚ) (N : Nat) : ∀ (chars g : Text) (lb : Option (Text × Text)),
    chars.length ≤ N + 1 → (∀ p ∈ lb, p.2.length ≤ N) → (scanText W avail chars g lb).2.1.length ≤ N := by
  intro chars
  induction chars with
  | nil =>
    intro g lb _ h
    simp only [scanText]
    split
    · exact backTo_rest g [] N (by simp) lb h
    · simp
  | cons c cs ih =>
    intro g lb hl h
    have hcs : cs.length ≤ N := by simpa using hl
    simp only [scanText]
    split
    · split
      · exact backTo_rest g cs N hcs lb h
      · split
        · exact hcs
        · split <;> exact ih _ _ (by omega) (by simpa using hcs)
    · exact ih _ _ (by omega) h

theorem scanText_done (W : Text → ℚ) (avail : ℚ) : scanText W avail [] [] none = ([], [], false) := by
  simp only [scanText, backTo, ite_self]

theorem wrapText_done (W : Text → ℚ) (full avail : ℚ) (n : Nat) : wrapText W full (n + 1) avail [] none = [([], false)] := by
  simp [wrapText, scanText_done]

theorem wrapText_fuel (W : Text → ℚ) (full : ℚ) : ∀ (n m : Nat) (avail : ℚ) (chars : Text), chars.length < n →
    chars.length < m → wrapText W full n avail chars none = wrapText W full m avail chars none := by
  intro n
  induction n with
  | zero => intro m avail chars h; simp at h
  | succ n ih =>
    intro m avail chars hn hm
    cases m with
    | zero => simp at hm
    | succ m =>
      cases chars with
      | nil => rw [wrapText_done, wrapText_done]
      | cons c cs =>
        simp only [wrapText]
        have hr := scanText_rest W avail cs.length (c :: cs) [] none (by simp) (by simp)
        simp only [List.length_cons] at hn hm
        rw [ih m full _ (by omega) (by omega)]

/-- the lines of a text that starts behind a newline -/
def wrapBehind (W : Text → ℚ) (full : ℚ) (t : Text) : List (Text × Bool) := wrapText W full (t.length + 1) full t none

theorem wrapText_behind (W : Text → ℚ) (full : ℚ) {n : Nat} {t : Text} (h : t.length < n) :
    wrapText W full n full t none = wrapBehind W full t := wrapText_fuel W full _ _ _ _ h (by simp)

/-! ## If words are not too long -/

theorem isBreak_iff {c : Char} : isBreakChar c ↔ c = ' ' ∨ c = '\n' ∨ c = '-' := Iff.rfl

theorem unbreakable_snoc {g : Text} {c : Char} (hg : Unbreakable g) (hc : ¬ (c = ' ' ∨ c = '\n' ∨ c = '-')) :
    Unbreakable (g ++ [c]) := by
  intro d hd
  rcases List.mem_append.1 hd with hd | hd
  · exact hg d hd
  · rw [List.mem_singleton.1 hd]
    exact hc

theorem WordsFit.of_suffix {W : Text → ℚ} {full : ℚ} {t r : Text} (h : WordsFit W full t) (hr : r <:+ t) : WordsFit W full r := by
  obtain ⟨p, rfl⟩ := hr
  intro a u b e hu
  exact h (p ++ a) u b (by rw [e]; simp) hu

/-- the line ends in front of the first word, or it does not matter that it may -/
theorem scanText_first (W : Text → ℚ) (avail : ℚ) (q r : Text) : ∀ (chars g : Text),
    scanText W avail chars g (some (q, r)) = (q, r, false) ∨
      scanText W avail chars g (some (q, r)) = scanText W avail chars g none := by
  intro chars
  induction chars with
  | nil =>
    intro g
    simp only [scanText]
    split
    · exact .inl rfl
    · exact .inr rfl
  | cons c cs ih =>
    intro g
    simp only [scanText]
    split
    · split
      · exact .inl rfl
      · exact .inr rfl
    · exact ih _

/-- A text at the start of a line is cut to the same lines as behind a newline, but there may be an empty line first. -/
theorem wrapText_first (W : Text → ℚ) (full : ℚ) {n : Nat} {t : Text} (hn : t.length + 1 < n) :
    wrapText W full n full t (some ([], t)) = wrapBehind W full t ∨
      wrapText W full n full t (some ([], t)) = ([], false) :: wrapBehind W full t := by
  cases n with
  | zero => simp at hn
  | succ n =>
    have hb := wrapText_behind W full (n := n + 1) (t := t) (by omega)
    rcases scanText_first W full [] t t [] with h | h
    · by_cases ht : t = []
      · subst ht
        left
        rw [← hb]
        simp only [wrapText, h, scanText_done]
      · right
        simp only [wrapText, h]
        rw [if_pos (.inl ht), wrapText_behind W full (by omega)]
    · left
      rw [← hb]
      simp only [wrapText, h]

/-! ## A newline -/

/-- a break opportunity, if a newline and `X` follow -/
def breakBefore (X : Text) (lb : Option (Text × Text)) : Option (Text × Text) :=
  lb.map fun p => (p.1, p.2 ++ '\n' :: X)

/-- A line ends in front of the newline, or at the newline. -/
theorem scanText_newline (W : Text → ℚ) (avail : ℚ) (T : Text) (N : Nat) : ∀ (chars g : Text) (lb : Option (Text × Text)),
    chars.length ≤ N + 1 → (∀ p ∈ lb, p.2.length ≤ N) → chars <:+ T → (∀ p ∈ lb, p.2 <:+ T) →
    (lb = none → Unbreakable g ∧ WordsFit W avail (g ++ chars)) →
    (∃ s b r, r <:+ T ∧ r.length ≤ N ∧ ∀ X, scanText W avail (chars ++ '\n' :: X) g (breakBefore X lb) =
      (s, r ++ '\n' :: X, b)) ∨
    ∃ s, ∀ X, scanText W avail (chars ++ '\n' :: X) g (breakBefore X lb) = (s, X, true) := by
  intro chars
  induction chars with
  | nil =>
    intro g lb _ hN _ hT hu
    by_cases hw : avail < W g
    · match lb, hN, hT, hu with
      | none, _, _, hu =>
        obtain ⟨h1, h2⟩ := hu rfl
        exact absurd (h2 [] g [] (by simp) h1) (not_le.2 hw)
      | some (p, r), hN, hT, _ =>
        refine .inl ⟨p, false, r, hT _ rfl, hN _ rfl, fun X => ?_⟩
        simp [scanText, hw, breakBefore, backTo]
    · refine .inr ⟨withoutSpace g, fun X => ?_⟩
      simp [scanText, hw]
  | cons c cs ih =>
    intro g lb hl hN hs hT hu
    have hcs : cs.length ≤ N := by simpa using hl
    have hsuf : cs <:+ T := (List.suffix_cons c cs).trans hs
    simp only [List.cons_append, scanText]
    by_cases hc : c = ' ' ∨ c = '\n' ∨ c = '-'
    · simp only [if_pos hc]
      by_cases hw : avail < W g
      · simp only [if_pos hw]
        match lb, hN, hT with
        | none, _, _ => exact .inl ⟨g, false, cs, hsuf, hcs, fun X => rfl⟩
        | some (p, r), hN, hT => exact .inl ⟨p, false, r, hT _ rfl, hN _ rfl, fun X => rfl⟩
      · simp only [if_neg hw]
        by_cases h1 : c = '\n'
        · simp only [if_pos h1]
          exact .inl ⟨_, true, cs, hsuf, hcs, fun X => rfl⟩
        · simp only [if_neg h1]
          by_cases h2 : c = ' '
          · simp only [if_pos h2]
            exact ih (g ++ [c]) (some (g, cs)) (by omega) (by simpa using hcs) hsuf (by simpa using hsuf) (by simp)
          · simp only [if_neg h2]
            exact ih (g ++ [c]) (some (g ++ [c], cs)) (by omega) (by simpa using hcs) hsuf (by simpa using hsuf) (by simp)
    · simp only [if_neg hc]
      refine ih (g ++ [c]) lb (by omega) hN hsuf hT fun h => ?_
      obtain ⟨k1, k2⟩ := hu h
      exact ⟨unbreakable_snoc k1 hc, by simpa using k2⟩

theorem wrapBehind_newline (W : Text → ℚ) (full : ℚ) : ∀ (n : Nat) (t : Text), t.length ≤ n → WordsFit W full t →
    ∃ P, P ≠ [] ∧ ∀ X, wrapBehind W full (t ++ '\n' :: X) = P ++ wrapBehind W full X := by
  intro n
  induction n with
  | zero =>
    intro t ht hw
    have : t = [] := List.length_eq_zero_iff.1 (by omega)
    subst this
    have h0 : ¬ full < W [] := not_lt.2 (hw [] [] [] (by simp) unbreakable_nil)
    refine ⟨[([], true)], by simp, fun X => ?_⟩
    simp only [wrapBehind, List.nil_append, List.length_cons, wrapText]
    simp [scanText, h0, withoutSpace]
  | succ n ih =>
    intro t ht hw
    rcases scanText_newline W full t n t [] none (by omega) (by simp) (List.suffix_refl t) (by simp)
      (fun _ => ⟨unbreakable_nil, by simpa using hw⟩) with ⟨s, b, r, h1, h2, h3⟩ | ⟨s, h3⟩
    · obtain ⟨P, hP, h4⟩ := ih r h2 (hw.of_suffix h1)
      refine ⟨(s, b) :: P, by simp, fun X => ?_⟩
      have h3 := h3 X
      simp only [breakBefore, Option.map_none] at h3
      rw [wrapBehind, wrapText]
      simp only [h3]
      have hlen : (r ++ '\n' :: X).length < (t ++ '\n' :: X).length := by
        have := scanText_rest W full (t.length + X.length) (t ++ '\n' :: X) [] none (by simp; omega) (by simp)
        rw [h3] at this
        simp at this ⊢
        omega
      rw [if_pos (.inl (by simp)), wrapText_behind W full hlen, h4]
      rfl
    · refine ⟨[(s, true)], by simp, fun X => ?_⟩
      have h3 := h3 X
      simp only [breakBefore, Option.map_none] at h3
      rw [wrapBehind, wrapText]
      simp only [h3]
      rw [if_pos (.inr trivial), wrapText_behind W full (by simp; omega)]
      rfl

theorem wrapText_newline (W : Text → ℚ) (full avail : ℚ) (t : Text) (hw : WordsFit W full t) :
    ∃ P, P ≠ [] ∧ ∀ X n, (t ++ '\n' :: X).length + 1 < n →
      wrapText W full n avail (t ++ '\n' :: X) (some ([], t ++ '\n' :: X)) = P ++ wrapBehind W full X := by
  rcases scanText_newline W avail t t.length t [] (some ([], t)) (by omega) (by simp) (List.suffix_refl t) (by simp)
    (by simp) with ⟨s, b, r, h1, h2, h3⟩ | ⟨s, h3⟩
  · obtain ⟨P, hP, h4⟩ := wrapBehind_newline W full _ r le_rfl (hw.of_suffix h1)
    refine ⟨(s, b) :: P, by simp, fun X n hn => ?_⟩
    have h3 := h3 X
    simp only [breakBefore, Option.map_some] at h3
    cases n with
    | zero => simp at hn
    | succ n =>
      rw [wrapText]
      simp only [h3]
      have hlen : (r ++ '\n' :: X).length < n := by
        simp at hn ⊢
        omega
      rw [if_pos (.inl (by simp)), wrapText_behind W full hlen, h4]
      rfl
  · refine ⟨[(s, true)], by simp, fun X n hn => ?_⟩
    have h3 := h3 X
    simp only [breakBefore, Option.map_some] at h3
    cases n with
    | zero => simp at hn
    | succ n =>
      rw [wrapText]
      simp only [h3]
      have hlen : X.length < n := by
        simp at hn
        omega
      rw [if_pos (.inr trivial), wrapText_behind W full hlen]
      rfl

theorem splitNewlines_newline : ∀ (t : Text), ∃ P, P ≠ [] ∧ ∀ X, splitNewlines (t ++ '\n' :: X) = P ++ splitNewlines X
  | [] => ⟨[[]], by simp, fun X => by simp [splitNewlines]⟩
  | c :: t => by
    obtain ⟨P, hP, h⟩ := splitNewlines_newline t
    by_cases hc : c = '\n'
    · exact ⟨[] :: P, by simp, fun X => by simp [splitNewlines, hc, h]⟩
    · match P, hP, h with
      | l :: ls, _, h => exact ⟨(c :: l) :: ls, by simp, fun X => by simp [splitNewlines, hc, h]⟩

theorem newlinePieces_append : ∀ (P L : List Text), L ≠ [] →
    newlinePieces (P ++ L) = P.map (fun l => (l, true)) ++ newlinePieces L
  | [], _, _ => rfl
  | l :: P, L, h => by
    rw [List.cons_append, newlinePieces, newlinePieces_append P L h]
    · rfl
    · simp [h]

/-- Text behind a newline is cut to lines as if it were alone, but if it is alone there may be an empty line first. -/
theorem cutRun_newline (E : TextEnv) (st : Style) (f : Font) (full avail : ℚ) (t : Text)
    (hw : st.wraps = true → WordsFit (E.width f) full t) : ∃ P, P ≠ [] ∧
      ∀ X, ∃ Z Q, Q ≠ [] ∧ cutRun E (st.val .whiteSpace) f full avail (t ++ '\n' :: X) = P ++ Q ∧
        cutRun E (st.val .whiteSpace) f full full X = Z ++ Q ∧ (Z = [] ∨ Z = [([], false)]) := by
  have hsame : ∀ X : Text, SameBreak E f [] (some ((ShapedSegment.new f).save, X)) (some ([], X)) := by
    intro X
    refine ⟨rfl, rfl, ?_, [], rfl⟩
    intro l hl
    cases hl
  have hnl : ∃ P, P ≠ [] ∧ ∀ X, ∃ Z Q, Q ≠ [] ∧ newlinePieces (splitNewlines (t ++ '\n' :: X)) = P ++ Q ∧
      newlinePieces (splitNewlines X) = Z ++ Q ∧ (Z = [] ∨ Z = [([], false)]) := by
    obtain ⟨P, hP, h⟩ := splitNewlines_newline t
    refine ⟨P.map fun l => (l, true), by simpa using hP, fun X => ⟨[], newlinePieces (splitNewlines X), ?_, ?_, rfl, .inl rfl⟩⟩
    · obtain ⟨l, ls, hl⟩ := List.exists_cons_of_ne_nil (splitNewlines_ne_nil X)
      rw [hl]
      cases ls <;> simp [newlinePieces]
    · rw [h, newlinePieces_append _ _ (splitNewlines_ne_nil X)]
  have hwr : WordsFit (E.width f) full t → ∃ P, P ≠ [] ∧ ∀ X, ∃ Z Q, Q ≠ [] ∧
      wrapPieces E f full (textFuel (t ++ '\n' :: X)) avail (t ++ '\n' :: X) (ShapedSegment.new f)
        (some ((ShapedSegment.new f).save, t ++ '\n' :: X)) = P ++ Q ∧
      wrapPieces E f full (textFuel X) full X (ShapedSegment.new f) (some ((ShapedSegment.new f).save, X)) = Z ++ Q ∧
      (Z = [] ∨ Z = [([], false)]) := by
    intro hw
    obtain ⟨P, hP, h⟩ := wrapText_newline (E.width f) full avail t hw
    refine ⟨P, hP, fun X => ?_⟩
    rw [wrapPieces_text E f full _ _ _ _ _ _ (ShapedSegment.fresh_new f) rfl rfl (hsame _),
      wrapPieces_text E f full _ _ _ _ _ _ (ShapedSegment.fresh_new f) rfl rfl (hsame _),
      h X _ (by simp only [textFuel]; omega)]
    have hne : wrapBehind (E.width f) full X ≠ [] := by simp [wrapBehind, wrapText]
    rcases wrapText_first (E.width f) full (t := X) (n := textFuel X) (by simp only [textFuel]; omega) with k | k
    · exact ⟨[], _, hne, rfl, k, .inl rfl⟩
    · exact ⟨[([], false)], _, hne, rfl, k, .inr rfl⟩
  revert hw
  unfold Style.wraps
  cases (st.val .whiteSpace : WhiteSpace) <;> intro hw <;> simp only [cutRun] <;>
    first
      | exact hnl
      | exact hwr (hw rfl)

/-! ## Lines of boxes -/

theorem endPos_behind (E : TextEnv) (w x : ℚ) : ∀ (P L : List Line), P ≠ [] → L ≠ [] →
    endPos E w x (P ++ L) = endPos E w 0 L
  | [], _, h, _ => absurd rfl h
  | [a], [], _, h => absurd rfl h
  | [a], l :: L, _, _ => rfl
  | a :: a' :: P, L, _, h => by
    have := endPos_behind E w 0 (a' :: P) L (by simp) h
    simpa [endPos] using this

theorem joinLines_behind : ∀ (P L M : List Line), L ≠ [] → joinLines (P ++ L) M = P ++ joinLines L M
  | [], _, _, _ => rfl
  | [a], [], _, h => absurd rfl h
  | [a], l :: L, M, _ => by simp [joinLines]
  | a :: a' :: P, L, M, h => by
    have := joinLines_behind (a' :: P) L M h
    simp only [List.cons_append] at this ⊢
    rw [joinLines, this]

theorem joinLines_front : ∀ (K P M : List Line), P ≠ [] → joinLines K (P ++ M) = joinLines K P ++ M
  | [], _, _, _ => rfl
  | [a], [], _, h => absurd rfl h
  | [a], p :: P, M, _ => by simp [joinLines]
  | a :: a' :: K, P, M, h => by
    rw [joinLines, joinLines, joinLines_front (a' :: K) P M h]
    rfl

/-- The lines of boxes with a newline in a text: those up to the newline, then those of the boxes behind it. -/
theorem inlineLines_newline (E : TextEnv) (w : ℚ) (st : Style) (f : Font) (t : Text)
    (hw : st.wraps = true → WordsFit (E.width f) w t) : ∀ (A : List InlineLevelBox) (x : ℚ), ∃ P, P ≠ [] ∧
      ∀ (X : Text) (B : List InlineLevelBox), ∃ Z M,
        inlineLines E w (A ++ .textRun st (t ++ '\n' :: X) f :: B) x = P ++ M ∧
        inlineLines E w (.textRun st X f :: B) 0 = Z ++ M ∧ (Z = [] ∨ Z = [[Item.text st f [] false]])
  | [], x => by
    obtain ⟨P, hP, h⟩ := cutRun_newline E st f w (w - x) t hw
    refine ⟨P.map fun p => [Item.text st f p.1 p.2], by simpa using hP, fun X B => ?_⟩
    obtain ⟨Z, Q, hQ, h1, h2, h3⟩ := h X
    have hQ' : (Q.map fun p => [Item.text st f p.1 p.2]) ≠ [] := by simpa using hQ
    refine ⟨Z.map fun p => [Item.text st f p.1 p.2], joinLines (Q.map fun p => [Item.text st f p.1 p.2])
      (inlineLines E w B (endPos E w 0 (Q.map fun p => [Item.text st f p.1 p.2]))), ?_, ?_, ?_⟩
    · simp only [List.nil_append, inlineLines, InlineLevelBox.linesOf, h1, List.map_append]
      rw [endPos_behind _ _ _ _ _ (by simpa using hP) hQ', joinLines_behind _ _ _ hQ']
    · simp only [inlineLines, InlineLevelBox.linesOf, sub_zero, h2, List.map_append]
      rw [joinLines_behind _ _ _ hQ']
      rcases h3 with rfl | rfl
      · rfl
      · rw [endPos_behind _ _ _ _ _ (by simp) hQ']
    · rcases h3 with rfl | rfl
      · exact .inl rfl
      · exact .inr rfl
  | a :: A, x => by
    obtain ⟨P, hP, h⟩ := inlineLines_newline E w st f t hw A (endPos E w x (a.linesOf E w x))
    refine ⟨joinLines (a.linesOf E w x) P, joinLines_ne_nil _ _ (.inr hP), fun X B => ?_⟩
    obtain ⟨Z, M, h1, h2, h3⟩ := h X B
    exact ⟨Z, M, by rw [List.cons_append, inlineLines, h1, joinLines_front _ _ _ hP], h2, h3⟩

/-- nothing is on a line with an empty text -/
theorem inlineLines_blank (E : TextEnv) (w : ℚ) (st : Style) (f : Font) :
    inlineLines E w [.textRun st [] f] 0 = [[.text st f [] false]] := by
  have hc : cutRun E (st.val .whiteSpace) f w w [] = [([], false)] := by
    have hsame : SameBreak E f [] (some ((ShapedSegment.new f).save, [])) (some ([], [])) := by
      refine ⟨rfl, rfl, ?_, [], rfl⟩
      intro l hl
      cases hl
    have hw : wrapPieces E f w (textFuel []) w [] (ShapedSegment.new f) (some ((ShapedSegment.new f).save, [])) =
        [([], false)] := by
      rw [wrapPieces_text E f w _ _ _ _ _ _ (ShapedSegment.fresh_new f) rfl rfl hsame]
      simp only [textFuel, wrapText, scanText, backTo, ite_self]
      simp
    unfold cutRun
    split
    · rfl
    · rfl
    · exact hw
  simp [inlineLines, InlineLevelBox.linesOf, hc, joinLines]

theorem placeLines_down (E : TextEnv) (cb : ContainingBlock) (al : TextAlign) (root : Font) (d : ℚ) :
    ∀ (L : List Line) (y : ℚ), placeLines E cb al root (y + d) L =
      (placeLines E cb al root y L).map (Fragment.translateBlock d)
  | [], _ => rfl
  | l :: L, y => by
    have := placeLines_down E cb al root d L (y + lineHeight E root l)
    simp only [placeLines, List.map_cons, Fragment.translateBlock, Rect.addBlock]
    rw [← this]
    congr 2
    ring

end Sinab
