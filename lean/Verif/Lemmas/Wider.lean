import Verif.Spec.Wider
import Verif.Props.Fewest
import Verif.Props.Inline
import Verif.Lemmas.ReadWords

/-! The lines of a text on a narrow and on a wide page. -/

namespace Sinab

variable {W : Text → ℚ} {sp : ℚ}

/-- no word is too long for a line -/
theorem EvenText.words {w : ℚ} {t : Text} (hS : Spaced W sp) (h : EvenText W sp w t) : WordsFit W w t := by
  intro a u b ht hu
  refine le_trans ?_ (h.fits a u b ht hu)
  have := hS.part [' '] u []
  simpa using this

theorem WordsFit.suffix {w : ℚ} {a b : Text} (h : WordsFit W w (a ++ b)) : WordsFit W w b :=
  fun x u y hb hu => h (a ++ x) u y (by rw [hb]; simp) hu

/-- the three ways a line of an even text ends -/
theorem LineEnd.even {w a : ℚ} {first nl : Bool} {s d rest : Text} (h : LineEnd W a first s d rest nl)
    (hf : first = false → a = w) (hy : '-' ∉ s ++ d) (hn : '\n' ∉ s ++ d) (hw : WordsFit W w (s ++ d ++ rest)) :
    nl = false ∧ ((d = [] ∧ rest = [] ∧ W s ≤ a) ∨
      (d = [' '] ∧ W s ≤ a ∧ NextWordOverflows W a (s ++ [' ']) rest) ∨
      (first = true ∧ s = [] ∧ d = [] ∧ NextWordOverflows W a [] rest)) := by
  cases h with
  | done h1 => exact ⟨rfl, .inl ⟨rfl, rfl, h1⟩⟩
  | newline => simp at hn
  | spaceNewline => simp at hn
  | space h1 h2 => exact ⟨rfl, .inr (.inl ⟨rfl, h1, h2⟩)⟩
  | hyphen => simp at hy
  | start h1 => exact ⟨rfl, .inr (.inr ⟨rfl, rfl, rfl, h1⟩)⟩
  | @overflow _ c _ h1 h2 =>
    have := hw [] s (c :: rest) (by simp) h2
    rw [hf rfl] at h1
    linarith
  | overflowEnd h1 h2 =>
    have := hw [] s [] (by simp) h2
    rw [hf rfl] at h1
    linarith

/-- width of what the last line shows -/
def lastWidth (W : Text → ℚ) (lines : List BrokenLine) : ℚ := ((lines.getLast?).map fun l => W l.shown).getD 0

theorem lastWidth_cons (l : BrokenLine) {lines : List BrokenLine} (h : lines ≠ []) :
    lastWidth W (l :: lines) = lastWidth W lines := by
  cases lines with
  | nil => exact absurd rfl h
  | cons => simp [lastWidth, List.getLast?_cons_cons]

theorem Wrapped.ne_nil {w a : ℚ} {first : Bool} {t : Text} {lines : List BrokenLine}
    (h : Wrapped W w a first t lines) : lines ≠ [] := by
  cases h <;> simp

/-- the lines of the narrow page, and the lines of a last part of the text on the wide page -/
theorem wider_tail (hS : Spaced W sp) {w w' a : ℚ} {first : Bool} {t : Text} {lines : List BrokenLine}
    (h : Wrapped W w a first t lines) (hw : w ≤ w') : 0 ≤ a → a ≤ w → (first = false → a = w) → '-' ∉ t →
    '\n' ∉ t → WordsFit W w t → ∀ (pre t' : Text) (lines' : List BrokenLine),
    Wrapped W w' w' false t' lines' → t = pre ++ t' →
    lines'.length ≤ lines.length ∧ (lines'.length = lines.length →
      lastWidth W lines' ≤ lastWidth W lines ∨
        (if lines.length = 1 then a else w) < lastWidth W lines + sp) := by
  induction h with
  | @last a first s d he =>
    intro h0 ha hf hy hn hfit pre t' lines' hl ht
    obtain ⟨-, hcase⟩ := he.even hf hy hn (by simpa using hfit)
    -- the wide page needs no second line
    have hone : ∀ {s' d' rest' : Text} {nl : Bool}, LineEnd W w' false s' d' rest' nl →
        t' = s' ++ d' ++ rest' → (rest' ≠ [] ∨ nl = true) → False := by
      intro s' d' rest' nl he' ht' hm
      by_cases hne : s ++ d = []
      · rw [hne] at ht
        have : s' ++ d' ++ rest' = [] := by rw [← ht']; simp_all
        rw [List.append_eq_nil_iff] at this
        exact he'.nonempty hm this.1
      · have hp := he.piece hne
        have hr : rest' ≠ [] := by
          rcases hm with h | h
          · exact h
          · have := (he'.even (w := w') (fun _ => rfl) (fun h => hy (by rw [ht, ht']; simp_all))
              (fun h => hn (by rw [ht, ht']; simp_all))
              (fun x u y hx hu => (hfit (pre ++ x) u y (by rw [ht, ht', hx]; simp) hu).trans hw)).1
            rw [this] at h
            cases h
        refine lineEnd_inside hS.part (T := s ++ d) (pre := pre) (more := rest') (rest2 := [])
          (by rw [ht, ht']; simp) hr (by simpa using he') (he'.nonempty hm) (ha.trans hw) (.inl rfl) hp.2.1 hp.2.2
    generalize hl2 : (false : Bool) = fl at hl
    generalize hl3 : w' = aw at hl
    cases hl with
    | @more _ _ s' d' rest' nl ls he' hm _ =>
      subst hl2 hl3
      exact (hone he' rfl hm).elim
    | @last _ _ s' d' he' =>
      subst hl2 hl3
      refine ⟨by simp, fun _ => ?_⟩
      simp only [lastWidth, List.getLast?_singleton, Option.map_some, Option.getD_some, List.length_singleton,
        if_true]
      obtain ⟨-, hcase'⟩ := he'.even (w := w') (fun _ => rfl) (fun h => hy (by rw [ht]; simp_all))
        (fun h => hn (by rw [ht]; simp_all))
        (fun x u y hx hu => (hfit (pre ++ x) u y (by rw [ht]; simp_all) hu).trans hw)
      rcases hcase with ⟨hd, -, h1⟩ | ⟨hd, h1, h2⟩ | ⟨-, hs, hd, word, r, hr, -, -, ho⟩
      · left
        have := hS.part pre s' d'
        rw [hd, List.append_nil] at ht
        rwa [List.append_assoc, ← ht] at this
      · right
        obtain ⟨word, r, hr, -, -, ho⟩ := h2
        have : word = [] := by simp_all
        rw [this, List.append_nil] at ho
        linarith [hS.space s]
      · have : word = [] := by simp_all
        rw [this, List.nil_append, hS.empty] at ho
        linarith
  | @more a first s d rest nl lines he hm hl ih =>
    intro h0 ha hf hy hn hfit pre t' lines' hl' ht
    have hw0 : 0 ≤ w := h0.trans ha
    have ih := ih hw0 le_rfl (fun _ => rfl) (fun h => hy (by simp [h])) (fun h => hn (by simp [h])) hfit.suffix
    have hne := hl.ne_nil
    have hlen : 1 ≤ lines.length := List.length_pos_of_ne_nil hne
    have hlen1 : (⟨s, d, nl⟩ :: lines : List BrokenLine).length ≠ 1 := by simp [hne]
    rw [if_neg hlen1, lastWidth_cons _ hne]
    have one : ∀ {l : List BrokenLine}, l.length ≤ 1 → l.length ≤ (⟨s, d, nl⟩ :: lines : List BrokenLine).length ∧
        (l.length = (⟨s, d, nl⟩ :: lines : List BrokenLine).length →
          lastWidth W l ≤ lastWidth W lines ∨ w < lastWidth W lines + sp) := by
      intro l hl
      rw [List.length_cons]
      exact ⟨by omega, fun h => by omega⟩
    generalize hl2 : (false : Bool) = fl at hl'
    generalize hl3 : w' = aw at hl'
    cases hl' with
    | last => exact one (by simp)
    | @more _ _ s' d' rest' nl' ls' he' hm' hl' =>
      subst hl2 hl3
      have hsuf : ∃ z, rest = z ++ rest' := by
        rw [← List.append_assoc] at ht
        rcases List.append_eq_append_iff.1 ht with ⟨z, h1, h2⟩ | ⟨z, h1, h2⟩
        · exact ⟨z, h2⟩
        · by_cases hz : z = []
          · subst hz
            exact ⟨[], by simpa using h2.symm⟩
          · exfalso
            by_cases hsd : s ++ d = []
            · rw [hsd] at h1
              simp_all
            · have hp := he.piece hsd
              have hne' := he'.nonempty hm'
              rw [h2] at he'
              exact lineEnd_inside hS.part (T := s ++ d) (pre := pre) (by rw [h1]) hz he' hne'
                (ha.trans hw) hp.1 hp.2.1 hp.2.2
      obtain ⟨z, hz⟩ := hsuf
      obtain ⟨i1, i2⟩ := ih z rest' ls' hl' hz
      rw [lastWidth_cons _ hl'.ne_nil]
      refine ⟨by simp [i1], fun h => ?_⟩
      rcases i2 (by simpa using h) with h3 | h3
      · exact .inl h3
      · right
        split at h3 <;> exact h3

/-- bounds of the width of the last line -/
theorem wrapped_bounds (hS : Spaced W sp) {w a : ℚ} {first : Bool} {t : Text} {lines : List BrokenLine}
    (h : Wrapped W w a first t lines) : 0 ≤ a → a ≤ w → (first = false → a = w) → '-' ∉ t → '\n' ∉ t →
    WordsFit W w t → 0 ≤ lastWidth W lines ∧ lastWidth W lines ≤ if lines.length = 1 then a else w := by
  induction h with
  | @last a first s d he =>
    intro h0 ha hf hy hn hfit
    obtain ⟨-, hcase⟩ := he.even hf hy hn (by simpa using hfit)
    simp only [lastWidth, List.getLast?_singleton, Option.map_some, Option.getD_some, List.length_singleton,
      if_true]
    refine ⟨by have := hS.part [] [] s; rwa [hS.empty] at this, ?_⟩
    rcases hcase with ⟨-, -, h⟩ | ⟨-, h, -⟩ | ⟨-, hs, -⟩
    · exact h
    · exact h
    · rw [hs, hS.empty]
      exact h0
  | @more a first s d rest nl lines he hm hl ih =>
    intro h0 ha hf hy hn hfit
    have hne := hl.ne_nil
    have ih := ih (h0.trans ha) le_rfl (fun _ => rfl) (fun h => hy (by simp [h])) (fun h => hn (by simp [h]))
      hfit.suffix
    rw [lastWidth_cons _ hne, if_neg (by simp [hne])]
    refine ⟨ih.1, ih.2.trans ?_⟩
    split <;> exact le_rfl

theorem mem_takeWhile_true {p : Char → Bool} {c : Char} : ∀ {l : Text}, c ∈ l.takeWhile p → p c = true
  | [], h => by simp at h
  | d :: l, h => by
    rw [List.takeWhile_cons] at h
    split at h
    · rename_i hd
      rcases List.mem_cons.1 h with rfl | h
      · exact hd
      · exact mem_takeWhile_true h
    · simp at h

/-- a text that has more than spaces has a word -/
theorem exists_word (x : Text) (h : ∃ c ∈ x, ¬ isBreakChar c) : ∃ a u b, x = a ++ u ++ b ∧ WholeWord a u b := by
  classical
  let p : Char → Bool := fun c => decide (isBreakChar c)
  obtain ⟨c, hc, hb⟩ := h
  have hx := List.takeWhile_append_dropWhile (p := p) (l := x)
  generalize ha : x.takeWhile p = a at hx
  generalize hr : x.dropWhile p = r at hx
  have hapre : ∀ c ∈ a, isBreakChar c := by
    intro c hc
    rw [← ha] at hc
    simpa [p] using mem_takeWhile_true hc
  have hr0 : ∃ c' r', r = c' :: r' ∧ ¬ isBreakChar c' := by
    cases r with
    | nil =>
      rw [List.append_nil] at hx
      exact absurd (hapre c (by rw [hx]; exact hc)) hb
    | cons c' r' =>
      refine ⟨c', r', rfl, ?_⟩
      have := List.head_dropWhile_not p (l := x) (by rw [hr]; simp)
      simpa [hr, p] using this
  obtain ⟨c', r', rfl, hc'⟩ := hr0
  have hy := List.takeWhile_append_dropWhile (p := fun c => !p c) (l := c' :: r')
  refine ⟨a, (c' :: r').takeWhile fun c => !p c, (c' :: r').dropWhile fun c => !p c, ?_, ?_, ?_, ?_, ?_⟩
  · rw [List.append_assoc, hy, hx]
  · simp [p, hc']
  · intro d hd
    have := mem_takeWhile_true hd
    simpa [p] using this
  · rcases List.eq_nil_or_concat a with rfl | ⟨q, d, rfl⟩
    · exact .inl rfl
    · exact .inr ⟨q, d, by simp, hapre d (by simp)⟩
  · cases hd : (c' :: r').dropWhile fun c => !p c with
    | nil => exact .inl rfl
    | cons d ds =>
      refine .inr ⟨d, ds, rfl, ?_⟩
      have := List.head_dropWhile_not (fun c => !p c) (l := c' :: r') (by rw [hd]; simp)
      simpa [hd, p] using this

/-- what is in front of a break and narrower than a space is at most a space -/
theorem EvenText.narrow {w a : ℚ} {x y t : Text} (hS : Spaced W sp) (h : EvenText W sp w t) (ht : t = x ++ y)
    (hy : y = [] ∨ ∃ r, y = ' ' :: r) (hx : W x ≤ a) (ha : a < sp) : x = [] ∨ (x = [' '] ∧ y = []) := by
  have hall : ∀ c ∈ x, c = ' ' := by
    intro c hc
    by_contra hcs
    obtain ⟨p, u, q, hpq, h1, h2, h3, h4⟩ := exists_word x ⟨c, hc, by
      rintro (h1 | h1 | h1)
      · exact hcs h1
      · exact h.newline (by rw [ht, ← h1]; simp [hc])
      · exact h.hyphen (by rw [ht, ← h1]; simp [hc])⟩
    have hu : sp ≤ W u := by
      refine h.wide p u (q ++ y) (by rw [ht, hpq]; simp) ⟨h1, h2, h3, ?_⟩
      rcases h4 with rfl | ⟨c, r, rfl, hc⟩
      · rcases hy with rfl | ⟨r, rfl⟩
        · exact .inl rfl
        · exact .inr ⟨' ', r, rfl, .inl rfl⟩
      · exact .inr ⟨c, r ++ y, rfl, hc⟩
    have := hS.part p u q
    rw [← hpq] at this
    linarith
  match x, hall with
  | [], _ => exact .inl rfl
  | [c], hall =>
    have : c = ' ' := hall c (by simp)
    subst this
    rcases hy with rfl | ⟨r, rfl⟩
    · exact .inr ⟨rfl, rfl⟩
    · exact absurd ht (h.single [] r)
  | c :: d :: x, hall =>
    have h1 : c = ' ' := hall c (by simp)
    have h2 : d = ' ' := hall d (by simp)
    subst h1 h2
    exact absurd ht (h.single [] (x ++ y))

/-- The wide page is not behind: fewer lines are full, or as many, and the current line is
filled less far, or no word fits on the line of the narrow page. -/
def NotBehind (w sp : ℚ) (c : Nat) (p : ℚ) (c' : Nat) (p' : ℚ) : Prop :=
  c' < c ∨ (c' = c ∧ (p' ≤ p ∨ w < p + sp))

/-- the first lines of the same text -/
theorem first_line {w a a' : ℚ} (hS : Spaced W sp) {nl nl' : Bool} {s d rest s' d' rest' t : Text}
    (hE : EvenText W sp w t) (ha : a ≤ a') (ht : t = s ++ d ++ rest) (ht' : t = s' ++ d' ++ rest')
    (h : LineEnd W a true s d rest nl) (h' : LineEnd W a' true s' d' rest' nl') : ∃ z, rest = z ++ rest' := by
  have hw := hE.words hS
  rcases List.append_eq_append_iff.1 (ht.symm.trans ht') with ⟨z, h1, h2⟩ | ⟨z, h1, h2⟩
  · exact ⟨z, h2⟩
  by_cases hz : z = []
  · subst hz
    exact ⟨[], by simpa using h2.symm⟩
  exfalso
  have hsd : s ++ d ≠ [] := by
    intro h
    rw [h] at h1
    simp_all
  by_cases hne : s' ++ d' = []
  · obtain ⟨-, hc⟩ := h.even (w := w) (by simp) (fun h => hE.hyphen (by rw [ht]; simp_all))
      (fun h => hE.newline (by rw [ht]; simp_all)) (by rw [← ht]; exact hw)
    obtain ⟨-, hc'⟩ := h'.even (w := w) (by simp) (fun h => hE.hyphen (by rw [ht']; simp_all))
      (fun h => hE.newline (by rw [ht']; simp_all)) (by rw [← ht']; exact hw)
    rcases hc' with ⟨-, h3, -⟩ | ⟨h3, -⟩ | ⟨-, -, -, u, r, hr, hu, -, ho⟩
    · rw [h3] at h2; simp_all
    · simp [h3] at hne
    · rw [hne, List.nil_append] at h1
      rw [← h1] at h2
      rw [h2] at hr
      have key : ∀ y, s = u ++ y → W s ≤ a → False := by
        rintro y rfl h3
        have := hS.part [] u y
        rw [List.nil_append] at this ho
        linarith
      rcases hc with ⟨hd, h3, h4⟩ | ⟨hd, h4, -⟩ | ⟨-, h3, h4, -⟩
      · exact key r (by simpa [hd, h3] using hr) h4
      · rw [hd, List.append_assoc] at hr
        rcases List.append_eq_append_iff.1 hr with ⟨y, h5, h6⟩ | ⟨y, h5, h6⟩
        · cases y with
          | nil => exact key [] (by simpa using h5.symm) h4
          | cons c y =>
            simp only [List.cons_append, List.nil_append, List.cons.injEq] at h6
            exact hu c (by rw [h5]; simp) (.inl h6.1.symm)
        · exact key y h5 h4
      · exact hsd (by rw [h3, h4]; rfl)
  · have hp := h.piece hsd
    rw [h2] at h'
    exact lineEnd_inside hS.part (T := s ++ d) (pre := []) (by rw [h1]; simp) hz h' hne ha hp.1 hp.2.1 hp.2.2

/-- where a run ends that starts at `p` -/
def runEnd (W : Text → ℚ) (p : ℚ) (lines : List BrokenLine) : ℚ :=
  if lines.length = 1 then p + lastWidth W lines else lastWidth W lines

theorem runEnd_bounds (hS : Spaced W sp) {w p : ℚ} {t : Text} {lines : List BrokenLine}
    (h : Wrapped W w (w - p) true t lines) (hE : EvenText W sp w t) (h0 : 0 ≤ p) (hp : p ≤ w) :
    0 ≤ runEnd W p lines ∧ runEnd W p lines ≤ w := by
  obtain ⟨h1, h2⟩ := wrapped_bounds hS h (by linarith) (by linarith) (by simp) hE.hyphen hE.newline (hE.words hS)
  unfold runEnd
  split
  · rename_i h3
    rw [if_pos h3] at h2
    exact ⟨by linarith, by linarith⟩
  · rename_i h3
    rw [if_neg h3] at h2
    exact ⟨h1, h2⟩

theorem runEnd_one (p : ℚ) (l : BrokenLine) : runEnd W p [l] = p + W l.shown := rfl

theorem runEnd_more (p : ℚ) (l : BrokenLine) {ls : List BrokenLine} (h : ls ≠ []) :
    runEnd W p (l :: ls) = lastWidth W ls := by
  unfold runEnd
  rw [if_neg (by simpa using h), lastWidth_cons _ h]

/-- the ways the first line of an even text ends -/
inductive FirstLine (W : Text → ℚ) (w a : ℚ) (t : Text) : List BrokenLine → Prop
  /-- everything fits -/
  | all : W t ≤ a → FirstLine W w a t [⟨t, [], false⟩]
  /-- everything fits but the space at the end -/
  | cut {s : Text} : t = s ++ [' '] → W s ≤ a → a < W t → FirstLine W w a t [⟨s, [' '], false⟩]
  /-- a line is broken at a space -/
  | space {s rest : Text} {ls : List BrokenLine} : t = s ++ ' ' :: rest → W s ≤ a → rest ≠ [] →
      LineEnd W a true s [' '] rest false → Wrapped W w w false rest ls →
      FirstLine W w a t (⟨s, [' '], false⟩ :: ls)
  /-- the first word does not fit -/
  | start {ls : List BrokenLine} : t ≠ [] → NextWordOverflows W a [] t → LineEnd W a true [] [] t false →
      Wrapped W w w false t ls → FirstLine W w a t (⟨[], [], false⟩ :: ls)

theorem Wrapped.firstLine (hS : Spaced W sp) {w v a : ℚ} {t : Text} {lines : List BrokenLine}
    (h : Wrapped W v a true t lines) (hE : EvenText W sp w t) (ha : 0 ≤ a) : FirstLine W v a t lines := by
  have hfit := hE.words hS
  generalize hfi : true = fi at h
  cases h with
  | @last _ _ s d he =>
    subst hfi
    obtain ⟨-, ⟨hd, -, h1⟩ | ⟨hd, h1, word, r, hr, -, -, ho⟩ | ⟨-, hs, hd, word, r, hr, -, -, ho⟩⟩ :=
      he.even (w := w) (by simp) hE.hyphen hE.newline (by simpa using hfit)
    · subst hd
      rw [List.append_nil]
      exact .all h1
    · subst hd
      have : word = [] := by simp_all
      rw [this, List.append_nil] at ho
      exact .cut rfl h1 ho
    · have : word = [] := by simp_all
      rw [this, List.nil_append, hS.empty] at ho
      linarith
  | @more _ _ s d rest nl ls he hm hl =>
    subst hfi
    obtain ⟨hnl, ⟨hd, hr, h1⟩ | ⟨hd, h1, h2⟩ | ⟨-, hs, hd, h1⟩⟩ :=
      he.even (w := w) (by simp) (fun h => hE.hyphen (List.mem_append_left _ h))
        (fun h => hE.newline (List.mem_append_left _ h)) hfit
    · simp_all
    · subst hd hnl
      exact .space (by simp) h1 (by simpa using hm) he hl
    · subst hd hs hnl
      exact .start (by simpa using hm) (by simpa using h1) (by simpa using he) (by simpa using hl)

/-- the same text on the narrow and on the wide page -/
theorem wider_run (hS : Spaced W sp) {w w' p p' : ℚ} {c c' : Nat} {t : Text} {lines lines' : List BrokenLine}
    (hE : EvenText W sp w t) (hw : w ≤ w') (h : Wrapped W w (w - p) true t lines)
    (h' : Wrapped W w' (w' - p') true t lines') (h0 : 0 ≤ p) (hp : p ≤ w) (h0' : 0 ≤ p') (hp' : p' ≤ w')
    (hb : NotBehind w sp c p c' p') :
    NotBehind w sp (c + (lines.length - 1)) (runEnd W p lines) (c' + (lines'.length - 1)) (runEnd W p' lines') := by
  have hfit := hE.words hS
  have hlen : 1 ≤ lines.length := List.length_pos_of_ne_nil h.ne_nil
  have f := h.firstLine hS hE (by linarith)
  have f' := h'.firstLine hS hE (by linarith)
  have hW0 : ∀ x, 0 ≤ W x := fun x => by
    have := hS.part [] [] x
    rwa [hS.empty] at this
  rcases hb with hc | ⟨rfl, hb⟩
  · -- the wide page is a line ahead
    have htail : ∀ {pre rest' : Text} {l : BrokenLine} {ls' : List BrokenLine}, t = pre ++ rest' →
        Wrapped W w' w' false rest' ls' → NotBehind w sp (c + (lines.length - 1)) (runEnd W p lines)
          (c' + ((l :: ls').length - 1)) (runEnd W p' (l :: ls')) := by
      intro pre rest' l ls' ht hl
      obtain ⟨i1, i2⟩ := wider_tail hS h hw (by linarith) (by linarith) (by simp) hE.hyphen hE.newline hfit
        pre rest' ls' hl ht
      rw [runEnd_more _ _ hl.ne_nil, List.length_cons, Nat.add_sub_cancel]
      by_cases hk : c' + ls'.length = c + (lines.length - 1)
      · refine .inr ⟨hk, ?_⟩
        have hx := i2 (by omega)
        unfold runEnd
        by_cases h1 : lines.length = 1
        · simp only [h1, if_true] at hx ⊢
          rcases hx with hx | hx
          · exact .inl (by linarith)
          · exact .inr (by linarith)
        · simp only [h1, if_false] at hx ⊢
          exact hx
      · exact .inl (by omega)
    cases f' with
    | all => exact .inl (by simp; omega)
    | cut => exact .inl (by simp; omega)
    | @space s rest ls ht h1 h2 h3 hl => exact htail (pre := s ++ [' ']) (by rw [ht]; simp) hl
    | @start ls h1 h2 h3 hl => exact htail (pre := []) rfl hl
  -- both pages are on the same line
  have hmore : ∀ {rest rest' pre z : Text} {l l' : BrokenLine} {ls ls' : List BrokenLine},
      t = pre ++ rest → Wrapped W w w false rest ls → Wrapped W w' w' false rest' ls' → rest = z ++ rest' →
      NotBehind w sp (c' + ((l :: ls).length - 1)) (runEnd W p (l :: ls)) (c' + ((l' :: ls').length - 1))
        (runEnd W p' (l' :: ls')) := by
    intro rest rest' pre z l l' ls ls' ht hl hl' hz
    obtain ⟨i1, i2⟩ := wider_tail hS hl hw (by linarith) le_rfl (fun _ => rfl)
      (fun h => hE.hyphen (by rw [ht]; simp [h])) (fun h => hE.newline (by rw [ht]; simp [h]))
      (by rw [ht] at hfit; exact hfit.suffix) z rest' ls' hl' hz
    rw [runEnd_more _ _ hl.ne_nil, runEnd_more _ _ hl'.ne_nil, List.length_cons, List.length_cons,
      Nat.add_sub_cancel, Nat.add_sub_cancel]
    rcases i1.lt_or_eq with h | h
    · exact .inl (by omega)
    · refine .inr ⟨by omega, ?_⟩
      rcases i2 h with h | h
      · exact .inl h
      · right
        split at h <;> exact h
  have hsame : ∀ {l l' : BrokenLine}, (p' + W l'.shown ≤ p + W l.shown ∨ w < p + W l.shown + sp) →
      NotBehind w sp (c' + (([l] : List BrokenLine).length - 1)) (runEnd W p [l])
        (c' + (([l'] : List BrokenLine).length - 1)) (runEnd W p' [l']) := by
    intro l l' h
    exact .inr ⟨by simp, h⟩
  have hless : ∀ {l l' : BrokenLine} {ls : List BrokenLine}, ls ≠ [] →
      NotBehind w sp (c' + ((l :: ls).length - 1)) (runEnd W p (l :: ls))
        (c' + (([l'] : List BrokenLine).length - 1)) (runEnd W p' [l']) := by
    intro l l' ls h
    have := List.length_pos_of_ne_nil h
    exact .inl (by simp; omega)
  rcases hb with hb | hb
  · -- there is at least as much room on the wide page
    have ha : w - p ≤ w' - p' := by linarith
    cases f with
    | all h1 =>
      have h1' : W t ≤ w' - p' := h1.trans ha
      cases f' with
      | all => exact hsame (.inl (by simpa using hb))
      | cut ht _ h2 => linarith
      | @space s rest ls ht h2 h3 h4 hl =>
        obtain ⟨z, hz⟩ := first_line hS hE ha (s := t) (d := []) (rest := []) (by simp) (by rw [ht]; simp)
          (.done h1 hE.newline) h4
        exact absurd (List.append_eq_nil_iff.1 hz.symm).2 h3
      | @start ls h2 h3 h4 hl =>
        obtain ⟨z, hz⟩ := first_line hS hE ha (s := t) (d := []) (rest := []) (by simp) (by simp)
          (.done h1 hE.newline) h4
        exact absurd (List.append_eq_nil_iff.1 hz.symm).2 h2
    | @cut s ht h1 h2 =>
      have he : LineEnd W (w - p) true s [' '] [] false := by
        refine .space h1 ⟨[], [], rfl, by simp [Unbreakable], .inl rfl, by simpa [← ht] using h2⟩ ?_
        intro h
        exact hE.newline (by rw [ht]; simp [h])
      have hsp : w < p + W s + sp := by
        have := hS.space s
        rw [← ht] at this
        linarith
      cases f' with
      | all => exact hsame (.inr hsp)
      | cut => exact hsame (.inr hsp)
      | @space s' rest ls ht' h2 h3 h4 hl =>
        obtain ⟨z, hz⟩ := first_line hS hE ha (by rw [ht]; simp) (by rw [ht']; simp) he h4
        exact absurd (List.append_eq_nil_iff.1 hz.symm).2 h3
      | @start ls h2 h3 h4 hl =>
        obtain ⟨z, hz⟩ := first_line hS hE ha (by rw [ht]; simp) (by simp) he h4
        exact absurd (List.append_eq_nil_iff.1 hz.symm).2 h2
    | @space s rest ls ht h1 h2 he hl =>
      cases f' with
      | all => exact hless hl.ne_nil
      | cut => exact hless hl.ne_nil
      | @space s' rest' ls' ht' h1' h2' he' hl' =>
        obtain ⟨z, hz⟩ := first_line hS hE ha (by rw [ht]; simp) (by rw [ht']; simp) he he'
        exact hmore (pre := s ++ [' ']) (by rw [ht]; simp) hl hl' hz
      | @start ls' h1' h2' he' hl' =>
        obtain ⟨z, hz⟩ := first_line hS hE ha (by rw [ht]; simp) (by simp) he he'
        exact hmore (pre := s ++ [' ']) (by rw [ht]; simp) hl hl' hz
    | @start ls h1 h2 he hl =>
      cases f' with
      | all => exact hless hl.ne_nil
      | cut => exact hless hl.ne_nil
      | @space s' rest' ls' ht' h1' h2' he' hl' =>
        exact hmore (pre := []) (z := s' ++ [' ']) rfl hl hl' (by rw [ht']; simp)
      | @start ls' h1' h2' he' hl' => exact hmore (pre := []) (z := []) rfl hl hl' rfl
  · -- no word fits on the narrow page
    have ha : w - p < sp := by linarith
    have ha' : 0 ≤ w' - p' := by linarith
    have hns : ∀ r, t = ' ' :: r → ¬ NextWordOverflows W (w' - p') [] t := by
      rintro r ht ⟨u, q, hq, hu, -, ho⟩
      cases u with
      | nil =>
        rw [List.append_nil, hS.empty] at ho
        linarith
      | cons k u =>
        rw [ht] at hq
        simp only [List.cons_append, List.cons.injEq] at hq
        exact hu k (by simp) (.inl hq.1.symm)
    have hone : t = [] ∨ t = [' '] → ∀ {l : BrokenLine}, NotBehind w sp (c' + (([l] : List BrokenLine).length - 1))
        (runEnd W p [l]) (c' + (lines'.length - 1)) (runEnd W p' lines') := by
      intro ht l
      have hl : w < p + W l.shown + sp := by linarith [hW0 l.shown]
      cases f' with
      | all => exact hsame (.inr hl)
      | cut => exact hsame (.inr hl)
      | @space s' rest' ls' ht' h1' h2' =>
        exfalso
        rcases ht with ht | ht
        · simp [ht] at ht'
        · rw [ht] at ht'
          have := congrArg List.length ht'
          have h3 := List.length_pos_of_ne_nil h2'
          simp at this
          omega
      | @start ls' h1' h2' =>
        exfalso
        rcases ht with ht | ht
        · exact h1' ht
        · exact hns [] ht h2'
    cases f with
    | all h1 =>
      refine hone ?_
      have := hE.narrow hS (x := t) (y := []) (by simp) (.inl rfl) h1 ha
      tauto
    | @cut s ht h1 h2 =>
      refine hone (.inr ?_)
      rcases hE.narrow hS ht (.inr ⟨[], rfl⟩) h1 ha with h | ⟨-, h⟩
      · rw [ht, h]; rfl
      · simp at h
    | @space s rest ls ht h1 h2 he hl =>
      rcases hE.narrow hS ht (.inr ⟨rest, rfl⟩) h1 ha with h | ⟨-, h⟩
      · rw [h, List.nil_append] at ht
        cases f' with
        | all => exact hless hl.ne_nil
        | cut => exact hless hl.ne_nil
        | @space s' rest' ls' ht' h1' h2' he' hl' =>
          refine (?_ : ∃ z, rest = z ++ rest').elim fun z hz => hmore (pre := [' ']) ht hl hl' hz
          cases s' with
          | nil =>
            rw [ht] at ht'
            exact ⟨[], by simpa using ht'⟩
          | cons k s' =>
            rw [ht] at ht'
            simp only [List.cons_append, List.cons.injEq] at ht'
            exact ⟨s' ++ [' '], by simpa using ht'.2⟩
        | @start ls' h1' h2' => exact (hns rest ht h2').elim
      · simp at h
    | @start ls h1 h2 he hl =>
      cases f' with
      | all => exact hless hl.ne_nil
      | cut => exact hless hl.ne_nil
      | @space s' rest' ls' ht' h1' h2' he' hl' =>
        exact hmore (pre := []) (z := s' ++ [' ']) rfl hl hl' (by rw [ht']; simp)
      | @start ls' h1' h2' he' hl' => exact hmore (pre := []) (z := []) rfl hl hl' rfl

/-! ### Inline content -/

/-- the lines of a run -/
theorem RunPieces.wrapped {E : TextEnv} {st : Style} {f : Font} {full avail : ℚ} {t : Text}
    {pieces : List (Text × Bool)} (h : RunPieces E st f full avail t pieces) (hw : st.wraps = true) :
    ∃ lines, Wrapped (E.width f) full avail true t lines ∧ pieces = lines.map fun l => (l.shown, l.newline) := by
  unfold RunPieces at h
  unfold Style.wraps at hw
  split at h
  · rename_i h1; simp [h1] at hw
  · rename_i h1; simp [h1] at hw
  · exact h

theorem endPos_run (E : TextEnv) (w : ℚ) (st : Style) (f : Font) (h0 : E.width f [] = 0) :
    ∀ (lines : List BrokenLine) (x : ℚ), lines ≠ [] →
    endPos E w x ((lines.map fun l => (l.shown, l.newline)).map fun p => [Item.text st f p.1 p.2]) =
      runEnd (E.width f) x lines
  | [], _, h => absurd rfl h
  | [l], x, _ => by
    simp only [List.map_cons, List.map_nil, endPos, advance, Item.advance, runEnd_one]
    split
    · rename_i h; rw [h, h0, add_zero]
    · rfl
  | l :: l' :: ls, x, _ => by
    have := endPos_run E w st f h0 (l' :: ls) 0 (by simp)
    rw [runEnd_more _ _ (by simp)]
    simp only [List.map_cons, endPos] at this ⊢
    rw [this]
    unfold runEnd
    split <;> simp

theorem decorate_bare {E : TextEnv} {st : Style} (h : ∀ v, startSpace v st = 0 ∧ endSpace v st = 0) {w x : ℚ}
    {L : List Line} (hL : L ≠ []) (a b c : Bool) : endPos E w x (decorate st a b c L) = endPos E w x L := by
  rw [endPos_decorate E w st c L x a b hL, (h w).1, (h w).2]
  simp

theorem laysOut_bounds {E : TextEnv} {w x : ℚ} {bs : List InlineLevelBox} {L : List Line}
    (h : LaysOut E w x bs L) {v : ℚ} (hv : v ≤ w) : inlineEven E sp v bs → 0 ≤ x → x ≤ w →
    0 ≤ endPos E w x L ∧ endPos E w x L ≤ w := by
  induction h with
  | nil => intro _ h0 hx; exact ⟨h0, hx⟩
  | @text x st t f bs pieces L hp hL ih =>
    rintro ⟨⟨h1, hS, hE⟩, h3⟩ h0 hx
    obtain ⟨lines, hl, rfl⟩ := hp.wrapped h1
    have hE' : EvenText (E.width f) sp w t :=
      ⟨hE.hyphen, hE.newline, hE.single, hE.wide, fun a u b ht hu => (hE.fits a u b ht hu).trans hv⟩
    have hb := runEnd_bounds hS hl hE' h0 hx
    rw [endPos_run E w st f hS.empty _ _ hl.ne_nil] at ih
    rw [endPos_joinLines _ _ _ _ _ (by simpa using hl.ne_nil) hL.ne_nil, endPos_run E w st f hS.empty _ _ hl.ne_nil]
    exact ih h3 hb.1 hb.2
  | @box x st first last ks bs L1 L2 h1 h2 ih1 ih2 =>
    rintro ⟨⟨h3, h4⟩, h5⟩ h0 hx
    have hx1 : (if first = true then x + startSpace w st else x) = x := by rw [(h3 w).1]; simp
    rw [hx1] at ih1
    have hb := ih1 h4 h0 hx
    rw [decorate_bare h3 h1.ne_nil] at ih2
    rw [endPos_joinLines _ _ _ _ _ (decorate_ne_nil _ _ _ _ _ h1.ne_nil) h2.ne_nil, decorate_bare h3 h1.ne_nil]
    exact ih2 h5 hb.1 hb.2
  | abs _ ih => rintro ⟨-, h⟩ h0 hx; exact ih h h0 hx
  | float _ ih => rintro ⟨-, h⟩ h0 hx; exact ih h h0 hx

theorem EvenText.wider {w w' : ℚ} {t : Text} (h : EvenText W sp w t) (hw : w ≤ w') : EvenText W sp w' t :=
  ⟨h.hyphen, h.newline, h.single, h.wide, fun a u b ht hu => (h.fits a u b ht hu).trans hw⟩

/-- even content on the narrow and on the wide page -/
theorem wider_content {E : TextEnv} {w w' : ℚ} (hw : w ≤ w') {x : ℚ} {bs : List InlineLevelBox} {L : List Line}
    (h : LaysOut E w x bs L) : ∀ {x' : ℚ} {L' : List Line} {c c' : Nat}, LaysOut E w' x' bs L' →
    inlineEven E sp w bs → 0 ≤ x → x ≤ w → 0 ≤ x' → x' ≤ w' → NotBehind w sp c x c' x' →
    NotBehind w sp (c + (L.length - 1)) (endPos E w x L) (c' + (L'.length - 1)) (endPos E w' x' L') := by
  have hj : ∀ {A B : List Line} (c : Nat), A ≠ [] → B ≠ [] →
      c + ((joinLines A B).length - 1) = c + (A.length - 1) + (B.length - 1) := by
    intro A B c hA hB
    have h1 := joinLines_length A B hA hB
    have := List.length_pos_of_ne_nil hA
    have := List.length_pos_of_ne_nil hB
    omega
  induction h with
  | nil =>
    intro x' L' c c' h' _ _ _ _ _ hb
    cases h'
    exact hb
  | @text x st t f bs pieces L hp hL ih =>
    rintro x' L' c c' h' ⟨⟨h1, hS, hE⟩, h3⟩ h0 hx h0' hx' hb
    cases h' with
    | @text _ _ _ _ _ pieces' L' hp' hL' =>
      obtain ⟨lines, hl, rfl⟩ := hp.wrapped h1
      obtain ⟨lines', hl', rfl⟩ := hp'.wrapped h1
      have hr := wider_run hS hE hw hl hl' h0 hx h0' hx' hb
      have hb1 := runEnd_bounds hS hl hE h0 hx
      have hb2 := runEnd_bounds hS hl' (hE.wider hw) h0' hx'
      have hn : ((lines.map fun l => (l.shown, l.newline)).map fun p => [Item.text st f p.1 p.2]) ≠ [] := by
        simpa using hl.ne_nil
      have hn' : ((lines'.map fun l => (l.shown, l.newline)).map fun p => [Item.text st f p.1 p.2]) ≠ [] := by
        simpa using hl'.ne_nil
      rw [hj c hn hL.ne_nil, hj c' hn' hL'.ne_nil, endPos_joinLines _ _ _ _ _ hn hL.ne_nil,
        endPos_joinLines _ _ _ _ _ hn' hL'.ne_nil, endPos_run E w st f hS.empty _ _ hl.ne_nil,
        endPos_run E w' st f hS.empty _ _ hl'.ne_nil]
      rw [endPos_run E w st f hS.empty _ _ hl.ne_nil] at ih
      rw [endPos_run E w' st f hS.empty _ _ hl'.ne_nil] at hL'
      exact ih hL' h3 hb1.1 hb1.2 hb2.1 hb2.2 (by simpa using hr)
  | @box x st first last ks bs L1 L2 h1 h2 ih1 ih2 =>
    rintro x' L' c c' h' ⟨⟨h3, h4⟩, h5⟩ h0 hx h0' hx' hb
    have hx1 : ∀ (v y : ℚ), (if first = true then y + startSpace v st else y) = y := by
      intro v y; rw [(h3 v).1]; simp
    cases h' with
    | @box _ _ _ _ _ _ L1' L2' h1' h2' =>
      rw [hx1] at ih1 h1'
      have hr := ih1 h1' h4 h0 hx h0' hx' hb
      have hd := decorate_ne_nil st true first last L1 h1.ne_nil
      have hd' := decorate_ne_nil st true first last L1' h1'.ne_nil
      have hb1 := laysOut_bounds (sp := sp) (v := w) (hx1 w x ▸ h1) le_rfl h4 h0 hx
      have hb2 := laysOut_bounds (sp := sp) (v := w) h1' hw h4 h0' hx'
      rw [hj c hd h2.ne_nil, hj c' hd' h2'.ne_nil, endPos_joinLines _ _ _ _ _ hd h2.ne_nil,
        endPos_joinLines _ _ _ _ _ hd' h2'.ne_nil, decorate_bare h3 h1.ne_nil, decorate_bare h3 h1'.ne_nil,
        decorate_length, decorate_length]
      rw [decorate_bare h3 h1.ne_nil] at ih2
      rw [decorate_bare h3 h1'.ne_nil] at h2'
      exact ih2 h2' h5 hb1.1 hb1.2 hb2.1 hb2.2 hr
  | abs _ ih =>
    rintro x' L' c c' h' ⟨-, h⟩ h0 hx h0' hx' hb
    cases h' with
    | abs h' => exact ih h' h h0 hx h0' hx' hb
  | float _ ih =>
    rintro x' L' c c' h' ⟨-, h⟩ h0 hx h0' hx' hb
    cases h' with
    | float h' => exact ih h' h h0 hx h0' hx' hb

/-! ### Lines that show text -/

/-- every line of even text shows some of it, if the text starts at the start of a line -/
theorem wrapped_shows (hS : Spaced W sp) {w a : ℚ} {first : Bool} {t : Text} {lines : List BrokenLine}
    (h : Wrapped W w a first t lines) : (first = false → a = w) → '-' ∉ t → '\n' ∉ t →
    (∀ a u b, t = a ++ u ++ b → Unbreakable u → W (' ' :: u) ≤ w) →
    (∀ l ∈ lines.tail, l.shown ≠ []) ∧ (a = w → t ≠ [] → ∀ l ∈ lines, l.shown ≠ []) := by
  have words : ∀ {t : Text}, (∀ a u b, t = a ++ u ++ b → Unbreakable u → W (' ' :: u) ≤ w) → WordsFit W w t := by
    intro t h a u b ht hu
    have := hS.part [' '] u []
    have h2 := h a u b ht hu
    rw [List.append_nil, List.cons_append, List.nil_append] at this
    linarith
  -- the first line
  have hhead : ∀ {first nl : Bool} {s d rest : Text}, LineEnd W w first s d rest nl → '-' ∉ s ++ d → '\n' ∉ s ++ d →
      (∀ a u b, s ++ d ++ rest = a ++ u ++ b → Unbreakable u → W (' ' :: u) ≤ w) → s ++ d ++ rest ≠ [] → s ≠ [] := by
    intro first nl s d rest he hy hn hf hne hs
    obtain ⟨-, ⟨hd, hr, h1⟩ | ⟨hd, h1, u, r, hr, hu, -, ho⟩ | ⟨-, -, hd, u, r, hr, hu, -, ho⟩⟩ :=
      he.even (w := w) (fun _ => rfl) hy hn (words hf)
    · exact hne (by rw [hs, hd, hr]; rfl)
    · have := hf (s ++ d) u r (by rw [hr]; simp) hu
      rw [hs] at ho
      simp only [List.nil_append, List.cons_append] at ho
      linarith
    · have := words hf (s ++ d) u r (by rw [hr]; simp) hu
      rw [List.nil_append] at ho
      linarith
  induction h with
  | @last a first s d he =>
    intro hf hy hn hfit
    refine ⟨by simp, fun ha hne => ?_⟩
    subst ha
    have := hhead he hy hn (by simpa using hfit) (by simpa using hne)
    simpa using this
  | @more a first s d rest nl lines he hm hl ih =>
    intro hf hy hn hfit
    have hnl := (he.even (w := w) hf (fun h => hy (List.mem_append_left _ h)) (fun h => hn (List.mem_append_left _ h))
      (words hfit)).1
    have hrest : rest ≠ [] := by
      rcases hm with h | h
      · exact h
      · rw [hnl] at h; cases h
    have ih := ih (fun _ => rfl) (fun h => hy (by simp [h])) (fun h => hn (by simp [h]))
      (fun a u b h hu => hfit (s ++ d ++ a) u b (by rw [h]; simp) hu)
    refine ⟨ih.2 rfl hrest, fun ha hne l hmem => ?_⟩
    subst ha
    rcases List.mem_cons.1 hmem with rfl | hmem
    · exact hhead he (fun h => hy (List.mem_append_left _ h)) (fun h => hn (List.mem_append_left _ h)) hfit hne
    · exact ih.2 rfl hrest l hmem

/-- a line shows text -/
def Inks (l : Line) : Prop := itemsInked l ≠ []

theorem inks_append (a b : Line) : Inks (a ++ b) ↔ Inks a ∨ Inks b := by
  unfold Inks
  rw [itemsInked_append]
  by_cases h : itemsInked a = [] <;> simp [h]

theorem inks_piece (st : Style) (f : Font) (t : Text) (nl : Bool) : Inks [Item.text st f t nl] ↔ t ≠ [] := by
  simp only [Inks, itemsInked, Item.inked, List.append_nil]
  split <;> simp_all

theorem inks_box (st : Style) (a b c : Bool) (l : Line) : Inks [Item.box st a b c l] ↔ Inks l := by
  simp [Inks, itemsInked, Item.inked]

/-- all lines but the first show text, and the first does, too, if `p` -/
def AllInk (p : Prop) : List Line → Prop
  | [] => False
  | l :: L => (p → Inks l) ∧ ∀ m ∈ L, Inks m

theorem AllInk.join {p q : Prop} : ∀ {A B : List Line}, AllInk p A → AllInk q B → AllInk (p ∨ (A.length = 1 ∧ q)) (joinLines A B)
  | [], _, h, _ => h.elim
  | _, [], _, h => h.elim
  | [a], b :: B, h1, h2 => by
    refine ⟨fun h => ?_, h2.2⟩
    rw [inks_append]
    rcases h with h | h
    · exact .inl (h1.1 h)
    · exact .inr (h2.1 h.2)
  | a :: a' :: A, b :: B, h1, h2 => by
    rw [joinLines]
    refine ⟨fun h => h1.1 (h.resolve_right (by simp)), ?_⟩
    have := AllInk.join (p := True) (A := a' :: A) (B := b :: B) ⟨fun _ => h1.2 a' (by simp), fun m hm => h1.2 m (by simp [hm])⟩ h2
    cases hj : joinLines (a' :: A) (b :: B) with
    | nil => rw [hj] at this; exact this.elim
    | cons c C =>
      rw [hj] at this
      intro m hm
      rcases List.mem_cons.1 hm with rfl | hm
      · exact this.1 (.inl trivial)
      · exact this.2 m hm

theorem AllInk.decorate {p : Prop} (st : Style) (c : Bool) : ∀ {L : List Line} (a b : Bool), AllInk p L → AllInk p (decorate st a b c L)
  | [], _, _, h => h.elim
  | [l], _, _, h => ⟨fun hp => (inks_box ..).2 (h.1 hp), by simp⟩
  | l :: l' :: L, _, _, h => by
    rw [Sinab.decorate]
    refine ⟨fun hp => (inks_box ..).2 (h.1 hp), ?_⟩
    have := AllInk.decorate (p := True) st c (L := l' :: L) false false
      ⟨fun _ => h.2 l' (by simp), fun m hm => h.2 m (by simp [hm])⟩
    cases hj : Sinab.decorate st false false c (l' :: L) with
    | nil => rw [hj] at this; exact this.elim
    | cons d D =>
      rw [hj] at this
      intro m hm
      rcases List.mem_cons.1 hm with rfl | hm
      · exact this.1 trivial
      · exact this.2 m hm

theorem AllInk.imp {p q : Prop} {L : List Line} (h : AllInk p L) (hq : q → p) : AllInk q L := by
  cases L with
  | nil => exact h
  | cons l L => exact ⟨fun hp => h.1 (hq hp), h.2⟩

/-- content without text -/
theorem laysOut_no_text {E : TextEnv} {w v x : ℚ} {bs : List InlineLevelBox} {L : List Line}
    (h : LaysOut E w x bs L) : inlineEven E sp v bs → x ≤ w → inlineText bs = [] →
    L.length = 1 ∧ endPos E w x L = x := by
  induction h with
  | nil => intro _ _ _; exact ⟨rfl, rfl⟩
  | @text x st t f bs pieces L hp hL ih =>
    rintro ⟨⟨h1, hS, hE⟩, h3⟩ hx ht
    rw [inlineText, List.append_eq_nil_iff] at ht
    have ht0 : t = [] := ht.1
    subst ht0
    obtain ⟨lines, hl, rfl⟩ := hp.wrapped h1
    have hl1 : lines = [⟨[], [], false⟩] := by
      have := hl.firstLine hS hE (by linarith)
      cases this with
      | all => rfl
      | cut h => simp at h
      | space h => simp at h
      | start h => exact absurd rfl h
    subst hl1
    rw [endPos_run E w st f hS.empty _ _ (by simp), runEnd_one, hS.empty, add_zero] at ih
    have ih := ih h3 hx ht.2
    rw [endPos_joinLines _ _ _ _ _ (by simp) hL.ne_nil, endPos_run E w st f hS.empty _ _ (by simp), runEnd_one,
      hS.empty, add_zero]
    have := joinLines_length (([⟨[], [], false⟩] : List BrokenLine).map (fun l => (l.shown, l.newline)) |>.map fun p => [Item.text st f p.1 p.2]) L
      (by simp) hL.ne_nil
    refine ⟨?_, ih.2⟩
    simp only [List.map_cons, List.map_nil, List.length_singleton] at this ⊢
    omega
  | @box x st first last ks bs L1 L2 h1 h2 ih1 ih2 =>
    rintro ⟨⟨h3, h4⟩, h5⟩ hx ht
    rw [inlineText, List.append_eq_nil_iff] at ht
    have hx1 : (if first = true then x + startSpace w st else x) = x := by rw [(h3 w).1]; simp
    rw [hx1] at ih1
    obtain ⟨i1, i2⟩ := ih1 h4 hx ht.1
    have hd := decorate_ne_nil st true first last L1 h1.ne_nil
    rw [decorate_bare h3 h1.ne_nil, i2] at ih2
    obtain ⟨i3, i4⟩ := ih2 h5 hx ht.2
    rw [endPos_joinLines _ _ _ _ _ hd h2.ne_nil, decorate_bare h3 h1.ne_nil, i2]
    have := joinLines_length _ _ hd h2.ne_nil
    rw [decorate_length] at this
    exact ⟨by omega, i4⟩
  | abs _ ih =>
    rintro ⟨-, h⟩ hx ht
    exact ih h hx (by simpa [inlineText, InlineLevelBox.text] using ht)
  | float _ ih =>
    rintro ⟨-, h⟩ hx ht
    exact ih h hx (by simpa [inlineText, InlineLevelBox.text] using ht)

/-- every line of even content shows text -/
theorem laysOut_shows {E : TextEnv} {w x : ℚ} {bs : List InlineLevelBox} {L : List Line}
    (h : LaysOut E w x bs L) : inlineEven E sp w bs → 0 ≤ x → x ≤ w → AllInk (x = 0 ∧ inlineText bs ≠ []) L := by
  induction h with
  | nil => intro _ _ _; exact ⟨by simp [inlineText], by simp⟩
  | @text x st t f bs pieces L hp hL ih =>
    rintro ⟨⟨h1, hS, hE⟩, h3⟩ h0 hx
    obtain ⟨lines, hl, rfl⟩ := hp.wrapped h1
    have hb := runEnd_bounds hS hl hE h0 hx
    have hsh := wrapped_shows hS hl (by simp) hE.hyphen hE.newline hE.fits
    have hs : AllInk (x = 0 ∧ t ≠ []) ((lines.map fun l => (l.shown, l.newline)).map fun p => [Item.text st f p.1 p.2]) := by
      cases lines with
      | nil => exact absurd rfl hl.ne_nil
      | cons l ls =>
        refine ⟨fun hp => (inks_piece ..).2 (hsh.2 (by linarith [hp.1]) hp.2 l (by simp)), ?_⟩
        intro m hm
        simp only [List.map_map, List.mem_map] at hm
        obtain ⟨k, hk, rfl⟩ := hm
        exact (inks_piece ..).2 (hsh.1 k hk)
    by_cases ht0 : t = []
    · subst ht0
      have hn := laysOut_no_text (sp := sp) (v := w) (LaysOut.text (bs := []) hp .nil)
        ⟨⟨h1, hS, hE⟩, trivial⟩ hx (by simp [inlineText, InlineLevelBox.text])
      have hn1 : lines.length = 1 := by
        have := joinLines_length ((lines.map fun l => (l.shown, l.newline)).map fun p => [Item.text st f p.1 p.2]) [[]]
          (by simpa using hl.ne_nil) (by simp)
        simp only [List.length_map, List.length_singleton] at this hn
        omega
      have hn2 : endPos E w x ((lines.map fun l => (l.shown, l.newline)).map fun p => [Item.text st f p.1 p.2]) = x := by
        have := hn.2
        rw [endPos_joinLines _ _ _ _ _ (by simpa using hl.ne_nil) (by simp)] at this
        exact this
      rw [hn2] at ih
      refine (hs.join (ih h3 h0 hx)).imp ?_
      rintro ⟨hx0, hne⟩
      exact .inr ⟨by simp [hn1], hx0, by simpa [inlineText, InlineLevelBox.text] using hne⟩
    · rw [endPos_run E w st f hS.empty _ _ hl.ne_nil] at ih
      exact (hs.join (ih h3 hb.1 hb.2)).imp fun h => .inl ⟨h.1, ht0⟩
  | @box x st first last ks bs L1 L2 h1 h2 ih1 ih2 =>
    rintro ⟨⟨h3, h4⟩, h5⟩ h0 hx
    have hx1 : (if first = true then x + startSpace w st else x) = x := by rw [(h3 w).1]; simp
    rw [hx1] at ih1 h1
    have hb := laysOut_bounds (sp := sp) (v := w) h1 le_rfl h4 h0 hx
    have hs := (ih1 h4 h0 hx).decorate st last true first
    rw [decorate_bare h3 h1.ne_nil] at ih2
    refine (hs.join (ih2 h5 hb.1 hb.2)).imp ?_
    rintro ⟨hx0, hne⟩
    rw [inlineText, ne_eq, List.append_eq_nil_iff, not_and_or] at hne
    by_cases hk : inlineText ks = []
    · obtain ⟨i1, i2⟩ := laysOut_no_text (sp := sp) (v := w) h1 h4 hx hk
      refine .inr ⟨by rw [decorate_length, i1], by rw [i2, hx0], ?_⟩
      rcases hne with h | h
      · exact absurd hk h
      · exact h
    · exact .inl ⟨hx0, hk⟩
  | abs _ ih =>
    rintro ⟨-, h⟩ h0 hx
    exact (ih h h0 hx).imp fun hp => ⟨hp.1, by simpa [inlineText, InlineLevelBox.text] using hp.2⟩
  | float _ ih =>
    rintro ⟨-, h⟩ h0 hx
    exact (ih h h0 hx).imp fun hp => ⟨hp.1, by simpa [inlineText, InlineLevelBox.text] using hp.2⟩

end Sinab
