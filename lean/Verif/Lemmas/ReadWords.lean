import Verif.Lemmas.ReadInk

/-! The words on the lines of inline content. -/

namespace Sinab

theorem unitsFrom_append (a : Text) : ∀ cur, ∃ done cur',
    (∀ y, unitsFrom cur (a ++ y) = done ++ unitsFrom cur' y) ∧
      (a ≠ [] → breaksBehind a → cur' = []) := by
  induction a with
  | nil => intro cur; exact ⟨[], cur, fun y => rfl, fun h => absurd rfl h⟩
  | cons c a ih =>
    intro cur
    have hb : a ≠ [] → breaksBehind (c :: a) → breaksBehind a := by
      rintro ha (h | ⟨b, d, h, hd⟩)
      · simp at h
      · cases b with
        | nil => simp only [List.nil_append, List.cons.injEq] at h; exact absurd h.2 ha
        | cons e b =>
          simp only [List.cons_append, List.cons.injEq] at h
          exact .inr ⟨b, d, h.2, hd⟩
    have h1 : breaksBehind [c] → htmlSpace c = true ∨ c = '-' := by
      rintro (h | ⟨b, d, h, hd⟩)
      · simp at h
      · have : c = d := by
          cases b with
          | nil => simpa using h
          | cons e b => simp at h
        rwa [this]
    by_cases hc : htmlSpace c = true
    · obtain ⟨d, cur', e1, e2⟩ := ih []
      by_cases ha : a = []
      · subst ha
        refine ⟨if cur = [] then [] else [cur], [], ?_, fun _ _ => rfl⟩
        intro y
        simp only [List.cons_append, unitsFrom, hc, if_true, List.nil_append]
        split <;> simp
      · refine ⟨(if cur = [] then [] else [cur]) ++ d, cur', ?_, fun _ hg => e2 ha (hb ha hg)⟩
        intro y
        simp only [List.cons_append, unitsFrom, hc, if_true, e1]
        split <;> simp
    · by_cases hh : c = '-'
      · obtain ⟨d, cur', e1, e2⟩ := ih []
        by_cases ha : a = []
        · subst ha
          refine ⟨[cur ++ [c]], [], ?_, fun _ _ => rfl⟩
          intro y
          subst hh
          simp [unitsFrom, show htmlSpace '-' = false by decide]
        · refine ⟨[cur ++ [c]] ++ d, cur', ?_, fun _ hg => e2 ha (hb ha hg)⟩
          intro y
          subst hh
          simp [unitsFrom, show htmlSpace '-' = false by decide, e1]
      · obtain ⟨d, cur', e1, e2⟩ := ih (cur ++ [c])
        refine ⟨d, cur', ?_, fun _ hg => ?_⟩
        · intro y
          simp only [List.cons_append, unitsFrom, hc, hh, Bool.false_eq_true, if_false, e1]
        · by_cases ha : a = []
          · subst ha
            rcases h1 hg with h | h
            · exact absurd h hc
            · exact absurd h hh
          · exact e2 ha (hb ha hg)

theorem units_behind {a : Text} (h : breaksBehind a) (y : Text) :
    units (a ++ y) = units a ++ units y := by
  by_cases ha : a = []
  · subst ha; rfl
  · obtain ⟨d, cur', h1, h2⟩ := unitsFrom_append a []
    have hc := h2 ha h
    subst hc
    have h0 := h1 []
    rw [List.append_nil] at h0
    unfold units
    rw [h1, h0]
    simp [unitsFrom]

theorem units_ws {c : Char} (hc : htmlSpace c = true) (y : Text) : units (c :: y) = units y := by
  simp [units, unitsFrom, hc]

theorem units_before (a : Text) {y : Text} (h : startsWs y) :
    units (a ++ y) = units a ++ units y := by
  obtain ⟨c, r, rfl, hc⟩ := h
  have : a ++ c :: r = (a ++ [c]) ++ r := by simp
  rw [this, units_behind (.inr ⟨a, c, rfl, .inl hc⟩), units_ws hc]
  congr 1
  obtain ⟨d, cur', h1, h2⟩ := unitsFrom_append a []
  have h0 := h1 []
  rw [List.append_nil] at h0
  unfold units
  rw [h1, h0]
  simp [unitsFrom, hc]

/-- units on lines, if the last one is continued by `t` -/
def readOn : List Text → Text → List Text
  | [], t => units t
  | [l], t => units (l ++ t)
  | l :: l' :: ls, t => units l ++ readOn (l' :: ls) t

/-- lines of text, the last of which continues -/
def joinTexts : List Text → List Text → List Text
  | [], L => L
  | [a], [] => [a]
  | [a], b :: B => (a ++ b) :: B
  | a :: a' :: A, L => a :: joinTexts (a' :: A) L

theorem readOn_form : ∀ P : List Text, ∃ K l, ∀ y, readOn P y = K ++ units (l ++ y)
  | [] => ⟨[], [], fun y => rfl⟩
  | [l] => ⟨[], l, fun y => rfl⟩
  | l :: l' :: ls => by
    obtain ⟨K, m, h⟩ := readOn_form (l' :: ls)
    exact ⟨units l ++ K, m, fun y => by rw [readOn, h, List.append_assoc]⟩

theorem readOn_ws (P : List Text) (a : Text) {y : Text} (h : startsWs y) :
    readOn P (a ++ y) = readOn P a ++ units y := by
  obtain ⟨K, l, hr⟩ := readOn_form P
  rw [hr, hr, ← List.append_assoc, units_before _ h, List.append_assoc]

theorem readOn_hyphen (P : List Text) (a y : Text) :
    readOn P (a ++ ['-'] ++ y) = readOn P (a ++ ['-']) ++ units y := by
  obtain ⟨K, l, hr⟩ := readOn_form P
  rw [hr, hr, ← List.append_assoc, units_behind, List.append_assoc]
  exact .inr ⟨l ++ a, '-', by simp, .inr rfl⟩

theorem readOn_nil : ∀ P : List Text, readOn P [] = P.flatMap units
  | [] => rfl
  | [l] => by simp [readOn]
  | l :: l' :: ls => by rw [readOn, readOn_nil (l' :: ls)]; simp

theorem joinTexts_one (s t : Text) : ∀ P : List Text, readOn (joinTexts P [s]) t = readOn P (s ++ t)
  | [] => rfl
  | [l] => by simp [joinTexts, readOn]
  | l :: l' :: ls => by
    have := joinTexts_one s t (l' :: ls)
    rw [joinTexts]
    cases hj : joinTexts (l' :: ls) [s] with
    | nil => cases ls <;> simp [joinTexts] at hj
    | cons a A => rw [hj] at this; rw [readOn, readOn, this]

theorem joinTexts_ne {P L : List Text} (h : P ≠ [] ∨ L ≠ []) : joinTexts P L ≠ [] := by
  match P, L, h with
  | [], L, h => simpa [joinTexts] using h
  | [a], [], _ => simp [joinTexts]
  | [a], b :: B, _ => simp [joinTexts]
  | a :: a' :: A, L, _ => simp [joinTexts]

theorem joinTexts_cons (s : Text) {L : List Text} (hL : L ≠ []) (t : Text) : ∀ P : List Text,
    readOn (joinTexts P (s :: L)) t = readOn P s ++ readOn L t
  | [] => by
    cases L with
    | nil => exact absurd rfl hL
    | cons b L => rfl
  | [l] => by
    cases L with
    | nil => exact absurd rfl hL
    | cons b L => simp [joinTexts, readOn]
  | l :: l' :: ls => by
    have := joinTexts_cons s hL t (l' :: ls)
    rw [joinTexts]
    cases hj : joinTexts (l' :: ls) (s :: L) with
    | nil => exact absurd hj (joinTexts_ne (.inl (by simp)))
    | cons a A => rw [hj] at this; rw [readOn, readOn, this, List.append_assoc]

theorem joinTexts_assoc : ∀ (P A B : List Text), A ≠ [] →
    joinTexts (joinTexts P A) B = joinTexts P (joinTexts A B)
  | [], A, B, _ => rfl
  | [p], [], B, h => absurd rfl h
  | [p], [a], [], _ => rfl
  | [p], [a], b :: B, _ => by simp [joinTexts]
  | [p], a :: a' :: A, B, _ => rfl
  | p :: p' :: P, A, B, h => by
    have ih := joinTexts_assoc (p' :: P) A B h
    rw [joinTexts, joinTexts, ← ih]
    cases hj : joinTexts (p' :: P) A with
    | nil => exact absurd hj (joinTexts_ne (.inl (by simp)))
    | cons a A => rfl

/-! ## One run of text -/

/-- What is on the lines `P` agrees with the text `q` before it, or a space at the end of
the last line was dropped but then there is no space for one there. -/
def Agrees (E : TextEnv) (w : ℚ) (P : List Text) (q : Text) (x : ℚ) (later : List Inked) : Prop :=
  (∀ t, readOn P t = units (q ++ t)) ∨
    (q ≠ [] ∧ (∀ t, readOn P [] ++ units t = units (q ++ t)) ∧
      ∀ r ∈ later, r.1.wraps = true ∧ ∀ c t, htmlSpace c = false → w - x < E.width r.2.1 (c :: t))

theorem Agrees.mono {E : TextEnv} {w : ℚ} {P : List Text} {q : Text} {x x' : ℚ}
    {later later' : List Inked} (h : Agrees E w P q x later) (hx : x ≤ x')
    (hl : ∀ r ∈ later', r ∈ later) : Agrees E w P q x' later' := by
  rcases h with h | ⟨h0, h1, h2⟩
  · exact .inl h
  · refine .inr ⟨h0, h1, fun r hr => ⟨(h2 r (hl r hr)).1, fun c t hc => ?_⟩⟩
    have := (h2 r (hl r hr)).2 c t hc
    linarith

/-- the end of the last piece of a text -/
def endText (E : TextEnv) (f : Font) (x : ℚ) (s : Text) : ℚ := if s = [] then x else x + E.width f s

theorem nextWord_nil {W : Text → ℚ} {avail : ℚ} {s : Text} (h : NextWordOverflows W avail s []) :
    avail < W s := by
  obtain ⟨a, b, hab, _, _, hw⟩ := h
  have : a = [] := (List.append_eq_nil_iff.1 hab.symm).1
  subst this
  simpa using hw

theorem line_agrees {E : TextEnv} {w x : ℚ} {P : List Text} {q s d rest : Text} {nl first : Bool}
    {st : Style} {f : Font} {later : List Inked}
    (hl : LineEnd (E.width f) (w - x) first s d rest nl)
    (hfirst : first = false → x = 0 ∧ WordsFit (E.width f) w (s ++ d ++ rest))
    (hb : first = true → breaksBehind q ∨ startsWs (s ++ d ++ rest) ∨ s ++ d ++ rest = [])
    (hq : q = [] ∨ (s ++ d ++ rest).head? ≠ some '-')
    (h0 : E.width f [] = 0)
    (hf : ∀ r ∈ later, Follows E (st, f, s ++ d ++ rest) r)
    (hst : st.wraps = true)
    (hA : Agrees E w P q x ((st, f, s ++ d ++ rest) :: later)) :
    ((rest ≠ [] ∨ nl = true) → ∀ t, readOn P s ++ units (rest ++ t) = units (q ++ s ++ d ++ rest ++ t)) ∧
    (rest = [] → nl = false →
      Agrees E w (joinTexts P [s]) (q ++ s ++ d) (endText E f x s) later) := by
  have sp : htmlSpace ' ' = true := by decide
  have nw : htmlSpace '\n' = true := by decide
  -- the shown text continues the line, or is empty
  have G : (∃ u, E.width f (s ++ u) ≤ w - x) ∨ (∃ s', s = s' ++ ['-'] ∧ E.width f s' ≤ w - x) →
      (∀ y, readOn P (s ++ y) = units (q ++ s ++ y)) ∨
        (s = [] ∧ q ≠ [] ∧ (∀ t, readOn P [] ++ units t = units (q ++ t)) ∧
          ∀ r ∈ later, r.1.wraps = true ∧
            ∀ c t, htmlSpace c = false → w - x < E.width r.2.1 (c :: t)) := by
    intro hw
    rcases hA with h | ⟨h1, h2, h3⟩
    · exact .inl fun y => by rw [h, List.append_assoc]
    · cases s with
      | nil => exact .inr ⟨rfl, h1, h2, fun r hr => h3 r (by simp [hr])⟩
      | cons c s =>
        by_cases hc : htmlSpace c = true
        · refine .inl fun y => ?_
          have hs : startsWs (c :: s ++ y) := ⟨c, s ++ y, rfl, hc⟩
          have := readOn_ws P [] hs
          rw [List.nil_append] at this
          rw [this, h2, List.append_assoc]
        · exfalso
          simp only [Bool.not_eq_true] at hc
          have hbad : ∀ u, w - x < E.width f (c :: u) := 
            fun u => (h3 _ List.mem_cons_self).2 c u hc
          rcases hw with ⟨u, hw⟩ | ⟨s', hs, hw⟩
          · exact absurd hw (not_le.2 (hbad (s ++ u)))
          · cases s' with
            | nil =>
              simp only [List.nil_append, List.cons.injEq] at hs
              rcases hq with hq | hq
              · exact h1 hq
              · exact hq (by simp [hs.1])
            | cons e s' =>
              simp only [List.cons_append, List.cons.injEq] at hs
              obtain ⟨rfl, rfl⟩ := hs
              exact absurd hw (not_le.2 (hbad s'))
  have one : ∀ t, readOn (joinTexts P [s]) t = readOn P (s ++ t) := fun t => joinTexts_one s t P
  have wide : E.width f (s ++ [' ']) > w - x → ∀ r ∈ later, r.1.wraps = true ∧
      ∀ c t, htmlSpace c = false → w - endText E f x s < E.width r.2.1 (c :: t) := by
    intro hw r hr
    obtain ⟨hr1, hr2⟩ := hf r hr hst
    refine ⟨hr1, fun c t hc => ?_⟩
    have h1 := hr2 s c t hc
    simp only at h1
    unfold endText
    split
    · rename_i hs
      subst hs
      rw [h0] at h1
      linarith
    · linarith
  -- a break at white space
  have ws : ∀ z : Text, startsWs z → (∃ u, E.width f (s ++ u) ≤ w - x) →
      ∀ t, readOn P s ++ units (z ++ t) = units (q ++ s ++ (z ++ t)) := by
    intro z hz hw t
    have hz' : startsWs (z ++ t) := by
      obtain ⟨c, r, rfl, hc⟩ := hz
      exact ⟨c, r ++ t, rfl, hc⟩
    rcases G (.inl hw) with h | ⟨rfl, h1, h2, h3⟩
    · rw [← h, readOn_ws P s hz']
    · rw [h2]; simp
  cases hl with
  | done hw =>
    refine ⟨by simp, fun _ _ => ?_⟩
    rcases G (.inl ⟨[], by simpa using hw⟩) with h | ⟨rfl, h1, h2, h3⟩
    · exact .inl fun t => by rw [one, h]; simp
    · refine .inr ⟨by simpa using h1, fun t => ?_, ?_⟩
      · rw [one]; simpa using h2 t
      · simpa [endText] using h3
  | newline hw =>
    refine ⟨fun _ t => ?_, by simp⟩
    have := ws (['\n'] ++ rest) ⟨'\n', rest, rfl, nw⟩ ⟨[], by simpa using hw⟩ t
    rw [List.append_assoc, List.singleton_append, units_ws nw] at this
    rw [this]; simp
  | spaceNewline hw =>
    refine ⟨fun _ t => ?_, by simp⟩
    have := ws ([' ', '\n'] ++ rest) ⟨' ', '\n' :: rest, rfl, sp⟩ ⟨[' '], hw⟩ t
    rw [List.append_assoc, List.cons_append, units_ws sp, List.singleton_append, units_ws nw] at this
    rw [this]; simp
  | space hw hn =>
    refine ⟨fun _ t => ?_, ?_⟩
    · have := ws ([' '] ++ rest) ⟨' ', rest, rfl, sp⟩ ⟨[], by simpa using hw⟩ t
      rw [List.append_assoc, List.singleton_append, units_ws sp] at this
      rw [this]; simp
    · rintro rfl _
      refine .inr ⟨by simp, fun t => ?_, wide (nextWord_nil hn)⟩
      have := ws [' '] ⟨' ', [], rfl, sp⟩ ⟨[], by simpa using hw⟩ t
      rw [List.singleton_append, units_ws sp] at this
      rw [one, List.append_nil, this]; simp
  | hyphen hw hn hx =>
    rename_i s
    rcases G (.inr ⟨s, rfl, hw⟩) with h | ⟨h, _⟩
    · refine ⟨fun _ t => ?_, fun _ _ => .inl fun t => ?_⟩
      · rw [← readOn_hyphen, h]; simp
      · rw [one, h]; simp
    · simp at h
  | start hn =>
    refine ⟨fun hr t => ?_, ?_⟩
    · have hr : rest ≠ [] := by simpa using hr
      simp only [List.append_nil]
      rcases hA with h | ⟨h1, h2, h3⟩
      · rcases hb rfl with hb | hb | hb
        · have := h []
          rw [this, List.append_nil, List.append_assoc, units_behind hb]
        · have hs : startsWs (rest ++ t) := by
            obtain ⟨c, r, e, hc⟩ := hb
            simp only [List.nil_append] at e
            exact ⟨c, r ++ t, by rw [e]; rfl, hc⟩
          have := readOn_ws P [] hs
          rw [← this, List.nil_append, h, List.append_assoc]
        · exact absurd (by simpa using hb) hr
      · rw [h2, List.append_assoc]
    · rintro rfl _
      simp only [List.append_nil, endText, if_true]
      rcases hA with h | ⟨h1, h2, h3⟩
      · exact .inl fun t => by rw [joinTexts_one]; exact h t
      · exact .inr ⟨h1, fun t => by rw [joinTexts_one]; exact h2 t, fun r hr => h3 r (by simp [hr])⟩
  | overflow hw hu hc =>
    obtain ⟨rfl, hfit⟩ := hfirst rfl
    rename_i c
    have := hfit [] s ([c] ++ rest) (by simp) hu
    linarith
  | overflowEnd hw hu =>
    obtain ⟨rfl, hfit⟩ := hfirst rfl
    have := hfit [] s [] (by simp) hu
    linarith

theorem wrapped_agrees {E : TextEnv} {w avail : ℚ} {t : Text} {first : Bool}
    {lines : List BrokenLine} {st : Style} {f : Font} {later : List Inked}
    (h : Wrapped (E.width f) w avail first t lines) (h1 : first = false) (ha : avail = w)
    (hfit : WordsFit (E.width f) w t) (h0 : E.width f [] = 0)
    (hf : ∀ r ∈ later, ∀ t, Follows E (st, f, t) r) (hst : st.wraps = true) :
    ∃ l ls, lines.map (·.shown) = l ++ [ls] ∧
      Agrees E w (lines.map (·.shown)) t (endText E f 0 ls) later := by
  induction h with
  | @last avail first s d hl =>
    subst h1 ha
    have hl' : LineEnd (E.width f) (avail - 0) false s d [] false := by simpa using hl
    have := (line_agrees (P := []) (q := []) (later := later) (st := st) hl'
      (fun _ => ⟨rfl, by simpa using hfit⟩) (by simp) (.inl rfl) h0
      (fun r hr => hf r hr _) hst (.inl fun t => rfl)).2 rfl rfl
    exact ⟨[], s, rfl, by simpa [joinTexts] using this⟩
  | @more avail first s d rest nl lines hl hr hw ih =>
    subst h1 ha
    have hl' : LineEnd (E.width f) (avail - 0) false s d rest nl := by simpa using hl
    have step := (line_agrees (P := []) (q := []) (later := later) (st := st) hl'
      (fun _ => ⟨rfl, hfit⟩) (by simp) (.inl rfl) h0
      (fun r hr => hf r hr _) hst (.inl fun t => rfl)).1 hr
    obtain ⟨l, ls, e, hA⟩ := ih rfl rfl
      fun a u b hab hu => hfit (s ++ d ++ a) u b (by rw [hab]; simp) hu
    refine ⟨s :: l, ls, by simp [e], ?_⟩
    have hne : lines.map (·.shown) ≠ [] := by rw [e]; simp
    have hj := fun t => joinTexts_cons s hne t []
    simp only [joinTexts] at hj
    simp only [List.map_cons]
    simp only [List.nil_append] at step
    rcases hA with h | ⟨_, h2, h3⟩
    · exact .inl fun t => by rw [hj, h, step]
    · refine .inr ⟨?_, fun t => ?_, h3⟩
      · intro h
        simp only [List.append_eq_nil_iff] at h
        exact absurd (by simp [h]) ‹rest ≠ []›
      · rw [hj, List.append_assoc, h2, step]

theorem readOn_newlines : ∀ (r : Text) (P : List Text) (t : Text),
    readOn (joinTexts P (splitNewlines r)) t = readOn P (r ++ t)
  | [], P, t => joinTexts_one [] t P
  | c :: r, P, t => by
    by_cases hc : c = '\n'
    · subst hc
      have hs : startsWs ('\n' :: (r ++ t)) := ⟨'\n', r ++ t, rfl, by decide⟩
      have h1 := readOn_newlines r [] t
      simp only [joinTexts, readOn] at h1
      have h2 := readOn_ws P [] hs
      rw [units_ws (by decide), List.nil_append] at h2
      rw [splitNewlines, if_pos rfl, joinTexts_cons _ (splitNewlines_ne_nil r), h1, List.cons_append, h2]
    · have hn := splitNewlines_ne_nil r
      rw [splitNewlines, if_neg hc]
      have ih := readOn_newlines r (joinTexts P [[c]]) t
      cases hs : splitNewlines r with
      | nil => exact absurd hs hn
      | cons l ls =>
        rw [hs, joinTexts_assoc _ _ _ (by simp), joinTexts_one] at ih
        simpa [joinTexts] using ih

/-- the text of a line -/
def lineText (l : Line) : Text := rowText (itemsInked l)

theorem lineText_piece (st : Style) (f : Font) (t : Text) (nl : Bool) :
    lineText [Item.text st f t nl] = t := by
  simp only [lineText, itemsInked, Item.inked, List.append_nil]
  split
  · rename_i h; rw [h]; rfl
  · simp [rowText]

theorem pieces_text (st : Style) (f : Font) (ps : List (Text × Bool)) :
    (ps.map fun p => [Item.text st f p.1 p.2]).map lineText = ps.map (·.1) := by
  induction ps with
  | nil => rfl
  | cons p ps ih => simp only [List.map_cons, lineText_piece, ih]

theorem endPos_piece (E : TextEnv) (w x : ℚ) (st : Style) (f : Font) (p : Text × Bool) :
    endPos E w x ([p].map fun p => [Item.text st f p.1 p.2]) = endText E f x p.1 := rfl

theorem endPos_pieces (E : TextEnv) (w : ℚ) (st : Style) (f : Font) : ∀ (ps : List (Text × Bool))
    (x : ℚ) (l : List Text) (s : Text), ps.map (·.1) = l ++ [s] →
    endPos E w x (ps.map fun p => [Item.text st f p.1 p.2]) =
      endText E f (if l = [] then x else 0) s
  | [], x, l, s, h => by simp at h
  | [p], x, l, s, h => by
    cases l with
    | nil =>
      simp only [List.map_cons, List.map_nil, List.nil_append, List.cons.injEq, and_true] at h
      rw [endPos_piece, h]; simp
    | cons a l => simp at h
  | p :: p' :: ps, x, l, s, h => by
    cases l with
    | nil => simp at h
    | cons a l =>
      simp only [List.map_cons, List.cons_append, List.cons.injEq] at h
      have := endPos_pieces E w st f (p' :: ps) 0 l s (by simpa using h.2)
      simp only [List.map_cons] at this ⊢
      rw [endPos, this]
      simp

theorem run_agrees {E : TextEnv} {w x : ℚ} {P : List Text} {q t : Text}
    {st : Style} {f : Font} {later : List Inked} {pieces : List (Text × Bool)}
    (hp : RunPieces E st f w (w - x) t pieces)
    (hfit : WordsFit (E.width f) w t)
    (hb : breaksBehind q ∨ startsWs t ∨ t = []) (hq : q = [] ∨ t.head? ≠ some '-')
    (h0 : E.width f [] = 0) (hf : ∀ r ∈ later, Follows E (st, f, t) r)
    (hA : Agrees E w P q x ((st, f, t) :: later)) :
    Agrees E w (joinTexts P (pieces.map (·.1))) (q ++ t)
      (endPos E w x (pieces.map fun p => [Item.text st f p.1 p.2])) later := by
  have hn : pieces = newlinePieces (splitNewlines t) → st.wraps = false →
      Agrees E w (joinTexts P (pieces.map (·.1))) (q ++ t)
        (endPos E w x (pieces.map fun p => [Item.text st f p.1 p.2])) later := by
    rintro rfl hst
    rcases hA with h | ⟨_, _, h3⟩
    · refine .inl fun y => ?_
      rw [newlinePieces_fst, readOn_newlines, h, List.append_assoc]
    · have := (h3 _ List.mem_cons_self).1
      rw [hst] at this
      simp at this
  have hw : (∃ lines, Wrapped (E.width f) w (w - x) true t lines ∧
      pieces = lines.map fun l => (l.shown, l.newline)) → st.wraps = true →
      Agrees E w (joinTexts P (pieces.map (·.1))) (q ++ t)
        (endPos E w x (pieces.map fun p => [Item.text st f p.1 p.2])) later := by
    rintro ⟨lines, hl, rfl⟩ hst
    have e : (lines.map fun l => (l.shown, l.newline)).map (·.1) = lines.map (·.shown) := by
      simp
    rw [e]
    generalize hav : w - x = avail at hl
    generalize hfi : true = first at hl
    cases hl with
    | @last _ _ s d hl =>
      subst hav hfi
      have := (line_agrees (P := P) (q := q) (later := later) (st := st) hl (by simp)
        (fun _ => by simpa using hb) (by simpa using hq) h0 (by simpa using hf) hst
        (by simpa using hA)).2 rfl rfl
      rw [List.append_assoc] at this
      exact this
    | @more _ _ s d rest nl lines hl hr hw =>
      subst hav hfi
      have step := (line_agrees (P := P) (q := q) (later := later) (st := st) hl (by simp)
        (fun _ => hb) hq h0 hf hst hA).1 hr
      obtain ⟨l, ls, e2, hA2⟩ := wrapped_agrees (st := st) (later := later) hw rfl rfl
        (fun a u b hab hu => hfit (s ++ d ++ a) u b (by rw [hab]; simp) hu) h0
        (fun r hr t => hf r hr) hst
      have hne : lines.map (·.shown) ≠ [] := by rw [e2]; simp
      have hend := endPos_pieces E w st f
        ((⟨s, d, nl⟩ :: lines : List BrokenLine).map fun l => (l.shown, l.newline)) x (s :: l) ls
        (by simp only [List.map_cons, List.map_map, List.cons_append, List.cons.injEq, true_and]
            exact e2)
      rw [hend]
      simp only [List.map_cons, reduceCtorEq, if_false]
      have hj := fun t => joinTexts_cons s hne t P
      have hq' : ∀ y, q ++ s ++ d ++ rest ++ y = q ++ (s ++ d ++ rest) ++ y := by intro y; simp
      rcases hA2 with h | ⟨_, h2, h3⟩
      · exact .inl fun t => by rw [hj, h, step, hq']
      · refine .inr ⟨?_, fun t => ?_, h3⟩
        · intro h
          simp only [List.append_eq_nil_iff] at h
          exact absurd (by simp [h]) ‹rest ≠ []›
        · rw [hj, List.append_assoc, h2, step, hq']
  unfold RunPieces at hp
  unfold Style.wraps at hn hw
  split at hp
  · rename_i h; rw [h] at hn; exact hn hp rfl
  · rename_i h; rw [h] at hn; exact hn hp rfl
  · rename_i h1 h2
    refine hw hp ?_
    split <;> simp_all

/-! ## Inline content -/

theorem joinLines_text : ∀ A B : List Line,
    (joinLines A B).map lineText = joinTexts (A.map lineText) (B.map lineText)
  | [], B => rfl
  | [a], [] => rfl
  | [a], b :: B => by simp [joinLines, joinTexts, lineText, itemsInked_append, rowText]
  | a :: a' :: A, B => by
    have := joinLines_text (a' :: A) B
    simp only [List.map_cons] at this
    simp only [joinLines, joinTexts, List.map_cons, this]

theorem decorate_text (st : Style) : ∀ (L : List Line) (a b c : Bool),
    (decorate st a b c L).map lineText = L.map lineText
  | [], _, _, _ => rfl
  | [l], _, _, _ => by simp [decorate, lineText, itemsInked, Item.inked]
  | l :: l' :: L, _, _, _ => by
    have := decorate_text st (l' :: L)
    simp only [List.map_cons] at this
    simp only [decorate, List.map_cons, this]
    simp [lineText, itemsInked, Item.inked]

theorem endPos_decorate (E : TextEnv) (w : ℚ) (st : Style) (e : Bool) :
    ∀ (L : List Line) (x : ℚ) (f s : Bool), L ≠ [] →
    endPos E w x (decorate st f s e L) =
      endPos E w (if s then x + startSpace w st else x) L + if e then endSpace w st else 0
  | [], _, _, _, h => absurd rfl h
  | [l], x, f, s, _ => by
    simp only [decorate, endPos, advance, Item.advance]
    cases e <;> simp
  | l :: l' :: L, x, f, s, _ => by
    have := endPos_decorate E w st e (l' :: L) 0 false false (by simp)
    rw [decorate]
    cases hd : decorate st false false e (l' :: L) with
    | nil => exact absurd hd (decorate_ne_nil st _ _ _ _ (by simp))
    | cons a A =>
      rw [endPos, ← hd, this]
      simp [endPos]

theorem rowText_append (a b : List Inked) : rowText (a ++ b) = rowText a ++ rowText b :=
  List.flatMap_append ..

mutual

theorem InlineLevelBox.inks_text : ∀ b : InlineLevelBox, rowText b.inks = b.text
  | .inlineBox _ _ _ ks => inlineInked_text ks
  | .textRun _ t _ => by simp [InlineLevelBox.inks, InlineLevelBox.text, rowText]
  | .outOfFlowAbsolutelyPositionedBox _ _ => rfl
  | .outOfFlowFloatBox _ _ => rfl

theorem inlineInked_text : ∀ bs : List InlineLevelBox, rowText (inlineInked bs) = inlineText bs
  | [] => rfl
  | b :: bs => by
    rw [inlineInked, rowText_append, b.inks_text, inlineInked_text bs, inlineText]

end

theorem endPos_joinLines (E : TextEnv) (w : ℚ) : ∀ (A B : List Line) (x : ℚ), A ≠ [] → B ≠ [] →
    endPos E w x (joinLines A B) = endPos E w (endPos E w x A) B
  | [], _, _, h, _ => absurd rfl h
  | [a], [], _, _, h => absurd rfl h
  | [a], [b], x, _, _ => by simp only [joinLines, endPos, advance_append]
  | [a], b :: b' :: B, x, _, _ => rfl
  | a :: a' :: A, B, x, _, hB => by
    have := endPos_joinLines E w (a' :: A) B 0 (by simp) hB
    rw [joinLines]
    cases hj : joinLines (a' :: A) B with
    | nil => exact absurd hj (joinLines_ne_nil _ _ (.inl (by simp)))
    | cons c C => rw [endPos, ← hj, this]; rfl

theorem apart_append (a b : List Inked) : ∀ q : Text,
    Apart q (a ++ b) ↔ Apart q a ∧ Apart (q ++ rowText a) b := by
  induction a with
  | nil => intro q; simp [Apart, rowText]
  | cons r a ih =>
    intro q
    simp only [List.cons_append, Apart, ih, rowText, List.flatMap_cons, List.append_assoc]
    tauto

theorem laysOut_agrees {E : TextEnv} {w x : ℚ} {bs : List InlineLevelBox} {L : List Line}
    (h : LaysOut E w x bs L) : ∀ {P : List Text} {q : Text} {later : List Inked},
    inlineEdged w bs → (∀ r ∈ inlineInked bs, WordsFit (E.width r.2.1) w r.2.2) →
    (∀ r ∈ inlineInked bs, E.width r.2.1 [] = 0) → Apart q (inlineInked bs) →
    (inlineInked bs ++ later).Pairwise (Follows E) →
    Agrees E w P q x (inlineInked bs ++ later) →
    Agrees E w (joinTexts P (L.map lineText)) (q ++ rowText (inlineInked bs)) (endPos E w x L) later := by
  induction h with
  | nil =>
    intro P q later _ _ _ _ _ hA
    have e : ∀ t, readOn (joinTexts P [[]]) t = readOn P t := fun t => joinTexts_one [] t P
    have el : lineText [] = [] := rfl
    simp only [inlineInked, List.nil_append] at hA
    simp only [List.map_cons, List.map_nil, inlineInked, rowText, List.flatMap_nil, List.append_nil,
      endPos, advance, el]
    rcases hA with h | ⟨h1, h2, h3⟩
    · exact .inl fun t => by rw [e, h]
    · exact .inr ⟨h1, fun t => by rw [e, h2], h3⟩
  | @text x st t f bs pieces L hp hl ih =>
    intro P q later h1 h2 h3 h4 h5 hA
    simp only [inlineInked, InlineLevelBox.inks, List.cons_append, List.nil_append, List.mem_cons, forall_eq_or_imp,
      Apart, List.pairwise_cons, inlineEdged] at h1 h2 h3 h4 h5 hA ⊢
    have step := run_agrees hp h2.1 h4.1 h4.2.1 h3.1 h5.1 hA
    have := ih h1.2 h2.2 h3.2 h4.2.2 h5.2 step
    have hne : (pieces.map fun p => [Item.text st f p.1 p.2]) ≠ [] := by
      simpa using hp.ne_nil
    rw [joinLines_text, pieces_text, endPos_joinLines _ _ _ _ _ hne hl.ne_nil,
      ← joinTexts_assoc _ _ _ (by simpa using hp.ne_nil)]
    rw [List.append_assoc] at this
    exact this
  | @box x st first last ks bs L1 L2 hl1 hl2 ih1 ih2 =>
    intro P q later h1 h2 h3 h4 h5 hA
    simp only [inlineInked, InlineLevelBox.inks, List.mem_append, inlineEdged, InlineLevelBox.edged,
      List.append_assoc, apart_append] at h1 h2 h3 h4 h5 hA
    obtain ⟨⟨hs, he, hk⟩, hbs⟩ := h1
    have s1 := ih1 hk (fun r hr => h2 r (.inl hr)) (fun r hr => h3 r (.inl hr)) h4.1 h5
      (hA.mono (x' := if first then x + startSpace w st else x)
        (by split <;> linarith) (fun r hr => hr))
    have hx : endPos E w (if first then x + startSpace w st else x) L1 ≤
        endPos E w x (decorate st true first last L1) := by
      rw [endPos_decorate E w st last L1 x true first hl1.ne_nil]
      split <;> split <;> linarith
    have s2 := ih2 hbs (fun r hr => h2 r (.inr hr)) (fun r hr => h3 r (.inr hr)) h4.2
      (List.pairwise_append.1 h5).2.1 (s1.mono hx fun r hr => hr)
    have hne := decorate_ne_nil st true first last L1 hl1.ne_nil
    rw [joinLines_text, decorate_text, endPos_joinLines _ _ _ _ _ hne hl2.ne_nil,
      ← joinTexts_assoc _ _ _ (by simpa using hl1.ne_nil), inlineInked, rowText_append,
      ← List.append_assoc]
    exact s2
  | abs _ ih =>
    intro P q later h1 h2 h3 h4 h5 hA
    exact ih h1.2 h2 h3 h4 h5 hA
  | float _ ih =>
    intro P q later h1 h2 h3 h4 h5 hA
    exact ih h1.2 h2 h3 h4 h5 hA

/-- The units on the lines of readable inline content are those of its text. -/
theorem laysOut_units {E : TextEnv} {w : ℚ} {bs : List InlineLevelBox} {L : List Line}
    (h : LaysOut E w 0 bs L) (hr : Readable E w bs) :
    (L.map lineText).flatMap units = units (inlineText bs) := by
  have := laysOut_agrees h (P := []) (q := []) (later := []) hr.edges hr.fit hr.nothing hr.apart
    (by simpa using hr.follows) (.inl fun t => rfl)
  rw [inlineInked_text] at this
  simp only [joinTexts, List.nil_append] at this
  rw [← readOn_nil]
  rcases this with h | ⟨_, h, _⟩
  · simpa using h []
  · simpa [units, unitsFrom] using h []

end Sinab
