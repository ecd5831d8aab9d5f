import Verif.Lemmas.ConstructWords

/-! The style and font in which text is laid out. -/

namespace Sinab

theorem blockInk_append (a b : List BlockLevelBox) : blockInk (a ++ b) = blockInk a ++ blockInk b := by
  induction a with
  | nil => simp [blockInk]
  | cons x a ih => simp [blockInk, ih]

theorem inlineInk_append (a b : List InlineLevelBox) :
    inlineInk (a ++ b) = inlineInk a ++ inlineInk b := by
  induction a with
  | nil => simp [inlineInk]
  | cons x a ih => simp [inlineInk, ih]

/-- ink of a builder -/
def Flow.ink (f : Flow) : List (Style × Font × Char) :=
  blockInk (f.blocks.map (·.box)) ++ inlineInk f.inl

theorem Flow.flush_ink (cst : Style) (f : Flow) : (f.flush cst).ink = f.ink := by
  unfold Flow.flush
  split
  · rfl
  · simp [Flow.ink, blockInk_append, blockInk, Flow.anon, BlockLevelBox.ink, BlockContainer.ink,
      inlineInk]

theorem Flow.container_ink (cst : Style) (f : Flow) : (f.container cst).1.ink = f.ink := by
  unfold Flow.container
  split
  · rename_i h
    simp only [Bool.and_eq_true, List.isEmpty_iff] at h
    simp [BlockContainer.ink, Flow.ink, h.2, blockInk]
  · rw [← Flow.flush_ink cst f]
    simp [BlockContainer.ink, Flow.ink, Flow.flush_inl, inlineInk]

theorem Flow.pushBlk_ink {f : Flow} (h : f.inl = []) (b : Blk) :
    (f.pushBlk b).ink = f.ink ++ b.box.ink := by
  simp [Flow.ink, Flow.pushBlk, blockInk_append, blockInk, h, inlineInk]

/-- the last box of a list, if it is a text run, is in the style `st` -/
def LastRun (C : BoxContext) (st : Style) (op : Bool) (l : List InlineLevelBox) : Prop :=
  (∀ s t f, l.getLast? = some (.textRun s t f) → s = st ∧ f = C.fontOf st) ∧
  (op = true → ∃ s t f, l.getLast? = some (.textRun s t f))

theorem LastRun.nil {C : BoxContext} {st : Style} : LastRun C st false [] := by
  simp [LastRun]

theorem LastRun.snoc {C : BoxContext} {st : Style} {l : List InlineLevelBox} {b : InlineLevelBox}
    (h : ∀ s t f, b ≠ .textRun s t f) : LastRun C st false (l ++ [b]) := by
  refine ⟨?_, by simp⟩
  intro s t f hl
  simp at hl
  exact absurd hl (h s t f)

/-- the visible characters -/
abbrev seen (t : Text) : Text := t.filter fun c => !htmlSpace c

theorem seen_squeeze (t : Text) (g : Bool) : seen (squeeze g t) = seen t := by
  have h := squeeze_visible t g
  unfold visible at h
  exact List.map_injective_iff.2 (fun a b h => by injection h) h

theorem addRun_ink {C : BoxContext} {lst st : Style} {op : Bool} {t : Text}
    {l : List InlineLevelBox} (hl : LastRun C lst op l)
    (hu : st = lst ∨ op = true ∧ seen t = []) :
    inlineInk (addRun C st t l) =
      inlineInk l ++ (seen t).map (fun c => (st, C.fontOf st, c)) ∧
    LastRun C lst (op || !(seen t).isEmpty) (addRun C st t l) := by
  unfold addRun
  split
  · rename_i h
    subst h
    simpa using hl
  · rename_i hne
    rcases appendText_cases C st t l with ⟨s, old, f, pre, rfl, h⟩ | ⟨hno, h⟩
    · rw [h]
      obtain ⟨rfl, rfl⟩ := hl.1 s old f (by simp)
      refine ⟨?_, ?_, fun _ => ⟨s, old ++ t, C.fontOf s, by simp⟩⟩
      · rcases hu with rfl | ⟨_, hu⟩
        · simp [inlineInk_append, inlineInk, InlineLevelBox.ink]
        · simp only [seen] at hu
          simp [inlineInk_append, inlineInk, InlineLevelBox.ink, hu]
      · intro s' t' f' h'
        simp at h'
        exact ⟨h'.1.symm, h'.2.2.symm⟩
    · rw [h]
      have hst : st = lst := by
        rcases hu with hu | ⟨ho, _⟩
        · exact hu
        · obtain ⟨s, t, f, hx⟩ := hl.2 ho
          exact absurd hx (hno s t f)
      subst hst
      refine ⟨?_, ?_, fun _ => ⟨st, t, C.fontOf st, by simp⟩⟩
      · simp [inlineInk_append, inlineInk, InlineLevelBox.ink]
      · intro s' t' f' h'
        simp at h'
        exact ⟨h'.1.symm, h'.2.2.symm⟩

theorem textInto_ink {C : BoxContext} {lst st : Style} {op : Bool} {t : Text}
    {l : List InlineLevelBox} (hl : LastRun C lst op l)
    (hu : st = lst ∨ op = true ∧ seen t = []) :
    inlineInk (textInto C st t l) =
      inlineInk l ++ (seen t).map (fun c => (st, C.fontOf st, c)) ∧
    LastRun C lst (op || !(seen t).isEmpty) (textInto C st t l) := by
  obtain ⟨b, hb⟩ := textInto_any C st t l
  rw [hb]
  have : seen (if st.keepsSpace then t else squeeze b t) = seen t := by
    split
    · rfl
    · exact seen_squeeze t b
  rw [← this] at hu ⊢
  exact addRun_ink hl hu

/-- entries keep the order and style of characters -/
structure InkStep (C : BoxContext) (lst : Style) (inl : Bool) (f g : Flow) (op : Bool)
    (new : List (Style × Font × Char)) : Prop where
  ink : g.ink = f.ink ++ new
  last : LastRun C lst op g.inl
  blocks : inl = true → g.blocks = f.blocks

mutual

theorem Styled.put_ink (C : BoxContext) (cst lst : Style) (inl op : Bool) : ∀ (c : Styled) (f : Flow),
    c.good inl = true → c.uniform lst op = true → LastRun C lst op f.inl →
    InkStep C lst inl f (c.put C cst inl f) (c.afterText op) (c.ink C.fontOf)
  | .other, f, _, _, h => ⟨by simp [Styled.put, Styled.ink], h, fun _ => rfl⟩
  | .hidden id, f, _, _, h => ⟨by simp [Styled.put, Styled.ink, Flow.ink, Flow.note, Flow.claim], h,
      fun _ => rfl⟩
  | .text st t, f, _, hu, h => by
    have hu' : st = lst ∨ op = true ∧ seen t = [] := by
      simp only [Styled.uniform, Bool.or_eq_true, Bool.and_eq_true, decide_eq_true_eq,
        List.all_eq_true] at hu
      rcases hu with hu | ⟨h1, h2⟩
      · exact .inl hu
      · exact .inr ⟨h1, List.filter_eq_nil_iff.2 (by simpa using h2)⟩
    obtain ⟨h1, h2⟩ := textInto_ink h hu'
    refine ⟨?_, ?_, fun _ => rfl⟩
    · simp [Styled.put, Styled.ink, Flow.ink, h1]
    · have hop : (op || !(seen t).isEmpty) = (Styled.text st t).afterText op := by
        have : (!(seen t).isEmpty) = t.any fun c => !htmlSpace c := by
          rw [Bool.eq_iff_iff]
          simp [seen, List.filter_eq_nil_iff]
        rw [this, Styled.afterText]
      rw [hop] at h2
      exact h2
  | .contents id ks, f, hg, hu, h => by
    simp only [Styled.good, Bool.and_eq_true] at hg
    have r := putAll_ink C cst lst inl op ks ((f.note id ⟨some .displayContents, false⟩).claim id)
      hg.2 hu h
    exact ⟨r.ink, r.last, r.blocks⟩
  | .elem id st .inline .flowRoot ks, f, hg, _, _ => by simp [Styled.good] at hg
  | .elem id st .inline .flow ks, f, hg, hu, h => by
    simp only [Styled.good, Bool.and_eq_true] at hg
    obtain ⟨h1, _, h2⟩ := putAll_ink C cst st true false ks
      ((({ f with inl := [] } : Flow).note id ⟨none, true⟩).claim id) hg.2 hu LastRun.nil
    have h2 := h2 rfl
    simp only [Styled.put]
    generalize putAll C cst true ks
      ((({ f with inl := [] } : Flow).note id ⟨none, true⟩).claim id) = r at h1 h2
    simp only [Flow.note, Flow.claim, Flow.ink, h2, inlineInk, List.append_nil,
      List.append_cancel_left_eq] at h1 h2 ⊢
    refine ⟨?_, LastRun.snoc (by simp), fun _ => rfl⟩
    simp [Flow.ink, inlineInk_append, inlineInk, InlineLevelBox.ink, Styled.ink, h1]
  | .elem id st .block ins ks, f, hg, hu, h => by
    simp only [Styled.good, Bool.and_eq_true] at hg
    obtain ⟨hg1, hg2, hg3⟩ := hg
    have hr : ((putAll C st false ks Flow.empty).container st).1.ink = inkOf C.fontOf ks := by
      rw [Flow.container_ink, (putAll_ink C st st false false ks Flow.empty hg3 hu LastRun.nil).ink]
      rfl
    have h0 : ((f.note id ⟨none, true⟩).claim id).ink = f.ink := rfl
    have hn : ∀ {g : Flow}, g.inl = [] → LastRun C lst false g.inl := by
      intro g hg; rw [hg]; exact LastRun.nil
    simp only [Styled.put]
    split
    · split
      · refine ⟨?_, LastRun.snoc (by simp), fun _ => rfl⟩
        simp [Flow.ink, Flow.note, Flow.absorb, Flow.push, Flow.claim, inlineInk_append,
          inlineInk, InlineLevelBox.ink, Bfc.ink, hr, Styled.ink]
      · rename_i hi
        obtain ⟨i1, i2⟩ := isEmpty_false_of_or hi
        refine ⟨?_, hn i2, fun h => by rw [i1] at h; simp at h⟩
        rw [Flow.pushBlk_ink i2, h0]
        simp [BlockLevelBox.ink, Bfc.ink, hr, Styled.ink]
    · rename_i habs
      split
      · split
        · refine ⟨?_, LastRun.snoc (by simp), fun _ => rfl⟩
          simp [Flow.ink, Flow.note, Flow.absorb, Flow.push, Flow.claim, inlineInk_append,
            inlineInk, InlineLevelBox.ink, Bfc.ink, hr, Styled.ink]
        · rename_i hi
          obtain ⟨i1, i2⟩ := isEmpty_false_of_or hi
          refine ⟨?_, hn i2, fun h => by rw [i1] at h; simp at h⟩
          rw [Flow.pushBlk_ink (f := { (f.note id ⟨none, true⟩).claim id with floats := true }) i2]
          rw [show Flow.ink { (f.note id ⟨none, true⟩).claim id with floats := true } = f.ink
            from rfl]
          simp [BlockLevelBox.ink, Bfc.ink, hr, Styled.ink]
      · rename_i hflo
        have hinl : inl = false := by
          simpa [Style.outOfFlow, habs, hflo] using hg1
        split <;>
        · refine ⟨?_, hn (Flow.flush_inl _ _), fun h => by rw [hinl] at h; simp at h⟩
          rw [Flow.pushBlk_ink (Flow.flush_inl _ _), Flow.flush_ink, h0]
          simp [BlockLevelBox.ink, Bfc.ink, hr, Styled.ink]

theorem putAll_ink (C : BoxContext) (cst lst : Style) (inl op : Bool) : ∀ (cs : List Styled)
    (f : Flow), goodAll inl cs = true → uniformAll lst op cs = true → LastRun C lst op f.inl →
    InkStep C lst inl f (putAll C cst inl cs f) (afterTextAll op cs) (inkOf C.fontOf cs)
  | [], f, _, _, h => ⟨by simp [putAll, inkOf], h, fun _ => rfl⟩
  | c :: cs, f, hg, hu, h => by
    simp only [goodAll, uniformAll, Bool.and_eq_true] at hg hu
    have a := Styled.put_ink C cst lst inl op c f hg.1 hu.1 h
    have b := putAll_ink C cst lst inl (c.afterText op) cs _ hg.2 hu.2 a.last
    refine ⟨?_, b.last, fun h => ?_⟩
    · rw [putAll, b.ink, a.ink, inkOf, List.append_assoc]
    · rw [putAll, b.blocks h, a.blocks h]

end

theorem containerOf_ink (C : BoxContext) (st : Style) {cs : List Styled}
    (hg : goodContent cs = true) (hu : uniformAll st false cs = true) :
    (containerOf C st cs).1.ink = inkOf C.fontOf cs := by
  simp only [goodContent, Bool.and_eq_true] at hg
  unfold containerOf
  rw [Flow.container_ink, (putAll_ink C st st false false cs Flow.empty hg.2 hu LastRun.nil).ink]
  rfl

end Sinab
