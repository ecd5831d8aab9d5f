import Verif.Lemmas.ReadInk
import Verif.Lemmas.ConstructBoxes
import Verif.Model.Render

/-! All characters on a page come from the document. -/

namespace Sinab

/-- the character is in one of the texts -/
def CharIn (c : Char) (l : List Inked) : Prop := ∃ p ∈ l, c ∈ p.2.2

theorem CharIn.append {c : Char} {a b : List Inked} :
    CharIn c (a ++ b) ↔ CharIn c a ∨ CharIn c b := by
  simp only [CharIn, List.mem_append]
  constructor
  · rintro ⟨p, hp | hp, hc⟩
    · exact .inl ⟨p, hp, hc⟩
    · exact .inr ⟨p, hp, hc⟩
  · rintro (⟨p, hp, hc⟩ | ⟨p, hp, hc⟩)
    · exact ⟨p, .inl hp, hc⟩
    · exact ⟨p, .inr hp, hc⟩

theorem charIn_nil {c : Char} : ¬ CharIn c [] := by simp [CharIn]

theorem wrapped_chars {W : Text → ℚ} {full avail : ℚ} {first : Bool} {t : Text}
    {lines : List BrokenLine} (h : Wrapped W full avail first t lines) {c : Char}
    (hc : c ∈ lines.flatMap (·.shown)) : c ∈ t := by
  induction h with
  | last h => simp at hc; simp [hc]
  | more h _ _ ih =>
    simp only [List.flatMap_cons, List.mem_append] at hc ⊢
    rcases hc with hc | hc
    · exact .inl (.inl hc)
    · exact .inr (ih hc)

theorem splitNewlines_chars {c : Char} (t : Text) (hc : c ∈ (splitNewlines t).flatten) : c ∈ t := by
  induction t with
  | nil => simp [splitNewlines] at hc
  | cons d t ih =>
    rw [splitNewlines] at hc
    split at hc
    · simp only [List.flatten_cons, List.nil_append] at hc
      exact List.mem_cons_of_mem _ (ih hc)
    · split at hc
      · rename_i h
        exact absurd h (splitNewlines_ne_nil t)
      · rename_i l ls h
        rw [h] at ih
        simp only [List.flatten_cons, List.cons_append, List.mem_cons] at hc ih ⊢
        rcases hc with hc | hc
        · exact .inl hc
        · exact .inr (ih hc)

theorem runPieces_chars {E : TextEnv} {st : Style} {font : Font} {full avail : ℚ} {t : Text}
    {pieces : List (Text × Bool)} (h : RunPieces E st font full avail t pieces) {c : Char}
    (hc : c ∈ pieces.flatMap (·.1)) : c ∈ t := by
  have hn : pieces = newlinePieces (splitNewlines t) → c ∈ t := by
    rintro rfl
    rw [List.flatMap_def, newlinePieces_fst] at hc
    exact splitNewlines_chars t hc
  have hw : (∃ lines, Wrapped (E.width font) full avail true t lines ∧
      pieces = lines.map fun l => (l.shown, l.newline)) → c ∈ t := by
    rintro ⟨lines, h1, rfl⟩
    rw [List.flatMap_map] at hc
    exact wrapped_chars h1 hc
  unfold RunPieces at h
  split at h
  · exact hn h
  · exact hn h
  · exact hw h

theorem pieces_chars (st : Style) (f : Font) {c : Char} (ps : List (Text × Bool))
    (h : CharIn c ((ps.map fun p => [Item.text st f p.1 p.2]).flatMap itemsInked)) :
    c ∈ ps.flatMap (·.1) := by
  induction ps with
  | nil => exact absurd h charIn_nil
  | cons p ps ih =>
    simp only [List.map_cons, List.flatMap_cons, CharIn.append, List.mem_append] at h ⊢
    rcases h with h | h
    · left
      simp only [itemsInked, Item.inked, List.append_nil] at h
      split at h
      · exact absurd h charIn_nil
      · obtain ⟨q, hq, hc⟩ := h
        rw [List.mem_singleton.1 hq] at hc
        exact hc
    · exact .inr (ih h)

/-- the characters on the lines are characters of the boxes -/
theorem laysOut_chars {E : TextEnv} {w x : ℚ} {bs : List InlineLevelBox} {L : List Line}
    (h : LaysOut E w x bs L) {c : Char} (hc : CharIn c (L.flatMap itemsInked)) :
    CharIn c (inlineInked bs) := by
  induction h with
  | nil => exact absurd hc (by simp [CharIn, itemsInked])
  | text h _ ih =>
    rw [joinLines_inked, CharIn.append] at hc
    rw [inlineInked, CharIn.append]
    rcases hc with hc | hc
    · exact .inl ⟨_, List.mem_singleton.2 rfl, runPieces_chars h (pieces_chars _ _ _ hc)⟩
    · exact .inr (ih hc)
  | box _ _ ih1 ih2 =>
    rw [joinLines_inked, decorate_inked, CharIn.append] at hc
    rw [inlineInked, CharIn.append]
    rcases hc with hc | hc
    · exact .inl (ih1 hc)
    · exact .inr (ih2 hc)
  | abs _ ih => exact ih hc
  | float _ ih => exact ih hc

/-- the characters on the page are characters of the boxes -/
theorem rootLayout_chars {E : TextEnv} {root : Bfc} {viewport : PVec2 Length} {fs : List Fragment}
    (hs : root.sound) (h : rootLayout E root viewport = .ok fs) {c : Char}
    (hc : CharIn c (inkedAll fs)) : ∃ i ∈ root.ifcs, CharIn c (inlineInked i) := by
  obtain ⟨_, J, a1, a2, a3, a4, _⟩ := rootLayout_covers hs h
  simp only [waiting, List.flatMap_nil, List.append_nil] at a4
  rw [a3, a2] at hc
  obtain ⟨p, hp, hc⟩ := hc
  obtain ⟨r, hr, hpr⟩ := List.mem_flatten.1 hp
  obtain ⟨j, hj, hrj⟩ := List.mem_flatMap.1 hr
  refine ⟨j.boxes, a4.subset (List.mem_map_of_mem hj), laysOut_chars (a1 j hj).1 ?_⟩
  rw [← Job.rows_flatten]
  exact ⟨p, List.mem_flatten.2 ⟨r, hrj, hpr⟩, hc⟩

/-! ## Characters of the boxes -/

section
variable {c : Char}

mutual

theorem InlineLevelBox.inks_marks (hv : htmlSpace c = false) : ∀ b : InlineLevelBox,
    CharIn c b.inks → .char c ∈ b.marks
  | .inlineBox st f l ks, h => by
    have := inlineInked_marks hv ks h
    simp [InlineLevelBox.marks, this]
  | .textRun st t f, h => by
    obtain ⟨q, hq, hc⟩ := h
    rw [List.mem_singleton.1 hq] at hc
    exact List.mem_map_of_mem (List.mem_filter.2 ⟨hc, by simp [hv]⟩)
  | .outOfFlowAbsolutelyPositionedBox _ _, h => absurd h charIn_nil
  | .outOfFlowFloatBox _ _, h => absurd h charIn_nil

theorem inlineInked_marks (hv : htmlSpace c = false) : ∀ bs : List InlineLevelBox,
    CharIn c (inlineInked bs) → .char c ∈ inlineMarks bs
  | [], h => absurd h charIn_nil
  | b :: bs, h => by
    rw [inlineInked, CharIn.append] at h
    rw [inlineMarks, List.mem_append]
    exact h.imp (b.inks_marks hv) (inlineInked_marks hv bs)

end

mutual

theorem BlockContainer.ifcs_marks (hv : htmlSpace c = false) : ∀ (b : BlockContainer) (i),
    i ∈ b.ifcs → CharIn c (inlineInked i) → .char c ∈ b.marks
  | .blockLevelBoxes bs, i, hi, h => blockIfcs_marks hv bs i hi h
  | .inlineFormattingContext st bs, i, hi, h => by
    rcases List.mem_cons.1 hi with rfl | hi
    · exact inlineInked_marks hv _ h
    · exact inlineIfcs_marks hv bs i hi h

theorem Bfc.ifcs_marks (hv : htmlSpace c = false) : ∀ (b : Bfc) (i),
    i ∈ b.ifcs → CharIn c (inlineInked i) → .char c ∈ b.marks
  | .mk k _, i, hi, h => k.ifcs_marks hv i hi h

theorem BlockLevelBox.ifcs_marks (hv : htmlSpace c = false) : ∀ (b : BlockLevelBox) (i),
    i ∈ b.ifcs → CharIn c (inlineInked i) → .char c ∈ b.marks
  | .sameFormattingContextBlock st k, i, hi, h => by
    have := k.ifcs_marks hv i hi h
    rw [BlockLevelBox.marks]
    split <;> simp [this]
  | .outOfFlowAbsolutelyPositionedBox st k, i, hi, h => by
    have := k.ifcs_marks hv i hi h
    simp [BlockLevelBox.marks, this]
  | .independent st k, i, hi, h => by
    have := k.ifcs_marks hv i hi h
    simp [BlockLevelBox.marks, this]
  | .outOfFlowFloatBox _ _, i, hi, _ => by simp [BlockLevelBox.ifcs] at hi

theorem blockIfcs_marks (hv : htmlSpace c = false) : ∀ (bs : List BlockLevelBox) (i),
    i ∈ blockIfcs bs → CharIn c (inlineInked i) → .char c ∈ blockMarks bs
  | [], i, hi, _ => by simp [blockIfcs] at hi
  | b :: bs, i, hi, h => by
    rw [blockIfcs, List.mem_append] at hi
    rw [blockMarks, List.mem_append]
    exact hi.imp (fun hi => b.ifcs_marks hv i hi h) (fun hi => blockIfcs_marks hv bs i hi h)

theorem InlineLevelBox.ifcs_marks (hv : htmlSpace c = false) : ∀ (b : InlineLevelBox) (i),
    i ∈ b.ifcs → CharIn c (inlineInked i) → .char c ∈ b.marks
  | .inlineBox st _ _ ks, i, hi, h => by
    have := inlineIfcs_marks hv ks i hi h
    simp [InlineLevelBox.marks, this]
  | .outOfFlowAbsolutelyPositionedBox st k, i, hi, h => by
    have := k.ifcs_marks hv i hi h
    simp [InlineLevelBox.marks, this]
  | .textRun .., i, hi, _ => by simp [InlineLevelBox.ifcs] at hi
  | .outOfFlowFloatBox _ _, i, hi, _ => by simp [InlineLevelBox.ifcs] at hi

theorem inlineIfcs_marks (hv : htmlSpace c = false) : ∀ (bs : List InlineLevelBox) (i),
    i ∈ inlineIfcs bs → CharIn c (inlineInked i) → .char c ∈ inlineMarks bs
  | [], i, hi, _ => by simp [inlineIfcs] at hi
  | b :: bs, i, hi, h => by
    rw [inlineIfcs, List.mem_append] at hi
    rw [inlineMarks, List.mem_append]
    exact hi.imp (fun hi => b.ifcs_marks hv i hi h) (fun hi => inlineIfcs_marks hv bs i hi h)

end

end

/-! ## Characters of the document -/

/-- the characters of styled content are characters of texts of the document -/
theorem Shows.chars {C : BoxContext} {kids} {st : Style} {l : List NodeId} {cs : List Styled}
    (h : Shows C kids st l cs) {c : Char} (hv : htmlSpace c = false) (hc : Mark.char c ∈ marksOf cs)
    (hw : C.doc.WF kids) (hl : ∀ i ∈ l, i < C.doc.len) :
    ∃ i t, i < C.doc.len ∧ (C.doc.node i).data = .text t ∧ c ∈ t := by
  have hk : ∀ i, ∀ j ∈ kids i, j < C.doc.len := fun i j hj => (hw.bound i j hj).2
  induction h with
  | nil => simp [marksOf] at hc
  | other _ _ ih | hidden _ _ _ _ _ ih =>
    simp only [marksOf, Styled.marks, List.nil_append] at hc
    exact ih hc fun i hi => hl i (List.mem_cons_of_mem _ hi)
  | @text _ i _ _ t hd _ ih =>
    simp only [marksOf, Styled.marks, List.mem_append] at hc
    rcases hc with hc | hc
    · simp only [visible, List.mem_map, Mark.char.injEq, exists_eq_right, List.mem_filter] at hc
      exact ⟨i, t, hl i (by simp), hd, hc.1⟩
    · exact ih hc fun i hi => hl i (List.mem_cons_of_mem _ hi)
  | br _ _ _ _ ih =>
    simp only [marksOf, Styled.marks, List.mem_append] at hc
    rcases hc with hc | hc
    · simp only [visible, List.mem_map, Mark.char.injEq, exists_eq_right, List.mem_filter,
        List.mem_singleton] at hc
      obtain ⟨rfl, h⟩ := hc
      exact absurd hv (by decide)
    · exact ih hc fun i hi => hl i (List.mem_cons_of_mem _ hi)
  | contents _ _ _ _ _ _ ih1 ih2 =>
    simp only [marksOf, Styled.marks, List.mem_append] at hc
    exact hc.elim (ih1 · (hk _)) (ih2 · fun i hi => hl i (List.mem_cons_of_mem _ hi))
  | elem _ _ _ _ _ _ ih1 ih2 =>
    simp only [marksOf, Styled.marks, List.mem_append, List.cons_append, List.mem_cons,
      reduceCtorEq, false_or, or_false, List.not_mem_nil] at hc
    exact hc.elim (ih1 · (hk _)) (ih2 · fun i hi => hl i (List.mem_cons_of_mem _ hi))

mutual

theorem Fragment.hasNul_inked : ∀ f : Fragment, f.hasNul = true → CharIn '\x00' f.inked
  | .text st r t, h => ⟨_, List.mem_singleton.2 rfl, by simpa [Fragment.hasNul] using h⟩
  | .box _ _ _ cs, h => hasNulAll_inked cs h
  | .anonymous _ cs _, h => hasNulAll_inked cs h

theorem hasNulAll_inked : ∀ fs : List Fragment, hasNulAll fs = true → CharIn '\x00' (inkedAll fs)
  | [], h => by simp [hasNulAll] at h
  | f :: fs, h => by
    rw [hasNulAll, Bool.or_eq_true] at h
    rw [inkedAll, CharIn.append]
    exact h.imp f.hasNul_inked (hasNulAll_inked fs)

end

end Sinab
