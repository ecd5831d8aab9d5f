import Verif.Lemmas.ReadWords

/-! The text of the box tree of a document. -/

namespace Sinab

/-! ## Units of collapsed text -/

theorem unitsFrom_squeeze (x t : Text) : ∀ (g : Bool) (cur : Text), (g = true → cur = []) →
    unitsFrom cur (squeeze g t ++ x) = unitsFrom cur (t ++ x) := by
  induction t with
  | nil => intro g cur h; rfl
  | cons c t ih =>
    intro g cur h
    have hsp : htmlSpace ' ' = true := by decide
    by_cases hc : htmlSpace c = true
    · cases g with
      | true =>
        simp only [squeeze, hc, if_true, List.cons_append, unitsFrom, h rfl]
        exact ih true [] fun _ => rfl
      | false =>
        rw [squeeze_ws hc]
        simp only [List.cons_append, unitsFrom, hc, hsp, if_true]
        rw [ih true [] fun _ => rfl]
    · simp only [Bool.not_eq_true] at hc
      rw [squeeze_nonWs hc]
      simp only [List.cons_append, unitsFrom, hc, Bool.false_eq_true, if_false]
      split
      · rw [ih false [] (by simp)]
      · exact ih false _ (by simp)

theorem atGap_breaksBehind {t : Text} (h : atGap t = true) : breaksBehind t := by
  by_cases ht : t = []
  · exact .inl ht
  · have hl : t.getLast? = some (t.getLast ht) := List.getLast?_eq_some_getLast ht
    simp only [atGap, hl, Bool.or_eq_true, decide_eq_true_eq] at h
    refine .inr ⟨t.dropLast, t.getLast ht, (List.dropLast_append_getLast ht).symm, .inl ?_⟩
    rcases h with h | h <;> rw [h] <;> decide

theorem units_contribution (acc t x : Text) :
    units (acc ++ squeeze (atGap acc) t ++ x) = units (acc ++ t ++ x) := by
  rw [List.append_assoc, List.append_assoc]
  by_cases hg : atGap acc = true
  · rw [hg, units_behind (atGap_breaksBehind hg), units_behind (atGap_breaksBehind hg)]
    unfold units
    rw [unitsFrom_squeeze _ _ true [] fun _ => rfl]
  · obtain ⟨d, cur', h1, _⟩ := unitsFrom_append acc []
    unfold units
    rw [h1, h1, unitsFrom_squeeze]
    intro h; exact absurd h hg

theorem units_joined (ps : List (Bool × Text)) : ∀ (acc x : Text),
    units (joined acc ps ++ x) = units (acc ++ (ps.map (·.2)).flatten ++ x) := by
  induction ps with
  | nil => intro acc x; simp [joined]
  | cons p ps ih =>
    intro acc x
    obtain ⟨keep, t⟩ := p
    simp only [joined, List.map_cons, List.flatten_cons]
    rw [ih]
    cases keep with
    | true => simp
    | false =>
      simp only [Bool.false_eq_true, if_false, List.append_assoc]
      rw [← List.append_assoc, units_contribution]
      simp

/-! ## Content in the flow -/

theorem blockFlowOnly_append (a b : List BlockLevelBox) :
    blockFlowOnly (a ++ b) = (blockFlowOnly a && blockFlowOnly b) := by
  induction a with
  | nil => simp [blockFlowOnly]
  | cons x a ih => simp [blockFlowOnly, ih, Bool.and_assoc]

theorem inlineFlowOnly_append (a b : List InlineLevelBox) :
    inlineFlowOnly (a ++ b) = (inlineFlowOnly a && inlineFlowOnly b) := by
  induction a with
  | nil => simp [inlineFlowOnly]
  | cons x a ih => simp [inlineFlowOnly, ih, Bool.and_assoc]

/-- the boxes of a builder are in the flow -/
def Flow.flowOnly (f : Flow) : Bool := blockFlowOnly (f.blocks.map (·.box)) && inlineFlowOnly f.inl

theorem Flow.flush_flowOnly (cst : Style) (f : Flow) : (f.flush cst).flowOnly = f.flowOnly := by
  unfold Flow.flush
  split
  · rfl
  · simp [Flow.flowOnly, blockFlowOnly_append, blockFlowOnly, Flow.anon, BlockLevelBox.flowOnly,
      BlockContainer.flowOnly, inlineFlowOnly]

theorem Flow.container_flowOnly (cst : Style) (f : Flow) :
    (f.container cst).1.flowOnly = f.flowOnly := by
  unfold Flow.container
  split
  · rename_i h
    simp only [Bool.and_eq_true, List.isEmpty_iff] at h
    simp [BlockContainer.flowOnly, Flow.flowOnly, h.2, blockFlowOnly]
  · rw [← Flow.flush_flowOnly cst f]
    simp [BlockContainer.flowOnly, Flow.flowOnly, Flow.flush_inl, inlineFlowOnly]

theorem addRun_flowOnly (C : BoxContext) (st : Style) (t : Text) (l : List InlineLevelBox) :
    inlineFlowOnly (addRun C st t l) = inlineFlowOnly l := by
  unfold addRun
  split
  · rfl
  · rcases appendText_cases C st t l with ⟨s, old, f, pre, rfl, h⟩ | ⟨_, h⟩ <;>
      rw [h] <;> simp [inlineFlowOnly_append, inlineFlowOnly, InlineLevelBox.flowOnly]

theorem textInto_flowOnly (C : BoxContext) (st : Style) (t : Text) (l : List InlineLevelBox) :
    inlineFlowOnly (textInto C st t l) = inlineFlowOnly l := by
  obtain ⟨b, hb⟩ := textInto_any C st t l
  rw [hb, addRun_flowOnly]

mutual

theorem Styled.put_flowOnly (C : BoxContext) (cst : Style) (inl : Bool) : ∀ (c : Styled) (f : Flow),
    c.inflow = true → f.flowOnly = true → (c.put C cst inl f).flowOnly = true
  | .other, f, _, h => h
  | .hidden id, f, _, h => h
  | .text st t, f, _, h => by simpa [Styled.put, Flow.flowOnly, textInto_flowOnly] using h
  | .contents id ks, f, hi, h => putAll_flowOnly C cst inl ks _ hi h
  | .elem id st .inline ins ks, f, hi, h => by
    simp only [Flow.flowOnly, Bool.and_eq_true] at h
    have h1 := putAll_flowOnly C cst true ks
      ((({ f with inl := [] } : Flow).note id ⟨none, true⟩).claim id) hi
      (by simp [Flow.flowOnly, Flow.note, Flow.claim, h.1, inlineFlowOnly])
    simp only [Flow.flowOnly, Bool.and_eq_true] at h1
    simp [Styled.put, Flow.note, Flow.flowOnly, inlineFlowOnly_append, inlineFlowOnly,
      InlineLevelBox.flowOnly, h.2]
    exact h1
  | .elem id st .block ins ks, f, hi, h => by
    simp only [Styled.inflow, Bool.and_eq_true, Bool.not_eq_true', Style.outOfFlow,
      Bool.or_eq_false_iff] at hi
    have hr : ((putAll C st false ks Flow.empty).container st).1.flowOnly = true := by
      rw [Flow.container_flowOnly]
      exact putAll_flowOnly C st false ks Flow.empty hi.2 rfl
    have hf : (((f.note id ⟨none, true⟩).claim id).flush cst).flowOnly = true := by
      rw [Flow.flush_flowOnly]; exact h
    simp only [Flow.flowOnly, Bool.and_eq_true] at hf
    simp only [Styled.put]
    rw [if_neg (by simp [hi.1.1]), if_neg (by simp [hi.1.2])]
    split <;>
      simp [Flow.flowOnly, Flow.pushBlk, blockFlowOnly_append, blockFlowOnly, BlockLevelBox.flowOnly,
        Bfc.flowOnly, hr, hf]

theorem putAll_flowOnly (C : BoxContext) (cst : Style) (inl : Bool) : ∀ (cs : List Styled)
    (f : Flow), inflowAll cs = true → f.flowOnly = true → (putAll C cst inl cs f).flowOnly = true
  | [], f, _, h => h
  | c :: cs, f, hi, h => by
    simp only [inflowAll, Bool.and_eq_true] at hi
    exact putAll_flowOnly C cst inl cs _ hi.2 (Styled.put_flowOnly C cst inl c f hi.1 h)

end

/-! ## Content without floats -/

theorem blockFloatless_append (a b : List BlockLevelBox) :
    blockFloatless (a ++ b) = (blockFloatless a && blockFloatless b) := by
  induction a with
  | nil => simp [blockFloatless]
  | cons x a ih => simp [blockFloatless, ih, Bool.and_assoc]

theorem inlineFloatless_append (a b : List InlineLevelBox) :
    inlineFloatless (a ++ b) = (inlineFloatless a && inlineFloatless b) := by
  induction a with
  | nil => simp [inlineFloatless]
  | cons x a ih => simp [inlineFloatless, ih, Bool.and_assoc]

/-- the boxes of a builder do not float -/
def Flow.floatless (f : Flow) : Bool :=
  blockFloatless (f.blocks.map (·.box)) && inlineFloatless f.inl

theorem Flow.flush_floatless (cst : Style) (f : Flow) : (f.flush cst).floatless = f.floatless := by
  unfold Flow.flush
  split
  · rfl
  · simp [Flow.floatless, blockFloatless_append, blockFloatless, Flow.anon, BlockLevelBox.floatless,
      BlockContainer.floatless, inlineFloatless]

theorem Flow.container_floatless (cst : Style) (f : Flow) :
    (f.container cst).1.floatless = f.floatless := by
  unfold Flow.container
  split
  · rename_i h
    simp only [Bool.and_eq_true, List.isEmpty_iff] at h
    simp [BlockContainer.floatless, Flow.floatless, h.2, blockFloatless]
  · rw [← Flow.flush_floatless cst f]
    simp [BlockContainer.floatless, Flow.floatless, Flow.flush_inl, inlineFloatless]

theorem textInto_floatless (C : BoxContext) (st : Style) (t : Text) (l : List InlineLevelBox) :
    inlineFloatless (textInto C st t l) = inlineFloatless l := by
  obtain ⟨b, hb⟩ := textInto_any C st t l
  rw [hb]
  generalize (if st.keepsSpace then t else squeeze b t) = t'
  unfold addRun
  split
  · rfl
  · rcases appendText_cases C st t' l with ⟨s, old, f, pre, rfl, h⟩ | ⟨_, h⟩ <;>
      rw [h] <;> simp [inlineFloatless_append, inlineFloatless, InlineLevelBox.floatless]

mutual

theorem Styled.put_floatless (C : BoxContext) (cst : Style) (inl : Bool) : ∀ (c : Styled) (f : Flow),
    c.unfloating = true → f.floatless = true → (c.put C cst inl f).floatless = true
  | .other, f, _, h => h
  | .hidden id, f, _, h => h
  | .text st t, f, _, h => by simpa [Styled.put, Flow.floatless, textInto_floatless] using h
  | .contents id ks, f, hi, h => putAll_floatless C cst inl ks _ hi h
  | .elem id st .inline ins ks, f, hi, h => by
    simp only [Flow.floatless, Bool.and_eq_true] at h
    have h1 := putAll_floatless C cst true ks
      ((({ f with inl := [] } : Flow).note id ⟨none, true⟩).claim id) hi
      (by simp [Flow.floatless, Flow.note, Flow.claim, h.1, inlineFloatless])
    simp only [Flow.floatless, Bool.and_eq_true] at h1
    simp [Styled.put, Flow.note, Flow.floatless, inlineFloatless_append, inlineFloatless,
      InlineLevelBox.floatless, h.2]
    exact h1
  | .elem id st .block ins ks, f, hi, h => by
    simp only [Styled.unfloating, Bool.and_eq_true, Bool.or_eq_true, Bool.not_eq_true'] at hi
    have hr : ((putAll C st false ks Flow.empty).container st).1.floatless = true := by
      rw [Flow.container_floatless]
      exact putAll_floatless C st false ks Flow.empty hi.2 rfl
    have hf : (((f.note id ⟨none, true⟩).claim id).flush cst).floatless = true := by
      rw [Flow.flush_floatless]; exact h
    simp only [Flow.floatless, Bool.and_eq_true] at hf h
    simp only [Styled.put]
    split
    · split <;>
        simp [Flow.floatless, Flow.pushBlk, Flow.push, Flow.absorb, Flow.note, Flow.claim,
          blockFloatless_append, blockFloatless, BlockLevelBox.floatless, inlineFloatless_append,
          inlineFloatless, InlineLevelBox.floatless, Bfc.floatless, hr, h]
    · rename_i ha
      have hfl : (st.val .float).isFloating = false := hi.1.resolve_left ha
      rw [if_neg (by simp [hfl])]
      split <;>
        simp [Flow.floatless, Flow.pushBlk, blockFloatless_append, blockFloatless,
          BlockLevelBox.floatless, Bfc.floatless, hr, hf]

theorem putAll_floatless (C : BoxContext) (cst : Style) (inl : Bool) : ∀ (cs : List Styled)
    (f : Flow), unfloatingAll cs = true → f.floatless = true →
    (putAll C cst inl cs f).floatless = true
  | [], f, _, h => h
  | c :: cs, f, hi, h => by
    simp only [unfloatingAll, Bool.and_eq_true] at hi
    exact putAll_floatless C cst inl cs _ hi.2 (Styled.put_floatless C cst inl c f hi.1 h)

end

/-! ## Words of a document -/

theorem blockIfcs_append (a b : List BlockLevelBox) : blockIfcs (a ++ b) = blockIfcs a ++ blockIfcs b := by
  induction a with
  | nil => rfl
  | cons x a ih => simp [blockIfcs, ih]

/-- units of pieces of inline content -/
def ifcUnits (l : List (List InlineLevelBox)) : List Text := l.flatMap fun bs => units (inlineText bs)

theorem ifcUnits_append (a b : List (List InlineLevelBox)) :
    ifcUnits (a ++ b) = ifcUnits a ++ ifcUnits b := List.flatMap_append ..

/-- units of a builder if the inline content is continued by `t` -/
def Flow.reads (f : Flow) (t : Text) : List Text :=
  ifcUnits (blockIfcs (f.blocks.map (·.box))) ++ units (inlineText f.inl ++ t)

theorem Flow.flush_reads (cst : Style) (f : Flow) (hf : inlineFlowOnly f.inl = true) :
    (f.flush cst).reads [] = f.reads [] := by
  unfold Flow.flush
  split
  · rfl
  · simp [Flow.reads, blockIfcs_append, blockIfcs, Flow.anon, BlockLevelBox.ifcs, BlockContainer.ifcs,
      (inlineFlow_ink f.inl hf).2, ifcUnits, inlineText, units, unitsFrom]

theorem Flow.container_reads (cst : Style) (f : Flow) (hf : inlineFlowOnly f.inl = true) :
    ifcUnits (f.container cst).1.ifcs = f.reads [] := by
  unfold Flow.container
  split
  · rename_i h
    simp only [Bool.and_eq_true, List.isEmpty_iff] at h
    simp [BlockContainer.ifcs, Flow.reads, h.2, blockIfcs, (inlineFlow_ink f.inl hf).2, ifcUnits]
  · rw [← Flow.flush_reads cst f hf]
    simp [BlockContainer.ifcs, Flow.reads, Flow.flush_inl, inlineText, units, unitsFrom]

mutual

theorem Styled.put_blocks (C : BoxContext) (cst : Style) (inl : Bool) : ∀ (c : Styled) (f : Flow),
    c.inlineOnly = true → c.inflow = true → (c.put C cst inl f).blocks = f.blocks
  | .other, f, _, _ | .hidden id, f, _, _ | .text st t, f, _, _ => rfl
  | .contents id ks, f, hi, h => putAll_blocks C cst inl ks _ hi h
  | .elem id st .inline ins ks, f, hi, h =>
    putAll_blocks C cst true ks ((({ f with inl := [] } : Flow).note id ⟨none, true⟩).claim id) hi h
  | .elem id st .block ins ks, f, hi, h => by
    simp only [Styled.inlineOnly, Styled.inflow, Bool.and_eq_true, Bool.not_eq_true'] at hi h
    rw [h.1] at hi; cases hi

theorem putAll_blocks (C : BoxContext) (cst : Style) (inl : Bool) : ∀ (cs : List Styled) (f : Flow),
    inlineOnlyAll cs = true → inflowAll cs = true → (putAll C cst inl cs f).blocks = f.blocks
  | [], f, _, _ => rfl
  | c :: cs, f, hi, h => by
    simp only [inlineOnlyAll, inflowAll, Bool.and_eq_true] at hi h
    rw [putAll, putAll_blocks C cst inl cs _ hi.2 h.2, Styled.put_blocks C cst inl c f hi.1 h.1]

end

mutual

/-- the pieces of inline content are its text -/
theorem Styled.pieces_plain : ∀ c : Styled, c.inlineOnly = true → c.inflow = true →
    (c.pieces.map (·.2)).flatten = c.plain
  | .other, _, _ | .hidden _, _, _ => rfl
  | .text st t, _, _ => by simp [Styled.pieces, Styled.plain]
  | .contents _ ks, hi, h => piecesOf_plain ks hi h
  | .elem _ _ .inline _ ks, hi, h => piecesOf_plain ks hi h
  | .elem _ st .block _ ks, hi, h => by
    simp only [Styled.inlineOnly, Styled.inflow, Bool.and_eq_true, Bool.not_eq_true'] at hi h
    rw [h.1] at hi; cases hi

theorem piecesOf_plain : ∀ cs : List Styled, inlineOnlyAll cs = true → inflowAll cs = true →
    ((piecesOf cs).map (·.2)).flatten = plainText cs
  | [], _, _ => rfl
  | c :: cs, hi, h => by
    simp only [inlineOnlyAll, inflowAll, Bool.and_eq_true] at hi h
    rw [piecesOf, List.map_append, List.flatten_append, Styled.pieces_plain c hi.1 h.1,
      piecesOf_plain cs hi.2 h.2, plainText]

end

mutual

/-- good content in the flow has no blocks in inline elements -/
theorem Styled.good_inlineOnly : ∀ c : Styled, c.good true = true → c.inflow = true →
    c.inlineOnly = true
  | .other, _, _ | .hidden _, _, _ | .text _ _, _, _ => rfl
  | .contents _ ks, hg, h => by
    simp only [Styled.good, Bool.and_eq_true] at hg
    exact goodAll_inlineOnly ks hg.2 h
  | .elem _ _ .inline .flow ks, hg, h => by
    simp only [Styled.good, Bool.and_eq_true] at hg
    exact goodAll_inlineOnly ks hg.2 h
  | .elem _ _ .inline .flowRoot ks, hg, h => by simp [Styled.good] at hg
  | .elem _ st .block _ ks, hg, h => by
    simp only [Styled.good, Bool.and_eq_true, Bool.not_true, Bool.false_or] at hg
    exact hg.1

theorem goodAll_inlineOnly : ∀ cs : List Styled, goodAll true cs = true → inflowAll cs = true →
    inlineOnlyAll cs = true
  | [], _, _ => rfl
  | c :: cs, hg, h => by
    simp only [goodAll, inflowAll, inlineOnlyAll, Bool.and_eq_true] at hg h ⊢
    exact ⟨Styled.good_inlineOnly c hg.1 h.1, goodAll_inlineOnly cs hg.2 h.2⟩

end

/-- what a builder knows is the text `q`, the last paragraph is `acc` -/
structure Flow.Holds (f : Flow) (acc q : Text) : Prop where
  filled : filledAll f.inl = true
  text : inlineText f.inl = acc
  reads : ∀ t, f.reads t = units (q ++ t)
  flow : f.flowOnly = true

mutual

theorem Styled.put_holds (C : BoxContext) (cst : Style) (inl : Bool) : ∀ (c : Styled) (f : Flow)
    (acc q : Text), c.good inl = true → c.inflow = true → c.neat acc = true → f.Holds acc q →
    (c.put C cst inl f).Holds (c.para acc) (q ++ c.plain)
  | .other, f, acc, q, _, _, _, h => by simpa [Styled.put, Styled.para, Styled.plain] using h
  | .hidden id, f, acc, q, _, _, _, h => by
    rw [Styled.plain, List.append_nil]
    exact ⟨h.filled, h.text, h.reads, h.flow⟩
  | .text st t, f, acc, q, _, _, _, h => by
    refine ⟨textInto_filled C st t h.filled, ?_, fun x => ?_, ?_⟩
    · simp only [Styled.put]
      rw [textInto_text C st t h.filled, h.text]
      rfl
    · simp only [Styled.put, Flow.reads, Styled.plain]
      rw [textInto_text C st t h.filled, h.text]
      have h0 := h.reads (t ++ x)
      simp only [Flow.reads, h.text] at h0
      rw [List.append_assoc q, ← h0]
      congr 1
      unfold contribution
      split
      · simp
      · rw [units_contribution]; simp
    · exact Styled.put_flowOnly C cst inl _ f rfl h.flow
  | .contents id ks, f, acc, q, hg, hi, hc, h => by
    simp only [Styled.good, Bool.and_eq_true] at hg
    exact putAll_holds C cst inl ks _ acc q hg.2 hi hc ⟨h.filled, h.text, h.reads, h.flow⟩
  | .elem id st .inline .flowRoot ks, f, acc, q, hg, hi, hc, h => by simp [Styled.good] at hg
  | .elem id st .inline .flow ks, f, acc, q, hg, hi, hc, h => by
    simp only [Styled.good, Bool.and_eq_true] at hg
    have ho := goodAll_inlineOnly ks hg.2 hi
    have h1 := Styled.put_text C cst inl (.elem id st .inline .flow ks) f h.filled ho
    have h2 := Styled.put_blocks C cst inl (.elem id st .inline .flow ks) f ho hi
    have h3 : (Styled.elem id st .inline .flow ks).shown acc = joined acc (piecesOf ks) :=
      Styled.shown_calm (.elem id st .inline .flow ks) acc ho hc
    rw [h.text, h3] at h1
    refine ⟨h1.1, h1.2, fun x => ?_, Styled.put_flowOnly C cst inl _ f hi h.flow⟩
    have h0 := h.reads (plainText ks ++ x)
    simp only [Flow.reads, h.text] at h0
    simp only [Flow.reads, h2, h1.2]
    rw [units_joined, piecesOf_plain ks ho hi, Styled.plain, List.append_assoc q, ← h0]
    simp
  | .elem id st .block ins ks, f, acc, q, hg, hi, hc, h => by
    have hflow := Styled.put_flowOnly C cst inl (.elem id st .block ins ks) f hi h.flow
    simp only [Styled.inflow, Bool.and_eq_true, Bool.not_eq_true', Style.outOfFlow,
      Bool.or_eq_false_iff] at hi
    simp only [Styled.good, Bool.and_eq_true] at hg
    have hk := putAll_holds C st false ks Flow.empty [] [] hg.2.2 hi.2 hc
      ⟨rfl, rfl, fun t => rfl, rfl⟩
    have hkf := hk.flow
    simp only [Flow.flowOnly, Bool.and_eq_true] at hkf
    have hr : ifcUnits ((putAll C st false ks Flow.empty).container st).1.ifcs =
        units (plainText ks) := by
      rw [Flow.container_reads _ _ hkf.2, hk.reads]; simp
    have hfi := h.flow
    simp only [Flow.flowOnly, Bool.and_eq_true] at hfi
    have hfl : (((f.note id ⟨none, true⟩).claim id).flush cst).reads [] = units q := by
      rw [Flow.flush_reads]
      · have := h.reads []
        rw [List.append_nil] at this
        exact this
      · exact hfi.2
    have hinl := Flow.flush_inl ((f.note id ⟨none, true⟩).claim id) cst
    simp only [Styled.put] at hflow ⊢
    rw [if_neg (by simp [hi.1.1]), if_neg (by simp [hi.1.2])] at hflow ⊢
    have fin : ∀ (b : Blk), ifcUnits b.box.ifcs = units (plainText ks) →
        (∀ t, Flow.reads ((((f.note id ⟨none, true⟩).claim id).flush cst).pushBlk b) t =
          units (q ++ (Styled.elem id st .block ins ks).plain ++ t)) := by
      intro b hb t
      have hw : htmlSpace '\n' = true := by decide
      simp only [Flow.reads, Flow.pushBlk, List.map_append, List.map_cons, List.map_nil,
        blockIfcs_append, blockIfcs, List.append_nil, ifcUnits_append, hb, hinl, inlineText,
        List.nil_append, Styled.plain] at hfl ⊢
      have e : units [] = [] := rfl
      rw [e, List.append_nil] at hfl
      rw [hfl]
      have e2 : q ++ ('\n' :: plainText ks ++ ['\n']) ++ t =
          q ++ ('\n' :: (plainText ks ++ ('\n' :: t))) := by simp
      rw [e2, units_before q ⟨_, _, rfl, hw⟩, units_ws hw, units_before _ ⟨_, _, rfl, hw⟩, units_ws hw,
        List.append_assoc]
    split at hflow
    · exact ⟨by simp only [Flow.pushBlk, hinl]; rfl, by simp only [Flow.pushBlk, hinl]; rfl,
        fin _ hr, hflow⟩
    · exact ⟨by simp only [Flow.pushBlk, hinl]; rfl, by simp only [Flow.pushBlk, hinl]; rfl,
        fin _ hr, hflow⟩

theorem putAll_holds (C : BoxContext) (cst : Style) (inl : Bool) : ∀ (cs : List Styled) (f : Flow)
    (acc q : Text), goodAll inl cs = true → inflowAll cs = true → neatAll acc cs = true →
    f.Holds acc q → (putAll C cst inl cs f).Holds (paraAll acc cs) (q ++ plainText cs)
  | [], f, acc, q, _, _, _, h => by simpa [putAll, paraAll, plainText] using h
  | c :: cs, f, acc, q, hg, hi, hc, h => by
    simp only [goodAll, inflowAll, neatAll, Bool.and_eq_true] at hg hi hc
    have h1 := Styled.put_holds C cst inl c f acc q hg.1 hi.1 hc.1 h
    have h2 := putAll_holds C cst inl cs _ _ _ hg.2 hi.2 hc.2 h1
    rw [List.append_assoc] at h2
    exact h2

end

theorem containerOf_units (C : BoxContext) (st : Style) {cs : List Styled}
    (hg : goodContent cs = true) (hi : inflowAll cs = true) (hc : neatAll [] cs = true) :
    ifcUnits (containerOf C st cs).1.ifcs = units (plainText cs) := by
  simp only [goodContent, Bool.and_eq_true] at hg
  have h := putAll_holds C st false cs Flow.empty [] [] hg.2 hi hc ⟨rfl, rfl, fun t => rfl, rfl⟩
  have hf := h.flow
  simp only [Flow.flowOnly, Bool.and_eq_true] at hf
  unfold containerOf
  rw [Flow.container_reads _ _ hf.2, h.reads]
  simp

theorem containerOf_flowOnly (C : BoxContext) (st : Style) {cs : List Styled}
    (hi : inflowAll cs = true) : (containerOf C st cs).1.flowOnly = true := by
  unfold containerOf
  rw [Flow.container_flowOnly]
  exact putAll_flowOnly C st false cs Flow.empty hi rfl

theorem containerOf_floatless (C : BoxContext) (st : Style) {cs : List Styled}
    (hi : unfloatingAll cs = true) : (containerOf C st cs).1.floatless = true := by
  unfold containerOf
  rw [Flow.container_floatless]
  exact putAll_floatless C st false cs Flow.empty hi rfl

end Sinab
