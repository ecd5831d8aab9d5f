import Verif.Lemmas.Read
import Verif.Lemmas.ConstructInk

/-! Layout loses no visible characters. -/

namespace Sinab

/-! ## Runs of text -/

/-- Every hyphen of the text is in a word that fits: the text has no hyphens, or no piece
without break opportunity is wider than a line. -/
def HyphensFit (W : Text → ℚ) (full : ℚ) (t : Text) : Prop :=
  '-' ∉ t ∨ ∀ a u b, t = a ++ u ++ b → Unbreakable u → W u ≤ full

theorem HyphensFit.suffix {W : Text → ℚ} {full : ℚ} {a b : Text} (h : HyphensFit W full (a ++ b)) :
    HyphensFit W full b := by
  rcases h with h | h
  · exact .inl fun hb => h (List.mem_append_right _ hb)
  · exact .inr fun x u y e hu => h (a ++ x) u y (by rw [e]; simp) hu

theorem seen_append (a b : Text) : seen (a ++ b) = seen a ++ seen b := List.filter_append ..

theorem lineEnd_seen {W : Text → ℚ} {full avail : ℚ} {first nl : Bool} {shown dropped rest : Text}
    (h : LineEnd W avail first shown dropped rest nl) (hf : first = false → avail = full)
    (hh : HyphensFit W full (shown ++ dropped ++ rest)) : seen dropped = [] := by
  cases h with
  | done | hyphen | start | overflowEnd => rfl
  | newline | spaceNewline | space => rfl
  | overflow h1 h2 h3 =>
    rename_i c
    rcases h3 with rfl | rfl | rfl
    · rfl
    · rfl
    · rcases hh with hh | hh
      · exact absurd (by simp) hh
      · have := hh [] shown (['-'] ++ rest) (by simp) h2
        rw [hf rfl] at h1
        exact absurd h1 (not_lt.2 this)

theorem wrapped_seen {W : Text → ℚ} {full avail : ℚ} {first : Bool} {t : Text}
    {lines : List BrokenLine} (h : Wrapped W full avail first t lines)
    (hf : first = false → avail = full) (hh : HyphensFit W full t) :
    seen (lines.flatMap (·.shown)) = seen t := by
  induction h with
  | last h =>
    simp only [List.flatMap_cons, List.flatMap_nil, List.append_nil, seen_append]
    rw [lineEnd_seen h hf (by simpa using hh), List.append_nil]
  | more h _ _ ih =>
    simp only [List.flatMap_cons, seen_append]
    rw [lineEnd_seen h hf hh, ih (fun _ => rfl) hh.suffix, List.append_nil]

theorem splitNewlines_seen (t : Text) : seen (splitNewlines t).flatten = seen t := by
  induction t with
  | nil => rfl
  | cons c t ih =>
    rw [splitNewlines]
    split
    · rename_i h
      subst h
      simp only [List.flatten_cons, List.nil_append]
      rw [ih]
      rfl
    · split
      · rename_i h
        exact absurd h (splitNewlines_ne_nil t)
      · rename_i l ls h
        rw [h] at ih
        simp only [List.flatten_cons, List.cons_append] at ih ⊢
        simp only [seen, List.filter_cons] at ih ⊢
        rw [ih]

theorem newlinePieces_fst : ∀ ls : List Text, (newlinePieces ls).map (·.1) = ls
  | [] => rfl
  | [l] => rfl
  | l :: l' :: ls => by simp [newlinePieces, newlinePieces_fst (l' :: ls)]

theorem runPieces_seen {E : TextEnv} {st : Style} {font : Font} {full avail : ℚ} {t : Text}
    {pieces : List (Text × Bool)} (h : RunPieces E st font full avail t pieces)
    (hh : HyphensFit (E.width font) full t) : seen (pieces.flatMap (·.1)) = seen t := by
  have hn : pieces = newlinePieces (splitNewlines t) → seen (pieces.flatMap (·.1)) = seen t := by
    rintro rfl
    rw [List.flatMap_def, newlinePieces_fst, splitNewlines_seen]
  have hw : (∃ lines, Wrapped (E.width font) full avail true t lines ∧
      pieces = lines.map fun l => (l.shown, l.newline)) → seen (pieces.flatMap (·.1)) = seen t := by
    rintro ⟨lines, h1, rfl⟩
    rw [List.flatMap_map]
    exact wrapped_seen h1 (by simp) hh
  unfold RunPieces at h
  split at h
  · exact hn h
  · exact hn h
  · exact hw h

/-! ## Lines -/

theorem itemsInked_append (a b : List Item) : itemsInked (a ++ b) = itemsInked a ++ itemsInked b := by
  induction a with
  | nil => rfl
  | cons i a ih => simp [itemsInked, ih]

theorem joinLines_inked : ∀ A B : List Line,
    (joinLines A B).flatMap itemsInked = A.flatMap itemsInked ++ B.flatMap itemsInked
  | [], B => by simp [joinLines]
  | [a], [] => by simp [joinLines]
  | [a], b :: B => by simp [joinLines, itemsInked_append]
  | a :: a' :: A, B => by simp [joinLines, joinLines_inked (a' :: A) B]

theorem decorate_inked (st : Style) : ∀ (L : List Line) (a b c : Bool),
    (decorate st a b c L).flatMap itemsInked = L.flatMap itemsInked
  | [], _, _, _ => rfl
  | [l], _, _, _ => by simp [decorate, itemsInked, Item.inked]
  | l :: l' :: L, _, _, _ => by
    simp [decorate, itemsInked, Item.inked, decorate_inked st (l' :: L)]

theorem inkOfTexts_append (a b : List Inked) : inkOfTexts (a ++ b) = inkOfTexts a ++ inkOfTexts b :=
  List.flatMap_append ..

theorem inkOfTexts_flatten (L : List (List Inked)) :
    inkOfTexts L.flatten = L.flatMap inkOfTexts := by
  induction L with
  | nil => rfl
  | cons l L ih => rw [List.flatten_cons, inkOfTexts_append, ih, List.flatMap_cons]

theorem pieces_inked (st : Style) (f : Font) (ps : List (Text × Bool)) :
    inkOfTexts ((ps.map fun p => [Item.text st f p.1 p.2]).flatMap itemsInked) =
      (seen (ps.flatMap (·.1))).map fun c => (st, f, c) := by
  induction ps with
  | nil => rfl
  | cons p ps ih =>
    simp only [List.map_cons, List.flatMap_cons, inkOfTexts_append, ih, seen_append, List.map_append]
    congr 1
    simp only [itemsInked, Item.inked, List.append_nil]
    split
    · rename_i h
      rw [h]; rfl
    · simp [inkOfTexts]

/-- every hyphen in these texts is in a word that fits lines of this width -/
def RunsFit (E : TextEnv) (w : ℚ) (runs : List Inked) : Prop :=
  ∀ r ∈ runs, HyphensFit (E.width r.2.1) w r.2.2

theorem laysOut_ink {E : TextEnv} {w x : ℚ} {bs : List InlineLevelBox} {L : List Line}
    (h : LaysOut E w x bs L) (hf : RunsFit E w (inlineInked bs)) :
    inkOfTexts (L.flatMap itemsInked) = inkOfTexts (inlineInked bs) := by
  induction h with
  | nil => rfl
  | text h _ ih =>
    rw [joinLines_inked, inkOfTexts_append, pieces_inked,
      runPieces_seen h (hf (_, _, _) (by simp only [inlineInked, InlineLevelBox.inks, List.cons_append, List.mem_cons]; exact .inl rfl)),
      ih fun r hr => hf r (by simp [inlineInked, hr])]
    simp [inlineInked, InlineLevelBox.inks, inkOfTexts]
  | box _ _ ih1 ih2 =>
    rw [joinLines_inked, inkOfTexts_append, decorate_inked,
      ih1 fun r hr => hf r (by simp [inlineInked, InlineLevelBox.inks, hr]),
      ih2 fun r hr => hf r (by simp [inlineInked, hr])]
    simp [inlineInked, InlineLevelBox.inks, inkOfTexts_append]
  | abs _ ih => exact ih hf
  | float _ ih => exact ih hf

theorem Job.rows_flatten (j : Job) : j.rows.flatten = j.lines.flatMap itemsInked := by
  unfold Job.rows
  rw [List.flatMap_def]
  generalize j.lines.map itemsInked = L
  induction L with
  | nil => rfl
  | cons l L ih =>
    by_cases h : l = []
    · subst h
      simp only [List.filter_cons, ne_eq, not_true_eq_false, decide_false, List.flatten_cons,
        List.nil_append]
      exact ih
    · simp only [List.filter_cons, h, ne_eq, not_false_eq_true, decide_true, if_true,
        List.flatten_cons, ih]

/-! ## Boxes -/

/-- the visible characters of inline content in the flow -/
def ifcInk (bs : List InlineLevelBox) : List (Style × Font × Char) := inkOfTexts (inlineInked bs)

theorem covers_ink {E : TextEnv} {fs : List Fragment} {is : List (List InlineLevelBox)} {b : Bool}
    (h : Covers E fs [] is b) (hf : ∀ w ∈ lineWidthsAll fs, ∀ i ∈ is, RunsFit E w (inlineInked i)) :
    (inkOfTexts (inkedAll fs)).Perm (is.flatMap ifcInk) ∧
      (b = true → inkOfTexts (inkedAll fs) = is.flatMap ifcInk) := by
  obtain ⟨_, J, a1, a2, a3, a4, a5⟩ := h
  simp only [waiting, List.flatMap_nil, List.append_nil] at a4
  have key : inkOfTexts (inkedAll fs) = (J.map Job.boxes).flatMap ifcInk := by
    rw [a3, a2]
    have : ∀ K : List Job, (∀ j ∈ K, j ∈ J) →
        inkOfTexts (K.flatMap Job.rows).flatten = (K.map Job.boxes).flatMap ifcInk := by
      intro K
      induction K with
      | nil => intro _; rfl
      | cons j K ih =>
        intro hK
        have hj := hK j (by simp)
        have hm : j.boxes ∈ is := a4.subset (List.mem_map_of_mem hj)
        rw [List.flatMap_cons, List.flatten_append, inkOfTexts_append,
          ih fun k hk => hK k (by simp [hk]), Job.rows_flatten,
          laysOut_ink (a1 j hj).1 (hf _ (a1 j hj).2 _ hm)]
        rfl
    exact this J fun j h => h
  rw [key]
  exact ⟨a4.flatMap_right _, fun hb => by rw [(a5 hb).2]⟩

mutual

theorem BlockContainer.ifcs_ink : ∀ c : BlockContainer, c.floatless = true →
    (c.ifcs.flatMap ifcInk).Perm c.ink
  | .blockLevelBoxes bs, h => blockIfcs_ink bs h
  | .inlineFormattingContext _ bs, h => by
    simp only [BlockContainer.ifcs, BlockContainer.ink, List.flatMap_cons]
    exact inlineIfcs_ink bs h

theorem Bfc.ifcs_ink : ∀ c : Bfc, c.floatless = true → (c.ifcs.flatMap ifcInk).Perm c.ink
  | .mk c _, h => c.ifcs_ink h

theorem BlockLevelBox.ifcs_ink : ∀ b : BlockLevelBox, b.floatless = true →
    (b.ifcs.flatMap ifcInk).Perm b.ink
  | .sameFormattingContextBlock _ c, h => c.ifcs_ink h
  | .independent _ c, h => c.ifcs_ink h
  | .outOfFlowAbsolutelyPositionedBox _ c, h => c.ifcs_ink h
  | .outOfFlowFloatBox _ _, h => by cases h

theorem blockIfcs_ink : ∀ bs : List BlockLevelBox, blockFloatless bs = true →
    ((blockIfcs bs).flatMap ifcInk).Perm (blockInk bs)
  | [], _ => .refl _
  | b :: bs, h => by
    simp only [blockFloatless, Bool.and_eq_true] at h
    simp only [blockIfcs, blockInk, List.flatMap_append]
    exact (b.ifcs_ink h.1).append (blockIfcs_ink bs h.2)

theorem InlineLevelBox.ifcs_ink : ∀ b : InlineLevelBox, b.floatless = true →
    (inkOfTexts b.inks ++ b.ifcs.flatMap ifcInk).Perm b.ink
  | .inlineBox _ _ _ ks, h => inlineIfcs_ink ks h
  | .textRun st t f, _ => by
    simp [InlineLevelBox.inks, InlineLevelBox.ifcs, InlineLevelBox.ink, inkOfTexts]
  | .outOfFlowAbsolutelyPositionedBox _ c, h => c.ifcs_ink h
  | .outOfFlowFloatBox _ _, h => by cases h

theorem inlineIfcs_ink : ∀ bs : List InlineLevelBox, inlineFloatless bs = true →
    (ifcInk bs ++ (inlineIfcs bs).flatMap ifcInk).Perm (inlineInk bs)
  | [], _ => .refl _
  | b :: bs, h => by
    simp only [inlineFloatless, Bool.and_eq_true] at h
    simp only [ifcInk, inlineInked, inlineIfcs, inlineInk, List.flatMap_append, inkOfTexts_append]
    have h1 := b.ifcs_ink h.1
    have h2 := inlineIfcs_ink bs h.2
    refine List.Perm.trans ?_ (h1.append h2)
    rw [List.append_assoc, List.append_assoc]
    refine List.Perm.append_left _ ?_
    rw [← List.append_assoc, ← List.append_assoc]
    exact List.perm_append_comm.append_right _

end

mutual

theorem BlockContainer.flow_ink : ∀ c : BlockContainer, c.flowOnly = true →
    c.ifcs.flatMap ifcInk = c.ink
  | .blockLevelBoxes bs, h => blockFlow_ink bs h
  | .inlineFormattingContext _ bs, h => by
    have := inlineFlow_ink bs h
    simp only [BlockContainer.ifcs, BlockContainer.ink, List.flatMap_cons, this.1, this.2,
      List.flatMap_nil, List.append_nil]

theorem Bfc.flow_ink : ∀ c : Bfc, c.flowOnly = true → c.ifcs.flatMap ifcInk = c.ink
  | .mk c _, h => c.flow_ink h

theorem BlockLevelBox.flow_ink : ∀ b : BlockLevelBox, b.flowOnly = true →
    b.ifcs.flatMap ifcInk = b.ink
  | .sameFormattingContextBlock _ c, h => c.flow_ink h
  | .independent _ c, h => c.flow_ink h
  | .outOfFlowAbsolutelyPositionedBox _ c, h => by cases h
  | .outOfFlowFloatBox _ _, h => by cases h

theorem blockFlow_ink : ∀ bs : List BlockLevelBox, blockFlowOnly bs = true →
    (blockIfcs bs).flatMap ifcInk = blockInk bs
  | [], _ => rfl
  | b :: bs, h => by
    simp only [blockFlowOnly, Bool.and_eq_true] at h
    simp only [blockIfcs, blockInk, List.flatMap_append, b.flow_ink h.1, blockFlow_ink bs h.2]

theorem InlineLevelBox.flow_ink : ∀ b : InlineLevelBox, b.flowOnly = true →
    inkOfTexts b.inks = b.ink ∧ b.ifcs = []
  | .inlineBox _ _ _ ks, h => inlineFlow_ink ks h
  | .textRun st t f, _ => by
    simp [InlineLevelBox.inks, InlineLevelBox.ifcs, InlineLevelBox.ink, inkOfTexts]
  | .outOfFlowAbsolutelyPositionedBox _ c, h => by cases h
  | .outOfFlowFloatBox _ _, h => by cases h

theorem inlineFlow_ink : ∀ bs : List InlineLevelBox, inlineFlowOnly bs = true →
    ifcInk bs = inlineInk bs ∧ inlineIfcs bs = []
  | [], _ => ⟨rfl, rfl⟩
  | b :: bs, h => by
    simp only [inlineFlowOnly, Bool.and_eq_true] at h
    have h1 := b.flow_ink h.1
    have h2 := inlineFlow_ink bs h.2
    unfold ifcInk at h2 ⊢
    simp only [inlineInked, inlineIfcs, inlineInk, inkOfTexts_append, h1.1, h1.2, h2.1, h2.2,
      List.append_nil, and_self]

end

end Sinab
