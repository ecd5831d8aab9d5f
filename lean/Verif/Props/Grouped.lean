import Verif.Lemmas.Grouped

/-! Grouping blocks (C94): putting consecutive blocks in a block without margins, padding and borders changes nothing. -/

namespace Sinab

open Sinab.Append

theorem eye_text : Eye DrawCall.isText := by
  refine ⟨fun v a => ?_, fun _ _ _ _ => rfl⟩
  cases a <;> rfl

theorem eye_seen : Eye DrawCall.seen := by
  refine ⟨fun v a => ?_, fun _ _ _ _ => rfl⟩
  cases a with
  | text => rfl
  | rect => rfl
  | bbox => rfl
  | line ps c w s =>
    match ps with
    | [] => rfl
    | [_] => rfl
    | [p, q] =>
      simp only [DrawCall.move, List.map_cons, List.map_nil, DrawCall.seen]
      have : ((p.1 + v.x, p.2 + v.y) = (q.1 + v.x, q.2 + v.y)) ↔ p = q := by
        simp only [Prod.mk.injEq, add_left_inj]
        exact (Prod.ext_iff).symm
      rw [Bool.eq_iff_iff]
      simp only [bne_iff_ne, ne_eq, this]
    | _ :: _ :: _ :: _ => rfl

theorem nothing_text (st : Style) : DrawsNothing DrawCall.isText st := by
  intro cbis g m cs o _ _ _ _ _
  have h : ∀ s a, edgeCall st g o s = some a → a.isText = false := by
    intro s a k
    unfold edgeCall at k
    split at k
    · cases k
      rfl
    · cases k
  simp only [ownCalls, List.filter_append, List.append_eq_nil_iff]
  refine ⟨rfl, ?_, ?_⟩
  · unfold backgroundCall
    split <;> rfl
  · rw [List.filter_eq_nil_iff]
    intro a ha
    obtain ⟨s, -, hs⟩ := List.mem_filterMap.1 ha
    rw [h s a hs]
    exact Bool.false_ne_true

/-- of a block with no height there is nothing to see, if its borders have no width above and below -/
theorem nothing_seen {st : Style} (hst : st.bordersKept) : DrawsNothing DrawCall.seen st := by
  intro cbis g m cs o h1 h2 h3 h4 h5
  have top : ¬ 0 < g.border.blockStart := by
    intro k
    have e1 : g.padding.blockStart = (st.val .paddingTop : LengthOrPercentage).percentageRelativeTo cbis := by rw [h1]; rfl
    have e2 : g.border.blockStart = (st.val .borderTopWidth : LengthOrPercentage).percentageRelativeTo cbis := by rw [h2]; rfl
    rcases hst.1 with h | ⟨l, hl, h⟩
    · rw [h] at e2
      rw [e2] at k
      exact absurd k (lt_irrefl _)
    · rw [h] at e1
      change g.padding.blockStart = l at e1
      linarith
  have bottom : ¬ 0 < g.border.blockEnd := by
    intro k
    have e1 : g.padding.blockEnd = (st.val .paddingBottom : LengthOrPercentage).percentageRelativeTo cbis := by rw [h1]; rfl
    have e2 : g.border.blockEnd = (st.val .borderBottomWidth : LengthOrPercentage).percentageRelativeTo cbis := by
      rw [h2]; rfl
    rcases hst.2 with h | ⟨l, hl, h⟩
    · rw [h] at e2
      rw [e2] at k
      exact absurd k (lt_irrefl _)
    · rw [h] at e1
      change g.padding.blockEnd = l at e1
      linarith
  have hh : (g.borderArea o).bottom = (g.borderArea o).top := by
    simp only [BoxGeom.borderArea]
    linarith
  have h : ∀ s a, edgeCall st g o s = some a → a.seen = false := by
    intro s a k
    unfold edgeCall at k
    split at k
    · rename_i hs
      cases k
      cases s
      · exact absurd hs.1 top
      · simp [Area.midline, BoxGeom.strip, DrawCall.seen, hh]
      · exact absurd hs.1 bottom
      · simp [Area.midline, BoxGeom.strip, DrawCall.seen, hh]
    · cases k
  simp only [ownCalls, List.filter_append, List.append_eq_nil_iff]
  refine ⟨rfl, ?_, ?_⟩
  · unfold backgroundCall
    split
    · simp [DrawCall.seen, hh]
    · rfl
  · rw [List.filter_eq_nil_iff]
    intro a ha
    obtain ⟨s, -, hs⟩ := List.mem_filterMap.1 ha
    rw [h s a hs]
    exact Bool.false_ne_true

mutual

theorem grouped_mono {ok ok' : List BlockLevelBox → Prop} (hok : ∀ L, ok L → ok' L) :
    ∀ {c c' : BlockContainer}, Grouped ok c c' → Grouped ok' c c'
  | _, _, .here A L B w hw hL => .here A L B w hw (hok L hL)
  | _, _, .inside A b b' B h => .inside A b b' B (groupedBlock_mono hok h)

theorem groupedBlock_mono {ok ok' : List BlockLevelBox → Prop} (hok : ∀ L, ok L → ok' L) :
    ∀ {b b' : BlockLevelBox}, GroupedBlock ok b b' → GroupedBlock ok' b b'
  | _, _, .same s c c' h => .same s c c' (grouped_mono hok h)
  | _, _, .independent s c c' fl fl' h => .independent s c c' fl fl' (grouped_mono hok h)

end

mutual

theorem grouped_noAbs {ok : List BlockLevelBox → Prop} : ∀ {c c' : BlockContainer}, Grouped ok c c' → noAbs c → noAbs c'
  | _, _, .here A L B w hw hL, h => by
    simpa only [noAbs, blocksNoAbs_append, blocksNoAbs, blockNoAbs] using h
  | _, _, .inside A b b' B hb, h => by
    simp only [noAbs, blocksNoAbs_append, blocksNoAbs] at h ⊢
    exact ⟨h.1, groupedBlock_noAbs hb h.2.1, h.2.2⟩

theorem groupedBlock_noAbs {ok : List BlockLevelBox → Prop} : ∀ {b b' : BlockLevelBox}, GroupedBlock ok b b' →
    blockNoAbs b → blockNoAbs b'
  | _, _, .same s c c' h, k => grouped_noAbs h k
  | _, _, .independent s c c' fl fl' h, k => by
    simp only [blockNoAbs, bfcNoAbs] at k ⊢
    exact grouped_noAbs h k

end

theorem drawn_grouped {vis : DrawCall → Bool} (hv : Eye vis) (E : TextEnv) {c c' : BlockContainer}
    (h : Grouped (CanGroup vis) c c') (ha : noAbs c) (fl fl' : Bool) (size : PVec2 Length) :
    ∃ fs fs', rootLayout E (.mk c fl) size = .ok fs ∧ rootLayout E (.mk c' fl') size = .ok fs' ∧
      (paintPage size fs').calls.filter vis = (paintPage size fs).calls.filter vis := by
  have ha' := grouped_noAbs h ha
  obtain ⟨fc, h1, h2⟩ := root_layout E fl ha size (le_max_left c.noFloats.depth c'.noFloats.depth)
  obtain ⟨fc', h1', h2'⟩ := root_layout E fl' ha' size (le_max_right c.noFloats.depth c'.noFloats.depth)
  have hf := bfc_grouped hv (boxGrouped E hv _) h ha ha' rfl h1 h1'
  have page : ∀ {fs}, uprightAll fs → (paintPage size fs).calls = callsAt ⟨0, 0⟩ fs := by
    intro fs hf
    rw [paintPage, callsAt_own ⟨0, 0⟩ hf _ rfl]
  refine ⟨_, _, h2, h2', ?_⟩
  rw [page (rootLayout_up h2), page (rootLayout_up h2'), hf.seen ⟨0, 0⟩]

/-- C94 for texts: if consecutive blocks, of which none has a height that is a percentage, of a page without absolutely
positioned boxes are put in a block without a size, margins, padding and borders, then the same texts are drawn in the
same places. -/
theorem C94_texts (E : TextEnv) {c c' : BlockContainer} (h : Grouped (fun L => ∀ b ∈ L, b.heightFree) c c') (ha : noAbs c)
    (fl fl' : Bool) (size : PVec2 Length) :
    ∃ fs fs', rootLayout E (.mk c fl) size = .ok fs ∧ rootLayout E (.mk c' fl') size = .ok fs' ∧
      (paintPage size fs').calls.filter DrawCall.isText = (paintPage size fs).calls.filter DrawCall.isText :=
  drawn_grouped eye_text E (grouped_mono (fun _ k => ⟨k, fun st _ => nothing_text st⟩) h) ha fl fl' size

/-- C94: if, moreover, no block in it has a border above a negative padding, then the page looks the same: the same texts,
the same rectangles (but those with no height) and the same lines (but those with no length) are drawn in the same
places, in the same order. -/
theorem C94_seen (E : TextEnv) {c c' : BlockContainer}
    (h : Grouped (fun L => (∀ b ∈ L, b.heightFree) ∧ ∀ st ∈ blockStylesAll L, st.bordersKept) c c') (ha : noAbs c)
    (fl fl' : Bool) (size : PVec2 Length) :
    ∃ fs fs', rootLayout E (.mk c fl) size = .ok fs ∧ rootLayout E (.mk c' fl') size = .ok fs' ∧
      (paintPage size fs').calls.filter DrawCall.seen = (paintPage size fs).calls.filter DrawCall.seen :=
  drawn_grouped eye_seen E (grouped_mono (fun _ k => ⟨k.1, fun st hs => nothing_seen (k.2 st hs)⟩) h) ha fl fl' size

/-- a block around some blocks -/
def groupBox (bs : List BlockLevelBox) : BlockLevelBox := .sameFormattingContextBlock plainStyle (.blockLevelBoxes bs)

theorem plain_frameless : plainStyle.Frameless := by
  constructor <;> decide +kernel

/-- a block with a border on the left, a background and margins, and blocks in it -/
def groupFramed (bs : List BlockLevelBox) : BlockLevelBox :=
  .sameFormattingContextBlock (((((plainStyle.set .marginTop (.length 5)).set .marginBottom (.length 11)).set
    .borderLeftWidth (.length 2)).set .borderLeftStyle LineStyle.solid).set .backgroundColor (.rgba ⟨9, 9, 9, 255⟩)) (.blockLevelBoxes bs)

/-- a page with blocks of several kinds in a block with padding; `around` is put around two of them -/
def groupPage (around : List BlockLevelBox → List BlockLevelBox) : BlockContainer :=
  .blockLevelBoxes ([] ++ editedFrame (.blockLevelBoxes ([groupFramed [appendLines [appendWords "ab"]]] ++
    (around [groupFramed [], groupFramed [appendLines [appendWords "cd"]]] ++
      [appendLines [appendWords "ef"]]))) :: [appendLines [appendWords "gh"]])

/-- what is seen on a page, if there is one -/
def seenAt (size : PVec2 Length) (c : BlockContainer) : List DrawCall :=
  match rootLayout blockEnv (.mk c false) size with
  | .ok fs => (paintPage size fs).calls.filter DrawCall.seen
  | .error _ => []

example : Grouped (fun L => (∀ b ∈ L, b.heightFree) ∧ ∀ st ∈ blockStylesAll L, st.bordersKept) (groupPage id)
    (groupPage fun bs => [groupBox bs]) := by
  refine .inside _ _ _ _ (.same _ _ _ (.here _ _ _ _ plain_frameless ⟨?_, ?_⟩))
  · intro b hb
    rcases List.mem_cons.1 hb with rfl | hb
    · intro p k
      exact LengthOrPercentageOrAuto.noConfusion k
    · rcases List.mem_singleton.1 hb with rfl
      intro p k
      exact LengthOrPercentageOrAuto.noConfusion k
  · have h : ∀ st ∈ blockStylesAll [groupFramed [], groupFramed [appendLines [appendWords "cd"]]],
        st.val .borderTopWidth = .length 0 ∧ st.val .borderBottomWidth = .length 0 := by
      decide +kernel
    exact fun st hst => ⟨.inl (h st hst).1, .inl (h st hst).2⟩

example : seenAt ⟨55, 100⟩ (groupPage id) = seenAt ⟨55, 100⟩ (groupPage fun bs => [groupBox bs]) ∧
    writtenAt ⟨55, 100⟩ (groupPage id) = [("ab", 2, 118 / 5), ("cd", 2, 269 / 5), ("ef", 0, 84), ("gh", 0, 551 / 5)] ∧
    (seenAt ⟨55, 100⟩ (groupPage id)).length = 8 := by
  decide +kernel

/-- a block that is half as high as the page -/
def groupHalf : BlockLevelBox := .sameFormattingContextBlock (plainStyle.set .height (.percentage (1 / 2))) (.blockLevelBoxes [])

/-- A block with a height that is a percentage loses it in a block without a height, so not all blocks can be grouped. -/
theorem C94_heights_false : ¬ ∀ (E : TextEnv) (c c' : BlockContainer), Grouped (fun _ => True) c c' → noAbs c →
    ∀ (fl fl' : Bool) (size : PVec2 Length) (fs fs' : List Fragment), rootLayout E (.mk c fl) size = .ok fs →
      rootLayout E (.mk c' fl') size = .ok fs' →
      (paintPage size fs').calls.filter DrawCall.isText = (paintPage size fs).calls.filter DrawCall.isText := by
  intro h
  have hg : Grouped (fun _ => True) (.blockLevelBoxes ([] ++ ([groupHalf] ++ [appendLines [appendWords "ab"]])))
      (.blockLevelBoxes ([] ++ groupBox [groupHalf] :: [appendLines [appendWords "ab"]])) :=
    .here _ _ _ _ plain_frameless trivial
  have ha : noAbs (.blockLevelBoxes ([] ++ ([groupHalf] ++ [appendLines [appendWords "ab"]]))) := by
    simp [noAbs, blocksNoAbs, blockNoAbs, groupHalf, appendLines, inlinesNoAbs, inlineNoAbs, appendWords]
  obtain ⟨fs, hfs⟩ : ∃ fs, rootLayout blockEnv
      (.mk (.blockLevelBoxes ([] ++ ([groupHalf] ++ [appendLines [appendWords "ab"]]))) false) ⟨55, 100⟩ = .ok fs :=
    ⟨_, (root_layout blockEnv false ha ⟨55, 100⟩ le_rfl).choose_spec.2⟩
  obtain ⟨fs', hfs'⟩ : ∃ fs, rootLayout blockEnv
      (.mk (.blockLevelBoxes ([] ++ groupBox [groupHalf] :: [appendLines [appendWords "ab"]])) false) ⟨55, 100⟩ = .ok fs :=
    ⟨_, (root_layout blockEnv false (grouped_noAbs hg ha) ⟨55, 100⟩ le_rfl).choose_spec.2⟩
  have k := h blockEnv _ _ hg ha false false ⟨55, 100⟩ fs fs' hfs hfs'
  have e : writtenTexts ⟨55, 100⟩ (rootLayout blockEnv
      (.mk (.blockLevelBoxes ([] ++ groupBox [groupHalf] :: [appendLines [appendWords "ab"]])) false) ⟨55, 100⟩) ≠
      writtenTexts ⟨55, 100⟩ (rootLayout blockEnv
        (.mk (.blockLevelBoxes ([] ++ ([groupHalf] ++ [appendLines [appendWords "ab"]]))) false) ⟨55, 100⟩) := by
    decide +kernel
  rw [hfs, hfs'] at e
  exact e k

/-- a block with a border, but no height, as the padding is negative -/
def groupThin : BlockLevelBox :=
  .sameFormattingContextBlock ((((plainStyle.set .borderTopWidth (.length 3)).set .borderTopStyle LineStyle.solid).set
    .paddingTop (.length (-3))).set .marginBottom (.length 20)) (.blockLevelBoxes [])

/-- The border of a block with negative padding is drawn in another place. -/
theorem C94_borders_false : ¬ ∀ (E : TextEnv) (c c' : BlockContainer),
    Grouped (fun L => ∀ b ∈ L, b.heightFree) c c' → noAbs c →
    ∀ (fl fl' : Bool) (size : PVec2 Length) (fs fs' : List Fragment), rootLayout E (.mk c fl) size = .ok fs →
      rootLayout E (.mk c' fl') size = .ok fs' →
      (paintPage size fs').calls.filter DrawCall.seen = (paintPage size fs).calls.filter DrawCall.seen := by
  intro h
  have hg : Grouped (fun L => ∀ b ∈ L, b.heightFree) (.blockLevelBoxes ([appendLines [appendWords "ab"]] ++ ([groupThin] ++ [])))
      (.blockLevelBoxes ([appendLines [appendWords "ab"]] ++ groupBox [groupThin] :: [])) := by
    refine .here _ _ _ _ plain_frameless fun b hb => ?_
    rcases List.mem_singleton.1 hb with rfl
    intro p k
    exact LengthOrPercentageOrAuto.noConfusion k
  have ha : noAbs (.blockLevelBoxes ([appendLines [appendWords "ab"]] ++ ([groupThin] ++ []))) := by
    simp [noAbs, blocksNoAbs, blockNoAbs, groupThin, appendLines, inlinesNoAbs, inlineNoAbs, appendWords]
  obtain ⟨fs, hfs⟩ : ∃ fs, rootLayout blockEnv
      (.mk (.blockLevelBoxes ([appendLines [appendWords "ab"]] ++ ([groupThin] ++ []))) false) ⟨55, 100⟩ = .ok fs :=
    ⟨_, (root_layout blockEnv false ha ⟨55, 100⟩ le_rfl).choose_spec.2⟩
  obtain ⟨fs', hfs'⟩ : ∃ fs, rootLayout blockEnv
      (.mk (.blockLevelBoxes ([appendLines [appendWords "ab"]] ++ groupBox [groupThin] :: [])) false) ⟨55, 100⟩ = .ok fs :=
    ⟨_, (root_layout blockEnv false (grouped_noAbs hg ha) ⟨55, 100⟩ le_rfl).choose_spec.2⟩
  have k := h blockEnv _ _ hg ha false false ⟨55, 100⟩ fs fs' hfs hfs'
  have e : seenAt ⟨55, 100⟩ (.blockLevelBoxes ([appendLines [appendWords "ab"]] ++ groupBox [groupThin] :: [])) ≠
      seenAt ⟨55, 100⟩ (.blockLevelBoxes ([appendLines [appendWords "ab"]] ++ ([groupThin] ++ []))) := by
    decide +kernel
  unfold seenAt at e
  rw [hfs, hfs'] at e
  exact e k

end Sinab
