import Verif.Lemmas.Composed
import Verif.Props.Stands

/-! A page is composed of its blocks (C99). -/

namespace Sinab

open Sinab.Append

/-- C99: what is drawn for a page with some blocks is what is drawn for a page with the first of them, then what is drawn
for a page with the second, moved down, and so on.  How far a block is moved down depends on the blocks before it and
on the block itself, not on the blocks after it; the first one stays where it is.  The distances are the same for all
pages of this size.  (Nothing in the blocks is positioned with respect to the page.) -/
theorem C99_blocks (E : TextEnv) (size : PVec2 Length) : ∃ down : List BlockLevelBox → BlockLevelBox → Length,
    (∀ b, down [] b = 0) ∧ ∀ (bs : List BlockLevelBox) (floats : Bool) (alone : BlockLevelBox → Bool) (fs : List Fragment)
      (own : BlockLevelBox → List Fragment), blockSound bs → (∀ b ∈ bs, b.held = []) →
      rootLayout E (.mk (.blockLevelBoxes bs) floats) size = .ok fs →
      (∀ b ∈ bs, rootLayout E (.mk (.blockLevelBoxes [b]) (alone b)) size = .ok (own b)) →
      (paintPage size fs).calls = stackedCalls (fun b => (paintPage size (own b)).calls) down [] bs := by
  let fr := fragmentOf E ⟨size.x, .length size.y, (.horizontalTb, .ltr)⟩
  let drop := fun before f => droppedBy (stateAfter (.start false) before) f
  refine ⟨fun before b => drop (before.map fr) (fr b) - drop [] (fr b), fun b => sub_self _, ?_⟩
  intro bs floats alone fs own hs hh hf ho
  have hu := rootLayout_up hf
  obtain ⟨st', h1⟩ := page_all E hs hh hf
  have h2 := placeAll_drop (st0 := .start false) (before := []) (gs0 := []) rfl h1
  have p1 : (paintPage size fs).calls = callsAt ⟨0, 0⟩ fs := by
    rw [paintPage, callsAt_own ⟨0, 0⟩ hu _ rfl]
  rw [p1]
  subst h2
  refine callsAt_stacked ⟨0, 0⟩ fr drop _ bs [] hu fun b hb => ?_
  have hu' := rootLayout_up (ho b hb)
  obtain ⟨st1, h3⟩ := page_all E (bs := [b]) ⟨blockSound_mem hb hs, trivial⟩ (by simpa using hh b hb) (ho b hb)
  rw [paintPage, callsAt_own ⟨0, 0⟩ hu' _ rfl, placeAll_one h3]
  rfl

/-- C99: with the same blocks in another order the same is drawn, and equally far to the right: only vertical places and
the order of what is drawn change. -/
theorem C99_order (E : TextEnv) {bs bs' : List BlockLevelBox} {floats floats' : Bool} {size : PVec2 Length}
    {fs fs' : List Fragment} (hp : bs.Perm bs') (hs : blockSound bs) (hh : ∀ b ∈ bs, b.held = [])
    (hf : rootLayout E (.mk (.blockLevelBoxes bs) floats) size = .ok fs)
    (hf' : rootLayout E (.mk (.blockLevelBoxes bs') floats') size = .ok fs') :
    ((paintPage size fs).calls.map DrawCall.level).Perm ((paintPage size fs').calls.map DrawCall.level) := by
  let fr := fragmentOf E ⟨size.x, .length size.y, (.horizontalTb, .ltr)⟩
  let drop := fun before f => droppedBy (stateAfter (.start false) before) f
  let own := fun b => callsAt ⟨0, 0⟩ [(fr b).translateBlock (drop [] (fr b))]
  have key : ∀ (bs : List BlockLevelBox) (floats : Bool) (fs : List Fragment), blockSound bs → (∀ b ∈ bs, b.held = []) →
      rootLayout E (.mk (.blockLevelBoxes bs) floats) size = .ok fs →
      (paintPage size fs).calls.map DrawCall.level = bs.flatMap fun b => (own b).map DrawCall.level := by
    intro bs floats fs hs hh hf
    have hu := rootLayout_up hf
    obtain ⟨st', h1⟩ := page_all E hs hh hf
    have h2 := placeAll_drop (st0 := .start false) (before := []) (gs0 := []) rfl h1
    rw [paintPage, callsAt_own ⟨0, 0⟩ hu _ rfl]
    subst h2
    exact (congrArg _ (callsAt_stacked ⟨0, 0⟩ fr drop own bs [] hu fun b _ => rfl)).trans
      (stackedCalls_level _ _ _ _)
  rw [key bs floats fs hs hh hf, key bs' floats' fs' (blockSound_all.2 fun b hb => blockSound_all.1 hs b (hp.mem_iff.2 hb))
    (fun b hb => hh b (hp.mem_iff.2 hb)) hf']
  exact hp.flatMap_right _

variable {E : TextEnv} {C : BoxContext} {kids : NodeId → List NodeId} {st : Style} {cs : List Styled} {b : Bfc}
  {size : PVec2 Length} {fs : List Fragment}

/-- `own` is what is seen of a document in which there is nothing to see but the element `e`, on a page of the given
width -/
def SeenAlone (E : TextEnv) (width : Length) (e : Styled) (own : List DrawCall) : Prop :=
  ∃ (C' : BoxContext) (kids' : NodeId → List NodeId) (st' : Style) (cs' : List Styled) (b' : Bfc) (size' : PVec2 Length)
    (fs' : List Fragment), Page C' E kids' st' cs' b' size' fs' ∧ size'.x = width ∧ st'.outOfFlow = false ∧
    st'.Frameless ∧ LoneContent e (unwrapAll cs') ∧ own = (paintPage size' fs').calls.filter DrawCall.isMark

/-- what an element looks like alone is what layout of its box gives -/
theorem SeenAlone.fragment {e : Styled} {own : List DrawCall} {width : Length} (h : SeenAlone E width e own)
    (hC : C.fontOf = E.font) (hc : (e.blockBox C).held = []) : ∃ f y, LaidOutIn E (e.blockBox C) width f ∧ f.upright ∧
      own = (callsAt ⟨0, y⟩ [f]).filter DrawCall.isMark := by
  obtain ⟨C', kids', st', cs', b', size', fs', h', rfl, ho', hs, hl, rfl⟩ := h
  obtain ⟨root', hr', hid', hst', hsh'⟩ := h'.content
  obtain ⟨n', hb'⟩ := h'.boxes
  obtain ⟨-, e2⟩ := boxTree_eq h'.forest hr' hid' hst' h'.shown ho' hsh' hb'
  have hf : C'.fontOf = C.fontOf := by
    obtain ⟨_, _, _, _, _, _, rfl⟩ := h'.context
    exact hC.symm
  have hsound' : b'.sound := by
    obtain ⟨S, K, tokenize, ua, author, d, rfl⟩ := h'.context
    exact boxTree_sound (styleSound_of K tokenize ua author d E) hb'
  have g2 := containerOf_lone C hl st'
  rw [← containerOf_unwrap hf] at g2
  have hfs' := h'.laidOut
  subst e2
  have hu' := rootLayout_up hfs'
  obtain ⟨⟨fc', abs'⟩, h1', hfs'⟩ := bind_eq_ok.1 hfs'
  obtain ⟨more', h3, hfs'⟩ := bind_eq_ok.1 hfs'
  cases hfs'
  obtain ⟨⟨fc1, abs1⟩, h2', h1'⟩ := bind_eq_ok.1 h1'
  cases h1'
  obtain ⟨-, hn, f', y', k1', k2'⟩ := lone_shown E (.independent _ _ _ hs g2) hc _ _ _ _ _ _ _ (by rfl) hsound' le_rfl h2'
  rw [hn] at h3
  cases h3
  rw [List.append_nil] at hu'
  obtain ⟨hfu, k3'⟩ := k2' hu'
  refine ⟨f', y', k1', hfu, ?_⟩
  have p2 : (paintPage size' fc1.fragments).calls = callsAt ⟨0, 0⟩ fc1.fragments := by
    rw [paintPage, callsAt_own ⟨0, 0⟩ hu' _ rfl]
  rw [List.append_nil, p2, k3' ⟨0, 0⟩]
  simp [pvec2_add]

/-- C99 for documents: if there is nothing to see in a document but some block-level elements one after the other, then
what is seen of it is what is seen of a document with the first of them alone, then what is seen of a document with the
second alone, and so on, each moved down or up.  (The heights of the elements are not percentages, and nothing in them
is positioned with respect to something outside.) -/
theorem C99_document (h : Page C E kids st cs b size fs) (ho : st.outOfFlow = false) (hs : st.Frameless) {L : List Styled}
    (hL : ContentBlocks L (unwrapAll cs)) (hc : ∀ e ∈ L, e.heightFree ∧ e.closed) {owns : List (List DrawCall)}
    (hown : List.Forall₂ (SeenAlone E size.x) L owns) : ∃ ds : List Length, ds.length = L.length ∧
      (paintPage size fs).calls.filter DrawCall.isMark =
        (List.zipWith (fun own d => own.map (DrawCall.move ⟨0, d⟩)) owns ds).flatten := by
  obtain ⟨root, hr, hid, hst, hsh⟩ := h.content
  obtain ⟨n, hb⟩ := h.boxes
  obtain ⟨-, e1⟩ := boxTree_eq h.forest hr hid hst h.shown ho hsh hb
  have hC : C.fontOf = E.font := by
    obtain ⟨_, _, _, _, _, _, rfl⟩ := h.context
    rfl
  have hsound : b.sound := by
    obtain ⟨S, K, tokenize, ua, author, d, rfl⟩ := h.context
    exact boxTree_sound (styleSound_of K tokenize ua author d E) hb
  have g1 := containerOf_each C hL st
  rw [← containerOf_unwrap rfl] at g1
  have hbox : ∀ e ∈ L, (e.blockBox C).heightFree ∧ (e.blockBox C).held = [] := by
    intro e he
    have hi := contentBlocks_inFlow hL e he
    obtain ⟨h1, h2⟩ := hc e he
    match e, hi with
    | .elem id s .block ins ks, _ =>
      refine ⟨?_, blockBox_held C _ _ _ _ _ h2⟩
      cases ins <;> exact h1
  have hfs := h.laidOut
  subst e1
  have hu := rootLayout_up hfs
  obtain ⟨⟨fc, abs⟩, h1, hfs⟩ := bind_eq_ok.1 hfs
  obtain ⟨more, h3, hfs⟩ := bind_eq_ok.1 hfs
  cases hfs
  obtain ⟨⟨fc0, abs0⟩, h2, h1⟩ := bind_eq_ok.1 h1
  cases h1
  obtain ⟨hn, ps, k1, k2⟩ := blocks_shown E (.independent _ _ _ hs g1) (by
    intro b hb
    obtain ⟨e, he, rfl⟩ := List.mem_map.1 hb
    exact (hbox e he).2) _ _ _ _ _ _ _ (by rfl) hsound le_rfl h2
  rw [hn] at h3
  cases h3
  rw [List.append_nil] at hu ⊢
  obtain ⟨k3, k4⟩ := k2 hu
  rw [paintPage, callsAt_own ⟨0, 0⟩ hu _ rfl, k4 ⟨0, 0⟩]
  clear k4 k2 hn h2 hu g1 hsound hL
  unfold LaidOutEach at k1
  rw [List.forall₂_map_left_iff] at k1
  induction hown generalizing ps with
  | nil =>
    cases k1
    exact ⟨[], rfl, rfl⟩
  | @cons e own L owns he _ ih =>
    cases k1 with
    | @cons _ p _ ps k1 k1s =>
      obtain ⟨ds, q1, q2⟩ := ih (fun e he => hc e (List.mem_cons_of_mem _ he))
        (fun e he => hbox e (List.mem_cons_of_mem _ he)) ps k1s (fun p hp => k3 p (List.mem_cons_of_mem _ hp))
      obtain ⟨hb1, hb2⟩ := hbox e (by simp)
      obtain ⟨f, y, j1, j2, rfl⟩ := he.fragment hC hb2
      have hff := k1.2.unique j1 k1.1 hb1
      subst hff
      refine ⟨(p.2 - y) :: ds, by simp [q1], ?_⟩
      have : (⟨0, 0⟩ : PVec2 Length) + ⟨0, p.2⟩ = ⟨0, y⟩ + ⟨0, p.2 - y⟩ := by simp [pvec2_add]
      rw [List.flatMap_cons, q2, List.zipWith_cons_cons, List.flatten_cons, this,
        callsAt_move _ _ (fs := [p.1]) ⟨j2, trivial⟩, filter_move isMark_eye]

/-- the blocks of the example -/
def composedBlocks : List BlockLevelBox := [blockOf 4 5, standsBlock, blockOf 7 2]

example : blockSound composedBlocks ∧ ∀ b ∈ composedBlocks, b.held = [] := by
  refine ⟨?_, by decide +kernel⟩
  simp [composedBlocks, blockSound, BlockLevelBox.sound, BlockContainer.sound, standsBlock, blockOf, emptyBlock, inlineSound, InlineLevelBox.sound]

example : blocksDrawn composedBlocks 100 = (blocksDrawn [blockOf 4 5] 100).map (DrawCall.move ⟨0, 0⟩) ++
    ((blocksDrawn [standsBlock] 100).map (DrawCall.move ⟨0, 19⟩) ++
      (blocksDrawn [blockOf 7 2] 100).map (DrawCall.move ⟨0, 191 / 5⟩)) ∧
    (blocksDrawn [standsBlock] 100).length = 5 := by decide +kernel

/-- in another order -/
example : blocksDrawn [standsBlock, blockOf 7 2, blockOf 4 5] 100 = (blocksDrawn [standsBlock] 100).map (DrawCall.move ⟨0, 0⟩) ++
    ((blocksDrawn [blockOf 7 2] 100).map (DrawCall.move ⟨0, 96 / 5⟩) ++
      (blocksDrawn [blockOf 4 5] 100).map (DrawCall.move ⟨0, 181 / 5⟩)) := by decide +kernel

/-- a block for the counterexample: in it a box is positioned with respect to the page -/
def composedHolder : BlockLevelBox :=
  .sameFormattingContextBlock plainStyle (.blockLevelBoxes [.outOfFlowAbsolutelyPositionedBox
    (((plainStyle.set .position .absolute).set .height (.length 7)).set .backgroundColor (.rgba ⟨255, 0, 0, 255⟩))
      (.mk (.blockLevelBoxes []) false)])

/-- C99 is false if something in the blocks is positioned with respect to the page: it is drawn after all the blocks. -/
theorem C99_held_false : ¬ ∀ (E : TextEnv) (size : PVec2 Length), ∃ down : List BlockLevelBox → BlockLevelBox → Length,
    ∀ (bs : List BlockLevelBox) (floats : Bool) (alone : BlockLevelBox → Bool) (fs : List Fragment)
      (own : BlockLevelBox → List Fragment), blockSound bs →
      rootLayout E (.mk (.blockLevelBoxes bs) floats) size = .ok fs →
      (∀ b ∈ bs, rootLayout E (.mk (.blockLevelBoxes [b]) (alone b)) size = .ok (own b)) →
      (paintPage size fs).calls = stackedCalls (fun b => (paintPage size (own b)).calls) down [] bs := by
  intro h
  have e0 : paintedHeights (blocksDrawn [composedHolder, halfBlock] 100) = [25, 7] := by decide +kernel
  have e1 : paintedHeights (blocksDrawn [composedHolder] 100) = [7] := by decide +kernel
  have e2 : paintedHeights (blocksDrawn [halfBlock] 100) = [25] := by decide +kernel
  have hne : composedHolder ≠ halfBlock := by
    intro e
    rw [e, e2] at e1
    revert e1
    decide
  have hne' := hne.symm
  unfold blocksDrawn at e0 e1 e2
  split at e0
  case h_2 => cases e0
  rename_i fs hfs
  split at e1
  case h_2 => cases e1
  rename_i own1 h1
  split at e2
  case h_2 => cases e2
  rename_i own2 h2
  obtain ⟨down, k⟩ := h blockEnv ⟨100, 50⟩
  classical
  have k' := k [composedHolder, halfBlock] false (fun _ => false) fs (fun b => if b = composedHolder then own1 else own2)
    (by simp [blockSound, BlockLevelBox.sound, BlockContainer.sound, composedHolder, halfBlock, emptyBlock, Bfc.sound]) hfs (by
      intro b hb
      rcases List.mem_cons.1 hb with rfl | hb
      · simpa using h1
      · rw [List.mem_singleton] at hb
        subst hb
        simpa [hne'] using h2)
  rw [k'] at e0
  simp only [stackedCalls, if_true, if_neg hne', List.append_nil] at e0
  have := paintedHeights_move
  unfold paintedHeights at this e0 e1 e2
  rw [List.filterMap_append, this, this, e1, e2] at e0
  revert e0
  decide

/-- a document for the example: two paragraphs -/
def composedDoc : Doc := pageOf [.node "p" [.text "zz"], .text " ", .node "p" [.text "ab cd"]]

/-- documents with one of them -/
def composedFirst : Doc := pageOf [.node "p" [.text "zz"]]

theorem composedDoc_content : unwrapAll (rootContent composedDoc) = [.elem 0 (pageStyle grownFrom) .block .flow
    [groupedPara "zz", groupedText " ", groupedPara "ab cd"]] := by
  apply sameAll_eq
  decide +kernel

theorem composedFirst_content : unwrapAll (rootContent composedFirst) =
    [.elem 0 (pageStyle grownFrom) .block .flow [groupedPara "zz"]] := by
  apply sameAll_eq
  decide +kernel

example : rootCheck composedDoc = true ∧ rootCheck composedFirst = true ∧ rootCheck standsLone = true := by decide +kernel

example : ContentBlocks [groupedPara "zz", groupedPara "ab cd"] (unwrapAll (rootContent composedDoc)) ∧
    LoneContent (groupedPara "zz") (unwrapAll (rootContent composedFirst)) ∧
    LoneContent (groupedPara "ab cd") (unwrapAll (rootContent standsLone)) := by
  rw [composedDoc_content, composedFirst_content, standsLone_content]
  have ho : (pageStyle grownFrom).outOfFlow = false := by decide +kernel
  have hs : (pageStyle grownFrom).Frameless := by constructor <;> decide +kernel
  have hp : ∀ t, (groupedPara t).inFlowBlock = true := fun t => by simp [groupedPara, Styled.inFlowBlock, ho]
  have hf : [groupedPara "zz", groupedText " ", groupedPara "ab cd"].filter Styled.inFlowBlock =
      [groupedPara "zz", groupedPara "ab cd"] := by
    rw [List.filter_cons_of_pos (hp _), List.filter_cons_of_neg (by simp [groupedText, Styled.inFlowBlock]),
      List.filter_cons_of_pos (hp _)]
    rfl
  refine ⟨.inside _ _ _ _ _ hs ho ?_, .inside _ _ _ _ hs ho (.here (hp _)), .inside _ _ _ _ hs ho (.here (hp _))⟩
  rw [← hf]
  exact .here _ (by decide +kernel)

/-- the second paragraph is moved down by the height of the first one -/
example : pageAt composedFirst 30 = some [("zz", 0, 68 / 5)] ∧
    pageAt standsLone 30 = some [("ab", 0, 68 / 5), ("cd", 0, 164 / 5)] ∧
    pageAt composedDoc 30 = some [("zz", 0, 68 / 5), ("ab", 0, 164 / 5), ("cd", 0, 52)] := by decide +kernel

end Sinab
