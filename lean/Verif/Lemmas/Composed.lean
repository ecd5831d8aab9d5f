import Verif.Spec.Composed
import Verif.Lemmas.Stands

/-! What is drawn of a page is what is drawn of its blocks (C99). -/

namespace Sinab

open Sinab.Append

/-- layout of a block gives the same whatever stands before it -/
theorem boxLayout_there (E : TextEnv) {n : Nat} {b : BlockLevelBox} (hs : b.sound) (hn : b.depth ≤ n)
    {cb : ContainingBlock} (hcb : cb.standard) {rank : Nat} {abs o : List AbsFragment} {fl : Bool} {f : Fragment}
    (hf : boxLayout E n b cb rank abs fl = .ok (f, o)) : ∃ o', boxLayout E b.depth b cb 0 [] false = .ok (f, o') := by
  obtain ⟨g, g', new, new', h1, h1', -, h2, -⟩ := (pruned_layout E n b.depth).1 b b cb rank 0 (.refl b) hs hn le_rfl hcb
  obtain ⟨k, k', new1, new1', h3, h3', -, h4, -⟩ := (pruned_layout E b.depth n).1 b b cb 0 rank (.refl b) hs le_rfl hn hcb
  rw [h1] at hf
  have e1 := (h1' [] false).symm.trans (h3 [] false)
  have e2 := (h1 [] false).symm.trans (h3' [] false)
  cases hf
  injection e1 with e1
  injection e1 with e1
  injection e2 with e2
  injection e2 with e2
  subst e1 e2
  rw [h2.antisymm h4] at h1'
  exact ⟨_, h1' [] false⟩

/-- what layout of a block gives -/
def fragmentOf (E : TextEnv) (cb : ContainingBlock) (b : BlockLevelBox) : Fragment :=
  match boxLayout E b.depth b cb 0 [] false with
  | .ok (f, _) => f
  | .error _ => .noOp cb.mode

theorem fragmentOf_eq (E : TextEnv) {n : Nat} {b : BlockLevelBox} (hs : b.sound) (hn : b.depth ≤ n)
    {cb : ContainingBlock} (hcb : cb.standard) {rank : Nat} {abs o : List AbsFragment} {fl : Bool} {f : Fragment}
    (hf : boxLayout E n b cb rank abs fl = .ok (f, o)) : f = fragmentOf E cb b := by
  obtain ⟨o', h⟩ := boxLayout_there E hs hn hcb hf
  rw [fragmentOf, h]

theorem layoutEach_all (E : TextEnv) {n : Nat} {cb : ContainingBlock} (hcb : cb.standard) : ∀ {bs : List BlockLevelBox}
    {k : Nat} {abs out : List AbsFragment} {gs : List Fragment}, blockSound bs → blockDepth bs ≤ n →
    layoutEach (boxLayout E n) cb k bs abs = .ok (gs, out) → gs = bs.map (fragmentOf E cb)
  | [], k, abs, out, gs, _, _, h => by
    cases h
    rfl
  | b :: bs, k, abs, out, gs, hs, hd, h => by
    obtain ⟨⟨f, a⟩, e1, h⟩ := bind_eq_ok.1 h
    obtain ⟨⟨fs, a'⟩, e2, h⟩ := bind_eq_ok.1 h
    cases h
    rw [blockDepth] at hd
    rw [List.map_cons, ← fragmentOf_eq E hs.1 (le_trans (le_max_left _ _) hd) hcb e1,
      layoutEach_all E hcb hs.2 (le_trans (le_max_right _ _) hd) e2]

theorem layoutAndPlaceEach_all (E : TextEnv) {n : Nat} {cb : ContainingBlock} (hcb : cb.standard) :
    ∀ {bs : List BlockLevelBox} {k : Nat} {abs out : List AbsFragment} {gs : List Fragment} {st st' : PlacementState},
    blockSound bs → blockDepth bs ≤ n → layoutAndPlaceEach (boxLayout E n) cb k bs abs st = .ok (gs, out, st') →
    placeAll st (bs.map (fragmentOf E cb)) = .ok (gs, st')
  | [], k, abs, out, gs, st, st', _, _, h => by
    cases h
    rfl
  | b :: bs, k, abs, out, gs, st, st', hs, hd, h => by
    obtain ⟨⟨f, a⟩, e1, h⟩ := bind_eq_ok.1 h
    obtain ⟨⟨f', st1⟩, e2, h⟩ := bind_eq_ok.1 h
    obtain ⟨⟨fs', a', st2⟩, e3, h⟩ := bind_eq_ok.1 h
    cases h
    rw [blockDepth] at hd
    have ih := layoutAndPlaceEach_all E hcb hs.2 (le_trans (le_max_right _ _) hd) e3
    rw [fragmentOf_eq E hs.1 (le_trans (le_max_left _ _) hd) hcb e1] at e2
    rw [List.map_cons, placeAll]
    refine bind_eq_ok.2 ⟨_, e2, bind_eq_ok.2 ⟨_, ih, rfl⟩⟩

/-- the blocks in a block, after layout and placement -/
theorem children_all (E : TextEnv) {n : Nat} {cb : ContainingBlock} (hcb : cb.standard) {bs : List BlockLevelBox}
    (hs : blockSound bs) (hd : blockDepth bs ≤ n) {rank : Nat} {abs out : List AbsFragment} {floats coll : Bool}
    {fc : FlowChildren} (h : layoutBlockLevelChildren (boxLayout E n) bs cb rank abs floats coll = .ok (fc, out)) :
    ∃ st', placeAll (PlacementState.start coll) (bs.map (fragmentOf E cb)) = .ok (fc.fragments, st') := by
  obtain ⟨⟨fs', a, st⟩, e1, h⟩ := bind_eq_ok.1 h
  obtain ⟨adj, -, h⟩ := bind_eq_ok.1 h
  cases h
  cases floats with
  | true => exact ⟨_, layoutAndPlaceEach_all E hcb hs hd e1⟩
  | false =>
    obtain ⟨⟨fs, a1⟩, e2, e1⟩ := bind_eq_ok.1 e1
    obtain ⟨⟨fs1, st1⟩, e3, e1⟩ := bind_eq_ok.1 e1
    cases e1
    rw [layoutEach_all E hcb hs hd e2] at e3
    exact ⟨_, e3⟩

/-- how far a fragment is moved down when it is placed -/
def droppedBy (st : PlacementState) (f : Fragment) : Length :=
  match placeFragment st f with
  | .ok (f', _) => f'.offset.y - f.offset.y
  | .error _ => 0

theorem droppedBy_eq {st st' : PlacementState} {f f' : Fragment} (h : placeFragment st f = .ok (f', st')) :
    f' = f.translateBlock (droppedBy st f) := by
  obtain ⟨d, e⟩ := place_down h
  have hd : droppedBy st f = d := by
    rw [droppedBy, h, e]
    cases f <;> simp [Fragment.offset, Fragment.translateBlock, Rect.addBlock]
  rw [hd, e]

/-- the state after some fragments have been placed -/
def stateAfter (st : PlacementState) : List Fragment → PlacementState
  | [] => st
  | f :: fs =>
    match placeFragment st f with
    | .ok (_, st') => stateAfter st' fs
    | .error _ => st

theorem stateAfter_snoc {st' st'' : PlacementState} : ∀ {fs : List Fragment} {gs : List Fragment} {f f' : Fragment}
    {st : PlacementState}, placeAll st fs = .ok (gs, st') → placeFragment st' f = .ok (f', st'') →
    stateAfter st fs = st' ∧ placeAll st (fs ++ [f]) = .ok (gs ++ [f'], st'')
  | [], gs, f, f', st, h, h' => by
    cases h
    exact ⟨rfl, bind_eq_ok.2 ⟨_, h', rfl⟩⟩
  | g :: fs, gs, f, f', st, h, h' => by
    obtain ⟨⟨g', st1⟩, e1, h⟩ := bind_eq_ok.1 h
    obtain ⟨⟨gs', st2⟩, e2, h⟩ := bind_eq_ok.1 h
    cases h
    obtain ⟨k1, k2⟩ := stateAfter_snoc (f := f) (f' := f') e2 h'
    refine ⟨by rw [stateAfter, e1]; exact k1, ?_⟩
    rw [List.cons_append, placeAll]
    exact bind_eq_ok.2 ⟨_, e1, bind_eq_ok.2 ⟨_, k2, rfl⟩⟩

/-- fragments moved down, by a distance that may depend on those before -/
def dropAll (off : List Fragment → Fragment → Length) : List Fragment → List Fragment → List Fragment
  | _, [] => []
  | before, f :: fs => f.translateBlock (off before f) :: dropAll off (before ++ [f]) fs

theorem placeAll_drop {st0 : PlacementState} : ∀ {fs before gs0 gs : List Fragment} {st st' : PlacementState},
    placeAll st0 before = .ok (gs0, st) → placeAll st fs = .ok (gs, st') →
    gs = dropAll (fun before f => droppedBy (stateAfter st0 before) f) before fs
  | [], before, gs0, gs, st, st', _, h => by
    cases h
    rfl
  | f :: fs, before, gs0, gs, st, st', h0, h => by
    obtain ⟨⟨f', st1⟩, e1, h⟩ := bind_eq_ok.1 h
    obtain ⟨⟨gs', st2⟩, e2, h⟩ := bind_eq_ok.1 h
    cases h
    obtain ⟨k1, k2⟩ := stateAfter_snoc h0 e1
    rw [dropAll, ← placeAll_drop k2 e2, k1, ← droppedBy_eq e1]

theorem placeAll_one {st st' : PlacementState} {f : Fragment} {gs : List Fragment}
    (h : placeAll st [f] = .ok (gs, st')) : gs = [f.translateBlock (droppedBy st f)] :=
  placeAll_drop (st0 := st) (before := []) (gs0 := []) rfl h

/-- what is painted for fragments that are moved down one by one -/
theorem callsAt_stacked (o : PVec2 Length) (fr : BlockLevelBox → Fragment) (drop : List Fragment → Fragment → Length)
    (own : BlockLevelBox → List DrawCall) : ∀ (bs before : List BlockLevelBox),
    uprightAll (dropAll drop (before.map fr) (bs.map fr)) →
    (∀ b ∈ bs, own b = callsAt o [(fr b).translateBlock (drop [] (fr b))]) →
    callsAt o (dropAll drop (before.map fr) (bs.map fr)) =
      stackedCalls own (fun before b => drop (before.map fr) (fr b) - drop [] (fr b)) before bs
  | [], before, _, _ => rfl
  | b :: bs, before, hu, ho => by
    rw [List.map_cons, dropAll] at hu ⊢
    have hb : (fr b).upright := (up_down _ _).1 hu.1
    have ih := callsAt_stacked o fr drop own bs (before ++ [b]) (by
      rw [List.map_append]
      exact hu.2) fun b hb => ho b (List.mem_cons_of_mem _ hb)
    rw [List.map_append] at ih
    rw [stackedCalls, callsAt_cons o hu.1, ← ih, ho b (by simp), callsAt_down o _ hb, callsAt_down o _ hb,
      ← callsAt_move o _ (fs := [fr b]) ⟨hb, trivial⟩, ← callsAt_move o _ (fs := [fr b]) ⟨hb, trivial⟩,
      ← callsAt_move _ _ (fs := [fr b]) ⟨hb, trivial⟩]
    have : o + ⟨0, drop (before.map fr) (fr b)⟩ =
        o + ⟨0, drop [] (fr b)⟩ + ⟨0, drop (before.map fr) (fr b) - drop [] (fr b)⟩ := by
      simp [pvec2_add]
    rw [this]
    rfl

/-! ## Pages -/

theorem heldAll_none : ∀ {bs : List BlockLevelBox}, (∀ b ∈ bs, b.held = []) → heldAll bs = []
  | [], _ => rfl
  | b :: bs, h => by
    rw [heldAll, h b (by simp), heldAll_none fun b hb => h b (List.mem_cons_of_mem _ hb)]
    rfl

/-- the fragments of a page with some blocks -/
theorem page_all (E : TextEnv) {bs : List BlockLevelBox} {floats : Bool} {size : PVec2 Length} {fs : List Fragment}
    (hs : blockSound bs) (hh : ∀ b ∈ bs, b.held = []) (h : rootLayout E (.mk (.blockLevelBoxes bs) floats) size = .ok fs) :
    ∃ st', placeAll (.start false) (bs.map (fragmentOf E ⟨size.x, .length size.y, (.horizontalTb, .ltr)⟩)) =
      .ok (fs, st') := by
  obtain ⟨⟨fc, abs⟩, h1, h⟩ := bind_eq_ok.1 h
  obtain ⟨more, h3, h⟩ := bind_eq_ok.1 h
  cases h
  obtain ⟨⟨fc0, abs0⟩, h2, h1⟩ := bind_eq_ok.1 h1
  cases h1
  have hn := found_nothing (container_finds (c := .blockLevelBoxes bs) (boxFinds E _) hs h2) (heldAll_none hh)
  rw [hn] at h3
  cases h3
  obtain ⟨st', h4⟩ := children_all E (by rfl) hs le_rfl h2
  exact ⟨st', by rw [List.append_nil]; exact h4⟩

/-! ## The order of blocks -/

theorem level_move (e : Length) (c : DrawCall) : (c.move ⟨0, e⟩).level = c.level := by
  cases c with
  | line ps c w s =>
    cases ps with
    | nil => rfl
    | cons p ps => simp [DrawCall.move, DrawCall.level]
  | _ => simp [DrawCall.move, DrawCall.level]

theorem stackedCalls_level (own : BlockLevelBox → List DrawCall) (down : List BlockLevelBox → BlockLevelBox → Length) :
    ∀ bs before : List BlockLevelBox,
    (stackedCalls own down before bs).map DrawCall.level = bs.flatMap fun b => (own b).map DrawCall.level
  | [], _ => rfl
  | b :: bs, before => by
    rw [stackedCalls, List.map_append, stackedCalls_level own down bs, List.flatMap_cons, List.map_map]
    congr 1
    exact List.map_congr_left fun c _ => level_move _ c

theorem blockSound_all {bs : List BlockLevelBox} : blockSound bs ↔ ∀ b ∈ bs, b.sound := by
  induction bs with
  | nil => simp [blockSound]
  | cons b bs ih => simp [blockSound, ih]

/-! ## Documents -/

theorem layoutEach_each {boxL : BoxLayout} {cb : ContainingBlock} : ∀ {bs : List BlockLevelBox} {k : Nat}
    {abs out : List AbsFragment} {gs : List Fragment}, layoutEach boxL cb k bs abs = .ok (gs, out) →
    List.Forall₂ (fun b f => ∃ rank a fl o, boxL b cb rank a fl = .ok (f, o)) bs gs
  | [], k, abs, out, gs, h => by
    cases h
    exact .nil
  | b :: bs, k, abs, out, gs, h => by
    obtain ⟨⟨f, a⟩, e1, h⟩ := bind_eq_ok.1 h
    obtain ⟨⟨fs, a'⟩, e2, h⟩ := bind_eq_ok.1 h
    cases h
    exact .cons ⟨_, _, _, _, e1⟩ (layoutEach_each e2)

theorem placeAll_each {R : BlockLevelBox → Fragment → Prop} {bs : List BlockLevelBox} {fs : List Fragment}
    (hR : List.Forall₂ R bs fs) : ∀ {gs : List Fragment} {st st' : PlacementState}, placeAll st fs = .ok (gs, st') →
    ∃ ps : List (Fragment × Length), List.Forall₂ (fun b p => R b p.1) bs ps ∧
      gs = ps.map fun p => p.1.translateBlock p.2 := by
  induction hR with
  | nil =>
    intro gs st st' h
    cases h
    exact ⟨[], .nil, rfl⟩
  | cons h1 _ ih =>
    intro gs st st' h
    obtain ⟨⟨f', st1⟩, e1, h⟩ := bind_eq_ok.1 h
    obtain ⟨⟨gs', st2⟩, e2, h⟩ := bind_eq_ok.1 h
    cases h
    obtain ⟨d, rfl⟩ := place_down e1
    obtain ⟨ps, k1, rfl⟩ := ih e2
    exact ⟨(_, d) :: ps, .cons h1 k1, rfl⟩

theorem layoutAndPlaceEach_each {boxL : BoxLayout} {cb : ContainingBlock} : ∀ {bs : List BlockLevelBox} {k : Nat}
    {abs out : List AbsFragment} {gs : List Fragment} {st st' : PlacementState},
    layoutAndPlaceEach boxL cb k bs abs st = .ok (gs, out, st') → ∃ ps : List (Fragment × Length),
      List.Forall₂ (fun b p => ∃ rank a fl o, boxL b cb rank a fl = .ok (p.1, o)) bs ps ∧
      gs = ps.map fun p => p.1.translateBlock p.2
  | [], k, abs, out, gs, st, st', h => by
    cases h
    exact ⟨[], .nil, rfl⟩
  | b :: bs, k, abs, out, gs, st, st', h => by
    obtain ⟨⟨f, a⟩, e1, h⟩ := bind_eq_ok.1 h
    obtain ⟨⟨f', st1⟩, e2, h⟩ := bind_eq_ok.1 h
    obtain ⟨⟨fs', a', st2⟩, e3, h⟩ := bind_eq_ok.1 h
    cases h
    obtain ⟨d, rfl⟩ := place_down e2
    obtain ⟨ps, k1, rfl⟩ := layoutAndPlaceEach_each e3
    exact ⟨(f, d) :: ps, .cons ⟨_, _, _, _, e1⟩ k1, rfl⟩

theorem children_each {boxL : BoxLayout} {cb : ContainingBlock} {bs : List BlockLevelBox} {rank : Nat}
    {abs out : List AbsFragment} {floats coll : Bool} {fc : FlowChildren}
    (h : layoutBlockLevelChildren boxL bs cb rank abs floats coll = .ok (fc, out)) : ∃ ps : List (Fragment × Length),
      List.Forall₂ (fun b p => ∃ rank a fl o, boxL b cb rank a fl = .ok (p.1, o)) bs ps ∧
      fc.fragments = ps.map fun p => p.1.translateBlock p.2 := by
  obtain ⟨⟨fs', a, st⟩, e1, h⟩ := bind_eq_ok.1 h
  obtain ⟨adj, -, h⟩ := bind_eq_ok.1 h
  cases h
  cases floats with
  | true => exact layoutAndPlaceEach_each e1
  | false =>
    obtain ⟨⟨fs, a1⟩, e2, e1⟩ := bind_eq_ok.1 e1
    obtain ⟨⟨fs1, st1⟩, e3, e1⟩ := bind_eq_ok.1 e1
    cases e1
    exact placeAll_each (layoutEach_each e2) e3

/-- of the fragments only those of `ps` are seen, each as far down as it says -/
def DisplaysEach (ps : List (Fragment × Length)) (fs : List Fragment) : Prop :=
  uprightAll fs → (∀ p ∈ ps, p.1.upright) ∧ ∀ o, (callsAt o fs).filter DrawCall.isMark =
    ps.flatMap fun p => (callsAt (o + ⟨0, p.2⟩) [p.1]).filter DrawCall.isMark

theorem DisplaysEach.self : ∀ ps : List (Fragment × Length), DisplaysEach ps (ps.map fun p => p.1.translateBlock p.2)
  | [] => fun _ => ⟨by simp, fun o => rfl⟩
  | p :: ps => by
    intro hu
    have hp : p.1.upright := (up_down _ _).1 hu.1
    obtain ⟨h1, h2⟩ := DisplaysEach.self ps hu.2
    refine ⟨by simpa using ⟨hp, fun a b => h1 (a, b)⟩, fun o => ?_⟩
    rw [List.map_cons, callsAt_cons o hu.1, List.filter_append, h2, List.flatMap_cons, callsAt_down o _ hp,
      ← callsAt_move o _ (fs := [p.1]) ⟨hp, trivial⟩]

theorem DisplaysEach.down {ps : List (Fragment × Length)} {g : Fragment} (h : DisplaysEach ps [g]) (e : Length) :
    DisplaysEach (ps.map fun p => (p.1, p.2 + e)) [g.translateBlock e] := by
  intro hu
  have hg : g.upright := (up_down e g).1 hu.1
  obtain ⟨h1, h2⟩ := h ⟨hg, trivial⟩
  refine ⟨List.forall_mem_map.2 h1, fun o => ?_⟩
  have : ∀ d : Length, o + ⟨0, d + e⟩ = o + ⟨0, e⟩ + ⟨0, d⟩ := by
    intro d
    simp only [pvec2_add, PVec2.mk.injEq]
    constructor <;> ring
  rw [callsAt_down o e hg, ← callsAt_move o ⟨0, e⟩ (fs := [g]) ⟨hg, trivial⟩, h2, List.flatMap_map]
  simp only [this]

theorem DisplaysEach.box {ps : List (Fragment × Length)} {cs : List Fragment} (h : DisplaysEach ps cs) {s : Style}
    (hs : s.Frameless) {g : BoxGeom} (hg : g.border = ⟨0, 0, 0, 0⟩) (hx : g.contentRect.startCorner.inline = 0)
    (m : CollapsedBlockMargins) :
    DisplaysEach (ps.map fun p => (p.1, g.contentRect.startCorner.block + p.2)) [.box s g m cs] := by
  intro hu
  have hc : uprightAll cs := hu.1
  obtain ⟨h1, h2⟩ := h hc
  refine ⟨List.forall_mem_map.2 h1, fun o => ?_⟩
  have : ∀ d : Length, o + ⟨0, g.contentRect.startCorner.block + d⟩ = o + (Fragment.box s g m cs).offset + ⟨0, d⟩ := by
    intro d
    simp only [pvec2_add, Fragment.offset, PVec2.mk.injEq, hx]
    constructor <;> ring
  rw [callsAt_box o hc, List.filter_append, frameless_unseen isMark_eye hs hg, h2, List.flatMap_map]
  simp only [this]
  rfl

/-- what layout gives for each of the blocks -/
def LaidOutEach (E : TextEnv) (w : Length) (bs : List BlockLevelBox) (ps : List (Fragment × Length)) : Prop :=
  List.Forall₂ (fun b p => b.sound ∧ LaidOutIn E b w p.1) bs ps

theorem LaidOutEach.map {E : TextEnv} {w : Length} {bs : List BlockLevelBox} {ps : List (Fragment × Length)}
    (h : LaidOutEach E w bs ps) (f : Length → Length) : LaidOutEach E w bs (ps.map fun p => (p.1, f p.2)) := by
  unfold LaidOutEach at h ⊢
  rw [List.forall₂_map_right_iff]
  exact h

theorem forall₂_mem {α β : Type} {R : α → β → Prop} : ∀ {as : List α} {bs : List β}, List.Forall₂ R as bs →
    List.Forall₂ (fun a b => a ∈ as ∧ R a b) as bs
  | _, _, .nil => .nil
  | _, _, .cons h hs => .cons ⟨by simp, h⟩ ((forall₂_mem hs).imp fun _ _ k => ⟨List.mem_cons_of_mem _ k.1, k.2⟩)

theorem blocks_shown (E : TextEnv) {bs : List BlockLevelBox} {c : BlockContainer} (h : OnlyBlocks bs c)
    (hh : ∀ b ∈ bs, b.held = []) : ∀ (n : Nat) (cb : ContainingBlock) (rank : Nat) (out : List AbsFragment)
      (fl coll : Bool) (fc : FlowChildren), cb.standard → c.sound → c.depth ≤ n →
      containerLayout E (boxLayout E n) c cb rank [] fl coll = .ok (fc, out) →
      out = [] ∧ ∃ ps, LaidOutEach E cb.inlineSize bs ps ∧ DisplaysEach ps fc.fragments := by
  induction h with
  | here =>
    intro n cb rank out fl coll fc hcb hs hd hl
    obtain ⟨ps, e1, e2⟩ := children_each hl
    refine ⟨found_nothing (container_finds (c := .blockLevelBoxes bs) (boxFinds E _) hs hl) (heldAll_none hh), ps,
      (forall₂_mem e1).imp ?_, e2 ▸ DisplaysEach.self ps⟩
    rintro b p ⟨hb, r, a, fl', o, k⟩
    exact ⟨blockSound_mem hb hs, n, cb, r, a, fl', o, rfl, hcb, (blockDepth_mem hb).trans hd, k⟩
  | same s c hs h ih =>
    intro n cb rank out fl coll fc hcb hso hd hl
    obtain ⟨f, d, o, fl', e1, e2, e3⟩ := only_child hl
    have hm : BlockLevelBox.sameFormattingContextBlock s c ∈ [BlockLevelBox.sameFormattingContextBlock s c] := by simp
    have hd' := (blockDepth_mem hm).trans hd
    cases n with
    | zero => simp [BlockLevelBox.depth] at hd'
    | succ n =>
      rw [boxLayout] at e2
      simp only [boxLayoutWith] at e2
      obtain ⟨fc', g, m, e4, rfl, hg, hx⟩ := inFlow_frameless hs e2
      simp only [BlockLevelBox.depth] at hd'
      obtain ⟨h0, ps, k1, k2⟩ := ih n _ _ _ _ _ _ (by rfl) hso.1 (by omega) e4
      refine ⟨e3 h0, _, (k1.map fun d => g.contentRect.startCorner.block + d).map fun e => e + d, ?_⟩
      rw [e1]
      exact (k2.box hs hg hx m).down d
  | independent s c floats hs h ih =>
    intro n cb rank out fl coll fc hcb hso hd hl
    obtain ⟨f, d, o, fl', e1, e2, e3⟩ := only_child hl
    have hm : BlockLevelBox.independent s (.mk c floats) ∈ [BlockLevelBox.independent s (.mk c floats)] := by simp
    have hd' := (blockDepth_mem hm).trans hd
    cases n with
    | zero => simp [BlockLevelBox.depth] at hd'
    | succ n =>
      rw [boxLayout] at e2
      simp only [boxLayoutWith] at e2
      obtain ⟨fc', g, m, e4, rfl, hg, hx⟩ := inFlow_frameless hs e2
      obtain ⟨⟨fc1, a1⟩, e5, e4⟩ := bind_eq_ok.1 e4
      cases e4
      simp only [BlockLevelBox.depth, Bfc.depth] at hd'
      obtain ⟨h0, ps, k1, k2⟩ := ih n _ _ _ _ _ _ (by rfl) hso.1 (by omega) e5
      refine ⟨e3 h0, _, (k1.map fun d => g.contentRect.startCorner.block + d).map fun e => e + d, ?_⟩
      rw [e1]
      exact (k2.box hs hg hx m).down d

theorem containerOf_each (C : BoxContext) {L cs : List Styled} (h : ContentBlocks L cs) :
    ∀ s0 : Style, OnlyBlocks (L.map (Styled.blockBox C)) (containerOf C s0 cs).1 := by
  induction h with
  | here cs h =>
    intro s0
    rw [containerOf_blocks C s0 h]
    exact .here
  | inside L id s ins cs hs ho h ih =>
    intro s0
    rw [containerOf_only C s0 ho]
    cases ins with
    | flow => exact .same _ _ hs (ih s)
    | flowRoot => exact .independent _ _ _ hs (ih s)

theorem contentBlocks_inFlow {L cs : List Styled} (h : ContentBlocks L cs) : ∀ e ∈ L, e.inFlowBlock = true := by
  induction h with
  | here cs h => exact fun e he => (List.mem_filter.1 he).2
  | inside _ _ _ _ _ _ _ _ ih => exact ih

end Sinab
