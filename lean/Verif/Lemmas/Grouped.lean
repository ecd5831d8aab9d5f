import Verif.Props.Edited
import Verif.Spec.Grouped

/-! Layout of consecutive blocks that are put in a block of their own. -/

namespace Sinab

open Sinab.Append

/-! ## Layout does not depend on the rank of a box -/

theorem ifcLoop_rank (E : TextEnv) (r r' : Nat) : ∀ (n : Nat) (s : IfcState) (abs abs' : List AbsFragment),
    (ifcLoop E r n s abs).map Prod.fst = (ifcLoop E r' n s abs').map Prod.fst := by
  intro n
  induction n with
  | zero => intro s abs abs'; rfl
  | succ n ih =>
    intro s abs abs'
    rw [ifcLoop, ifcLoop]
    cases hr : s.current.remaining with
    | nil =>
      cases hs : s.stack with
      | nil => simp [Except.map]
      | cons p ps => exact ih _ _ _
    | cons b bs =>
      cases b with
      | inlineBox st f l c => exact ih _ _ _
      | textRun st t f =>
        simp only
        cases layoutTextRun E st t f { s with current := { s.current with remaining := bs } } with
        | error e => rfl
        | ok s' => exact ih _ _ _
      | outOfFlowAbsolutelyPositionedBox st c =>
        simp only
        cases IfcState.absStartCorner { s with current := { s.current with remaining := bs } } st with
        | error e => rfl
        | ok corner => exact ih _ _ _
      | outOfFlowFloatBox st c => exact ih _ _ _

theorem ifcLayout_rank {E : TextEnv} {st : Style} {bs : List InlineLevelBox} {cb : ContainingBlock} {r r' : Nat}
    {abs abs' o o' : List AbsFragment} {fc fc' : FlowChildren} (h : ifcLayout E st bs cb r abs = .ok (fc, o))
    (h' : ifcLayout E st bs cb r' abs' = .ok (fc', o')) : fc' = fc := by
  have e := ifcLoop_rank E r r' (inlineSteps bs + 1) (IfcState.start E st bs cb) abs abs'
  obtain ⟨⟨s, o1⟩, h1, h⟩ := bind_eq_ok.1 h
  obtain ⟨⟨s', o1'⟩, h1', h'⟩ := bind_eq_ok.1 h'
  rw [h1, h1'] at e
  simp only [Except.map, Except.ok.injEq] at e
  cases h
  cases h'
  rw [e]

/-- containing blocks that are of the same width -/
structure SameWidth (cb cb' : ContainingBlock) : Prop where
  inline : cb'.inlineSize = cb.inlineSize
  mode : cb'.mode = cb.mode

theorem inFlowSizes_same {cb cb' : ContainingBlock} (h : SameWidth cb cb') {s : Style}
    (hs : cb'.blockSize = cb.blockSize ∨ s.heightFree) (kind : BlockLevelKind) :
    inFlowSizes cb' s kind = inFlowSizes cb s kind := by
  have hw : s.boxSize.block = s.val .height := rfl
  simp only [inFlowSizes, h.inline, hw]
  rcases hs with hs | hs
  · rw [hs]
  · cases hh : (s.val .height : LengthOrPercentageOrAuto) with
    | auto => rfl
    | length l => rfl
    | percentage p => exact absurd hh (hs p)

/-- two ways to lay out a box, with the same result -/
def BoxAgree (boxL boxL' : BoxLayout) : Prop :=
  ∀ (b : BlockLevelBox) (cb cb' : ContainingBlock) (rank rank' : Nat) (f f' : Fragment) (o o' : List AbsFragment),
    SameWidth cb cb' → (cb'.blockSize = cb.blockSize ∨ b.heightFree) → blockNoAbs b → b.noFloats = b →
    boxL b cb rank [] false = .ok (f, o) → boxL' b cb' rank' [] false = .ok (f', o') → f' = f

theorem layoutEach_agree {boxL boxL' : BoxLayout} (hL : BoxAgree boxL boxL') (hS : BoxSolid boxL) (hS' : BoxSolid boxL')
    {cb cb' : ContainingBlock} (hw : SameWidth cb cb') : ∀ (bs : List BlockLevelBox) (k k' : Nat) (fs fs' : List Fragment)
    (o o' : List AbsFragment), (∀ b ∈ bs, cb'.blockSize = cb.blockSize ∨ b.heightFree) → blocksNoAbs bs →
    blockNoFloats bs = bs → layoutEach boxL cb k bs [] = .ok (fs, o) → layoutEach boxL' cb' k' bs [] = .ok (fs', o') →
    fs' = fs
  | [], _, _, _, _, _, _, _, _, _, h, h' => by
    cases h
    cases h'
    rfl
  | b :: bs, k, k', fs, fs', o, o', hb, ha, hn, h, h' => by
    obtain ⟨⟨f, o1⟩, h1, h⟩ := bind_eq_ok.1 h
    obtain ⟨⟨fs1, o2⟩, h2, h⟩ := bind_eq_ok.1 h
    cases h
    obtain ⟨⟨f', o1'⟩, h1', h'⟩ := bind_eq_ok.1 h'
    obtain ⟨⟨fs1', o2'⟩, h2', h'⟩ := bind_eq_ok.1 h'
    cases h'
    simp only [blockNoFloats, List.cons.injEq] at hn
    obtain ⟨rfl, -⟩ := hS _ _ _ _ _ ha.1 hn.1 h1
    obtain ⟨rfl, -⟩ := hS' _ _ _ _ _ ha.1 hn.1 h1'
    rw [hL _ _ _ _ _ _ _ _ _ hw (hb b (by simp)) ha.1 hn.1 h1 h1',
      layoutEach_agree hL hS hS' hw bs _ _ _ _ _ _ (fun c hc => hb c (by simp [hc])) ha.2 hn.2 h2 h2']

theorem container_agree {E : TextEnv} {boxL boxL' : BoxLayout} (hL : BoxAgree boxL boxL') (hS : BoxSolid boxL)
    (hS' : BoxSolid boxL') {c : BlockContainer} (ha : noAbs c) (hn : c.noFloats = c) {cb : ContainingBlock}
    {rank rank' : Nat} {coll : Bool} {fc fc' : FlowChildren} {o o' : List AbsFragment}
    (h : containerLayout E boxL c cb rank [] false coll = .ok (fc, o))
    (h' : containerLayout E boxL' c cb rank' [] false coll = .ok (fc', o')) : fc' = fc := by
  cases c with
  | inlineFormattingContext st bs => exact ifcLayout_rank h h'
  | blockLevelBoxes bs =>
    obtain ⟨fs, o, s, h1, h2, h3, h4, -⟩ := children_ok h
    obtain ⟨fs', o', s', h1', h2', h3', h4', -⟩ := children_ok h'
    simp only [BlockContainer.noFloats, BlockContainer.blockLevelBoxes.injEq] at hn
    have e := layoutEach_agree hL hS hS' ⟨rfl, rfl⟩ bs 0 0 _ _ _ _ (fun _ _ => .inl rfl) ha hn h1 h1'
    subst e
    rw [h2] at h2'
    obtain ⟨f1, f2, f3⟩ := fc
    obtain ⟨g1, g2, g3⟩ := fc'
    cases h2'
    simp only at h3 h4 h3' h4'
    rw [h3, h4, h3', h4']

theorem boxAgree (E : TextEnv) : ∀ n m, BoxAgree (boxLayout E n) (boxLayout E m)
  | 0, _ => by
    intro b cb cb' rank rank' f f' o o' _ _ _ _ e
    cases e
  | _ + 1, 0 => by
    intro b cb cb' rank rank' f f' o o' _ _ _ _ _ e
    cases e
  | n + 1, m + 1 => by
    intro b cb cb' rank rank' f f' o o' hw hh ha hn e e'
    rw [boxLayout] at e e'
    cases b with
    | outOfFlowAbsolutelyPositionedBox st c => exact ha.elim
    | outOfFlowFloatBox st c =>
      cases e
      cases e'
      rw [hw.mode]
    | sameFormattingContextBlock st c =>
      simp only [BlockLevelBox.noFloats, BlockLevelBox.sameFormattingContextBlock.injEq, true_and] at hn
      obtain ⟨fc, h1, -, rfl⟩ := inFlow_whole
        (contents := fun cb nested coll => containerLayout E (boxLayout E n) c cb rank nested false coll) e
        (fun _ _ _ _ k => (container_solid (boxSolid E n) ha hn k).1)
      obtain ⟨fc', h1', -, rfl⟩ := inFlow_whole
        (contents := fun cb nested coll => containerLayout E (boxLayout E m) c cb rank' nested false coll) e'
        (fun _ _ _ _ k => (container_solid (boxSolid E m) ha hn k).1)
      rw [inFlowSizes_same hw hh] at h1' ⊢
      rw [container_agree (boxAgree E n m) (boxSolid E n) (boxSolid E m) ha hn h1 h1']
    | independent st c =>
      obtain ⟨c, fl⟩ := c
      simp only [BlockLevelBox.noFloats, Bfc.noFloats, BlockLevelBox.independent.injEq, Bfc.mk.injEq, true_and] at hn
      obtain ⟨hn, rfl⟩ := hn
      obtain ⟨fc, h1, -, rfl⟩ := inFlow_whole
        (contents := fun cb nested _ => bfcLayout E (boxLayout E n) (.mk c false) cb rank nested) e
        (fun _ _ _ _ k => (bfc_solid (boxSolid E n) ha hn k).1)
      obtain ⟨fc', h1', -, rfl⟩ := inFlow_whole
        (contents := fun cb nested _ => bfcLayout E (boxLayout E m) (.mk c false) cb rank' nested) e'
        (fun _ _ _ _ k => (bfc_solid (boxSolid E m) ha hn k).1)
      rw [inFlowSizes_same hw hh] at h1' ⊢
      obtain ⟨⟨fc1, o1⟩, k1, h1⟩ := bind_eq_ok.1 h1
      obtain ⟨⟨fc1', o1'⟩, k1', h1'⟩ := bind_eq_ok.1 h1'
      cases h1
      cases h1'
      have k := container_agree (boxAgree E n m) (boxSolid E n) (boxSolid E m) ha hn k1 k1'
      subst k
      rfl

/-! ## Margins -/

/-- a margin made of margins: the positive part is not negative, the negative part is not positive -/
structure CollapsedMargin.Signed (m : CollapsedMargin) : Prop where
  pos : 0 ≤ m.maxPositive
  neg : m.minNegative ≤ 0

theorem signed_zero : CollapsedMargin.zero.Signed := ⟨le_refl _, le_refl _⟩

theorem signed_new (x : Length) : (CollapsedMargin.new x).Signed := ⟨le_max_right _ _, min_le_right _ _⟩

theorem signed_adjoin {a b : CollapsedMargin} (ha : a.Signed) : (a.adjoin b).Signed :=
  ⟨ha.pos.trans (le_max_left _ _), (min_le_left _ _).trans ha.neg⟩

theorem adjoin_assoc (a b c : CollapsedMargin) : (a.adjoin b).adjoin c = a.adjoin (b.adjoin c) := by
  simp only [CollapsedMargin.adjoin, max_assoc, min_assoc]

theorem zero_adjoin {a : CollapsedMargin} (h : a.Signed) : CollapsedMargin.zero.adjoin a = a := by
  simp only [CollapsedMargin.adjoin, CollapsedMargin.zero, max_eq_right h.pos, min_eq_right h.neg]

theorem adjoin_zero {a : CollapsedMargin} (h : a.Signed) : a.adjoin CollapsedMargin.zero = a := by
  simp only [CollapsedMargin.adjoin, CollapsedMargin.zero, max_eq_left h.pos, min_eq_left h.neg]

/-- placement states that occur -/
structure PlacementState.Neat (s : PlacementState) : Prop where
  start : s.startMargin.Signed
  current : s.currentMargin.Signed
  none : s.collapses = true → s.currentMargin = .zero

/-- a margin is passed over: what is placed next comes after it -/
def PlacementState.over (s : PlacementState) (M : CollapsedMargin) : PlacementState :=
  if s.collapses then { s with startMargin := s.startMargin.adjoin M }
  else { s with currentMargin := s.currentMargin.adjoin M }

/-- where a block with the given margin is placed -/
def PlacementState.lead (s : PlacementState) (M : CollapsedMargin) : Length :=
  (if s.collapses then 0 else (s.currentMargin.adjoin M).solve) + s.position

theorem over_collapses (s : PlacementState) (M : CollapsedMargin) : (s.over M).collapses = s.collapses := by
  unfold PlacementState.over
  split <;> rfl

theorem over_over (s : PlacementState) (M M' : CollapsedMargin) : (s.over M).over M' = s.over (M.adjoin M') := by
  unfold PlacementState.over
  cases s.collapses <;> simp [adjoin_assoc]

theorem over_lead (s : PlacementState) (M M' : CollapsedMargin) : (s.over M).lead M' = s.lead (M.adjoin M') := by
  unfold PlacementState.over PlacementState.lead
  cases h : s.collapses <;> simp [adjoin_assoc, h]

theorem over_zero {s : PlacementState} (h : s.Neat) : s.over .zero = s := by
  unfold PlacementState.over
  split
  · rw [adjoin_zero h.start]
  · rw [adjoin_zero h.current]

theorem over_neat {s : PlacementState} (h : s.Neat) (M : CollapsedMargin) : (s.over M).Neat := by
  unfold PlacementState.over
  split
  · exact ⟨signed_adjoin h.start, h.current, h.none⟩
  · rename_i hc
    exact ⟨h.start, signed_adjoin h.current, fun k => absurd k hc⟩

theorem start_neat (coll : Bool) : (PlacementState.start coll).Neat := ⟨signed_zero, signed_zero, fun _ => rfl⟩

/-! ## What is seen of blocks through which margins collapse -/

/-- a kind of marks, as much seen in any place; it does not include the records of sizes -/
structure Eye (vis : DrawCall → Bool) : Prop where
  move : ∀ v a, vis (a.move v) = vis a
  bbox : ∀ x y w h, vis (.bbox x y w h) = false

variable {vis : DrawCall → Bool}

theorem filter_move (hv : Eye vis) (v : PVec2 Length) (l : List DrawCall) :
    (l.map (DrawCall.move v)).filter vis = (l.filter vis).map (DrawCall.move v) := by
  rw [List.filter_map]
  congr 1
  exact List.filter_congr fun a _ => hv.move v a

/-- nothing is seen -/
def Unseen (vis : DrawCall → Bool) (fs : List Fragment) : Prop := ∀ o, (callsAt o fs).filter vis = []

theorem unseen_nil : Unseen vis [] := fun _ => rfl

theorem unseen_cons {f : Fragment} {fs : List Fragment} (hu : f.upright) (h : Unseen vis [f]) (h' : Unseen vis fs) :
    Unseen vis (f :: fs) := by
  intro o
  rw [callsAt_cons o hu, List.filter_append, h o, h' o]
  rfl

theorem unseen_down (hv : Eye vis) {f : Fragment} (hu : f.upright) (e : Length) (h : Unseen vis [f]) :
    Unseen vis [f.translateBlock e] := by
  intro o
  rw [callsAt_down o e hu, filter_move hv, h o]
  rfl

/-- the margins of a box are made of margins, and nothing is seen of one through which they collapse -/
def Hollow (vis : DrawCall → Bool) : Fragment → Prop
  | .box st g m cs => m.start.Signed ∧ m.«end».Signed ∧ (m.collapsedThrough = true → Unseen vis [.box st g m cs])
  | .anonymous _ cs _ => cs = []
  | .text .. => False

/-- the margin of something that takes no space -/
def Fragment.passes : Fragment → Option CollapsedMargin
  | .box _ _ m _ => if m.collapsedThrough then some (m.start.adjoin m.«end») else none
  | .anonymous .. => some .zero
  | .text .. => none

theorem hollow_unseen (hv : Eye vis) {f : Fragment} {M : CollapsedMargin} (h : Hollow vis f) (hu : f.upright)
    (hM : f.passes = some M) : Unseen vis [f] ∧ M.Signed := by
  cases f with
  | text => cases hM
  | anonymous r cs m =>
    cases hM
    cases h
    refine ⟨fun o => ?_, signed_zero⟩
    obtain ⟨rfl, -⟩ := hu
    simp [callsAt, paintAll, paint_anonymous, Trace.andThen, Trace.done, ownCalls, hv.bbox]
  | box st g m cs =>
    simp only [Fragment.passes] at hM
    split at hM
    · rename_i hm
      cases hM
      exact ⟨h.2.2 hm, signed_adjoin h.1⟩
    · cases hM

theorem translateBlock_zero (f : Fragment) : f.translateBlock 0 = f := by
  cases f <;> simp [Fragment.translateBlock, Rect.addBlock]

theorem place_passes {s s1 : PlacementState} {f r : Fragment} {M : CollapsedMargin} (hs : s.Neat)
    (hM : f.passes = some M) (h : placeFragment s f = .ok (r, s1)) : s1 = s.over M ∧ ∃ e, r = f.translateBlock e := by
  cases f with
  | text => cases hM
  | anonymous r cs m =>
    cases hM
    rw [placeFragment] at h
    split at h
    · cases h
    · split at h
      · cases h
      · cases h
        exact ⟨(over_zero hs).symm, _, rfl⟩
  | box st g m cs =>
    simp only [Fragment.passes] at hM
    split at hM
    · rename_i hm
      cases hM
      rw [placeFragment] at h
      simp only [hm, if_true] at h
      unfold PlacementState.over
      split at h
      · rename_i hc
        split at h
        · cases h
        · cases h
          rw [if_pos hc, adjoin_assoc]
          exact ⟨rfl, 0, (translateBlock_zero _).symm⟩
      · rename_i hc
        cases h
        rw [if_neg hc, adjoin_assoc]
        exact ⟨rfl, _, rfl⟩
    · cases hM

/-- the height of a box with its padding and borders -/
def BoxGeom.tall (g : BoxGeom) : Length := g.padding.blockSum + g.border.blockSum + g.contentRect.size.block

theorem place_apart {s s1 : PlacementState} {st : Style} {g : BoxGeom} {m : CollapsedBlockMargins} {cs : List Fragment}
    {r : Fragment} (hs : s.Neat) (hm : m.collapsedThrough = false)
    (h : placeFragment s (.box st g m cs) = .ok (r, s1)) :
    r = (Fragment.box st g m cs).translateBlock (s.lead m.start) ∧
    s1 = ⟨false, if s.collapses then s.startMargin.adjoin m.start else s.startMargin, m.«end»,
      s.lead m.start + g.tall⟩ := by
  rw [placeFragment] at h
  simp only [hm, Bool.false_eq_true, if_false] at h
  unfold PlacementState.lead BoxGeom.tall
  split at h
  · rename_i hc
    have h0 := hs.none hc
    split at h
    · cases h
    · cases h
      have hz : CollapsedMargin.zero.solve = 0 := by simp [CollapsedMargin.solve, CollapsedMargin.zero]
      simp only [h0, hc, if_true, hz]
      refine ⟨rfl, ?_⟩
      congr 1
      ring
  · rename_i hc
    cases h
    simp only [Bool.not_eq_true] at hc
    simp only [hc, Bool.false_eq_true, if_false]
    refine ⟨rfl, ?_⟩
    congr 1
    ring

theorem hollow_apart {f : Fragment} (h : Hollow vis f) (hM : f.passes = none) : ∃ st g m cs, f = .box st g m cs ∧
    m.collapsedThrough = false ∧ m.start.Signed ∧ m.«end».Signed := by
  cases f with
  | text => exact h.elim
  | anonymous => cases hM
  | box st g m cs =>
    refine ⟨st, g, m, cs, rfl, ?_, h.1, h.2.1⟩
    simp only [Fragment.passes] at hM
    split at hM
    · cases hM
    · rename_i hm
      simpa using hm

theorem place_neat {s s1 : PlacementState} {f r : Fragment} (hs : s.Neat) (hf : Hollow vis f)
    (h : placeFragment s f = .ok (r, s1)) : s1.Neat := by
  cases hM : f.passes with
  | some M =>
    rw [(place_passes hs hM h).1]
    exact over_neat hs M
  | none =>
    obtain ⟨st, g, m, cs, rfl, hm, h1, h2⟩ := hollow_apart hf hM
    rw [(place_apart hs hm h).2]
    refine ⟨?_, h2, fun k => by cases k⟩
    show CollapsedMargin.Signed (ite _ _ _)
    split
    · exact signed_adjoin hs.start
    · exact hs.start

theorem placeAll_neat : ∀ (fs rs : List Fragment) (s s1 : PlacementState), s.Neat → (∀ f ∈ fs, Hollow vis f) →
    placeAll s fs = .ok (rs, s1) → s1.Neat
  | [], _, _, _, hs, _, h => by
    cases h
    exact hs
  | f :: fs, rs, s, s1, hs, hf, h => by
    obtain ⟨⟨r, s2⟩, h1, h⟩ := bind_eq_ok.1 h
    obtain ⟨⟨rs2, s3⟩, h2, h⟩ := bind_eq_ok.1 h
    cases h
    exact placeAll_neat fs _ _ _ (place_neat hs (hf f (by simp)) h1) (fun g hg => hf g (by simp [hg])) h2

/-- after the first block, the margin before it is of no importance -/
theorem place_start {s s1 : PlacementState} {f r : Fragment} (X : CollapsedMargin) (hc : s.collapses = false)
    (h : placeFragment s f = .ok (r, s1)) :
    placeFragment { s with startMargin := X } f = .ok (r, { s1 with startMargin := X }) ∧ s1.collapses = false ∧
      s1.startMargin = s.startMargin := by
  cases f with
  | text => cases h
  | anonymous rect cs mode =>
    rw [placeFragment] at h ⊢
    split at h
    · cases h
    · rename_i h1
      split at h
      · cases h
      · rename_i h2
        cases h
        rw [if_neg h1, if_neg h2]
        exact ⟨rfl, hc, rfl⟩
  | box style g m cs =>
    rw [placeFragment] at h ⊢
    simp only [hc, Bool.false_eq_true, if_false] at h ⊢
    split at h <;> rename_i hm <;> cases h
    · rw [if_pos hm]
      exact ⟨rfl, rfl, rfl⟩
    · rw [if_neg hm]
      exact ⟨rfl, rfl, rfl⟩

theorem placeAll_start (X : CollapsedMargin) : ∀ (fs rs : List Fragment) (s s1 : PlacementState), s.collapses = false →
    placeAll s fs = .ok (rs, s1) → placeAll { s with startMargin := X } fs = .ok (rs, { s1 with startMargin := X }) ∧
      s1.collapses = false ∧ s1.startMargin = s.startMargin
  | [], rs, s, s1, hc, h => by
    cases h
    exact ⟨rfl, hc, rfl⟩
  | f :: fs, rs, s, s1, hc, h => by
    obtain ⟨⟨r, s2⟩, h1, h⟩ := bind_eq_ok.1 h
    obtain ⟨⟨rs2, s3⟩, h2, h⟩ := bind_eq_ok.1 h
    cases h
    obtain ⟨a1, a2, a3⟩ := place_start X hc h1
    obtain ⟨b1, b2, b3⟩ := placeAll_start X fs rs2 s2 _ a2 h2
    refine ⟨?_, b2, b3.trans a3⟩
    simp only [placeAll, a1, b1, bind, Except.bind, pure, Except.pure]

/-! ## Blocks placed in a block of their own, and directly -/

/-- where blocks are, placed directly after the state `s` (with the result `rs`, `s1`), and in a block of their own (with
the result `is`, `i`) -/
def GroupRun (vis : DrawCall → Bool) (s s1 i : PlacementState) (rs is : List Fragment) : Prop :=
  (∃ M : CollapsedMargin, M.Signed ∧ i = ⟨true, M, .zero, 0⟩ ∧ s1 = s.over M ∧ Unseen vis rs ∧ Unseen vis is) ∨
  (i.collapses = false ∧ i.Neat ∧
    s1 = ⟨false, if s.collapses then s.startMargin.adjoin i.startMargin else s.startMargin, i.currentMargin,
      s.lead i.startMargin + i.position⟩ ∧
    ∀ o, (callsAt o rs).filter vis =
      (callsAt o (is.map (Fragment.translateBlock (s.lead i.startMargin)))).filter vis)

theorem up_down (e : Length) : ∀ f : Fragment, (f.translateBlock e).upright ↔ f.upright
  | .box .. => Iff.rfl
  | .anonymous .. => Iff.rfl
  | .text .. => Iff.rfl

theorem group_run (hv : Eye vis) {s : PlacementState} (hs : s.Neat) : ∀ (FL : List Fragment) (M : CollapsedMargin)
    (rs is : List Fragment) (s1 i : PlacementState), M.Signed → (∀ f ∈ FL, Hollow vis f) → uprightAll FL →
    placeAll (s.over M) FL = .ok (rs, s1) → placeAll ⟨true, M, .zero, 0⟩ FL = .ok (is, i) → GroupRun vis s s1 i rs is
  | [], M, rs, is, s1, i, hM, _, _, h, h' => by
    cases h
    cases h'
    exact .inl ⟨M, hM, rfl, rfl, unseen_nil, unseen_nil⟩
  | f :: FL, M, rs, is, s1, i, hM, hf, hu, h, h' => by
    obtain ⟨⟨r, s2⟩, h1, h⟩ := bind_eq_ok.1 h
    obtain ⟨⟨rs2, s3⟩, h2, h⟩ := bind_eq_ok.1 h
    cases h
    obtain ⟨⟨r', i2⟩, h1', h'⟩ := bind_eq_ok.1 h'
    obtain ⟨⟨is2, i3⟩, h2', h'⟩ := bind_eq_ok.1 h'
    cases h'
    have hi : (PlacementState.mk true M .zero 0).Neat := ⟨hM, signed_zero, fun _ => rfl⟩
    have hfl : ∀ g ∈ FL, Hollow vis g := fun g hg => hf g (by simp [hg])
    cases hp : f.passes with
    | some N =>
      obtain ⟨hun, hN⟩ := hollow_unseen hv (hf f (by simp)) hu.1 hp
      obtain ⟨rfl, e, rfl⟩ := place_passes (over_neat hs M) hp h1
      obtain ⟨rfl, e', rfl⟩ := place_passes hi hp h1'
      rw [over_over] at h2
      have u1 := unseen_down hv hu.1 e hun
      have u2 := unseen_down hv hu.1 e' hun
      rcases group_run hv hs FL (M.adjoin N) _ _ _ _ (signed_adjoin hM) hfl hu.2 h2 h2' with
        ⟨M', k1, k2, k3, k4, k5⟩ | ⟨k1, k2, k3, k4⟩
      · exact .inl ⟨M', k1, k2, k3, unseen_cons ((up_down _ _).2 hu.1) u1 k4,
          unseen_cons ((up_down _ _).2 hu.1) u2 k5⟩
      · refine .inr ⟨k1, k2, k3, fun o => ?_⟩
        rw [List.map_cons, callsAt_cons o ((up_down _ _).2 hu.1),
          callsAt_cons o ((up_down _ _).2 ((up_down _ _).2 hu.1)), List.filter_append, List.filter_append, u1 o,
          unseen_down hv ((up_down _ _).2 hu.1) _ u2 o, k4 o]
    | none =>
      obtain ⟨st, g, m, cs, rfl, hm, m1, m2⟩ := hollow_apart (hf f (by simp)) hp
      obtain ⟨rfl, rfl⟩ := place_apart (over_neat hs M) hm h1
      obtain ⟨rfl, rfl⟩ := place_apart hi hm h1'
      have hz : (PlacementState.mk true M .zero 0).lead m.start = 0 := by simp [PlacementState.lead]
      rw [over_lead, over_collapses] at h2
      rw [hz] at h2'
      simp only [if_true] at h2'
      obtain ⟨q1, q2⟩ := placeAll_shift (s.lead (M.adjoin m.start)) _ _ _ _ rfl h2'
      obtain ⟨p1, p2, p3⟩ := placeAll_start
        (if s.collapses then (s.over M).startMargin.adjoin m.start else (s.over M).startMargin) _ _ _ _ rfl q1
      have p3 : i.startMargin = M.adjoin m.start := p3
      simp only at p1
      rw [show (0 : ℚ) + g.tall + s.lead (M.adjoin m.start) = s.lead (M.adjoin m.start) + g.tall by ring] at p1
      rw [p1] at h2
      cases h2
      refine .inr ⟨q2, ?_, ?_, fun o => ?_⟩
      · refine placeAll_neat _ _ _ _ ⟨signed_adjoin hM, m2, fun k => by cases k⟩ hfl h2'
      · rw [p3]
        congr 1
        · cases hc : s.collapses with
          | true => simp [PlacementState.over, hc, adjoin_assoc]
          | false => simp [PlacementState.over, hc]
        · ring
      · rw [p3, over_lead, hz, translateBlock_zero, List.map_cons]

/-! ## Layout gives such fragments -/

/-- of a block of this style that takes no space nothing is seen -/
def DrawsNothing (vis : DrawCall → Bool) (st : Style) : Prop :=
  ∀ (cbis : Length) (g : BoxGeom) (m : CollapsedBlockMargins) (cs : List Fragment) (o : PVec2 Length),
    g.padding = st.padding.percentagesRelativeTo cbis → g.border = st.borderWidth.percentagesRelativeTo cbis →
    g.padding.blockStart + g.border.blockStart = 0 → g.padding.blockEnd + g.border.blockEnd = 0 →
    g.contentRect.size.block = 0 → (ownCalls o (.box st g m cs)).filter vis = []

/-- see `Hollow`; for contents -/
structure HollowFlow (vis : DrawCall → Bool) (fc : FlowChildren) : Prop where
  start : fc.margins.start.Signed
  stop : fc.margins.«end».Signed
  through : fc.margins.collapsedThrough = true → fc.blockSize = 0 ∧ Unseen vis fc.fragments

theorem placeAll_through (hv : Eye vis) : ∀ (fs rs : List Fragment) (s s1 : PlacementState), s.Neat →
    (∀ f ∈ fs, Hollow vis f) → uprightAll fs → placeAll s fs = .ok (rs, s1) → s1.collapses = true →
    s.collapses = true ∧ s1.position = s.position ∧ Unseen vis rs
  | [], _, _, _, _, _, _, h, hc => by
    cases h
    exact ⟨hc, rfl, unseen_nil⟩
  | f :: fs, rs, s, s1, hs, hf, hu, h, hc => by
    obtain ⟨⟨r, s2⟩, h1, h⟩ := bind_eq_ok.1 h
    obtain ⟨⟨rs2, s3⟩, h2, h⟩ := bind_eq_ok.1 h
    cases h
    obtain ⟨k1, k2, k3⟩ := placeAll_through hv fs _ _ _ (place_neat hs (hf f (by simp)) h1)
      (fun g hg => hf g (by simp [hg])) hu.2 h2 hc
    cases hp : f.passes with
    | some N =>
      obtain ⟨rfl, e, rfl⟩ := place_passes hs hp h1
      rw [over_collapses] at k1
      refine ⟨k1, k2.trans ?_, unseen_cons ((up_down _ _).2 hu.1) (unseen_down hv hu.1 e
        (hollow_unseen hv (hf f (by simp)) hu.1 hp).1) k3⟩
      simp [PlacementState.over, k1]
    | none =>
      obtain ⟨st, g, m, cs, rfl, hm, -, -⟩ := hollow_apart (hf f (by simp)) hp
      rw [(place_apart hs hm h1).2] at k1
      cases k1

/-- layout of boxes gives fragments as in `Hollow` -/
def BoxHollow (vis : DrawCall → Bool) (boxL : BoxLayout) : Prop :=
  ∀ (b : BlockLevelBox) (cb : ContainingBlock) (rank : Nat) (f : Fragment) (out : List AbsFragment),
    cb.mode = (.horizontalTb, .ltr) → blockNoAbs b → b.noFloats = b → (∀ st ∈ b.blockStyles, DrawsNothing vis st) →
    boxL b cb rank [] false = .ok (f, out) → Hollow vis f

theorem layoutEach_hollow {boxL : BoxLayout} (hL : BoxHollow vis boxL) (hS : BoxSolid boxL) {cb : ContainingBlock}
    (hcb : cb.mode = (.horizontalTb, .ltr)) : ∀ (bs : List BlockLevelBox) (k : Nat) (fs : List Fragment)
    (out : List AbsFragment), blocksNoAbs bs → blockNoFloats bs = bs → (∀ st ∈ blockStylesAll bs, DrawsNothing vis st) →
    layoutEach boxL cb k bs [] = .ok (fs, out) → ∀ f ∈ fs, Hollow vis f
  | [], _, _, _, _, _, _, h => by
    cases h
    simp
  | b :: bs, k, fs, out, ha, hn, hst, h => by
    obtain ⟨⟨f, o1⟩, h1, h⟩ := bind_eq_ok.1 h
    obtain ⟨⟨fs1, o2⟩, h2, h⟩ := bind_eq_ok.1 h
    cases h
    simp only [blockNoFloats, List.cons.injEq] at hn
    simp only [blockStylesAll, List.mem_append] at hst
    obtain ⟨rfl, -⟩ := hS _ _ _ _ _ ha.1 hn.1 h1
    intro g hg
    rcases List.mem_cons.1 hg with rfl | hg
    · exact hL _ _ _ _ _ hcb ha.1 hn.1 (fun st k => hst st (.inl k)) h1
    · exact layoutEach_hollow hL hS hcb bs _ _ _ ha.2 hn.2 (fun st k => hst st (.inr k)) h2 g hg

theorem container_hollow {E : TextEnv} (hv : Eye vis) {boxL : BoxLayout} (hL : BoxHollow vis boxL) (hS : BoxSolid boxL)
    (hU : BoxUp boxL) {cb : ContainingBlock} (hcb : cb.mode = (.horizontalTb, .ltr)) {c : BlockContainer} (ha : noAbs c)
    (hn : c.noFloats = c) (hst : ∀ st ∈ c.blockStyles, DrawsNothing vis st) {rank : Nat} {coll : Bool}
    {fc : FlowChildren} {out : List AbsFragment}
    (h : containerLayout E boxL c cb rank [] false coll = .ok (fc, out)) : HollowFlow vis fc := by
  cases c with
  | inlineFormattingContext st bs =>
    have z := ifc_margins h
    exact ⟨by rw [z]; exact signed_zero, by rw [z]; exact signed_zero, fun k => by rw [z] at k; cases k⟩
  | blockLevelBoxes bs =>
    obtain ⟨fs, o, s, h1, h2, h3, h4, -⟩ := children_ok h
    simp only [BlockContainer.noFloats, BlockContainer.blockLevelBoxes.injEq] at hn
    have hf := layoutEach_hollow hL hS hcb bs _ _ _ ha hn hst h1
    have hneat := placeAll_neat _ _ _ _ (start_neat coll) hf h2
    refine ⟨by rw [h3]; exact hneat.start, by rw [h3]; exact hneat.current, fun k => ?_⟩
    rw [h3] at k
    obtain ⟨-, k2, k3⟩ := placeAll_through hv _ _ _ _ (start_neat coll) hf (layoutEach_up hU hcb _ _ _ _ _ h1) h2 k
    exact ⟨h4.trans k2, k3⟩

/-- a box with such contents -/
theorem box_hollow {cb : ContainingBlock} {st : Style} {kind : BlockLevelKind} {fc : FlowChildren}
    (hfc : HollowFlow vis fc) (hu : uprightAll fc.fragments) (hst : DrawsNothing vis st) (corner : Vec2 Length)
    (w : Length) :
    Hollow vis (.box st ⟨⟨corner, ⟨w, (inFlowSizes cb st kind).blockSize.autoIs
        (collapseWithChildren (inFlowSizes cb st kind) fc).2⟩⟩, (inFlowSizes cb st kind).padding,
        (inFlowSizes cb st kind).border, (inFlowSizes cb st kind).margin⟩
      (collapseWithChildren (inFlowSizes cb st kind) fc).1 fc.fragments) := by
  refine ⟨?_, ?_, fun k o => ?_⟩
  · simp only [collapseWithChildren, CollapsedBlockMargins.fromMargin]
    split
    · split
      · exact signed_adjoin (signed_adjoin (signed_new _))
      · exact signed_adjoin (signed_new _)
    · exact signed_new _
  · simp only [collapseWithChildren, CollapsedBlockMargins.fromMargin]
    by_cases he : (inFlowSizes cb st kind).endCollapses = true
    · rw [if_pos he]
      exact signed_adjoin (signed_new _)
    · rw [if_neg he]
      exact signed_new _
  · simp only [collapseWithChildren, Bool.and_eq_true] at k
    obtain ⟨⟨k1, k2⟩, k3⟩ := k
    obtain ⟨z1, z2⟩ := hfc.through k3
    have e1 : (inFlowSizes cb st kind).padding.blockStart + (inFlowSizes cb st kind).border.blockStart = 0 := by
      simp only [inFlowSizes, Bool.and_eq_true, beq_iff_eq] at k1
      exact k1.2
    have e2 : (inFlowSizes cb st kind).padding.blockEnd + (inFlowSizes cb st kind).border.blockEnd = 0 := by
      simp only [inFlowSizes, Bool.and_eq_true, beq_iff_eq] at k2
      exact k2.1.2
    have e3 : (inFlowSizes cb st kind).blockSize = .auto := by
      have k2 := k2
      simp only [inFlowSizes, Bool.and_eq_true, beq_iff_eq] at k2 ⊢
      exact k2.2
    rw [callsAt_box o hu, List.filter_append, z2, List.append_nil]
    refine hst cb.inlineSize _ _ _ o rfl rfl e1 e2 ?_
    simp only [e3, LengthOrAuto.autoIs, collapseWithChildren, k2, if_true, z1]

theorem boxHollow (E : TextEnv) (hv : Eye vis) : ∀ n, BoxHollow vis (boxLayout E n)
  | 0 => by
    intro b cb rank f out _ _ _ _ h
    cases h
  | n + 1 => by
    intro b cb rank f out hcb ha hn hst h
    rw [boxLayout] at h
    cases b with
    | outOfFlowAbsolutelyPositionedBox st c => exact ha.elim
    | outOfFlowFloatBox st c =>
      cases h
      exact rfl
    | sameFormattingContextBlock st c =>
      simp only [BlockLevelBox.noFloats, BlockLevelBox.sameFormattingContextBlock.injEq, true_and] at hn
      simp only [BlockLevelBox.blockStyles, List.mem_cons, forall_eq_or_imp] at hst
      obtain ⟨fc, h1, -, rfl⟩ := inFlow_whole
        (contents := fun cb nested coll => containerLayout E (boxLayout E n) c cb rank nested false coll) h
        (fun _ _ _ _ k => (container_solid (boxSolid E n) ha hn k).1)
      exact box_hollow (container_hollow hv (boxHollow E hv n) (boxSolid E n) (layout_up E n).1 rfl ha hn hst.2 h1)
        (containerLayout_up (layout_up E n).1 rfl h1) hst.1 _ _
    | independent st c =>
      obtain ⟨c, fl⟩ := c
      simp only [BlockLevelBox.noFloats, Bfc.noFloats, BlockLevelBox.independent.injEq, Bfc.mk.injEq, true_and] at hn
      obtain ⟨hn, rfl⟩ := hn
      simp only [BlockLevelBox.blockStyles, List.mem_cons, forall_eq_or_imp] at hst
      obtain ⟨fc, h1, -, rfl⟩ := inFlow_whole
        (contents := fun cb nested _ => bfcLayout E (boxLayout E n) (.mk c false) cb rank nested) h
        (fun _ _ _ _ k => (bfc_solid (boxSolid E n) ha hn k).1)
      obtain ⟨⟨fc1, o1⟩, k1, h1⟩ := bind_eq_ok.1 h1
      cases h1
      have hf := container_hollow hv (boxHollow E hv n) (boxSolid E n) (layout_up E n).1 rfl ha hn hst.2 k1
      have hu1 : uprightAll fc1.fragments := containerLayout_up (layout_up E n).1 rfl k1
      exact box_hollow (fc := ⟨fc1.fragments, fc1.blockSize + fc1.margins.«end».solve, ⟨false, fc1.margins.start, .zero⟩⟩)
        ⟨hf.start, signed_zero, fun k => by cases k⟩ hu1 hst.1 _ _

/-! ## The block around them -/

theorem sides_none : (⟨0, 0, 0, 0⟩ : Sides Length) + ⟨0, 0, 0, 0⟩ = ⟨0, 0, 0, 0⟩ := by
  decide +kernel

theorem frameless_sizes {w : Style} (hw : w.Frameless) (cb : ContainingBlock) :
    inFlowSizes cb w .sameFormattingContextBlock =
      ⟨⟨0, 0, 0, 0⟩, ⟨0, 0, 0, 0⟩, ⟨0, 0, 0, 0⟩, cb.inlineSize, .auto, true, true⟩ := by
  have e1 : w.padding = ⟨.length 0, .length 0, .length 0, .length 0⟩ := by
    simp only [Style.padding, hw.paddingTop, hw.paddingRight, hw.paddingBottom, hw.paddingLeft]
    rfl
  have e2 : w.borderWidth = ⟨.length 0, .length 0, .length 0, .length 0⟩ := by
    simp only [Style.borderWidth, hw.borderTop, hw.borderRight, hw.borderBottom, hw.borderLeft]
    rfl
  have e3 : w.margin = ⟨.length 0, .length 0, .length 0, .length 0⟩ := by
    simp only [Style.margin, hw.marginTop, hw.marginRight, hw.marginBottom, hw.marginLeft]
    rfl
  have e4 : w.boxSize = ⟨.auto, .auto⟩ := by
    simp only [Style.boxSize, hw.width, hw.height]
    rfl
  have p1 : ∀ x : Length, (⟨.length 0, .length 0, .length 0, .length 0⟩ : Sides LengthOrPercentage).percentagesRelativeTo x
      = ⟨0, 0, 0, 0⟩ := fun _ => rfl
  have p2 : ∀ x : Length, (⟨.length 0, .length 0, .length 0, .length 0⟩ : Sides LengthOrPercentageOrAuto).percentagesOrAutoRelativeTo x
      = ⟨.length 0, .length 0, .length 0, .length 0⟩ := fun _ => rfl
  simp only [inFlowSizes, e1, e2, e3, e4, p1, p2, sides_none, LengthOrPercentageOrAuto.percentageRelativeTo, Sides.autoIs,
    Sides.map, LengthOrAuto.autoIs, Sides.inlineSum]
  simp

/-- nothing is seen of the block itself -/
theorem frameless_unseen (hv : Eye vis) {w : Style} (hw : w.Frameless) {g : BoxGeom} (hg : g.border = ⟨0, 0, 0, 0⟩)
    (m : CollapsedBlockMargins) (cs : List Fragment) (o : PVec2 Length) :
    (ownCalls o (.box w g m cs)).filter vis = [] := by
  have h1 : backgroundCall w g o = [] := by
    rw [backgroundCall, if_neg]
    rw [hw.background]
    decide
  have h2 : edgeCall w g o = fun _ => none := by
    funext s
    rw [edgeCall, if_neg]
    intro k
    cases s <;> simp [BoxGeom.edge, hg] at k
  rw [ownCalls, h1, h2]
  simp [hv.bbox]

/-- the same is seen of two lists of fragments -/
def SeenAlike (vis : DrawCall → Bool) (fs fs' : List Fragment) : Prop :=
  ∀ o, (callsAt o fs').filter vis = (callsAt o fs).filter vis

/-- placing the block, and placing what is in it -/
theorem group_place (hv : Eye vis) {w : Style} (hw : w.Frameless) {s s1 s2 i : PlacementState} (hs : s.Neat)
    {FL rs is : List Fragment} (hf : ∀ f ∈ FL, Hollow vis f) (hu : uprightAll FL)
    (h : placeAll s FL = .ok (rs, s1)) (h' : placeAll (.start true) FL = .ok (is, i)) {g : BoxGeom}
    (g1 : g.padding = ⟨0, 0, 0, 0⟩) (g2 : g.border = ⟨0, 0, 0, 0⟩) (g3 : g.contentRect.startCorner = ⟨0, 0⟩)
    (g4 : g.contentRect.size.block = i.position) {W : Fragment}
    (k : placeFragment s (.box w g ⟨i.collapses, if i.collapses then i.startMargin.adjoin i.currentMargin
      else i.startMargin, if i.collapses then .zero else i.currentMargin⟩ is) = .ok (W, s2)) :
    s2 = s1 ∧ SeenAlike vis rs [W] := by
  have hui := placeAll_up _ _ _ _ hu h'
  rw [← over_zero hs] at h
  have htall : g.tall = i.position := by
    simp [BoxGeom.tall, g1, g2, g4, Sides.blockSum]
  rcases group_run hv hs FL .zero rs is s1 i signed_zero hf hu h h' with
    ⟨M, hM, rfl, rfl, k4, k5⟩ | ⟨k1, k2, k3, k4⟩
  · simp only [if_true] at k
    obtain ⟨rfl, e, rfl⟩ := place_passes hs (M := (M.adjoin .zero).adjoin .zero) rfl k
    rw [adjoin_zero hM, adjoin_zero hM]
    refine ⟨rfl, fun o => ?_⟩
    rw [Fragment.translateBlock, callsAt_box o hui, List.filter_append, k4 o, k5 _, frameless_unseen hv hw (g := { g with contentRect := g.contentRect.addBlock e }) g2]
    rfl
  · simp only [k1, Bool.false_eq_true, if_false] at k
    obtain ⟨rfl, rfl⟩ := place_apart hs rfl k
    rw [htall, k3]
    refine ⟨rfl, fun o => ?_⟩
    rw [k4 o, callsAt_allDown o _ _ hui, ← callsAt_move o _ hui, Fragment.translateBlock, callsAt_box o hui,
      List.filter_append, frameless_unseen hv hw
        (g := { g with contentRect := g.contentRect.addBlock (s.lead i.startMargin) }) g2, List.nil_append]
    congr 2
    simp [Fragment.offset, Rect.addBlock, g3, pvec2_add]

/-! ## Pages in which blocks are grouped -/

/-- what is asked of blocks that are grouped -/
structure CanGroup (vis : DrawCall → Bool) (L : List BlockLevelBox) : Prop where
  heights : ∀ b ∈ L, b.heightFree
  styles : ∀ st ∈ blockStylesAll L, DrawsNothing vis st

theorem heightFree_noFloats (b : BlockLevelBox) (h : b.heightFree) : b.noFloats.heightFree := by
  cases b <;> simpa only [BlockLevelBox.noFloats, BlockLevelBox.heightFree] using h

mutual

theorem blockStyles_noFloats : ∀ c : BlockContainer, c.noFloats.blockStyles = c.blockStyles
  | .blockLevelBoxes bs => by
    simp only [BlockContainer.noFloats, BlockContainer.blockStyles, blockStylesAll_noFloats bs]
  | .inlineFormattingContext _ _ => by simp only [BlockContainer.noFloats, BlockContainer.blockStyles]

theorem boxStyles_noFloats : ∀ b : BlockLevelBox, b.noFloats.blockStyles = b.blockStyles
  | .sameFormattingContextBlock _ c => by
    simp only [BlockLevelBox.noFloats, BlockLevelBox.blockStyles, blockStyles_noFloats c]
  | .independent _ (.mk c _) => by
    simp only [BlockLevelBox.noFloats, Bfc.noFloats, BlockLevelBox.blockStyles, blockStyles_noFloats c]
  | .outOfFlowAbsolutelyPositionedBox _ _ => by simp only [BlockLevelBox.noFloats, BlockLevelBox.blockStyles]
  | .outOfFlowFloatBox _ _ => by simp only [BlockLevelBox.noFloats, BlockLevelBox.blockStyles]

theorem blockStylesAll_noFloats : ∀ bs : List BlockLevelBox, blockStylesAll (blockNoFloats bs) = blockStylesAll bs
  | [] => by simp only [blockNoFloats]
  | b :: bs => by simp only [blockNoFloats, blockStylesAll, boxStyles_noFloats b, blockStylesAll_noFloats bs]

end

theorem heights_noFloats : ∀ bs : List BlockLevelBox, (∀ b ∈ bs, b.heightFree) → ∀ b ∈ blockNoFloats bs, b.heightFree
  | [], _ => by simp [blockNoFloats]
  | b :: bs, h => by
    simp only [blockNoFloats, List.mem_cons, forall_eq_or_imp] at h ⊢
    exact ⟨heightFree_noFloats b h.1, heights_noFloats bs h.2⟩

/-- layout of a box in which blocks are grouped -/
def BoxGrouped (vis : DrawCall → Bool) (boxL : BoxLayout) : Prop :=
  ∀ (b b' : BlockLevelBox) (cb : ContainingBlock) (rank : Nat) (f f' : Fragment) (o o' : List AbsFragment),
    GroupedBlock (CanGroup vis) b b' → blockNoAbs b → blockNoAbs b' → cb.mode = (.horizontalTb, .ltr) →
    boxL b.noFloats cb rank [] false = .ok (f, o) → boxL b'.noFloats cb rank [] false = .ok (f', o') →
    ∃ s g m cs cs', f = .box s g m cs ∧ f' = .box s g m cs' ∧ SeenAlike vis cs cs'

/-- contents that take the same space and of which the same is seen -/
structure AlikeFlow (vis : DrawCall → Bool) (fc fc' : FlowChildren) : Prop where
  margins : fc'.margins = fc.margins
  size : fc'.blockSize = fc.blockSize
  seen : SeenAlike vis fc.fragments fc'.fragments

theorem placeFragment_alike {s s1 : PlacementState} {st : Style} {g : BoxGeom} {m : CollapsedBlockMargins}
    {cs : List Fragment} {r : Fragment} (cs' : List Fragment) (h : placeFragment s (.box st g m cs) = .ok (r, s1)) :
    ∃ g1, r = .box st g1 m cs ∧ placeFragment s (.box st g m cs') = .ok (.box st g1 m cs', s1) := by
  rw [placeFragment] at h
  rw [placeFragment]
  simp only at h ⊢
  split at h
  · rename_i h1
    split at h
    · cases h
    · rename_i h2
      rw [if_pos h1, if_neg h2]
      split at h <;> rename_i h3 <;> cases h
      · exact ⟨_, rfl, by rw [if_pos h3]⟩
      · exact ⟨_, rfl, by rw [if_neg h3, if_neg h3]⟩
  · rename_i h1
    rw [if_neg h1]
    split at h <;> rename_i h3 <;> cases h
    · exact ⟨_, rfl, by rw [if_pos h3]⟩
    · exact ⟨_, rfl, by rw [if_neg h3]⟩

theorem alike_append {a b b' c : List Fragment} (ha : uprightAll a) (hb : uprightAll b) (hb' : uprightAll b')
    (h : SeenAlike vis b b') : SeenAlike vis (a ++ (b ++ c)) (a ++ (b' ++ c)) := by
  intro o
  rw [callsAt_append o _ _ ha, callsAt_append o _ _ ha, callsAt_append o _ _ hb, callsAt_append o _ _ hb']
  simp only [List.filter_append, h o]

theorem alike_box {st : Style} {g : BoxGeom} {m : CollapsedBlockMargins} {cs cs' : List Fragment} (hu : uprightAll cs)
    (hu' : uprightAll cs') (h : SeenAlike vis cs cs') : SeenAlike vis [.box st g m cs] [.box st g m cs'] := by
  intro o
  rw [callsAt_box o hu, callsAt_box o hu', List.filter_append, List.filter_append]
  have := h (o + (Fragment.box st g m cs).offset)
  exact congrArg₂ _ rfl this

theorem container_grouped {E : TextEnv} (hv : Eye vis) {n : Nat} (hL : BoxGrouped vis (boxLayout E n))
    {c c' : BlockContainer} (h : Grouped (CanGroup vis) c c') (ha : noAbs c) (ha' : noAbs c')
    {cb : ContainingBlock} (hcb : cb.mode = (.horizontalTb, .ltr)) {rank : Nat} {coll : Bool}
    {fc fc' : FlowChildren} {out out' : List AbsFragment}
    (e : containerLayout E (boxLayout E n) c.noFloats cb rank [] false coll = .ok (fc, out))
    (e' : containerLayout E (boxLayout E n) c'.noFloats cb rank [] false coll = .ok (fc', out')) :
    AlikeFlow vis fc fc' := by
  have hS := boxSolid E n
  have hU := (layout_up E n).1
  cases h with
  | here A L B w hw hok =>
    obtain ⟨fs, o, s, h1, h2, h3, h4, -⟩ := children_ok e
    obtain ⟨fs', o', s', h1', h2', h3', h4', -⟩ := children_ok e'
    simp only [blockNoFloats_append, blockNoFloats] at h1 h1'
    obtain ⟨g1, g2, o1, k1, k2, rfl⟩ := layoutEach_append _ _ _ _ _ _ h1
    obtain ⟨g1', g2', o1', k1', k2', rfl⟩ := layoutEach_append _ _ _ _ _ _ h1'
    rw [k1] at k1'
    cases k1'
    simp only [noAbs, blocksNoAbs_append, blocksNoAbs, blockNoAbs] at ha ha'
    obtain ⟨rfl, -⟩ := layoutEach_solid hS _ _ _ _ (blocksNoFloats_noAbs _ ha.1) (blockNoFloats_twice _) k1
    obtain ⟨g3, g4, o2, k3, k4, rfl⟩ := layoutEach_append _ _ _ _ _ _ k2
    obtain ⟨rfl, -⟩ := layoutEach_solid hS _ _ _ _ (blocksNoFloats_noAbs _ ha.2.1) (blockNoFloats_twice _) k3
    obtain ⟨⟨f', o2'⟩, l1', k2'⟩ := bind_eq_ok.1 k2'
    obtain ⟨⟨fs2', o3'⟩, l2', k2'⟩ := bind_eq_ok.1 k2'
    cases k2'
    have hnw : (BlockLevelBox.sameFormattingContextBlock w (.blockLevelBoxes L)).noFloats =
        .sameFormattingContextBlock w (.blockLevelBoxes (blockNoFloats L)) := by
      simp only [BlockLevelBox.noFloats, BlockContainer.noFloats]
    obtain ⟨rfl, -⟩ := hS _ _ _ _ _ (blockNoFloats_noAbs (.sameFormattingContextBlock w (.blockLevelBoxes L)) ha'.2.1)
      (boxNoFloats_twice _) l1'
    obtain rfl := layoutEach_agree (boxAgree E n n) hS hS ⟨rfl, rfl⟩ _ _ _ _ _ _ _ (fun _ _ => .inl rfl)
      (blocksNoFloats_noAbs _ ha.2.2) (blockNoFloats_twice _) k4 l2'
    rw [hnw] at l1'
    obtain ⟨r1, s1, r2, p1, p2, p3⟩ := placeAll_append.1 h2
    obtain ⟨r1', s1', r2', p1', p2', p3'⟩ := placeAll_append.1 h2'
    rw [p1] at p1'
    cases p1'
    obtain ⟨r3, s3, r4, q1, q2, q3⟩ := placeAll_append.1 p2
    obtain ⟨⟨W, s2⟩, m1, p2'⟩ := bind_eq_ok.1 p2'
    obtain ⟨⟨rs, s4⟩, m2, p2'⟩ := bind_eq_ok.1 p2'
    cases p2'
    cases n with
    | zero => cases l1'
    | succ n =>
      rw [boxLayout] at l1'
      obtain ⟨ifc, i1, -, rfl⟩ := inFlow_whole
        (contents := fun cb nested coll => containerLayout E (boxLayout E n) (.blockLevelBoxes (blockNoFloats L)) cb _ nested
          false coll) l1'
        (fun _ _ _ _ k => (container_solid (c := .blockLevelBoxes (blockNoFloats L)) (boxSolid E n)
          (blocksNoFloats_noAbs _ ha.2.1) (by simp only [BlockContainer.noFloats, blockNoFloats_twice]) k).1)
      rw [frameless_sizes hw] at i1
      simp only [frameless_sizes hw] at m1
      obtain ⟨FL, io, i, j1, j2, j3, j4, -⟩ := children_ok i1
      obtain rfl := layoutEach_agree (boxAgree E (n + 1) n) hS (boxSolid E n) (cb := cb)
        (cb' := ⟨cb.inlineSize, .auto, w.writingMode⟩) ⟨rfl, hcb.symm⟩ _ _ _ _ _ _ _
        (fun b hb => .inr (heights_noFloats _ hok.heights b hb)) (blocksNoFloats_noAbs _ ha.2.1) (blockNoFloats_twice _) k3 j1
      have hFL := layoutEach_hollow (boxHollow E hv (n + 1)) hS hcb _ _ _ _ (blocksNoFloats_noAbs _ ha.2.1)
        (blockNoFloats_twice _) (by rw [blockStylesAll_noFloats]; exact hok.styles) k3
      have hFLu := layoutEach_up hU hcb _ _ _ _ _ k3
      have hA : ∀ f ∈ g1, Hollow (fun _ => false) f := layoutEach_hollow
        (boxHollow E ⟨fun _ _ => rfl, fun _ _ _ _ => rfl⟩ (n + 1)) hS hcb _ _ _ _ (blocksNoFloats_noAbs _ ha.1)
        (blockNoFloats_twice _) (fun _ _ _ _ _ _ _ _ _ _ _ _ => by simp) k1
      have hneat := placeAll_neat _ _ _ _ (start_neat coll) hA p1
      have hin := placeAll_neat _ _ _ _ (start_neat true) hFL j2
      have hcol : (collapseWithChildren ⟨⟨0, 0, 0, 0⟩, ⟨0, 0, 0, 0⟩, ⟨0, 0, 0, 0⟩, cb.inlineSize, .auto, true, true⟩ ifc) =
          (⟨i.collapses, if i.collapses then i.startMargin.adjoin i.currentMargin else i.startMargin,
            if i.collapses then .zero else i.currentMargin⟩, i.position) := by
        have z : CollapsedMargin.new 0 = .zero := by simp [CollapsedMargin.new, CollapsedMargin.zero]
        simp only [collapseWithChildren, CollapsedBlockMargins.fromMargin, j3, j4, z, if_true, Bool.true_and,
          zero_adjoin hin.start]
        cases i.collapses with
        | true => simp [zero_adjoin signed_zero]
        | false => simp [zero_adjoin hin.current]
      have hrel : relativeAdjustement w cb.inlineSize .auto = ⟨0, 0⟩ := by
        rw [relativeAdjustement, if_pos]
        · rfl
        · simp [Position.isRelativelyPositioned, hw.position]
      rw [hcol, hrel] at m1
      obtain ⟨rfl, hal⟩ := group_place hv hw hneat hFL hFLu q1 j2 rfl rfl (by simp [InFlowSizes.pb, sides_none]) rfl m1
      have uW : W.upright := placeFragment_up (by
        have := placeAll_up _ _ _ _ hFLu j2
        exact this) m1
      rw [q2] at m2
      cases m2
      refine ⟨by rw [h3, h3'], by rw [h4, h4'], ?_⟩
      rw [p3, p3', q3]
      exact alike_append (b' := [_]) (placeAll_up _ _ _ _ (layoutEach_up hU hcb _ _ _ _ _ k1) p1)
        (placeAll_up _ _ _ _ hFLu q1) ⟨uW, trivial⟩ hal
  | inside A b b' B hb =>
    obtain ⟨fs, o, s, h1, h2, h3, h4, -⟩ := children_ok e
    obtain ⟨fs', o', s', h1', h2', h3', h4', -⟩ := children_ok e'
    simp only [blockNoFloats_append, blockNoFloats] at h1 h1'
    obtain ⟨g1, g2, o1, k1, k2, rfl⟩ := layoutEach_append _ _ _ _ _ _ h1
    obtain ⟨g1', g2', o1', k1', k2', rfl⟩ := layoutEach_append _ _ _ _ _ _ h1'
    rw [k1] at k1'
    cases k1'
    obtain ⟨r1, s1, r2, p1, p2, p3⟩ := placeAll_append.1 h2
    obtain ⟨r1', s1', r2', p1', p2', p3'⟩ := placeAll_append.1 h2'
    rw [p1] at p1'
    cases p1'
    simp only [noAbs, blocksNoAbs_append, blocksNoAbs] at ha ha'
    obtain ⟨rfl, -⟩ := layoutEach_solid hS _ _ _ _ (blocksNoFloats_noAbs _ ha.1) (blockNoFloats_twice _) k1
    have u1 := placeAll_up _ _ _ _ (layoutEach_up hU hcb _ _ _ _ _ k1) p1
    obtain ⟨⟨f, o2⟩, l1, k2⟩ := bind_eq_ok.1 k2
    obtain ⟨⟨fs2, o3⟩, l2, k2⟩ := bind_eq_ok.1 k2
    cases k2
    obtain ⟨⟨f', o2'⟩, l1', k2'⟩ := bind_eq_ok.1 k2'
    obtain ⟨⟨fs2', o3'⟩, l2', k2'⟩ := bind_eq_ok.1 k2'
    cases k2'
    obtain ⟨rfl, -⟩ := hS _ _ _ _ _ (blockNoFloats_noAbs _ ha.2.1) (boxNoFloats_twice _) l1
    obtain ⟨rfl, -⟩ := hS _ _ _ _ _ (blockNoFloats_noAbs _ ha'.2.1) (boxNoFloats_twice _) l1'
    have l2e : layoutEach (boxLayout E n) cb (0 + (blockNoFloats A).length + 1) (blockNoFloats B) [] = .ok (fs2', _) := l2'
    rw [l2] at l2e
    cases l2e
    have v1 := hU _ _ _ _ _ _ _ hcb l1
    have v2 := hU _ _ _ _ _ _ _ hcb l1'
    obtain ⟨⟨r, s2⟩, m1, p2⟩ := bind_eq_ok.1 p2
    obtain ⟨⟨rs, s3⟩, m2, p2⟩ := bind_eq_ok.1 p2
    cases p2
    obtain ⟨⟨r', s2'⟩, m1', p2'⟩ := bind_eq_ok.1 p2'
    obtain ⟨⟨rs', s3'⟩, m2', p2'⟩ := bind_eq_ok.1 p2'
    cases p2'
    obtain ⟨sb, g, m, cs, cs', rfl, rfl, hal⟩ := hL _ _ _ _ _ _ _ _ hb ha.2.1 ha'.2.1 hcb l1 l1'
    obtain ⟨gr, rfl, q1⟩ := placeFragment_alike cs' m1
    rw [q1] at m1'
    cases m1'
    rw [m2] at m2'
    cases m2'
    refine ⟨by rw [h3, h3'], by rw [h4, h4'], ?_⟩
    rw [p3, p3']
    exact alike_append (b := [_]) (b' := [_]) u1 ⟨v1, trivial⟩ ⟨v2, trivial⟩ (alike_box v1 v2 hal)

theorem bfc_grouped {E : TextEnv} (hv : Eye vis) {n : Nat} (hL : BoxGrouped vis (boxLayout E n))
    {c c' : BlockContainer} (h : Grouped (CanGroup vis) c c') (ha : noAbs c) (ha' : noAbs c')
    {cb : ContainingBlock} (hcb : cb.mode = (.horizontalTb, .ltr)) {rank : Nat}
    {fc fc' : FlowChildren} {out out' : List AbsFragment}
    (e : bfcLayout E (boxLayout E n) (.mk c.noFloats false) cb rank [] = .ok (fc, out))
    (e' : bfcLayout E (boxLayout E n) (.mk c'.noFloats false) cb rank [] = .ok (fc', out')) : AlikeFlow vis fc fc' := by
  obtain ⟨⟨fc1, out1⟩, h1, e⟩ := bind_eq_ok.1 e
  obtain ⟨⟨fc1', out1'⟩, h1', e'⟩ := bind_eq_ok.1 e'
  cases e
  cases e'
  have hf := container_grouped hv hL h ha ha' hcb h1 h1'
  exact ⟨by simp only [hf.margins], by simp only [hf.margins, hf.size], hf.seen⟩

theorem collapse_alike {s : InFlowSizes} {fc fc' : FlowChildren} (h : AlikeFlow vis fc fc') :
    collapseWithChildren s fc' = collapseWithChildren s fc := by
  simp only [collapseWithChildren, h.margins, h.size]

theorem boxGrouped (E : TextEnv) (hv : Eye vis) : ∀ n, BoxGrouped vis (boxLayout E n)
  | 0 => by
    intro b b' cb rank f f' o o' _ _ _ _ e
    cases e
  | n + 1 => by
    intro b b' cb rank f f' o o' hb ha ha' hcb e e'
    rw [boxLayout] at e e'
    cases hb with
    | same s c c' h =>
      obtain ⟨fc, h1, -, rfl⟩ := inFlow_whole
        (contents := fun cb nested coll => containerLayout E (boxLayout E n) c.noFloats cb rank nested false coll) e
        (fun _ _ _ _ k => (container_solid (boxSolid E n) (noFloats_noAbs c ha) (noFloats_twice c) k).1)
      obtain ⟨fc', h1', -, rfl⟩ := inFlow_whole
        (contents := fun cb nested coll => containerLayout E (boxLayout E n) c'.noFloats cb rank nested false coll) e'
        (fun _ _ _ _ k => (container_solid (boxSolid E n) (noFloats_noAbs c' ha') (noFloats_twice c') k).1)
      have hf := container_grouped hv (boxGrouped E hv n) h ha ha' rfl h1 h1'
      refine ⟨s, _, _, _, _, rfl, ?_, hf.seen⟩
      rw [collapse_alike hf]
    | independent s c c' fl fl' h =>
      obtain ⟨fc, h1, -, rfl⟩ := inFlow_whole
        (contents := fun cb nested _ => bfcLayout E (boxLayout E n) (.mk c.noFloats false) cb rank nested) e
        (fun _ _ _ _ k => (bfc_solid (boxSolid E n) (noFloats_noAbs c ha) (noFloats_twice c) k).1)
      obtain ⟨fc', h1', -, rfl⟩ := inFlow_whole
        (contents := fun cb nested _ => bfcLayout E (boxLayout E n) (.mk c'.noFloats false) cb rank nested) e'
        (fun _ _ _ _ k => (bfc_solid (boxSolid E n) (noFloats_noAbs c' ha') (noFloats_twice c') k).1)
      have hf := bfc_grouped hv (boxGrouped E hv n) h ha ha' rfl h1 h1'
      refine ⟨s, _, _, _, _, rfl, ?_, hf.seen⟩
      rw [collapse_alike hf]

end Sinab
