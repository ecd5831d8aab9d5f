import Verif.Spec.Block
import Verif.Lemmas.InlineCtx
import Verif.Lemmas.ConstructGood
import Mathlib.Tactic.Linarith
import Mathlib.Tactic.Ring

/-! Facts about block layout: it completes, and what it does. -/

namespace Sinab

/-! ## Absolutely positioned boxes in inline content -/

mutual

theorem InlineLevelBox.sound_absOk : ∀ b : InlineLevelBox, b.sound → b.absOk
  | .inlineBox _ _ _ children, h => inlineSound_absOk children h
  | .textRun .., _ => trivial
  | .outOfFlowAbsolutelyPositionedBox _ _, h => h.1
  | .outOfFlowFloatBox _ _, _ => trivial

theorem inlineSound_absOk : ∀ bs : List InlineLevelBox, inlineSound bs → inlineAbsOk bs
  | [], _ => trivial
  | b :: bs, h => ⟨b.sound_absOk h.1, inlineSound_absOk bs h.2⟩

end

mutual

theorem InlineLevelBox.sound_absBoxes : ∀ b : InlineLevelBox, b.sound →
    ∀ p ∈ b.absBoxes, p.2.sound ∧ p.2.depth + 1 ≤ b.depth
  | .inlineBox _ _ _ children, h => by
    simpa [InlineLevelBox.absBoxes, InlineLevelBox.depth] using inlineSound_absBoxes children h
  | .textRun .., _ => by simp [InlineLevelBox.absBoxes]
  | .outOfFlowAbsolutelyPositionedBox _ c, h => by
    simp only [InlineLevelBox.absBoxes, List.mem_singleton, InlineLevelBox.depth, forall_eq, le_refl,
      and_true]
    exact h.2
  | .outOfFlowFloatBox _ _, _ => by simp [InlineLevelBox.absBoxes]

theorem inlineSound_absBoxes : ∀ bs : List InlineLevelBox, inlineSound bs →
    ∀ p ∈ inlineAbsBoxes bs, p.2.sound ∧ p.2.depth + 1 ≤ inlineDepth bs
  | [], _ => by simp [inlineAbsBoxes]
  | b :: bs, h => by
    intro p hp
    simp only [inlineAbsBoxes, List.mem_append] at hp
    simp only [inlineDepth]
    rcases hp with hp | hp
    · have := b.sound_absBoxes h.1 p hp
      exact ⟨this.1, this.2.trans (le_max_left _ _)⟩
    · have := inlineSound_absBoxes bs h.2 p hp
      exact ⟨this.1, this.2.trans (le_max_right _ _)⟩

end

/-- fragments of absolutely positioned boxes that can be laid out with fuel `n` -/
def AbsReady (n rank : Nat) (new : List AbsFragment) : Prop :=
  ∀ a ∈ new, a.treeRank = rank ∧ a.contents.sound ∧ a.contents.depth + 1 ≤ n

theorem AbsReady.append {n rank : Nat} {a b : List AbsFragment} (ha : AbsReady n rank a)
    (hb : AbsReady n rank b) : AbsReady n rank (a ++ b) := by
  intro x hx
  rcases List.mem_append.1 hx with h | h
  · exact ha x h
  · exact hb x h

theorem AbsReady.mono {n m rank : Nat} {a : List AbsFragment} (h : n ≤ m)
    (ha : AbsReady n rank a) : AbsReady m rank a :=
  fun x hx => ⟨(ha x hx).1, (ha x hx).2.1, (ha x hx).2.2.trans h⟩

/-- the list of absolutely positioned fragments is only extended -/
theorem ifcLoop_abs (E : TextEnv) (rank : Nat) : ∀ (n : Nat) (s : IfcState) (abs : List AbsFragment),
    ifcLoop E rank n s abs = (ifcLoop E rank n s []).map fun r => (r.1, abs ++ r.2) := by
  intro n
  induction n with
  | zero => intro s abs; rfl
  | succ n ih =>
    intro s abs
    rw [ifcLoop, ifcLoop]
    cases hr : s.current.remaining with
    | nil =>
      cases hs : s.stack with
      | nil => simp [Except.map]
      | cons p ps => simp only; rw [ih]
    | cons b bs =>
      cases b with
      | inlineBox st f l c => simp only; rw [ih]
      | textRun st t f =>
        simp only
        cases layoutTextRun E st t f { s with current := { s.current with remaining := bs } } with
        | error e => rfl
        | ok s' => simp only [bind, Except.bind]; rw [ih]
      | outOfFlowAbsolutelyPositionedBox st c =>
        simp only
        cases IfcState.absStartCorner { s with current := { s.current with remaining := bs } } st with
        | error e => rfl
        | ok corner =>
          simp only [bind, Except.bind, List.nil_append]
          rw [ih, ih _ [_]]
          cases ifcLoop E rank n _ [] <;> simp [Except.map]
      | outOfFlowFloatBox st c => simp only; rw [ih]

theorem ifcLayout_abs (E : TextEnv) (st : Style) (boxes : List InlineLevelBox)
    (cb : ContainingBlock) (rank : Nat) (abs : List AbsFragment) :
    ifcLayout E st boxes cb rank abs =
      (ifcLayout E st boxes cb rank []).map fun r => (r.1, abs ++ r.2) := by
  unfold ifcLayout
  rw [ifcLoop_abs]
  cases ifcLoop E rank (inlineSteps boxes + 1) (IfcState.start E st boxes cb) [] <;> rfl

theorem ifcLayout_good (E : TextEnv) (st : Style) (boxes : List InlineLevelBox)
    (cb : ContainingBlock) (rank : Nat) (h : inlineSound boxes) :
    ∃ L new, LaysOut E cb.inlineSize 0 boxes L ∧
      (∀ abs, ifcLayout E st boxes cb rank abs =
        .ok (⟨placeLines E cb (st.val .textAlign) (E.font st) 0 L, pageHeight E (E.font st) L, .zero⟩,
          abs ++ new)) ∧
      AbsReady (inlineDepth boxes) rank new ∧ new.map AbsFragment.box = inlineAbsBoxes boxes := by
  obtain ⟨L, new, h1, h2, h3⟩ := ifcLayout_spec E st boxes cb rank [] (inlineSound_absOk _ h)
  refine ⟨L, new, h1, fun abs => ?_, ?_, h2.2⟩
  · rw [ifcLayout_abs, h3]
    rfl
  · intro a ha
    have hm : a.box ∈ inlineAbsBoxes boxes := by
      rw [← h2.2]; exact List.mem_map_of_mem ha
    exact ⟨h2.1 a ha, inlineSound_absBoxes boxes h _ hm⟩

/-! ## Margins -/

theorem foldr_max_append (a b : List ℚ) :
    (a ++ b).foldr max 0 = max (a.foldr max 0) (b.foldr max 0) := by
  induction a with
  | nil =>
    have : ∀ l : List ℚ, (0 : ℚ) ≤ l.foldr max 0 := by
      intro l; induction l with
      | nil => simp
      | cons x l ih => simp [ih]
    simp [this]
  | cons x a ih => simp [ih, max_assoc]

theorem foldr_min_append (a b : List ℚ) :
    (a ++ b).foldr min 0 = min (a.foldr min 0) (b.foldr min 0) := by
  induction a with
  | nil =>
    have : ∀ l : List ℚ, l.foldr min 0 ≤ (0 : ℚ) := by
      intro l; induction l with
      | nil => simp
      | cons x l ih => simp [ih]
    simp [this]
  | cons x a ih => simp [ih, min_assoc]

theorem CollapsedMargin.Is.adjoin {a b : CollapsedMargin} {l m : List Length} (ha : a.Is l)
    (hb : b.Is m) : (a.adjoin b).Is (l ++ m) := by
  unfold CollapsedMargin.Is CollapsedMargin.adjoin at *
  rw [foldr_max_append, foldr_min_append]
  simp [ha, hb]

/-- the order of adjoining is irrelevant -/
theorem CollapsedMargin.Is.adjoin' {a b : CollapsedMargin} {l m : List Length} (ha : a.Is l)
    (hb : b.Is m) : (a.adjoin b).Is (m ++ l) := by
  unfold CollapsedMargin.Is CollapsedMargin.adjoin at *
  rw [foldr_max_append, foldr_min_append, max_comm, min_comm]
  simp [ha, hb]

theorem CollapsedMargin.is_zero : CollapsedMargin.zero.Is [] := ⟨rfl, rfl⟩

theorem CollapsedMargin.is_new (x : Length) : (CollapsedMargin.new x).Is [x] := ⟨rfl, rfl⟩

theorem CollapsedMargin.Is.solve {a : CollapsedMargin} {l : List Length} (h : a.Is l) :
    a.solve = jointMargin l := by
  unfold CollapsedMargin.solve jointMargin
  rw [h.1, h.2]

/-- every well-formed margin stands for some collection -/
theorem CollapsedMargin.exists_is {m : CollapsedMargin} (h1 : 0 ≤ m.maxPositive)
    (h2 : m.minNegative ≤ 0) : ∃ l, m.Is l :=
  ⟨[m.maxPositive, m.minNegative], by
    simp [CollapsedMargin.Is, h1, h2, le_trans h2 h1]⟩

/-! ## Placement -/

theorem Fragment.translateBlock_zero (f : Fragment) : f.translateBlock 0 = f := by
  cases f <;> simp [Fragment.translateBlock, Rect.addBlock]

theorem lastEnd_of_not_anySolid (P : List (Child × Length)) (h : anySolid (P.map (·.1)) = false) :
    lastEnd P = 0 := by
  induction P with
  | nil => rfl
  | cons p P ih =>
    obtain ⟨c, d⟩ := p
    cases c with
    | none => simpa [lastEnd, anySolid] using ih (by simpa [anySolid] using h)
    | some c =>
      simp only [List.map_cons, anySolid, Bool.or_eq_false_iff, Bool.not_eq_false'] at h
      simp [lastEnd, h.1, ih h.2]

/-- the placement state after the children `P` (last one first) -/
structure PlacedInv (coll : Bool) (P : List (Child × Length)) (st : PlacementState) : Prop where
  collapses : st.collapses = (coll && !anySolid (P.map (·.1)))
  position : st.position = lastEnd P
  current : st.collapses = true → st.currentMargin = .zero
  tail : st.collapses = false → st.currentMargin.Is (tailMargins (P.map (·.1)))
  start : st.startMargin.Is (if coll then headMargins (P.map (·.1)) else [])

theorem PlacedInv.init (coll : Bool) : PlacedInv coll [] (PlacementState.start coll) where
  collapses := by simp [PlacementState.start, anySolid]
  position := rfl
  current := fun _ => rfl
  tail := fun _ => CollapsedMargin.is_zero
  start := by cases coll <;> exact CollapsedMargin.is_zero

theorem BoxGeom.borderRect_block (g : BoxGeom) :
    g.borderRect.size.block = g.padding.blockSum + g.border.blockSum + g.contentRect.size.block := by
  simp only [BoxGeom.borderRect, Rect.inflate]
  ring

theorem placeFragment_step {coll : Bool} {P : List (Child × Length)} {st : PlacementState}
    (hi : PlacedInv coll P st) {f : Fragment} {c : Child} (hf : IsChild f c) :
    ∃ st', placeFragment st f = .ok (f.translateBlock (childOffset coll P c), st') ∧
      PlacedInv coll ((c, childOffset coll P c) :: P) st' := by
  cases hf with
  | @out rect mode h =>
    refine ⟨st, ?_, ?_⟩
    · simp [placeFragment, h, Fragment.translateBlock, childOffset, hi.position]
    · exact ⟨hi.collapses, hi.position, hi.current, hi.tail, hi.start⟩
  | @box style g m children top bottom h1 h2 =>
    cases hc : st.collapses with
    | true =>
      have hcur := hi.current hc
      obtain ⟨hcoll, hsol⟩ : coll = true ∧ anySolid (P.map (·.1)) = false := by
        have := hi.collapses; rw [hc] at this; simpa using this.symm
      have hoff : childOffset coll P (some ⟨top, bottom, m.collapsedThrough, g.borderRect.size.block⟩)
          = 0 := by simp [childOffset, hcoll, hsol]
      have hpos : st.position = 0 := by rw [hi.position, lastEnd_of_not_anySolid P hsol]
      have hst := hi.start
      rw [if_pos hcoll] at hst
      rw [hoff, Fragment.translateBlock_zero]
      cases hth : m.collapsedThrough with
      | true =>
        refine ⟨{ st with startMargin := (st.startMargin.adjoin m.start).adjoin m.«end» }, ?_, ?_⟩
        · simp [placeFragment, hc, hcur, hth, CollapsedMargin.zero, CollapsedMargin.solve]
        · refine ⟨?_, ?_, fun _ => hcur, ?_, ?_⟩
          · simp [anySolid, hsol, hcoll, hc]
          · simp [lastEnd, hi.position]
          · intro h; simp [hc] at h
          · simp only [hcoll, List.map_cons, headMargins, hsol]
            exact (hst.adjoin' h1).adjoin' h2
      | false =>
        refine ⟨{ collapses := false, startMargin := st.startMargin.adjoin m.start,
                  currentMargin := m.«end»,
                  position := g.borderRect.size.block }, ?_, ?_⟩
        · simp [placeFragment, hc, hcur, hth, CollapsedMargin.zero, CollapsedMargin.solve, hpos,
            BoxGeom.borderRect_block, Rect.addBlock]
        · refine ⟨?_, ?_, ?_, ?_, ?_⟩
          · simp [anySolid]
          · simp [lastEnd]
          · simp
          · intro _; simpa [tailMargins] using h2
          · simp only [hcoll, List.map_cons, headMargins, hsol]
            exact hst.adjoin' h1
    | false =>
      have hcur := hi.tail hc
      have hsol : (coll && !anySolid (P.map (·.1))) = false := by rw [← hi.collapses, hc]
      have hoff : childOffset coll P (some ⟨top, bottom, m.collapsedThrough, g.borderRect.size.block⟩)
          = lastEnd P + jointMargin (top ++ tailMargins (P.map (·.1))) := by
        simp [childOffset, hsol]
      have hj := hcur.adjoin' h1
      have hst : st.startMargin.Is (if coll then headMargins (some
          ⟨top, bottom, m.collapsedThrough, g.borderRect.size.block⟩ :: P.map (·.1)) else []) := by
        have := hi.start
        cases coll with
        | false => exact this
        | true =>
          simp only [Bool.true_and, Bool.not_eq_false'] at hsol
          simpa [headMargins, hsol] using this
      rw [hoff]
      cases hth : m.collapsedThrough with
      | true =>
        rw [hth] at hst
        refine ⟨{ st with currentMargin := (st.currentMargin.adjoin m.start).adjoin m.«end» }, ?_, ?_⟩
        · simp [placeFragment, hc, hth, Fragment.translateBlock, hj.solve, hi.position, add_comm]
        · refine ⟨?_, ?_, ?_, ?_, hst⟩
          · simpa [anySolid, hc] using hsol.symm
          · simp [lastEnd, hi.position]
          · simp [hc]
          · intro _; simpa [tailMargins] using hj.adjoin' h2
      | false =>
        rw [hth] at hst
        refine ⟨{ collapses := false, startMargin := st.startMargin,
                  currentMargin := m.«end»,
                  position := lastEnd P + jointMargin (top ++ tailMargins (P.map (·.1))) +
                    g.borderRect.size.block }, ?_, ?_⟩
        · simp [placeFragment, hc, hth, Fragment.translateBlock, hj.solve, hi.position,
            BoxGeom.borderRect_block, add_comm, add_left_comm]
        · refine ⟨?_, ?_, ?_, ?_, hst⟩
          · simp [anySolid]
          · simp [lastEnd]
          · simp
          · intro _; simpa [tailMargins] using h2

/-- moves the fragments by the given amounts -/
def moveAll (fs : List Fragment) (ds : List Length) : List Fragment :=
  List.zipWith (fun f d => f.translateBlock d) fs ds

theorem placeAll_spec {coll : Bool} {fs : List Fragment} {cs : List Child}
    (hf : List.Forall₂ IsChild fs cs) : ∀ {P : List (Child × Length)} {st : PlacementState},
    PlacedInv coll P st → Stacked coll P →
    ∃ ds st', ds.length = fs.length ∧ placeAll st fs = .ok (moveAll fs ds, st') ∧
      PlacedInv coll ((cs.zip ds).reverse ++ P) st' ∧ Stacked coll ((cs.zip ds).reverse ++ P) := by
  induction hf with
  | nil => intro P st hi hs; exact ⟨[], st, rfl, rfl, by simpa using hi, by simpa using hs⟩
  | @cons f c fs cs h _ ih =>
    intro P st hi hs
    obtain ⟨st1, h1, h2⟩ := placeFragment_step hi h
    obtain ⟨ds, st2, h3, h4, h5, h6⟩ := ih h2 ⟨rfl, hs⟩
    refine ⟨childOffset coll P c :: ds, st2, by simp [h3], ?_, by simpa using h5, by simpa using h6⟩
    simp [placeAll, h1, h4, bind, Except.bind, pure, Except.pure, moveAll]

/-! ## Layout completes -/

/-- layout of block-level boxes that need at most fuel `n` -/
def BoxGood (n : Nat) (boxL : BoxLayout) : Prop :=
  ∀ b cb rank, BlockLevelBox.sound b → b.depth ≤ n → ContainingBlock.standard cb →
    ∃ f new, (∀ abs fl, boxL b cb rank abs fl = .ok (f, abs ++ new)) ∧ (∃ c, IsChild f c) ∧
      AbsReady n rank new

/-- layout of absolutely positioned boxes that need at most fuel `n` -/
def AbsGood (n : Nat) (absL : AbsLayout) : Prop :=
  ∀ (a : AbsFragment) (cb : DefiniteContainingBlock), a.contents.sound → a.contents.depth + 1 ≤ n →
    cb.mode = (.horizontalTb, .ltr) → ∃ f, absL a cb = .ok f

/-- the boxes, numbered from `k`, are laid out to the fragments, with the absolutely
positioned boxes in the last argument -/
inductive LaidOut (boxL : BoxLayout) (cb : ContainingBlock) :
    Nat → List BlockLevelBox → List Fragment → List AbsFragment → Prop
  | nil {k} : LaidOut boxL cb k [] [] []
  | cons {k b bs f fs new news} : (∀ abs fl, boxL b cb k abs fl = .ok (f, abs ++ new)) →
    LaidOut boxL cb (k + 1) bs fs news → LaidOut boxL cb k (b :: bs) (f :: fs) (new ++ news)

theorem LaidOut.layoutEach {boxL : BoxLayout} {cb : ContainingBlock} {k bs fs new}
    (h : LaidOut boxL cb k bs fs new) (abs : List AbsFragment) :
    layoutEach boxL cb k bs abs = .ok (fs, abs ++ new) := by
  induction h generalizing abs with
  | nil => simp [Sinab.layoutEach]
  | cons h1 _ ih => simp [Sinab.layoutEach, h1, ih, bind, Except.bind, pure, Except.pure]

theorem LaidOut.layoutAndPlaceEach {boxL : BoxLayout} {cb : ContainingBlock} {k bs fs new}
    (h : LaidOut boxL cb k bs fs new) (abs : List AbsFragment) {st fs' st'}
    (hp : placeAll st fs = .ok (fs', st')) :
    layoutAndPlaceEach boxL cb k bs abs st = .ok (fs', abs ++ new, st') := by
  induction h generalizing abs st fs' st' with
  | nil =>
    simp only [placeAll] at hp
    injection hp with hp
    injection hp with h1 h2
    subst h1 h2
    simp [Sinab.layoutAndPlaceEach]
  | @cons k b bs f fs new news h1 _ ih =>
    simp only [placeAll, bind_eq_ok] at hp
    obtain ⟨⟨f1, st1⟩, h2, ⟨fs1, st2⟩, h3, h4⟩ := hp
    injection h4 with h4
    injection h4 with h4 h5
    subst h4 h5
    simp only at h3
    simp only [Sinab.layoutAndPlaceEach, h1, bind, Except.bind, h2, pure, Except.pure]
    rw [ih _ h3]
    simp

theorem LaidOut.length {boxL : BoxLayout} {cb : ContainingBlock} {k bs fs new}
    (h : LaidOut boxL cb k bs fs new) : fs.length = bs.length := by
  induction h with
  | nil => rfl
  | cons _ _ ih => simp [ih]

theorem LaidOut.get {boxL cb k bs fs abs} (h : LaidOut boxL cb k bs fs abs) (floats : Bool) :
    ∀ (i : Nat) b f, bs[i]? = some b → fs[i]? = some f →
      ∃ new, boxL b cb (k + i) [] floats = .ok (f, new) := by
  induction h with
  | nil => intro i b f hb; simp at hb
  | @cons k b bs f fs new news h1 _ ih =>
    intro i b' f' hb hf
    cases i with
    | zero =>
      simp only [List.getElem?_cons_zero, Option.some.injEq] at hb hf
      subst hb hf
      exact ⟨_, h1 [] floats⟩
    | succ i =>
      simp only [List.getElem?_cons_succ] at hb hf
      obtain ⟨new, h⟩ := ih i b' f' hb hf
      exact ⟨new, by rw [← h]; congr 1; omega⟩

theorem exists_laidOut {n : Nat} {boxL : BoxLayout} (hb : BoxGood n boxL) {cb : ContainingBlock}
    (hcb : cb.standard) : ∀ (bs : List BlockLevelBox) (k : Nat), blockSound bs → blockDepth bs ≤ n →
    ∃ fs new cs, LaidOut boxL cb k bs fs new ∧ List.Forall₂ IsChild fs cs ∧
      ∀ a ∈ new, k ≤ a.treeRank ∧ a.treeRank < k + bs.length ∧ a.contents.sound ∧
        a.contents.depth + 1 ≤ n := by
  intro bs
  induction bs with
  | nil => intro k _ _; exact ⟨[], [], [], .nil, .nil, by simp⟩
  | cons b bs ih =>
    intro k hs hd
    simp only [blockDepth, max_le_iff] at hd
    obtain ⟨f, new, h1, ⟨c, h2⟩, h3⟩ := hb b cb k hs.1 hd.1 hcb
    obtain ⟨fs, news, cs, h4, h5, h6⟩ := ih (k + 1) hs.2 hd.2
    refine ⟨f :: fs, new ++ news, c :: cs, .cons h1 h4, .cons h2 h5, ?_⟩
    intro a ha
    simp only [List.length_cons]
    rcases List.mem_append.1 ha with ha | ha
    · have := h3 a ha
      exact ⟨this.1.ge, by omega, this.2⟩
    · have := h6 a ha
      exact ⟨by omega, by omega, this.2.2⟩

/-- the origin of the fragment that a static position refers to -/
def Fragment.origin : Fragment → Vec2 Length
  | .box _ g _ _ => g.contentRect.startCorner
  | .anonymous r _ _ => r.startCorner
  | .text _ r _ => r.startCorner

/-- not a text fragment -/
def Fragment.notText : Fragment → Prop
  | .text .. => False
  | _ => True

/-- an absolutely positioned fragment with its static position moved -/
def AbsFragment.moved (a : AbsFragment) (rank : Nat) (by' : Vec2 Length) : AbsFragment :=
  { a with
    treeRank := rank
    inlineStart := a.inlineStart.moveStatic by'.inline
    blockStart := a.blockStart.moveStatic by'.block }

theorem adjustStaticPositions_ok {children : List Fragment} (hc : ∀ f ∈ children, f.notText)
    (rank : Nat) : ∀ (as : List AbsFragment), (∀ a ∈ as, a.treeRank < children.length) →
    adjustStaticPositions children rank as = .ok (as.map fun a =>
      a.moved rank ((children[a.treeRank]?.map Fragment.origin).getD Vec2.zero)) := by
  intro as
  induction as with
  | nil => intro _; rfl
  | cons a as ih =>
    intro h
    have ha := h a (by simp)
    have hg : children[a.treeRank]? = some children[a.treeRank] := List.getElem?_eq_getElem ha
    have hn := hc _ (List.getElem_mem ha)
    have h1 : adjustStaticPosition children rank a = .ok
        (a.moved rank ((children[a.treeRank]?.map Fragment.origin).getD Vec2.zero)) := by
      unfold adjustStaticPosition
      rw [hg]
      cases hf : children[a.treeRank] with
      | box => rfl
      | anonymous => rfl
      | text => rw [hf] at hn; exact hn.elim
    rw [adjustStaticPositions, h1, ih (fun b hb => h b (by simp [hb]))]
    rfl

theorem isChild_notText {f : Fragment} {c : Child} (h : IsChild f c) (d : Length) :
    (f.translateBlock d).notText := by
  cases h <;> exact trivial

theorem moveAll_length {fs : List Fragment} {ds : List Length} (h : ds.length = fs.length) :
    (moveAll fs ds).length = fs.length := by simp [moveAll, h]

theorem moveAll_notText {fs : List Fragment} {cs : List Child} (h : List.Forall₂ IsChild fs cs)
    (ds : List Length) : ∀ f ∈ moveAll fs ds, f.notText := by
  induction h generalizing ds with
  | nil => simp [moveAll]
  | @cons f c fs cs h1 _ ih =>
    cases ds with
    | nil => simp [moveAll]
    | cons d ds =>
      intro g hg
      simp only [moveAll, List.zipWith_cons_cons, List.mem_cons] at hg
      rcases hg with rfl | hg
      · exact isChild_notText h1 d
      · exact ih ds g hg

/-- what the layout of the children of a block container is -/
structure ChildrenLaidOut (boxL : BoxLayout) (bs : List BlockLevelBox) (cb : ContainingBlock)
    (rank : Nat) (coll : Bool) (fc : FlowChildren) (new : List AbsFragment) where
  /-- the fragments before they are placed -/
  fs : List Fragment
  cs : List Child
  ds : List Length
  abs : List AbsFragment
  laidOut : LaidOut boxL cb 0 bs fs abs
  isChild : List.Forall₂ IsChild fs cs
  length : ds.length = fs.length
  fragments : fc.fragments = moveAll fs ds
  stacked : Stacked coll (cs.zip ds).reverse
  blockSize : fc.blockSize = lastEnd (cs.zip ds).reverse
  through : fc.margins.collapsedThrough = (coll && !anySolid cs.reverse)
  start : fc.margins.start.Is (if coll then headMargins cs.reverse else [])
  «end» : fc.margins.«end».Is (if coll && !anySolid cs.reverse then [] else tailMargins cs.reverse)
  new : new = abs.map fun a =>
    a.moved rank ((fc.fragments[a.treeRank]?.map Fragment.origin).getD Vec2.zero)
  ranks : ∀ a ∈ abs, a.treeRank < bs.length

theorem layoutBlockLevelChildren_good {n : Nat} {boxL : BoxLayout} (hb : BoxGood n boxL)
    {cb : ContainingBlock} (hcb : cb.standard) (bs : List BlockLevelBox) (hs : blockSound bs)
    (hd : blockDepth bs ≤ n) (rank : Nat) (coll : Bool) :
    ∃ fc new, (∀ abs fl, layoutBlockLevelChildren boxL bs cb rank abs fl coll = .ok (fc, abs ++ new)) ∧
      AbsReady n rank new ∧ Nonempty (ChildrenLaidOut boxL bs cb rank coll fc new) := by
  obtain ⟨fs, new, cs, h1, h2, h3⟩ := exists_laidOut hb hcb bs 0 hs hd
  obtain ⟨ds, st', h4, h5, h6, h7⟩ := placeAll_spec h2 (PlacedInv.init coll) trivial
  rw [List.append_nil] at h6 h7
  have hlen : (moveAll fs ds).length = bs.length := by rw [moveAll_length h4, h1.length]
  have hadj := adjustStaticPositions_ok (moveAll_notText h2 ds) rank new (fun a ha => by
    have := h3 a ha; omega)
  have hcs : ((cs.zip ds).reverse.map (·.1)) = cs.reverse := by
    have hl : cs.length ≤ ds.length := by rw [h4, h2.length_eq]
    rw [List.map_reverse, List.map_fst_zip hl]
  refine ⟨⟨moveAll fs ds, st'.position, ⟨st'.collapses, st'.startMargin, st'.currentMargin⟩⟩, _,
    ?_, ?_, ⟨⟨fs, cs, ds, new, h1, h2, h4, rfl, h7, h6.position, ?_, ?_, ?_, rfl, ?_⟩⟩⟩
  · intro abs fl
    unfold layoutBlockLevelChildren
    cases fl with
    | true =>
      simp only [if_true, h1.layoutAndPlaceEach abs h5, bind, Except.bind]
      rw [List.drop_left, hadj]
      simp [pure, Except.pure]
    | false =>
      simp only [Bool.false_eq_true, if_false, h1.layoutEach abs, bind, Except.bind, h5, pure,
        Except.pure]
      rw [List.drop_left, hadj]
      simp
  · intro a ha
    simp only [List.mem_map] at ha
    obtain ⟨b, hb1, rfl⟩ := ha
    exact ⟨rfl, (h3 b hb1).2.2⟩
  · simpa [hcs] using h6.collapses
  · simpa [hcs] using h6.start
  · have hc := h6.collapses
    rw [hcs] at hc
    cases h : st'.collapses with
    | true =>
      rw [← hc, h, if_pos rfl]
      show st'.currentMargin.Is []
      rw [h6.current h]
      exact CollapsedMargin.is_zero
    | false =>
      have := h6.tail h
      rw [hcs] at this
      rw [← hc, h]
      exact this
  · intro a ha
    have := h3 a ha
    omega

/-- margins that stand for collections -/
def CollapsedBlockMargins.Good (m : CollapsedBlockMargins) : Prop :=
  (∃ l, m.start.Is l) ∧ ∃ l, m.«end».Is l

theorem ChildrenLaidOut.good {boxL bs cb rank coll fc new}
    (h : ChildrenLaidOut boxL bs cb rank coll fc new) : fc.margins.Good :=
  ⟨⟨_, h.start⟩, ⟨_, h.«end»⟩⟩

theorem zero_good : CollapsedBlockMargins.zero.Good :=
  ⟨⟨[], CollapsedMargin.is_zero⟩, ⟨[], CollapsedMargin.is_zero⟩⟩

theorem containerLayout_good (E : TextEnv) {n : Nat} {boxL : BoxLayout} (hb : BoxGood n boxL)
    {cb : ContainingBlock} (hcb : cb.standard) (c : BlockContainer) (hs : c.sound)
    (hd : c.depth ≤ n) (rank : Nat) (coll : Bool) :
    ∃ fc new, (∀ abs fl, containerLayout E boxL c cb rank abs fl coll = .ok (fc, abs ++ new)) ∧
      AbsReady n rank new ∧ fc.margins.Good := by
  cases c with
  | blockLevelBoxes bs =>
    obtain ⟨fc, new, h1, h2, ⟨h3⟩⟩ := layoutBlockLevelChildren_good hb hcb bs hs hd rank coll
    exact ⟨fc, new, h1, h2, h3.good⟩
  | inlineFormattingContext st bs =>
    obtain ⟨L, new, _, h1, h2, _⟩ := ifcLayout_good E st bs cb rank hs
    refine ⟨_, new, fun abs _ => h1 abs, h2.mono hd, zero_good⟩

theorem bfcLayout_good (E : TextEnv) {n : Nat} {boxL : BoxLayout} (hb : BoxGood n boxL)
    {cb : ContainingBlock} (hcb : cb.standard) (c : Bfc) (hs : c.sound)
    (hd : c.depth ≤ n) (rank : Nat) :
    ∃ fc new, (∀ abs, bfcLayout E boxL c cb rank abs = .ok (fc, abs ++ new)) ∧
      AbsReady n rank new ∧ fc.margins.Good := by
  obtain ⟨c, fl⟩ := c
  obtain ⟨fc, new, h1, h2, h3⟩ := containerLayout_good E hb hcb c hs hd rank false
  refine ⟨⟨fc.fragments, fc.blockSize + fc.margins.«end».solve, ⟨false, fc.margins.start, .zero⟩⟩,
    new, fun abs => ?_, h2, ?_⟩
  · simp only [bfcLayout, Bfc.contents, Bfc.containsFloats, h1, bind, Except.bind, pure, Except.pure]
  · exact ⟨h3.1, ⟨[], CollapsedMargin.is_zero⟩⟩

theorem layoutAbsEach_good {n : Nat} {absL : AbsLayout} (ha : AbsGood n absL)
    {cb : DefiniteContainingBlock} (hcb : cb.mode = (.horizontalTb, .ltr)) {rank : Nat} :
    ∀ (as : List AbsFragment), AbsReady n rank as → ∃ fs, layoutAbsEach absL cb as = .ok fs := by
  intro as
  induction as with
  | nil => intro _; exact ⟨[], rfl⟩
  | cons a as ih =>
    intro h
    have h0 := h a (by simp)
    obtain ⟨f, h1⟩ := ha a cb h0.2.1 h0.2.2 hcb
    obtain ⟨fs, h2⟩ := ih (fun b hb => h b (by simp [hb]))
    exact ⟨f :: fs, by simp [layoutAbsEach, h1, h2, bind, Except.bind, pure, Except.pure]⟩

theorem inPositioned_good {n : Nat} {absL : AbsLayout} (ha : AbsGood n absL) {rank : Nat}
    (as : List AbsFragment) (h : AbsReady n rank as) (fs : List Fragment) (size : Vec2 Length)
    (padding : Sides Length) :
    ∃ out, inPositionedContainingBlock absL as fs size padding (.horizontalTb, .ltr) =
      .ok (fs ++ out) := by
  unfold inPositionedContainingBlock
  split
  · exact ⟨[], by simp⟩
  · obtain ⟨gs, h1⟩ := layoutAbsEach_good ha (cb := ⟨((Rect.mk Vec2.zero size).inflate padding).size,
      (.horizontalTb, .ltr)⟩) rfl as h
    exact ⟨[_], by simp only [h1, bind, Except.bind, pure, Except.pure]; rfl⟩

theorem collapse_good (s : InFlowSizes) (fc : FlowChildren) (h : fc.margins.Good) :
    (collapseWithChildren s fc).1.Good := by
  obtain ⟨⟨l1, h1⟩, ⟨l2, h2⟩⟩ := h
  constructor
  · simp only [collapseWithChildren]
    split
    · split
      · exact ⟨_, ((CollapsedMargin.is_new _).adjoin h1).adjoin h2⟩
      · exact ⟨_, (CollapsedMargin.is_new _).adjoin h1⟩
    · exact ⟨_, CollapsedMargin.is_new _⟩
  · simp only [collapseWithChildren]
    split
    · split
      · exact ⟨_, (CollapsedMargin.is_new _).adjoin CollapsedMargin.is_zero⟩
      · exact ⟨_, (CollapsedMargin.is_new _).adjoin h2⟩
    · exact ⟨_, CollapsedMargin.is_new _⟩

/-- the result of laying out an in-flow block, given its contents -/
theorem layoutInFlow_good {n : Nat} {absL : AbsLayout} (ha : AbsGood n absL)
    {cb : ContainingBlock} (hcb : cb.standard) (style : Style) (kind : BlockLevelKind) (rank : Nat)
    (contents : ContainingBlock → List AbsFragment → Bool →
      Except Panic (FlowChildren × List AbsFragment)) {fc : FlowChildren} {new : List AbsFragment}
    (hc : ∀ abs, contents ⟨(inFlowSizes cb style kind).inlineSize, (inFlowSizes cb style kind).blockSize,
      (.horizontalTb, .ltr)⟩ abs (inFlowSizes cb style kind).startCollapses = .ok (fc, abs ++ new))
    (hr : AbsReady n rank new) :
    ∃ rect extra out, (∀ abs, layoutInFlow absL cb abs style kind contents =
        .ok (.box style ⟨rect, (inFlowSizes cb style kind).padding, (inFlowSizes cb style kind).border,
            (inFlowSizes cb style kind).margin⟩
          (collapseWithChildren (inFlowSizes cb style kind) fc).1 (fc.fragments ++ extra), abs ++ out)) ∧
      AbsReady n rank out ∧
      rect.size = ⟨(inFlowSizes cb style kind).inlineSize,
        (inFlowSizes cb style kind).blockSize.autoIs (collapseWithChildren (inFlowSizes cb style kind) fc).2⟩ ∧
      rect.startCorner = ⟨(inFlowSizes cb style kind).pb.inlineStart +
          (relativeAdjustement style (inFlowSizes cb style kind).inlineSize
            (inFlowSizes cb style kind).blockSize).inline + (inFlowSizes cb style kind).margin.inlineStart,
        (inFlowSizes cb style kind).pb.blockStart +
          (relativeAdjustement style (inFlowSizes cb style kind).inlineSize
            (inFlowSizes cb style kind).blockSize).block⟩ ∧
      (Position.isRelativelyPositioned (style.val .position) = false → extra = [] ∧ out = new) ∧
      (Position.isRelativelyPositioned (style.val .position) = true → out = [] ∧
        inPositionedContainingBlock absL new fc.fragments rect.size
          (inFlowSizes cb style kind).padding (.horizontalTb, .ltr) = .ok (fc.fragments ++ extra)) := by
  have hm : ¬ (cb.mode ≠ (.horizontalTb, .ltr)) := by
    rw [not_not]; exact hcb
  have hcb' : (Style.writingMode style) = (.horizontalTb, .ltr) := rfl
  cases hp : Position.isRelativelyPositioned (style.val .position) with
  | false =>
    refine ⟨⟨_, _⟩, [], new, fun abs => ?_, hr, rfl, rfl, by simp, by simp⟩
    unfold layoutInFlow
    simp only [hcb', hp, Bool.false_eq_true, if_false, hc, bind, Except.bind, pure, Except.pure,
      List.append_nil]
    rw [if_neg hm]
  | true =>
    obtain ⟨extra, h1⟩ := inPositioned_good ha new hr fc.fragments
      ⟨(inFlowSizes cb style kind).inlineSize,
        (inFlowSizes cb style kind).blockSize.autoIs (collapseWithChildren (inFlowSizes cb style kind) fc).2⟩
      (inFlowSizes cb style kind).padding
    refine ⟨⟨_, _⟩, extra, [], fun abs => ?_, by simp [AbsReady], rfl, rfl, by simp,
      fun _ => ⟨rfl, h1⟩⟩
    unfold layoutInFlow
    simp only [hcb', hp, if_true, hc, bind, Except.bind, pure, Except.pure, List.nil_append,
      List.append_nil, h1]
    rw [if_neg hm]

theorem isChild_of_good (style : Style) (g : BoxGeom) (m : CollapsedBlockMargins)
    (children : List Fragment) (h : m.Good) : ∃ c, IsChild (.box style g m children) c := by
  obtain ⟨⟨l1, h1⟩, ⟨l2, h2⟩⟩ := h
  exact ⟨_, .box h1 h2⟩

theorem boxLayoutWith_good (E : TextEnv) {n : Nat} {boxL : BoxLayout} {absL : AbsLayout}
    (hb : BoxGood n boxL) (ha : AbsGood n absL) : BoxGood (n + 1) (boxLayoutWith E boxL absL) := by
  intro b cb rank hs hd hcb
  cases b with
  | sameFormattingContextBlock st c =>
    simp only [BlockLevelBox.depth] at hd
    obtain ⟨fc, new, h1, h2, h3⟩ := containerLayout_good E hb
      (cb := ⟨(inFlowSizes cb st .sameFormattingContextBlock).inlineSize,
        (inFlowSizes cb st .sameFormattingContextBlock).blockSize, (.horizontalTb, .ltr)⟩) rfl c hs
      (by omega) rank (inFlowSizes cb st .sameFormattingContextBlock).startCollapses
    have hc : ∀ fl, ∀ abs, (fun cb nested collapsible =>
        containerLayout E boxL c cb rank nested fl collapsible)
        ⟨(inFlowSizes cb st .sameFormattingContextBlock).inlineSize,
        (inFlowSizes cb st .sameFormattingContextBlock).blockSize, (.horizontalTb, .ltr)⟩ abs
        (inFlowSizes cb st .sameFormattingContextBlock).startCollapses = .ok (fc, abs ++ new) :=
      fun fl abs => h1 abs fl
    -- the contents may be laid out with any float context: all give the same result
    obtain ⟨rect, extra, out, h4, h5, h6, h7, h8, h9⟩ := layoutInFlow_good ha hcb st
      .sameFormattingContextBlock rank
      (fun cb nested collapsible => containerLayout E boxL c cb rank nested false collapsible)
      (hc false) h2
    have hall : ∀ abs fl, boxLayoutWith E boxL absL (.sameFormattingContextBlock st c) cb rank abs fl =
        layoutInFlow absL cb abs st .sameFormattingContextBlock
        (fun cb nested collapsible => containerLayout E boxL c cb rank nested false collapsible) := by
      intro abs fl
      simp only [boxLayoutWith]
      unfold layoutInFlow
      have hcb' : (Style.writingMode st) = (.horizontalTb, .ltr) := rfl
      simp only [hcb', h1]
    exact ⟨_, out, fun abs fl => (hall abs fl).trans (h4 abs),
      isChild_of_good _ _ _ _ (collapse_good _ _ h3), h5.mono (Nat.le_succ n)⟩
  | independent st c =>
    simp only [BlockLevelBox.depth] at hd
    obtain ⟨fc, new, h1, h2, h3⟩ := bfcLayout_good E hb
      (cb := ⟨(inFlowSizes cb st .establishesAnIndependentFormattingContext).inlineSize,
        (inFlowSizes cb st .establishesAnIndependentFormattingContext).blockSize,
        (.horizontalTb, .ltr)⟩) rfl c hs (by omega) rank
    obtain ⟨rect, extra, out, h4, h5, h6, h7, h8, h9⟩ := layoutInFlow_good ha hcb st
      .establishesAnIndependentFormattingContext rank
      (fun cb nested _ => bfcLayout E boxL c cb rank nested) h1 h2
    exact ⟨_, out, fun abs fl => h4 abs, isChild_of_good _ _ _ _ (collapse_good _ _ h3),
      h5.mono (Nat.le_succ n)⟩
  | outOfFlowAbsolutelyPositionedBox st c =>
    refine ⟨Fragment.noOp cb.mode, [layoutAbsBox st c Vec2.zero rank], fun abs fl => rfl,
      ⟨none, .out rfl⟩, ?_⟩
    intro a ha
    rw [List.mem_singleton] at ha
    subst ha
    exact ⟨rfl, hs, hd⟩
  | outOfFlowFloatBox st c =>
    exact ⟨Fragment.noOp cb.mode, [], fun abs fl => by simp [boxLayoutWith], ⟨none, .out rfl⟩,
      by simp [AbsReady]⟩

theorem absLayoutWith_good (E : TextEnv) {n : Nat} {boxL : BoxLayout} {absL : AbsLayout}
    (hb : BoxGood n boxL) (ha : AbsGood n absL) : AbsGood (n + 1) (absLayoutWith E boxL absL) := by
  intro a cb hs hd hcb
  obtain ⟨fc, new, h1, h2, h3⟩ := bfcLayout_good E hb
    (cb := ⟨(absSizes a cb).inlineSize, (absSizes a cb).blockSize, (.horizontalTb, .ltr)⟩) rfl
    a.contents hs (by omega) 0
  obtain ⟨out, h4⟩ := inPositioned_good ha new h2 fc.fragments
    ((absSizes a cb).contentRect cb ((absSizes a cb).blockSize.autoIs fc.blockSize)).size
    (absSizes a cb).padding
  have hm : ¬ (cb.mode ≠ (.horizontalTb, .ltr)) := by rw [not_not]; exact hcb
  have hcb' : (Style.writingMode a.style) = (.horizontalTb, .ltr) := rfl
  refine ⟨.box a.style ⟨(absSizes a cb).contentRect cb ((absSizes a cb).blockSize.autoIs fc.blockSize),
    (absSizes a cb).padding, (absSizes a cb).border, (absSizes a cb).margin⟩ .zero
    (fc.fragments ++ out), ?_⟩
  unfold absLayoutWith
  simp only [hcb', h1, bind, Except.bind, List.nil_append, h4, pure, Except.pure]
  rw [if_neg hm]

theorem layout_good (E : TextEnv) : ∀ n, BoxGood n (boxLayout E n) ∧ AbsGood n (absLayout E n) := by
  intro n
  induction n with
  | zero =>
    constructor
    · intro b cb rank _ hd
      cases b <;> simp [BlockLevelBox.depth] at hd
    · intro a cb _ hd
      omega
  | succ n ih =>
    rw [boxLayout, absLayout]
    exact ⟨boxLayoutWith_good E ih.1 ih.2, absLayoutWith_good E ih.1 ih.2⟩

end Sinab
